import Verif.Lemmas.Reduce
import Verif.Props.C11_Red

/-! C85: the standard reduction functions. -/

namespace Marcel
namespace Reduce
open Op

/-- The names of the standard reduction functions (grouping, `.`, apart). -/
def standard : List String := ["+", "*", "^", "&", "|", "and", "or", "max", "min", "count", "concat"]

/-- `r` is the result of reducing each column of `xs` with the function named for it. -/
def Reduced (names : List String) (xs : List (List Val)) (r : List Val) : Prop :=
  r.length = names.length ∧
  ∀ (i : Nat) s v, names[i]? = some s → r[i]? = some v → Result s (column i xs) v

/-! ### Lemmas -/

theorem mapM_get {α β : Type} (f : α → Option β) (xs : List α) (ys : List β) (h : xs.mapM f = some ys) :
    ys.length = xs.length ∧ ∀ (i : Nat) x, xs[i]? = some x → ∃ y, ys[i]? = some y ∧ f x = some y := by
  induction xs generalizing ys with
  | nil => simp at h; subst h; simp
  | cons x xs ih =>
    rw [List.mapM_cons] at h
    cases hx : f x with
    | none => rw [hx] at h; cases h
    | some y =>
      rw [hx] at h
      cases hxs : xs.mapM f with
      | none => rw [hxs] at h; cases h
      | some zs =>
        rw [hxs] at h
        have h : some (y :: zs) = some ys := h
        cases h
        obtain ⟨h1, h2⟩ := ih zs hxs
        refine ⟨by simp [h1], ?_⟩
        intro i z hz
        cases i with
        | zero => simp at hz; subst hz; exact ⟨y, by simp, hx⟩
        | succ i => simp at hz; simpa using h2 i z hz

theorem standard_not_group (vars : String → Option (RedFn Val)) (s : String) (hs : s ∈ standard) :
    function vars s ≠ some .group := by
  simp only [standard, List.mem_cons, List.not_mem_nil, or_false] at hs
  rcases hs with rfl | rfl | rfl | rfl | rfl | rfl | rfl | rfl | rfl | rfl | rfl <;> simp [function, symbols]

theorem period_group (vars : String → Option (RedFn Val)) : function vars "." = some .group := by
  simp [function, symbols]

theorem functions_all (vars : String → Option (RedFn Val)) (names : List String)
    (hs : ∀ s ∈ names, s = "." ∨ s ∈ standard) : ∃ fs, functions vars names = some fs := by
  induction names with
  | nil => exact ⟨[], rfl⟩
  | cons s names ih =>
    obtain ⟨fs, hfs⟩ := ih (fun t ht => hs t (List.mem_cons_of_mem _ ht))
    have : ∃ f, function vars s = some f := by
      have h := hs s (by simp)
      simp only [standard, List.mem_cons, List.not_mem_nil, or_false] at h
      rcases h with rfl | rfl | rfl | rfl | rfl | rfl | rfl | rfl | rfl | rfl | rfl | rfl <;>
        exact ⟨_, by simp [function, symbols]; rfl⟩
    obtain ⟨f, hf⟩ := this
    refine ⟨f :: fs, ?_⟩
    unfold functions at *
    rw [List.mapM_cons, hf, hfs]; rfl

theorem reduced_folds (vars : String → Option (RedFn Val)) (names : List String) (fs : List (RedFn Val))
    (hfs : functions vars names = some fs) (hs : ∀ s ∈ names, s ∈ standard) (xs : List (List Val)) (r : List Val)
    (hr : Reduced names xs r) : FoldsTo Val.none (Val.int 0) fs xs r := by
  obtain ⟨hlen, hget⟩ := mapM_get _ _ _ hfs
  refine ⟨by rw [hr.1, hlen], ?_⟩
  intro i c f v hf hv
  have hi : i < names.length := by rw [← hr.1]; exact (List.getElem?_eq_some_iff.1 hv).1
  have hn : names[i]? = some names[i] := List.getElem?_eq_getElem hi
  obtain ⟨g, hg, hg'⟩ := hget i _ hn
  rw [hf] at hg; cases hg
  exact (fold_result names[i] c f vars hg' (hs _ (List.getElem_mem hi)) _ v (hr.2 i _ v hn hv)).2

theorem no_group (vars : String → Option (RedFn Val)) (names : List String) (fs : List (RedFn Val))
    (hfs : functions vars names = some fs) (hs : ∀ s ∈ names, s ∈ standard) : ∀ g ∈ fs, g ≠ .group := by
  obtain ⟨hlen, hget⟩ := mapM_get _ _ _ hfs
  intro g hg hgg
  obtain ⟨i, hi, rfl⟩ := List.getElem_of_mem hg
  have hi' : i < names.length := by rw [← hlen]; exact hi
  obtain ⟨g', hg', hf⟩ := hget i _ (List.getElem?_eq_getElem hi')
  rw [List.getElem?_eq_getElem hi] at hg'; cases hg'
  rw [hgg] at hf
  exact standard_not_group vars _ (hs _ (List.getElem_mem hi')) hf

/-! ### Theorems -/

/-- **C85.** `red` with names of standard functions: all of them are found, whatever variables there are; on rows that
are long enough, one row with the results, column by column; nothing else. -/
theorem C85_red (vars : String → Option (RedFn Val)) (names : List String) (hs : ∀ s ∈ names, s ∈ standard)
    (xs : List (List Val)) (hlong : ∀ x ∈ xs, names.length ≤ x.length) (r : List Val) (hr : Reduced names xs r) :
    ∃ fs, functions vars names = some fs ∧ redIsGrouping fs = false ∧
      (redOp Val.none (Val.int 0) false fs).run (ofItems xs) = ([.item r, .flush], none) := by
  obtain ⟨fs, hfs⟩ := functions_all vars names (fun s h => Or.inr (hs s h))
  have hng := no_group vars names fs hfs hs
  have hlen := (mapM_get _ _ _ hfs).1
  refine ⟨fs, hfs, (C13_choice fs).2 hng, ?_⟩
  exact (C11_red _ _ fs xs r hng (fun x hx => by rw [hlen]; exact hlong x hx)
    (reduced_folds vars names fs hfs hs xs r hr)).2.1

/-- **C85.** `red -i`: each row is sent at once, followed by the results for the rows so far. -/
theorem C85_incremental (vars : String → Option (RedFn Val)) (names : List String) (hs : ∀ s ∈ names, s ∈ standard)
    (xs : List (List Val)) (hlong : ∀ x ∈ xs, names.length ≤ x.length) (R : Nat → List Val)
    (hr : ∀ j, j ≤ xs.length → Reduced names (xs.take j) (R j)) :
    ∃ fs, functions vars names = some fs ∧ redIsGrouping fs = false ∧
      (redOp Val.none (Val.int 0) true fs).run (ofItems xs) =
        (ofItems ((List.range xs.length).map fun i => xs[i]?.getD [] ++ R (i+1)) ++ [.flush], none) := by
  obtain ⟨fs, hfs⟩ := functions_all vars names (fun s h => Or.inr (hs s h))
  have hng := no_group vars names fs hfs hs
  have hlen := (mapM_get _ _ _ hfs).1
  refine ⟨fs, hfs, (C13_choice fs).2 hng, ?_⟩
  have hfolds := fun j hj => reduced_folds vars names fs hfs hs (xs.take j) (R j) (hr j hj)
  have hend := hfolds xs.length (Nat.le_refl _)
  rw [List.take_length] at hend
  obtain ⟨Q, hQ, hrun⟩ := C11_red_incremental _ _ fs xs (R xs.length) hng
    (fun x hx => by rw [hlen]; exact hlong x hx) hend
  rw [hrun]
  congr 3
  apply List.map_congr_left
  intro i hi
  have hi : i < xs.length := List.mem_range.1 hi
  rw [(hQ (i+1) hi).unique hng (hfolds (i+1) hi)]

/-- The row that grouping gives for a group: the results for its data columns, the group's value in the others. -/
def ReducedGroup (names : List String) (xs : List (List Val)) (r : List Val) : Prop :=
  r.length = names.length ∧
  ∀ (i : Nat) s v, names[i]? = some s → r[i]? = some v →
    if s = "." then ∀ x ∈ xs, x[i]? = some v else Result s (column i xs) v

/-- The values of a row at the places marked with a period. -/
def groupKey (names : List String) (x : List Val) : List Val :=
  (List.range names.length).filterMap fun i => if names[i]? = some "." then x[i]? else none

theorem keyOf_names (vars : String → Option (RedFn Val)) (names : List String) (fs : List (RedFn Val))
    (hfs : functions vars names = some fs) (hs : ∀ s ∈ names, s = "." ∨ s ∈ standard) (x : List Val) :
    keyOf fs x = groupKey names x := by
  obtain ⟨hlen, hget⟩ := mapM_get _ _ _ hfs
  unfold keyOf groupKey
  rw [hlen]
  apply filterMap_congr'
  intro i hi
  have hi : i < names.length := List.mem_range.1 hi
  obtain ⟨g, hg, hg'⟩ := hget i _ (List.getElem?_eq_getElem hi)
  rw [hg]
  rcases hs _ (List.getElem_mem hi) with h | h
  · rw [h] at hg'
    rw [period_group] at hg'; cases hg'
    rw [if_pos (by rw [List.getElem?_eq_getElem hi, h])]
  · have hne : names[i] ≠ "." := by
      intro hc; rw [hc] at h; exact absurd h (by decide)
    rw [if_neg (by rw [List.getElem?_eq_getElem hi]; simpa using hne)]
    cases g with
    | group => exact absurd hg' (standard_not_group vars _ h)
    | fn c f => rfl

theorem column_ne_nil (i : Nat) (xs : List (List Val)) (x : List Val) (hx : x ∈ xs) (hi : i < x.length) :
    column i xs ≠ [] := by
  intro hc
  have : x[i] ∈ column i xs := List.mem_filterMap.2 ⟨x, hx, List.getElem?_eq_getElem hi⟩
  rw [hc] at this; simp at this

/-- **C85.** `red` with grouping: one row for each group, in the order of first appearance, with the results for the
rows of the group. -/
theorem C85_group (vars : String → Option (RedFn Val)) (names : List String)
    (hs : ∀ s ∈ names, s = "." ∨ s ∈ standard) (hg : "." ∈ names)
    (xs : List (List Val)) (hlong : ∀ x ∈ xs, names.length ≤ x.length) (R : List Val → List Val)
    (hR : ∀ x ∈ xs, ReducedGroup names (xs.filter fun y => groupKey names y = groupKey names x) (R (groupKey names x))) :
    ∃ fs, functions vars names = some fs ∧ redIsGrouping fs = true ∧
      (redGroupOp Val.none false fs).run (ofItems xs) =
        (ofItems ((firstOccurrences (xs.map (groupKey names))).map R) ++ [.flush], none) := by
  obtain ⟨fs, hfs⟩ := functions_all vars names hs
  obtain ⟨hlen, hget⟩ := mapM_get _ _ _ hfs
  have hkey : keyOf fs = groupKey names := funext (keyOf_names vars names fs hfs hs)
  refine ⟨fs, hfs, ?_, ?_⟩
  · rcases Bool.eq_false_or_eq_true (redIsGrouping fs) with h | h
    · exact h
    · obtain ⟨i, hi, hi'⟩ := List.getElem_of_mem hg
      obtain ⟨g, hgi, hg'⟩ := hget i "." (by rw [List.getElem?_eq_getElem hi, hi'])
      rw [period_group] at hg'; cases hg'
      exact absurd rfl ((C13_choice fs).1 h _ (List.mem_of_getElem? hgi))
  · have := (C13_group Val.none fs xs R (fun x hx => by rw [hlen]; exact hlong x hx) ?_).2.1
    · rw [hkey] at this; exact this
    · intro k hk
      rw [hkey] at hk
      obtain ⟨x, hx, rfl⟩ := List.mem_map.1 hk
      have hr := hR x hx
      have hgi : groupItems fs xs (groupKey names x) = xs.filter fun y => groupKey names y = groupKey names x := by
        unfold groupItems; rw [hkey]
      rw [hgi]
      have hmem : x ∈ xs.filter fun y => groupKey names y = groupKey names x := List.mem_filter.2 ⟨hx, by simp⟩
      refine ⟨by rw [hr.1, hlen], ?_, ?_⟩
      · intro i c f v hf hv
        have hi : i < names.length := by rw [← hr.1]; exact (List.getElem?_eq_some_iff.1 hv).1
        have hn : names[i]? = some names[i] := List.getElem?_eq_getElem hi
        obtain ⟨g, hg, hg'⟩ := hget i _ hn
        rw [hf] at hg; cases hg
        have hne : names[i] ≠ "." := by
          intro hc; rw [hc, period_group] at hg'; cases hg'
        have h1 := hr.2 i _ v hn hv
        rw [if_neg hne] at h1
        exact (fold_result names[i] c f vars hg' ((hs _ (List.getElem_mem hi)).resolve_left hne) _ v h1).1
          (column_ne_nil i _ x hmem (Nat.lt_of_lt_of_le hi (hlong x hx)))
      · intro i hf y hy
        have hi : i < names.length := by rw [← hlen]; exact (List.getElem?_eq_some_iff.1 hf).1
        have hn : names[i]? = some names[i] := List.getElem?_eq_getElem hi
        obtain ⟨g, hg, hg'⟩ := hget i _ hn
        rw [hf] at hg; cases hg
        have hd : names[i] = "." := by
          rcases hs _ (List.getElem_mem hi) with h | h
          · exact h
          · exact absurd hg' (standard_not_group vars _ h)
        have hri : i < (R (groupKey names x)).length := by rw [hr.1]; exact hi
        have h1 := hr.2 i _ _ hn (List.getElem?_eq_getElem hri)
        rw [if_pos hd] at h1
        rw [h1 y hy, List.getElem?_eq_getElem hri]

/-- **C85.** `squish`: a row that is not empty becomes the result for its elements. -/
theorem C85_squish (vars : String → Option (RedFn Val)) (s : String) (hs : s ∈ standard) (x : List Val) (hx : x ≠ [])
    (v : Val) (hr : Result s x v) :
    ∃ c f, function vars s = some (.fn c f) ∧ squish f x = .ok v := by
  obtain ⟨fs, hfs⟩ := functions_all vars [s] (fun t ht => Or.inr (by simp at ht; subst ht; exact hs))
  obtain ⟨_, hget⟩ := mapM_get _ _ _ hfs
  obtain ⟨g, _, hg⟩ := hget 0 s rfl
  cases g with
  | group => exact absurd hg (standard_not_group vars s hs)
  | fn c f => exact ⟨c, f, hg, (fold_result s c f vars hg hs x v hr).1 hx⟩

/-- **C85 is false of the code**: None in the middle makes `and` forget what was before: False is not forgotten, but
(5, None, True) gives True. -/
theorem C85_false_and (vars : String → Option (RedFn Val)) : ∃ f, function vars "and" = some (.fn false f) ∧
    (redOp Val.none (Val.int 0) false [.fn false f]).run (ofItems [[.int 5], [.none], [.bool true]]) =
      ([.item [.bool true], .flush], none) ∧ Falsy .none :=
  ⟨rAnd, by simp [function, symbols], rfl, .none⟩

/-- **C85 is false of the code**: a None at the beginning is left out by `+`, one that comes later is an error. -/
theorem C85_false_none (vars : String → Option (RedFn Val)) : ∃ f, function vars "+" = some (.fn false f) ∧
    (redOp Val.none (Val.int 0) false [.fn false f]).run (ofItems [[.none], [.int 5]]) =
      ([.item [.int 5], .flush], none) ∧
    (redOp Val.none (Val.int 0) false [.fn false f]).run (ofItems [[.int 5], [.none]]) =
      ([.err "TypeError", .item [.int 5], .flush], none) :=
  ⟨rPlus, by simp [function, symbols], rfl, rfl⟩

/-- **C85 is false of the code**: `squish count` of an empty row is None, not 0. -/
theorem C85_false_count (vars : String → Option (RedFn Val)) : ∃ f, function vars "count" = some (.fn true f) ∧
    squish f [] = .ok .none ∧ Result "count" [] (.int 0) :=
  ⟨rCount, by simp [function, symbols], rfl, .count⟩

/-! ### List objects -/

/-- The function that a column has if list objects are taken for values. -/
def ObjFn.plain : ObjFn → RedFn Val
  | .concat => .fn false rConcat
  | .pure c f => .fn c f

/-- The objects in the accumulators exist and are different ones. -/
def Good (h : Heap) (acc : List Slot) : Prop :=
  acc.Pairwise (fun s t => ∀ a, s = .obj a → t ≠ .obj a) ∧ ∀ a, Slot.obj a ∈ acc → a < h.length

theorem look_congr (h h' : Heap) (acc : List Slot) (he : ∀ a, Slot.obj a ∈ acc → h'[a]? = h[a]?) :
    acc.map (Slot.look h') = acc.map (Slot.look h) := by
  apply List.map_congr_left
  intro s hs
  cases s with
  | val v => rfl
  | obj a => simp [Slot.look, he a hs]

theorem concat_call (h : Heap) (s : Slot) (v : Val) (hs : ∀ a, s = .obj a → a < h.length) :
    match concatObj h s v with
    | .error m => rConcat (s.look h) v = .error m
    | .ok (h', s') => rConcat (s.look h) v = .ok (s'.look h') ∧ h.length ≤ h'.length ∧
        (∀ a, s' = .obj a → a < h'.length ∧ (s = .obj a ∨ h.length ≤ a)) ∧
        (∀ a, a < h.length → s ≠ .obj a → h'[a]? = h[a]?) := by
  cases s with
  | val w =>
    cases w with
    | none =>
      simp only [concatObj]
      refine ⟨by simp [Slot.look, rConcat], by simp, ?_, ?_⟩
      · intro a ha; cases ha; simp
      · intro a ha _; rw [List.getElem?_append_left ha]
    | list ys =>
      simp only [concatObj]
      refine ⟨by simp [Slot.look, rConcat], by simp, ?_, ?_⟩
      · intro a ha; cases ha; simp
      · intro a ha _; rw [List.getElem?_append_left ha]
    | _ => simp [concatObj, Slot.look, rConcat]
  | obj b =>
    have hb := hs b rfl
    simp only [concatObj]
    refine ⟨by simp [Slot.look, rConcat, hb], by simp, ?_, ?_⟩
    · intro a ha; cases ha; simp [hb]
    · intro a ha hne
      rw [List.getElem?_set_ne]
      intro hc; exact hne (by rw [hc])

theorem obj_call (f : ObjFn) (h : Heap) (s : Slot) (v : Val) (hs : ∀ a, s = .obj a → a < h.length) :
    ∃ c g, f.plain = .fn c g ∧
    match f.call h s v with
    | .error m => g (s.look h) v = .error m
    | .ok (h', s') => g (s.look h) v = .ok (s'.look h') ∧ h.length ≤ h'.length ∧
        (∀ a, s' = .obj a → a < h'.length ∧ (s = .obj a ∨ h.length ≤ a)) ∧
        (∀ a, a < h.length → s ≠ .obj a → h'[a]? = h[a]?) := by
  cases f with
  | concat => exact ⟨false, rConcat, rfl, concat_call h s v hs⟩
  | pure c g =>
    refine ⟨c, g, rfl, ?_⟩
    cases hg : g (s.look h) v with
    | error m =>
      have : (ObjFn.pure c g).call h s v = .error m := by simp [ObjFn.call, hg]
      rw [this]
    | ok w =>
      have : (ObjFn.pure c g).call h s v = .ok (h, .val w) := by simp [ObjFn.call, hg]
      rw [this]
      refine ⟨by simp [Slot.look], Nat.le_refl _, ?_, ?_⟩
      · intro a ha; cases ha
      · intro a _ _; rfl

theorem objLoop_spec (fs : List ObjFn) (h : Heap) (acc : List Slot) (x : List Val) (hg : Good h acc) :
    let r := objLoop fs h acc x
    redLoop (fs.map ObjFn.plain) (acc.map (Slot.look h)) x = (r.2.1.map (Slot.look r.1), r.2.2) ∧
    Good r.1 r.2.1 ∧ h.length ≤ r.1.length ∧
    (∀ a, a < h.length → Slot.obj a ∉ acc → r.1[a]? = h[a]?) ∧
    (∀ a, Slot.obj a ∈ r.2.1 → Slot.obj a ∈ acc ∨ h.length ≤ a) := by
  induction fs generalizing h acc x with
  | nil => exact ⟨by simp [objLoop, redLoop], hg, Nat.le_refl _, fun _ _ _ => rfl, fun a ha => Or.inl ha⟩
  | cons f fs ih =>
    cases acc with
    | nil =>
      refine ⟨?_, hg, Nat.le_refl _, fun _ _ _ => rfl, fun a ha => Or.inl ha⟩
      obtain ⟨c, g, hf, _⟩ := obj_call f h (.val .none) .none (by intro a ha; cases ha)
      simp [objLoop, redLoop, hf]
    | cons s acc =>
      cases x with
      | nil =>
        refine ⟨?_, hg, Nat.le_refl _, fun _ _ _ => rfl, fun a ha => Or.inl ha⟩
        obtain ⟨c, g, hf, _⟩ := obj_call f h (.val .none) .none (by intro a ha; cases ha)
        simp [objLoop, redLoop, hf]
      | cons v x =>
        have hs : ∀ a, s = .obj a → a < h.length := fun a ha => hg.2 a (by rw [ha]; simp)
        have hp := List.pairwise_cons.1 hg.1
        obtain ⟨c, g, hf, hcall⟩ := obj_call f h s v hs
        cases hc : f.call h s v with
        | error m =>
          rw [hc] at hcall
          simp only at hcall
          simp only [objLoop, hc]
          refine ⟨by simp [redLoop, hf, hcall], hg, Nat.le_refl _, fun _ _ _ => trivial, fun a ha => Or.inl ha⟩
        | ok p =>
          obtain ⟨h1, s1⟩ := p
          rw [hc] at hcall
          simp only at hcall
          obtain ⟨hval, hle, hnew, hkeep⟩ := hcall
          have hne : ∀ a, Slot.obj a ∈ acc → s ≠ .obj a := by
            intro a ha hsa; exact hp.1 _ ha a hsa rfl
          have hlt : ∀ a, Slot.obj a ∈ acc → a < h.length := fun a ha => hg.2 a (List.mem_cons_of_mem _ ha)
          have hlook : acc.map (Slot.look h1) = acc.map (Slot.look h) :=
            look_congr _ _ _ (fun a ha => hkeep a (hlt a ha) (hne a ha))
          have hgood1 : Good h1 acc := ⟨hp.2, fun a ha => Nat.lt_of_lt_of_le (hlt a ha) hle⟩
          have hs1 : ∀ a, s1 = .obj a → a < h1.length ∧ Slot.obj a ∉ acc := by
            intro a ha
            refine ⟨(hnew a ha).1, fun hc => ?_⟩
            rcases (hnew a ha).2 with h' | h'
            · exact hne a hc h'
            · have := hlt a hc; omega
          obtain ⟨i1, i2, i3, i4, i5⟩ := ih h1 acc x hgood1
          simp only [objLoop, hc]
          generalize objLoop fs h1 acc x = r at i1 i2 i3 i4 i5
          refine ⟨?_, ⟨List.pairwise_cons.2 ⟨?_, i2.1⟩, ?_⟩, Nat.le_trans hle i3, ?_, ?_⟩
          · simp only [List.map_cons, hf, redLoop, hval]
            rw [← hlook, i1]
            simp only [Prod.mk.injEq, List.cons.injEq, and_true]
            cases s1 with
            | val w => rfl
            | obj a =>
              have := i4 a (hs1 a rfl).1 (hs1 a rfl).2
              simp [Slot.look, this]
          · intro t ht a ha hta
            subst hta
            rcases i5 a ht with h' | h'
            · exact (hs1 a ha).2 h'
            · have := (hs1 a ha).1; omega
          · intro a ha
            rcases List.mem_cons.1 ha with ha | ha
            · exact Nat.lt_of_lt_of_le (hs1 a ha.symm).1 i3
            · exact i2.2 a ha
          · intro a ha hna
            rw [List.mem_cons, not_or] at hna
            rw [i4 a (Nat.lt_of_lt_of_le ha hle) hna.2, hkeep a ha (fun hc => hna.1 hc.symm)]
          · intro a ha
            rcases List.mem_cons.1 ha with ha | ha
            · rcases (hnew a ha.symm).2 with h' | h'
              · exact Or.inl (by rw [h']; simp)
              · exact Or.inr h'
            · rcases i5 a ha with h' | h'
              · exact Or.inl (List.mem_cons_of_mem _ h')
              · exact Or.inr (by omega)

theorem objRun_spec (fs : List ObjFn) (h : Heap) (acc : List Slot) (xs : List (List Val)) (hg : Good h acc) :
    ((redOp Val.none (Val.int 0) true (fs.map ObjFn.plain)).feed (some (acc.map (Slot.look h))) (ofItems xs)).out =
      foundAtOnce (objRun fs h acc xs) ∧
    ((redOp Val.none (Val.int 0) true (fs.map ObjFn.plain)).feed (some (acc.map (Slot.look h))) (ofItems xs)).exn = none := by
  induction xs generalizing h acc with
  | nil => simp [ofItems, feed_nil, foundAtOnce, objRun]
  | cons x xs ih =>
    rw [show ofItems (x :: xs) = .item x :: ofItems xs from rfl, feed_cons, step_item]
    unfold objRun
    by_cases hx : x.length < fs.length
    · rw [if_pos hx]
      have hstep : (redOp Val.none (Val.int 0) true (fs.map ObjFn.plain)).item (some (acc.map (Slot.look h))) x =
          fatal (some (acc.map (Slot.look h))) "Input too short." := by
        simp [redOp, hx]
      rw [hstep]
      have := ih h acc hg
      simp only [foundAtOnce] at this ⊢
      simp [catchKare, fatal, this.1, this.2, found]
    · rw [if_neg hx]
      obtain ⟨h1, h2, _⟩ := objLoop_spec fs h acc x hg
      generalize objLoop fs h acc x = r at h1 h2
      obtain ⟨h', acc', e⟩ := r
      have hi := ih h' acc' h2
      simp only at h1
      cases e with
      | some m =>
        have hstep : (redOp Val.none (Val.int 0) true (fs.map ObjFn.plain)).item (some (acc.map (Slot.look h))) x =
            fatal (some (acc'.map (Slot.look h'))) m := by
          simp only [redOp, List.length_map, hx, if_false, h1]
        rw [hstep]
        simp only [foundAtOnce] at hi ⊢
        simp [catchKare, fatal, hi.1, hi.2, found]
      | none =>
        have hstep : (redOp Val.none (Val.int 0) true (fs.map ObjFn.plain)).item (some (acc.map (Slot.look h))) x =
            ⟨some (acc'.map (Slot.look h')), [.item (x ++ acc'.map (Slot.look h'))], none⟩ := by
          simp only [redOp, List.length_map, hx, if_false, h1, if_true]
        rw [hstep]
        simp only [foundAtOnce] at hi ⊢
        simp [catchKare, hi.1, hi.2, found]

theorem start_look (fs : List ObjFn) :
    (fs.map ObjFn.start).map (Slot.look []) = (fs.map ObjFn.plain).map (RedFn.start Val.none (Val.int 0)) := by
  rw [List.map_map, List.map_map]
  apply List.map_congr_left
  intro f _
  cases f with
  | concat => rfl
  | pure c f => cases c <;> rfl

theorem start_good (fs : List ObjFn) : Good [] (fs.map ObjFn.start) := by
  have : ∀ a, Slot.obj a ∉ fs.map ObjFn.start := by
    intro a ha
    obtain ⟨f, _, hf⟩ := List.mem_map.1 ha
    cases f with
    | concat => cases hf
    | pure c f => cases c <;> cases hf
  refine ⟨?_, fun a ha => absurd ha (this a)⟩
  apply List.pairwise_of_forall_mem_list
  intro s hs t _ a ha
  subst ha
  exact absurd hs (this a)

/-- **C85.** With the list objects of `concat` in view: a receiver that looks at each row of `red -i` as it arrives finds
what the model of values says (so `C85_incremental` applies), for all functions and all rows, also those that fail. -/
theorem C85_at_once (fs : List ObjFn) (xs : List (List Val)) :
    (redOp Val.none (Val.int 0) true (fs.map ObjFn.plain)).run (ofItems xs) =
      (foundAtOnce (objRun fs [] (fs.map ObjFn.start) xs) ++ [.flush], none) := by
  have h := objRun_spec fs [] (fs.map ObjFn.start) xs (start_good fs)
  rw [start_look] at h
  rw [run_ofItems _ _ h.2]
  have h1 : (redOp Val.none (Val.int 0) true (fs.map ObjFn.plain)).init =
      some ((fs.map ObjFn.plain).map (RedFn.start Val.none (Val.int 0))) := rfl
  rw [h1, h.1]
  cases (feed _ _ _).st <;> rfl

theorem no_objects (fs : List ObjFn) (hf : ObjFn.concat ∉ fs) (h : Heap) (acc : List Slot) (x : List Val)
    (ha : ∀ a, Slot.obj a ∉ acc) : (objLoop fs h acc x).1 = h ∧ ∀ a, Slot.obj a ∉ (objLoop fs h acc x).2.1 := by
  induction fs generalizing acc x with
  | nil => exact ⟨rfl, ha⟩
  | cons f fs ih =>
    cases acc with
    | nil => exact ⟨rfl, ha⟩
    | cons s acc => cases x with
      | nil => exact ⟨rfl, ha⟩
      | cons v x =>
        cases f with
        | concat => exact absurd (by simp) hf
        | pure c g =>
          simp only [objLoop, ObjFn.call]
          cases hg : g (s.look h) v with
          | error m => exact ⟨rfl, ha⟩
          | ok w =>
            have := ih (fun hc => hf (List.mem_cons_of_mem _ hc)) acc x (fun a hc => ha a (List.mem_cons_of_mem _ hc))
            refine ⟨this.1, ?_⟩
            intro a hc
            rcases List.mem_cons.1 hc with hc | hc
            · cases hc
            · exact this.2 a hc

theorem no_objects_run (fs : List ObjFn) (hf : ObjFn.concat ∉ fs) (h : Heap) (acc : List Slot) (xs : List (List Val))
    (ha : ∀ a, Slot.obj a ∉ acc) : ∀ e ∈ (objRun fs h acc xs).1, e.1 = h ∧ (objRun fs h acc xs).2 = h := by
  induction xs generalizing acc with
  | nil => intro e he; simp [objRun] at he
  | cons x xs ih =>
    have hend : ∀ (acc : List Slot), (∀ a, Slot.obj a ∉ acc) → (objRun fs h acc xs).2 = h := by
      clear ih
      induction xs with
      | nil => intro acc _; rfl
      | cons y ys ih' =>
        intro acc ha
        unfold objRun
        by_cases hy : y.length < fs.length
        · rw [if_pos hy]; exact ih' acc ha
        · rw [if_neg hy]
          have hl := no_objects fs hf h acc y ha
          generalize objLoop fs h acc y = r at hl
          obtain ⟨h', acc', e⟩ := r
          obtain ⟨hh, hl⟩ := hl
          simp only at hh hl
          subst hh
          cases e <;> exact ih' acc' hl
    intro e he
    unfold objRun at he ⊢
    by_cases hx : x.length < fs.length
    · rw [if_pos hx] at he ⊢
      rcases List.mem_cons.1 he with rfl | he
      · exact ⟨rfl, hend acc ha⟩
      · exact ih acc ha e he
    · rw [if_neg hx] at he ⊢
      have hl := no_objects fs hf h acc x ha
      generalize objLoop fs h acc x = r at hl he
      obtain ⟨h', acc', e'⟩ := r
      obtain ⟨hh, hl⟩ := hl
      simp only at hh hl
      subst hh
      cases e' with
      | some m =>
        rcases List.mem_cons.1 he with rfl | he
        · exact ⟨rfl, hend acc' hl⟩
        · exact ih acc' hl e he
      | none =>
        rcases List.mem_cons.1 he with rfl | he
        · exact ⟨rfl, hend acc' hl⟩
        · exact ih acc' hl e he

/-- **C85 (partial).** Rows of `red -i` that are kept stay as they were, if `concat` is not used. -/
theorem C85_kept_partial (fs : List ObjFn) (hf : ObjFn.concat ∉ fs) (xs : List (List Val)) :
    foundAtEnd (objRun fs [] (fs.map ObjFn.start) xs) = foundAtOnce (objRun fs [] (fs.map ObjFn.start) xs) := by
  unfold foundAtEnd foundAtOnce
  apply List.map_congr_left
  intro e he
  have ha : ∀ a, Slot.obj a ∉ fs.map ObjFn.start := by
    intro a hc
    have := (start_good fs).2 a hc
    simp at this
  obtain ⟨h1, h2⟩ := no_objects_run fs hf [] (fs.map ObjFn.start) xs ha e he
  rw [h1, h2]

theorem concat_run (ys : List Val) (xs : List (List Val)) (hx : ∀ x ∈ xs, x ≠ []) :
    (objRun [.concat] [ys] [.obj 0] xs).1.map (·.2) = xs.map (fun x => .item (x, [.obj 0])) ∧
    (objRun [.concat] [ys] [.obj 0] xs).2 = [ys ++ column 0 xs] := by
  induction xs generalizing ys with
  | nil => simp [objRun, column]
  | cons x xs ih =>
    cases x with
    | nil => exact absurd rfl (hx [] (by simp))
    | cons v x =>
      have := ih (ys ++ [v]) (fun z hz => hx z (List.mem_cons_of_mem _ hz))
      have hl : objLoop [.concat] [ys] [.obj 0] (v :: x) = ([ys ++ [v]], [.obj 0], none) := by
        simp [objLoop, ObjFn.call, concatObj]
      unfold objRun
      rw [if_neg (by simp), hl]
      simp only [List.map_cons, this.1, this.2, true_and]
      simp [column]

/-- **C85 is false of the code**: `red -i concat` sends the same list object each time, so that a receiver that keeps the
rows finds the complete list in every one of them. -/
theorem C85_false_kept (xs : List (List Val)) (hx : ∀ x ∈ xs, x ≠ []) :
    foundAtEnd (objRun [.concat] [] [ObjFn.start .concat] xs) =
      xs.map fun x => .item (x ++ [.list (column 0 xs)]) := by
  cases xs with
  | nil => rfl
  | cons x xs =>
    cases x with
    | nil => exact absurd rfl (hx [] (by simp))
    | cons v x =>
      have := concat_run [v] xs (fun z hz => hx z (List.mem_cons_of_mem _ hz))
      have hl : objLoop [.concat] [] [ObjFn.start .concat] (v :: x) = ([[v]], [.obj 0], none) := rfl
      unfold foundAtEnd objRun
      rw [if_neg (by simp), hl]
      simp only [List.map_cons]
      have hmap : ∀ (l : List (Heap × Ev (List Val × List Slot))) (h : Heap),
          l.map (fun e => found h e.2) = (l.map (·.2)).map (found h) := by
        intro l h; rw [List.map_map]; rfl
      rw [hmap, this.1, this.2, List.map_map]
      have hc : column 0 ((v :: x) :: xs) = v :: column 0 xs := by simp [column]
      rw [hc]
      congr 1

/-! ### Examples -/

/-- `red + max count concat` on (1, 'b', None, 7), (2, 'a', 5, None). -/
example : Reduced ["+", "max", "count", "concat"]
    [[.int 1, .str ['b'], .none, .int 7], [.int 2, .str ['a'], .int 5, .none]]
    [.int 3, .str ['b'], .int 2, .list [.int 7, .none]] := by
  refine ⟨rfl, ?_⟩
  intro i s v hs hv
  match i with
  | 0 => simp at hs hv; subst hs; subst hv; exact Result.sum (ns := [1, 2]) (by simp)
  | 1 =>
    simp at hs hv; subst hs; subst hv
    refine Result.last (ss := [['b'], ['a']]) (by simp) ?_
    intro s hs hb
    have := (strLess_iff _ _).2 hb
    simp at hs
    rcases hs with rfl | rfl
    · rw [strLess_irrefl] at this; cases this
    · exact absurd this (by decide)
  | 2 => simp at hs hv; subst hs; subst hv; exact Result.count (xs := [.none, .int 5])
  | 3 => simp at hs hv; subst hs; subst hv; exact Result.concat (xs := [.int 7, .none]) (by simp)
  | n+4 => simp at hs

/-- The bits of 12 & 10 are those of 8, of -1 ^ 5 those of -6. -/
example : intAnd 12 10 = 8 ∧ intXor (-1) 5 = -6 ∧ intOr (-8) 3 = -5 := by decide

/-- Two groups. -/
example : ReducedGroup [".", "count"] ([[.int 1, .none], [.int 2, .none], [.int 1, .none]].filter
    fun y => groupKey [".", "count"] y = [.int 1]) [.int 1, .int 2] := by
  have : ([[.int 1, .none], [.int 2, .none], [.int 1, .none]].filter
    fun y => decide (groupKey [".", "count"] y = [.int 1])) = [[.int 1, .none], [.int 1, .none]] := by decide +kernel
  rw [this]
  refine ⟨rfl, ?_⟩
  intro i s v hs hv
  match i with
  | 0 => simp at hs hv; subst hs; subst hv; simp
  | 1 =>
    simp at hs hv; subst hs; subst hv
    rw [if_neg (by decide)]
    exact Result.count (xs := [.none, .none])
  | n+2 => simp at hs

example : foundAtOnce (objRun [.concat] [] [ObjFn.start .concat] [[.int 1], [.int 2]]) =
    [.item [.int 1, .list [.int 1]], .item [.int 2, .list [.int 1, .int 2]]] ∧
  foundAtEnd (objRun [.concat] [] [ObjFn.start .concat] [[.int 1], [.int 2]]) =
    [.item [.int 1, .list [.int 1, .int 2]], .item [.int 2, .list [.int 1, .int 2]]] := ⟨rfl, rfl⟩

end Reduce
end Marcel
