import Verif.Model.Red
import Verif.Lemmas.Dict
import Verif.Lemmas.Stream
import Verif.Props.C02_Isolation
import Verif.Props.C07_Unique

/-! C11-C13: red. -/

namespace Marcel
open Op

variable {V τ γ : Type}

/-! ### Specification -/

/-- The `i`-th column of some items. -/
def column (i : Nat) (xs : List (List V)) : List V := xs.filterMap (·[i]?)

/-- `r` consists of the left folds of the columns of `xs`, each with its function, starting from
None, or 0 for count. No function raises on the way. -/
def FoldsTo (none0 zero : V) (fs : List (RedFn V)) (xs : List (List V)) (r : List V) : Prop :=
  r.length = fs.length ∧ ∀ (i : Nat) isCount f v, fs[i]? = some (.fn isCount f) → r[i]? = some v →
    (column i xs).foldlM f (if isCount then zero else none0) = .ok v

/-- The grouping value of an item: its components at the grouping positions. -/
def keyOf (fs : List (RedFn V)) (x : List V) : List V :=
  (List.range fs.length).filterMap fun i => match fs[i]? with
    | some .group => x[i]?
    | _ => none

/-- The components of `x` at the positions that are not grouping positions. -/
def dataPart (fs : List (RedFn V)) (x : List V) : List V :=
  (List.range fs.length).filterMap fun i => match fs[i]? with
    | some (.fn _ _) => x[i]?
    | _ => none

/-- `r` is the tuple for a group of items `xs`: folds (starting from None) at the data positions, the
group's value at the grouping positions. -/
def GroupFoldsTo (none0 : V) (fs : List (RedFn V)) (xs : List (List V)) (r : List V) : Prop :=
  r.length = fs.length ∧
  (∀ (i : Nat) isCount f v, fs[i]? = some (.fn isCount f) → r[i]? = some v →
    (column i xs).foldlM f none0 = .ok v) ∧
  (∀ i : Nat, fs[i]? = some .group → ∀ x ∈ xs, r[i]? = x[i]?)

/-- The items of `xs` with grouping value `k`. -/
def groupItems [DecidableEq V] (fs : List (RedFn V)) (xs : List (List V)) (k : List V) : List (List V) :=
  xs.filter fun x => keyOf fs x = k

/-! ### Lemmas -/

theorem redLoop_ok (fs : List (RedFn V)) (acc x acc' : List V) (h1 : acc.length = fs.length)
    (h2 : fs.length ≤ x.length) (h3 : acc'.length = fs.length)
    (hf : ∀ (i : Nat) c f a v a', fs[i]? = some (.fn c f) → acc[i]? = some a → x[i]? = some v →
      acc'[i]? = some a' → f a v = .ok a')
    (hg : ∀ i : Nat, fs[i]? = some .group → acc'[i]? = x[i]?) :
    redLoop fs acc x = (acc', none) := by
  induction fs generalizing acc x acc' with
  | nil =>
    have : acc = [] := by simpa using h1
    have h' : acc' = [] := by simpa using h3
    subst this h'
    rfl
  | cons g fs ih =>
    cases acc with
    | nil => simp at h1
    | cons a acc =>
      cases x with
      | nil => simp at h2
      | cons v x =>
        cases acc' with
        | nil => simp at h3
        | cons a' acc' =>
          have := ih acc x acc' (by simpa using h1) (by simpa using h2) (by simpa using h3)
            (fun i c f a v b h => hf (i+1) c f a v b (by simpa using h))
            (fun i h => hg (i+1) (by simpa using h))
          cases g with
          | group =>
            have h0 := hg 0 (by simp)
            simp at h0
            simp [redLoop, this, h0]
          | fn c f =>
            have h0 := hf 0 c f a v a' (by simp) (by simp) (by simp) (by simp)
            simp [redLoop, this, h0]

theorem column_snoc (i : Nat) (xs : List (List V)) (x : List V) (v : V) (h : x[i]? = some v) :
    column i (xs ++ [x]) = column i xs ++ [v] := by
  simp [column, h]

theorem foldlM_snoc_ok (f : V → V → Except Msg V) (l : List V) (s v r : V)
    (h : (l ++ [v]).foldlM f s = .ok r) : ∃ a, l.foldlM f s = .ok a ∧ f a v = .ok r := by
  rw [List.foldlM_append] at h
  cases h1 : l.foldlM f s with
  | error m => rw [h1] at h; cases h
  | ok a =>
    refine ⟨a, rfl, ?_⟩
    rw [h1] at h
    change (f a v >>= pure) = _ at h
    rwa [bind_pure] at h

theorem FoldsTo.snoc {none0 zero : V} {fs : List (RedFn V)} {xs : List (List V)} {x r acc : List V}
    (hx : fs.length ≤ x.length) (hng : ∀ g ∈ fs, g ≠ .group)
    (hr : FoldsTo none0 zero fs (xs ++ [x]) r) (ha : FoldsTo none0 zero fs xs acc) :
    redLoop fs acc x = (r, none) := by
  apply redLoop_ok _ _ _ _ ha.1 hx hr.1
  · intro i c f a v a' hfi hai hxi hri
    have h1 := hr.2 i c f a' hfi hri
    rw [column_snoc _ _ _ _ hxi] at h1
    obtain ⟨b, hb, hb'⟩ := foldlM_snoc_ok _ _ _ _ _ h1
    have h2 := ha.2 i c f a hfi hai
    rw [h2] at hb; cases hb
    exact hb'
  · intro i hi
    exact absurd rfl (hng _ (List.mem_of_getElem? hi))

/-- Folds of a stream determine folds of its prefixes (no function raised on the way). -/
theorem FoldsTo.prefix {none0 zero : V} {fs : List (RedFn V)} {xs : List (List V)} {x r : List V}
    (hx : fs.length ≤ x.length) (hng : ∀ g ∈ fs, g ≠ .group)
    (hr : FoldsTo none0 zero fs (xs ++ [x]) r) : ∃ acc, FoldsTo none0 zero fs xs acc := by
  have key : ∀ i, i < fs.length → ∃ a, ∀ c f, fs[i]? = some (.fn c f) →
      (column i xs).foldlM f (if c then zero else none0) = .ok a := by
    intro i hi
    rcases hfi : fs[i]? with _ | g
    · simp at hfi; omega
    · cases g with
      | group => exact absurd rfl (hng _ (List.mem_of_getElem? hfi))
      | fn c f =>
        have hri : r[i]? = some (r[i]'(by rw [hr.1]; exact hi)) := List.getElem?_eq_getElem _
        have h1 := hr.2 i c f _ hfi hri
        rw [column_snoc _ _ _ (x[i]'(by omega)) (List.getElem?_eq_getElem _)] at h1
        obtain ⟨b, hb, _⟩ := foldlM_snoc_ok _ _ _ _ _ h1
        exact ⟨b, fun c' f' h => by cases h; exact hb⟩
  obtain ⟨l, hl, hP⟩ := exists_list _ _ key
  exact ⟨l, hl, fun i c f v hfi hv => hP i v hv c f hfi⟩

theorem FoldsTo.nil (none0 zero : V) (fs : List (RedFn V)) :
    FoldsTo none0 zero fs [] (fs.map (RedFn.start none0 zero)) := by
  refine ⟨by simp, ?_⟩
  intro i c f v hfi hv
  simp [hfi] at hv
  subst hv
  cases c <;> rfl

theorem FoldsTo.unique {none0 zero : V} {fs : List (RedFn V)} {xs : List (List V)} {r r' : List V}
    (hng : ∀ g ∈ fs, g ≠ .group)
    (h : FoldsTo none0 zero fs xs r) (h' : FoldsTo none0 zero fs xs r') : r = r' := by
  apply List.ext_getElem? 
  intro i
  rcases Nat.lt_or_ge i fs.length with hi | hi
  · have hr : r[i]? = some (r[i]'(by rw [h.1]; exact hi)) := List.getElem?_eq_getElem _
    have hr' : r'[i]? = some (r'[i]'(by rw [h'.1]; exact hi)) := List.getElem?_eq_getElem _
    rcases hfi : fs[i]? with _ | g
    · simp at hfi; omega
    · cases g with
      | group => exact absurd rfl (hng _ (List.mem_of_getElem? hfi))
      | fn c f =>
        have a := h.2 i c f _ hfi hr
        have b := h'.2 i c f _ hfi hr'
        rw [a] at b
        rw [hr, hr']; congr 1; exact Except.ok.inj b
  · rw [List.getElem?_eq_none (by rw [h.1]; exact hi), List.getElem?_eq_none (by rw [h'.1]; exact hi)]

/-- All prefixes of a stream whose columns can be folded have folds; collected in one function. -/
theorem FoldsTo.prefixes {none0 zero : V} {fs : List (RedFn V)} (xs : List (List V)) {r : List V}
    (hlong : ∀ x ∈ xs, fs.length ≤ x.length) (hng : ∀ g ∈ fs, g ≠ .group)
    (hr : FoldsTo none0 zero fs xs r) :
    ∃ R : Nat → List V, ∀ j, j ≤ xs.length → FoldsTo none0 zero fs (xs.take j) (R j) := by
  have : ∀ j, j ≤ xs.length → ∃ r, FoldsTo none0 zero fs (xs.take j) r := by
    intro j
    generalize hd : xs.length - j = d
    induction d generalizing j with
    | zero => intro hj; exact ⟨r, by rwa [List.take_of_length_le (by omega)]⟩
    | succ d ih =>
      intro hj
      obtain ⟨r', hr'⟩ := ih (j+1) (by omega) (by omega)
      rw [List.take_succ_eq_append_getElem (by omega)] at hr'
      exact hr'.prefix (hlong _ (List.getElem_mem _)) hng
  refine ⟨fun j => if h : j ≤ xs.length then Classical.choose (this j h) else [], ?_⟩
  intro j hj
  simp only [hj, dif_pos]
  exact Classical.choose_spec (this j hj)

theorem redOp_flush (none0 zero : V) (fs : List (RedFn V)) (acc : List V) :
    (redOp none0 zero false fs).flush (some acc) = ⟨none, [.item acc, .flush], none⟩ := rfl
theorem redOp_flush_none (none0 zero : V) (inc : Bool) (fs : List (RedFn V)) :
    (redOp none0 zero inc fs).flush none = ⟨none, [.flush], none⟩ := rfl

theorem red_feed (none0 zero : V) (inc : Bool) (fs : List (RedFn V)) (xs : List (List V))
    (R : Nat → List V) (hlong : ∀ x ∈ xs, fs.length ≤ x.length) (hng : ∀ g ∈ fs, g ≠ .group)
    (hR : ∀ j, j ≤ xs.length → FoldsTo none0 zero fs (xs.take j) (R j)) :
    ∀ j, j ≤ xs.length →
      (redOp none0 zero inc fs).feed (redOp none0 zero inc fs).init (ofItems (xs.take j)) =
        ⟨some (R j), if inc then ofItems ((List.range j).map fun i => xs[i]?.getD [] ++ R (i+1)) else [], none⟩ := by
  intro j
  induction j with
  | zero =>
    intro _
    have h0 := hR 0 (by omega)
    have : R 0 = fs.map (RedFn.start none0 zero) := h0.unique hng (FoldsTo.nil _ _ _)
    simp [feed_nil, redOp, this]
  | succ j ih =>
    intro hj
    have ih := ih (by omega)
    have hx : fs.length ≤ (xs[j]'(by omega)).length := hlong _ (List.getElem_mem _)
    have h1 := hR (j+1) hj
    have hlp : redLoop fs (R j) (xs[j]'(by omega)) = (R (j+1), none) := by
      rw [List.take_succ_eq_append_getElem (by omega)] at h1
      exact FoldsTo.snoc hx hng h1 (hR j (by omega))
    rw [List.take_succ_eq_append_getElem (by omega), ofItems_append, feed_append, ih]
    have hnot : ¬ (xs[j]'(by omega)).length < fs.length := by omega
    have hstep : (redOp none0 zero inc fs).item (some (R j)) (xs[j]'(by omega)) =
        ⟨some (R (j+1)), if inc then [.item ((xs[j]'(by omega)) ++ R (j+1))] else [], none⟩ := by
      simp only [redOp, hnot, if_false, hlp]
    have hget : xs[j]? = some (xs[j]'(by omega)) := List.getElem?_eq_getElem _
    simp only [ofItems_cons, ofItems_nil, feed_cons, feed_nil, step_item, hstep, catchKare]
    cases inc <;> simp [List.range_succ, ofItems, hget]

/-! ### C11 -/

/-- **C11.** `red f1 ... fk` (no grouping), on items with at least k components: at the end one tuple,
whose i-th component is the left fold of `fi` over column i, starting from None, or 0 for count; before
that nothing. (On the empty stream this is the tuple of the starting values.) -/
theorem C11_red (none0 zero : V) (fs : List (RedFn V)) (xs : List (List V)) (r : List V)
    (hng : ∀ g ∈ fs, g ≠ .group) (hlong : ∀ x ∈ xs, fs.length ≤ x.length)
    (hr : FoldsTo none0 zero fs xs r) :
    (redOp none0 zero false fs).obs (ofItems xs) = ([], none) ∧
    (redOp none0 zero false fs).run (ofItems xs) = ([.item r, .flush], none) ∧
    (redOp none0 zero false fs).run (ofItems xs ++ [.flush]) = ([.item r, .flush, .flush], none) := by
  obtain ⟨R, hR⟩ := hr.prefixes xs hlong hng
  have h := red_feed none0 zero false fs xs R hlong hng hR xs.length (Nat.le_refl _)
  have hend : R xs.length = r := by
    have := hR xs.length (Nat.le_refl _)
    rw [List.take_length] at this
    exact this.unique hng hr
  rw [List.take_length, hend] at h
  refine ⟨by simp [obs, h], ?_, ?_⟩
  · simp [run, obs, feed_append, h, feed_cons, feed_nil, step_flush, redOp_flush]
  · simp [run, obs, feed_append, h, feed_cons, feed_nil, step_flush, redOp_flush, redOp_flush_none]

/-- **C11.** With total functions the result always exists: component i is `List.foldl`. -/
theorem C11_red_total (none0 zero : V) (gs : List (Bool × (V → V → V))) (xs : List (List V))
    (hlong : ∀ x ∈ xs, gs.length ≤ x.length) :
    (redOp none0 zero false (gs.map fun g => .fn g.1 fun a v => .ok (g.2 a v))).run (ofItems xs) =
      ([.item ((List.range gs.length).filterMap fun i => gs[i]?.map fun g =>
          (column i xs).foldl g.2 (if g.1 then zero else none0)), .flush], none) := by
  have hlen : ((List.range gs.length).filterMap fun i => gs[i]?.map fun g =>
      (column i xs).foldl g.2 (if g.1 then zero else none0)) =
      gs.mapIdx (fun i g => (column i xs).foldl g.2 (if g.1 then zero else none0)) := by
    have : ∀ (l : List (Bool × (V → V → V))) (h : Nat → Bool × (V → V → V) → V),
        ((List.range l.length).filterMap fun i => l[i]?.map (h i)) = l.mapIdx h := by
      intro l
      induction l using snoc_induction with
      | nil => intro h; rfl
      | snoc l a ih =>
        intro h
        rw [List.length_append, List.length_singleton, List.range_succ, List.filterMap_append,
          List.mapIdx_append, ← ih]
        congr 1
        · apply filterMap_congr'
          intro i hi; rw [List.getElem?_append_left (by simpa using hi)]
        · simp
    exact this gs _
  rw [hlen]
  refine (C11_red none0 zero _ xs _ ?_ (by simpa using hlong) ⟨by simp, ?_⟩).2.1
  · intro g hg; obtain ⟨_, _, rfl⟩ := List.mem_map.1 hg; simp
  · intro i c f v hfi hv
    rw [List.getElem?_map] at hfi
    rw [List.getElem?_mapIdx] at hv
    cases hg : gs[i]? with
    | none => rw [hg] at hfi; cases hfi
    | some g =>
    rw [hg] at hfi hv
    simp only [Option.map_some, Option.some.injEq, RedFn.fn.injEq] at hfi hv
    obtain ⟨rfl, rfl⟩ := hfi
    subst hv
    generalize (if g.1 then zero else none0) = s
    generalize column i xs = l
    induction l generalizing s with
    | nil => rfl
    | cons y l ih => rw [List.foldlM_cons, List.foldl_cons]; exact ih _

/-- **C11.** `red -i`: each item is emitted on arrival, extended with the folds of the items up to and
including it; nothing at the end. -/
theorem C11_red_incremental (none0 zero : V) (fs : List (RedFn V)) (xs : List (List V)) (r : List V)
    (hng : ∀ g ∈ fs, g ≠ .group) (hlong : ∀ x ∈ xs, fs.length ≤ x.length)
    (hr : FoldsTo none0 zero fs xs r) :
    ∃ R : Nat → List V, (∀ j, j ≤ xs.length → FoldsTo none0 zero fs (xs.take j) (R j)) ∧
      (redOp none0 zero true fs).run (ofItems xs) =
        (ofItems ((List.range xs.length).map fun i => xs[i]?.getD [] ++ R (i+1)) ++ [.flush], none) := by
  obtain ⟨R, hR⟩ := hr.prefixes xs hlong hng
  have h := red_feed none0 zero true fs xs R hlong hng hR xs.length (Nat.le_refl _)
  rw [List.take_length] at h
  refine ⟨R, hR, ?_⟩
  rw [run_ofItems _ _ (by rw [h]), h]
  simp [redOp]

/-- **C11/C13.** An item that is too short: one error in its place, no other effect, whatever comes
before, after and downstream, with and without grouping. -/
theorem C11_red_short [DecidableEq V] (none0 zero : V) (inc : Bool) (fs : List (RedFn V))
    (q : Op τ (List V) γ) (x : List V) (hx : x.length < fs.length) (a b : List (Ev (List V))) :
    (let with_x := ((redOp none0 zero inc fs).comp q).run (a ++ .item x :: b)
     let without_x := ((redOp none0 zero inc fs).comp q).run (a ++ b)
     items with_x.1 = items without_x.1 ∧ with_x.2 = without_x.2 ∧
     ((∃ u v, with_x.1 = u ++ .err "Input too short." :: v ∧ without_x.1 = u ++ v) ∨ with_x = without_x)) ∧
    (let with_x := ((redGroupOp none0 inc fs).comp q).run (a ++ .item x :: b)
     let without_x := ((redGroupOp none0 inc fs).comp q).run (a ++ b)
     items with_x.1 = items without_x.1 ∧ with_x.2 = without_x.2 ∧
     ((∃ u v, with_x.1 = u ++ .err "Input too short." :: v ∧ without_x.1 = u ++ v) ∨ with_x = without_x)) := by
  constructor
  · have := C02_rejected_item (redOp none0 zero inc fs) q x "Input too short."
      (by intro s; simp [redOp, hx, fatal]) a (b ++ [.flush])
    simp only [Op.run, List.append_assoc, List.cons_append]
    exact ⟨this.1, this.2.2⟩
  · have := C02_rejected_item (redGroupOp none0 inc fs) q x "Input too short."
      (by intro s; simp [redGroupOp, hx, fatal]) a (b ++ [.flush])
    simp only [Op.run, List.append_assoc, List.cons_append]
    exact ⟨this.1, this.2.2⟩

/-- A sum starting at None (`none0 = -1` here) and a count. -/
def sumF : RedFn Int := .fn false fun a v => .ok (if a = -1 then v else a + v)
def countF : RedFn Int := .fn true fun a _ => .ok (a + 1)

example : FoldsTo (-1) 0 [sumF, countF] [[5, 7], [6, 8]] [11, 2] := by
  refine ⟨rfl, ?_⟩
  intro i c f v hf hv
  match i with
  | 0 => simp [sumF] at hf hv; obtain ⟨rfl, rfl⟩ := hf; subst hv; rfl
  | 1 => simp [countF] at hf hv; obtain ⟨rfl, rfl⟩ := hf; subst hv; rfl
  | n+2 => simp at hf
example : ((redOp (-1) 0 false [sumF, countF]).run (ofItems [[5, 7], [6, 8]])).1 = [.item [11, 2], .flush] := by
  decide
example : ((redOp (-1) 0 true [sumF, countF]).run (ofItems [[5, 7], [6, 8]])).1 =
    [.item [5, 7, 5, 1], .item [6, 8, 11, 2], .flush] := by decide

/-! ### C13 -/

theorem keyOf_eq_groupOf (fs : List (RedFn V)) (x : List V) (h : fs.length ≤ x.length) :
    keyOf fs x = groupOf fs x := by
  induction fs generalizing x with
  | nil => simp [keyOf, groupOf]
  | cons g fs ih =>
    cases x with
    | nil => simp at h
    | cons v x =>
      have := ih x (by simpa using h)
      simp only [keyOf, List.length_cons, List.range_succ_eq_map, List.filterMap_cons,
        List.filterMap_map] at this ⊢
      cases g with
      | group => simp [groupOf, ← this]; rfl
      | fn c f => simp [groupOf, ← this]; rfl

theorem dataPart_eq_dataOf (fs : List (RedFn V)) (x : List V) (h : fs.length ≤ x.length) :
    dataPart fs x = dataOf fs x := by
  induction fs generalizing x with
  | nil => simp [dataPart, dataOf]
  | cons g fs ih =>
    cases x with
    | nil => simp at h
    | cons v x =>
      have := ih x (by simpa using h)
      simp only [dataPart, List.length_cons, List.range_succ_eq_map, List.filterMap_cons,
        List.filterMap_map] at this ⊢
      cases g with
      | group => simp [dataOf, ← this]; rfl
      | fn c f => simp [dataOf, ← this]; rfl

/-- Same grouping value: same components at the grouping positions. -/
theorem keyOf_eq_get (fs : List (RedFn V)) (x y : List V) (hx : fs.length ≤ x.length)
    (hy : fs.length ≤ y.length) (h : keyOf fs x = keyOf fs y) (i : Nat) (hi : fs[i]? = some .group) :
    x[i]? = y[i]? := by
  rw [keyOf_eq_groupOf _ _ hx, keyOf_eq_groupOf _ _ hy] at h
  revert h hi
  induction fs generalizing x y i with
  | nil => intro _ hi; simp at hi
  | cons g fs ih =>
    intro h hi
    cases x with
    | nil => simp at hx
    | cons v x =>
      cases y with
      | nil => simp at hy
      | cons w y =>
        simp at hx hy
        cases g with
        | group =>
          simp [groupOf] at h
          cases i with
          | zero => simp [h.1]
          | succ i => simpa using ih x y hx hy i h.2 (by simpa using hi)
        | fn c f =>
          simp [groupOf] at h
          cases i with
          | zero => simp at hi
          | succ i => simpa using ih x y hx hy i h (by simpa using hi)

variable [DecidableEq V]

/-- No function raises while the groups of `xs` are folded: the result for each grouping value `k` is `R k`. -/
def GroupResults (none0 : V) (fs : List (RedFn V)) (xs : List (List V)) (R : List V → List V) : Prop :=
  ∀ k ∈ xs.map (keyOf fs), GroupFoldsTo none0 fs (groupItems fs xs k) (R k)

theorem firstOccurrences_nodup {α : Type} [DecidableEq α] (xs : List α) : (firstOccurrences xs).Nodup :=
  (C07_unique_spec xs).1
theorem mem_firstOccurrences {α : Type} [DecidableEq α] (xs : List α) (x : α) :
    x ∈ firstOccurrences xs ↔ x ∈ xs := (C07_unique_spec xs).2.1 x

theorem groupItems_snoc (fs : List (RedFn V)) (xs : List (List V)) (x k : List V) :
    groupItems fs (xs ++ [x]) k = groupItems fs xs k ++ if keyOf fs x = k then [x] else [] := by
  by_cases h : keyOf fs x = k <;> simp [groupItems, List.filter_cons, h]

theorem GroupFoldsTo.unique {none0 : V} {fs : List (RedFn V)} {xs : List (List V)} {r r' : List V}
    (hne : xs ≠ []) (h : GroupFoldsTo none0 fs xs r) (h' : GroupFoldsTo none0 fs xs r') : r = r' := by
  apply List.ext_getElem?
  intro i
  rcases Nat.lt_or_ge i fs.length with hi | hi
  · have hr : r[i]? = some (r[i]'(by rw [h.1]; exact hi)) := List.getElem?_eq_getElem _
    have hr' : r'[i]? = some (r'[i]'(by rw [h'.1]; exact hi)) := List.getElem?_eq_getElem _
    rcases hfi : fs[i]? with _ | g
    · simp at hfi; omega
    · cases g with
      | group =>
        cases xs with
        | nil => exact absurd rfl hne
        | cons x xs => rw [h.2.2 i hfi x (by simp), h'.2.2 i hfi x (by simp)]
      | fn c f =>
        have a := h.2.1 i c f _ hfi hr
        have b := h'.2.1 i c f _ hfi hr'
        rw [a] at b
        rw [hr, hr']; congr 1; exact Except.ok.inj b
  · rw [List.getElem?_eq_none (by rw [h.1]; exact hi), List.getElem?_eq_none (by rw [h'.1]; exact hi)]

/-- One item added to its group. -/
theorem GroupFoldsTo.snoc {none0 : V} {fs : List (RedFn V)} {xs : List (List V)} {x r acc : List V}
    (hx : fs.length ≤ x.length) (hr : GroupFoldsTo none0 fs (xs ++ [x]) r)
    (ha : GroupFoldsTo none0 fs xs acc ∨ (xs = [] ∧ acc = List.replicate fs.length none0)) :
    redLoop fs acc x = (r, none) := by
  have hlen : acc.length = fs.length := by
    rcases ha with ha | ⟨_, rfl⟩
    · exact ha.1
    · simp
  apply redLoop_ok _ _ _ _ hlen hx hr.1
  · intro i c f a v a' hfi hai hxi hri
    have h1 := hr.2.1 i c f a' hfi hri
    rw [column_snoc _ _ _ _ hxi] at h1
    obtain ⟨b, hb, hb'⟩ := foldlM_snoc_ok _ _ _ _ _ h1
    have : (column i xs).foldlM f none0 = .ok a := by
      rcases ha with ha | ⟨rfl, rfl⟩
      · exact ha.2.1 i c f a hfi hai
      · rw [List.getElem?_replicate] at hai
        split at hai
        · cases hai; rfl
        · cases hai
    rw [this] at hb; cases hb
    exact hb'
  · intro i hi
    exact hr.2.2 i hi x (by simp)

/-- Results of the groups of a stream give results for the groups of its prefix. -/
theorem GroupResults.prefix {none0 : V} {fs : List (RedFn V)} {xs : List (List V)} {x : List V}
    {R : List V → List V} (hlong : ∀ y ∈ xs ++ [x], fs.length ≤ y.length)
    (h : GroupResults none0 fs (xs ++ [x]) R) :
    ∃ R', GroupResults none0 fs xs R' ∧ ∀ k, k ≠ keyOf fs x → R' k = R k := by
  by_cases hk : keyOf fs x ∈ xs.map (keyOf fs)
  · -- the group of x existed
    have hg := h (keyOf fs x) (by simp)
    rw [groupItems_snoc] at hg
    simp only [if_true] at hg
    have hx : fs.length ≤ x.length := hlong x (by simp)
    have key : ∀ i, i < fs.length → ∃ a, (∀ c f, fs[i]? = some (.fn c f) →
        (column i (groupItems fs xs (keyOf fs x))).foldlM f none0 = .ok a) ∧
        (fs[i]? = some .group → x[i]? = some a) := by
      intro i hi
      rcases hfi : fs[i]? with _ | g
      · simp at hfi; omega
      · cases g with
        | group => exact ⟨x[i]'(by omega), ⟨nofun, fun _ => List.getElem?_eq_getElem _⟩⟩
        | fn c f =>
          have hri := List.getElem?_eq_getElem (l := R (keyOf fs x)) (i := i) (by rw [hg.1]; exact hi)
          have h1 := hg.2.1 i c f _ hfi hri
          rw [column_snoc _ _ _ (x[i]'(by omega)) (List.getElem?_eq_getElem _)] at h1
          obtain ⟨b, hb, _⟩ := foldlM_snoc_ok _ _ _ _ _ h1
          exact ⟨b, ⟨fun c' f' h => by cases h; exact hb, nofun⟩⟩
    obtain ⟨acc, hacc, hP⟩ := exists_list _ _ key
    refine ⟨fun k => if k = keyOf fs x then acc else R k, ?_, by intro k hk; simp [hk]⟩
    intro k hkm
    dsimp only
    by_cases hkx : k = keyOf fs x
    · subst hkx
      simp only [if_true]
      refine ⟨hacc, fun i c f v hfi hv => (hP i v hv).1 c f hfi, ?_⟩
      intro i hfi y hy
      have hi := lt_of_getElem?_eq_some hfi
      simp [groupItems] at hy
      have hyx := keyOf_eq_get fs y x (hlong y (by simp [hy.1])) hx hy.2 i hfi
      have hai : acc[i]? = some (acc[i]'(by omega)) := List.getElem?_eq_getElem _
      rw [hyx, hai, (hP i _ hai).2 hfi]
    · simp only [hkx, if_false]
      have := h k (by rw [List.map_append, List.mem_append]; exact Or.inl hkm)
      rw [groupItems_snoc] at this
      simpa [Ne.symm hkx] using this
  · refine ⟨R, ?_, fun _ _ => rfl⟩
    intro k hkm
    have := h k (by rw [List.map_append, List.mem_append]; exact Or.inl hkm)
    rw [groupItems_snoc] at this
    have hne : keyOf fs x ≠ k := by rintro rfl; exact hk hkm
    simpa [hne] using this

theorem redGroup_feed (none0 : V) (inc : Bool) (fs : List (RedFn V)) (xs : List (List V))
    (R : List V → List V) (hlong : ∀ x ∈ xs, fs.length ≤ x.length) (hR : GroupResults none0 fs xs R) :
    ∃ P : Nat → List V → List V, (∀ j, j ≤ xs.length → GroupResults none0 fs (xs.take j) (P j)) ∧
      P xs.length = R ∧
      (redGroupOp none0 inc fs).feed (redGroupOp none0 inc fs).init (ofItems xs) =
        ⟨some ((firstOccurrences (xs.map (keyOf fs))).map fun k => (k, R k)),
         if inc then ofItems ((List.range xs.length).map fun i =>
            xs[i]?.getD [] ++ dataPart fs (P (i+1) (keyOf fs (xs[i]?.getD [])))) else [], none⟩ := by
  induction xs using snoc_induction generalizing R with
  | nil =>
    refine ⟨fun _ => R, ?_, rfl, ?_⟩
    · intro j hj; simpa using hR
    · simp [feed_nil, redGroupOp, firstOccurrences]
  | snoc xs x ih =>
    obtain ⟨R', hR', hsame⟩ := hR.prefix hlong
    obtain ⟨P, hP, hPend, hfeed⟩ := ih R' (fun y hy => hlong y (by simp [hy])) hR'
    have hx : fs.length ≤ x.length := hlong x (by simp)
    refine ⟨fun j => if j ≤ xs.length then P j else R, ?_, by simp; omega, ?_⟩
    · intro j hj
      simp at hj
      by_cases h : j ≤ xs.length
      · simp only [h, if_true]
        rw [List.take_append_of_le_length h]; exact hP j h
      · simp only [h, if_false]
        rw [List.take_of_length_le (by simp; omega)]; exact hR
    · rw [ofItems_append, feed_append, hfeed]
      have hk : keyOf fs x = groupOf fs x := keyOf_eq_groupOf fs x hx
      have hgx := hR (keyOf fs x) (by simp)
      rw [groupItems_snoc] at hgx
      simp only [if_true] at hgx
      have hloop : redLoop fs ((Dict.get? ((firstOccurrences (xs.map (keyOf fs))).map fun k => (k, R' k))
          (groupOf fs x)).getD (List.replicate fs.length none0)) x = (R (keyOf fs x), none) := by
        rw [Dict.get?_map_key]
        apply GroupFoldsTo.snoc hx hgx
        by_cases hm : keyOf fs x ∈ xs.map (keyOf fs)
        · left
          rw [← hk, if_pos ((mem_firstOccurrences _ _).2 hm)]
          exact hR' _ hm
        · right
          rw [← hk, if_neg (fun h => hm ((mem_firstOccurrences _ _).1 h))]
          refine ⟨?_, rfl⟩
          rw [groupItems, List.filter_eq_nil_iff]
          intro y hy hc
          simp at hc
          exact hm (by rw [← hc]; exact List.mem_map.2 ⟨y, hy, rfl⟩)
      have hnot : ¬ x.length < fs.length := by omega
      have hset : Dict.set ((firstOccurrences (xs.map (keyOf fs))).map fun k => (k, R' k)) (groupOf fs x)
          (R (keyOf fs x)) = (firstOccurrences ((xs ++ [x]).map (keyOf fs))).map fun k => (k, R k) := by
        rw [Dict.set_map_key _ _ _ _ (firstOccurrences_nodup _), List.map_append, List.map_singleton,
          firstOccurrences_snoc, ← hk]
        have : ∀ (_ : Decidable (keyOf fs x ∈ firstOccurrences (xs.map (keyOf fs))))
            (_ : Decidable (keyOf fs x ∈ xs.map (keyOf fs))),
            (if keyOf fs x ∈ firstOccurrences (xs.map (keyOf fs)) then firstOccurrences (xs.map (keyOf fs))
            else firstOccurrences (xs.map (keyOf fs)) ++ [keyOf fs x]) =
            firstOccurrences (xs.map (keyOf fs)) ++ (if keyOf fs x ∈ xs.map (keyOf fs) then [] else [keyOf fs x]) := by
          intro _ _
          by_cases hm : keyOf fs x ∈ xs.map (keyOf fs)
          · rw [if_pos ((mem_firstOccurrences _ _).2 hm), if_pos hm, List.append_nil]
          · rw [if_neg (fun h => hm ((mem_firstOccurrences _ _).1 h)), if_neg hm]
        refine (congrArg _ (this _ _)).trans (List.map_congr_left ?_)
        intro k _
        by_cases h : k = keyOf fs x
        · simp [h]
        · simp [h, hsame k h]
      have hstep : (redGroupOp none0 inc fs).item
          (some ((firstOccurrences (xs.map (keyOf fs))).map fun k => (k, R' k))) x =
          ⟨some ((firstOccurrences ((xs ++ [x]).map (keyOf fs))).map fun k => (k, R k)),
            if inc then [.item (x ++ dataPart fs (R (keyOf fs x)))] else [], none⟩ := by
        have hd : dataPart fs (R (keyOf fs x)) = dataOf fs (R (keyOf fs x)) :=
          dataPart_eq_dataOf _ _ (by rw [hgx.1]; exact Nat.le_refl _)
        simp only [redGroupOp, hnot, if_false, hloop, hset, hd]
      simp only [ofItems_cons, ofItems_nil, feed_cons, feed_nil, step_item, hstep, catchKare]
      cases inc
      · simp
      · simp only [if_true, List.length_append, List.length_singleton, List.range_succ, List.map_append]
        simp
        simp only [ofItems]
        refine ⟨congrArg _ (List.map_congr_left ?_), by rw [if_neg (by omega)]⟩
        intro i hi
        simp at hi
        simp [List.getElem?_append_left hi, Nat.succ_le_of_lt hi]

/-- **C13.** `red` with grouping: one tuple per distinct grouping value, in order of first appearance,
and nothing before the end; the tuple consists of the folds over exactly the items with that value,
and of the value itself. -/
theorem C13_group (none0 : V) (fs : List (RedFn V)) (xs : List (List V)) (R : List V → List V)
    (hlong : ∀ x ∈ xs, fs.length ≤ x.length)
    (hR : ∀ k ∈ xs.map (keyOf fs), GroupFoldsTo none0 fs (groupItems fs xs k) (R k)) :
    (redGroupOp none0 false fs).obs (ofItems xs) = ([], none) ∧
    (redGroupOp none0 false fs).run (ofItems xs) =
      (ofItems ((firstOccurrences (xs.map (keyOf fs))).map R) ++ [.flush], none) ∧
    (redGroupOp none0 false fs).run (ofItems xs ++ [.flush]) =
      (ofItems ((firstOccurrences (xs.map (keyOf fs))).map R) ++ [.flush, .flush], none) := by
  obtain ⟨P, hP, hPend, h⟩ := redGroup_feed none0 false fs xs R hlong hR
  have hfl : ∀ d : Dict (List V) (List V), (redGroupOp none0 false fs).flush (some d) =
    ⟨if d.isEmpty then some d else none, ofItems (d.map (·.2)) ++ [.flush], none⟩ := fun _ => rfl
  refine ⟨by simp [obs, h], ?_, ?_⟩
  · rw [run_ofItems _ _ (by rw [h]), h]
    rw [hfl]
    simp [ofItems, Function.comp_def]
  · simp only [run, obs, feed_append, h]
    cases hl : firstOccurrences (xs.map (keyOf fs)) with
    | nil => simp [feed_cons, feed_nil, step_flush, redGroupOp]
    | cons a l => simp [feed_cons, feed_nil, step_flush, redGroupOp, ofItems]

/-- **C13.** `red -i` with grouping: every item is emitted on arrival, extended with the data part of its
own group's result so far. -/
theorem C13_group_incremental (none0 : V) (fs : List (RedFn V)) (xs : List (List V)) (R : List V → List V)
    (hlong : ∀ x ∈ xs, fs.length ≤ x.length)
    (hR : ∀ k ∈ xs.map (keyOf fs), GroupFoldsTo none0 fs (groupItems fs xs k) (R k)) :
    ∃ P : Nat → List V → List V,
      (∀ j, j ≤ xs.length → ∀ k ∈ (xs.take j).map (keyOf fs),
        GroupFoldsTo none0 fs (groupItems fs (xs.take j) k) (P j k)) ∧
      (redGroupOp none0 true fs).run (ofItems xs) =
        (ofItems ((List.range xs.length).map fun i =>
            xs[i]?.getD [] ++ dataPart fs (P (i+1) (keyOf fs (xs[i]?.getD [])))) ++ [.flush], none) := by
  obtain ⟨P, hP, hPend, h⟩ := redGroup_feed none0 true fs xs R hlong hR
  refine ⟨P, hP, ?_⟩
  rw [run_ofItems _ _ (by rw [h]), h]
  simp [redGroupOp]

/-- **C13.** The choice of reducer: grouping exactly if one of the functions is `.`. -/
theorem C13_choice (fs : List (RedFn V)) : redIsGrouping fs = false ↔ ∀ g ∈ fs, g ≠ .group := by
  simp only [redIsGrouping, List.any_eq_false]
  constructor
  · intro h g hg; rintro rfl; exact h _ hg rfl
  · intro h g hg
    cases g with
    | group => exact absurd rfl (h _ hg)
    | fn c f => simp

example : ((redGroupOp (-1 : Int) false [.group, sumF]).run (ofItems [[1, 5], [2, 6], [1, 7]])).1 =
    [.item [1, 12], .item [2, 6], .flush] := by decide
example : GroupFoldsTo (-1) [.group, sumF] (groupItems [.group, sumF] [[1, 5], [2, 6], [1, 7]] [1]) [1, 12] := by
  have : groupItems [.group, sumF] [[1, 5], [2, 6], [1, 7]] [1] = [[1, 5], [1, 7]] := by decide
  rw [this]
  refine ⟨rfl, ?_, ?_⟩
  · intro i c f v hf hv
    match i with
    | 0 => simp at hf
    | 1 => simp [sumF] at hf hv; obtain ⟨rfl, rfl⟩ := hf; subst hv; rfl
    | n+2 => simp at hf
  · intro i hi x hx
    match i with
    | 0 => simp at hx; rcases hx with rfl | rfl <;> rfl
    | 1 => simp [sumF] at hi
    | n+2 => simp at hi

/-! ### C12 -/

/-- **C12 is false of the code**: with a function failing in the second column, the first column is
updated nevertheless. (`red + +` on (1,1), (100,None), (2,2) gives (103,3).) -/
theorem C12_false : ∃ (fs : List (RedFn Int)) (a b : List (Ev (List Int))) (x : List Int),
    (∀ g ∈ fs, g ≠ .group) ∧ x.length = fs.length ∧
    errs ((redOp (-1) 0 false fs).run (a ++ .item x :: b)).1 = ["TypeError"] ∧
    errs ((redOp (-1) 0 false fs).run (a ++ b)).1 = [] ∧
    items ((redOp (-1) 0 false fs).run (a ++ .item x :: b)).1 = [[103, 3]] ∧
    items ((redOp (-1) 0 false fs).run (a ++ b)).1 = [[3, 3]] := by
  let f : RedFn Int := .fn false fun a v => if v = -9 then .error "TypeError" else .ok (if a = -1 then v else a + v)
  refine ⟨[f, f], ofItems [[1, 1]], ofItems [[2, 2]], [100, -9], ?_, ?_⟩
  · intro g hg; simp [f] at hg; rw [hg]; simp
  · simp only [f]; decide

/-- **C12 is false of the code**, with grouping: an item on which a function fails creates a group. -/
theorem C12_group_false : ∃ (fs : List (RedFn Int)) (x : List Int),
    items ((redGroupOp (-1) false fs).run [.item x]).1 = [[7, -1]] ∧
    items ((redGroupOp (-1) false fs).run []).1 = [] ∧
    errs ((redGroupOp (-1) false fs).run [.item x]).1 = ["TypeError"] := by
  refine ⟨[.group, .fn false fun _ _ => .error "TypeError"], [7, 8], ?_⟩
  decide

/-- **C12, the part that holds**: if it is the first of red's functions that fails on the item (in the
state reached), the item has no effect other than its error. Missing: failures of a later
function, where the code violates the property (`C12_false`). -/
theorem C12_partial (none0 zero : V) (inc : Bool) (c : Bool) (f : V → V → Except Msg V)
    (fs : List (RedFn V)) (q : Op τ (List V) γ) (v : V) (x : List V) (m : Msg)
    (a b : List (Ev (List V))) (acc0 : V) (acc : List V)
    (hst : ((redOp none0 zero inc (.fn c f :: fs)).feed (redOp none0 zero inc (.fn c f :: fs)).init a).st =
      some (acc0 :: acc))
    (hfail : f acc0 v = .error m) (hx : fs.length ≤ x.length) :
    let with_x := ((redOp none0 zero inc (.fn c f :: fs)).comp q).run (a ++ .item (v :: x) :: b)
    let without_x := ((redOp none0 zero inc (.fn c f :: fs)).comp q).run (a ++ b)
    items with_x.1 = items without_x.1 ∧ with_x.2 = without_x.2 ∧
    ((∃ u w, with_x.1 = u ++ .err m :: w ∧ without_x.1 = u ++ w) ∨ with_x = without_x) := by
  have := C02_rejected_at (redOp none0 zero inc (.fn c f :: fs)) q (v :: x) m a (b ++ [.flush]) (by
    rw [hst]
    have : ¬ x.length < fs.length := by omega
    simp [redOp, this, redLoop, hfail, fatal])
  simp only [Op.run, List.append_assoc, List.cons_append]
  exact ⟨this.1, this.2.2⟩

example : ((redOp (-1 : Int) 0 false [.fn false fun a v => if v = -9 then .error "T" else .ok (a + v), sumF]).run
    (ofItems [[1, 1], [-9, 100], [2, 2]])).1 = [.err "T", .item [2, 3], .flush] := by decide

end Marcel
