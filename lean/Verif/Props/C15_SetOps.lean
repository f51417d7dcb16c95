import Verif.Model.SetOps
import Verif.Lemmas.Dict
import Verif.Lemmas.Stream
import Verif.Lemmas.Lists

/-! C15: union, difference, intersect. -/

namespace Marcel
open Op

variable {α : Type}

@[simp] theorem items_dropFlush (es : List (Ev α)) : items (dropFlush es) = items es := by
  induction es with
  | nil => rfl
  | cons e es ih => cases e <;> simp [dropFlush, ih]
@[simp] theorem errs_dropFlush (es : List (Ev α)) : errs (dropFlush es) = errs es := by
  induction es with
  | nil => rfl
  | cons e es ih => cases e <;> simp [dropFlush, ih]
@[simp] theorem dropFlush_append (a b : List (Ev α)) : dropFlush (a ++ b) = dropFlush a ++ dropFlush b := by
  induction a with
  | nil => rfl
  | cons e a ih => cases e <;> simp [dropFlush, ih]
@[simp] theorem dropFlush_ofItems (xs : List α) : dropFlush (ofItems xs) = ofItems xs := by
  induction xs with
  | nil => rfl
  | cons x xs ih => simp [dropFlush, ih]

/-! ### union -/

theorem unionFlush_spec (args : List (ArgRun α)) (h : ∀ a ∈ args, a.exn = none) :
    (unionFlush args).exn = none ∧
    dropFlush (unionFlush args).out = args.flatMap (fun a => dropFlush a.out) := by
  induction args with
  | nil => simp [unionFlush, dropFlush]
  | cons a as ih =>
    have ha := h a (by simp)
    cases as with
    | nil => simp [unionFlush, ha]
    | cons b bs =>
      obtain ⟨i1, i2⟩ := ih (fun x hx => h x (by simp [hx]))
      simp only [unionFlush, ha, Option.isSome_none, Bool.false_eq_true, if_false, dropFlush_append, i2, i1]
      rw [List.flatMap_cons]
      refine ⟨trivial, ?_⟩
      congr 1
      have : ∀ l : List (Ev α), dropFlush (dropFlush l) = dropFlush l := by
        intro l
        induction l with
        | nil => rfl
        | cons e l ih => cases e <;> simp [dropFlush, ih]
      exact this _

/-- **C15.** `union`: the input items, each on arrival; at the end everything the argument pipelines emit,
in the order of the arguments (items and errors). -/
theorem C15_union (args : List (ArgRun α)) (h : ∀ a ∈ args, a.exn = none) (xs : List α) :
    (unionOp args).obs (ofItems xs) = (ofItems xs, none) ∧
    (∃ fin, (unionOp args).run (ofItems xs) = (ofItems xs ++ fin, none) ∧
      dropFlush fin = args.flatMap (fun a => dropFlush a.out)) ∧
    items ((unionOp args).run (ofItems xs)).1 = xs ++ args.flatMap (fun a => items a.out) := by
  have h0 := obs_ofItems_unit (unionOp args) (by intro x; simp [unionOp, catchKare]) xs
  have hx : (xs.flatMap fun x => ((unionOp args).item () x).out) = ofItems xs := by
    clear h0
    induction xs with
    | nil => rfl
    | cons x xs ih => rw [List.flatMap_cons, ih]; rfl
  rw [hx] at h0
  obtain ⟨u1, u2⟩ := unionFlush_spec args h
  have hf : (unionOp args).run (ofItems xs) = (ofItems xs ++ ((unionFlush args).out ++ [.flush]), none) := by
    simp only [obs, Prod.mk.injEq] at h0
    rw [run_ofItems _ _ h0.2, h0.1]
    simp [unionOp, u1]
  refine ⟨h0, ⟨_, hf, ?_⟩, ?_⟩
  · simp [u2, dropFlush]
  · rw [hf]
    simp only [items_append, items_ofItems, items_flush, items_nil, List.append_nil]
    rw [← items_dropFlush, u2]
    congr 1
    clear u1 u2 hf h h0 hx
    induction args with
    | nil => rfl
    | cons a as ih => simp [ih]

/-! ### Specification of difference and intersect -/

variable [DecidableEq α]

/-- The items of `xs` at the positions `i` where the number of earlier occurrences of the item is at
least `m` (of it), i.e. without the first `m` occurrences. -/
def dropOccurrences (m : α → Nat) (xs : List α) : List α :=
  (List.range xs.length).filterMap fun i => xs[i]?.filter fun x => m x ≤ (xs.take i).count x

/-- The first `m` occurrences (`m` depends on the item). -/
def keepOccurrences (m : α → Nat) (xs : List α) : List α :=
  (List.range xs.length).filterMap fun i => xs[i]?.filter fun x => (xs.take i).count x < m x

theorem posFilter_snoc (P : List α → α → Bool) (xs : List α) (x : α) :
    ((List.range (xs ++ [x]).length).filterMap fun i => (xs ++ [x])[i]?.filter fun y => P ((xs ++ [x]).take i) y) =
    ((List.range xs.length).filterMap fun i => xs[i]?.filter fun y => P (xs.take i) y) ++
      if P xs x then [x] else [] := by
  rw [List.length_append, List.length_singleton, List.range_succ, List.filterMap_append]
  congr 1
  · apply filterMap_congr'
    intro i hi
    rw [List.mem_range] at hi
    rw [List.getElem?_append_left hi, List.take_append_of_le_length (by omega)]
  · have h1 : (xs ++ [x])[xs.length]? = some x := by simp
    have h2 : (xs ++ [x]).take xs.length = xs := by simp
    simp only [List.filterMap_cons, List.filterMap_nil, h1, h2]
    by_cases h : P xs x <;> simp [h, Option.filter]

theorem dropOccurrences_snoc (m : α → Nat) (xs : List α) (x : α) :
    dropOccurrences m (xs ++ [x]) = dropOccurrences m xs ++ if m x ≤ xs.count x then [x] else [] := by
  have := posFilter_snoc (fun pre y => decide (m y ≤ pre.count y)) xs x
  simpa [dropOccurrences] using this

theorem keepOccurrences_snoc (m : α → Nat) (xs : List α) (x : α) :
    keepOccurrences m (xs ++ [x]) = keepOccurrences m xs ++ if xs.count x < m x then [x] else [] := by
  have := posFilter_snoc (fun pre y => decide (pre.count y < m y)) xs x
  simpa [keepOccurrences] using this

/-- Multiplicities: bag difference. -/
theorem count_dropOccurrences (m : α → Nat) (xs : List α) (v : α) :
    (dropOccurrences m xs).count v = xs.count v - m v := by
  induction xs using snoc_induction with
  | nil => simp [dropOccurrences]
  | snoc xs x ih =>
    rw [dropOccurrences_snoc, List.count_append, List.count_append, ih]
    by_cases hv : x = v
    · subst hv
      by_cases h : m x ≤ xs.count x
      · simp [h]; omega
      · simp [h]; omega
    · by_cases h : m x ≤ xs.count x
      · simp [h, List.count_cons, hv]
      · simp [h, List.count_cons, hv]

/-- Multiplicities: bag intersection. -/
theorem count_keepOccurrences (m : α → Nat) (xs : List α) (v : α) :
    (keepOccurrences m xs).count v = min (xs.count v) (m v) := by
  induction xs using snoc_induction with
  | nil => simp [keepOccurrences]
  | snoc xs x ih =>
    rw [keepOccurrences_snoc, List.count_append, List.count_append, ih]
    by_cases hv : x = v
    · subst hv
      by_cases h : xs.count x < m x
      · simp [h]; omega
      · simp [h]; omega
    · by_cases h : xs.count x < m x
      · simp [h, List.count_cons, hv]
      · simp [h, List.count_cons, hv]

theorem dropOccurrences_sublist (m : α → Nat) (xs : List α) : (dropOccurrences m xs).Sublist xs := by
  induction xs using snoc_induction with
  | nil => simp [dropOccurrences]
  | snoc xs x ih =>
    rw [dropOccurrences_snoc]
    apply ih.append
    split <;> simp

theorem keepOccurrences_sublist (m : α → Nat) (xs : List α) : (keepOccurrences m xs).Sublist xs := by
  induction xs using snoc_induction with
  | nil => simp [keepOccurrences]
  | snoc xs x ih =>
    rw [keepOccurrences_snoc]
    apply ih.append
    split <;> simp

/-! ### difference -/

/-- The dictionary `d` holds the multiplicities `m`, with no entry for 0. -/
def CountsAre (d : Dict α Nat) (m : α → Nat) : Prop :=
  d.keys.Nodup ∧ ∀ v, d.get? v = if m v = 0 then none else some (m v)

theorem loadCounts_spec (hashable : α → Bool) (d : Dict α Nat) (es : List (Ev α)) (e : Option Exn) (m : α → Nat)
    (hd : CountsAre d m) (hh : ∀ x ∈ items es, hashable x = true) :
    ∃ d', loadCounts hashable d es e = (d', e) ∧ CountsAre d' fun v => m v + (items es).count v := by
  induction es generalizing d m with
  | nil => exact ⟨d, rfl, by simpa using hd⟩
  | cons ev es ih =>
    cases ev with
    | item x =>
      have hx : hashable x = true := hh x (by simp)
      simp only [loadCounts, hx, if_true]
      obtain ⟨d', h1, h2⟩ := ih (d.set x (match d.get? x with | none => 1 | some n => n + 1))
        (fun v => m v + if v = x then 1 else 0) (by
          refine ⟨Dict.nodup_keys_set _ _ _ hd.1, ?_⟩
          intro v
          rw [Dict.get?_set]
          by_cases hv : x = v
          · subst hv
            rw [hd.2 x]
            by_cases h0 : m x = 0 <;> simp [h0]
          · simp [hv, Ne.symm hv, hd.2 v]) (fun y hy => hh y (by simp [hy]))
      refine ⟨d', h1, h2.1, ?_⟩
      intro v
      rw [h2.2 v]
      simp only [items_item, List.count_cons]
      have : (if v = x then 1 else 0) = (if (x == v) = true then 1 else 0) := by
        by_cases h : v = x
        · simp [h]
        · simp [h, Ne.symm h]
      rw [this]
      congr 1
      · congr 1; omega
      · congr 1; omega
    | err m' => exact ih d m hd (by simpa using hh)
    | flush => exact ih d m hd (by simpa using hh)

theorem diffItem_spec (hashable : α → Bool) (d : Dict α Nat) (m : α → Nat) (pre : List α) (x : α)
    (hx : hashable x = true) (hd : CountsAre d fun v => m v - pre.count v) :
    ∃ d', diffItem hashable d x = ⟨⟨false, d'⟩, if m x ≤ pre.count x then [.item x] else [], none⟩ ∧
      CountsAre d' fun v => m v - (pre ++ [x]).count v := by
  simp only [diffItem, hx, if_true]
  have hg : d.get? x = if m x - pre.count x = 0 then none else some (m x - pre.count x) := hd.2 x
  by_cases h : m x ≤ pre.count x
  · have h0 : m x - pre.count x = 0 := by omega
    rw [h0] at hg
    simp only [if_true] at hg
    rw [hg]
    refine ⟨d, by simp [h], hd.1, ?_⟩
    intro v
    rw [hd.2 v]
    have : m v - (pre ++ [x]).count v = m v - pre.count v := by
      rw [List.count_append]
      by_cases hv : x = v
      · subst hv; simp; omega
      · simp [List.count_cons, hv]
    simp only [this]
  · have h0 : m x - pre.count x ≠ 0 := by omega
    simp only [h0, if_false] at hg
    rw [hg]
    simp only [h, if_false]
    by_cases h1 : m x - pre.count x = 1
    · simp only [h1, if_true]
      refine ⟨_, rfl, Dict.nodup_keys_erase _ _ hd.1, ?_⟩
      intro v
      rw [Dict.get?_erase _ _ _ hd.1, hd.2 v]
      simp only [List.count_append]
      by_cases hv : x = v
      · subst hv; simp; omega
      · simp [hv, List.count_cons]
    · simp only [h1, if_false]
      refine ⟨_, rfl, Dict.nodup_keys_set _ _ _ hd.1, ?_⟩
      intro v
      rw [Dict.get?_set, hd.2 v]
      simp only [List.count_append]
      by_cases hv : x = v
      · subst hv
        simp
        have : ¬ (m x - (pre.count x + 1) = 0) := by omega
        simp [this]; omega
      · simp [hv, List.count_cons]

/-- **C15.** `difference p`, on hashable items: exactly the input items other than, for each value, its first
(count in p) occurrences; in order, each on arrival (once p has been run). -/
theorem C15_difference (hashable : α → Bool) (arg : ArgRun α) (xs : List α)
    (harg : arg.exn = none) (hh : ∀ x ∈ xs, hashable x = true) (ha : ∀ x ∈ items arg.out, hashable x = true) :
    (diffOp hashable arg).obs (ofItems xs) =
      (ofItems (dropOccurrences (fun v => (items arg.out).count v) xs), none) ∧
    (diffOp hashable arg).run (ofItems xs) =
      (ofItems (dropOccurrences (fun v => (items arg.out).count v) xs) ++ [.flush], none) := by
  obtain ⟨d0, hl0, hl1⟩ := loadCounts_spec hashable [] arg.out arg.exn (fun _ => 0)
    ⟨by simp [Dict.keys], by simp⟩ ha
  rw [harg] at hl0
  simp only [Nat.zero_add] at hl1
  have H : ∀ (ys : List α), ys <+: xs →
      ((diffOp hashable arg).feed (diffOp hashable arg).init (ofItems ys)).exn = none ∧
      ((diffOp hashable arg).feed (diffOp hashable arg).init (ofItems ys)).out =
        ofItems (dropOccurrences (fun v => (items arg.out).count v) ys) ∧
      (((diffOp hashable arg).feed (diffOp hashable arg).init (ofItems ys)).st = ⟨true, []⟩ ∧ ys = [] ∨
       ∃ d, ((diffOp hashable arg).feed (diffOp hashable arg).init (ofItems ys)).st = ⟨false, d⟩ ∧
         CountsAre d fun v => (items arg.out).count v - ys.count v) := by
    intro ys
    induction ys using snoc_induction with
    | nil => intro _; exact ⟨rfl, by simp [feed_nil, dropOccurrences], Or.inl ⟨rfl, rfl⟩⟩
    | snoc ys y ih =>
      intro hp
      have hy : hashable y = true := hh y (hp.subset (by simp))
      obtain ⟨i1, i2, i3⟩ := ih ((List.prefix_append ys [y]).trans hp)
      have hitem : ∃ d', (diffOp hashable arg).item
          ((diffOp hashable arg).feed (diffOp hashable arg).init (ofItems ys)).st y =
          ⟨⟨false, d'⟩, if (items arg.out).count y ≤ ys.count y then [.item y] else [], none⟩ ∧
          CountsAre d' fun v => (items arg.out).count v - (ys ++ [y]).count v := by
        rcases i3 with ⟨hs, hys⟩ | ⟨d, hs, hd⟩
        · rw [hs]
          obtain ⟨d', h1, h2⟩ := diffItem_spec hashable d0 (fun v => (items arg.out).count v) ys y hy
            (by subst hys; simpa using hl1)
          refine ⟨d', ?_, h2⟩
          rw [← h1]
          simp only [diffOp, if_true, harg, hl0]
        · rw [hs]
          obtain ⟨d', h1, h2⟩ := diffItem_spec hashable d (fun v => (items arg.out).count v) ys y hy hd
          refine ⟨d', ?_, h2⟩
          rw [← h1]
          simp [diffOp]
      obtain ⟨d', h1, h2⟩ := hitem
      rw [ofItems_append, feed_append]
      simp only [i1, Option.isSome_none, Bool.false_eq_true, if_false, ofItems_cons, ofItems_nil, feed_cons,
        feed_nil, step_item, h1, catchKare]
      refine ⟨by simp, ?_, Or.inr ⟨d', by simp, h2⟩⟩
      rw [i2, dropOccurrences_snoc]
      simp
      split <;> rfl
  obtain ⟨h1, h2, h3⟩ := H xs (List.prefix_refl _)
  refine ⟨Prod.ext h2 h1, ?_⟩
  rw [run_ofItems _ _ h1, h2]; rfl

/-- **C15.** In other words: a subsequence of the input in which every value `v` occurs
(count in input) - (count in p) times. -/
theorem C15_difference_bag (m : α → Nat) (xs : List α) :
    (dropOccurrences m xs).Sublist xs ∧ ∀ v, (dropOccurrences m xs).count v = xs.count v - m v :=
  ⟨dropOccurrences_sublist m xs, count_dropOccurrences m xs⟩

/-! ### intersect -/

/-- The least multiplicity of `v` in the outputs of several argument pipelines. -/
def minCount : List (ArgRun α) → α → Nat
  | [], _ => 0
  | [a], v => (items a.out).count v
  | a :: as, v => min ((items a.out).count v) (minCount as v)

theorem intersectMerge_spec (c i : Dict α Nat) (m n : α → Nat) (hc : CountsAre c m) (hi : CountsAre i n) :
    CountsAre (intersectMerge c i) fun v => min (m v) (n v) := by
  obtain ⟨hn, hg⟩ := hc
  have hkeys : ∀ (c : Dict α Nat), (intersectMerge c i).keys.Sublist c.keys := by
    intro c
    induction c with
    | nil => simp [intersectMerge, Dict.keys]
    | cons a c ih =>
      obtain ⟨k, v⟩ := a
      unfold intersectMerge Dict.keys at ih ⊢
      simp only [List.filterMap_cons]
      split
      · exact ih.cons _
      · rename_i b hb
        have : b.1 = k := by
          split at hb
          · cases hb
          · split at hb <;> cases hb <;> rfl
        simp only [List.map_cons, this]
        exact ih.cons_cons _
  refine ⟨hn.sublist (hkeys c), ?_⟩
  have hget : ∀ (c : Dict α Nat) v, c.keys.Nodup → (intersectMerge c i).get? v =
      match c.get? v with
      | none => none
      | some k => let n := (i.get? v).getD 0; if n = 0 then none else if n < k then some n else some k := by
    intro c v
    induction c with
    | nil => intro _; rfl
    | cons a c ih =>
      obtain ⟨k, w⟩ := a
      intro hnd
      simp only [Dict.keys, List.map_cons, List.nodup_cons] at hnd
      have ih := ih hnd.2
      unfold intersectMerge at ih ⊢
      simp only [List.filterMap_cons, Dict.get?_cons]
      by_cases hk : k = v
      · subst hk
        simp only [if_true]
        have hnone : (intersectMerge c i).get? k = none := by
          rw [Dict.get?_eq_none_iff]
          exact fun h => hnd.1 ((hkeys c).subset h)
        unfold intersectMerge at hnone
        split
        · rename_i hb
          split at hb
          · rename_i h0; rw [hnone]; simp [h0]
          · split at hb <;> cases hb
        · rename_i b hb
          split at hb
          · cases hb
          · rename_i h0
            split at hb
            · rename_i h1; cases hb; simp only [Dict.get?_cons, if_true, h0, if_false, h1]
            · rename_i h1; cases hb; simp only [Dict.get?_cons, if_true, h0, if_false, h1]
      · simp only [hk, if_false]
        split
        · exact ih
        · rename_i b hb
          have : b.1 = k := by
            split at hb
            · cases hb
            · split at hb <;> cases hb <;> rfl
          obtain ⟨b1, b2⟩ := b
          simp only at this
          subst this
          simp only [Dict.get?_cons, hk, if_false]
          exact ih
  intro v
  rw [hget c v hn, hg v, hi.2 v]
  by_cases h1 : m v = 0
  · simp [h1]
  · simp only [h1, if_false]
    by_cases h2 : n v = 0
    · simp [h2]
    · simp only [h2, if_false, Option.getD_some]
      have : ¬ (min (m v) (n v) = 0) := by omega
      simp only [this, if_false]
      by_cases h3 : n v < m v
      · simp only [h3, if_true]; congr 1; omega
      · simp only [h3, if_false]; congr 1; omega

theorem intersectLoad_spec (hashable : α → Bool) (c : Dict α Nat) (m : α → Nat) (hc : CountsAre c m)
    (args : List (ArgRun α)) (harg : ∀ a ∈ args, a.exn = none)
    (ha : ∀ a ∈ args, ∀ x ∈ items a.out, hashable x = true) :
    ∃ c', intersectLoad hashable (some c) args = (some c', none) ∧
      CountsAre c' fun v => args.foldl (fun n a => min n ((items a.out).count v)) (m v) := by
  induction args generalizing c m with
  | nil => exact ⟨c, rfl, hc⟩
  | cons a as ih =>
    obtain ⟨d, hd1, hd2⟩ := loadCounts_spec hashable [] a.out a.exn (fun _ => 0)
      ⟨by simp [Dict.keys], by simp⟩ (ha a (by simp))
    rw [harg a (by simp)] at hd1
    simp only [Nat.zero_add] at hd2
    obtain ⟨c', h1, h2⟩ := ih (intersectMerge c d) _ (intersectMerge_spec c d m _ hc hd2)
      (fun x hx => harg x (by simp [hx])) (fun x hx => ha x (by simp [hx]))
    refine ⟨c', ?_, h2⟩
    simp only [intersectLoad, harg a (by simp), hd1]
    exact h1

theorem foldl_min_eq (a : ArgRun α) (as : List (ArgRun α)) (v : α) :
    as.foldl (fun n a => min n ((items a.out).count v)) ((items a.out).count v) = minCount (a :: as) v := by
  have : ∀ (as : List (ArgRun α)) (n : Nat) , as ≠ [] →
      as.foldl (fun n a => min n ((items a.out).count v)) n = min n (minCount as v) := by
    intro as
    induction as with
    | nil => intro _ h; exact absurd rfl h
    | cons b bs ih =>
      intro n _
      rw [List.foldl_cons]
      cases bs with
      | nil => simp [minCount]
      | cons c cs => rw [ih _ (by simp)]; simp only [minCount]; omega
  cases as with
  | nil => simp [minCount]
  | cons b bs => rw [this _ _ (by simp)]; simp [minCount]

/-- **C15.** `intersect p1 ... pk` (k ≥ 1), on hashable items: for each value its first (least count in
the pi) occurrences, in order, each on arrival (once the pi have been run). -/
theorem C15_intersect (hashable : α → Bool) (args : List (ArgRun α)) (hne : args ≠ []) (xs : List α)
    (harg : ∀ a ∈ args, a.exn = none) (hh : ∀ x ∈ xs, hashable x = true)
    (ha : ∀ a ∈ args, ∀ x ∈ items a.out, hashable x = true) :
    (intersectOp hashable args).obs (ofItems xs) = (ofItems (keepOccurrences (minCount args) xs), none) ∧
    (intersectOp hashable args).run (ofItems xs) =
      (ofItems (keepOccurrences (minCount args) xs) ++ [.flush], none) := by
  obtain ⟨c0, hl0, hl1⟩ : ∃ c0, intersectLoad hashable none args = (some c0, none) ∧ CountsAre c0 (minCount args) := by
    cases args with
    | nil => exact absurd rfl hne
    | cons a as =>
      obtain ⟨d, hd1, hd2⟩ := loadCounts_spec hashable [] a.out a.exn (fun _ => 0)
        ⟨by simp [Dict.keys], by simp⟩ (ha a (by simp))
      rw [harg a (by simp)] at hd1
      simp only [Nat.zero_add] at hd2
      obtain ⟨c', h1, h2⟩ := intersectLoad_spec hashable d _ hd2 as
        (fun x hx => harg x (by simp [hx])) (fun x hx => ha x (by simp [hx]))
      refine ⟨c', ?_, h2.1, ?_⟩
      · simp only [intersectLoad, harg a (by simp), hd1]; exact h1
      · intro v; rw [h2.2 v]; simp only [foldl_min_eq]
  -- the invariant on the counters: what may still be emitted
  have HI : ∀ (c : Dict α Nat) (pre : List α) (x : α), hashable x = true →
      (∀ v, (c.get? v).getD 0 = minCount args v - pre.count v) →
      ∃ c', (intersectOp hashable args).item (some c) x =
        ⟨some c', if pre.count x < minCount args x then [.item x] else [], none⟩ ∧
        ∀ v, (c'.get? v).getD 0 = minCount args v - (pre ++ [x]).count v := by
    intro c pre x hx hc
    simp only [intersectOp, hx, if_true, hc x]
    by_cases h : pre.count x < minCount args x
    · have : minCount args x - pre.count x > 0 := by omega
      simp only [this, h, if_true]
      refine ⟨_, rfl, ?_⟩
      intro v
      rw [Dict.get?_set, List.count_append]
      by_cases hv : x = v
      · subst hv; simp; omega
      · simp [hv, List.count_cons, hc v]
    · have : ¬ minCount args x - pre.count x > 0 := by omega
      simp only [this, h, if_false]
      refine ⟨_, rfl, ?_⟩
      intro v
      rw [hc v, List.count_append]
      by_cases hv : x = v
      · subst hv; simp; omega
      · simp [hv, List.count_cons]
  have h00 : ∀ v, (c0.get? v).getD 0 = minCount args v - ([] : List α).count v := by
    intro v; rw [hl1.2 v]; by_cases h : minCount args v = 0 <;> simp [h]
  have hfirst : ∀ x, (intersectOp hashable args).item none x = (intersectOp hashable args).item (some c0) x := by
    intro x; simp only [intersectOp, hl0]
  have H : ∀ (ys : List α), ys <+: xs →
      ((intersectOp hashable args).feed (intersectOp hashable args).init (ofItems ys)).exn = none ∧
      ((intersectOp hashable args).feed (intersectOp hashable args).init (ofItems ys)).out =
        ofItems (keepOccurrences (minCount args) ys) ∧
      (((intersectOp hashable args).feed (intersectOp hashable args).init (ofItems ys)).st = none ∧ ys = [] ∨
       ∃ c, ((intersectOp hashable args).feed (intersectOp hashable args).init (ofItems ys)).st = some c ∧
         ∀ v, (c.get? v).getD 0 = minCount args v - ys.count v) := by
    intro ys
    induction ys using snoc_induction with
    | nil => intro _; exact ⟨rfl, by simp [feed_nil, keepOccurrences], Or.inl ⟨rfl, rfl⟩⟩
    | snoc ys y ih =>
      intro hp
      have hy : hashable y = true := hh y (hp.subset (by simp))
      obtain ⟨i1, i2, i3⟩ := ih ((List.prefix_append ys [y]).trans hp)
      have hitem : ∃ c', (intersectOp hashable args).item
          ((intersectOp hashable args).feed (intersectOp hashable args).init (ofItems ys)).st y =
          ⟨some c', if ys.count y < minCount args y then [.item y] else [], none⟩ ∧
          ∀ v, (c'.get? v).getD 0 = minCount args v - (ys ++ [y]).count v := by
        rcases i3 with ⟨hs, hys⟩ | ⟨c, hs, hc⟩
        · rw [hs, hfirst]; exact HI c0 ys y hy (by subst hys; exact h00)
        · rw [hs]; exact HI c ys y hy hc
      obtain ⟨c', h1, h2⟩ := hitem
      rw [ofItems_append, feed_append]
      simp only [i1, Option.isSome_none, Bool.false_eq_true, if_false, ofItems_cons, ofItems_nil, feed_cons,
        feed_nil, step_item, h1, catchKare]
      refine ⟨by simp, ?_, Or.inr ⟨c', by simp, h2⟩⟩
      rw [i2, keepOccurrences_snoc]
      simp
      split <;> rfl
  obtain ⟨h1, h2, h3⟩ := H xs (List.prefix_refl _)
  refine ⟨Prod.ext h2 h1, ?_⟩
  rw [run_ofItems _ _ h1, h2]; rfl

/-- **C15.** In other words: a subsequence of the input in which every value occurs as often as in the stream
(input or argument) where it is rarest. -/
theorem C15_intersect_bag (m : α → Nat) (xs : List α) :
    (keepOccurrences m xs).Sublist xs ∧ ∀ v, (keepOccurrences m xs).count v = min (xs.count v) (m v) :=
  ⟨keepOccurrences_sublist m xs, count_keepOccurrences m xs⟩

/-- **C15.** Without argument pipelines `intersect` crashes on the first item. -/
theorem C15_intersect_no_args (hashable : α → Bool) (x : α) (es : List (Ev α)) :
    (intersectOp hashable []).run (.item x :: es) = ([], some .crash) := by
  simp only [run, obs, List.cons_append, feed_cons, step_item]
  simp [intersectOp, intersectLoad, catchKare]

/-- **C15.** If the argument pipeline of `difference` fails (with an exception other than the one that is handled per item), the
command ends with that exception when the first item arrives, and nothing has been sent. -/
theorem C15_difference_failure (hashable : α → Bool) (arg : ArgRun α) (x : α) (es : List (Ev α)) (e : Exn) (he : e ≠ .kare)
    (harg : arg.exn = some e) (ha : ∀ x ∈ items arg.out, hashable x = true) :
    (diffOp hashable arg).run (.item x :: es) = ([], some e) := by
  obtain ⟨d, h1, _⟩ := loadCounts_spec hashable [] arg.out arg.exn (fun _ => 0) ⟨by simp [Dict.keys], by simp⟩ ha
  rw [harg] at h1
  simp only [run, obs, List.cons_append, feed_cons, step_item]
  simp [diffOp, harg, h1, catchKare, he]

/-- **C15.** An item of the argument pipeline that is not hashable kills the command. -/
theorem loadCounts_unhashable (hashable : α → Bool) (d : Dict α Nat) (es : List (Ev α)) (e : Option Exn)
    (h : ∃ x ∈ items es, hashable x = false) : (loadCounts hashable d es e).2 = some .kill := by
  fun_induction loadCounts hashable d es e with
  | case1 => simp at h
  | case2 d x es e hx ih =>
    obtain ⟨y, hy, hy'⟩ := h
    simp only [items_item, List.mem_cons] at hy
    rcases hy with rfl | hy
    · rw [hx] at hy'; cases hy'
    · exact ih ⟨y, hy, hy'⟩
  | case3 => rfl
  | case4 d e' es e hne ih =>
    cases e' with
    | item x => exact absurd rfl (hne x)
    | err m => exact ih h
    | flush => exact ih h

/-- **C15.** An unhashable item on either side kills the command `difference`: nothing is sent from there on. -/
theorem C15_difference_unhashable (hashable : α → Bool) (arg : ArgRun α) (x : α) (es : List (Ev α))
    (h : (∃ y ∈ items arg.out, hashable y = false) ∨
      (arg.exn = none ∧ (∀ y ∈ items arg.out, hashable y = true) ∧ hashable x = false)) :
    (diffOp hashable arg).run (.item x :: es) = ([], some .kill) := by
  simp only [run, obs, List.cons_append, feed_cons, step_item]
  rcases h with h | ⟨h0, h1, h2⟩
  · have hl := loadCounts_unhashable hashable [] arg.out arg.exn h
    rcases hq : loadCounts hashable [] arg.out arg.exn with ⟨d, q⟩
    rw [hq] at hl
    simp only at hl
    subst hl
    simp [diffOp, hq, catchKare]
  · obtain ⟨d, h3, _⟩ := loadCounts_spec hashable [] arg.out arg.exn (fun _ => 0) ⟨by simp [Dict.keys], by simp⟩ h1
    rw [h0] at h3
    simp [diffOp, diffItem, h0, h3, h2, catchKare]

/-- **C15.** If an argument pipeline of `intersect` fails, or sends an unhashable item, the command ends with that exception (kill)
when the first item arrives. -/
theorem C15_intersect_failure (hashable : α → Bool) (good : List (ArgRun α)) (bad : ArgRun α) (rest : List (ArgRun α)) (x : α)
    (es : List (Ev α)) (e : Exn) (he : e ≠ .kare)
    (hgood : ∀ a ∈ good, a.exn = none ∧ ∀ x ∈ items a.out, hashable x = true)
    (hbad : (bad.exn = some e ∧ ∀ x ∈ items bad.out, hashable x = true) ∨
      (e = .kill ∧ ∃ x ∈ items bad.out, hashable x = false)) :
    (intersectOp hashable (good ++ bad :: rest)).run (.item x :: es) = ([], some e) := by
  have key : ∀ c, (intersectLoad hashable c (good ++ bad :: rest)).2 = some e := by
    intro c
    induction good generalizing c with
    | nil =>
      have : (loadCounts hashable [] bad.out bad.exn).2 = some e := by
        rcases hbad with ⟨h1, h2⟩ | ⟨h1, h2⟩
        · obtain ⟨d, h3, _⟩ := loadCounts_spec hashable [] bad.out bad.exn (fun _ => 0) ⟨by simp [Dict.keys], by simp⟩ h2
          rw [h3, h1]
        · rw [loadCounts_unhashable hashable [] bad.out bad.exn h2, h1]
      rcases hq : loadCounts hashable [] bad.out bad.exn with ⟨d, q⟩
      rw [hq] at this
      simp only at this
      subst this
      simp [intersectLoad, hq]
    | cons a good ih =>
      obtain ⟨h1, h2⟩ := hgood a (by simp)
      obtain ⟨d, h3, _⟩ := loadCounts_spec hashable [] a.out a.exn (fun _ => 0) ⟨by simp [Dict.keys], by simp⟩ h2
      rw [h1] at h3
      simp only [List.cons_append, intersectLoad, h1, h3]
      exact ih (fun b hb => hgood b (by simp [hb])) _
  have hk := key none
  rcases hq : intersectLoad hashable none (good ++ bad :: rest) with ⟨c, q⟩
  rw [hq] at hk
  simp only at hk
  subst hk
  simp only [run, obs, List.cons_append, feed_cons, step_item]
  simp [intersectOp, hq, catchKare, he]

/-- **C15.** If an argument pipeline of `union` fails, its output up to there has been sent, and the command ends with the exception. -/
theorem C15_union_failure (good : List (ArgRun α)) (bad : ArgRun α) (rest : List (ArgRun α)) (xs : List α) (e : Exn)
    (hgood : ∀ a ∈ good, a.exn = none) (hbad : bad.exn = some e) :
    items ((unionOp (good ++ bad :: rest)).run (ofItems xs)).1 =
        xs ++ good.flatMap (fun a => items a.out) ++ items bad.out ∧
      ((unionOp (good ++ bad :: rest)).run (ofItems xs)).2 = some e := by
  have hi : ∀ l : List (Ev α), items (dropFlush l) = items l := by
    intro l
    induction l with
    | nil => rfl
    | cons a l ih => cases a <;> simp [dropFlush, ih]
  have key : items (unionFlush (good ++ bad :: rest)).out = good.flatMap (fun a => items a.out) ++ items bad.out ∧
      (unionFlush (good ++ bad :: rest)).exn = some e := by
    induction good with
    | nil =>
      cases rest with
      | nil => simp [unionFlush, hbad]
      | cons r rest => simp [unionFlush, hbad, hi]
    | cons a good ih =>
      obtain ⟨h1, h2⟩ := ih (fun b hb => hgood b (by simp [hb]))
      have ha := hgood a (by simp)
      have hne : ∃ b l, good ++ bad :: rest = b :: l := by cases good <;> simp
      obtain ⟨b, l, hbl⟩ := hne
      simp only [List.cons_append]
      rw [hbl] at h1 h2 ⊢
      simp only [unionFlush, ha, Option.isSome_none, Bool.false_eq_true, if_false, items_append, hi, h1, h2,
        List.flatMap_cons, List.append_assoc, and_self]
  have h0 := obs_ofItems_unit (unionOp (good ++ bad :: rest)) (by intro x; simp [unionOp, catchKare]) xs
  have hx : (xs.flatMap fun x => ((unionOp (good ++ bad :: rest)).item () x).out) = ofItems xs := by
    clear h0
    induction xs with
    | nil => rfl
    | cons x xs ih => rw [List.flatMap_cons, ih]; rfl
  rw [hx] at h0
  simp only [obs, Prod.mk.injEq] at h0
  rw [run_ofItems _ _ h0.2, h0.1]
  simp [unionOp, key.1, key.2]

example : (unionOp [⟨ofItems [1, 2] ++ [.flush], none⟩, ⟨ofItems [7], some .kill⟩, ⟨ofItems [8], none⟩]).run (ofItems [5]) =
    ([.item 5, .item 1, .item 2, .item 7], some .kill) := by decide
example : (intersectOp (fun _ => true) [⟨ofItems [1], none⟩, ⟨ofItems [1], some .crash⟩]).run (ofItems [1, 3]) =
    ([], some .crash) := by decide

example : (diffOp (fun _ => true) ⟨ofItems [1, 2, 1] ++ [.flush], none⟩).run (ofItems [1, 3, 1, 2, 1]) =
    ([.item 3, .item 1, .flush], none) := by decide
example : (intersectOp (fun _ => true) [⟨ofItems [1, 2, 1, 3] ++ [.flush], none⟩, ⟨ofItems [1, 1, 1, 3], none⟩]).run
    (ofItems [1, 3, 1, 2, 1]) = ([.item 1, .item 3, .item 1, .flush], none) := by decide
example : (unionOp [⟨ofItems [1, 2] ++ [.flush], none⟩, ⟨ofItems [7] ++ [.flush], none⟩]).run (ofItems [5, 6]) =
    ([.item 5, .item 6, .item 1, .item 2, .item 7, .flush, .flush], none) := by decide

end Marcel
