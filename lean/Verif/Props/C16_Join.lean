import Verif.Model.SetOps
import Verif.Lemmas.Dict
import Verif.Lemmas.Stream

/-! C16: join. C17: filter. -/

namespace Marcel
open Op

variable {V : Type} [DecidableEq V]

/-- Specification: the items of the argument that match `x`: same first component. -/
def matching (ys : List (List V)) (x : List V) : List (List V) := ys.filter fun y => y.head? = x.head?

/-- Specification of what one input item contributes to a join. -/
def joined (keep : Bool) (ys : List (List V)) (x : List V) : List (List V) :=
  if matching ys x = [] then (if keep then [x] else [])
  else (matching ys x).map fun y => x ++ y.tail

/-- `y` has first component `k`. -/
def hasKey (k : V) (y : List V) : Bool := y.head? == some k

theorem matching_cons (ys : List (List V)) (k : V) (x : List V) : matching ys (k :: x) = ys.filter (hasKey k) := by
  unfold matching
  apply List.filter_congr
  intro y _
  simp only [hasKey, List.head?_cons]
  by_cases h : y.head? = some k <;> simp [h]

/-- The dictionary value representing a list of matches. -/
def toJoinVal : List (List V) → Option (JoinVal V)
  | [] => none
  | [y] => some (.one y)
  | ys => some (.many ys)

theorem joinLoad_spec (hashable : V → Bool) (d : Dict V (JoinVal V)) (es : List (Ev (List V))) (e : Option Exn)
    (ys : List (List V)) (hd : ∀ k, d.get? k = toJoinVal (ys.filter (hasKey k)))
    (hh : ∀ y ∈ items es, ∀ k, y.head? = some k → hashable k = true) :
    ∃ d', joinLoad hashable d es e = (d', e) ∧
      ∀ k, d'.get? k = toJoinVal ((ys ++ items es).filter (hasKey k)) := by
  induction es generalizing d ys with
  | nil => exact ⟨d, rfl, by simpa using hd⟩
  | cons ev es ih =>
    cases ev with
    | item y =>
      cases y with
      | nil =>
        obtain ⟨d', h1, h2⟩ := ih d (ys ++ [[]]) (by intro k; rw [hd k]; simp [hasKey])
          (fun y hy => hh y (by simp [hy]))
        exact ⟨d', h1, by intro k; rw [h2 k]; simp [hasKey]⟩
      | cons k y =>
        have hk : hashable k = true := hh (k :: y) (by simp) k rfl
        simp only [joinLoad, hk, if_true]
        obtain ⟨d', h1, h2⟩ := ih (d.set k (match d.get? k with
            | none => .one (k :: y)
            | some (.one z) => .many [z, k :: y]
            | some (.many zs) => .many (zs ++ [k :: y]))) (ys ++ [k :: y]) (by
          intro j
          rw [Dict.get?_set]
          by_cases hj : k = j
          · subst hj
            rw [if_pos rfl, hd k, List.filter_append]
            generalize ys.filter (hasKey k) = zs
            match zs with
            | [] => simp [toJoinVal, hasKey]
            | [a] => simp [toJoinVal, hasKey]
            | a :: b :: l => simp [toJoinVal, hasKey]
          · rw [if_neg hj, hd j, List.filter_append]
            simp [hasKey, hj]) (fun y hy => hh y (by simp [hy]))
        refine ⟨d', h1, ?_⟩
        intro j; rw [h2 j]; simp
    | err m => exact ih d ys hd (by simpa using hh)
    | flush => exact ih d ys hd (by simpa using hh)

theorem joinItem_spec (hashable : V → Bool) (keep : Bool) (d : Dict V (JoinVal V)) (ys : List (List V))
    (hd : ∀ k, d.get? k = toJoinVal (ys.filter (hasKey k))) (k : V) (x : List V)
    (hk : hashable k = true) :
    joinItem hashable keep d (k :: x) = ⟨⟨false, d⟩, ofItems (joined keep ys (k :: x)), none⟩ := by
  simp only [joinItem, hk, if_true, hd k, joined, matching_cons]
  generalize ys.filter (hasKey k) = zs
  match zs with
  | [] => cases keep <;> simp [toJoinVal]
  | [a] => simp [toJoinVal]
  | a :: b :: l => simp [toJoinVal]

/-- **C16.** `join p` and `join -k p`, on non-empty items with hashable first components: for each input item
in order, and each matching item of p in p's order, the input item extended by the rest of p's item; an input
item without a match is passed with -k and dropped otherwise. -/
theorem C16_join (hashable : V → Bool) (keep : Bool) (arg : ArgRun (List V)) (xs : List (List V))
    (harg : arg.exn = none) (hx : ∀ x ∈ xs, ∃ k, x.head? = some k ∧ hashable k = true)
    (ha : ∀ y ∈ items arg.out, ∀ k, y.head? = some k → hashable k = true) :
    (joinOp hashable keep arg).obs (ofItems xs) =
      (ofItems (xs.flatMap (joined keep (items arg.out))), none) ∧
    (joinOp hashable keep arg).run (ofItems xs) =
      (ofItems (xs.flatMap (joined keep (items arg.out))) ++ [.flush], none) := by
  obtain ⟨d, hd1, hd2⟩ := joinLoad_spec hashable [] arg.out arg.exn [] (by intro k; rfl) ha
  rw [harg] at hd1
  simp only [List.nil_append] at hd2
  have h := (joinOp hashable keep arg).run_flatMap xs
    (fun s => s = ⟨true, []⟩ ∨ s = ⟨false, d⟩) (fun x => ofItems (joined keep (items arg.out) x)) (Or.inl rfl)
    (by
      intro s x hs hxm
      obtain ⟨k, hk, hkh⟩ := hx x hxm
      cases x with
      | nil => simp at hk
      | cons k' x =>
        simp at hk; subst hk
        refine ⟨⟨false, d⟩, none, Or.inr rfl, Or.inl rfl, ?_⟩
        rw [← joinItem_spec hashable keep d _ hd2 k' x hkh]
        rcases hs with rfl | rfl
        · simp only [joinOp, if_true, harg, hd1]
        · simp [joinOp])
    (by intro s _; exact ⟨rfl, rfl⟩)
  have e : (xs.flatMap fun x => ofItems (joined keep (items arg.out) x)) =
      ofItems (xs.flatMap (joined keep (items arg.out))) := by
    simp [ofItems, List.map_flatMap]
  rw [e] at h
  exact h

example : (joinOp (fun _ => true) true ⟨ofItems [[1, 10], [2, 20], [1, 11], []], none⟩).run
    (ofItems [[1, 5], [3, 6], [2, 7]]) =
    ([.item [1, 5, 10], .item [1, 5, 11], .item [3, 6], .item [2, 7, 20], .flush], none) := by decide

/-- **C16.** An item without components (an empty tuple) ends the command with an IndexError (join.py 94), when the argument pipeline has
run. -/
theorem C16_empty_item (hashable : V → Bool) (keep : Bool) (arg : ArgRun (List V)) (xs : List (List V)) (es : List (Ev (List V)))
    (harg : arg.exn = none) (hx : ∀ x ∈ xs, ∃ k, x.head? = some k ∧ hashable k = true)
    (ha : ∀ y ∈ items arg.out, ∀ k, y.head? = some k → hashable k = true) :
    (joinOp hashable keep arg).run (ofItems xs ++ .item [] :: es) =
      (ofItems (xs.flatMap (joined keep (items arg.out))), some .crash) := by
  have h := (C16_join hashable keep arg xs harg hx ha).1
  simp only [obs, Prod.mk.injEq] at h
  have hc : ∀ s, ∃ s', (joinOp hashable keep arg).item s [] = ⟨s', [], some .crash⟩ := by
    intro s
    obtain ⟨d, hd1, _⟩ := joinLoad_spec hashable [] arg.out arg.exn [] (by intro k; rfl) ha
    rw [harg] at hd1
    by_cases hs : s.first
    · have h2 : ∀ d0, (joinLoad hashable d0 arg.out none).2 = none := by
        intro d0
        have : ∀ (es : List (Ev (List V))) (d0 : Dict V (JoinVal V)),
            (∀ y ∈ items es, ∀ k, y.head? = some k → hashable k = true) → (joinLoad hashable d0 es none).2 = none := by
          intro es
          induction es with
          | nil => intro d0 _; rfl
          | cons ev es ih =>
            intro d0 hh
            cases ev with
            | item y =>
              cases y with
              | nil => exact ih d0 (fun y hy => hh y (by simp [hy]))
              | cons k y =>
                have hk : hashable k = true := hh (k :: y) (by simp) k rfl
                simp only [joinLoad, hk, if_true]
                exact ih _ (fun y hy => hh y (by simp [hy]))
            | err m => exact ih d0 (by simpa using hh)
            | flush => exact ih d0 (by simpa using hh)
        exact this arg.out d0 ha
      rcases hq : joinLoad hashable s.inner arg.out none with ⟨d', q⟩
      have := h2 s.inner
      rw [hq] at this
      simp only at this
      subst this
      exact ⟨⟨false, d'⟩, by simp only [joinOp, hs, if_true, harg, hq]; rfl⟩
    · exact ⟨⟨false, s.inner⟩, by simp only [joinOp, hs]; rfl⟩
  simp only [run, obs, List.append_assoc, feed_append, h.2, Option.isSome_none, Bool.false_eq_true, if_false, List.cons_append,
    feed_cons, step_item, h.1]
  obtain ⟨s', hs'⟩ := hc ((joinOp hashable keep arg).feed (joinOp hashable keep arg).init (ofItems xs)).st
  simp [hs', catchKare]

theorem joinLoad_exn (hashable : V → Bool) (d : Dict V (JoinVal V)) (es : List (Ev (List V))) (e : Option Exn)
    (h : ∃ y ∈ items es, ∃ k, y.head? = some k ∧ hashable k = false) : (joinLoad hashable d es e).2 = some .kill := by
  induction es generalizing d with
  | nil => simp at h
  | cons ev es ih =>
    cases ev with
    | item y =>
      obtain ⟨z, hz, k, hk, hf⟩ := h
      cases y with
      | nil =>
        simp only [items_item, List.mem_cons] at hz
        rcases hz with rfl | hz
        · simp at hk
        · exact ih d ⟨z, hz, k, hk, hf⟩
      | cons k' y =>
        simp only [joinLoad]
        by_cases hk' : hashable k' = true
        · simp only [hk', if_true]
          apply ih
          simp only [items_item, List.mem_cons] at hz
          rcases hz with rfl | hz
          · simp only [List.head?_cons, Option.some.injEq] at hk
            subst hk; rw [hk'] at hf; cases hf
          · exact ⟨z, hz, k, hk, hf⟩
        · simp [hk']
    | err m => exact ih d (by simpa using h)
    | flush => exact ih d (by simpa using h)

/-- **C16.** If the argument pipeline of `join` fails, or sends an item with an unhashable join value (kill), the command ends with that
exception when the first item arrives, and nothing has been sent. -/
theorem C16_failure (hashable : V → Bool) (keep : Bool) (arg : ArgRun (List V)) (x : List V) (es : List (Ev (List V))) (e : Exn)
    (he : e ≠ .kare)
    (h : (arg.exn = some e ∧ ∀ y ∈ items arg.out, ∀ k, y.head? = some k → hashable k = true) ∨
      (e = .kill ∧ ∃ y ∈ items arg.out, ∃ k, y.head? = some k ∧ hashable k = false)) :
    (joinOp hashable keep arg).run (.item x :: es) = ([], some e) := by
  have key : (joinLoad hashable [] arg.out arg.exn).2 = some e := by
    rcases h with ⟨h1, h2⟩ | ⟨h1, h2⟩
    · obtain ⟨d, h3, _⟩ := joinLoad_spec hashable [] arg.out arg.exn [] (by intro k; rfl) h2
      rw [h3, h1]
    · rw [joinLoad_exn hashable [] arg.out arg.exn h2, h1]
  rcases hq : joinLoad hashable [] arg.out arg.exn with ⟨d, q⟩
  rw [hq] at key
  simp only at key
  subst key
  simp only [run, obs, List.cons_append, feed_cons, step_item]
  simp [joinOp, hq, catchKare, he]

example : (joinOp (fun _ => true) true ⟨ofItems [[1, 10], [2, 20]], none⟩).run (ofItems [[1, 5], [], [2, 7]]) =
    ([.item [1, 5, 10]], some .crash) := by decide
example : (joinOp (fun k => k < 9) true ⟨ofItems [[1, 10], [9, 20]], none⟩).run (ofItems [[1, 5], [2, 7]]) =
    ([], some .kill) := by decide

/-! ### filter -/

variable {α κ : Type} [DecidableEq κ]

theorem filterLoad_spec (hashable : κ → Bool) (r : List κ) (es : List (Ev κ)) (e : Option Exn)
    (hh : ∀ y ∈ items es, hashable y = true) :
    ∃ r', filterLoad hashable r es e = (r', e) ∧ ∀ k, k ∈ r' ↔ k ∈ r ∨ k ∈ items es := by
  induction es generalizing r with
  | nil => exact ⟨r, rfl, by simp⟩
  | cons ev es ih =>
    cases ev with
    | item y =>
      have hy : hashable y = true := hh y (by simp)
      simp only [filterLoad, hy, if_true]
      obtain ⟨r', h1, h2⟩ := ih (y :: r) (fun y hy => hh y (by simp [hy]))
      refine ⟨r', h1, ?_⟩
      intro k; rw [h2 k, items_item, List.mem_cons, List.mem_cons]
      constructor
      · rintro ((h | h) | h)
        · exact Or.inr (Or.inl h)
        · exact Or.inl h
        · exact Or.inr (Or.inr h)
      · rintro (h | h | h)
        · exact Or.inl (Or.inr h)
        · exact Or.inl (Or.inl h)
        · exact Or.inr h
    | err m => exact ih r (by simpa using hh)
    | flush => exact ih r (by simpa using hh)

/-- **C17.** `filter` with comparison function `c` (not raising on the input; hashable values): keeps exactly the
input items whose comparison value occurs in the output of the argument pipeline (-d: does not occur), unmodified
and in order. -/
theorem C17_filter (hashable : κ → Bool) (c : α → κ) (compare : α → Except Msg κ) (discard : Bool)
    (arg : ArgRun κ) (xs : List α) (harg : arg.exn = none)
    (hc : ∀ x ∈ xs, compare x = .ok (c x)) (hx : ∀ x ∈ xs, hashable (c x) = true)
    (ha : ∀ y ∈ items arg.out, hashable y = true) :
    (filterOp hashable compare discard arg).obs (ofItems xs) =
      (ofItems (xs.filter fun x => if discard then decide (c x ∉ items arg.out) else decide (c x ∈ items arg.out)), none) ∧
    (filterOp hashable compare discard arg).run (ofItems xs) =
      (ofItems (xs.filter fun x => if discard then decide (c x ∉ items arg.out) else decide (c x ∈ items arg.out)) ++
        [.flush], none) := by
  obtain ⟨r, hr1, hr2⟩ := filterLoad_spec hashable [] arg.out arg.exn ha
  rw [harg] at hr1
  simp only [List.not_mem_nil, false_or] at hr2
  have h := (filterOp hashable compare discard arg).run_flatMap xs
    (fun s => s = none ∨ s = some r)
    (fun x => if (if discard then decide (c x ∉ items arg.out) else decide (c x ∈ items arg.out)) = true
      then [.item x] else []) (Or.inl rfl)
    (by
      intro s x hs hxm
      refine ⟨some r, none, Or.inr rfl, Or.inl rfl, ?_⟩
      have hi : (filterOp hashable compare discard arg).item s x =
          if decide (c x ∈ r) = !discard then ⟨some r, [.item x], none⟩ else ⟨some r, [], none⟩ := by
        rcases hs with rfl | rfl
        · simp only [filterOp, harg, hr1, hc x hxm, hx x hxm, if_true]
        · simp only [filterOp, hc x hxm, hx x hxm, if_true]
      rw [hi]
      simp only [hr2 (c x)]
      by_cases hm : c x ∈ items arg.out <;> cases discard <;> simp [hm])
    (by intro s _; exact ⟨rfl, rfl⟩)
  have e : ∀ (p : α → Bool) (l : List α), (l.flatMap fun x => if p x = true then [Ev.item x] else []) =
      ofItems (l.filter p) := by
    intro p l
    induction l with
    | nil => rfl
    | cons a l ih => rw [List.flatMap_cons, ih]; by_cases ha : p a <;> simp [ha]
  rw [e] at h
  exact h

/-- **C17.** keep and discard partition the input. -/
theorem C17_filter_partition (hashable : κ → Bool) (c : α → κ) (compare : α → Except Msg κ)
    (arg : ArgRun κ) (xs : List α) (harg : arg.exn = none)
    (hc : ∀ x ∈ xs, compare x = .ok (c x)) (hx : ∀ x ∈ xs, hashable (c x) = true)
    (ha : ∀ y ∈ items arg.out, hashable y = true) :
    let kept := items ((filterOp hashable compare false arg).run (ofItems xs)).1
    let discarded := items ((filterOp hashable compare true arg).run (ofItems xs)).1
    (kept ++ discarded).Perm xs ∧ kept.Sublist xs ∧ discarded.Sublist xs ∧
      (∀ x ∈ kept, c x ∈ items arg.out) ∧ (∀ x ∈ discarded, c x ∉ items arg.out) := by
  intro kept discarded
  have hk : kept = xs.filter fun x => decide (c x ∈ items arg.out) := by
    simp [kept, (C17_filter hashable c compare false arg xs harg hc hx ha).2]
  have hd : discarded = xs.filter fun x => !decide (c x ∈ items arg.out) := by
    simp [discarded, (C17_filter hashable c compare true arg xs harg hc hx ha).2]
  rw [hk, hd]
  refine ⟨?_, List.filter_sublist, List.filter_sublist, ?_, ?_⟩
  · exact List.filter_append_perm _ _
  · intro x hx; simp at hx; exact hx.2
  · intro x hx; simp at hx; exact hx.2

/-- **C17.** A raising comparison function is not handled like other user functions: it ends the command. -/
theorem C17_compare_raises (hashable : κ → Bool) (compare : α → Except Msg κ) (discard : Bool) (arg : ArgRun κ)
    (x : α) (m : Msg) (es : List (Ev α)) (harg : arg.exn = none)
    (ha : ∀ y ∈ items arg.out, hashable y = true) (hc : compare x = .error m) :
    (filterOp hashable compare discard arg).run (.item x :: es) = ([], some .crash) := by
  obtain ⟨r, hr1, hr2⟩ := filterLoad_spec hashable [] arg.out arg.exn ha
  rw [harg] at hr1
  simp only [run, obs, List.cons_append, feed_cons, step_item]
  simp [filterOp, harg, hr1, hc, catchKare]

theorem filterLoad_exn (hashable : κ → Bool) (r : List κ) (es : List (Ev κ)) (e : Option Exn)
    (h : ∃ y ∈ items es, hashable y = false) : (filterLoad hashable r es e).2 = some .kill := by
  induction es generalizing r with
  | nil => simp at h
  | cons ev es ih =>
    cases ev with
    | item y =>
      obtain ⟨z, hz, hf⟩ := h
      simp only [filterLoad]
      by_cases hy : hashable y = true
      · simp only [hy, if_true]
        apply ih
        simp only [items_item, List.mem_cons] at hz
        rcases hz with rfl | hz
        · rw [hy] at hf; cases hf
        · exact ⟨z, hz, hf⟩
      · simp [hy]
    | err m => exact ih r (by simpa using h)
    | flush => exact ih r (by simpa using h)

/-- **C17.** If the argument pipeline of `filter` fails, or sends an unhashable item (kill), the command ends with that exception when the
first item arrives, and nothing has been sent; an unhashable comparison value kills the command as well. -/
theorem C17_failure (hashable : κ → Bool) (compare : α → Except Msg κ) (discard : Bool) (arg : ArgRun κ) (x : α)
    (es : List (Ev α)) (e : Exn) (he : e ≠ .kare)
    (h : (arg.exn = some e ∧ ∀ y ∈ items arg.out, hashable y = true) ∨
      (e = .kill ∧ ∃ y ∈ items arg.out, hashable y = false) ∨
      (e = .kill ∧ arg.exn = none ∧ (∀ y ∈ items arg.out, hashable y = true) ∧ ∃ c, compare x = .ok c ∧ hashable c = false)) :
    (filterOp hashable compare discard arg).run (.item x :: es) = ([], some e) := by
  simp only [run, obs, List.cons_append, feed_cons, step_item]
  rcases h with ⟨h1, h2⟩ | ⟨rfl, h2⟩ | ⟨rfl, h0, h1, c, h2, h3⟩
  · obtain ⟨r, h3, _⟩ := filterLoad_spec hashable [] arg.out arg.exn h2
    rw [h1] at h3
    simp [filterOp, h1, h3, catchKare, he]
  · have hl := filterLoad_exn hashable [] arg.out arg.exn h2
    rcases hq : filterLoad hashable [] arg.out arg.exn with ⟨r, q⟩
    rw [hq] at hl
    simp only at hl
    subst hl
    simp [filterOp, hq, catchKare]
  · obtain ⟨r, h4, _⟩ := filterLoad_spec hashable [] arg.out arg.exn h1
    rw [h0] at h4
    simp [filterOp, h0, h4, h2, h3, catchKare]

example : (filterOp (fun k => k < 9) (fun x : Nat => .ok x) false ⟨ofItems [1], none⟩).run (ofItems [9, 1]) =
    ([], some .kill) := by decide
example : (filterOp (fun _ => true) (fun x : Nat => .ok (x % 10)) true ⟨ofItems [1, 2], none⟩).run
    (ofItems [11, 13, 22, 5]) = ([.item 13, .item 5, .flush], none) := by decide

end Marcel
