import Verif.Model.Ops
import Verif.Lemmas.Stream
import Verif.Lemmas.Lists

/-! C07: unique. -/

namespace Marcel
open Op

variable {α : Type} [DecidableEq α]

/-- Specification: the items at the positions where the item does not occur earlier. -/
def firstOccurrences (xs : List α) : List α :=
  (List.range xs.length).filterMap fun i => if xs[i]? ∈ (xs.take i).map some then none else xs[i]?

/-- Specification: the items at the positions where the item differs from the one before. -/
def changes (xs : List α) : List α :=
  (List.range xs.length).filterMap fun i => if i > 0 ∧ xs[i]? = xs[i - 1]? then none else xs[i]?

theorem firstOccurrences_snoc (xs : List α) (x : α) :
    firstOccurrences (xs ++ [x]) = firstOccurrences xs ++ if x ∈ xs then [] else [x] := by
  unfold firstOccurrences
  rw [List.length_append, List.length_singleton, List.range_succ, List.filterMap_append]
  congr 1
  · apply filterMap_congr'
    intro i hi
    rw [List.mem_range] at hi
    rw [List.getElem?_append_left hi, List.take_append_of_le_length (by omega)]
  · simp
    by_cases h : x ∈ xs <;> simp [h]

theorem changes_snoc (xs : List α) (x : α) :
    changes (xs ++ [x]) = changes xs ++ if xs.getLast? = some x then [] else [x] := by
  unfold changes
  rw [List.length_append, List.length_singleton, List.range_succ, List.filterMap_append]
  congr 1
  · apply filterMap_congr'
    intro i hi
    rw [List.mem_range] at hi
    rw [List.getElem?_append_left hi, List.getElem?_append_left (by omega)]
  · rcases List.eq_nil_or_concat xs with rfl | ⟨ys, y, rfl⟩
    · simp
    · by_cases h : x = y
      · subst h; simp
      · simp [h, Ne.symm h]

theorem unique_feed (hashable : α → Bool) (xs : List α) (hh : ∀ x ∈ xs, hashable x = true) :
    let r := (uniqueOp hashable).feed (uniqueOp hashable).init (ofItems xs)
    r.exn = none ∧ r.out = ofItems (firstOccurrences xs) := by
  suffices H : ∀ (ys pre : List α) (s : List α) (_ : ∀ x ∈ ys, hashable x = true)
      (_ : ∀ x, x ∈ s ↔ x ∈ pre), ((uniqueOp hashable).feed s (ofItems ys)).exn = none ∧
      ofItems (firstOccurrences pre) ++ ((uniqueOp hashable).feed s (ofItems ys)).out =
        ofItems (firstOccurrences (pre ++ ys)) by
    have := H xs [] [] hh (by simp)
    simp only [List.nil_append] at this
    have h0 : ofItems (firstOccurrences ([] : List α)) = [] := rfl
    rw [h0, List.nil_append] at this
    exact this
  intro ys
  induction ys with
  | nil => intro pre s _ _; simp [feed_nil]
  | cons y ys ih =>
    intro pre s hy hs
    have hyh : hashable y = true := hy y (by simp)
    rw [ofItems_cons, feed_cons]
    simp only [step_item, uniqueOp, hyh, if_true, catchKare_exn, catchKare_out, catchKare_st]
    have hsnoc := firstOccurrences_snoc pre y
    by_cases hm : y ∈ s
    · have hp := (hs y).1 hm
      simp only [hm, if_true]
      have := ih (pre ++ [y]) s (fun x hx => hy x (by simp [hx])) (by
        intro x; rw [hs x, List.mem_append, List.mem_singleton]
        constructor
        · exact Or.inl
        · rintro (h | rfl)
          · exact h
          · exact hp)
      rw [hsnoc] at this
      simpa [hp, uniqueOp] using this
    · have hp : y ∉ pre := fun h => hm ((hs y).2 h)
      simp only [hm, if_false]
      have := ih (pre ++ [y]) (y :: s) (fun x hx => hy x (by simp [hx])) (by
        intro x; simp [hs x, or_comm])
      rw [hsnoc] at this
      simpa [hp, uniqueOp] using this

/-- **C07.** On hashable items `unique` emits exactly the first occurrences, each on arrival. -/
theorem C07_unique (hashable : α → Bool) (xs : List α) (hh : ∀ x ∈ xs, hashable x = true) :
    (uniqueOp hashable).obs (ofItems xs) = (ofItems (firstOccurrences xs), none) ∧
    (uniqueOp hashable).run (ofItems xs) = (ofItems (firstOccurrences xs) ++ [.flush], none) := by
  obtain ⟨h1, h2⟩ := unique_feed hashable xs hh
  refine ⟨Prod.ext h2 h1, ?_⟩
  rw [run_ofItems _ _ h1, h2]; rfl

/-- **C07.** In other words: no duplicates, the same set of values, and a subsequence of the input. -/
theorem C07_unique_spec (xs : List α) :
    (firstOccurrences xs).Nodup ∧ (∀ x, x ∈ firstOccurrences xs ↔ x ∈ xs) ∧
      (firstOccurrences xs).Sublist xs := by
  suffices H : ∀ n (xs : List α), xs.length = n → (firstOccurrences xs).Nodup ∧
      (∀ x, x ∈ firstOccurrences xs ↔ x ∈ xs) ∧ (firstOccurrences xs).Sublist xs from H _ xs rfl
  intro n
  induction n with
  | zero => intro xs h; rw [List.length_eq_zero_iff] at h; subst h; simp [firstOccurrences]
  | succ n ih =>
    intro xs h
    rcases List.eq_nil_or_concat xs with rfl | ⟨ys, y, rfl⟩
    · simp at h
    · obtain ⟨i1, i2, i3⟩ := ih ys (by simpa using h)
      rw [List.concat_eq_append, firstOccurrences_snoc]
      by_cases hy : y ∈ ys
      · simp only [hy, if_true, List.append_nil]
        refine ⟨i1, ?_, i3.trans (List.sublist_append_left _ _)⟩
        intro x; rw [i2 x, List.mem_append, List.mem_singleton]
        constructor
        · exact Or.inl
        · rintro (h | rfl)
          · exact h
          · exact hy
      · simp only [hy, if_false]
        refine ⟨?_, ?_, i3.append (List.Sublist.refl _)⟩
        · rw [List.nodup_append]
          refine ⟨i1, by simp, ?_⟩
          intro a ha b hb
          rw [List.mem_singleton] at hb
          subst hb
          rintro rfl
          exact hy ((i2 _).1 ha)
        · intro x; simp [i2 x]

/-- **C07.** The first unhashable item kills the command; nothing is emitted from then on. -/
theorem C07_unique_unhashable (hashable : α → Bool) (xs ys : List α) (x : α)
    (hh : ∀ x ∈ xs, hashable x = true) (hx : hashable x = false) :
    (uniqueOp hashable).run (ofItems (xs ++ x :: ys)) = (ofItems (firstOccurrences xs), some .kill) := by
  obtain ⟨h1, h2⟩ := unique_feed hashable xs hh
  have : (uniqueOp hashable).feed (uniqueOp hashable).init (ofItems xs) =
      ⟨((uniqueOp hashable).feed (uniqueOp hashable).init (ofItems xs)).st, ofItems (firstOccurrences xs), none⟩ := by
    rw [← h1, ← h2]
  simp only [run, obs, ofItems_append, ofItems_cons, List.append_assoc, List.cons_append]
  rw [feed_append, this]
  generalize ((uniqueOp hashable).feed (uniqueOp hashable).init (ofItems xs)).st = s
  simp only [feed_cons, step_item]
  simp [uniqueOp, hx, catchKare]

/-- **C07.** `unique -c` emits, on arrival, exactly the items differing from their predecessor. -/
theorem C07_unique_consecutive (xs : List α) :
    (uniqueConsecutiveOp : Op (Option α) α α).obs (ofItems xs) = (ofItems (changes xs), none) ∧
    (uniqueConsecutiveOp : Op (Option α) α α).run (ofItems xs) = (ofItems (changes xs) ++ [.flush], none) := by
  have h := (uniqueConsecutiveOp : Op (Option α) α α).feed_inv
    (fun xs s out => s = xs.getLast? ∧ out = ofItems (changes xs)) (by simp [uniqueConsecutiveOp, changes])
    (by
      rintro xs s out x ⟨rfl, rfl⟩
      rw [changes_snoc]
      simp only [uniqueConsecutiveOp, catchKare_exn]
      by_cases h : xs.getLast? = some x <;> simp [h]) xs
  refine ⟨Prod.ext h.2.2 h.1, ?_⟩
  rw [run_ofItems _ _ h.1, h.2.2]; rfl

example : ((uniqueOp (fun _ => true)).run (ofItems [1, 2, 1, 3, 2])).1 =
    [.item 1, .item 2, .item 3, .flush] := by decide
example : ((uniqueConsecutiveOp : Op _ Nat Nat).run (ofItems [1, 1, 2, 1, 1])).1 =
    [.item 1, .item 2, .item 1, .flush] := by decide
example : ((uniqueOp (fun x => x ≠ 9)).run (ofItems ([1, 2, 1] ++ 9 :: [3]))) =
    ([.item 1, .item 2], some .kill) := by decide

end Marcel
