import Verif.Model.Ops
import Verif.Lemmas.Stream

/-! C03: head. -/

namespace Marcel
open Op

variable {α : Type}

theorem headKeep_obs (n : Nat) (xs : List α) :
    (headKeep n : Op Nat α α).obs (ofItems xs) = (ofItems (xs.take n), none) ∧
    ((headKeep n : Op Nat α α).feed (headKeep n : Op Nat α α).init (ofItems xs)).st = xs.length := by
  have := (headKeep n : Op Nat α α).feed_inv
    (fun xs s out => s = xs.length ∧ out = ofItems (xs.take n)) (by simp [headKeep])
    (by
      rintro xs s out x ⟨rfl, rfl⟩
      simp only [headKeep, catchKare_exn]
      by_cases h : n ≥ xs.length + 1
      · simp only [if_pos h]
        refine ⟨by simp, by simp, ?_⟩
        rw [List.take_of_length_le (by omega), List.take_of_length_le (by simp; omega)]
        simp [ofItems]
      · simp only [if_neg h]
        refine ⟨by simp, by simp, ?_⟩
        simp [List.take_append_of_le_length (show n ≤ xs.length by omega)]) xs
  exact ⟨Prod.ext this.2.2 this.1, this.2.1⟩

theorem headSkip_obs (n : Nat) (xs : List α) :
    (headSkip n : Op Nat α α).obs (ofItems xs) = (ofItems (xs.drop n), none) ∧
    ((headSkip n : Op Nat α α).feed (headSkip n : Op Nat α α).init (ofItems xs)).st = xs.length := by
  have := (headSkip n : Op Nat α α).feed_inv
    (fun xs s out => s = xs.length ∧ out = ofItems (xs.drop n)) (by simp [headSkip])
    (by
      rintro xs s out x ⟨rfl, rfl⟩
      simp only [headSkip, catchKare_exn]
      by_cases h : n < xs.length + 1
      · simp only [if_pos h]
        refine ⟨by simp, by simp, ?_⟩
        rw [List.drop_append_of_le_length (by omega)]
        simp [ofItems]
      · simp only [if_neg h]
        refine ⟨by simp, by simp, ?_⟩
        rw [List.drop_of_length_le (by omega), List.drop_of_length_le (by simp; omega)]
        simp) xs
  exact ⟨Prod.ext this.2.2 this.1, this.2.1⟩

/-- **C03.** `head n`, `n > 0`: exactly the first `n` items, each as soon as it arrives (the first
conjunct is about the stream before its end), and end of stream is handed on once. -/
theorem C03_head_pos (n : Int) (hn : n > 0) (xs : List α) :
    ∃ o : Op Nat α α, headOp n = .ok o ∧
      o.obs (ofItems xs) = (ofItems (xs.take n.toNat), none) ∧
      o.run (ofItems xs) = (ofItems (xs.take n.toNat) ++ [.flush], none) := by
  refine ⟨headKeep n.toNat, ?_, (headKeep_obs _ _).1, ?_⟩
  · simp [headOp, hn, show n ≠ 0 by omega]
  · have h := (headKeep_obs n.toNat xs).1
    simp only [obs, Prod.mk.injEq] at h
    rw [run_ofItems _ _ h.2, h.1]
    rfl

/-- **C03.** `head -n`: exactly the items after the first `n`. -/
theorem C03_head_neg (n : Int) (hn : n < 0) (xs : List α) :
    ∃ o : Op Nat α α, headOp n = .ok o ∧
      o.obs (ofItems xs) = (ofItems (xs.drop (-n).toNat), none) ∧
      o.run (ofItems xs) = (ofItems (xs.drop (-n).toNat) ++ [.flush], none) := by
  refine ⟨headSkip (-n).toNat, ?_, (headSkip_obs _ _).1, ?_⟩
  · simp [headOp, show ¬ n > 0 by omega, show n ≠ 0 by omega]
  · have h := (headSkip_obs (-n).toNat xs).1
    simp only [obs, Prod.mk.injEq] at h
    rw [run_ofItems _ _ h.2, h.1]
    rfl

/-- **C03.** `head 0` kills the command during setup; it is the only argument that does. -/
theorem C03_head_zero (n : Int) : (headOp n : Except Exn (Op Nat α α)) = .error .kill ↔ n = 0 := by
  unfold headOp
  split
  · simp [*]
  · split <;> simp [*]

/-- **C03.** `head n` and `head -n` split the input. -/
theorem C03_head_partition (n : Int) (hn : n > 0) (xs : List α) :
    ∃ o o' : Op Nat α α, headOp n = .ok o ∧ headOp (-n) = .ok o' ∧
      items (o.run (ofItems xs)).1 ++ items (o'.run (ofItems xs)).1 = xs := by
  obtain ⟨o, h1, _, h2⟩ := C03_head_pos n hn xs
  obtain ⟨o', h3, _, h4⟩ := C03_head_neg (-n) (by omega) xs
  refine ⟨o, o', h1, h3, ?_⟩
  rw [h2, h4]
  simp

example : ∃ o : Op Nat Nat Nat, headOp 2 = .ok o ∧ (o.run (ofItems [5, 6, 7])).1 =
    [.item 5, .item 6, .flush] := ⟨headKeep 2, rfl, by decide⟩
example : ∃ o : Op Nat Nat Nat, headOp (-2) = .ok o ∧ (o.run (ofItems [5, 6, 7])).1 =
    [.item 7, .flush] := ⟨headSkip 2, rfl, by decide⟩

end Marcel
