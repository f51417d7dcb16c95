import Verif.Model.Ops
import Verif.Props.C01_Staging

/-! C05: reverse. -/

namespace Marcel
open Op

variable {α : Type}

theorem reverse_feed (xs : List α) :
    let r := (reverseOp : Op (Option (List α)) α α).feed reverseOp.init (ofItems xs)
    r.exn = none ∧ r.out = [] ∧ r.st = some xs := by
  have := (reverseOp : Op (Option (List α)) α α).feed_inv
    (fun xs s out => out = [] ∧ s = some xs) ⟨rfl, rfl⟩
    (by rintro xs s out x ⟨rfl, rfl⟩; simp [reverseOp, catchKare]) xs
  exact ⟨this.1, this.2⟩

/-- **C05.** `reverse` emits nothing while items arrive, and then the items in opposite order. -/
theorem C05_reverse (xs : List α) :
    (reverseOp : Op (Option (List α)) α α).obs (ofItems xs) = ([], none) ∧
    (reverseOp : Op (Option (List α)) α α).run (ofItems xs) = (ofItems xs.reverse ++ [.flush], none) := by
  obtain ⟨h1, h2, h3⟩ := reverse_feed xs
  refine ⟨Prod.ext h2 h1, ?_⟩
  rw [run_ofItems _ _ h1, h2, h3]
  rfl

/-- **C05.** `reverse | reverse` gives back the stream. -/
theorem C05_reverse_reverse (xs : List α) :
    ((reverseOp : Op (Option (List α)) α α).comp reverseOp).run (ofItems xs) =
      (ofItems xs ++ [.flush], none) := by
  rw [C01_command]
  simp only [staged, (C05_reverse xs).2]
  rw [show (reverseOp : Op (Option (List α)) α α).obs (ofItems xs.reverse ++ [.flush]) =
    (reverseOp : Op (Option (List α)) α α).run (ofItems xs.reverse) from rfl, (C05_reverse _).2]
  simp

/-- **C05.** Being told about the end of the stream again does not repeat any output. -/
theorem C05_reverse_flush_again (xs : List α) (k : Nat) :
    (reverseOp : Op (Option (List α)) α α).obs (ofItems xs ++ .flush :: List.replicate k .flush) =
      (ofItems xs.reverse ++ .flush :: List.replicate k .flush, none) := by
  have hk : ∀ k : Nat, (reverseOp : Op (Option (List α)) α α).feed none (List.replicate k .flush) =
      ⟨none, List.replicate k .flush, none⟩ := by
    intro k
    induction k with
    | zero => rfl
    | succ k ih => simp [List.replicate_succ, feed_cons, step_flush, reverseOp] at ih ⊢; simp [ih]
  obtain ⟨h1, h2, h3⟩ := reverse_feed xs
  have hf : (reverseOp : Op (Option (List α)) α α).flush (some xs) =
    ⟨none, ofItems xs.reverse ++ [.flush], none⟩ := rfl
  simp only [obs, feed_append, h1, h2, h3, feed_cons, step_flush, hf, hk]
  simp

example : ((reverseOp : Op _ Nat Nat).run (ofItems [1, 2, 3])).1 =
    [.item 3, .item 2, .item 1, .flush] := by decide

end Marcel
