import Verif.Model.Ops
import Verif.Lemmas.Stream

/-! C04: tail. -/

namespace Marcel
open Op

variable {α : Type}

/-- Invariant of the circular queue after receiving `xs`: rotated by `end`, it holds the last `n`. -/
structure TailInv (n : Nat) (xs : List α) (s : TailSt α) : Prop where
  len : s.queue.length = min n xs.length
  end_lt : s.end < n
  start : s.queue.length < n → s.end = 0
  rot : s.queue.drop s.end ++ s.queue.take s.end = xs.drop (xs.length - n)

theorem TailInv.grow {n : Nat} {xs : List α} {s : TailSt α} (h : TailInv n xs s) (x : α)
    (hl : s.queue.length < n) : TailInv n (xs ++ [x]) ⟨s.queue ++ [x], s.end⟩ := by
  have he := h.start hl
  have hx : xs.length < n := by have := h.len; omega
  have hr := h.rot
  rw [he] at hr
  simp [show xs.length - n = 0 by omega] at hr
  refine ⟨by simp [h.len]; omega, h.end_lt, fun _ => he, ?_⟩
  simp [he, hr, show xs.length + 1 - n = 0 by omega]

theorem TailInv.full {n : Nat} {xs : List α} {s : TailSt α} (h : TailInv n xs s) (x : α)
    (hl : ¬ s.queue.length < n) :
    TailInv n (xs ++ [x]) ⟨s.queue.set s.end x, (s.end + 1) % n⟩ ∧
    (s.queue[s.end]?).toList ++ xs.drop (xs.length + 1 - n) = xs.drop (xs.length - n) := by
  have hlen := h.len
  have he := h.end_lt
  have hq : s.queue.length = n := by omega
  have hxl : n ≤ xs.length := by omega
  have hlt : s.end < s.queue.length := by omega
  have hdrop : s.queue.drop s.end = s.queue[s.end] :: s.queue.drop (s.end + 1) :=
    List.drop_eq_getElem_cons hlt
  have hrot := h.rot
  rw [hdrop] at hrot
  have hne : xs.length - n < xs.length := by omega
  rw [List.drop_eq_getElem_cons hne] at hrot
  simp only [List.cons_append, List.cons.injEq] at hrot
  have h1 : xs.length - n + 1 = xs.length + 1 - n := by omega
  rw [h1] at hrot
  refine ⟨⟨?_, Nat.mod_lt _ (by omega), ?_, ?_⟩, ?_⟩
  · simp; omega
  · intro hc; simp at hc; omega
  · have hset : s.queue.set s.end x = s.queue.take s.end ++ x :: s.queue.drop (s.end + 1) := by
      rw [List.set_eq_take_append_cons_drop, if_pos hlt]
    have hgoal : (xs ++ [x]).drop ((xs ++ [x]).length - n) = xs.drop (xs.length + 1 - n) ++ [x] := by
      rw [List.drop_append_of_le_length (by simp; omega)]; simp
    rw [hgoal, ← hrot.2]
    by_cases hw : s.end + 1 = n
    · have : s.queue.drop (s.end + 1) = [] := List.drop_eq_nil_of_le (by omega)
      simp [hw, Nat.mod_self, hset]
      rw [← hw, this]; simp
    · rw [Nat.mod_eq_of_lt (by omega), hset]
      have hlt' : (s.queue.take s.end).length = s.end := by simp; omega
      rw [List.drop_append, List.take_append]
      simp [hlt', List.drop_eq_nil_of_le (show (s.queue.take s.end).length ≤ s.end + 1 by omega)]
      exact List.take_of_length_le (by omega)
  · rw [List.getElem?_eq_getElem hlt, List.drop_eq_getElem_cons hne, h1, hrot.1]
    rfl

theorem TailInv.init {n : Nat} (hn : 0 < n) : TailInv n ([] : List α) ⟨[], 0⟩ :=
  ⟨by simp, hn, fun _ => rfl, by simp⟩

theorem tailLoop_add (q : List α) (n a b p : Nat) (hp : p < n) :
    tailLoop q n (a + b) p = tailLoop q n a p ++ tailLoop q n b ((p + a) % n) := by
  induction a generalizing p with
  | zero => simp [tailLoop, Nat.mod_eq_of_lt hp]
  | succ a ih =>
    rw [show a + 1 + b = (a + b) + 1 by omega]
    simp only [tailLoop]
    rw [ih _ (Nat.mod_lt _ (by omega))]
    simp only [List.append_assoc]
    congr 3
    rw [Nat.mod_add_mod]
    congr 1
    omega

theorem tailLoop_straight (q : List α) (n c p : Nat) (hc : p + c ≤ q.length) (hn : p + c ≤ n) :
    tailLoop q n c p = (q.drop p).take c := by
  induction c generalizing p with
  | zero => simp [tailLoop]
  | succ c ih =>
    have hp : p < q.length := by omega
    rw [tailLoop, List.drop_eq_getElem_cons hp, List.getElem?_eq_getElem hp]
    rcases Nat.eq_zero_or_pos c with rfl | hc'
    · simp only [tailLoop, List.take_succ_cons]; simp
    · rw [Nat.mod_eq_of_lt (by omega), ih (p + 1) (by omega) (by omega), List.take_succ_cons]
      rfl

theorem TailInv.loop {n : Nat} {xs : List α} {s : TailSt α} (h : TailInv n xs s) :
    tailLoop s.queue n (min n s.queue.length) s.end = xs.drop (xs.length - n) := by
  have hlen := h.len
  have he := h.end_lt
  rw [← h.rot]
  by_cases hl : s.queue.length < n
  · have h0 := h.start hl
    rw [h0, show min n s.queue.length = s.queue.length by omega,
      tailLoop_straight _ _ _ _ (by omega) (by omega)]
    simp
  · have hq : s.queue.length = n := by omega
    rw [show min n s.queue.length = (n - s.end) + s.end by omega, tailLoop_add _ _ _ _ _ he,
      tailLoop_straight _ _ _ _ (by omega) (by omega),
      show s.end + (n - s.end) = n by omega, Nat.mod_self,
      tailLoop_straight _ _ _ _ (by omega) (by omega)]
    rw [List.take_of_length_le (by simp; omega)]
    simp

theorem tailKeep_feed (n : Nat) (hn : 0 < n) (xs : List α) :
    let r := (tailKeep n : Op (TailSt α) α α).feed (tailKeep n : Op (TailSt α) α α).init (ofItems xs)
    r.exn = none ∧ r.out = [] ∧ TailInv n xs r.st := by
  have := (tailKeep n : Op (TailSt α) α α).feed_inv (fun xs s out => out = [] ∧ TailInv n xs s)
    ⟨rfl, TailInv.init hn⟩
    (by
      rintro xs s out x ⟨rfl, h⟩
      simp only [tailKeep, catchKare_exn]
      by_cases hl : s.queue.length < n
      · simp only [if_pos hl]; exact ⟨by simp, by simp, h.grow x hl⟩
      · simp only [if_neg hl]; exact ⟨by simp, by simp, (h.full x hl).1⟩) xs
  exact ⟨this.1, this.2⟩

theorem tailSkip_feed (n : Nat) (hn : 0 < n) (xs : List α) :
    let r := (tailSkip n : Op (TailSt α) α α).feed (tailSkip n : Op (TailSt α) α α).init (ofItems xs)
    r.exn = none ∧ r.out = ofItems (xs.take (xs.length - n)) ∧ TailInv n xs r.st := by
  have := (tailSkip n : Op (TailSt α) α α).feed_inv
    (fun xs s out => out = ofItems (xs.take (xs.length - n)) ∧ TailInv n xs s)
    ⟨by simp, TailInv.init hn⟩
    (by
      rintro xs s out x ⟨rfl, h⟩
      simp only [tailSkip, catchKare_exn]
      have hlen := h.len
      by_cases hl : s.queue.length < n
      · simp only [if_pos hl]
        refine ⟨by simp, ?_, h.grow x hl⟩
        simp [show xs.length - n = 0 by omega, show xs.length + 1 - n = 0 by omega]
      · simp only [if_neg hl]
        obtain ⟨h1, h2⟩ := h.full x hl
        refine ⟨by simp, ?_, h1⟩
        rw [← ofItems_append]
        congr 1
        have hle : xs.length + 1 - n ≤ xs.length := by omega
        rw [List.length_append, List.length_singleton, List.take_append_of_le_length hle]
        have h3 := List.take_append_drop (xs.length - n) xs
        rw [← h2, ← List.append_assoc] at h3
        have h4 := List.take_append_drop (xs.length + 1 - n) xs
        exact List.append_cancel_right (h3.trans h4.symm)) xs
  exact ⟨this.1, this.2⟩

theorem tailKeep_flush (n : Nat) (s : TailSt α) : (tailKeep n).flush s =
    ⟨⟨[], s.end⟩, ofItems (tailLoop s.queue n (min n s.queue.length) s.end) ++ [.flush] ++ [.flush], none⟩ := rfl

/-- **C04.** `tail n`, `n > 0`: nothing while items arrive, then exactly the last `n` items in
order. (End of stream is then signalled twice, see C21.) -/
theorem C04_tail_pos (n : Int) (hn : n > 0) (xs : List α) :
    ∃ o : Op (TailSt α) α α, tailOp n = .ok o ∧
      o.obs (ofItems xs) = ([], none) ∧
      o.run (ofItems xs) = (ofItems (xs.drop (xs.length - n.toNat)) ++ [.flush, .flush], none) := by
  have hn' : 0 < n.toNat := by omega
  obtain ⟨h1, h2, h3⟩ := tailKeep_feed n.toNat hn' xs
  refine ⟨tailKeep n.toNat, ?_, Prod.ext h2 h1, ?_⟩
  · simp [tailOp, hn, show n ≠ 0 by omega]
  · rw [run_ofItems _ _ h1, h2]
    rw [tailKeep_flush, h3.loop]
    simp

/-- **C04.** `tail -n`: every item but the last `n`, each emitted as soon as it is known not to be
among the last `n`. -/
theorem C04_tail_neg (n : Int) (hn : n < 0) (xs : List α) :
    ∃ o : Op (TailSt α) α α, tailOp n = .ok o ∧
      o.obs (ofItems xs) = (ofItems (xs.take (xs.length - (-n).toNat)), none) ∧
      o.run (ofItems xs) = (ofItems (xs.take (xs.length - (-n).toNat)) ++ [.flush], none) := by
  have hn' : 0 < (-n).toNat := by omega
  obtain ⟨h1, h2, h3⟩ := tailSkip_feed (-n).toNat hn' xs
  refine ⟨tailSkip (-n).toNat, ?_, Prod.ext h2 h1, ?_⟩
  · simp [tailOp, show ¬ n > 0 by omega, show n ≠ 0 by omega]
  · rw [run_ofItems _ _ h1, h2]; rfl

/-- **C04.** `tail 0`, and no other argument, kills the command during setup. -/
theorem C04_tail_zero (n : Int) : (tailOp n : Except Exn (Op (TailSt α) α α)) = .error .kill ↔ n = 0 := by
  unfold tailOp
  split
  · simp [*]
  · split <;> simp [*]

/-- **C04.** `tail -n` and `tail n` split the input. -/
theorem C04_tail_partition (n : Int) (hn : n > 0) (xs : List α) :
    ∃ o o' : Op (TailSt α) α α, tailOp (-n) = .ok o ∧ tailOp n = .ok o' ∧
      items (o.run (ofItems xs)).1 ++ items (o'.run (ofItems xs)).1 = xs := by
  obtain ⟨o, h1, _, h2⟩ := C04_tail_neg (-n) (by omega) xs
  obtain ⟨o', h3, _, h4⟩ := C04_tail_pos n hn xs
  refine ⟨o, o', h1, h3, ?_⟩
  rw [h2, h4]
  simp

example : ((tailKeep 2 : Op _ Nat Nat).run (ofItems [5, 6, 7, 8, 9])).1 =
    [.item 8, .item 9, .flush, .flush] := by decide
example : ((tailSkip 2 : Op _ Nat Nat).run (ofItems [5, 6, 7, 8, 9])).1 =
    [.item 5, .item 6, .item 7, .flush] := by decide
example : (tailOp 2 : Except Exn (Op _ Nat Nat)) = .ok (tailKeep 2) := rfl

end Marcel
