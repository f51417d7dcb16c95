import Verif.Spec.Reduce

namespace Marcel
namespace Reduce

/-! ### Bits -/

theorem bit_ofNat (a i : Nat) : bit (.ofNat a) i = a.testBit i := by
  rw [Nat.testBit_eq_decide_div_mod_eq]
  unfold bit
  have : (Int.ofNat a / 2 ^ i) % 2 = ((a / 2 ^ i % 2 : Nat) : Int) := by
    simp
  rw [this]
  apply decide_eq_decide.2
  omega

theorem bit_negSucc (a i : Nat) : bit (.negSucc a) i = !a.testBit i := by
  rw [Nat.testBit_eq_decide_div_mod_eq]
  unfold bit
  have hp : (0 : Int) < 2 ^ i := Int.pow_pos (by decide)
  have : (Int.negSucc a / 2 ^ i) = -((a / 2 ^ i : Nat) : Int) - 1 := by
    rw [Int.negSucc_ediv _ hp]
    have : Int.ediv (a : Int) (2 ^ i) = ((a / 2 ^ i : Nat) : Int) := by
      rw [Int.natCast_ediv]; simp; rfl
    rw [this]
    omega
  rw [this]
  generalize a / 2 ^ i = k
  rcases Nat.mod_two_eq_zero_or_one k with h | h
  · have h2 : (-(k : Int) - 1) % 2 = 1 := by omega
    simp [h, h2]
  · have h2 : ¬ (-(k : Int) - 1) % 2 = 1 := by omega
    simp [h, h2]

theorem bit_intAnd (m n : Int) (i : Nat) : bit (intAnd m n) i = (bit m i && bit n i) := by
  cases m <;> cases n <;> simp only [intAnd, bit_ofNat, bit_negSucc, natDiff, Nat.testBit_and, Nat.testBit_or, Nat.testBit_xor] <;>
    (generalize Nat.testBit _ i = x; try generalize Nat.testBit _ i = y) <;> revert x <;> revert y <;> decide

theorem bit_intOr (m n : Int) (i : Nat) : bit (intOr m n) i = (bit m i || bit n i) := by
  cases m <;> cases n <;> simp only [intOr, bit_ofNat, bit_negSucc, natDiff, Nat.testBit_and, Nat.testBit_or, Nat.testBit_xor] <;>
    (generalize Nat.testBit _ i = x; try generalize Nat.testBit _ i = y) <;> revert x <;> revert y <;> decide

theorem bit_intXor (m n : Int) (i : Nat) : bit (intXor m n) i = (bit m i ^^ bit n i) := by
  cases m <;> cases n <;> simp only [intXor, bit_ofNat, bit_negSucc, Nat.testBit_xor] <;>
    (generalize Nat.testBit _ i = x; try generalize Nat.testBit _ i = y) <;> revert x <;> revert y <;> decide

theorem nat_bits_lt (a : Nat) : ∀ i, a ≤ i → a.testBit i = false := by
  intro i hi
  exact Nat.testBit_lt_two_pow (Nat.lt_of_le_of_lt hi Nat.lt_two_pow_self)

/-- The bits determine the integer. -/
theorem bit_inj (m n : Int) (h : ∀ i, bit m i = bit n i) : m = n := by
  cases m with
  | ofNat a => cases n with
    | ofNat b =>
      simp only [bit_ofNat] at h
      rw [Nat.eq_of_testBit_eq h]
    | negSucc b =>
      have := h (a + b)
      rw [bit_ofNat, bit_negSucc, nat_bits_lt _ _ (by omega), nat_bits_lt _ _ (by omega)] at this
      cases this
  | negSucc a => cases n with
    | ofNat b =>
      have := h (a + b)
      rw [bit_ofNat, bit_negSucc, nat_bits_lt _ _ (by omega), nat_bits_lt _ _ (by omega)] at this
      cases this
    | negSucc b =>
      simp only [bit_negSucc, Bool.not_eq_eq_eq_not, Bool.not_not] at h
      rw [Nat.eq_of_testBit_eq h]

/-! ### The order of strings -/

theorem strLess_iff (s t : List Char) : strLess s t = true ↔ Before s t := by
  induction s generalizing t with
  | nil =>
    cases t with
    | nil =>
      simp only [strLess, Bool.false_eq_true, false_iff]
      rintro (⟨u, hu, h⟩ | ⟨p, a, b, s', t', h, _⟩)
      · exact hu (by simpa using h.symm)
      · simp at h
    | cons b t => simp only [strLess, true_iff]; exact Or.inl ⟨b :: t, by simp, rfl⟩
  | cons a s ih =>
    cases t with
    | nil =>
      simp only [strLess, Bool.false_eq_true, false_iff]
      rintro (⟨u, hu, h⟩ | ⟨p, a, b, s', t', _, h, _⟩) <;> simp at h
    | cons b t =>
      unfold strLess
      by_cases h1 : a.toNat < b.toNat
      · rw [if_pos h1]; simp only [true_iff]; exact Or.inr ⟨[], a, b, s, t, rfl, rfl, h1⟩
      · rw [if_neg h1]
        by_cases h2 : b.toNat < a.toNat
        · rw [if_pos h2]
          simp only [Bool.false_eq_true, false_iff]
          rintro (⟨u, hu, h⟩ | ⟨p, c, d, s', t', h, h', hl⟩)
          · simp at h; rw [h.1] at h2; omega
          · cases p with
            | nil => simp at h h'; obtain ⟨rfl, _⟩ := h; obtain ⟨rfl, _⟩ := h'; omega
            | cons e p => simp at h h'; obtain ⟨rfl, _⟩ := h; obtain ⟨rfl, _⟩ := h'; omega
        · rw [if_neg h2, ih]
          have hab : a = b := by
            have : a.toNat = b.toNat := by omega
            exact Char.toNat_inj.1 this
          subst hab
          constructor
          · rintro (⟨u, hu, h⟩ | ⟨p, c, d, s', t', h, h', hl⟩)
            · exact Or.inl ⟨u, hu, by simp [h]⟩
            · exact Or.inr ⟨a :: p, c, d, s', t', by simp [h], by simp [h'], hl⟩
          · rintro (⟨u, hu, h⟩ | ⟨p, c, d, s', t', h, h', hl⟩)
            · exact Or.inl ⟨u, hu, by simpa using h⟩
            · cases p with
              | nil => simp at h h'; obtain ⟨rfl, _⟩ := h; obtain ⟨rfl, _⟩ := h'; omega
              | cons e p =>
                simp at h h'; exact Or.inr ⟨p, c, d, s', t', h.2, h'.2, hl⟩

theorem strLess_irrefl (s : List Char) : strLess s s = false := by
  induction s with
  | nil => rfl
  | cons a s ih => unfold strLess; simp [ih]

theorem strLess_total (s t : List Char) (h1 : strLess s t = false) (h2 : strLess t s = false) : s = t := by
  induction s generalizing t with
  | nil => cases t with
    | nil => rfl
    | cons b t => simp [strLess] at h1
  | cons a s ih => cases t with
    | nil => simp [strLess] at h2
    | cons b t =>
      unfold strLess at h1 h2
      by_cases ha : a.toNat < b.toNat
      · simp [ha] at h1
      · by_cases hb : b.toNat < a.toNat
        · simp [hb] at h2
        · rw [if_neg ha, if_neg hb] at h1
          rw [if_neg hb, if_neg ha] at h2
          have hab : a = b := Char.toNat_inj.1 (by omega)
          rw [hab, ih t h1 h2]

theorem strLess_trans (s t u : List Char) (h1 : strLess s t = true) (h2 : strLess t u = true) : strLess s u = true := by
  induction s generalizing t u with
  | nil => cases u with
    | nil => cases t <;> simp [strLess] at h2
    | cons c u => rfl
  | cons a s ih => cases t with
    | nil => simp [strLess] at h1
    | cons b t => cases u with
      | nil => simp [strLess] at h2
      | cons c u =>
        unfold strLess at h1 h2 ⊢
        by_cases hab : a.toNat < b.toNat
        · by_cases hbc : b.toNat < c.toNat
          · rw [if_pos (by omega)]
          · rw [if_neg hbc] at h2
            by_cases hcb : c.toNat < b.toNat
            · rw [if_pos hcb] at h2; cases h2
            · rw [if_pos (by omega)]
        · rw [if_neg hab] at h1
          by_cases hba : b.toNat < a.toNat
          · rw [if_pos hba] at h1; cases h1
          · rw [if_neg hba] at h1
            by_cases hbc : b.toNat < c.toNat
            · rw [if_pos (by omega)]
            · rw [if_neg hbc] at h2
              by_cases hcb : c.toNat < b.toNat
              · rw [if_pos hcb] at h2; cases h2
              · rw [if_neg hcb] at h2
                rw [if_neg (by omega), if_neg (by omega)]
                exact ih t u h1 h2

/-! ### Folds over values of one kind -/

theorem fold_step {α : Type} (f : α → α → Except Msg α) (a x b : α) (xs : List α) (h : f a x = .ok b) :
    (x :: xs).foldlM f a = xs.foldlM f b := by
  rw [List.foldlM_cons, h]; rfl

/-- If `f` does on the values `c m` what `g` does on the `m`, then the folds agree. -/
theorem fold_kind {α : Type} (f : Val → Val → Except Msg Val) (c : α → Val) (g : α → α → α)
    (h : ∀ m n, f (c m) (c n) = .ok (c (g m n))) (a : α) (xs : List α) :
    (xs.map c).foldlM f (c a) = .ok (c (xs.foldl g a)) := by
  induction xs generalizing a with
  | nil => rfl
  | cons x xs ih => rw [List.map_cons, fold_step _ _ _ _ _ (h a x), List.foldl_cons]; exact ih _

theorem fold_from_none {α : Type} (f : Val → Val → Except Msg Val) (c : α → Val) (g : α → α → α)
    (h0 : ∀ x, f .none x = .ok x)
    (h : ∀ m n, f (c m) (c n) = .ok (c (g m n))) (a : α) (xs : List α) :
    ((a :: xs).map c).foldlM f .none = .ok (c (xs.foldl g a)) := by
  rw [List.map_cons, fold_step _ _ _ _ _ (h0 _)]
  exact fold_kind f c g h a xs

/-- A choice between two values is one of them; folding keeps the best. -/
theorem foldl_choice {α : Type} (g : α → α → α) (le : α → α → Prop) (refl : ∀ a, le a a)
    (trans : ∀ a b c, le a b → le b c → le a c)
    (h : ∀ a b, (g a b = a ∨ g a b = b) ∧ le a (g a b) ∧ le b (g a b)) (a : α) (xs : List α) :
    xs.foldl g a ∈ a :: xs ∧ ∀ x ∈ a :: xs, le x (xs.foldl g a) := by
  induction xs generalizing a with
  | nil => exact ⟨by simp, by intro x hx; simp at hx; subst hx; exact refl _⟩
  | cons b xs ih =>
    obtain ⟨h1, h2⟩ := ih (g a b)
    obtain ⟨hc, ha, hb⟩ := h a b
    rw [List.foldl_cons]
    constructor
    · rcases List.mem_cons.1 h1 with h1 | h1
      · rw [h1]; rcases hc with hc | hc <;> rw [hc] <;> simp
      · exact List.mem_cons_of_mem _ (List.mem_cons_of_mem _ h1)
    · intro x hx
      have hg := h2 (g a b) (by simp)
      rcases List.mem_cons.1 hx with rfl | hx
      · exact trans _ _ _ ha hg
      · rcases List.mem_cons.1 hx with rfl | hx
        · exact trans _ _ _ hb hg
        · exact h2 x (List.mem_cons_of_mem _ hx)

theorem truth_iff (v : Val) : v.truth = false ↔ Falsy v := by
  constructor
  · intro h
    cases v with
    | none => exact .none
    | bool b => simp [Val.truth] at h; subst h; exact .false
    | int n => simp [Val.truth] at h; subst h; exact .zero
    | str s => simp [Val.truth] at h; subst h; exact .empty
    | list s => simp [Val.truth] at h; subst h; exact .emptyList
  · intro h; cases h <;> rfl

theorem foldl_add (a : Int) (ns : List Int) : ns.foldl (· + ·) a = a + ns.sum := by
  induction ns generalizing a with
  | nil => simp
  | cons n ns ih => rw [List.foldl_cons, ih, List.sum_cons]; omega

theorem foldl_mul (a : Int) (ns : List Int) : ns.foldl (· * ·) a = a * ns.foldr (· * ·) 1 := by
  induction ns generalizing a with
  | nil => simp
  | cons n ns ih => rw [List.foldl_cons, ih, List.foldr_cons, Int.mul_assoc]

theorem foldl_append {α : Type} (a : List α) (ns : List (List α)) : ns.foldl (· ++ ·) a = a ++ ns.flatten := by
  induction ns generalizing a with
  | nil => simp
  | cons n ns ih => rw [List.foldl_cons, ih, List.flatten_cons, List.append_assoc]

theorem foldl_bit_and (a : Int) (ns : List Int) (i : Nat) :
    bit (ns.foldl intAnd a) i = true ↔ ∀ n ∈ a :: ns, bit n i = true := by
  induction ns generalizing a with
  | nil => simp
  | cons n ns ih => rw [List.foldl_cons, ih]; simp [bit_intAnd, and_assoc]

theorem foldl_bit_or (a : Int) (ns : List Int) (i : Nat) :
    bit (ns.foldl intOr a) i = true ↔ ∃ n ∈ a :: ns, bit n i = true := by
  induction ns generalizing a with
  | nil => simp
  | cons n ns ih => rw [List.foldl_cons, ih]; simp [bit_intOr, or_assoc]

theorem foldl_bit_xor (a : Int) (ns : List Int) (i : Nat) :
    bit (ns.foldl intXor a) i = true ↔ ((a :: ns).filter fun n => bit n i).length % 2 = 1 := by
  induction ns generalizing a with
  | nil => cases h : bit a i <;> simp [h]
  | cons n ns ih =>
    rw [List.foldl_cons, ih]
    have hx := bit_intXor a n i
    simp only [List.filter_cons]
    cases ha : bit a i <;> cases hn : bit n i <;> simp only [ha, hn] at hx <;> simp [hx] <;> omega

theorem foldl_and (a : Bool) (bs : List Bool) : bs.foldl (fun a b => a && b) a = true ↔ ∀ c ∈ a :: bs, c = true := by
  induction bs generalizing a with
  | nil => simp
  | cons n ns ih => rw [List.foldl_cons, ih]; simp [and_assoc]

theorem foldl_or (a : Bool) (bs : List Bool) : bs.foldl (fun a b => a || b) a = true ↔ true ∈ a :: bs := by
  induction bs generalizing a with
  | nil => simp
  | cons n ns ih => rw [List.foldl_cons, ih]; cases a <;> cases n <;> simp

theorem foldl_xor (a : Bool) (bs : List Bool) : bs.foldl (fun a b => a ^^ b) a = true ↔ (a :: bs).count true % 2 = 1 := by
  induction bs generalizing a with
  | nil => cases a <;> simp
  | cons n ns ih => rw [List.foldl_cons, ih]; cases a <;> cases n <;> simp <;> omega

/-! ### and, or, count, concat -/

theorem rAnd_step (a x : Val) (h : ¬ Falsy a) : rAnd a x = .ok x := by
  have ht : a.truth = true := by
    rcases Bool.eq_false_or_eq_true a.truth with h' | h'
    · exact h'
    · exact absurd ((truth_iff a).1 h') h
  cases a with
  | none => rfl
  | _ => simp [rAnd, fromNone, ht]

theorem rAnd_stay (a x : Val) (h : Falsy a) (hn : a ≠ .none) : rAnd a x = .ok a := by
  have ht := (truth_iff a).2 h
  cases a with
  | none => exact absurd rfl hn
  | _ => simp [rAnd, fromNone, ht]

theorem rOr_step (a x : Val) (h : Falsy a) : rOr a x = .ok x := by
  have ht := (truth_iff a).2 h
  cases a with
  | none => rfl
  | _ => simp [rOr, fromNone, ht]

theorem rOr_stay (a x : Val) (h : ¬ Falsy a) : rOr a x = .ok a := by
  have ht : a.truth = true := by
    rcases Bool.eq_false_or_eq_true a.truth with h' | h'
    · exact h'
    · exact absurd ((truth_iff a).1 h') h
  cases a with
  | none => exact absurd .none h
  | _ => simp [rOr, fromNone, ht]

theorem fold_stay (f : Val → Val → Except Msg Val) (a : Val) (h : ∀ x, f a x = .ok a) (xs : List Val) :
    xs.foldlM f a = .ok a := by
  induction xs with
  | nil => rfl
  | cons x xs ih => rw [fold_step _ _ _ _ _ (h x)]; exact ih

/-- While the accumulators let the next value pass, the accumulator is the last value. -/
theorem fold_pass (f : Val → Val → Except Msg Val) (P : Val → Prop) (h : ∀ a x, P a → f a x = .ok x)
    (a : Val) (ha : P a) (xs ys : List Val) (hxs : ∀ x ∈ xs, P x) (v : Val) :
    (xs ++ v :: ys).foldlM f a = ys.foldlM f v := by
  induction xs generalizing a with
  | nil => rw [List.nil_append, fold_step _ _ _ _ _ (h a v ha)]
  | cons x xs ih =>
    rw [List.cons_append, fold_step _ _ _ _ _ (h a x ha)]
    exact ih x (hxs x (by simp)) (fun y hy => hxs y (List.mem_cons_of_mem _ hy))

theorem fold_count (n : Int) (xs : List Val) : xs.foldlM rCount (.int n) = .ok (.int (n + xs.length)) := by
  induction xs generalizing n with
  | nil => simp; rfl
  | cons x xs ih =>
    rw [fold_step rCount _ _ (.int (n + 1)) _ rfl, ih]
    congr 2
    rw [List.length_cons]; omega

theorem fold_concat (ys xs : List Val) : xs.foldlM rConcat (.list ys) = .ok (.list (ys ++ xs)) := by
  induction xs generalizing ys with
  | nil => simp; rfl
  | cons x xs ih =>
    rw [fold_step rConcat _ _ (.list (ys ++ [x])) _ rfl, ih]
    simp

/-! ### max and min -/

theorem max_int (m n : Int) : rMax (.int m) (.int n) = .ok (.int (if m < n then n else m)) := by
  by_cases h : m < n <;> simp [rMax, fromNone, pyMax, less, Val.num, h]

theorem min_int (m n : Int) : rMin (.int m) (.int n) = .ok (.int (if n < m then n else m)) := by
  by_cases h : n < m <;> simp [rMin, fromNone, pyMin, less, Val.num, h]

theorem max_str (s t : List Char) : rMax (.str s) (.str t) = .ok (.str (if strLess s t then t else s)) := by
  simp only [rMax, fromNone, pyMax, less]
  rcases Bool.eq_false_or_eq_true (strLess s t) with h | h <;> simp [h]

theorem min_str (s t : List Char) : rMin (.str s) (.str t) = .ok (.str (if strLess t s then t else s)) := by
  simp only [rMin, fromNone, pyMin, less]
  rcases Bool.eq_false_or_eq_true (strLess t s) with h | h <;> simp [h]

def strLe (s t : List Char) : Prop := strLess t s = false

theorem strLe_trans (a b c : List Char) (h1 : strLe a b) (h2 : strLe b c) : strLe a c := by
  unfold strLe at *
  rcases Bool.eq_false_or_eq_true (strLess c a) with h | h
  · -- c < a, a ≤ b, b ≤ c
    rcases Bool.eq_false_or_eq_true (strLess a b) with hab | hab
    · rw [strLess_trans _ _ _ h hab] at h2; cases h2
    · have := strLess_total _ _ hab h1; subst this; rw [h] at h2; cases h2
  · exact h

/-! ### All functions -/

/-- The starting value of a fold in `red` without grouping. -/
def startOf (c : Bool) : Val := if c then .int 0 else .none

theorem lookup_cases (s : String) (c : Bool) (f : Val → Val → Except Msg Val) (vars : String → Option (RedFn Val))
    (hs : s ∈ ["+", "*", "^", "&", "|", "and", "or", "max", "min", "count", "concat"])
    (h : function vars s = some (.fn c f)) :
    (s = "+" ∧ c = false ∧ f = rPlus) ∨ (s = "*" ∧ c = false ∧ f = rTimes) ∨ (s = "^" ∧ c = false ∧ f = rXor) ∨
    (s = "&" ∧ c = false ∧ f = rBitAnd) ∨ (s = "|" ∧ c = false ∧ f = rBitOr) ∨ (s = "and" ∧ c = false ∧ f = rAnd) ∨
    (s = "or" ∧ c = false ∧ f = rOr) ∨ (s = "max" ∧ c = false ∧ f = rMax) ∨ (s = "min" ∧ c = false ∧ f = rMin) ∨
    (s = "count" ∧ c = true ∧ f = rCount) ∨ (s = "concat" ∧ c = false ∧ f = rConcat) := by
  simp only [List.mem_cons, List.not_mem_nil, or_false] at hs
  rcases hs with rfl | rfl | rfl | rfl | rfl | rfl | rfl | rfl | rfl | rfl | rfl <;>
    (simp [function, symbols] at h; obtain ⟨h1, h2⟩ := h; subst h1; subst h2; simp)

theorem fold_mixed_sum {xs : List Val} {ns : List Int} (h : Numbers xs ns) (m : Int) :
    xs.foldlM rPlus (.int m) = .ok (.int (m + ns.sum)) := by
  induction h generalizing m with
  | nil => simp; rfl
  | int n _ ih => rw [fold_step rPlus _ _ (.int (m + n)) _ rfl, ih, List.sum_cons]; congr 2; omega
  | yes _ ih => rw [fold_step rPlus _ _ (.int (m + 1)) _ rfl, ih, List.sum_cons]; congr 2; omega
  | no _ ih => rw [fold_step rPlus _ _ (.int (m + 0)) _ rfl, ih, List.sum_cons]; congr 2; omega

theorem fold_mixed_product {xs : List Val} {ns : List Int} (h : Numbers xs ns) (m : Int) :
    xs.foldlM rTimes (.int m) = .ok (.int (m * ns.foldr (· * ·) 1)) := by
  induction h generalizing m with
  | nil => simp; rfl
  | int n _ ih => rw [fold_step rTimes _ _ (.int (m * n)) _ rfl, ih, List.foldr_cons, Int.mul_assoc]
  | yes _ ih => rw [fold_step rTimes _ _ (.int (m * 1)) _ rfl, ih, List.foldr_cons, Int.mul_assoc]
  | no _ ih => rw [fold_step rTimes _ _ (.int (m * 0)) _ rfl, ih, List.foldr_cons, Int.mul_assoc]

/-- The first number, as it is left by `fromNone`, and the second one. -/
theorem numbers_two {x y : Val} {xs : List Val} {ns : List Int} (h : Numbers (x :: y :: xs) ns) :
    ∃ m n ks, ns = m :: n :: ks ∧ Numbers xs ks ∧ rPlus .none x = .ok x ∧ rTimes .none x = .ok x ∧
      rPlus x y = .ok (.int (m + n)) ∧ rTimes x y = .ok (.int (m * n)) := by
  cases h with
  | int m h => cases h with
    | int n h => exact ⟨_, _, _, rfl, h, rfl, rfl, rfl, rfl⟩
    | yes h => exact ⟨_, _, _, rfl, h, rfl, rfl, rfl, rfl⟩
    | no h => exact ⟨_, _, _, rfl, h, rfl, rfl, rfl, rfl⟩
  | yes h => cases h with
    | int n h => exact ⟨_, _, _, rfl, h, rfl, rfl, rfl, rfl⟩
    | yes h => exact ⟨_, _, _, rfl, h, rfl, rfl, rfl, rfl⟩
    | no h => exact ⟨_, _, _, rfl, h, rfl, rfl, rfl, rfl⟩
  | no h => cases h with
    | int n h => exact ⟨_, _, _, rfl, h, rfl, rfl, rfl, rfl⟩
    | yes h => exact ⟨_, _, _, rfl, h, rfl, rfl, rfl, rfl⟩
    | no h => exact ⟨_, _, _, rfl, h, rfl, rfl, rfl, rfl⟩

/-- Reducing values with a standard function, from None, gives the result. -/
theorem fold_result (s : String) (c : Bool) (f : Val → Val → Except Msg Val) (vars : String → Option (RedFn Val))
    (h : function vars s = some (.fn c f))
    (hs : s ∈ ["+", "*", "^", "&", "|", "and", "or", "max", "min", "count", "concat"])
    (xs : List Val) (v : Val) (hr : Result s xs v) :
    (xs ≠ [] → xs.foldlM f .none = .ok v) ∧ xs.foldlM f (startOf c) = .ok v := by
  have key : (s = "count" → c = true ∧ f = rCount) ∧ (s ≠ "count" → c = false) := by
    rcases lookup_cases s c f vars hs h with h | h | h | h | h | h | h | h | h | h | h <;>
      (obtain ⟨rfl, rfl, rfl⟩ := h; simp)
  -- it is enough to look at folds from None, except for count and for the empty list
  have red1 : s ≠ "count" → (xs.foldlM f .none = .ok v) →
      (xs ≠ [] → xs.foldlM f .none = .ok v) ∧ xs.foldlM f (startOf c) = .ok v := by
    intro hc he
    rw [key.2 hc]
    exact ⟨fun _ => he, he⟩
  have look := lookup_cases s c f vars hs h
  clear hs h
  cases hr with
  | @sum ns hn =>
    refine red1 (by decide) ?_
    simp at look; obtain ⟨_, rfl⟩ := look
    cases ns with
    | nil => exact absurd rfl hn
    | cons a ns =>
      rw [fold_from_none rPlus Val.int (· + ·) (fun _ => rfl) (fun _ _ => rfl), foldl_add, List.sum_cons]
  | @joined ss hn =>
    refine red1 (by decide) ?_
    simp at look; obtain ⟨_, rfl⟩ := look
    cases ss with
    | nil => exact absurd rfl hn
    | cons a ss =>
      rw [fold_from_none rPlus Val.str (· ++ ·) (fun _ => rfl) (fun _ _ => rfl), foldl_append, List.flatten_cons]
  | @joinedLists ss hn =>
    refine red1 (by decide) ?_
    simp at look; obtain ⟨_, rfl⟩ := look
    cases ss with
    | nil => exact absurd rfl hn
    | cons a ss =>
      rw [fold_from_none rPlus Val.list (· ++ ·) (fun _ => rfl) (fun _ _ => rfl), foldl_append, List.flatten_cons]
  | @product ns hn =>
    refine red1 (by decide) ?_
    simp at look; obtain ⟨_, rfl⟩ := look
    cases ns with
    | nil => exact absurd rfl hn
    | cons a ns =>
      rw [fold_from_none rTimes Val.int (· * ·) (fun _ => rfl) (fun _ _ => rfl), foldl_mul, List.foldr_cons]
  | @mixedSum xs ns hn hl =>
    refine red1 (by decide) ?_
    simp at look; obtain ⟨_, rfl⟩ := look
    match xs, hl, hn with
    | x :: y :: xs, _, hn =>
      obtain ⟨m, n, ks, rfl, hk, h1, -, h2, -⟩ := numbers_two hn
      rw [fold_step _ _ _ _ _ h1, fold_step _ _ _ _ _ h2, fold_mixed_sum hk, List.sum_cons, List.sum_cons]
      congr 2; omega
  | @mixedProduct xs ns hn hl =>
    refine red1 (by decide) ?_
    simp at look; obtain ⟨_, rfl⟩ := look
    match xs, hl, hn with
    | x :: y :: xs, _, hn =>
      obtain ⟨m, n, ks, rfl, hk, -, h1, -, h2⟩ := numbers_two hn
      rw [fold_step _ _ _ _ _ h1, fold_step _ _ _ _ _ h2, fold_mixed_product hk, List.foldr_cons, List.foldr_cons, Int.mul_assoc]
  | @repeated t n =>
    refine red1 (by decide) ?_
    simp at look; obtain ⟨_, rfl⟩ := look
    rfl
  | @repeatedNot t n hn =>
    refine red1 (by decide) ?_
    simp at look; obtain ⟨_, rfl⟩ := look
    rw [fold_step rTimes _ _ (.str t) _ rfl, fold_step rTimes _ _ (.str (times t n)) _ rfl]
    have : times t n = [] := by
      unfold times
      rw [Int.toNat_eq_zero.mpr hn]; rfl
    rw [this]; rfl
  | @repeatedList t n =>
    refine red1 (by decide) ?_
    simp at look; obtain ⟨_, rfl⟩ := look
    rfl
  | @bitAnd ns v hn hb =>
    refine red1 (by decide) ?_
    simp at look; obtain ⟨_, rfl⟩ := look
    cases ns with
    | nil => exact absurd rfl hn
    | cons a ns =>
      rw [fold_from_none rBitAnd Val.int intAnd (fun _ => rfl) (fun _ _ => rfl)]
      congr 2
      apply bit_inj; intro i
      rw [Bool.eq_iff_iff, foldl_bit_and, hb]
  | @bitOr ns v hn hb =>
    refine red1 (by decide) ?_
    simp at look; obtain ⟨_, rfl⟩ := look
    cases ns with
    | nil => exact absurd rfl hn
    | cons a ns =>
      rw [fold_from_none rBitOr Val.int intOr (fun _ => rfl) (fun _ _ => rfl)]
      congr 2
      apply bit_inj; intro i
      rw [Bool.eq_iff_iff, foldl_bit_or, hb]
  | @bitXor ns v hn hb =>
    refine red1 (by decide) ?_
    simp at look; obtain ⟨_, rfl⟩ := look
    cases ns with
    | nil => exact absurd rfl hn
    | cons a ns =>
      rw [fold_from_none rXor Val.int intXor (fun _ => rfl) (fun _ _ => rfl)]
      congr 2
      apply bit_inj; intro i
      rw [Bool.eq_iff_iff, foldl_bit_xor, hb]
  | @allTrue bs b hn hb =>
    refine red1 (by decide) ?_
    simp at look; obtain ⟨_, rfl⟩ := look
    cases bs with
    | nil => exact absurd rfl hn
    | cons a bs =>
      rw [fold_from_none rBitAnd Val.bool (fun a b => a && b) (fun _ => rfl) (fun _ _ => rfl)]
      congr 2
      rw [Bool.eq_iff_iff, foldl_and, hb]
  | @someTrue bs b hn hb =>
    refine red1 (by decide) ?_
    simp at look; obtain ⟨_, rfl⟩ := look
    cases bs with
    | nil => exact absurd rfl hn
    | cons a bs =>
      rw [fold_from_none rBitOr Val.bool (fun a b => a || b) (fun _ => rfl) (fun _ _ => rfl)]
      congr 2
      rw [Bool.eq_iff_iff, foldl_or, hb]
  | @oddTrue bs b hn hb =>
    refine red1 (by decide) ?_
    simp at look; obtain ⟨_, rfl⟩ := look
    cases bs with
    | nil => exact absurd rfl hn
    | cons a bs =>
      rw [fold_from_none rXor Val.bool (fun a b => a ^^ b) (fun _ => rfl) (fun _ _ => rfl)]
      congr 2
      rw [Bool.eq_iff_iff, foldl_xor, hb]
  | @andAll xs v hx =>
    refine red1 (by decide) ?_
    simp at look; obtain ⟨_, rfl⟩ := look
    cases xs with
    | nil => rfl
    | cons x xs =>
      rw [List.cons_append, fold_step rAnd _ _ x _ rfl,
        fold_pass rAnd (fun a => ¬ Falsy a) rAnd_step x (hx x (by simp)) xs [] (fun y hy => hx y (List.mem_cons_of_mem _ hy))]
      rfl
  | @andSome xs ys v hx hv hvn =>
    refine red1 (by decide) ?_
    simp at look; obtain ⟨_, rfl⟩ := look
    have stay := fold_stay rAnd v (fun x => rAnd_stay v x hv hvn) ys
    cases xs with
    | nil => rw [List.nil_append, fold_step rAnd _ _ v _ rfl, stay]
    | cons x xs =>
      rw [List.cons_append, fold_step rAnd _ _ x _ rfl,
        fold_pass rAnd (fun a => ¬ Falsy a) rAnd_step x (hx x (by simp)) xs ys (fun y hy => hx y (List.mem_cons_of_mem _ hy)),
        stay]
  | @orNone xs v hx =>
    refine red1 (by decide) ?_
    simp at look; obtain ⟨_, rfl⟩ := look
    rw [fold_pass rOr Falsy rOr_step .none .none xs [] hx]; rfl
  | @orSome xs ys v hx hv =>
    refine red1 (by decide) ?_
    simp at look; obtain ⟨_, rfl⟩ := look
    rw [fold_pass rOr Falsy rOr_step .none .none xs ys hx]
    exact fold_stay rOr v (fun x => rOr_stay v x hv) ys
  | @greatest ns m hm hb =>
    refine red1 (by decide) ?_
    simp at look; obtain ⟨_, rfl⟩ := look
    cases ns with
    | nil => simp at hm
    | cons a ns =>
      rw [fold_from_none rMax Val.int (fun m n => if m < n then n else m) (fun _ => rfl) max_int]
      have := foldl_choice (fun m n : Int => if m < n then n else m) (· ≤ ·) (fun _ => Int.le_refl _)
        (fun _ _ _ => Int.le_trans)
        (by
          intro a b
          show ((if a < b then b else a) = a ∨ (if a < b then b else a) = b) ∧ a ≤ (if a < b then b else a) ∧ b ≤ (if a < b then b else a)
          by_cases h : a < b
          · rw [if_pos h]; exact ⟨Or.inr rfl, by omega, by omega⟩
          · rw [if_neg h]; exact ⟨Or.inl rfl, by omega, by omega⟩) a ns
      have e := Int.le_antisymm (hb _ this.1) (this.2 m hm)
      rw [e]
  | @least ns m hm hb =>
    refine red1 (by decide) ?_
    simp at look; obtain ⟨_, rfl⟩ := look
    cases ns with
    | nil => simp at hm
    | cons a ns =>
      rw [fold_from_none rMin Val.int (fun m n => if n < m then n else m) (fun _ => rfl) min_int]
      have := foldl_choice (fun m n : Int => if n < m then n else m) (fun a b => b ≤ a) (fun _ => Int.le_refl _)
        (fun a b c h1 h2 => Int.le_trans h2 h1)
        (by
          intro a b
          show ((if b < a then b else a) = a ∨ (if b < a then b else a) = b) ∧ (if b < a then b else a) ≤ a ∧ (if b < a then b else a) ≤ b
          by_cases h : b < a
          · rw [if_pos h]; exact ⟨Or.inr rfl, by omega, by omega⟩
          · rw [if_neg h]; exact ⟨Or.inl rfl, by omega, by omega⟩) a ns
      have e := Int.le_antisymm (this.2 m hm) (hb _ this.1)
      rw [e]
  | @last ss m hm hb =>
    refine red1 (by decide) ?_
    simp at look; obtain ⟨_, rfl⟩ := look
    cases ss with
    | nil => simp at hm
    | cons a ss =>
      rw [fold_from_none rMax Val.str (fun s t => if strLess s t then t else s) (fun _ => rfl) max_str]
      have := foldl_choice (fun s t => if strLess s t then t else s) strLe strLess_irrefl strLe_trans
        (by
          intro a b
          show ((if strLess a b then b else a) = a ∨ (if strLess a b then b else a) = b) ∧
            strLess (if strLess a b then b else a) a = false ∧ strLess (if strLess a b then b else a) b = false
          rcases Bool.eq_false_or_eq_true (strLess a b) with h | h
          · rw [if_pos h]
            refine ⟨Or.inr rfl, ?_, strLess_irrefl _⟩
            rcases Bool.eq_false_or_eq_true (strLess b a) with h' | h'
            · have := strLess_trans _ _ _ h h'; rw [strLess_irrefl] at this; cases this
            · exact h'
          · rw [if_neg (by rw [h]; decide)]; exact ⟨Or.inl rfl, strLess_irrefl _, h⟩) a ss
      generalize hg : List.foldl _ a ss = g at this ⊢
      have h1 : strLess m g = false := by
        rcases Bool.eq_false_or_eq_true (strLess m g) with h | h
        · exact absurd ((strLess_iff _ _).1 h) (hb g this.1)
        · exact h
      rw [strLess_total m g h1 (this.2 m hm)]
  | @first ss m hm hb =>
    refine red1 (by decide) ?_
    simp at look; obtain ⟨_, rfl⟩ := look
    cases ss with
    | nil => simp at hm
    | cons a ss =>
      rw [fold_from_none rMin Val.str (fun s t => if strLess t s then t else s) (fun _ => rfl) min_str]
      have := foldl_choice (fun s t => if strLess t s then t else s) (fun a b => strLe b a) strLess_irrefl
        (fun a b c h1 h2 => strLe_trans c b a h2 h1)
        (by
          intro a b
          show ((if strLess b a then b else a) = a ∨ (if strLess b a then b else a) = b) ∧
            strLess a (if strLess b a then b else a) = false ∧ strLess b (if strLess b a then b else a) = false
          rcases Bool.eq_false_or_eq_true (strLess b a) with h | h
          · rw [if_pos h]
            refine ⟨Or.inr rfl, ?_, strLess_irrefl _⟩
            rcases Bool.eq_false_or_eq_true (strLess a b) with h' | h'
            · have := strLess_trans _ _ _ h h'; rw [strLess_irrefl] at this; cases this
            · exact h'
          · rw [if_neg (by rw [h]; decide)]; exact ⟨Or.inl rfl, strLess_irrefl _, h⟩) a ss
      generalize hg : List.foldl _ a ss = g at this ⊢
      have h1 : strLess g m = false := by
        rcases Bool.eq_false_or_eq_true (strLess g m) with h | h
        · exact absurd ((strLess_iff _ _).1 h) (hb g this.1)
        · exact h
      rw [strLess_total g m h1 (this.2 m hm)]
  | count =>
    obtain ⟨rfl, rfl⟩ := key.1 rfl
    constructor
    · intro hne
      cases xs with
      | nil => exact absurd rfl hne
      | cons x xs =>
        rw [fold_step rCount _ _ (.int 1) _ rfl, fold_count, List.length_cons]
        congr 2; omega
    · show xs.foldlM rCount (.int 0) = _
      rw [fold_count]; congr 2; omega
  | concat hn =>
    refine red1 (by decide) ?_
    simp at look; obtain ⟨_, rfl⟩ := look
    cases xs with
    | nil => exact absurd rfl hn
    | cons x xs => rw [fold_step rConcat _ _ (.list [x]) _ rfl, fold_concat]; rfl
  | nothing hc => exact red1 hc rfl

end Reduce
end Marcel
