import Verif.Model.Gen
import Verif.Lemmas.Lists

/-! # C20: gen -/

namespace Marcel

/-- Specification: reading a string of decimal digits (code points) as a number. -/
def readDecimal (s : List Nat) : Nat := s.foldl (fun acc c => 10 * acc + (c - 48)) 0

/-- Specification: a string of decimal digits. -/
def IsDigits (s : List Nat) : Prop := ∀ c ∈ s, 48 ≤ c ∧ c ≤ 57

theorem decimal_ne_nil (n : Nat) : decimal n ≠ [] := by
  rw [decimal]; split <;> simp

theorem readDecimal_append_single (s : List Nat) (c : Nat) :
    readDecimal (s ++ [c]) = 10 * readDecimal s + (c - 48) := by
  simp [readDecimal]

theorem readDecimal_decimal (n : Nat) : readDecimal (decimal n) = n := by
  induction n using decimal.induct with
  | case1 n h => rw [decimal, if_pos h]; simp [readDecimal]
  | case2 n h ih =>
    rw [decimal, if_neg h, readDecimal_append_single, ih]; omega

theorem isDigits_decimal (n : Nat) : IsDigits (decimal n) := by
  induction n using decimal.induct with
  | case1 n h => rw [decimal, if_pos h]; simp [IsDigits]; omega
  | case2 n h ih =>
    rw [decimal, if_neg h]
    intro c hc
    rcases List.mem_append.1 hc with hc | hc
    · exact ih c hc
    · simp at hc; omega

theorem length_decimal_mono (m n : Nat) (h : m ≤ n) : (decimal m).length ≤ (decimal n).length := by
  induction n using decimal.induct generalizing m with
  | case1 n hn => rw [decimal, if_pos (by omega), decimal, if_pos hn]; simp
  | case2 n hn ih =>
    rw [decimal.eq_def n, if_neg hn]
    rw [decimal]
    split
    · simp
    · have := ih (m / 10) (by omega); simpa using this

theorem readDecimal_replicate (k : Nat) (s : List Nat) :
    readDecimal (List.replicate k 48 ++ s) = readDecimal s := by
  induction k with
  | zero => rfl
  | succ k ih => simpa [List.replicate_succ, readDecimal] using ih

theorem foldl_bound (s : List Nat) (hs : IsDigits s) (a : Nat) :
    a * 10 ^ s.length ≤ s.foldl (fun acc c => 10 * acc + (c - 48)) a ∧
    s.foldl (fun acc c => 10 * acc + (c - 48)) a < (a + 1) * 10 ^ s.length := by
  induction s generalizing a with
  | nil => simp
  | cons c s ih =>
    have hc := hs c (by simp)
    have ih := ih (fun d hd => hs d (by simp [hd])) (10 * a + (c - 48))
    simp only [List.foldl_cons, List.length_cons, Nat.pow_succ]
    have h1 : a * (10 ^ s.length * 10) ≤ (10 * a + (c - 48)) * 10 ^ s.length := by
      rw [Nat.mul_comm (10 ^ s.length) 10, ← Nat.mul_assoc]
      exact Nat.mul_le_mul_right _ (by omega)
    have h2 : (10 * a + (c - 48) + 1) * 10 ^ s.length ≤ (a + 1) * (10 ^ s.length * 10) := by
      rw [Nat.mul_comm (10 ^ s.length) 10, ← Nat.mul_assoc]
      exact Nat.mul_le_mul_right _ (by omega)
    omega

/-- On digit strings of equal length, Python's string order is the order of the numbers. -/
theorem lex_of_lt (s t : List Nat) (hs : IsDigits s) (ht : IsDigits t) (hl : s.length = t.length) (a b : Nat)
    (hab : a = b)
    (h : s.foldl (fun acc c => 10 * acc + (c - 48)) a < t.foldl (fun acc c => 10 * acc + (c - 48)) b) :
    List.Lex (· < ·) s t := by
  subst hab
  induction s generalizing t a with
  | nil => cases t with
    | nil => simp at h
    | cons => simp at hl
  | cons c s ih =>
    cases t with
    | nil => simp at hl
    | cons d t =>
      have hc := hs c (by simp)
      have hd := ht d (by simp)
      have hs' : IsDigits s := fun x hx => hs x (by simp [hx])
      have ht' : IsDigits t := fun x hx => ht x (by simp [hx])
      have hl' : s.length = t.length := by simpa using hl
      simp only [List.foldl_cons] at h
      rcases Nat.lt_trichotomy c d with hcd | hcd | hcd
      · exact List.Lex.rel hcd
      · subst hcd
        exact List.Lex.cons (ih t hs' ht' hl' _ h)
      · exfalso
        have b1 := (foldl_bound s hs' (10 * a + (c - 48))).1
        have b2 := (foldl_bound t ht' (10 * a + (d - 48))).2
        rw [hl'] at b1
        have : (10 * a + (d - 48) + 1) * 10 ^ t.length ≤ (10 * a + (c - 48)) * 10 ^ t.length :=
          Nat.mul_le_mul_right _ (by omega)
        omega

theorem genLoop_bounded (format : Option Nat) (k : Nat) (x : Int) (m : Nat) (hm : m ≤ k) :
    genLoop format (some (x + m)) k x =
      ((List.range m).map fun i : Nat => genFormat format (x + i), true) := by
  induction k generalizing x m with
  | zero =>
    have : m = 0 := by omega
    subst this; simp [genLoop]
  | succ k ih =>
    cases m with
    | zero => simp [genLoop]
    | succ m =>
      have h := ih (x + 1) m (by omega)
      have e : x + ((m + 1 : Nat) : Int) = x + 1 + (m : Int) := by omega
      rw [genLoop, e, h, if_neg (by omega)]
      simp only [List.range_succ_eq_map, List.map_cons, List.map_map, Prod.mk.injEq, and_true]
      rw [Int.natCast_zero, Int.add_zero]
      refine congrArg _ (List.map_congr_left fun i _ => ?_)
      simp only [Function.comp]
      congr 1; omega

theorem genLoop_endless (format : Option Nat) (k : Nat) (x : Int) :
    genLoop format none k x = ((List.range k).map fun i : Nat => genFormat format (x + i), false) := by
  induction k generalizing x with
  | zero => simp [genLoop]
  | succ k ih =>
    rw [genLoop, ih]
    simp only [List.range_succ_eq_map, List.map_cons, List.map_map, Prod.mk.injEq, and_true]
    rw [Int.natCast_zero, Int.add_zero]
    refine congrArg _ (List.map_congr_left fun i _ => ?_)
    simp only [Function.comp]
    congr 1; omega

/-- C20 (bounded): `gen count start` with `count ≠ 0` ends, having sent exactly the numbers
`start, start+1, ..., start+count-1` (nothing if `count < 0`). -/
theorem C20_gen (count start : Int) (hc : count ≠ 0) (steps : Nat) (h : count.toNat ≤ steps) :
    gen count start none steps =
      .ok ((List.range count.toNat).map fun i : Nat => GenOut.num (start + i), true) := by
  simp only [gen, genSetup, if_neg hc]
  rcases Int.lt_or_gt_of_ne hc with h0 | h0
  · have e0 : count.toNat = 0 := by omega
    rw [e0]
    cases steps with
    | zero => simp [genLoop]; omega
    | succ k => simp [genLoop]; omega
  · have : start + count = start + (count.toNat : Int) := by omega
    rw [this, genLoop_bounded _ _ _ _ h]
    rfl

/-- C20 (endless): `gen 0 start` never ends, and after `k` steps has sent the first `k` numbers. -/
theorem C20_gen_endless (start : Int) (k : Nat) :
    gen 0 start none k =
      .ok ((List.range k).map fun i : Nat => GenOut.num (start + i), false) := by
  simp only [gen, genSetup, if_true]
  rw [genLoop_endless]; rfl

/-- C20 (padding): with `--pad p` the command is killed before anything is sent, or it ends having sent,
for the same numbers in the same order, digit strings of length exactly `p` that denote them. -/
theorem C20_gen_pad (count start p : Int) (steps : Nat) (h : count.toNat ≤ steps) :
    gen count start (some p) steps = .error .kill ∨
    ∃ strs : List (List Nat),
      gen count start (some p) steps = .ok (strs.map GenOut.str, true) ∧
      strs.length = count.toNat ∧
      ∀ (i : Nat) (s : List Nat), strs[i]? = some s →
        (s.length : Int) = p ∧ IsDigits s ∧ (readDecimal s : Int) = start + i := by
  simp only [gen, genSetup]
  by_cases hc : count = 0
  · simp [hc]
  simp only [if_neg hc]
  by_cases hs : start < 0
  · simp [hs]
  simp only [if_neg hs]
  by_cases hp : ((pyStr (start + count - 1)).length : Int) > p
  · simp [hp]
  simp only [if_neg hp]
  right
  rcases Int.lt_or_gt_of_ne hc with h0 | h0
  · refine ⟨[], ?_, by simp; omega, by simp⟩
    cases steps with
    | zero => simp [genLoop]; omega
    | succ k => simp [genLoop]; omega
  · have e : start + count = start + (count.toNat : Int) := by omega
    refine ⟨(List.range count.toNat).map fun i : Nat => zeroFill p.toNat (pyStr (start + i)), ?_, by simp, ?_⟩
    · rw [e, genLoop_bounded _ _ _ _ h]
      simp [genFormat]
    · intro i s hi
      rw [List.getElem?_map] at hi
      rcases Option.map_eq_some_iff.1 hi with ⟨j, hj, rfl⟩
      have hlt : i < count.toNat := by
        have := lt_of_getElem?_eq_some hj; simpa using this
      have : j = i := by
        rw [List.getElem?_range hlt] at hj; exact (Option.some.inj hj).symm
      subst this
      have e1 : start + (j : Int) = ((start.toNat + j : Nat) : Int) := by omega
      have e2 : start + count - 1 = ((start.toNat + count.toNat - 1 : Nat) : Int) := by omega
      rw [e2] at hp
      rw [e1]
      change ¬ (((decimal _).length : Int) > p) at hp
      change ((zeroFill p.toNat (decimal (start.toNat + j))).length : Int) = p ∧
        IsDigits (zeroFill p.toNat (decimal (start.toNat + j))) ∧
        ((readDecimal (zeroFill p.toNat (decimal (start.toNat + j)))) : Int) = _
      have hm := length_decimal_mono (start.toNat + j) (start.toNat + count.toNat - 1) (by omega)
      refine ⟨?_, ?_, ?_⟩
      · simp only [zeroFill, List.length_append, List.length_replicate]; omega
      · intro c hc
        rcases List.mem_append.1 hc with hc | hc
        · rw [List.eq_of_mem_replicate hc]; omega
        · exact isDigits_decimal _ c hc
      · simp only [zeroFill, readDecimal_replicate, readDecimal_decimal]

/-- C20 (padding preserves order): the strings sent by `gen --pad` sort (as strings) like the numbers. -/
theorem C20_pad_order (count start p : Int) (steps : Nat) (h : count.toNat ≤ steps) (strs : List (List Nat))
    (hr : gen count start (some p) steps = .ok (strs.map GenOut.str, true))
    (i j : Nat) (s t : List Nat) (hi : strs[i]? = some s) (hj : strs[j]? = some t) :
    List.Lex (· < ·) s t ↔ i < j := by
  rcases C20_gen_pad count start p steps h with hk | ⟨strs', hr', _, hspec⟩
  · rw [hk] at hr; cases hr
  · rw [hr'] at hr
    have hinj : ∀ a b : List (List Nat), a.map GenOut.str = b.map GenOut.str → a = b := by
      intro a b hab
      exact (List.map_inj_right (fun x y hxy => GenOut.str.inj hxy)).1 hab
    have : strs' = strs := hinj _ _ (by injection hr with hr; exact (Prod.mk.inj hr).1)
    subst this
    obtain ⟨ls, ds, vs⟩ := hspec i s hi
    obtain ⟨lt, dt, vt⟩ := hspec j t hj
    constructor
    · intro hlex
      rcases Nat.lt_trichotomy i j with hij | hij | hij
      · exact hij
      · subst hij
        rw [hi] at hj
        cases hj
        exact absurd hlex (List.lex_irrefl (fun x => Nat.lt_irrefl x) s)
      · have hl2 : List.Lex (· < ·) t s :=
          lex_of_lt t s dt ds (by omega) 0 0 rfl (by change readDecimal t < readDecimal s; omega)
        exact absurd hlex (List.lex_asymm (fun hab hba => Nat.lt_asymm hab hba) hl2)
    · intro hij
      exact lex_of_lt s t ds dt (by omega) 0 0 rfl (by change readDecimal s < readDecimal t; omega)

theorem length_decimal_le (n k : Nat) (hk : 0 < k) : (decimal n).length ≤ k ↔ n < 10 ^ k := by
  induction n using decimal.induct generalizing k with
  | case1 n h =>
    rw [decimal, if_pos h]
    have : 10 ^ 1 ≤ 10 ^ k := Nat.pow_le_pow_right (by omega) hk
    simp; omega
  | case2 n h ih =>
    rw [decimal, if_neg h]
    obtain ⟨k, rfl⟩ : ∃ j, k = j + 1 := ⟨k - 1, by omega⟩
    rw [List.length_append, List.length_singleton, Nat.add_le_add_iff_right]
    rcases Nat.eq_zero_or_pos k with rfl | hk
    · have := decimal_ne_nil (n / 10)
      simp [decimal_ne_nil]; omega
    · rw [ih k hk, Nat.pow_succ]; omega

/-- C20 (when padding is refused): for a positive count and a non-negative start the command is
killed exactly if the last number does not fit into `p` digits. -/
theorem C20_pad_refused (count start p : Int) (hc : 0 < count) (hs : 0 ≤ start) (steps : Nat) :
    gen count start (some p) steps = .error .kill ↔ p ≤ 0 ∨ (10 : Int) ^ p.toNat ≤ start + count - 1 := by
  simp only [gen, genSetup, if_neg (show ¬ count = 0 by omega), if_neg (show ¬ start < 0 by omega)]
  obtain ⟨n, hn⟩ : ∃ n : Nat, start + count - 1 = n := ⟨(start + count - 1).toNat, by omega⟩
  rw [hn]
  change (match (if ((decimal n).length : Int) > p then Except.error Exn.kill else .ok (some p.toNat)) with
    | .error e => Except.error e
    | .ok f => _) = _ ↔ _
  have hne : 0 < (decimal n).length := List.length_pos_iff.2 (decimal_ne_nil n)
  rcases Int.lt_or_le 0 p with hp | hp
  · have hl := length_decimal_le n p.toNat (by omega)
    have hcast : ((10 : Int) ^ p.toNat ≤ n) ↔ 10 ^ p.toNat ≤ n := by
      rw [show (10 : Int) ^ p.toNat = ((10 ^ p.toNat : Nat) : Int) by simp]
      exact Int.ofNat_le
    rw [hcast]
    by_cases hg : ((decimal n).length : Int) > p
    · simp only [if_pos hg, true_iff]; right; omega
    · simp only [if_neg hg]
      constructor
      · intro h; cases h
      · intro h; omega
  · rw [if_pos (by omega)]; simp; omega

-- Non-vacuity: `gen 3 8 --pad 2` sends 08, 09, 10.
example : gen 3 8 (some 2) 5 =
    .ok ([GenOut.str [48, 56], GenOut.str [48, 57], GenOut.str [49, 48]], true) := by
  simp [gen, genSetup, genLoop, genFormat, zeroFill, pyStr, decimal]
example : gen 3 8 (some 1) 5 = .error .kill := by simp [gen, genSetup, pyStr, decimal]
example : gen 3 (-1) none 5 = .ok ([.num (-1), .num 0, .num 1], true) := by rfl

theorem length_decimal_lt (n p : Nat) (hn : 1 ≤ n) : p < (decimal n).length ↔ 10 ^ p ≤ n := by
  induction n using decimal.induct generalizing p with
  | case1 n h =>
    rw [decimal, if_pos h]
    cases p with
    | zero => simp; omega
    | succ p =>
      have : 10 ≤ 10 ^ (p + 1) := by
        have := Nat.pow_le_pow_right (n := 10) (by omega) (show 1 ≤ p + 1 by omega)
        simpa using this
      simp; omega
  | case2 n h ih =>
    rw [decimal, if_neg h]
    cases p with
    | zero => simp; omega
    | succ p =>
      have := ih p (by omega)
      simp only [List.length_append, List.length_cons, List.length_nil, Nat.zero_add, Nat.add_lt_add_iff_right, this, Nat.pow_succ]
      omega

/-- **C20**, a negative count: nothing is generated; with padding, the command is nevertheless refused if the width is too small for the number (with its
sign) that is one less than the end of the empty range. -/
theorem C20_negative_pad (count start : Int) (p steps : Nat) (hs : 0 ≤ start) (hc : start + count - 1 < 0) (hc0 : count < 0) :
    (10 ^ p ≤ (1 - start - count).toNat → gen count start (some ((p + 1 : Nat) : Int)) steps = .error .kill) ∧
    ((1 - start - count).toNat < 10 ^ p → gen count start (some ((p + 1 : Nat) : Int)) steps = .ok ([], true)) := by
  have e : start + count - 1 = Int.negSucc (-count - start).toNat := by omega
  have e2 : (-count - start).toNat + 1 = (1 - start - count).toNat := by omega
  have hlen : (pyStr (start + count - 1)).length = (decimal (1 - start - count).toNat).length + 1 := by
    rw [e]; simp [pyStr, e2]
  have hl := length_decimal_lt (1 - start - count).toNat p (by omega)
  have c0 : ¬ count = 0 := by omega
  have s0 : ¬ start < 0 := by omega
  constructor
  · intro h
    have := hl.2 h
    have hgt : (((pyStr (start + count - 1)).length : Nat) : Int) > ((p + 1 : Nat) : Int) := by rw [hlen]; omega
    simp only [gen, genSetup, if_neg c0, if_neg s0, if_pos hgt]
  · intro h
    have h1 : ¬ p < (decimal (1 - start - count).toNat).length := fun a => absurd (hl.1 a) (by omega)
    have hgt : ¬ (((pyStr (start + count - 1)).length : Nat) : Int) > ((p + 1 : Nat) : Int) := by rw [hlen]; omega
    simp only [gen, genSetup, if_neg c0, if_neg s0, if_neg hgt]
    have h3 : start + count ≤ start := by omega
    cases steps <;> simp [genLoop, h3]

example : gen (-9) 0 (some 2) 5 = .error .kill ∧ gen (-8) 0 (some 2) 5 = .ok ([], true) := by
  refine ⟨(C20_negative_pad (-9) 0 1 5 (by omega) (by omega) (by omega)).1 (by decide), (C20_negative_pad (-8) 0 1 5 (by omega) (by omega) (by omega)).2 (by decide)⟩

end Marcel
