import Verif.Model.Pipeline

/-!
# C23: the API's `|`

The concatenation part (and so associativity) holds; that the operands are not changed is false for the left one.
-/

namespace Marcel
open OLObj

variable {O : Type}

/-- A proper `OpList`: it holds an operator or a list of operators (pipeline.py 157), not both. -/
def ProperOL (o : OLObj O) : Prop := (o.op = none ∧ o.ops ≠ none) ∨ (o.op ≠ none ∧ o.ops = none)

/-- Specification: the variables of an expression, from left to right. -/
def OLObj.Expr.vars : Expr → List Nat
  | .var i => [i]
  | .or a b => a.vars ++ b.vars

/-- Specification: the operators an expression stands for, the variables standing for `m`. -/
def OLObj.Expr.meaning (m : Nat → List O) : Expr → List O
  | .var i => m i
  | .or a b => a.meaning m ++ b.meaning m

theorem OLObj.Expr.meaning_eq (m : Nat → List O) (e : Expr) : e.meaning m = (e.vars.map m).flatten := by
  induction e with
  | var i => simp [Expr.meaning, Expr.vars]
  | or a b iha ihb => simp [Expr.meaning, Expr.vars, iha, ihb]

/-- The exact effect of `a | b` on distinct proper objects: the left one becomes the concatenation and is the
result; nothing else changes. -/
theorem C23_or (h : Heap O) (i j : Nat) (hij : i ≠ j) (hi : ProperOL (h i)) (hj : ProperOL (h j)) :
    ∃ h', OLObj.or h i j = some (h', i) ∧ (h' i).ops! = (h i).ops! ++ (h j).ops! ∧ ProperOL (h' i) ∧
      ∀ k, k ≠ i → h' k = h k := by
  have hji : ¬ j = i := fun hc => hij hc.symm
  cases ei : h i with
  | mk op ops =>
  cases ej : h j with
  | mk op' ops' =>
  rw [ei] at hi
  rw [ej] at hj
  cases op <;> cases ops <;> simp [ProperOL] at hi <;>
  cases op' <;> cases ops' <;> simp [ProperOL] at hj <;>
  · simp only [OLObj.or, ei, Heap.set, hji, if_false, ej]
    refine ⟨_, rfl, ?_, ?_, ?_⟩
    · simp [ops!, Heap.set]
    · simp [ProperOL, Heap.set]
    · intro k hk; simp [hk, Heap.set]

/-- **C23, first half.** An expression in which no variable is used twice evaluates without failure to an object that
stands for the concatenation of what its variables stood for; all objects not mentioned are unchanged. -/
theorem C23_concat (e : Expr) (h : Heap O) (hnd : e.vars.Nodup) (hp : ∀ i ∈ e.vars, ProperOL (h i)) :
    ∃ h' r, e.eval h = some (h', r) ∧ r ∈ e.vars ∧ ProperOL (h' r) ∧
      (h' r).ops! = e.meaning (fun i => (h i).ops!) ∧
      (∀ k, k ∉ e.vars → h' k = h k) := by
  induction e generalizing h with
  | var i => exact ⟨h, i, rfl, by simp [Expr.vars], hp i (by simp [Expr.vars]), rfl, fun _ _ => rfl⟩
  | or a b iha ihb =>
    simp only [Expr.vars, List.nodup_append] at hnd
    obtain ⟨hna, hnb, hdis⟩ := hnd
    obtain ⟨h1, i, e1, hi, pi, m1, f1⟩ := iha h hna (fun k hk => hp k (by simp [Expr.vars, hk]))
    have hb1 : ∀ k ∈ b.vars, h1 k = h k := fun k hk => f1 k (fun hc => hdis k hc k hk rfl)
    obtain ⟨h2, j, e2, hj, pj, m2, f2⟩ := ihb h1 hnb
      (fun k hk => by rw [hb1 k hk]; exact hp k (by simp [Expr.vars, hk]))
    have hinb : i ∉ b.vars := fun hc => hdis i hi i hc rfl
    have hij : i ≠ j := fun hc => hinb (hc ▸ hj)
    obtain ⟨h3, e3, m3, p3, f3⟩ := C23_or h2 i j hij (by rw [f2 i hinb]; exact pi) pj
    refine ⟨h3, i, ?_, by simp [Expr.vars, hi], p3, ?_, ?_⟩
    · simp [Expr.eval, e1, e2, e3]
    · rw [m3, f2 i hinb, m1, m2, Expr.meaning]
      congr 1
      rw [Expr.meaning_eq, Expr.meaning_eq]
      congr 1
      exact List.map_congr_left fun k hk => by rw [hb1 k hk]
    · intro k hk
      simp only [Expr.vars, List.mem_append, not_or] at hk
      rw [f3 k (fun hc => hk.1 (hc ▸ hi)), f2 k hk.2, f1 k hk.1]

/-- So `|` is associative: bracketing does not matter. Two expressions with the same variables from left to right
give pipelines of the same operators. -/
theorem C23_assoc (e e' : Expr) (h : Heap O) (hv : e.vars = e'.vars) (hnd : e.vars.Nodup)
    (hp : ∀ i ∈ e.vars, ProperOL (h i)) :
    ∃ h1 r1 h2 r2, e.eval h = some (h1, r1) ∧ e'.eval h = some (h2, r2) ∧ (h1 r1).ops! = (h2 r2).ops! := by
  obtain ⟨h1, r1, e1, _, _, m1, _⟩ := C23_concat e h hnd hp
  obtain ⟨h2, r2, e2, _, _, m2, _⟩ := C23_concat e' h (hv ▸ hnd) (hv ▸ hp)
  exact ⟨h1, r1, h2, r2, e1, e2, by rw [m1, m2, Expr.meaning_eq, Expr.meaning_eq, hv]⟩

/-- The right operand and every other object mean what they meant before. -/
theorem C23_right_unchanged_partial (h : Heap O) (i j : Nat) (hij : i ≠ j) (hi : ProperOL (h i)) (hj : ProperOL (h j))
    (h' : Heap O) (r : Nat) (hor : OLObj.or h i j = some (h', r)) (k : Nat) (hk : k ≠ i) : h' k = h k := by
  obtain ⟨h'', e, _, _, f⟩ := C23_or h i j hij hi hj
  rw [hor] at e
  obtain ⟨rfl, _⟩ := Prod.mk.inj (Option.some.inj e)
  exact f k hk

/-- **The second half of C23 is false of the code**: after `a | b` the variable `a` no longer means what it meant, for
all `a` and all non-empty `b`. -/
theorem C23_false (h : Heap O) (i j : Nat) (hij : i ≠ j) (hi : ProperOL (h i)) (hj : ProperOL (h j))
    (hne : (h j).ops! ≠ []) (h' : Heap O) (r : Nat) (hor : OLObj.or h i j = some (h', r)) :
    (h' i).ops! ≠ (h i).ops! := by
  obtain ⟨h'', e, m, _⟩ := C23_or h i j hij hi hj
  rw [hor] at e
  obtain ⟨rfl, _⟩ := Prod.mk.inj (Option.some.inj e)
  rw [m]
  intro hc
  exact hne (by simpa using hc)

/-- A visible consequence: `p = a | b; q = a | c` makes `q` (and `p`, the same object) mean a, b, c. -/
theorem C23_false_reuse (h : Heap O) (i j k : Nat) (hij : i ≠ j) (hik : i ≠ k) (hjk : j ≠ k)
    (hi : ProperOL (h i)) (hj : ProperOL (h j)) (hk : ProperOL (h k)) :
    ∃ h1 h2, OLObj.or h i j = some (h1, i) ∧ OLObj.or h1 i k = some (h2, i) ∧
      (h2 i).ops! = (h i).ops! ++ (h j).ops! ++ (h k).ops! := by
  obtain ⟨h1, e1, m1, p1, f1⟩ := C23_or h i j hij hi hj
  have hk1 : h1 k = h k := f1 k (fun hc => hik hc.symm)
  obtain ⟨h2, e2, m2, _⟩ := C23_or h1 i k hik p1 (by rw [hk1]; exact hk)
  exact ⟨h1, h2, e1, e2, by rw [m2, m1, hk1]⟩

/-! ### The hypotheses can be met -/

/-- Four fresh `OpList`s, as `gen(..)`, `map(..)`, ... return them (api.py 240-243). -/
def exHeap : Heap String := fun i => ⟨some (["gen", "map", "select", "red"].getD i "write"), none⟩

example : ∀ i, ProperOL (exHeap i) := fun i => Or.inr ⟨by simp [exHeap], rfl⟩
example : (Expr.or (.or (.var 0) (.var 1)) (.or (.var 2) (.var 3))).vars.Nodup := by decide
example : ((Expr.or (.or (.var 0) (.var 1)) (.or (.var 2) (.var 3))).eval exHeap).map
    (fun r => (r.1 r.2).ops!) = some ["gen", "map", "select", "red"] := rfl
example : (exHeap 1).ops! ≠ [] := by simp [exHeap, ops!]

end Marcel
