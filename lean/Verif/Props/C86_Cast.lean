import Verif.Model.Cast
import Verif.Lemmas.Stream

/-! C86: cast. -/

namespace Marcel
namespace Cast
open Op

variable {V : Type}

/-! ### Specification -/

/-- What is wanted for the element `v` at place `i`: None stays, what is beyond the types stays, else it is converted. -/
def Wanted (IsNone : V → Prop) (fs : List (V → Except Msg V)) (i : Nat) (v : V) (w : Except Msg V) : Prop :=
  (IsNone v → w = .ok v) ∧
  (∀ f, ¬ IsNone v → fs[i]? = some f → w = f v) ∧
  (fs.length ≤ i → w = .ok v)

/-- `y` is the row `x` with its elements converted. -/
def Converted (IsNone : V → Prop) (fs : List (V → Except Msg V)) (x y : List V) : Prop :=
  y.length = x.length ∧
  ∀ (i : Nat) v w, x[i]? = some v → y[i]? = some w → Wanted IsNone fs i v (.ok w)

/-- The first element of `x` that cannot be converted is the one at place `i`, with message `m`. -/
def FailsAt (IsNone : V → Prop) (fs : List (V → Except Msg V)) (x : List V) (m : Msg) : Prop :=
  ∃ (i : Nat) (v : V), x[i]? = some v ∧ Wanted IsNone fs i v (.error m) ∧
    ∀ j u, j < i → x[j]? = some u → ∃ w, Wanted IsNone fs j u (.ok w)

/-- What `cast` sends for a row. -/
inductive Sends (IsNone : V → Prop) (fs : List (V → Except Msg V)) : List V → Ev (List V) → Prop
  | item {x y} : Converted IsNone fs x y → Sends IsNone fs x (.item y)
  | error {x m} : FailsAt IsNone fs x m → Sends IsNone fs x (.err m)

/-! ### Proofs -/

/-- The conversion of one element in the model. -/
theorem castFrom_cons (isNone : V → Bool) (fs : List (V → Except Msg V)) (i : Nat) (v : V) (vs : List V) :
    ∃ w, Wanted (fun v => isNone v = true) fs i v w ∧
      castFrom isNone fs i (v :: vs) = match w with
        | .error m => .error m
        | .ok w => match castFrom isNone fs (i+1) vs with
          | .ok ws => .ok (w :: ws)
          | .error m => .error m := by
  by_cases h : isNone v = true
  · refine ⟨.ok v, ⟨fun _ => rfl, fun f hn => absurd h hn, fun _ => rfl⟩, ?_⟩
    simp only [castFrom, h, if_true]
    cases castFrom isNone fs (i+1) vs <;> rfl
  · cases hf : fs[i]? with
    | none =>
      refine ⟨.ok v, ⟨fun h' => absurd h' h, fun f _ hc => (by rw [hf] at hc; cases hc), fun _ => rfl⟩, ?_⟩
      simp only [castFrom, h, if_false, hf, Bool.false_eq_true]
      cases castFrom isNone fs (i+1) vs <;> rfl
    | some f =>
      refine ⟨f v, ⟨fun h' => absurd h' h, fun g _ hc => (by rw [hf] at hc; cases hc; rfl), ?_⟩, ?_⟩
      · intro hle; rw [List.getElem?_eq_none hle] at hf; cases hf
      · simp only [castFrom, h, if_false, hf, Bool.false_eq_true]
        rfl

theorem castFrom_spec (isNone : V → Bool) (fs : List (V → Except Msg V)) (x : List V) (i : Nat) :
    match castFrom isNone fs i x with
    | .ok y => y.length = x.length ∧ ∀ (j : Nat) v w, x[j]? = some v → y[j]? = some w →
        Wanted (fun v => isNone v = true) fs (i + j) v (.ok w)
    | .error m => ∃ (j : Nat) (v : V), x[j]? = some v ∧ Wanted (fun v => isNone v = true) fs (i + j) v (.error m) ∧
        ∀ k u, k < j → x[k]? = some u → ∃ w, Wanted (fun v => isNone v = true) fs (i + k) u (.ok w) := by
  induction x generalizing i with
  | nil => simp [castFrom]
  | cons v vs ih =>
    obtain ⟨w, hw, he⟩ := castFrom_cons isNone fs i v vs
    rw [he]
    cases w with
    | error m => exact ⟨0, v, rfl, by simpa using hw, by intro k u hk; omega⟩
    | ok w =>
      have := ih (i+1)
      cases hc : castFrom isNone fs (i+1) vs with
      | ok ws =>
        rw [hc] at this
        refine ⟨by simp [this.1], ?_⟩
        intro j a b ha hb
        cases j with
        | zero => simp at ha hb; subst ha; subst hb; exact hw
        | succ j =>
          have h2 := this.2 j a b (by simpa using ha) (by simpa using hb)
          rw [show i + (j + 1) = i + 1 + j by omega]; exact h2
      | error m =>
        rw [hc] at this
        obtain ⟨j, u, hu, hwu, hbefore⟩ := this
        refine ⟨j+1, u, by simpa using hu, ?_, ?_⟩
        · rw [show i + (j + 1) = i + 1 + j by omega]; exact hwu
        · intro k a hk ha
          cases k with
          | zero => simp at ha; subst ha; exact ⟨w, hw⟩
          | succ k =>
            rw [show i + (k + 1) = i + 1 + k by omega]
            exact hbefore k a (by omega) (by simpa using ha)

/-- **C86.** `cast` sends for each row one event, in order: the converted row, or an error for the first element that
cannot be converted; then it goes on with the next row. -/
theorem C86_cast (isNone : V → Bool) (fs : List (V → Except Msg V)) (xs : List (List V)) :
    ∃ zs, (castOp isNone fs).run (ofItems xs) = (zs ++ [.flush], none) ∧ zs.length = xs.length ∧
      ∀ (i : Nat) x z, xs[i]? = some x → zs[i]? = some z → Sends (fun v => isNone v = true) fs x z := by
  have hs : ∀ x, ∃ z, ((castOp isNone fs).item () x).out = [z] ∧ Sends (fun v => isNone v = true) fs x z := by
    intro x
    have := castFrom_spec isNone fs x 0
    simp only [castOp]
    cases hc : castFrom isNone fs 0 x with
    | ok y =>
      rw [hc] at this
      refine ⟨.item y, rfl, .item ⟨this.1, ?_⟩⟩
      intro i v w hv hw
      have := this.2 i v w hv hw
      rwa [Nat.zero_add] at this
    | error m =>
      rw [hc] at this
      obtain ⟨j, u, hu, hwu, hb⟩ := this
      refine ⟨.err m, rfl, .error ⟨j, u, hu, by rwa [Nat.zero_add] at hwu, ?_⟩⟩
      intro k a hk ha
      obtain ⟨w, hw⟩ := hb k a hk ha
      exact ⟨w, by rwa [Nat.zero_add] at hw⟩
  have h := obs_ofItems_unit (castOp isNone fs)
    (by intro x; simp only [castOp, catchKare_exn]; cases castFrom isNone fs 0 x <;> simp [fatal]) xs
  simp only [obs, Prod.mk.injEq] at h
  refine ⟨_, by rw [run_ofItems _ _ h.2]; rfl, ?_⟩
  rw [h.1]
  clear h
  induction xs with
  | nil => simp
  | cons x xs ih =>
    obtain ⟨z, hz, hsend⟩ := hs x
    rw [List.flatMap_cons, hz]
    refine ⟨by simp [ih.1], ?_⟩
    intro i a b ha hb
    cases i with
    | zero => simp at ha hb; subst ha; subst hb; exact hsend
    | succ i => exact ih.2 i a b (by simpa using ha) (by simpa using hb)

/-- The result is determined: a row is not both converted and refused, and it is converted in one way. -/
theorem C86_unique (IsNone : V → Prop) (fs : List (V → Except Msg V)) (x : List V) (z z' : Ev (List V))
    (h : Sends IsNone fs x z) (h' : Sends IsNone fs x z') : z = z' := by
  have wanted1 : ∀ i v w w', Wanted IsNone fs i v w → Wanted IsNone fs i v w' → w = w' := by
    intro i v w w' h1 h2
    by_cases hn : IsNone v
    · rw [h1.1 hn, h2.1 hn]
    · by_cases hi : fs.length ≤ i
      · rw [h1.2.2 hi, h2.2.2 hi]
      · have hf := List.getElem?_eq_getElem (Nat.lt_of_not_le hi)
        rw [h1.2.1 _ hn hf, h2.2.1 _ hn hf]
  have noboth : ∀ y m, Converted IsNone fs x y → FailsAt IsNone fs x m → False := by
    intro y m hy ⟨i, v, hv, hm, _⟩
    have hi : i < y.length := by rw [hy.1]; exact (List.getElem?_eq_some_iff.1 hv).1
    have := wanted1 _ _ _ _ (hy.2 i v _ hv (List.getElem?_eq_getElem hi)) hm
    cases this
  cases h with
  | item h1 =>
    cases h' with
    | item h2 =>
      congr 1
      apply List.ext_getElem?
      intro i
      by_cases hi : i < x.length
      · have hv := List.getElem?_eq_getElem hi
        rw [List.getElem?_eq_getElem (by rw [h1.1]; exact hi), List.getElem?_eq_getElem (by rw [h2.1]; exact hi)]
        have := wanted1 _ _ _ _ (h1.2 i _ _ hv (List.getElem?_eq_getElem (by rw [h1.1]; exact hi)))
          (h2.2 i _ _ hv (List.getElem?_eq_getElem (by rw [h2.1]; exact hi)))
        rw [Except.ok.inj this]
      · rw [List.getElem?_eq_none (by rw [h1.1]; omega), List.getElem?_eq_none (by rw [h2.1]; omega)]
    | error h2 => exact (noboth _ _ h1 h2).elim
  | error h1 =>
    cases h' with
    | item h2 => exact (noboth _ _ h2 h1).elim
    | error h2 =>
      obtain ⟨i, v, hv, hm, hb⟩ := h1
      obtain ⟨j, u, hu, hn, hc⟩ := h2
      rcases Nat.lt_trichotomy i j with hij | hij | hij
      · obtain ⟨w, hw⟩ := hc i v hij hv
        cases wanted1 _ _ _ _ hm hw
      · subst hij
        rw [hv] at hu; cases hu
        cases wanted1 _ _ _ _ hm hn; rfl
      · obtain ⟨w, hw⟩ := hb j u hij hu
        cases wanted1 _ _ _ _ hn hw

/-- **C86 (partial).** Names: if all of them are in `builtins`, the functions are these, in order; otherwise the command
ends, with a message that names the first that is not. Missing: whether it is a type. -/
theorem C86_names_partial (builtins : String → Option (Builtin V)) (names : List String) :
    (∀ bs : List (Builtin V), names.map builtins = bs.map some → setup builtins names = .ok (bs.map (·.call))) ∧
    (∀ (pre post : List String) (name : String), names = pre ++ name :: post → (∀ p ∈ pre, builtins p ≠ none) → builtins name = none →
      setup builtins names = .error ("Not a valid type name: " ++ name)) := by
  constructor
  · induction names with
    | nil => intro bs h; cases bs with
      | nil => rfl
      | cons b bs => simp at h
    | cons n names ih => intro bs h; cases bs with
      | nil => simp at h
      | cons b bs =>
        simp at h
        simp [setup, h.1, ih bs h.2]
  · intro pre post name hn hp hnone
    subst hn
    induction pre with
    | nil =>
      rw [List.nil_append, setup, hnone]
      rfl
    | cons p pre ih =>
      have := ih (fun q hq => hp q (List.mem_cons_of_mem _ hq))
      cases hb : builtins p with
      | none => exact absurd hb (hp p (by simp))
      | some b => rw [List.cons_append, setup, hb, this]

/-- **C86 is false of the code**: a name of `builtins` that is not a type (`print`, `len`) is accepted. -/
theorem C86_false_names (name : String) (f : V → Except Msg V) :
    ∃ (builtins : String → Option (Builtin V)) (b : Builtin V), builtins name = some b ∧ b.isType = false ∧ b.call = f ∧
      setup builtins [name] = .ok [f] :=
  ⟨fun _ => some ⟨false, f⟩, ⟨false, f⟩, rfl, rfl, rfl, rfl⟩

/-! ### Example: `cast` with one conversion that fails for negative numbers (0 stands for None). -/

def demo : List (Int → Except Msg Int) := [fun n => if n < 0 then .error "ValueError" else .ok (n * 10)]

example : (castOp (fun n => n == 0) demo).run (ofItems [[1, 2], [-1], [0, -5], []]) =
    ([.item [10, 2], .err "ValueError", .item [0, -5], .item [], .flush], none) := rfl

end Cast
end Marcel
