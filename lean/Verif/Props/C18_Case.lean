import Verif.Model.SetOps
import Verif.Lemmas.Stream
import Verif.Lemmas.Lists
import Verif.Props.C15_SetOps

/-! C18: case. C19: args. -/

namespace Marcel
open Op

/-! ### case -/

/-- Where an item goes: a branch (the default branch has number `preds.length`), nowhere, or, if a
predicate raises, it is replaced by an error. -/
inductive Dest
  | branch (i : Nat)
  | nowhere
  | raises (m : Msg)
  deriving DecidableEq

variable {α β : Type}

/-- Specification of the destination. -/
def DestIs (preds : List (α → Except Msg Bool)) (hasDefault : Bool) (x : α) : Dest → Prop
  | .branch i =>
    (∃ p, preds[i]? = some p ∧ p x = .ok true ∧ ∀ j q, j < i → preds[j]? = some q → q x = .ok false) ∨
    (i = preds.length ∧ hasDefault = true ∧ ∀ q ∈ preds, q x = .ok false)
  | .nowhere => hasDefault = false ∧ ∀ q ∈ preds, q x = .ok false
  | .raises m => ∃ (i : Nat) (p : α → Except Msg Bool), preds[i]? = some p ∧ p x = .error m ∧
      ∀ j q, j < i → preds[j]? = some q → q x = .ok false

theorem caseMatch_spec (preds : List (α → Except Msg Bool)) (x : α) :
    (∀ i, caseMatch preds x = .ok (some i) ↔ ∃ p, preds[i]? = some p ∧ p x = .ok true ∧
      ∀ j q, j < i → preds[j]? = some q → q x = .ok false) ∧
    (caseMatch preds x = .ok none ↔ ∀ q ∈ preds, q x = .ok false) ∧
    (∀ m, caseMatch preds x = .error m ↔ ∃ (i : Nat) (p : α → Except Msg Bool), preds[i]? = some p ∧ p x = .error m ∧
      ∀ j q, j < i → preds[j]? = some q → q x = .ok false) := by
  induction preds with
  | nil => simp [caseMatch]
  | cons p ps ih =>
    obtain ⟨i1, i2, i3⟩ := ih
    have shift : ∀ (i : Nat), (∀ (j : Nat) (q : α → Except Msg Bool), j < i + 1 → (p :: ps)[j]? = some q → q x = .ok false) ↔
        p x = .ok false ∧ ∀ (j : Nat) (q : α → Except Msg Bool), j < i → ps[j]? = some q → q x = .ok false := by
      intro i
      constructor
      · intro h
        exact ⟨h 0 p (by omega) rfl, fun j q hj hq => h (j+1) q (by omega) hq⟩
      · rintro ⟨h0, h⟩ j q hj hq
        cases j with
        | zero => simp at hq; subst hq; exact h0
        | succ j => exact h j q (by omega) hq
    rcases hp : p x with m | b
    · have hcm : caseMatch (p :: ps) x = .error m := by simp [caseMatch, hp]
      rw [hcm]
      refine ⟨?_, by simp [hp], ?_⟩
      · intro i
        constructor
        · intro h; cases h
        · rintro ⟨q, hq, hq', hall⟩
          cases i with
          | zero => simp at hq; subst hq; rw [hp] at hq'; cases hq'
          | succ i => rw [(shift i)] at hall; rw [hp] at hall; cases hall.1
      · intro m'
        constructor
        · intro h; cases h; exact ⟨0, p, rfl, hp, by omega⟩
        · rintro ⟨i, q, hq, hq', hall⟩
          cases i with
          | zero => simp at hq; subst hq; rw [hp] at hq'; cases hq'; rfl
          | succ i => rw [(shift i)] at hall; rw [hp] at hall; cases hall.1
    · cases b with
      | true =>
        have hcm : caseMatch (p :: ps) x = .ok (some 0) := by simp [caseMatch, hp]
        rw [hcm]
        refine ⟨?_, by simp [hp], ?_⟩
        · intro i
          constructor
          · intro h; cases h; exact ⟨p, rfl, hp, by omega⟩
          · rintro ⟨q, hq, hq', hall⟩
            cases i with
            | zero => rfl
            | succ i => rw [(shift i)] at hall; rw [hp] at hall; cases hall.1
        · intro m'
          constructor
          · intro h; cases h
          · rintro ⟨i, q, hq, hq', hall⟩
            cases i with
            | zero => simp at hq; subst hq; rw [hp] at hq'; cases hq'
            | succ i => rw [(shift i)] at hall; rw [hp] at hall; cases hall.1
      | false =>
        have hA : ∀ i, caseMatch (p :: ps) x = .ok (some i) ↔ ∃ k, i = k + 1 ∧ caseMatch ps x = .ok (some k) := by
          intro i
          simp only [caseMatch, hp]
          rcases caseMatch ps x with m | _ | k <;> simp [eq_comm]
        have hB : caseMatch (p :: ps) x = .ok none ↔ caseMatch ps x = .ok none := by
          simp only [caseMatch, hp]
          rcases caseMatch ps x with m | _ | k <;> simp
        have hC : ∀ m, caseMatch (p :: ps) x = .error m ↔ caseMatch ps x = .error m := by
          intro m
          simp only [caseMatch, hp]
          rcases caseMatch ps x with m | _ | k <;> simp
        refine ⟨?_, ?_, ?_⟩
        · intro i
          rw [hA i]
          constructor
          · rintro ⟨k, rfl, hk⟩
            obtain ⟨q, h1, h2, h3⟩ := (i1 k).1 hk
            exact ⟨q, h1, h2, (shift k).2 ⟨hp, h3⟩⟩
          · rintro ⟨q, hq, hq', hall⟩
            cases i with
            | zero => simp at hq; subst hq; rw [hp] at hq'; cases hq'
            | succ i => exact ⟨i, rfl, (i1 i).2 ⟨q, hq, hq', ((shift i).1 hall).2⟩⟩
        · rw [hB, i2]
          constructor
          · intro h q hq
            rcases List.mem_cons.1 hq with rfl | hq
            · exact hp
            · exact h q hq
          · intro h q hq; exact h q (by simp [hq])
        · intro m
          rw [hC m, i3 m]
          constructor
          · rintro ⟨i, q, h1, h2, h3⟩
            exact ⟨i + 1, q, h1, h2, (shift i).2 ⟨hp, h3⟩⟩
          · rintro ⟨i, q, hq, hq', hall⟩
            cases i with
            | zero => simp at hq; subst hq; rw [hp] at hq'; cases hq'
            | succ i => exact ⟨i, q, hq, hq', ((shift i).1 hall).2⟩

/-- The destination computed by the model. -/
def caseDest (preds : List (α → Except Msg Bool)) (hasDefault : Bool) (x : α) : Dest :=
  match caseMatch preds x with
  | .error m => .raises m
  | .ok (some i) => .branch i
  | .ok none => if hasDefault then .branch preds.length else .nowhere

/-- **C18.** Every item has exactly one destination. -/
theorem C18_dest_unique (preds : List (α → Except Msg Bool)) (hasDefault : Bool) (x : α) (d : Dest) :
    DestIs preds hasDefault x d ↔ d = caseDest preds hasDefault x := by
  obtain ⟨h1, h2, h3⟩ := caseMatch_spec preds x
  unfold caseDest
  cases d with
  | branch i =>
    simp only [DestIs, ← h1 i, ← h2]
    rcases hc : caseMatch preds x with m | _ | k
    · simp
    · cases hasDefault <;> simp
    · simp [eq_comm]
  | nowhere =>
    simp only [DestIs, ← h2]
    rcases hc : caseMatch preds x with m | _ | k
    · simp
    · cases hasDefault <;> simp
    · simp
  | raises m =>
    simp only [DestIs, ← h3 m]
    rcases hc : caseMatch preds x with m' | _ | k
    · simp [eq_comm]
    · cases hasDefault <;> simp
    · simp

variable {σ : Nat → Type}

/-- What is emitted while the last item of `pre ++ [x]` is handled: the answer of its branch pipeline, which
has been told exactly the earlier items with the same destination. -/
def caseContribution (dest : α → Dest) (pipe : (i : Nat) → Op (σ i) α β) (pre : List α) (x : α) : List (Ev β) :=
  match dest x with
  | .branch i =>
    ((pipe i).feed ((pipe i).feed (pipe i).init (ofItems (pre.filter fun y => dest y = .branch i))).st [.item x]).out
  | .nowhere => []
  | .raises m => [.err m]

theorem setAt_same (s : (i : Nat) → σ i) (i : Nat) (v : σ i) : setAt s i v i = v := by
  simp [setAt]
theorem setAt_ne (s : (i : Nat) → σ i) (i j : Nat) (v : σ i) (h : i ≠ j) : setAt s i v j = s j := by
  simp [setAt, h]

theorem feed_exn_none_prefix {ρ : Type} (o : Op ρ α β) (s : ρ) (a b : List (Ev α)) (h : (o.feed s (a ++ b)).exn = none) :
    (o.feed s a).exn = none := by
  rw [feed_append] at h
  by_cases h1 : (o.feed s a).exn.isSome
  · rw [if_pos h1] at h; exact h
  · simpa using h1

theorem feed_single {ρ : Type} (o : Op ρ α β) (s : ρ) (e : Ev α) : o.feed s [e] = o.step s e := by
  rw [feed_cons]
  by_cases h : (o.step s e).exn.isSome
  · simp [h]
  · have : (o.step s e).exn = none := by simpa using h
    simp only [feed_nil, this]
    simp
    rw [← this]

theorem prefix_flatMap_snoc {γ : Type} (c : List α → α → List γ) (xs : List α) (x : α) :
    ((List.range (xs ++ [x]).length).flatMap fun j =>
      match (xs ++ [x])[j]? with
      | some y => c ((xs ++ [x]).take j) y
      | none => []) =
    ((List.range xs.length).flatMap fun j =>
      match xs[j]? with
      | some y => c (xs.take j) y
      | none => []) ++ c xs x := by
  rw [List.length_append, List.length_singleton, List.range_succ, List.flatMap_append]
  congr 1
  · apply flatMap_congr'
    intro i hi
    rw [List.mem_range] at hi
    rw [List.getElem?_append_left hi, List.take_append_of_le_length (by omega)]
  · simp

theorem caseFlush_spec (pipe : (i : Nat) → Op (σ i) α β) (s : (i : Nat) → σ i) (i n : Nat)
    (h : ∀ j, i ≤ j → j < i + n → ((pipe j).flush (s j)).exn = none) :
    (caseFlush pipe i n s).exn = none ∧
    (caseFlush pipe i n s).out =
      (List.range' i n).flatMap fun j => dropFlush ((pipe j).flush (s j)).out := by
  induction n generalizing i s with
  | zero => simp [caseFlush]
  | succ n ih =>
    have h0 := h i (by omega) (by omega)
    have hi := ih (setAt s i ((pipe i).flush (s i)).st) (i + 1) (by
      intro j hj1 hj2
      rw [setAt_ne _ _ _ _ (by omega)]
      exact h j (by omega) (by omega))
    simp only [caseFlush, h0, Option.isSome_none, Bool.false_eq_true, if_false]
    refine ⟨hi.1, ?_⟩
    rw [hi.2, List.range'_succ, List.flatMap_cons]
    congr 1
    apply flatMap_congr'
    intro j hj
    simp at hj
    rw [setAt_ne _ _ _ _ (by omega)]

/-- **C18.** `case`: every item is handled exactly by the branch that is its destination. While it is handled,
exactly the answer of that branch's pipeline is emitted, which sees its items in input order; at the end the
branch pipelines finish in order (default last), and then the end is signalled once. Hypotheses: `dest` is the
destination, and no branch pipeline kills the command. -/
theorem C18_case (preds : List (α → Except Msg Bool)) (hasDefault : Bool) (pipe : (i : Nat) → Op (σ i) α β)
    (dest : α → Dest) (xs : List α) (hdest : ∀ x ∈ xs, DestIs preds hasDefault x (dest x))
    (hok : ∀ i, ((pipe i).run (ofItems (xs.filter fun y => dest y = .branch i))).2 = none) :
    (caseOp preds hasDefault pipe).run (ofItems xs) =
      (((List.range xs.length).flatMap fun j =>
          match xs[j]? with
          | some y => caseContribution dest pipe (xs.take j) y
          | none => []) ++
       ((List.range (if hasDefault then preds.length + 1 else preds.length)).flatMap fun i =>
          dropFlush ((pipe i).flush
            ((pipe i).feed (pipe i).init (ofItems (xs.filter fun y => dest y = .branch i))).st).out) ++
       [.flush], none) := by
  have hok1 : ∀ i, ((pipe i).feed (pipe i).init (ofItems (xs.filter fun y => dest y = .branch i))).exn = none := by
    intro i
    exact feed_exn_none_prefix _ _ _ [.flush] (hok i)
  have hinv := (caseOp preds hasDefault pipe).feed_inv_on xs
    (fun pre s out => (∀ i, s i = ((pipe i).feed (pipe i).init
        (ofItems (pre.filter fun y => dest y = .branch i))).st) ∧
      out = (List.range pre.length).flatMap fun j =>
          match pre[j]? with
          | some y => caseContribution dest pipe (pre.take j) y
          | none => [])
    ⟨by intro i; simp [feed_nil, caseOp], by simp⟩
    (by
      rintro pre x post s out hx ⟨hs, rfl⟩
      have hd : dest x = caseDest preds hasDefault x :=
        (C18_dest_unique _ _ _ _).1 (hdest x (by rw [hx]; simp))
      have hbranch : ∀ i, dest x = .branch i →
          (∃ s' out' e, (⟨setAt s i ((pipe i).step (s i) (.item x)).st, ((pipe i).step (s i) (.item x)).out,
            ((pipe i).step (s i) (.item x)).exn⟩ : Res ((i : Nat) → σ i) β) = ⟨s', out', e⟩ ∧
            (e = none ∨ e = some .kare) ∧
            (∀ k, s' k = ((pipe k).feed (pipe k).init
              (ofItems ((pre ++ [x]).filter fun y => dest y = .branch k))).st) ∧
            out' = caseContribution dest pipe pre x) := by
        intro i hi
        have hex : ((pipe i).feed (pipe i).init
            (ofItems ((pre ++ [x]).filter fun y => dest y = .branch i))).exn = none := by
          have := hok1 i
          rw [hx, show pre ++ x :: post = (pre ++ [x]) ++ post by simp, List.filter_append, ofItems_append] at this
          exact feed_exn_none_prefix _ _ _ _ this
        have hf : (pre ++ [x]).filter (fun y => dest y = .branch i) =
            pre.filter (fun y => dest y = .branch i) ++ [x] := by
          simp [List.filter_append, hi]
        rw [hf, ofItems_append] at hex
        have hpre := feed_exn_none_prefix _ _ _ _ hex
        rw [feed_append] at hex
        simp only [hpre, Option.isSome_none, Bool.false_eq_true, if_false, ofItems_cons, ofItems_nil,
          feed_single, ← hs i] at hex
        refine ⟨_, _, _, rfl, Or.inl hex, ?_, ?_⟩
        · intro k
          by_cases hk : i = k
          · subst hk
            rw [setAt_same, hf, ofItems_append, feed_append]
            simp only [hpre, Option.isSome_none, Bool.false_eq_true, if_false, ofItems_cons, ofItems_nil,
              feed_single, ← hs i]
          · rw [setAt_ne _ _ _ _ hk, hs k]
            congr 3
            rw [List.filter_append]
            simp [hi, hk]
        · simp only [caseContribution, hi, feed_single, hs i]
      have hother : (∀ i, dest x ≠ .branch i) → ∀ k, s k = ((pipe k).feed (pipe k).init
              (ofItems ((pre ++ [x]).filter fun y => dest y = .branch k))).st := by
        intro h k
        rw [hs k]
        congr 3
        rw [List.filter_append]
        simp [h k]
      simp only [prefix_flatMap_snoc (caseContribution dest pipe)]
      unfold caseDest at hd
      simp only [caseOp]
      rcases hm : caseMatch preds x with m | _ | i
      · rw [hm] at hd
        refine ⟨s, [.err m], some .kare, rfl, Or.inr rfl, hother (by rw [hd]; simp), ?_⟩
        simp [caseContribution, hd]
      · rw [hm] at hd
        cases hasDefault with
        | true =>
          simp only [if_true] at hd ⊢
          obtain ⟨s', out', e, h1, h2, h3, h4⟩ := hbranch _ hd
          exact ⟨s', out', e, h1, h2, h3, by rw [h4]⟩
        | false =>
          simp only [Bool.false_eq_true, if_false] at hd ⊢
          refine ⟨s, [], none, rfl, Or.inl rfl, hother (by rw [hd]; simp), ?_⟩
          simp [caseContribution, hd]
      · rw [hm] at hd
        simp only at hd ⊢
        obtain ⟨s', out', e, h1, h2, h3, h4⟩ := hbranch _ hd
        exact ⟨s', out', e, h1, h2, h3, by rw [h4]⟩)
  obtain ⟨h1, h2, h3⟩ := hinv
  rw [run_ofItems _ _ h1, h3]
  have hfl := caseFlush_spec pipe ((caseOp preds hasDefault pipe).feed (caseOp preds hasDefault pipe).init (ofItems xs)).st 0
    (if hasDefault then preds.length + 1 else preds.length) (by
      intro j _ _
      rw [h2 j]
      have := hok j
      simp only [run, obs, feed_append, hok1 j, Option.isSome_none, Bool.false_eq_true, if_false, feed_single,
        step_flush] at this
      exact this)
  have hfe : ∀ s, (caseOp preds hasDefault pipe).flush s =
      if (caseFlush pipe 0 (if hasDefault then preds.length + 1 else preds.length) s).exn.isSome then
        caseFlush pipe 0 (if hasDefault then preds.length + 1 else preds.length) s
      else ⟨(caseFlush pipe 0 (if hasDefault then preds.length + 1 else preds.length) s).st,
        (caseFlush pipe 0 (if hasDefault then preds.length + 1 else preds.length) s).out ++ [.flush], none⟩ :=
    fun _ => rfl
  rw [hfe]
  simp only [hfl.1, Option.isSome_none, Bool.false_eq_true, if_false, hfl.2, List.range_eq_range', h2, List.append_assoc]

/-- **C18.** All that branch `i` contributes while items are coming in, taken together, is what its pipeline emits
for exactly its items, in order. -/
theorem C18_branch (pipe : (i : Nat) → Op (σ i) α β) (dest : α → Dest) (i : Nat) (xs : List α)
    (hok : ((pipe i).obs (ofItems (xs.filter fun y => dest y = .branch i))).2 = none) :
    ((List.range xs.length).flatMap fun j =>
        match xs[j]? with
        | some y => if dest y = .branch i then caseContribution dest pipe (xs.take j) y else []
        | none => []) =
      ((pipe i).obs (ofItems (xs.filter fun y => dest y = .branch i))).1 := by
  simp only [obs] at hok ⊢
  induction xs using snoc_induction with
  | nil => simp [feed_nil]
  | snoc xs x ih =>
    rw [prefix_flatMap_snoc (fun pre y => if dest y = .branch i then caseContribution dest pipe pre y else [])]
    rw [List.filter_append, ofItems_append] at hok ⊢
    have hpre := feed_exn_none_prefix _ _ _ _ hok
    rw [ih hpre, feed_append]
    simp only [hpre, Option.isSome_none, Bool.false_eq_true, if_false]
    congr 1
    by_cases h : dest x = .branch i
    · simp [h, caseContribution]
    · simp [h, feed_nil]

example : DestIs [fun n : Nat => .ok (n % 15 == 0), fun n => .ok (n % 3 == 0)] true 9 (.branch 1) :=
  Or.inl ⟨_, rfl, rfl, by intro j q hj hq; obtain rfl : j = 0 := by omega
                          simp at hq; subst hq; rfl⟩
example : ((caseOp [fun n : Nat => .ok (n % 15 == 0), fun n => .ok (n % 3 == 0)] true
    (fun i => mapOp (fun n => .ok (100 * i + n)))).run (ofItems [15, 1, 3])).1 =
    [.item 15, .item 201, .item 103, .flush] := by decide

end Marcel
