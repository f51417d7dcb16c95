import Verif.Model.Stream

/-! Helper lemmas about push execution. -/

namespace Marcel
namespace Op

variable {σ τ α β γ : Type}

theorem step_item (o : Op σ α β) (s : σ) (x : α) : o.step s (.item x) = catchKare (o.item s x) := rfl
theorem step_err (o : Op σ α β) (s : σ) (m : Msg) : o.step s (.err m) = ⟨s, [.err m], none⟩ := rfl
theorem step_flush (o : Op σ α β) (s : σ) : o.step s .flush = o.flush s := rfl

theorem catchKare_st (r : Res σ β) : (catchKare r).st = r.st := by
  unfold catchKare; split <;> rfl
theorem catchKare_out (r : Res σ β) : (catchKare r).out = r.out := by
  unfold catchKare; split <;> rfl
theorem catchKare_exn (r : Res σ β) :
    (catchKare r).exn = if r.exn = some Exn.kare then none else r.exn := by
  unfold catchKare; split <;> simp_all

theorem feed_append (o : Op σ α β) (s : σ) (a b : List (Ev α)) :
    o.feed s (a ++ b) =
      if (o.feed s a).exn.isSome then o.feed s a
      else ⟨(o.feed (o.feed s a).st b).st, (o.feed s a).out ++ (o.feed (o.feed s a).st b).out,
            (o.feed (o.feed s a).st b).exn⟩ := by
  induction a generalizing s with
  | nil => simp [feed_nil]
  | cons e a ih =>
    rw [List.cons_append, feed_cons, feed_cons]
    by_cases h : (o.step s e).exn.isSome
    · simp [h]
    · simp only [h, ih, Bool.false_eq_true, if_false]
      by_cases h2 : (o.feed (o.step s e).st a).exn.isSome
      · simp [h2]
      · simp [h2]

theorem feed_exn_ne_kare (o : Op σ α β) (s : σ) (es : List (Ev α)) (h : Ev.flush ∉ es) :
    (o.feed s es).exn ≠ some Exn.kare := by
  induction es generalizing s with
  | nil => simp [feed_nil]
  | cons e es ih =>
    rw [List.mem_cons, not_or] at h
    rw [feed_cons]
    split
    · cases e with
      | item x => rw [step_item, catchKare_exn]; split <;> simp_all
      | err m => simp [step_err]
      | flush => simp at h
    · exact ih _ h.2

/-- One step of a composite is the second operator reacting to what the first one sent. -/
theorem comp_step (p : Op σ α β) (q : Op τ β γ) (s : σ) (t : τ) (e : Ev α) :
    ((p.comp q).step (s, t) e).out = (q.feed t (p.step s e).out).out ∧
    ((p.comp q).step (s, t) e).exn = ((q.feed t (p.step s e).out).exn <|> (p.step s e).exn) ∧
    ((p.comp q).step (s, t) e).st = ((p.step s e).st, (q.feed t (p.step s e).out).st) := by
  cases e with
  | item x =>
    have hk := q.feed_exn_ne_kare t (p.item s x).out (p.no_flush s x)
    simp only [step_item, catchKare_out, catchKare_st, catchKare_exn, comp]
    refine ⟨trivial, ?_, trivial⟩
    cases h : (q.feed t (p.item s x).out).exn with
    | none => simp
    | some y =>
      have : y ≠ Exn.kare := fun hc => hk (by rw [h, hc])
      simp [this]
  | err m => simp only [step_err]; simp [step, feed_cons, feed_nil]
  | flush => simp [step_flush, comp]

end Op

/-! ### items / errs / flushes -/
variable {α : Type}

@[simp] theorem items_nil : items ([] : List (Ev α)) = [] := rfl
@[simp] theorem items_item (x : α) (es) : items (.item x :: es) = x :: items es := rfl
@[simp] theorem items_err (m) (es : List (Ev α)) : items (.err m :: es) = items es := rfl
@[simp] theorem items_flush (es : List (Ev α)) : items (.flush :: es) = items es := rfl
@[simp] theorem errs_nil : errs ([] : List (Ev α)) = [] := rfl
@[simp] theorem errs_item (x : α) (es) : errs (.item x :: es) = errs es := rfl
@[simp] theorem errs_err (m) (es : List (Ev α)) : errs (.err m :: es) = m :: errs es := rfl
@[simp] theorem errs_flush (es : List (Ev α)) : errs (.flush :: es) = errs es := rfl
@[simp] theorem flushes_nil : flushes ([] : List (Ev α)) = 0 := rfl
@[simp] theorem flushes_item (x : α) (es) : flushes (.item x :: es) = flushes es := rfl
@[simp] theorem flushes_err (m) (es : List (Ev α)) : flushes (.err m :: es) = flushes es := rfl
@[simp] theorem flushes_flush (es : List (Ev α)) : flushes (.flush :: es) = flushes es + 1 := rfl

@[simp] theorem items_append (a b : List (Ev α)) : items (a ++ b) = items a ++ items b := by
  induction a with
  | nil => rfl
  | cons e a ih => cases e <;> simp [ih]
@[simp] theorem errs_append (a b : List (Ev α)) : errs (a ++ b) = errs a ++ errs b := by
  induction a with
  | nil => rfl
  | cons e a ih => cases e <;> simp [ih]
@[simp] theorem flushes_append (a b : List (Ev α)) : flushes (a ++ b) = flushes a + flushes b := by
  induction a with
  | nil => simp
  | cons e a ih => cases e <;> simp [ih] <;> omega
@[simp] theorem items_ofItems (xs : List α) : items (ofItems xs) = xs := by
  induction xs with
  | nil => rfl
  | cons x xs ih => simpa [ofItems] using ih
@[simp] theorem errs_ofItems (xs : List α) : errs (ofItems xs) = [] := by
  induction xs with
  | nil => rfl
  | cons x xs ih => simpa [ofItems] using ih
@[simp] theorem flushes_ofItems (xs : List α) : flushes (ofItems xs) = 0 := by
  induction xs with
  | nil => rfl
  | cons x xs ih => simpa [ofItems] using ih
@[simp] theorem ofItems_nil : ofItems ([] : List α) = [] := rfl
@[simp] theorem ofItems_cons (x : α) (xs) : ofItems (x :: xs) = .item x :: ofItems xs := rfl
@[simp] theorem ofItems_append (xs ys : List α) : ofItems (xs ++ ys) = ofItems xs ++ ofItems ys := by
  simp [ofItems]
theorem flush_not_mem_ofItems (xs : List α) : Ev.flush ∉ ofItems xs := by
  simp [ofItems]

theorem flushes_eq_zero_of_not_mem (es : List (Ev α)) (h : Ev.flush ∉ es) : flushes es = 0 := by
  induction es with
  | nil => rfl
  | cons e es ih =>
    rw [List.mem_cons, not_or] at h
    cases e with
    | item x => simpa using ih h.2
    | err m => simpa using ih h.2
    | flush => simp at h

end Marcel

namespace Marcel
namespace Op
variable {σ τ α β γ : Type}

/-- Invariant rule: items fed one at a time to an operator that never raises anything uncaught. -/
theorem feed_inv (o : Op σ α β) (P : List α → σ → List (Ev β) → Prop) (h0 : P [] o.init [])
    (h : ∀ xs s out x, P xs s out → (catchKare (o.item s x)).exn = none ∧
      P (xs ++ [x]) (o.item s x).st (out ++ (o.item s x).out)) (xs : List α) :
    (o.feed o.init (ofItems xs)).exn = none ∧
      P xs (o.feed o.init (ofItems xs)).st (o.feed o.init (ofItems xs)).out := by
  suffices H : ∀ (ys pre : List α) (s : σ) (out : List (Ev β)), P pre s out →
      (o.feed s (ofItems ys)).exn = none ∧
      P (pre ++ ys) (o.feed s (ofItems ys)).st (out ++ (o.feed s (ofItems ys)).out) by
    simpa using H xs [] o.init [] h0
  intro ys
  induction ys with
  | nil => intro pre s out hp; simpa [feed_nil] using hp
  | cons y ys ih =>
    intro pre s out hp
    obtain ⟨h1, h2⟩ := h pre s out y hp
    have := ih (pre ++ [y]) _ _ h2
    rw [ofItems_cons, feed_cons]
    simp only [step_item, h1, Option.isSome_none, Bool.false_eq_true, if_false, catchKare_st,
      catchKare_out]
    simpa using this

theorem run_ofItems (o : Op σ α β) (xs : List α) (h : (o.feed o.init (ofItems xs)).exn = none) :
    o.run (ofItems xs) =
      ((o.feed o.init (ofItems xs)).out ++ (o.flush (o.feed o.init (ofItems xs)).st).out,
        (o.flush (o.feed o.init (ofItems xs)).st).exn) := by
  simp only [run, obs, feed_append, h, Option.isSome_none, Bool.false_eq_true, if_false, feed_cons,
    feed_nil, step_flush]
  by_cases hf : (o.flush (o.feed o.init (ofItems xs)).st).exn.isSome
  · simp [hf]
  · have : (o.flush (o.feed o.init (ofItems xs)).st).exn = none := by simpa using hf
    simp [this]

/-- Feeding events one by one to an operator whose state never changes. -/
theorem obs_ofItems_unit (o : Op Unit α β) (h : ∀ x, (catchKare (o.item () x)).exn = none) (xs : List α) :
    o.obs (ofItems xs) = (xs.flatMap (fun x => (o.item () x).out), none) := by
  have := o.feed_inv (fun xs _ out => out = xs.flatMap (fun x => (o.item () x).out)) (by simp)
    (by intro xs s out x hp; subst hp; exact ⟨h x, by simp⟩) xs
  simp only [obs, this.1]
  rw [this.2]

/-- Invariant rule for a given input: the step is only needed for the items of the input. -/
theorem feed_inv_on (o : Op σ α β) (xs : List α) (P : List α → σ → List (Ev β) → Prop) (h0 : P [] o.init [])
    (h : ∀ pre x post s out, xs = pre ++ x :: post → P pre s out →
      ∃ s' out' e, o.item s x = ⟨s', out', e⟩ ∧ (e = none ∨ e = some .kare) ∧ P (pre ++ [x]) s' (out ++ out')) :
    (o.feed o.init (ofItems xs)).exn = none ∧
      P xs (o.feed o.init (ofItems xs)).st (o.feed o.init (ofItems xs)).out := by
  suffices H : ∀ (ys pre : List α) (s : σ) (out : List (Ev β)), xs = pre ++ ys → P pre s out →
      (o.feed s (ofItems ys)).exn = none ∧
      P (pre ++ ys) (o.feed s (ofItems ys)).st (out ++ (o.feed s (ofItems ys)).out) by
    simpa using H xs [] o.init [] rfl h0
  intro ys
  induction ys with
  | nil => intro pre s out _ hp; simpa [feed_nil] using hp
  | cons y ys ih =>
    intro pre s out hx hp
    obtain ⟨s', out', e, h1, he, h2⟩ := h pre y ys s out hx hp
    have := ih (pre ++ [y]) _ _ (by simpa using hx) h2
    rw [ofItems_cons, feed_cons]
    have hc : (catchKare (o.item s y)).exn = none := by
      rw [catchKare_exn, h1]; rcases he with rfl | rfl <;> rfl
    simp only [step_item, hc, Option.isSome_none, Bool.false_eq_true, if_false, catchKare_st, catchKare_out]
    rw [h1]
    simpa using this

/-- The output of an operator that answers each item of the input independently of the others. -/
theorem run_flatMap (o : Op σ α β) (xs : List α) (Inv : σ → Prop) (f : α → List (Ev β)) (h0 : Inv o.init)
    (h : ∀ s x, Inv s → x ∈ xs → ∃ s' e, Inv s' ∧ (e = none ∨ e = some .kare) ∧ o.item s x = ⟨s', f x, e⟩)
    (hf : ∀ s, Inv s → (o.flush s).out = [.flush] ∧ (o.flush s).exn = none) :
    o.obs (ofItems xs) = (xs.flatMap f, none) ∧ o.run (ofItems xs) = (xs.flatMap f ++ [.flush], none) := by
  have := o.feed_inv_on xs (fun pre s out => Inv s ∧ out = pre.flatMap f) ⟨h0, rfl⟩ (by
    rintro pre x post s out hx ⟨hi, rfl⟩
    obtain ⟨s', e, h1, h2, h3⟩ := h s x hi (by rw [hx]; simp)
    exact ⟨s', f x, e, h3, h2, h1, by simp⟩)
  obtain ⟨h1, h2, h3⟩ := this
  refine ⟨Prod.ext h3 h1, ?_⟩
  rw [run_ofItems _ _ h1, h3, (hf _ h2).1, (hf _ h2).2]

end Op
end Marcel
