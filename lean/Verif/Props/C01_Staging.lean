import Verif.Lemmas.Stream

/-! C01: streaming a pipeline equals staging it. -/

namespace Marcel
open Op

variable {σ τ α β γ : Type}

/-- **C01.** For all operators `p`, `q`, all states they can be in and all event sequences: pushing
the events through `p | q` produces what `q` produces when fed the complete recording of what `p`
sends; an exception of `q` takes precedence (it interrupts `p`). -/
theorem C01_push_eq_staged (p : Op σ α β) (q : Op τ β γ) (s : σ) (t : τ) (es : List (Ev α)) :
    ((p.comp q).feed (s, t) es).out = (q.feed t (p.feed s es).out).out ∧
    ((p.comp q).feed (s, t) es).exn = ((q.feed t (p.feed s es).out).exn <|> (p.feed s es).exn) := by
  induction es generalizing s t with
  | nil => simp [feed_nil]
  | cons e es ih =>
    obtain ⟨ho, hx, hs⟩ := comp_step p q s t e
    rw [feed_cons, feed_cons]
    rw [ho, hx, hs]
    by_cases hp : (p.step s e).exn.isSome
    · have hpx : ((q.feed t (p.step s e).out).exn <|> (p.step s e).exn).isSome = true := by
        cases (q.feed t (p.step s e).out).exn <;> simp [hp]
      rw [if_pos hpx, if_pos hp]
      exact ⟨ho, hx⟩
    · have hpn : (p.step s e).exn = none := by simpa using hp
      rw [if_neg hp]
      dsimp only
      rw [feed_append, hpn]
      cases hq : (q.feed t (p.step s e).out).exn with
      | some y => simp [ho, hx, hq]
      | none =>
        obtain ⟨ih1, ih2⟩ := ih (p.step s e).st (q.feed t (p.step s e).out).st
        simp [ih1, ih2]

/-- Specification: run `q` on the recording of what `p` sent; if `q` raises, that is how it ends. -/
def staged (p : List (Ev α) → List (Ev β) × Option Exn) (q : List (Ev β) → List (Ev γ) × Option Exn)
    (es : List (Ev α)) : List (Ev γ) × Option Exn :=
  ((q (p es).1).1, match (q (p es).1).2 with
    | some x => some x
    | none => (p es).2)

/-- **C01** from the initial states. -/
theorem C01_obs (p : Op σ α β) (q : Op τ β γ) (es : List (Ev α)) :
    (p.comp q).obs es = staged p.obs q.obs es := by
  obtain ⟨h1, h2⟩ := C01_push_eq_staged p q p.init q.init es
  simp only [obs, staged]
  refine Prod.ext h1 (h2.trans ?_)
  cases (q.feed q.init (p.feed p.init es).out).exn <;> rfl

/-- **C01** for whole commands: source events `xs`, then end of stream. -/
theorem C01_command (p : Op σ α β) (q : Op τ β γ) (xs : List (Ev α)) :
    (p.comp q).run xs = staged p.run q.obs xs :=
  C01_obs p q (xs ++ [Ev.flush])

theorem feed_pass (s : Unit) (es : List (Ev α)) :
    (pass : Op Unit α α).feed s es = ⟨(), es, none⟩ := by
  induction es with
  | nil => rfl
  | cons e es ih => 
    rw [feed_cons]
    cases e <;> simp only [step, pass, catchKare] <;> simp <;> exact ⟨congrArg Res.out ih, congrArg Res.exn ih⟩

theorem obs_pass (es : List (Ev α)) : (pass : Op Unit α α).obs es = (es, none) := by
  simp only [obs]; rw [show (pass : Op Unit α α).init = () from rfl, feed_pass]

/-- **C01** for chains of any length: `p1 | ... | pm | q1 | ... | qn`, cut anywhere. -/
theorem C01_chain (ps qs : List (AnyOp α)) (es : List (Ev α)) :
    (chain (ps ++ qs)).2.obs es = staged (chain ps).2.obs (chain qs).2.obs es := by
  induction ps generalizing es with
  | nil =>
    simp only [List.nil_append, chain, staged, obs_pass]
    ext1
    · rfl
    · cases h : ((chain qs).2.obs es).2 <;> simp
  | cons p ps ih =>
    simp only [List.cons_append, chain, C01_obs, staged, ih]
    ext1
    · rfl
    · cases ((chain qs).2.obs ((chain ps).2.obs (p.2.obs es).1).1).2 <;> simp

/-- **C01**, errors are transparent: errors coming from upstream are handed on and do not influence
the items, the end-of-stream signals, the exception or the state of any operator (hence of any
pipeline, pipelines being operators). -/
theorem C01_errors_transparent (o : Op σ α β) (s : σ) (es : List (Ev α)) :
    items (o.feed s es).out = items (o.feed s (withoutErrs es)).out ∧
    flushes (o.feed s es).out = flushes (o.feed s (withoutErrs es)).out ∧
    (o.feed s es).exn = (o.feed s (withoutErrs es)).exn ∧
    (o.feed s es).st = (o.feed s (withoutErrs es)).st := by
  induction es generalizing s with
  | nil => simp [withoutErrs]
  | cons e es ih =>
    cases e with
    | err m =>
      have := ih s
      simp only [withoutErrs]
      rw [feed_cons]
      simp [step_err] at *
      exact this
    | item x =>
      simp only [withoutErrs]
      rw [feed_cons, feed_cons]
      by_cases h : (o.step s (.item x)).exn.isSome
      · simp [h]
      · have := ih (o.step s (.item x)).st
        simp [h] at *
        simp [this]
    | flush =>
      simp only [withoutErrs]
      rw [feed_cons, feed_cons]
      by_cases h : (o.step s .flush).exn.isSome
      · simp [h]
      · have := ih (o.step s .flush).st
        simp [h] at *
        simp [this]

/-- **C01**, no error is lost: if the command is not ended by an exception, every error that comes
in also comes out, in the same order. -/
theorem C01_errors_forwarded (o : Op σ α β) (s : σ) (es : List (Ev α)) (h : (o.feed s es).exn = none) :
    (errs es).Sublist (errs (o.feed s es).out) := by
  induction es generalizing s with
  | nil => simp
  | cons e es ih =>
    rw [feed_cons] at h ⊢
    by_cases hs : (o.step s e).exn.isSome
    · simp only [hs, if_true] at h; simp [h] at hs
    · simp only [hs, Bool.false_eq_true, if_false] at h ⊢
      rw [errs_append]
      cases e with
      | err m => simpa [step_err] using ih _ h
      | item x => exact (ih _ h).trans (List.sublist_append_right _ _)
      | flush => exact (ih _ h).trans (List.sublist_append_right _ _)

/-- Non-vacuity: `pass` followed by an operator that counts and kills the command at the third item. -/
def killAt3 : Op Nat Nat Nat where
  init := 0
  item := fun s x => if s = 2 then ⟨s, [], some .kill⟩ else ⟨s + 1, [.item (x + s)], none⟩
  flush := fun s => ⟨s, [.flush], none⟩
  no_flush := by intro s x; split <;> simp

example : (chain ([⟨_, pass⟩] ++ [⟨_, killAt3⟩, ⟨_, killAt3⟩])).2.run [.item 5, .err "e", .item 6, .item 7] =
    ([.item 5, .err "e", .item 8], some .kill) := by decide
example : (chain ([⟨_, pass⟩] ++ [⟨_, killAt3⟩, ⟨_, killAt3⟩])).2.run [.item 5, .err "e", .item 6] =
    ([.item 5, .err "e", .item 8, .flush], none) := by decide

end Marcel
