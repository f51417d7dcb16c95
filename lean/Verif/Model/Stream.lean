/-!
# Operators, events and push execution

Models `marcel/core.py` (class `Op`) and the execution part of `marcel/pipeline.py`.
-/

namespace Marcel

/-- Text of an `Error` object (`marcel/object/error.py`); the op/input description that
`core.py` 218-221 puts in front of it is dropped. -/
abbrev Msg := String

/-- Exceptions as values.
* `kare`  — `KillAndResumeException` (exception.py), caught by `Op.receive_input`;
* `kill`  — `KillCommandException`, aborts the command;
* `crash` — any other Python exception (AssertionError, AttributeError, ...). -/
inductive Exn
  | kare
  | kill
  | crash
  deriving DecidableEq, Repr

/-- What an operator's receiver can be told: an item (`receive_input`, core.py 56-61), an error
(`receive_error`, core.py 63-68), end of stream (`flush`, core.py 70-72). -/
inductive Ev (α : Type) : Type
  | item (x : α)
  | err (m : Msg)
  | flush
  deriving DecidableEq, Repr

/-- Outcome of running a piece of operator code: new state, the events sent to the receiver in
order, and the exception (if any) it ended with. -/
structure Res (σ β : Type) : Type where
  st : σ
  out : List (Ev β)
  exn : Option Exn
  deriving Repr

/-- An operator: state after `setup`, reaction to an item (`Op.receive`), reaction to end of stream
(`Op.flush`). The reaction to an error is fixed (core.py 120-122: forward it, nothing else) because
no operator between source and sink overrides it. `no_flush`: `Op.receive` never signals end of
stream (true of every `receive` in `marcel/op`). -/
structure Op (σ α β : Type) : Type where
  init : σ
  item : σ → α → Res σ β
  flush : σ → Res σ β
  no_flush : ∀ s x, Ev.flush ∉ (item s x).out

namespace Op

variable {σ τ α β γ : Type}

/-- `Op.receive_input` catches `KillAndResumeException` (core.py 96-104). -/
def catchKare (r : Res σ β) : Res σ β :=
  if r.exn = some Exn.kare then { r with exn := none } else r

/-- One event delivered to an operator: `receive_input` (core.py 96-104), `receive_error`
(120-122), `flush` (not guarded, 124-125). -/
def step (o : Op σ α β) (s : σ) : Ev α → Res σ β
  | .item x => catchKare (o.item s x)
  | .err m => ⟨s, [.err m], none⟩
  | .flush => o.flush s

/-- A sequence of events delivered to an operator; the first uncaught exception ends it. -/
def feed (o : Op σ α β) : σ → List (Ev α) → Res σ β
  | s, [] => ⟨s, [], none⟩
  | s, e :: es =>
    let r := o.step s e
    if r.exn.isSome then r
    else
      let r' := o.feed r.st es
      ⟨r'.st, r.out ++ r'.out, r'.exn⟩

theorem feed_nil (o : Op σ α β) (s : σ) : o.feed s [] = ⟨s, [], none⟩ := rfl

theorem feed_cons (o : Op σ α β) (s : σ) (e : Ev α) (es : List (Ev α)) :
    o.feed s (e :: es) =
      if (o.step s e).exn.isSome then o.step s e
      else ⟨(o.feed (o.step s e).st es).st, (o.step s e).out ++ (o.feed (o.step s e).st es).out,
            (o.feed (o.step s e).st es).exn⟩ := rfl

theorem step_no_flush (o : Op σ α β) (s : σ) {e : Ev α} (he : e ≠ .flush) :
    Ev.flush ∉ (o.step s e).out := by
  cases e with
  | item x =>
    have := o.no_flush s x
    simp only [step, catchKare]
    split <;> simpa using this
  | err m => simp [step]
  | flush => exact absurd rfl he

theorem feed_no_flush (o : Op σ α β) (s : σ) (es : List (Ev α)) (h : Ev.flush ∉ es) :
    Ev.flush ∉ (o.feed s es).out := by
  induction es generalizing s with
  | nil => simp [feed_nil]
  | cons e es ih =>
    rw [List.mem_cons, not_or] at h
    have h1 := o.step_no_flush s (e := e) (fun hc => h.1 hc.symm)
    rw [feed_cons]
    split
    · exact h1
    · simp only [List.mem_append, not_or]
      exact ⟨h1, ih _ h.2⟩

/-- Two operators connected by `prev_op.receiver = op` (pipeline.py 50-58) and executed by pushing:
everything the first one sends while it handles an event is handled by the second one on the
spot, and an exception in the second one interrupts the first (core.py 56-72). -/
def comp (p : Op σ α β) (q : Op τ β γ) : Op (σ × τ) α γ where
  init := (p.init, q.init)
  item := fun s x =>
    let r := p.item s.1 x
    let r2 := q.feed s.2 r.out
    ⟨(r.st, r2.st), r2.out, r2.exn <|> r.exn⟩
  flush := fun s =>
    let r := p.flush s.1
    let r2 := q.feed s.2 r.out
    ⟨(r.st, r2.st), r2.out, r2.exn <|> r.exn⟩
  no_flush := fun _ _ => q.feed_no_flush _ _ (p.no_flush _ _)

/-- An operator that hands everything on (e.g. a `Redirect`, redirect.py 29-33). -/
def pass : Op Unit α α where
  init := ()
  item := fun _ x => ⟨(), [.item x], none⟩
  flush := fun _ => ⟨(), [.flush], none⟩
  no_flush := by simp


/-- What can be observed of an operator (or pipeline) when it is set up and then told the events
`es`: everything it sends, and the exception that ended it, if any. -/
def obs (o : Op σ α β) (es : List (Ev α)) : List (Ev β) × Option Exn :=
  ((o.feed o.init es).out, (o.feed o.init es).exn)

/-- Running a command (`run_pipeline`, pipeline.py 331-334): the source sends `xs`, then the
pipeline is flushed, unless an exception ended it before. -/
def run (o : Op σ α β) (xs : List (Ev α)) : List (Ev β) × Option Exn :=
  o.obs (xs ++ [.flush])

end Op

/-- An operator together with the type of its state. -/
abbrev AnyOp (α : Type) : Type 1 := (σ : Type) × Op σ α α

/-- A chain of operators over one type of items, `op1 | op2 | ...`. -/
def chain {α : Type} : List (AnyOp α) → AnyOp α
  | [] => ⟨Unit, Op.pass⟩
  | o :: os => ⟨o.1 × (chain os).1, o.2.comp (chain os).2⟩

/-- The items among some events. -/
def items {α : Type} : List (Ev α) → List α
  | [] => []
  | .item x :: es => x :: items es
  | _ :: es => items es

/-- The errors among some events. -/
def errs {α : Type} : List (Ev α) → List Msg
  | [] => []
  | .err m :: es => m :: errs es
  | _ :: es => errs es

/-- The events other than errors. -/
def withoutErrs {α : Type} : List (Ev α) → List (Ev α)
  | [] => []
  | .err _ :: es => withoutErrs es
  | e :: es => e :: withoutErrs es

/-- How often end of stream is signalled. -/
def flushes {α : Type} : List (Ev α) → Nat
  | [] => 0
  | .flush :: es => flushes es + 1
  | _ :: es => flushes es

/-- A stream of items as events. -/
def ofItems {α : Type} (xs : List α) : List (Ev α) := xs.map Ev.item

end Marcel
