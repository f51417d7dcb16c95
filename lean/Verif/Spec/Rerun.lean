import Verif.Model.Rerun
/-! # Specification: a pipeline does the same each time it is run -/

namespace Marcel.Rerun

variable {ρ α β γ : Type}

/-- What an operator does in one run, depending on the variables: it kills the command, or acts as an `Op` (as in C01-C20). -/
abbrev Spec (ρ α β : Type) := ρ → Except Exn ((σ : Type) × Op σ α β)

/-- What is to be observed of one run. -/
def once (sp : Spec ρ α β) (run : ρ × List (Ev α)) : List (Ev β) × Option Exn :=
  match sp run.1 with
  | .error e => ([], some e)
  | .ok o => o.2.obs run.2

/-- In every series of runs (of the object itself, or of copies of it), with whatever input and whatever values of the
variables, and however the earlier runs ended, every run is like a first run. `P`: the input the runs may get. -/
def Repeats (copies : Bool) (P : Ev α → Prop) (c : Cls ρ α β) (sp : Spec ρ α β) : Prop :=
  ∀ rs : List (ρ × List (Ev α)), (∀ run ∈ rs, ∀ e ∈ run.2, P e) →
    c.runs copies c.new rs = rs.map (once sp)

/-- What a pipeline sends for each event does not depend on anything that happened before, and setting it up does not fail. -/
def Stateless {σ : Type} (c : Cls ρ α β) (o : ρ → Op σ α β) : Prop :=
  (∀ r s, (c.setup r s).2 = none) ∧
  (∀ r s t x, (c.item r s x).out = ((o r).item t x).out ∧ (c.item r s x).exn = ((o r).item t x).exn) ∧
  ∀ r s t, (c.flush r s).out = ((o r).flush t).out ∧ (c.flush r s).exn = ((o r).flush t).exn

/-- Two operators one after the other. -/
def Spec.comp (p : Spec ρ α β) (q : Spec ρ β γ) : Spec ρ α γ := fun r =>
  match p r with
  | .error e => .error e
  | .ok o1 => match q r with
    | .error e => .error e
    | .ok o2 => .ok ⟨o1.1 × o2.1, o1.2.comp o2.2⟩

/-- Any input. -/
def anyInput (_ : Ev α) : Prop := True

/-- An operator of a pipeline, with what it does. -/
structure Stage (ρ α : Type) where
  cls : Cls ρ α α
  spec : Spec ρ α α

/-- A pipeline of at least one operator. -/
def pipelineCls : Stage ρ α → List (Stage ρ α) → Cls ρ α α
  | s, [] => s.cls
  | s, t :: ts => s.cls.comp (pipelineCls t ts)

/-- What it does in one run. -/
def pipelineSpec : Stage ρ α → List (Stage ρ α) → Spec ρ α α
  | s, [] => s.spec
  | s, t :: ts => s.spec.comp (pipelineSpec t ts)

end Marcel.Rerun
