import Verif.Model.Namespace

/-!
# Specification for C25, C26, C46: variables and pipeline parameters

The specification is an ordinary environment: a global binding and one frame per running pipeline.
-/

namespace Marcel

variable {ν V : Type} [DecidableEq ν]

/-! ### Specification -/

/-- Specification: global variables, and the parameters of the running pipelines, innermost first. -/
structure SEnv (ν V : Type) : Type where
  global : ν → Option V
  frames : List (ν → Option V)

namespace SEnv

/-- The innermost pipeline binding the name, else the global one. -/
def look (g : ν → Option V) : List (ν → Option V) → ν → Option V
  | [], x => g x
  | f :: fs, x => match f x with
    | some v => some v
    | none => look g fs x

/-- Value seen by expressions. -/
def visible (s : SEnv ν V) : ν → Option V := look s.global s.frames

/-- Changing one binding. -/
def upd (f : ν → Option V) (x : ν) (v : Option V) : ν → Option V := fun y => if x = y then v else f y

/-- Changing the binding of `x` that is visible: in the innermost frame that has it, else the global one. -/
def setVisible (g : ν → Option V) (x : ν) (v : Option V) :
    List (ν → Option V) → (ν → Option V) × List (ν → Option V)
  | [] => (upd g x v, [])
  | f :: fs => match f x with
    | some _ => (g, upd f x v :: fs)
    | none => ((setVisible g x v fs).1, f :: (setVisible g x v fs).2)

/-- Assignment (`some v`) or deletion (`none`) of the visible binding. -/
def change (s : SEnv ν V) (x : ν) (v : Option V) : SEnv ν V :=
  ⟨(setVisible s.global x v s.frames).1, (setVisible s.global x v s.frames).2⟩

end SEnv

/-- Specification: the last argument given for a parameter counts. -/
def argFrame (env : Env ν V) : List (ν × (Env ν V → V)) → ν → Option V
  | [], _ => none
  | (y, e) :: bs, x => match argFrame env bs x with
    | some v => some v
    | none => if y = x then some (e env) else none

/-- Specification of execution: entering a pipeline adds a frame, leaving it removes the frame, whatever happens
in between. -/
def Prog.spec : Prog ν V → SEnv ν V → SEnv ν V × Option Exn
  | .skip, s => (s, none)
  | .assign x e, s => (s.change x (some (e s.visible)), none)
  | .perm x e, s => (s.change x (some (e s.visible)), none)
  | .del x, s => match s.visible x with
    | none => (s, some .crash)
    | some _ => (s.change x none, none)
  | .raise e, s => (s, some e)
  | .ite c p q, s => if c s.visible then p.spec s else q.spec s
  | .seq p q, s =>
    match p.spec s with
    | (s', some e) => (s', some e)
    | (s', none) => q.spec s'
  | .guard p, s =>
    match p.spec s with
    | (s', some .kare) => (s', none)
    | r => r
  | .call bs p, s =>
    let r := p.spec ⟨s.global, argFrame s.visible bs :: s.frames⟩
    (⟨r.1.global, r.1.frames.tail⟩, r.2)

/-- The discipline under which the code is right: names satisfying `G` are never used as parameters, all other
names only as parameters (`ps`: the parameters of the enclosing pipelines); arguments are not pipelines
without source; a pipeline's parameters are not deleted. -/
def Prog.Disciplined (wrappable : V → Bool) (G : ν → Prop) : List ν → Prog ν V → Prop
  | _, .skip => True
  | ps, .assign x _ => x ∈ ps ∨ G x
  | _, .perm x _ => G x
  | _, .del x => G x
  | _, .raise _ => True
  | ps, .ite _ p q => p.Disciplined wrappable G ps ∧ q.Disciplined wrappable G ps
  | ps, .seq p q => p.Disciplined wrappable G ps ∧ q.Disciplined wrappable G ps
  | ps, .guard p => p.Disciplined wrappable G ps
  | ps, .call bs p => (∀ b ∈ bs, ¬ G b.1 ∧ ∀ env, wrappable (b.2 env) = true) ∧
      p.Disciplined wrappable G (bs.map (·.1) ++ ps)

/-- Names a program changes outside of its own pipelines' parameters. -/
def Prog.writes : Prog ν V → ν → Prop
  | .skip, _ => False
  | .assign y _, x => x = y
  | .perm y _, x => x = y
  | .del y, x => x = y
  | .raise _, _ => False
  | .ite _ p q, x => p.writes x ∨ q.writes x
  | .seq p q, x => p.writes x ∨ q.writes x
  | .guard p, x => p.writes x
  | .call bs p, x => x ∉ bs.map (·.1) ∧ p.writes x

end Marcel
