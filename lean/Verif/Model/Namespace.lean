import Verif.Model.PyDict
import Verif.Model.Stream

/-!
# Variables: NestedNamespace and Scope (marcel/nestednamespace.py), running pipelines with parameters

Simplifications: wrapping a value in an `EnvValue` and unwrapping it in the same process gives the value back
(nestednamespace.py 78-81, 111-130); the special key `__builtins__` (322) is not used as a variable.
-/

namespace Marcel

variable {ν V : Type} [DecidableEq ν]

/-- `Scope` (nestednamespace.py 304-351) of a pipeline: its parameters and the dict of their values. -/
structure Scope (ν V : Type) : Type where
  params : List ν
  vals : Dict ν V

/-- `NestedNamespace` (nestednamespace.py 368-373): the dict itself, the topmost scope (`scopes[0]`) and the
other scopes, innermost first. -/
structure NS (ν V : Type) : Type where
  dict : Dict ν V
  top : Dict ν V
  inner : List (Scope ν V)

namespace NS

/-- `Scope.store_item` (nestednamespace.py 345-351), along the parents. -/
def storeItem (x : ν) (v : V) : List (Scope ν V) → Dict ν V → List (Scope ν V) × Dict ν V
  | [], top => ([], top.set x v)
  | sc :: r, top =>
    if x ∈ sc.params then ({ sc with vals := sc.vals.set x v } :: r, top)
    else
      let q := storeItem x v r top
      (sc :: q.1, q.2)

/-- `NestedNamespace.assign` / `__setitem__` / `assign_import` (nestednamespace.py 375-377, 398-400, 406-408). -/
def assign (s : NS ν V) (x : ν) (v : V) : NS ν V :=
  let q := storeItem x v s.inner s.top
  ⟨s.dict.set x v, q.2, q.1⟩

/-- `NestedNamespace.assign_permanent` (nestednamespace.py 403-404). -/
def assignPermanent (s : NS ν V) (x : ν) (v : V) : NS ν V :=
  { s with dict := s.dict.set x v }

/-- The loop of `push_scope` (nestednamespace.py 416-418). `wrappable v = false` is the case that `EnvValue.wrap`
(111-130) fails an assertion: a pipeline without source (169). The dict has been changed by then. -/
def pushLoop (wrappable : V → Bool) : List (ν × V) → NS ν V → NS ν V × Option Exn
  | [], s => (s, none)
  | (x, v) :: bs, s =>
    if wrappable v then pushLoop wrappable bs (s.assign x v)
    else ({ s with dict := s.dict.set x v }, some .crash)

/-- `push_scope` (nestednamespace.py 413-418) with `Scope.__init__` (306-319). -/
def push (wrappable : V → Bool) (none0 : V) (s : NS ν V) (bs : Dict ν V) : NS ν V × Option Exn :=
  pushLoop wrappable bs { s with inner := ⟨bs.keys, bs.keys.map fun k => (k, none0)⟩ :: s.inner }

/-- `super().__delitem__` in a loop (nestednamespace.py 427-428); a missing key is a KeyError. -/
def delKeys : List ν → Dict ν V → Dict ν V × Option Exn
  | [], d => (d, none)
  | x :: xs, d =>
    match d.get? x with
    | none => (d, some .crash)
    | some _ => delKeys xs (d.erase x)

/-- The inner loop of nestednamespace.py 431-433. -/
def setAll (vals : Dict ν V) (d : Dict ν V) : Dict ν V :=
  vals.foldl (fun d kv => d.set kv.1 kv.2) d

/-- The loop of nestednamespace.py 431-433 over `scopes[1:]`, outermost first. -/
def restore : List (Scope ν V) → Dict ν V → Dict ν V
  | [], d => d
  | sc :: r, d => setAll sc.vals (restore r d)

/-- `pop_scope` (nestednamespace.py 420-433). Popping the topmost scope would leave no scope at all; as pops
are paired with pushes this does not happen, and the model raises. -/
def pop (s : NS ν V) : NS ν V × Option Exn :=
  match s.inner with
  | [] => (s, some .crash)
  | sc :: r =>
    match delKeys sc.vals.keys s.dict with
    | (d, some e) => (⟨d, s.top, r⟩, some e)
    | (d, none) => (⟨restore r d, s.top, r⟩, none)

/-- `n_scopes` (nestednamespace.py 410-411). -/
def nScopes (s : NS ν V) : Nat := s.inner.length + 1

end NS

/-! ### Programs

What the operators of a pipeline do to the variables while it runs. Expressions see the namespace dict. -/

/-- What an expression sees: the value of each variable. -/
abbrev Env (ν V : Type) : Type := ν → Option V

/-- Actions of a command.
* `assign x e`: the assign op (op/assign.py) or another op setting a variable, `VarHandler.setvar`;
* `perm x e`: `assign_permanent`, used by cd, pushd, popd for PWD and DIRS (directorystate.py 50, 71, 107);
* `del x`: `env -d x`, `VarHandler.delvar`;
* `raise e`: any exception;
* `guard p`: `receive_input` (core.py 96-104) around an operator's work;
* `call bs p`: `run_pipeline` (pipeline.py 313-339) of a pipeline with parameters, the arguments being evaluated
  first (runpipeline.py 38-42, args.py 91-106). -/
inductive Prog (ν V : Type) : Type
  | skip
  | assign (x : ν) (e : Env ν V → V)
  | perm (x : ν) (e : Env ν V → V)
  | del (x : ν)
  | raise (e : Exn)
  | ite (c : Env ν V → Bool) (p q : Prog ν V)
  | seq (p q : Prog ν V)
  | guard (p : Prog ν V)
  | call (bs : List (ν × (Env ν V → V))) (p : Prog ν V)

namespace Prog

/-- A dict built from the evaluated arguments (`bindings[param] = ...`, runpipeline.py 107-127). -/
def evalArgs (bs : List (ν × (Env ν V → V))) (env : Env ν V) : Dict ν V :=
  bs.foldl (fun d be => d.set be.1 (be.2 env)) []

/-- Execution on the namespace: `VarHandler.setvar`/`delvar` (workspace.py 133-157, without the immutability check and
reservoirs, which are modelled elsewhere), `run_pipeline` (pipeline.py 313-339) with `CheckNesting` (env.py
51-62). Each call counts as one scope; `RunPipeline.run` (runpipeline.py 72-78) makes two identical ones. -/
def exec (wrappable : V → Bool) (none0 : V) : Prog ν V → NS ν V → NS ν V × Option Exn
  | .skip, s => (s, none)
  | .assign x e, s => (s.assign x (e s.dict.get?), none)
  | .perm x e, s => (s.assignPermanent x (e s.dict.get?), none)
  | .del x, s =>
    match s.dict.get? x with
    | none => (s, some .crash)
    | some _ => ({ s with dict := s.dict.erase x }, none)
  | .raise e, s => (s, some e)
  | .ite c p q, s => if c s.dict.get? then p.exec wrappable none0 s else q.exec wrappable none0 s
  | .seq p q, s =>
    match p.exec wrappable none0 s with
    | (s', some e) => (s', some e)
    | (s', none) => q.exec wrappable none0 s'
  | .guard p, s =>
    match p.exec wrappable none0 s with
    | (s', some .kare) => (s', none)
    | r => r
  | .call bs p, s =>
    match s.push wrappable none0 (evalArgs bs s.dict.get?) with
    | (s1, some e) => (s1, some e)
    | (s1, none) =>
      match p.exec wrappable none0 s1 with
      | (s2, e2) =>
        let e3 := if s2.nScopes = s1.nScopes then e2 else some .crash
        match s2.pop with
        | (s4, some e4) => (s4, some e4)
        | (s4, none) => (s4, e3)

end Prog

end Marcel
