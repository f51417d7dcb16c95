import Verif.Model.Stream

/-!
# The life cycle of a pipeline, API pipelines

Models `PipelineExecutable.setup/run/flush/cleanup` and `run_pipeline` (marcel/pipeline.py), `Op.run`
(marcel/core.py), the terminal operators of the API (marcel/op/apiop.py, marcel/api.py) and `OpList`.
-/

namespace Marcel

variable {α : Type}

/-- An operator object with its life cycle. `id` is the object's identity (pipeline.py 53 compares with `is`).
`setup`/`custom` are `op.setup` and `op.customize_pipelines`: the errors they send (`eval_function` → `call` →
`fatal_error`, core.py 82-92, 141-149, 167-180) and the exception they end with. `run` is what `op.run` does for an
operator that may be first (core.py 109-113, or an override). `cleanup` is the exception, if any, `op.cleanup` ends
with. Simplification: the outcome of `setup`, `customize_pipelines` and `cleanup` is fixed per operator. -/
structure LOp (α : Type) : Type 1 where
  id : Nat
  mustBeFirst : Bool
  mustNotBeFirst : Bool
  σ : Type
  op : Op σ α α
  run : σ → Res σ α
  setup : List Msg × Option Exn
  custom : List Msg × Option Exn
  cleanup : Option Exn

/-- What happens, in order: an operator is set up, customized, cleaned up; the last operator emits. -/
inductive Eff (α : Type) : Type
  | setup (id : Nat)
  | custom (id : Nat)
  | emit (e : Ev α)
  | cleanup (id : Nat)

namespace Pipe

/-- The placement check (pipeline.py 52-55), done for all operators before any of them is set up. -/
def placementOk : List (LOp α) → Bool
  | [] => true
  | o :: os => (o :: os).all fun p => !(p.id != o.id && p.mustBeFirst)

/-- pipeline.py 59-62. The receivers have been connected by then (56-58), errors are forwarded to the end. -/
def setups : List (LOp α) → List (Eff α) × Option Exn
  | [] => ([], none)
  | o :: os =>
    match o.setup.2 with
    | some e => (.setup o.id :: o.setup.1.map (fun m => .emit (.err m)), some e)
    | none =>
      let r := setups os
      (.setup o.id :: o.setup.1.map (fun m => .emit (.err m)) ++ r.1, r.2)

/-- pipeline.py 63-64. -/
def customs : List (LOp α) → List (Eff α) × Option Exn
  | [] => ([], none)
  | o :: os =>
    match o.custom.2 with
    | some e => (.custom o.id :: o.custom.1.map (fun m => .emit (.err m)), some e)
    | none =>
      let r := customs os
      (.custom o.id :: o.custom.1.map (fun m => .emit (.err m)) ++ r.1, r.2)

/-- `PipelineExecutable.setup` (pipeline.py 50-64). -/
def setup (ops : List (LOp α)) : List (Eff α) × Option Exn :=
  if placementOk ops then
    match setups ops with
    | (l, some e) => (l, some e)
    | (l, none) => (l ++ (customs ops).1, (customs ops).2)
  else ([], some .kill)

/-- The operators after the first one, connected. -/
def rest (os : List (LOp α)) : AnyOp α := chain (os.map fun o => ⟨o.σ, o.op⟩)

/-- `executable.run(env); executable.flush(env)` (pipeline.py 66-69, 78-79, 333-334) with `Op.run` (core.py 109-113): what the last
operator emits, and the exception. `self.ops[0]` of an empty pipeline is an IndexError. -/
def runFlush : List (LOp α) → List (Ev α) × Option Exn
  | [] => ([], some .crash)
  | o :: os =>
    if o.mustNotBeFirst then ([], some .kill)
    else
      let q := (rest os).2
      let r := o.run o.op.init
      let r1 := q.feed q.init r.out
      match r1.exn <|> r.exn with
      | some e => (r1.out, some e)
      | none =>
        let f := o.op.flush r.st
        let r2 := q.feed r1.st f.out
        (r1.out ++ r2.out, r2.exn <|> f.exn)

/-- `PipelineExecutable.cleanup` (pipeline.py 81-83). -/
def cleanups : List (LOp α) → List (Eff α) × Option Exn
  | [] => ([], none)
  | o :: os =>
    match o.cleanup with
    | some e => ([.cleanup o.id], some e)
    | none => (.cleanup o.id :: (cleanups os).1, (cleanups os).2)

/-- A `KillAndResumeException` during setup is made a `KillCommandException` (pipeline.py 328-330). -/
def fatal : Exn → Exn
  | .kare => .kill
  | e => e

/-- `run_pipeline` (pipeline.py 313-339, 380-390, 449-465) without scopes and nesting, which are modelled in
`Model/Namespace.lean`. -/
def runPipeline (ops : List (LOp α)) : List (Eff α) × Option Exn :=
  match setup ops with
  | (l, some e) => (l, some (fatal e))
  | (l, none) =>
    let r := runFlush ops
    let c := cleanups ops
    (l ++ r.1.map .emit ++ c.1, c.2 <|> r.2)

end Pipe

/-! ### gather and first -/

/-- What `gather` puts in its result: a bare value, a tuple, an `Error` object. -/
inductive Out (V : Type) : Type
  | val (v : V)
  | tup (vs : List V)
  | error (m : Msg)
  deriving DecidableEq, Repr

namespace Api

variable {V : Type}

/-- `APIOp` (op/apiop.py 20-45): one event, changing the output list. The argument `errors` is stored (27) and not used.
`StopAfterFirst()` is constructed and not raised (38-39, 42-43). -/
def step {E : Type} (unwrap stopAfterFirst : Bool) (_errors : E) (output : List (Out V)) :
    Ev (List V) → List (Out V)
  | .item [x] => if unwrap then output ++ [.val x] else output ++ [.tup [x]]
  | .item xs => output ++ [.tup xs]
  | .err m => if stopAfterFirst then output else output ++ [.error m]
  | .flush => output

/-- The terminal operator told everything the pipeline emits. -/
def collect {E : Type} (unwrap stopAfterFirst : Bool) (errors : E) (es : List (Ev (List V))) : List (Out V) :=
  es.foldl (step unwrap stopAfterFirst errors) []

/-- `_run_pipeline` (api.py 246-253) and `gather` (268-277). `res` is what the pipeline emits and the exception it
ends with. -/
def gather {E : Type} (unwrap : Bool) (errors : E) (res : List (Ev (List V)) × Option Exn) :
    Except Exn (List (Out V)) :=
  match res.2 with
  | some .crash => .error .crash
  | _ => .ok (collect unwrap false errors res.1)

/-- `first` (api.py 280-295). The result `none` is Python's None. `isErr` tells which values are `Error` objects, which
are raised (293-294). -/
def first {E : Type} (isErr : V → Bool) (unwrap : Bool) (errors : E) (res : List (Ev (List V)) × Option Exn) :
    Except Exn (Option (Out V)) :=
  match res.2 with
  | some .crash => .error .crash
  | _ =>
    match (collect unwrap true errors res.1).head? with
    | some (.val v) => if isErr v then .error .crash else .ok (some (.val v))
    | some (.error _) => .error .crash
    | o => .ok o

end Api

/-! ### OpList -/

/-- An `OpList` object (pipeline.py 146-149): `op` and `ops`. -/
structure OLObj (O : Type) : Type where
  op : Option O
  ops : Option (List O)

namespace OLObj

variable {O : Type}

/-- The heap: every `OpList` object by its identity. -/
abbrev Heap (O : Type) : Type := Nat → OLObj O

/-- Assigning fields of the object `i`. -/
def Heap.set (h : Heap O) (i : Nat) (o : OLObj O) : Heap O := fun j => if j = i then o else h j

/-- `OpList.__or__` (pipeline.py 151-162): `h i | h j`. `none` is a failed assertion (157), or
extending the list when `self.op` was None: `[None]`, which the model does not represent. -/
def or (h : Heap O) (i j : Nat) : Option (Heap O × Nat) :=
  -- 152-155
  let self? : Option (OLObj O × List O) :=
    match (h i).ops, (h i).op with
    | none, some o => some (⟨none, some [o]⟩, [o])
    | none, none => none
    | some l, o => some (⟨o, some l⟩, l)
  match self? with
  | none => none
  | some (self', l) =>
    let h1 := h.set i self'
    -- 157-161
    match (h1 j).op, (h1 j).ops with
    | some o, none => some (h1.set i ⟨self'.op, some (l ++ [o])⟩, i)
    | none, some m => some (h1.set i ⟨self'.op, some (l ++ m)⟩, i)
    | _, _ => none

/-- `create_executable_pipeline` (pipeline.py 167-177): the operators of the pipeline the object stands for. -/
def ops! (o : OLObj O) : List O :=
  match o.op, o.ops with
  | some x, _ => [x]
  | none, some l => l
  | none, none => []

/-- An expression built with `|` from variables holding `OpList`s. -/
inductive Expr : Type
  | var (i : Nat)
  | or (a b : Expr)

/-- Evaluation, left operand first. -/
def Expr.eval : Expr → Heap O → Option (Heap O × Nat)
  | .var i, h => some (h, i)
  | .or a b, h =>
    match a.eval h with
    | none => none
    | some (h1, i) =>
      match b.eval h1 with
      | none => none
      | some (h2, j) => OLObj.or h2 i j

end OLObj

end Marcel
