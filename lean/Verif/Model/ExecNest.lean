import Verif.Model.Exec
import Verif.Model.SetOps

/-! # Model of the execution of commands with nested pipelines

`Model/Exec`, extended with the operators whose arguments are pipelines: `union`, `difference`, `intersect`, `join`, `filter`. `/repo/marcel/parser.py` 1119-1133, 1181-1183, 1278-1295; `/repo/marcel/argsparser.py` 222-227;
`/repo/marcel/pipeline.py` 48-69, 313-339; `setup` and `customize_pipelines` of these operators.

Simplifications: a pipeline that is an argument is run (at most) once, and what it does doesn't depend on when that is; so here its result is computed where the argument is. It is not run again: if it ends by a KillAndResumeException in an
operator that would run it again for the next item, the result is `none` here (for running pipelines again see C80). The result is also `none` if an argument pipeline has not ended after `steps` steps of its source, has parameters, or has operators
that are not modelled. -/

namespace Marcel.Exec

variable {V : Type}

/-- Arguments of the operators with pipelines. A pipeline is given by what it does when it is run. -/
inductive NArg (V : Type)
  | str (s : Str)
  | fn (f : FnRef)
  | true_
  | none_
  | pipe (r : Result V)

instance : PyArg (NArg V) where
  str := fun | .str x => some x | _ => none
  ofStr := .str
  str_ofStr := fun _ => rfl
  tru := .true_
  isTrue := fun | .true_ => true | _ => false
  tru_isTrue := rfl

/-- `check_pipeline` (argsparser.py 222-227, pipeline.py 249-270): a function is refused (263-265). Simplification: a string, which would be the name of a variable whose value is a pipeline, is refused too. -/
def checkPipe : NArg V → Option (NArg V)
  | .pipe r => some (.pipe r)
  | _ => none

/-- The conversions (only that of pipelines is used). -/
def nestConversions : Api.Py (NArg V) where
  strToInt := some
  toFloat := some
  checkStr := some
  checkStrOrFile := some
  checkPipeline := checkPipe
  function := some
  functionOrPipeline := some
  forkGen := some
  cluster := some
  strOrPipeline := some
  truth := fun _ => true
  none_ := .none_
  zero := .none_
  rGroup := .none_

/-- The operators with pipelines. -/
inductive NestKind
  | union | difference | intersect | join | filter
deriving DecidableEq, Repr

/-- The operator with the name. -/
def nestKindOf (name : Str) : Option NestKind :=
  if name = "union".toList then some .union
  else if name = "difference".toList then some .difference
  else if name = "intersect".toList then some .intersect
  else if name = "join".toList then some .join
  else if name = "filter".toList then some .filter
  else none

/-- The declarations of the arguments of the operators (see `Api.Call.decl`). -/
def NestKind.decl : NestKind → ArgsDecl (NArg V)
  | .union => (Api.Call.union []).decl nestConversions
  | .difference => (Api.Call.difference .none_).decl nestConversions
  | .intersect => (Api.Call.intersect .none_).decl nestConversions
  | .join => (Api.Call.join .none_ false).decl nestConversions
  | .filter => (Api.Call.filt .none_ none false false).decl nestConversions

/-- The field of an operator; `None` if it isn't set. -/
def nestField (op : Dict Str (ArgValue (NArg V))) (name : String) : NArg V :=
  match op.get? name.toList with
  | some (.one v) => v
  | _ => .none_

/-- The pipelines in a field. -/
def nestPipes (op : Dict Str (ArgValue (NArg V))) (name : String) : List (Result V) :=
  match op.get? name.toList with
  | some (.list vs) => vs.filterMap fun | .pipe r => some r | _ => none
  | some (.one (.pipe r)) => [r]
  | _ => []

/-- One run of an argument pipeline, if it has ended. -/
def ranTo (r : Result V) : Option (ArgRun V) :=
  match r.how with
  | .finished => some ⟨r.sent, none⟩
  | .stopped e => some ⟨r.sent, some e⟩
  | .running => none

/-- The same for all pipelines. -/
def ranAll : List (Result V) → Option (List (ArgRun V))
  | [] => some []
  | r :: rs =>
    match ranTo r with
    | none => none
    | some a => (ranAll rs).map (a :: ·)

/-- Whether the pipeline would be run again after this. -/
def again (a : ArgRun V) : Bool := a.exn = some .kare

/-- The items of the pipeline with something done to them. -/
def mapRun {A B : Type} (f : A → B) (a : ArgRun A) : ArgRun B := ⟨a.out.map (evMap f), a.exn⟩

/-- `*x`, in a function called by `map` (map.py 65-68): a tuple. -/
def starred (w : World V) (x : V) : V := w.seq (w.elems x)

/-- filter.py 98-106, 113: without COMPARE, the item, as a tuple; with it, the result is wrapped. -/
def compareKey (w : World V) (compare : NArg V) (x : V) : Except Msg V :=
  match compare with
  | .none_ => .ok (starred w x)
  | .fn f => (w.fn f x).map w.wrap
  | _ => .error "not callable"

variable [DecidableEq V]

/-- `setup` and `customize_pipelines` of the operators (union.py 66-68, 85-98; difference.py 68-69, 88-99; intersect.py 65-67, 83-93; join.py 88-90, 110-135; filter.py 99-109, 127-139). None of them has to be first, or must not be. -/
def NestKind.setup (w : World V) (op : Dict Str (ArgValue (NArg V))) : NestKind → Option (AnyOp V)
  | .union =>
    match ranAll (nestPipes op "pipelines") with
    | none => none
    | some as => some ⟨_, unionOp as⟩
  | .difference =>
    match ranAll (nestPipes op "pipeline") with
    | some [a] => if again a then none else some ⟨_, diffOp w.hashable (mapRun (starred w) a)⟩
    | _ => none
  | .intersect =>
    match ranAll (nestPipes op "pipelines") with
    | none => none
    | some as => if as.any again then none else some ⟨_, intersectOp w.hashable (as.map (mapRun (starred w)))⟩
  | .join =>
    match ranAll (nestPipes op "pipeline") with
    | some [a] => if again a then none else some ⟨_, viaOp w.elems w.seq (joinOp w.hashable (PyArg.isTrue (nestField op "keep")) (mapRun w.elems a))⟩
    | _ => none
  | .filter =>
    match ranAll (nestPipes op "pipeline") with
    | some [a] => if again a then none else some ⟨_, filterOp w.hashable (compareKey w (nestField op "compare")) (PyArg.isTrue (nestField op "discard")) (mapRun (starred w) a)⟩
    | _ => none

/-- An operator that has been created: whether it is `gen`, and what its `setup` does. -/
structure Prepared (V : Type) where
  gen : Bool
  setup : Except Exn (Ready V)

/-- pipeline.py 59-62: `setup` of all the operators. -/
def prepareAll : List (Prepared V) → Except Exn (List (Ready V))
  | [] => .ok []
  | p :: ps =>
    match p.setup with
    | .error e => .error e
    | .ok r =>
      match prepareAll ps with
      | .error e => .error e
      | .ok rs => .ok (r :: rs)

/-- A pipeline: connecting the operators (`gen` must be first), setup, run (pipeline.py 48-69, 313-339). -/
def runPrepared (w : World V) (steps : Nat) (ps : List (Prepared V)) : Result V :=
  if ps.tail.any (·.gen) then ⟨[], .stopped .kill⟩
  else
    match prepareAll ps with
    | .error e => ⟨[], .stopped e⟩
    | .ok rs => runReady w steps rs

mutual
/-- `create_op_builtin` (parser.py 1291-1293): what is given to the argument parser. A pipeline has been created before (1181-1183). The inner `none`: KillCommandException; the outer one: not modelled. -/
def nestArg (w : World V) (steps : Nat) : CArg → Option (Option (ULift.{1} (NArg V)))
  | .tok (.str _ lit _) => some (some ⟨.str lit.original⟩)
  | .tok (.expr src) => if w.compiles src then some (some ⟨.fn (.source src)⟩) else some none
  | .flag s => some (some ⟨.str s⟩)
  | .pipe p => nestPipe w steps p
  | _ => none
def nestArgs (w : World V) (steps : Nat) : List CArg → Option (Option (ULift.{1} (List (NArg V))))
  | [] => some (some ⟨[]⟩)
  | c :: cs =>
    match nestArg w steps c with
    | none => none
    | some none => some none
    | some (some x) =>
      match nestArgs w steps cs with
      | none => none
      | some none => some none
      | some (some xs) => some (some ⟨x.down :: xs.down⟩)
/-- A pipeline as an argument. -/
def nestPipe (w : World V) (steps : Nat) : CPipe → Option (Option (ULift.{1} (NArg V)))
  | .mk [] cs =>
    match prepareOps w steps cs with
    | none => none
    | some none => some none
    | some (some ps) => some (some ⟨.pipe (runPrepared w steps ps)⟩)
  | .mk (_ :: _) _ => none
/-- The operators of a pipeline. -/
def prepareOps (w : World V) (steps : Nat) : List Created → Option (Option (List (Prepared V)))
  | [] => some (some [])
  | c :: cs =>
    match prepareOp w steps c with
    | none => none
    | some none => some none
    | some (some p) =>
      match prepareOps w steps cs with
      | none => none
      | some none => some none
      | some (some ps) => some (some (p :: ps))
/-- `create_op_builtin` (parser.py 1278-1295). -/
def prepareOp (w : World V) (steps : Nat) : Created → Option (Option (Prepared V))
  | .builtin name args =>
    match nestKindOf name with
    | none =>
      match make w (.builtin name args) with
      | none => none
      | some none => some none
      | some (some m) => some (some ⟨decide (m.1 = .gen), m.1.setup w m.2⟩)
    | some k =>
      match nestArgs w steps args with
      | none => none
      | some none => some none
      | some (some xs) =>
        match k.decl.parse xs.down [] with
        | none => some none
        | some op =>
          match k.setup w op with
          | none => none
          | some o => some (some ⟨false, .ok (.stage false o)⟩)
  | _ => none
end

/-- A command. -/
def execNest (w : World V) (names : Names) (steps : Nat) (text : Str) : Option (Except LexErr (List (Shown V) × End)) :=
  match resolve names text with
  | .error e => some (.error e)
  | .ok (.pipeline (.mk [] cs)) =>
    match prepareOps w steps cs with
    | none => none
    | some none => some (.ok ([], .stopped .kill))
    | some (some ps) => some (.ok (shown (runPrepared w steps ps).sent, (runPrepared w steps ps).how))
  | .ok _ => none

end Marcel.Exec
