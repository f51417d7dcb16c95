import Verif.Model.Stream
import Verif.Model.Pickle
/-! # Model of running a pipeline in another process: `farcel.py`, and the operators `remote` and `sudo`

`/repo/bin/farcel.py` 64-113 and 147-185, `/repo/marcel/op/remote.py` 83-170 and 220-230, `/repo/marcel/op/sudo.py` 94-127.

The calling process pickles the pipeline and sends it to the standard input of `farcel.py`, which runs it and pickles the output
to its standard output; the caller reads that until `EOFError`. Pickling is the model of `Model/Pickle.lean`: one pickler, with
one memo, for the whole output.

Simplifications: a Python object of the output is a scalar or consists of parts (`Obj`); the parts of a tuple or list are chained
pairs, with made-up identities for the pairs. The contents of the standard error of the remote process are printed and not
modelled. Text which the remote pipeline prints gets to standard output when Python writes out its text buffer, which is at any
time between two pickles; read as a pickle it is some invalid instruction (`text`), or one after which everything up to the end of
the output is taken to be an argument (`swallow`). The signal that kills a remote pipeline is not modelled. The transport (ssh,
sudo) is assumed to deliver what `farcel.py` wrote. -/

namespace Marcel.Remote

open Marcel.PickleFile

variable {V : Type}

/-- Scalars, and the classes that pickles refer to: `tuple`, `list` and `marcel.object.error.Error`. -/
inductive Lit (V : Type)
  | val (v : V)
  | tuple
  | list
  | error
deriving DecidableEq, Repr

/-- What an operator can be sent: a tuple or a list (core.py 102 makes sure that it is one). `id` is the identity of that
object, `body` are its elements. -/
structure Item (V : Type) where
  id : Nat
  isList : Bool
  body : Obj (Lit V)

/-- An `Error` (object/error.py 22-27): its identity, those of its `__dict__` and of its message, and its message and label. -/
structure Error (V : Type) where
  id : Nat
  dictId : Nat
  msgId : Nat
  msg : V
  label : Option V

/-- An item as an object. -/
def Item.obj (x : Item V) : Obj (Lit V) := .pair x.id (.lit (if x.isList then .list else .tuple)) x.body

/-- A label: `None` or the host. -/
def labelObj : Option V → Obj (Lit V)
  | none => .lit .tuple
  | some v => .lit (.val v)

/-- An error as an object. -/
def Error.obj (e : Error V) : Obj (Lit V) :=
  .pair e.id (.lit .error) (.pair e.dictId (.str e.msgId (.val e.msg)) (labelObj e.label))

/-- What `PickleOutput` at the end of the remote pipeline is told, and the text which is printed. -/
inductive Sent (V : Type)
  | item (x : Item V)
  | error (e : Error V)
  | flush
  | text (swallow : Bool)

/-- The standard output of the remote process. -/
inductive Chunk (V : Type)
  | instr (i : Instr (Lit V))
  | text (swallow : Bool)

/-- `PickleOutput` (farcel.py 64-87): `receive` 76-78, `receive_error` 84-87 (there is no receiver to pass it on to), `flush`
does nothing (core.py 124). -/
def pickleOutput : List (Sent V) → List Nat → List (Chunk V)
  | [], _ => []
  | .item x :: r, m => (dump x.obj m).1.map .instr ++ pickleOutput r (dump x.obj m).2
  | .error e :: r, m => (dump e.obj m).1.map .instr ++ pickleOutput r (dump e.obj m).2
  | .flush :: r, m => pickleOutput r m
  | .text s :: r, m => .text s :: pickleOutput r m

/-- How a run of the remote pipeline (`setup`, `run`, `flush`: farcel.py 104-107) went: what its last operator sent, and the exception,
if any, with the `Error` made from it (113). -/
structure PipelineRun (V : Type) where
  sent : List (Sent V)
  raised : Option (Error V)

/-- `PipelineRunner.run` 100-114 -/
def runnerSends (p : PipelineRun V) : List (Sent V) :=
  p.sent ++ (match p.raised with
    | some e => [.error e]
    | none => [])

/-- The standard output of `farcel.py` (main 147-185). `none`: the pipeline could not be read (or the program could not be
started), and nothing is written. -/
def farcel : Option (PipelineRun V) → List (Chunk V)
  | some p => pickleOutput (runnerSends p) []
  | none => []

/-- The pickle instructions up to the first printed text, and what kind of text that is. -/
def instrs : List (Chunk V) → List (Instr (Lit V)) × Option Bool
  | [] => ([], none)
  | .text s :: _ => ([], some s)
  | .instr i :: r => (i :: (instrs r).1, (instrs r).2)

/-- `input.load()` on the standard output. -/
def loadOut (out : List (Instr (Lit V))) (tail : Option Bool) (m : List (Val (Lit V))) : Load (Lit V) :=
  match load1 out m with
  | .ok v r m' => .ok v r m'
  | .eof => match tail with
    | none => .eof
    | some true => .eof
    | some false => .err
  | .err => .err

/-- How a loop of `load`s ends: with `EOFError` or with another exception. -/
inductive Ending
  | eof
  | raised
deriving DecidableEq, Repr

/-- The loop `while True: x = input.load()`: the values, and how it ends. The first argument bounds the number of
iterations. -/
def loads : Nat → List (Instr (Lit V)) → Option Bool → List (Val (Lit V)) → List (Val (Lit V)) × Ending
  | 0, _, _, _ => ([], .raised)
  | n + 1, out, tail, m => match loadOut out tail m with
    | .ok v r m' => (v :: (loads n r tail m').1, (loads n r tail m').2)
    | .eof => ([], .eof)
    | .err => ([], .raised)

/-- Every `load` consumes an instruction. -/
def readOutput (out : List (Chunk V)) : List (Val (Lit V)) × Ending :=
  loads ((instrs out).1.length + 1) (instrs out).1 (instrs out).2 []

/-- What an operator in the calling process sends: items (as tuples or lists), errors, flush. -/
inductive Out (V : Type)
  | item (isList : Bool) (body : Val (Lit V))
  | error (label : Option V) (msg : V)
  | flush
deriving DecidableEq, Repr

/-- `isinstance(x, Error)`, with the message and label of the error. -/
def asError : Val (Lit V) → Option (V × Option V)
  | .pair (.lit .error) (.pair (.lit (.val msg)) (.lit (.val l))) => some (msg, some l)
  | .pair (.lit .error) (.pair (.lit (.val msg)) (.lit .tuple)) => some (msg, none)
  | _ => none

/-- What an operator is sent when a value that has been read is sent: a list, a tuple, or the 1-tuple that `receive_input`
(core.py 102) makes of anything else. -/
def wrap : Val (Lit V) → Out V
  | .pair (.lit .tuple) b => .item false b
  | .pair (.lit .list) b => .item true b
  | v => .item false (.pair v (.lit .tuple))

/-- `RunRemote.run` 159-165: an error is sent as an error. -/
def runRemoteSends (v : Val (Lit V)) : Out V :=
  match asError v with
  | some (msg, l) => .error l msg
  | none => wrap v

/-- `RunRemote.run` 131-170, of the output of the remote process. After an exception other than `EOFError` nothing is sent; the
exception is printed (168-170). -/
def runRemote (out : List (Chunk V)) : List (Out V) :=
  (readOutput out).1.map runRemoteSends ++ (match (readOutput out).2 with
    | .eof => [.flush]
    | .raised => [])

/-- `LabelThread` 83-107 -/
def labelThread (host : V) : Out V → Out V
  | .item l b => .item l (.pair (.lit (.val host)) b)
  | .error _ msg => .error (some host) msg
  | .flush => .flush

/-- One host of `remote`: `RunRemote | LabelThread` (fork_customizer 220-230). `pickled`: the pipeline could be pickled; otherwise
(146-147) the exception is printed, and the remote process cannot read the pipeline. `reached`: the remote process could be started. -/
def remoteHost (host : V) (pickled reached : Bool) (p : PipelineRun V) : List (Out V) :=
  (runRemote (farcel (if pickled && reached then some p else none))).map (labelThread host)

/-- `Sudo.run` 94-127: the sent values, and whether an exception other than `EOFError` (which would have to be one of the
unpickler) goes to the caller. -/
def sudo (reached : Bool) (p : PipelineRun V) : List (Out V) × Bool :=
  ((readOutput (farcel (if reached then some p else none))).1.map wrap ++
    (match (readOutput (farcel (if reached then some p else none))).2 with
      | .eof => [.flush]
      | .raised => []),
    (readOutput (farcel (if reached then some p else none))).2 == .raised)

end Marcel.Remote
