import Verif.Model.FArgs
import Verif.Model.PyDict

/-! # Model of what is stored of a variable, and of how its value is made again

`/repo/marcel/nestednamespace.py` 64-297 (`EnvValue` and its subclasses), 438-452; `/repo/marcel/op/assign.py` 54-74, 84-101; `/repo/marcel/op/import.py` 87-117;
`/repo/marcel/object/workspace.py` 133-145, 242-281, 438-448; `/repo/marcel/parser.py` 349-384, 1026-1035, 1046-1067.

The state is that of a shell at top level (one scope). Left open (`World`): Python's values, modules, tokenizer and compiler. For a pipeline, the text that is stored
is not modelled: parsing it gives what parsing the command gave. -/

namespace Marcel.EnvVals

/-- What `EnvValue.wrap` finds out about a value (nestednamespace.py 115-126). A builtin function has a name, and the name of a module or None. -/
inductive Kind
  | builtin (module : Option Str) (name : Str)
  | module (name : Str)
  | callable
  | pipeline
  | data
deriving DecidableEq, Repr

/-- Python. The namespace is given to whatever is evaluated; the result is `none` if there is an exception.
* `call src`: the result of the function which `src` is the source of, called without arguments;
* `parse src`: the pipeline with that source;
* `symbols src`: what Python's tokenizer makes of it (see `Model/FArgs.lean`). -/
structure World (V : Type) where
  kind : V → Kind
  picklable : V → Bool
  module : Str → Option V
  symbol : Str → Str → Option V
  call : Str → (Str → Option V) → Option V
  parse : Str → (Str → Option V) → Option V
  symbols : Str → List FSym
  str : Str → V

/-- The subclasses of `EnvValue` with their persistent state (nestednamespace.py 133-297). -/
inductive EV (V : Type)
  | simple (v : V)
  | module (name : Str)
  | function (source : Str)
  | pipeline (source : Str)
  | imported (module : Str) (symbol : Option Str)
  | builtin (module : Option Str) (name : Str)
deriving DecidableEq, Repr

variable {V : Type}

/-- `EnvValue.wrap` (nestednamespace.py 111-130), for a value with a source: 122 puts it in parentheses. -/
def wrap (w : World V) (v : V) (source : Str) : EV V :=
  match w.kind v with
  | .builtin m n => .builtin m n
  | .module n => .module n
  | .callable => .function ('(' :: source ++ [')'])
  | .pipeline => .pipeline source
  | .data => .simple v

/-- What is put in front of the source (`Expression.value`, parser.py 361-370). -/
def FPrefix.text : FPrefix → Str
  | .none => []
  | .lambda => "lambda ".toList
  | .thunk => "lambda: ".toList
  | .thunkLambda => "lambda: lambda ".toList

/-- The source of the function of an expression (parser.py 349-374). -/
def functionSource (w : World V) (forAssignment : Bool) (source : Str) : Str :=
  FPrefix.text (exprPrefix forAssignment (fparse (w.symbols source))) ++ source

/-- `parse_function` (parser.py 1026-1029) on a text which starts with a parenthesis: the source of the function. -/
def parseFunction (w : World V) (text : Str) : Option Str :=
  match text with
  | '(' :: cs =>
    match exprToken cs with
    | .ok (source, _) => some (functionSource w false source)
    | .error _ => none
  | _ => none

/-- `reconstitute`: nestednamespace.py 148-149, 187-194, 205-207, 226-227, 253-256, 290-291. A builtin function without a module: `import_module(None)` raises an exception. -/
def reconstitute (w : World V) (ns : Str → Option V) : EV V → Option V
  | .simple v => some v
  | .module n => w.module n
  | .function source =>
    match parseFunction w source with
    | none => none
    | some f => w.call f ns
  | .pipeline source => w.parse source ns
  | .imported m none => w.module m
  | .imported m (some s) => w.symbol m s
  | .builtin none _ => none
  | .builtin (some m) n => w.symbol m n

/-- The namespace, and its topmost scope. -/
structure Session (V : Type) where
  ns : Dict Str V
  top : Dict Str (EV V)
deriving DecidableEq, Repr

/-- Commands which give a variable a value: `x = (source)`, `x = text`, `x = (| source |)`, `import module [--as x]`, `import module symbol [--as x]`. -/
inductive Command
  | expression (x : Str) (source : Str)
  | string (x : Str) (text : Str)
  | pipeline (x : Str) (source : Str)
  | module (x : Str) (module : Str)
  | symbol (x : Str) (module : Str) (symbol : Str)
deriving DecidableEq, Repr

/-- The value that the command assigns (op/assign.py 54-65, op/import.py 90-112), `none` if there is an exception. -/
def value (w : World V) (ns : Str → Option V) : Command → Option V
  | .expression _ source => w.call (functionSource w true source) ns
  | .string _ text => some (w.str text)
  | .pipeline _ source => w.parse source ns
  | .module _ m => w.module m
  | .symbol _ m s => w.symbol m s

/-- What is stored of it (op/assign.py 66-74; nestednamespace.py 328-334). -/
def stored (w : World V) (v : V) : Command → EV V
  | .expression _ source => wrap w v (functionSource w true source)
  | .string _ text => wrap w v text
  | .pipeline _ source => wrap w v source
  | .module _ m => .imported m none
  | .symbol _ m s => .imported m (some s)

/-- The variable. -/
def Command.var : Command → Str
  | .expression x _ => x
  | .string x _ => x
  | .pipeline x _ => x
  | .module x _ => x
  | .symbol x _ _ => x

/-- One command (workspace.py 133-145, nestednamespace.py 398-408); it has no effect if there is an exception. -/
def Session.command (w : World V) (s : Session V) (c : Command) : Option (Session V) :=
  match value w s.ns.get? c with
  | none => none
  | some v => some ⟨s.ns.set c.var v, s.top.set c.var (stored w v c)⟩

/-- Commands that all have been executed. -/
def Session.commands (w : World V) (s : Session V) : List Command → Option (Session V)
  | [] => some s
  | c :: cs =>
    match s.command w c with
    | none => none
    | some s' => s'.commands w cs

/-- What a workspace starts with: the permanent variables and those of the startup script are not in the scope (workspace.py 246-251). -/
def Session.fresh (permanent : Dict Str V) : Session V := ⟨permanent, []⟩

/-- What is left of a value in the file: `to_persistent_state`, and pickling (workspace.py 444-448) works only if the values can be pickled. -/
def EV.picklable (w : World V) : EV V → Bool
  | .simple v => w.picklable v
  | _ => true

/-- `close`: the persistent state, `none` if writing the file fails (workspace.py 260-281). -/
def Session.close (w : World V) (s : Session V) : Option (Dict Str (EV V)) :=
  if s.top.all fun kv => kv.2.picklable w then some s.top else none

/-- The loop of `from_persistent_state` (nestednamespace.py 445-452). -/
def restore (w : World V) (s : Session V) : Dict Str (EV V) → Option (Session V)
  | [] => some s
  | (x, ev) :: rest =>
    match reconstitute w s.ns.get? ev with
    | none => none
    | some v => restore w ⟨s.ns.set x v, s.top.set x ev⟩ rest

/-- `open` (workspace.py 242-258) -/
def reopen (w : World V) (permanent : Dict Str V) (saved : Dict Str (EV V)) : Option (Session V) := restore w (Session.fresh permanent) saved

end Marcel.EnvVals
