import Verif.Model.Parser
import Verif.Model.Args

/-! # Model of finding out what a command is

`/repo/marcel/parser.py` 409-432, 492-500, 950-972 (names), 1264-1324 (`create_op`); `/repo/marcel/op/__init__.py`; `/repo/marcel/opmodule.py` 34, 83-86; and how a host
executable is called: `/repo/marcel/op/bash.py` 71-110.

Not modelled: the argument parsers of the other operators (see `Model/Args.lean`); interactive executables. -/

namespace Marcel

/-- op/__init__.py 16-71 -/
def publicOps : List Str :=
  ["args", "assign", "bash", "bg", "case", "cast", "cd", "difference", "dirs", "download", "edit", "env", "exit", "expand", "fg", "filter", "fork", "gen", "head", "help",
   "history", "import", "intersect", "jobs", "join", "load", "ls", "map", "popd", "ps", "pushd", "pwd", "red", "read", "remote", "reverse", "run", "select", "sort",
   "squish", "sql", "store", "sudo", "tail", "timer", "trace", "unique", "union", "upload", "version", "window", "write", "ws"].map String.toList

/-- op/__init__.py 72-75: the names of the operators that there are modules for. -/
def allOps : List Str := publicOps ++ ["first", "gather", "runpipeline"].map String.toList

/-- opmodule.py 34 -/
def bashyOps : List Str := ["ls", "read", "bash"].map String.toList

/-- The environment: which variables have a value that is not None (`env.getvar(name) is not None`), and which names are found in the PATH (util.py 85-86). -/
structure Names where
  defined : Str → Bool
  executable : Str → Bool

/-- `String.__init__` 415-416, `is_op` 424-425 -/
def isOpName (s : Str) : Bool := publicOps.contains s

/-- `ShellOpContext.shell_args` 965-972 for a string token. -/
def Names.shellArgs (n : Names) (name : Str) : Bool :=
  (allOps.contains name && bashyOps.contains name) || (!n.defined name && !isOpName name && n.executable name)

/-- `op_token.value()` 418-419, 499, 513-514, 544 -/
def OpTok.name : OpTok → Str
  | .word lit _ => lit.original
  | .made s => s
  | .remote => ['@']
  | .run true => ['!', '!']
  | .run false => ['!']

/-- `is_var` 204-205, 427-428 -/
def OpTok.isVar (n : Names) : OpTok → Bool
  | .word lit _ => n.defined lit.original
  | .made s => n.defined s
  | _ => false

/-- `op_name` 416, 522-524, 568-570; `none` if `is_op()` is false. -/
def OpTok.opName : OpTok → Option Str
  | .word lit _ => if isOpName lit.original then some lit.original else none
  | .made s => if isOpName s then some s else none
  | .remote => some "remote".toList
  | .run _ => some "run".toList

/-- `is_executable` 207-208, 430-431 -/
def OpTok.isExecutable (n : Names) : OpTok → Bool
  | .word lit _ => n.executable lit.original
  | .made s => n.executable s
  | _ => false

mutual
/-- An argument of a command: a word, an expression, a flag, or a pipeline. -/
inductive CArg
  | tok (t : Tok)
  | flag (s : Str)
  | pipe (p : CPipe)
/-- A pipeline: its parameters and what is executed. -/
inductive CPipe
  | mk (params : List Str) (ops : List Created)
/-- What is executed for one command of a pipeline: a marcel operator; the pipeline that is the value of a variable; or
an executable of the host. -/
inductive Created
  | builtin (name : Str) (args : List CArg)
  | call (var : Str) (args : List CArg)
  | external (name : Str) (args : List CArg)
end

/-- What is executed for a command line. -/
inductive CCmd
  | assign (var : Str) (value : CArg)
  | pipeline (p : CPipe)

/-- `create_op_variable` 1304-1307: whether the argument has a method `value`. A pipeline among the arguments is of type PipelineMarcel (1133, pipeline.py 264-266), not PipelineExecutable,
and has no such method; nor has the string `--append` (1141). -/
def PArg.hasValue : PArg → Bool
  | .tok _ => true
  | .flag _ => false
  | .pipe _ => false

/-- `create_op_variable` 1297-1312. Which arguments fit the pipeline is decided when the command is set up (see C39). -/
def createVariable (op : OpTok) (args : List PArg) (cargs : List CArg) : Except LexErr Created :=
  if args.all PArg.hasValue then .ok (.call op.name cargs) else .error .attributeError

/-- `create_op` 1264-1276, given the arguments `cargs` made from `args`. `create_op_builtin` 1278-1295 (what the operator makes of the arguments is C37), `create_op_executable` 1314-1324. -/
def createOp (n : Names) (op : OpTok) (args : List PArg) (cargs : List CArg) : Except LexErr Created :=
  if op.isVar n then createVariable op args cargs
  else match op.opName with
    | some name => .ok (.builtin name cargs)
    | none => if op.isExecutable n then .ok (.external op.name cargs) else createVariable op args cargs

mutual
/-- 1181-1183: a pipeline is created while it is parsed; so `create_op` has been done for its commands before it is for the command it is an argument of. -/
def createArg (n : Names) : PArg → Except LexErr CArg
  | .tok t => .ok (.tok t)
  | .flag s => .ok (.flag s)
  | .pipe p => (createPipe n p).map .pipe
def createArgs (n : Names) : List PArg → Except LexErr (List CArg)
  | [] => .ok []
  | a :: as => match createArg n a with
    | .error e => .error e
    | .ok c => (createArgs n as).map (c :: ·)
/-- 1119-1133 -/
def createPipe (n : Names) : PPipe → Except LexErr CPipe
  | .mk params ops => (createOps n ops).map (.mk params)
def createOps (n : Names) : List POp → Except LexErr (List Created)
  | [] => .ok []
  | o :: os => match createPOp n o with
    | .error e => .error e
    | .ok c => (createOps n os).map (c :: ·)
def createPOp (n : Names) : POp → Except LexErr Created
  | .mk op args => match createArgs n args with
    | .error e => .error e
    | .ok cargs => createOp n op args cargs
end

/-- `create_assignment` 1326-1331 -/
def createCmd (n : Names) : PCmd → Except LexErr CCmd
  | .assign var a => (createArg n a).map (.assign var)
  | .pipeline p => (createPipe n p).map .pipeline

/-- `Parser.parse` 1017-1020 in an environment with these names. In the code the commands are created while the line is parsed; so if there is both an error in
creating one and a syntax error after it, the former is reported rather than the latter. -/
def resolve (n : Names) (text : Str) : Except LexErr CCmd :=
  match parse n.shellArgs text with
  | .error e => .error e
  | .ok c => createCmd n c

/-! ## Calling an executable -/

/-- The values given to `bash`: strings, functions (given by their source), True. -/
inductive BashArg
  | str (s : Str)
  | fn (source : Str)
  | true_
deriving DecidableEq, Repr

instance : PyArg BashArg where
  str := fun | .str x => some x | _ => none
  ofStr := .str
  str_ofStr := fun _ => rfl
  tru := .true_
  isTrue := fun | .true_ => true | _ => false
  tru_isTrue := rfl

/-- `BashArgsParser` bash.py 77-83. `check_str` keeps strings and functions. -/
def bashDecl : ArgsDecl BashArg where
  flags := [⟨"interactive".toList, some "-i".toList, some "--interactive".toList, .noValue, .true_, "interactive".toList, some⟩]
  anons := []
  anonList := some ⟨"args".toList, "args_arg".toList, fun x => match x with | .true_ => none | _ => some x⟩
  atMostOne := []
  exactlyOne := []

/-- `create_op_executable` 1318-1322: an argument of the executable. Pipelines do not occur (`shell_arg` 1191-1195). -/
def CArg.bashArg : CArg → BashArg
  | .tok (.str _ _ raw) => .str raw
  | .tok (.expr src) => .fn src
  | .flag s => .str s
  | _ => .true_

/-- argsparser.py 203-205, util.py 254-260: the name is a string literal, whose value is taken (`StrLit.of` is what the literal was made from the text with). -/
def literalValue (name : Str) : Str :=
  match StrLit.of name with
  | .ok l => l.string
  | .error _ => name

/-- Python's `str.strip` -/
def pyStrip (l : Str) : Str := ((l.dropWhile isspace).reverse.dropWhile isspace).reverse

/-- bash.py 104-105: the text of an argument; `value` gives what an expression evaluates to, as text. -/
def BashArg.text (value : Str → Str) : BashArg → Str
  | .str s => pyStrip s
  | .fn src => pyStrip (value src)
  | .true_ => []

/-- What the host shell executes: parser.py 1316-1323, opmodule.py 92-96, bash.py 71-74, 104-105. `none`: KillCommandException. -/
def bashCommand (value : Str → Str) (name : Str) (args : List CArg) : Option Str :=
  match bashDecl.parse (.str name :: args.map CArg.bashArg) [] with
  | none => none
  | some op => match op.get? "args_arg".toList with
    | some (.list vs) => some (List.intercalate [' '] (vs.map (BashArg.text value)))
    | _ => none

/-- The command of the host shell for a command that is an executable. -/
def Created.hostCommand (value : Str → Str) : Created → Option Str
  | .external name args => bashCommand value (literalValue name) args
  | _ => none

end Marcel
