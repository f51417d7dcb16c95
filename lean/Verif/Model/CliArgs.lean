/-! # Model of `parse_args`: the arguments of a script

`/repo/marcel/cliargs.py` 23-272. A dictionary is a function from names to values. `int` (Python's conversion of strings) is a parameter. Not modelled: the
check that names are identifiers (Python's call syntax guarantees that), the usage message. -/

namespace Marcel.CliArgs

abbrev Str := List Char

inductive Kind
  | anon
  | str
  | int
  | bool
deriving DecidableEq, Repr

inductive Val
  | str (s : Str)
  | int (n : Int)
  | bool (b : Bool)
  | list (l : List Str)
  | none
deriving DecidableEq, Repr

/-- `AnonArg` 41-64, `FlagArg` 67-136, `BooleanFlagArg` 139-146, `IntFlagArg` 149-156; `var` is the name it was given in the call of `parse_args`. -/
structure Arg where
  var : Str
  kind : Kind
  short : Option Str
  long : Option Str
  default : Val
  required : Bool
deriving DecidableEq, Repr

/-- What a call of `flag`, `int_flag`, `boolean_flag` or `anon` (260-272) specifies. -/
structure Decl where
  var : Str
  kind : Kind
  f1 : Str
  f2 : Option Str
  default : Val
  required : Bool
deriving DecidableEq, Repr

/-- Failures: `_report_error` 23-26 (KillShellException), an AssertionError or IndexError of a wrong declaration, the ValueError of `int`. -/
inductive Err
  | usage
  | assertion
  | valueError
deriving DecidableEq, Repr

/-- `check_valid_flag` 125-136 -/
def validFlag (f : Str) : Bool :=
  f.length ≥ 2 && !(if "--".toList.isPrefixOf f then f.drop 2 else if "-".toList.isPrefixOf f then f.drop 1 else f).isEmpty

/-- `FlagArg.short` 115-118 -/
def isShort (f : Str) : Bool := f[0]? == some '-' && f[1]? != some '-'

/-- `FlagArg.long` 120-123 -/
def isLong (f : Str) : Bool := f[0]? == some '-' && f[1]? == some '-'

/-- `FlagArg.__init__` 69-91, `AnonArg.__init__` 43-46. (`short(f1)` checks `f1` first, then, in the case of two flags, `f2` may be checked.) -/
def Decl.arg (d : Decl) : Except Err Arg :=
  match d.kind with
  | .anon => .ok ⟨d.var, .anon, none, none, .list [], false⟩
  | k =>
    if !validFlag d.f1 then .error .usage
    else match d.f2 with
      | none =>
        if isShort d.f1 then .ok ⟨d.var, k, some d.f1, none, d.default, d.required⟩
        else if isLong d.f1 then .ok ⟨d.var, k, none, some d.f1, d.default, d.required⟩
        else .error .assertion
      | some f2 =>
        if !validFlag f2 then .error .usage
        else if isShort d.f1 && isLong f2 then .ok ⟨d.var, k, some d.f1, some f2, d.default, d.required⟩
        else if isLong d.f1 && isShort f2 then .ok ⟨d.var, k, some f2, some d.f1, d.default, d.required⟩
        else .error .usage

/-- The flags of an argument (`register_flags` 51-52, 99-107). -/
def Arg.flags (a : Arg) : List Str := a.short.toList ++ a.long.toList

/-- `has_flag` 54-55, 109-110 -/
def Arg.hasFlag (a : Arg) (f : Str) : Bool := a.short == some f || a.long == some f

def noDup : List Str → Bool
  | [] => true
  | x :: l => !l.contains x && noDup l

/-- `CommandLine.__init__` 161-183: at most one `anon`, no flag twice. -/
def checkArgs (as : List Arg) : Bool := (as.filter fun a => a.kind == .anon).length ≤ 1 && noDup (as.flatMap Arg.flags)

/-- `isflag` 186-187 -/
def isFlag (t : Str) : Bool := t.head? == some '-'

/-- `arg_of` 189-193 -/
def argOf (as : List Arg) (f : Str) : Option Arg := as.find? fun a => a.hasFlag f

/-- `token_scan` 206-229 -/
def scan (toInt : Str → Option Int) (as : List Arg) : List Str → Except Err (List (Option Arg × Val))
  | [] => .ok []
  | t :: rest =>
    if isFlag t then
      match argOf as t with
      | none => .error .usage
      | some a =>
        if a.kind == .bool then (scan toInt as rest).map fun r => (some a, .bool true) :: r
        else match rest with
          | [] => .error .usage
          | v :: rest =>
            if isFlag v then .error .usage
            else if a.kind == .int then
              match toInt v with
              | none => .error .valueError
              | some n => (scan toInt as rest).map fun r => (some a, .int n) :: r
            else (scan toInt as rest).map fun r => (some a, .str v) :: r
    else (scan toInt as rest).map fun r => (none, .str t) :: r

abbrev Vals := Str → Option Val

def Vals.set (d : Vals) (k : Str) (v : Val) : Vals := fun x => if x = k then some v else d x

/-- 233-236 -/
def defaults (as : List Arg) : Vals := as.foldl (fun d a => if a.required then d else d.set a.var a.default) (fun _ => none)

/-- 238-242: the values, and the other arguments. -/
def collect (d : Vals) (toks : List (Option Arg × Val)) : Vals :=
  toks.foldl (fun d t => match t.1 with | some a => d.set a.var t.2 | none => d) d

def others (toks : List (Option Arg × Val)) : List Str :=
  toks.filterMap fun t => match t with | (none, .str s) => some s | _ => none

/-- `parse` 185-250 -/
def parse (toInt : Str → Option Int) (as : List Arg) (argv : List Str) : Except Err Vals :=
  match scan toInt as argv with
  | .error e => .error e
  | .ok toks =>
    let d := collect (defaults as) toks
    let d := match as.find? fun a => a.kind == .anon with
      | some a => d.set a.var (.list ((others toks).drop 2))
      | none => d
    if as.all fun a => !a.required || (d a.var).isSome then .ok d else .error .usage

/-- `CommandLine(usage, **kwargs).parse(sys.argv)` 253: the declarations are made, checked, and used. -/
def parseArgs (toInt : Str → Option Int) (ds : List Decl) (argv : List Str) : Except Err Vals :=
  match ds.mapM Decl.arg with
  | .error e => .error e
  | .ok as => if checkArgs as then parse toInt as argv else .error .usage

end Marcel.CliArgs
