import Verif.Model.WsOp

/-! # Model of tracing

`/repo/marcel/op/trace.py` (the operator), `/repo/marcel/env.py` 345-403 (`Trace`), 102-124 (what of the environment goes to another process), `/repo/marcel/main.py` 310-349 (the trace is kept when the
workspace changes), with the places where lines are written (core.py 58-65, pipeline.py 60-68).

A process is a list of events: a line is to be traced, the operator `trace` is run, the current directory changes, another process is started. Other processes are jobs, and within them those of
`fork`; they inherit the environment, by pickling it if the start method is `spawn`, which is the default (main.py 367).

Simplifications: the lines themselves are given; a process that is started runs to its end at once (where a line goes does not depend on the schedule, only the order of lines of different processes
does); whether a file can be opened for appending is a parameter and does not change. -/

namespace Marcel.Trace

open WsOp (Arg)

abbrev Line := Str

/-- What `trace` is asked to do: op/trace.py 93-101. -/
inductive Req
  | off
  | on
  | file (name : Arg)
  | status
deriving DecidableEq, Repr

/-- `TraceArgsParser` op/trace.py 61-69 -/
def decl : ArgsDecl Arg where
  flags := [Api.flag0 "off" "-0" (some "--off"), Api.flag0 "on" "-1" (some "--on"), Api.flag1 "file" "-f" "--file" "filename" some]
  anons := []
  anonList := none
  atMostOne := [Api.names ["on", "off", "file"]]
  exactlyOne := []

/-- An attribute of the operator: `False` or `None` (op/trace.py 74-78) unless the arguments stored a value. -/
def attr (op : Dict Str (ArgValue Arg)) (name : String) : Arg :=
  match op.get? name.toList with
  | some (.one v) => v
  | _ => .none_

/-- `if x:` -/
def truthy : Arg → Bool
  | .str s => s ≠ []
  | .tru => true
  | _ => false

/-- op/trace.py 93-101 -/
def choose (op : Dict Str (ArgValue Arg)) : Req :=
  if truthy (attr op "off") then .off
  else if truthy (attr op "on") then .on
  else if truthy (attr op "filename") then .file (attr op "filename")
  else .status

/-- The command `trace` with arguments. `none`: the command is refused. -/
def request (args : List Str) : Option Req :=
  match decl.parse (args.map Arg.str) [] with
  | some op => some (choose op)
  | none => none

/-- Where lines are written. -/
inductive Place
  | stdout
  | file (path : Str)
deriving DecidableEq, Repr

/-- `Trace.target`: 0 for stdout, a file name as it was given, or `None`. -/
inductive Target
  | none_
  | stdout
  | file (name : Str)
deriving DecidableEq, Repr

/-- What `trace` without arguments says. -/
inductive Status
  | off
  | to_ (description : Str)
deriving DecidableEq, Repr

/-- A process: `Trace` with its open file, the current directory, all lines written so far, what was said, the commands that were killed and processes that did not start. -/
structure St where
  target : Target
  tracefile : Option Place
  description : Str
  cwd : Str
  log : List (Place × Line)
  said : List Status
  killed : Nat
deriving DecidableEq, Repr

/-- How processes are started. -/
inductive Method
  | spawn
  | fork
deriving DecidableEq, Repr

structure Sys where
  method : Method
  openable : Str → Bool

/-- What a file name is in a directory. -/
def resolve (cwd name : Str) : Str := if name.head? = some '/' then name else cwd ++ '/' :: name

/-- `Trace.enable` 370-382 for a file -/
def enableFile (y : Sys) (s : St) (name : Str) : St :=
  if y.openable (resolve s.cwd name) then { s with target := .file name, tracefile := some (.file (resolve s.cwd name)), description := name }
  else { s with killed := s.killed + 1 }

/-- `Trace.enable` 371-374 -/
def enableStdout (s : St) : St := { s with target := .stdout, tracefile := some .stdout, description := "stdout".toList }

/-- `Trace.disable` 384-389 -/
def disable (s : St) : St := { s with target := .none_, tracefile := none, description := [] }

/-- `Trace.print_status` 399-403 -/
def printStatus (s : St) : St :=
  match s.tracefile with
  | none => { s with said := s.said ++ [.off] }
  | some .stdout => { s with said := s.said ++ [.to_ s.description] }
  | some (.file _) => s

/-- op/trace.py 93-101. A file name that isn't a string cannot be opened. -/
def perform (y : Sys) (s : St) : Req → St
  | .off => disable s
  | .on => enableStdout s
  | .file (.str n) => enableFile y s n
  | .file _ => { s with killed := s.killed + 1 }
  | .status => printStatus s

/-- `Trace.write` where tracing is enabled. -/
def writeLine (s : St) (l : Line) : St :=
  match s.tracefile with
  | some p => { s with log := s.log ++ [(p, l)] }
  | none => s

/-- `Trace.__setstate__` 360-365, in a process whose current directory is that of the one that started it. `none`: the exception of `open`, which ends the process before anything is run. -/
def unpickled (y : Sys) (s : St) : Option St :=
  match s.target with
  | .none_ => some s
  | .stdout => some { s with tracefile := some .stdout }
  | .file n => if y.openable (resolve s.cwd n) then some { s with tracefile := some (.file (resolve s.cwd n)) } else none

/-- `Trace.__getstate__` 356-358: what is pickled is what the process itself holds, so that this loses the open file, too. -/
def pickled (s : St) : St := { s with tracefile := none }

inductive Ev
  | line (l : Line)
  | trace (r : Req)
  | cd (dir : Str)
  | start (body : List Ev)

/-- What the started process leaves: its lines, what it said. -/
def back (parent child : St) : St := { parent with log := child.log, said := child.said, killed := child.killed }

mutual
  /-- One event. -/
  def step (y : Sys) (s : St) : Ev → St
    | .line l => writeLine s l
    | .trace r => perform y s r
    | .cd d => { s with cwd := d }
    | .start body =>
      match y.method with
      | .fork => back s (exec y s body)
      | .spawn =>
        match unpickled y (pickled s) with
        | some c => back (pickled s) (exec y c body)
        | none => { pickled s with killed := s.killed + 1 }

  /-- All events of a process. -/
  def exec (y : Sys) (s : St) : List Ev → St
    | [] => s
    | e :: es => exec y (step y s e) es
end

/-- When marcel starts: env.py 351-354. -/
def init (cwd : Str) : St := ⟨.none_, none, [], cwd, [], [], 0⟩

end Marcel.Trace
