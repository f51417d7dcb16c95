import Verif.Model.Read
/-! # Model of `write`

`/repo/marcel/op/write.py` 100-283, for all formats but `--pickle` (see `Model/Pickle.lean`).

Formatting an item is a parameter, which may fail. A line is written as a whole or not at all; writing to an open file does not fail. Operators after
`write` raise no exceptions. -/

namespace Marcel.WriteOp

open Marcel.Read (Text)

/-- The formatting options; without any: `default`. -/
inductive Kind
  | default
  | csv
  | tsv
  | format
deriving DecidableEq, Repr

/-- What happens when the file is opened: it is opened; it is refused (`IsADirectoryError`, `FileExistsError`, `PermissionError`: util.open_file 191-196 raises
KillCommandException); another exception, e.g. FileNotFoundError because its directory is missing. -/
inductive Opening
  | ok
  | refused
  | fails
deriving DecidableEq, Repr

inductive Exn
  | kill
  | crash
deriving DecidableEq, Repr

/-- What is received. An error is given by its text. -/
inductive In (α : Type)
  | item (x : α)
  | error (m : Text)
deriving DecidableEq, Repr

/-- What is sent: items, and an error about an item. -/
inductive Out (α : Type)
  | item (x : α)
  | failed (x : α)
deriving DecidableEq, Repr

/-- `toFile`: a file name is given; `fmt`: how an item is formatted, `none` if that raises an exception. -/
structure Cfg (α : Type) where
  kind : Kind
  toFile : Bool
  append : Bool
  opening : Opening
  fmt : α → Option Text

/-- `opened`: `TextWriter._output` is set. `target`: the contents of the file (`none`: there is none), or what has been written to stdout. -/
structure St (α : Type) where
  opened : Bool
  target : Option Text
  sent : List (Out α)
deriving DecidableEq

/-- `Write.setup` 133-140: `--append` without a file is refused. -/
def Cfg.accepted {α : Type} (c : Cfg α) : Bool := !(c.append && !c.toFile)

/-- `TextWriter.output` 219-229 -/
def output {α : Type} (c : Cfg α) (s : St α) : St α × Opening :=
  if s.opened then (s, .ok)
  else if c.toFile then
    match c.opening with
    | .ok => ({ s with opened := true, target := if c.append then some (s.target.getD []) else some [] }, .ok)
    | o => (s, o)
  else ({ s with opened := true }, .ok)

/-- `write_line` 216-217 -/
def writeLine {α : Type} (c : Cfg α) (t : Text) (s : St α) : St α × Opening :=
  match output c s with
  | (s', .ok) => ({ s' with target := some (s'.target.getD [] ++ t ++ ['\n']) }, .ok)
  | r => r

def St.send {α : Type} (s : St α) (o : List (Out α)) : St α := { s with sent := s.sent ++ o }

/-- `Write.receive` 147-155, with the `receive` of the writers (243-245, 257-258, 267-283). -/
def receive {α : Type} (c : Cfg α) (s : St α) (x : α) : St α × Option Exn :=
  match c.fmt x with
  | none => (s.send [.failed x, .item x], none)
  | some t => match writeLine c t s with
    | (s', .ok) => (s'.send [.item x], none)
    | (s', .refused) => (s'.send [.item x], some .kill)
    | (s', .fails) => (s'.send [.failed x, .item x], none)

/-- The text of an error object: the default writer 279-280. The others fail: `csv.writer.writerow` and `str.format(*x)` expect an iterable. -/
def fmtError (k : Kind) (m : Text) : Option Text :=
  match k with
  | .default => some m
  | _ => none

/-- `Write.receive_error` 157-160 -/
def receiveError {α : Type} (c : Cfg α) (s : St α) (m : Text) : St α × Option Exn :=
  match fmtError c.kind m with
  | none => (s, some .crash)
  | some t => match writeLine c t s with
    | (s', .ok) => (s', none)
    | (s', .refused) => (s', some .kill)
    | (s', .fails) => (s', some .crash)

def step {α : Type} (c : Cfg α) (s : St α) : In α → St α × Option Exn
  | .item x => receive c s x
  | .error m => receiveError c s m

/-- All that is received; an exception ends the command. -/
def feed {α : Type} (c : Cfg α) : List (In α) → St α → St α × Option Exn
  | [], s => (s, none)
  | e :: es, s => match step c s e with
    | (s', none) => feed c es s'
    | r => r

/-- `TextWriter.cleanup` 212-214: the file is opened, if it has not been. -/
def cleanup {α : Type} (c : Cfg α) (s : St α) : St α × Option Exn :=
  match output c s with
  | (s', .ok) => (s', none)
  | (s', .refused) => (s', some .kill)
  | (s', .fails) => (s', some .crash)

/-- A command with `write` (pipeline.py 331-336: `cleanup` is called in any case): what the target contained, what is received. The exception of `cleanup` replaces another one. -/
def run {α : Type} (c : Cfg α) (old : Option Text) (es : List (In α)) : St α × Option Exn :=
  match feed c es ⟨false, old, []⟩ with
  | (s, e) => match cleanup c s with
    | (s', none) => (s', e)
    | r => r

end Marcel.WriteOp
