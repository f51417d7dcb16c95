import Verif.Model.Read
/-! # Model of running an external program (`bash`, and commands that are not operators of marcel)

`/repo/marcel/op/bash.py` 100-275, programs that are not interactive (`NonInteractive` 151-200).

The program, and processes it leaves in the background, are the environment: they write anything at any time to standard output and standard error, and the program ends
at any time. A thread of marcel (`ProcessOutputHandler` 236-275) reads what they write; it alternates between `select` (251) and dealing with the result (254-266), and anything can
happen in between. `readline` on a stream of Python reads chunks of at most `c` characters from the pipe into a buffer of the stream, until the buffer contains a line end or
the pipe is at its end. Not modelled: encodings, carriage returns (Python's universal newlines), the capacity of the pipes, operators after this
one that raise exceptions, the command being empty. -/

namespace Marcel.Bash

open Marcel.Read (Text)

/-- The end of a pipe marcel reads: what is in the pipe, what is in Python's buffer, whether it is registered with the selector. -/
structure Strm where
  fd : Text
  buf : Text
  registered : Bool
deriving DecidableEq, Repr

/-- What is sent to the next operator: a string, or an Error object. -/
inductive Sent
  | out (t : Text)
  | error (t : Text)
deriving DecidableEq, Repr

/-- Where the thread is: at `select`, after `select` (with the streams found readable), at its end. -/
inductive Pc
  | select
  | act (out err : Bool)
  | done
deriving DecidableEq, Repr

/-- `wroteOut`, `wroteErr`: everything written so far. `running`: the program; `bg`: a process in the background holds the pipes open. -/
structure St where
  out : Strm
  err : Strm
  wroteOut : Text
  wroteErr : Text
  running : Bool
  bg : Bool
  sent : List Sent
  pc : Pc
deriving DecidableEq, Repr

/-- `ensure_command_running` 177-189: the program has been started, the thread too, and 247-249. -/
def start : St where
  out := ⟨[], [], true⟩
  err := ⟨[], [], true⟩
  wroteOut := []
  wroteErr := []
  running := true
  bg := false
  sent := []
  pc := .select

/-- No process can write to the pipes any more. -/
def St.closed (s : St) : Bool := !s.running && !s.bg

/-- `select` finds the stream readable: there is something in the pipe, or it is at its end. -/
def Strm.ready (closed : Bool) (x : Strm) : Bool := x.registered && (!x.fd.isEmpty || closed)

/-- The first line of a text, with its line end, and the rest. `none`: there is no line end. -/
def splitLine : Text → Option (Text × Text)
  | [] => none
  | c :: t => if c = '\n' then some ([c], t) else (splitLine t).map fun r => (c :: r.1, r.2)

/-- `stream.readline()` 258: the line, the buffer and the pipe. `none`: it waits. The first argument bounds the number of reads. -/
def readline (c : Nat) (closed : Bool) : Nat → Text → Text → Option (Text × Text × Text)
  | 0, _, _ => none
  | n + 1, buf, fd =>
    match splitLine buf with
    | some r => some (r.1, r.2, fd)
    | none => if fd.isEmpty then (if closed then some (buf, [], []) else none) else readline c closed n (buf ++ fd.take c) (fd.drop c)

/-- `normalize_output` 271-275 -/
def normalize (t : Text) : Text := if t.getLast? = some '\n' then t.dropLast else t

/-- 257-266 for one stream: the stream afterwards, and what is sent. -/
def readOne (c : Nat) (closed : Bool) (mk : Text → Sent) (x : Strm) : Option (Strm × List Sent) :=
  match readline c closed (x.fd.length + 1) x.buf x.fd with
  | some r => if r.1.isEmpty then some ({ x with buf := r.2.1, fd := r.2.2, registered := false }, [])
              else some ({ x with buf := r.2.1, fd := r.2.2 }, [mk (normalize r.1)])
  | none => none

/-- The part for the stream if there is an event for it (256). -/
def readIf (c : Nat) (closed : Bool) (mk : Text → Sent) (ev : Bool) (x : Strm) : Option (Strm × List Sent) :=
  if ev then readOne c closed mk x else some (x, [])

/-- 254-266. `errFirst`: the order of the events. -/
def act (c : Nat) (errFirst : Bool) (evOut evErr : Bool) (s : St) : Option St :=
  if !evOut && !evErr && !s.running then some { s with pc := .done }
  else match readIf c s.closed .out evOut s.out, readIf c s.closed .error evErr s.err with
    | some o, some e => some { s with out := o.1, err := e.1, sent := s.sent ++ (if errFirst then e.2 ++ o.2 else o.2 ++ e.2), pc := .select }
    | _, _ => none

/-- What can happen. -/
inductive Label
  /-- The program, or a process in the background, writes. -/
  | writeOut (t : Text)
  | writeErr (t : Text)
  /-- The program starts a process in the background, that inherits the pipes. -/
  | fork
  /-- All processes in the background have ended. -/
  | bgEnd
  /-- The program ends, or is killed. -/
  | exit
  /-- The thread: `select`, and what follows. -/
  | select
  | act (errFirst : Bool)
deriving DecidableEq, Repr

def step (c : Nat) (s : St) : Label → Option St
  | .writeOut t => if s.closed then none else some { s with out := { s.out with fd := s.out.fd ++ t }, wroteOut := s.wroteOut ++ t }
  | .writeErr t => if s.closed then none else some { s with err := { s.err with fd := s.err.fd ++ t }, wroteErr := s.wroteErr ++ t }
  | .fork => if s.running then some { s with bg := true } else none
  | .bgEnd => some { s with bg := false }
  | .exit => some { s with running := false }
  | .select => match s.pc with
    | .select => some { s with pc := .act (s.out.ready s.closed) (s.err.ready s.closed) }
    | _ => none
  | .act errFirst => match s.pc with
    | .act o e => act c errFirst o e s
    | _ => none

def run (c : Nat) : List Label → St → Option St
  | [], s => some s
  | l :: ls, s => match step c s l with
    | some s' => run c ls s'
    | none => none

/-! ## Standard input -/

/-- `NonInteractive.receive` 159-166: what is written for an item, whose components are given as text; `tup` is the text of a tuple. -/
def inputLine (tup : List Text → Text) (x : List Text) : Text := (match x with | [a] => a | _ => tup x) ++ ['\n']

/-- What happens with standard input when the command is run: it is the first of its pipeline (`Escape.run` 135-136, `receive(env, None)`), or it receives items.
`none`: `flush` 168-169 raises AttributeError, because no process has been started. -/
def input (tup : List Text → Text) (first : Bool) (items : List (List Text)) : Option Text :=
  if first then some []
  else if items.isEmpty then none
  else some (items.flatMap (inputLine tup))

end Marcel.Bash
