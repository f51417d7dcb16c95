import Verif.Model.FArgs
/-! # Model of the main loop, of running scripts and of the sources of input

`/repo/marcel/main.py` 97-127, 162-169, 190-260, 281-355, 366-388; `/repo/marcel/util.py` 288-316; `/repo/marcel/env.py` 339-342; `/repo/marcel/op/run.py` 73-74.

What a command does is a parameter: it may depend on all commands executed before it. Not modelled: job control (see `Model/Jobs.lean`), opening
workspaces (see `Model/WsLock.lean`), failing startup scripts. -/

namespace Marcel.Main

/-- How a command ends: normally, or with KillCommandException or KillAndResumeException (`parse_and_run_command` 109-127); with ctrl-C; by a
ReconfigureException, opening workspace `w`; by another exception; by ExitException. -/
inductive Res (W : Type)
  | fine
  | interrupt
  | open (w : W)
  | crash
  | exit
deriving DecidableEq, Repr

/-- What has been executed: the startup scripts of a workspace, a command that was typed or is part of a script, a command taken from the history by `!` and `!!`. -/
inductive Entry (C W : Type)
  | startup (w : W)
  | cmd (c : C)
  | recalled (c : C)
deriving DecidableEq, Repr

/-- What commands do: the command to be recalled (`env.next_command`, run.py 74), and how it ends. -/
abbrev Exec (C W : Type) := List (Entry C W) → C → Option C × Res W

/-- `typed`: what will be typed. `next`: `env.next_command`. -/
structure St (C W : Type) where
  typed : List C
  next : Option C
  ws : W
  log : List (Entry C W)
  ended : Bool
deriving DecidableEq

/-- 285-298, `env_and_main`: startup scripts are run. -/
def start {C W : Type} (w : W) (typed : List C) : St C W := ⟨typed, none, w, [.startup w], false⟩

/-- 319-329: a ReconfigureException; a new environment (`next_command` is None) and a new main object are created, and startup scripts run. -/
def restart {C W : Type} (s : St C W) (w : W) : St C W := { s with next := none, ws := w, log := s.log ++ [.startup w] }

/-- `parse_and_run_command(self.input)` 231 and the handlers 234-239, 312-329. -/
def execute {C W : Type} (exec : Exec C W) (s : St C W) (e : Entry C W) (c : C) : St C W :=
  match exec s.log c with
  | (n, r) =>
    match r with
    | .fine => { s with log := s.log ++ [e], next := n }
    | .interrupt => { s with log := s.log ++ [e], next := n }
    | .open w => restart { s with log := s.log ++ [e] } w
    | .crash => { s with log := s.log ++ [e], ended := true }
    | .exit => { s with log := s.log ++ [e], ended := true }

/-- One iteration of the loop in `MainInteractive.run` 219-239. `changed`: the startup script was modified since the main object was created (`check_for_config_update` 254-260). -/
def iter {C W : Type} (exec : Exec C W) (s : St C W) (changed : Bool) : St C W :=
  if s.ended then s
  else match s.next with
    | some c => if changed then restart { s with next := none } s.ws else execute exec { s with next := none } (.recalled c) c
    | none => match s.typed with
      | c :: rest => if changed then restart { s with typed := rest } s.ws else execute exec { s with typed := rest } (.cmd c) c
      | [] => { s with ended := true }

/-- A session, with the results of the checks for changes. -/
def session {C W : Type} (exec : Exec C W) (changes : List Bool) (s : St C W) : St C W := changes.foldl (iter exec) s

/-- `main_script_run` 332-348, after creating the first main object: the commands are executed one after the other. After a change of workspace no startup scripts are run. An exception
other than those handled in `parse_and_run_command` ends the script. -/
def scriptLoop {C W : Type} (exec : Exec C W) : List C → List (Entry C W) → List (Entry C W)
  | [], log => log
  | c :: cs, log => match (exec log c).2 with
    | .fine => scriptLoop exec cs (log ++ [.cmd c])
    | .open _ => scriptLoop exec cs (log ++ [.cmd c])
    | _ => log ++ [.cmd c]

/-- `main_script_run` 332-348 -/
def script {C W : Type} (exec : Exec C W) (w : W) (cs : List C) : List (Entry C W) := scriptLoop exec cs [.startup w]

/-! ## Sources of input -/

/-- Python's `str.strip` -/
def strip (l : Str) : Str := ((l.dropWhile isspace).reverse.dropWhile isspace).reverse

/-- `read_heredoc` 351-355. `readline` returns the lines of the text, and then the empty string. -/
def heredocLines : List Str → List Str
  | [] => []
  | l :: ls => if (strip l).isEmpty then [] else strip l :: heredocLines ls

def heredoc (text : Str) : Str := List.intercalate ['\n'] (heredocLines (splitLines [] text))

inductive Source
  | interactive
  | script
  | heredoc
deriving DecidableEq, Repr

/-- `InputSource.__init__` util.py 290-300: whether stdin is a pipe, and the number of arguments on the command line. -/
def source (fifo : Bool) (argc : Nat) : Source := if fifo then .heredoc else if argc == 1 then .interactive else .script

end Marcel.Main
