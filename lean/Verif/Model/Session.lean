/-! # Model of starting marcel, and of going to another workspace, when things go wrong

`/repo/marcel/main.py` 69-88, 109-127, 162-169, 281-348, 366-402; `/repo/marcel/object/workspace.py` 242-278 (`open`, `close`); `/repo/marcel/configscript.py` 28-60;
`/repo/marcel/env.py` 248-269 (`create`).

What happens is recorded as a list of events. Parameters, which may depend on everything that has happened: what stands in the way of opening a workspace; how constructing a
main object ends (it checks all workspaces, see `Model/WsDisk`); the startup scripts given by `run_on_startup`; how a command ends; how a session of typed commands
ends (see `Model/Main` for what is executed in it); whether closing a workspace succeeds. Only the topmost process is modelled. Not modelled: exceptions in the code between
these calls, ctrl-C outside of a session. -/

namespace Marcel.Session

/-- Workspaces: the default one, and the named ones. -/
inductive Ws
  | default_
  | named (n : Nat)
deriving DecidableEq, Repr

/-- Exceptions. `exception`: any subclass of Python's `Exception`. -/
inductive Exn
  | startupScript (w : Ws)
  | kill
  | killShell
  | exit
  | systemExit
  | exception
  | reconfigure (w : Option Ws)
deriving DecidableEq, Repr

/-- What can stand in the way of opening a workspace (workspace.py 242-258, configscript.py 28-60): it does not exist; another process has it; its properties cannot be read; its startup
script cannot be read; raises an exception; calls `exit`; assigns HOME, USER etc.; the saved environment cannot be read. -/
inductive Obstacle
  | missing
  | inUse
  | properties
  | unreadable
  | script
  | scriptExit
  | forbidden
  | environment
deriving DecidableEq, Repr

/-- What happens. `locked`, `unlocked`: the marker of a named workspace is taken and given back. `opened`: a workspace has been opened. `built`: a main object has been made.
`started`: all startup scripts have been run. `cmd`: a command has been executed. `ran`: a session of typed commands has taken place. `closed`: a workspace has
been closed, or not, because of an exception. `told`: a message about a startup script that failed. `fallBack`: the message `Starting in default workspace` (289-291). `tryDefault`:
the messages 302-303. `fixIt`: the messages 298-299. -/
inductive Ev (C : Type)
  | locked (w : Ws)
  | unlocked (w : Ws)
  | opened (w : Ws)
  | built (w : Ws)
  | started (w : Ws)
  | cmd (w : Ws) (c : C)
  | ran (w : Ws)
  | closed (w : Ws) (ok : Bool)
  | told (w : Ws)
  | fallBack (w : Ws)
  | tryDefault (w : Ws)
  | fixIt
deriving DecidableEq, Repr

abbrev Log (C : Type) := List (Ev C)

/-- How a command ends (`parse_and_run_command` 109-127): without an exception, or with one that is caught there: KillCommandException (which includes StartupScriptException),
KillAndResumeException, EmptyCommand; or with one that is not. -/
inductive CmdRes
  | fine
  | caught
  | reconfigure (w : Ws)
  | exit
  | raises
deriving DecidableEq, Repr

/-- How a session of typed commands (`MainInteractive.run` 219-239) ends: by the end of input; by ReconfigureException, of the command `ws` or because the startup script was modified (`none`); by
`exit`; by another exception. -/
inductive RunRes
  | ended
  | reconfigure (w : Option Ws)
  | exit
  | raises
deriving DecidableEq, Repr

/-- Making a main object (97-107, 193-207): `needs_restart`, or an exception. -/
inductive Built
  | fine
  | needsRestart
  | raises
deriving DecidableEq, Repr

/-- Everything that is left open. `scripts`: the commands of the strings given to `run_on_startup`; `none`: not a string. `script`: the commands of the script, or of standard input,
when it is read. -/
structure World (C : Type) where
  obstacle : Log C → Ws → Option Obstacle
  build : Log C → Ws → Built
  scripts : Log C → Ws → List (Option (List C))
  exec : Log C → Ws → C → CmdRes
  run : Log C → Ws → RunRes
  closes : Log C → Ws → Bool
  script : Log C → List C

variable {C : Type}

/-- The log, and the main objects whose `shutdown` is registered with atexit, by their workspaces. -/
structure St (C : Type) where
  log : Log C
  mains : List Ws

def St.add (s : St C) (e : Ev C) : St C := { s with log := s.log ++ [e] }

/-- Taking the marker; the default workspace has none (workspace.py 382-407, 575-576). -/
def St.lock (s : St C) (w : Ws) : St C :=
  match w with
  | .default_ => s
  | .named _ => s.add (.locked w)

/-- `Workspace.open` (workspace.py 242-258), called by `Environment.create` (env.py 263-265). The default workspace always exists (541-542), is not locked (575-576) and has no properties (544-545). -/
def openWs (W : World C) (s : St C) (w : Ws) : St C × Except Exn Unit :=
  match W.obstacle s.log w with
  | some .missing => if w = .default_ then (s.add (.opened w), .ok ()) else (s, .error .kill)
  | some .inUse => if w = .default_ then (s.add (.opened w), .ok ()) else (s, .error .kill)
  | some .properties => if w = .default_ then (s.add (.opened w), .ok ()) else (s.lock w, .error .exception)
  | some .unreadable => (s.lock w, .error .kill)
  | some .script => (s.lock w, .error (.startupScript w))
  | some .scriptExit => (s.lock w, .error .systemExit)
  | some .forbidden => (s.lock w, .error .kill)
  | some .environment => (s.lock w, .error .exception)
  | none => ((s.lock w).add (.opened w), .ok ())

/-- `Workspace.close` and the `try` around it (main.py 75-78; workspace.py 260-278): the marker is given back if nothing fails. -/
def closeLog (W : World C) (log : Log C) (w : Ws) : Log C :=
  match w with
  | .default_ => log ++ [.closed .default_ (W.closes log .default_)]
  | .named n => if W.closes log (.named n) then log ++ [.unlocked (.named n), .closed (.named n) true] else log ++ [.closed (.named n) false]

/-- `shutdown(restart=True)` 69-88, of the main object `main`, whose workspace is `w`: it is the one registered last. -/
def shutdown (W : World C) (s : St C) (w : Ws) : St C := ⟨closeLog W s.log w, s.mains.tail⟩

/-- The commands of one startup script 167-169. -/
def runCommands (W : World C) (w : Ws) : List C → St C → St C × Except Exn Unit
  | [], s => (s, .ok ())
  | c :: cs, s =>
    match W.exec s.log w c with
    | .fine => runCommands W w cs (s.add (.cmd w c))
    | .caught => runCommands W w cs (s.add (.cmd w c))
    | .reconfigure v => (s.add (.cmd w c), .error (.reconfigure (some v)))
    | .exit => (s.add (.cmd w c), .error .exit)
    | .raises => (s.add (.cmd w c), .error .exception)

/-- `run_startup_scripts` 162-169 -/
def runScripts (W : World C) (w : Ws) : List (Option (List C)) → St C → St C × Except Exn Unit
  | [], s => (s.add (.started w), .ok ())
  | none :: _, s => (s, .error .kill)
  | some cs :: rest, s =>
    match runCommands W w cs s with
    | (s, .error e) => (s, .error e)
    | (s, .ok ()) => runScripts W w rest s

/-- `env_and_main` 285-304; the first argument is how deep Python's recursion can still go. The result: the workspace that has been opened, and whether `needs_restart`. -/
def envAndMain (W : World C) : Nat → St C → Ws → St C × Except Exn (Ws × Bool)
  | 0, s, _ => (s, .error .exception)
  | d + 1, s, w =>
    match openWs W s w with
    | (s, .error .exception) => envAndMain W d (s.add (.fallBack w)) .default_
    | (s, .error e) => (s, .error e)
    | (s, .ok ()) =>
      match W.build s.log w with
      | .raises => ({ s with mains := w :: s.mains }, .error .exception)
      | b =>
        match runScripts W w (W.scripts (s.log ++ [.built w]) w) ⟨s.log ++ [.built w], w :: s.mains⟩ with
        | (s, .error (.startupScript v)) =>
          if w = .default_ then (s.add .fixIt, .error .systemExit)
          else envAndMain W d (s.add (.tryDefault v)) .default_
        | (s, .error e) => (s, .error e)
        | (s, .ok ()) => (s, .ok (w, b == .needsRestart))

/-- How marcel ends: at the end of the input, by `exit` or `sys.exit` (372-377, 401-402), with a message (393-400), or with a traceback. -/
inductive End
  | normal
  | exit
  | message
  | traceback
deriving DecidableEq, Repr

/-- Where the process is: in `main` 366-388 before reading the input; in the loop of `main_interactive_run` 310-329, about to open a workspace; in the loop of `main_script_run` 338-348; ended. -/
inductive Phase (C : Type)
  | begin
  | enter (w : Ws)
  | script (w : Ws) (cs : List C)
  | ended (e : End)
deriving DecidableEq

/-- An exception that leaves `main_interactive_run` or `main_script_run`: `main` 383-386, and 390-402. -/
def escape (s : St C) (e : Exn) : St C × Phase C :=
  match e with
  | .startupScript w => (s.add (.told w), .begin)
  | .kill => (s, .ended .message)
  | .killShell => (s, .ended .message)
  | .exit => (s, .ended .exit)
  | .systemExit => (s, .ended .exit)
  | .exception => (s, .ended .traceback)
  | .reconfigure _ => (s, .ended .traceback)

/-- What `main.run()` (316) ends with, as an exception. -/
def RunRes.toExcept : RunRes → Except Exn Unit
  | .ended => .ok ()
  | .reconfigure w => .error (.reconfigure w)
  | .exit => .error .exit
  | .raises => .error .exception

/-- One iteration of the loop of `main_interactive_run` 310-329. -/
def stepEnter (W : World C) (depth : Nat) (s : St C) (w : Ws) : St C × Phase C :=
  match envAndMain W depth s w with
  | (s, .error e) => escape s e
  | (s, .ok (v, needs)) =>
    match (if needs then (s, .error (.reconfigure (some .default_))) else (s.add (.ran v), (W.run s.log v).toExcept) : St C × Except Exn Unit) with
    | (s, .ok ()) => (s, .ended .normal)
    | (s, .error (.reconfigure none)) => (shutdown W s v, .enter v)
    | (s, .error (.reconfigure (some u))) => (shutdown W s v, .enter u)
    | (s, .error e) => escape s e

/-- `Environment.create` and `MainScript(env)` 335-336, 347-348; `needs_restart` is not looked at. -/
def openScript (W : World C) (s : St C) (w : Ws) : St C × Except Exn Unit :=
  match openWs W s w with
  | (s, .error e) => (s, .error e)
  | (s, .ok ()) =>
    match W.build s.log w with
    | .raises => ({ s with mains := w :: s.mains }, .error .exception)
    | _ => (⟨s.log ++ [.built w], w :: s.mains⟩, .ok ())

/-- The beginning of `main_script_run` 332-337. -/
def stepScriptBegin (W : World C) (s : St C) : St C × Phase C :=
  match openScript W s .default_ with
  | (s', .error e) => escape s' e
  | (s', .ok ()) =>
    match runScripts W .default_ (W.scripts s'.log .default_) s' with
    | (s', .error e) => escape s' e
    | (s', .ok ()) => (s', .script .default_ (W.script s.log))

/-- One iteration of the loop of `main_script_run` 338-348. -/
def stepScript (W : World C) (s : St C) (w : Ws) (cs : List C) : St C × Phase C :=
  match cs with
  | [] => (s, .ended .normal)
  | c :: cs =>
    match W.exec s.log w c with
    | .fine => (s.add (.cmd w c), .script w cs)
    | .caught => (s.add (.cmd w c), .script w cs)
    | .exit => escape (s.add (.cmd w c)) .exit
    | .raises => escape (s.add (.cmd w c)) .exception
    | .reconfigure v =>
      match openScript W (shutdown W (s.add (.cmd w c)) w) v with
      | (s, .error e) => escape s e
      | (s, .ok ()) => (s, .script v cs)

/-- One step. `interactive`: whether there is a script (374-382). -/
def step (W : World C) (interactive : Bool) (depth : Nat) (x : St C × Phase C) : St C × Phase C :=
  match x.2 with
  | .begin => if interactive then (x.1, .enter .default_) else stepScriptBegin W x.1
  | .enter w => stepEnter W depth x.1 w
  | .script w cs => stepScript W x.1 w cs
  | .ended e => (x.1, .ended e)

/-- A run of marcel, so many steps of it. -/
def after (W : World C) (interactive : Bool) (depth : Nat) : Nat → St C × Phase C
  | 0 => (⟨[], []⟩, .begin)
  | n + 1 => step W interactive depth (after W interactive depth n)

/-- What `shutdown(restart=False)` (69-88) does for the main objects registered with atexit when the process ends, the last one first. -/
def atExit (W : World C) : List Ws → Log C → Log C
  | [], log => log
  | w :: ws, log => atExit W ws (closeLog W (closeLog W log w) .default_)

/-- Everything that happens until the process is gone, if it has ended. -/
def whole (W : World C) (x : St C × Phase C) : Log C :=
  match x.2 with
  | .ended _ => atExit W x.1.mains x.1.log
  | _ => x.1.log

end Marcel.Session
