import Verif.Model.Session
/-! # Specification: sessions, when workspaces cannot be opened -/

namespace Marcel.Session

variable {C : Type}

/-- The workspace that is open: the one opened last, unless it has been closed, or it was tried to close it, since. -/
def current (log : Log C) : Option Ws :=
  log.foldl (fun o e => match e with | .opened w => some w | .closed _ _ => none | _ => o) none

/-- Whether the process has the marker of a workspace. -/
def held (w : Ws) (log : Log C) : Bool :=
  log.foldl (fun b e => match e with | .locked v => b || decide (v = w) | .unlocked v => b && decide (v ≠ w) | _ => b) false

/-- A workspace is at the disposal of the process: it is open, and the process has its marker (the default one has none). -/
def InUse (w : Ws) (log : Log C) : Prop := current log = some w ∧ (w = .default_ ∨ held w log = true)

/-- What has to hold when something happens: commands are executed only in the workspace that is open, and no workspace is opened before the one before has been closed. -/
def Proper (pre : Log C) : Ev C → Prop
  | .cmd w _ => InUse w pre
  | .ran w => InUse w pre
  | .opened w => current pre = none ∧ (w = .default_ ∨ held w pre = true)
  | _ => True

/-- So it was whenever something happened. -/
def Orderly (log : Log C) : Prop := ∀ pre e post, log = pre ++ e :: post → Proper pre e

/-- The commands that were executed. -/
def executed (log : Log C) : List C := log.filterMap (fun e => match e with | .cmd _ c => some c | _ => none)

/-- Nothing fails after the marker of a named workspace has been taken, and closing succeeds. -/
structure Smooth (W : World C) : Prop where
  opens : ∀ log k, W.obstacle log (.named k) = none ∨ W.obstacle log (.named k) = some .missing ∨ W.obstacle log (.named k) = some .inUse
  closes : ∀ log w, W.closes log w = true

/-- Somebody asked marcel to end: a typed command, a command of a script or startup script, or a startup script that is Python code. -/
def Asked (W : World C) (log : Log C) : Prop :=
  (∃ pre w, log = pre ++ [.ran w] ∧ W.run pre w = .exit) ∨
  (∃ pre w c, log = pre ++ [.cmd w c] ∧ W.exec pre w c = .exit) ∨
  (∃ pre w, (log = pre ∨ log = pre ++ [.locked w]) ∧ W.obstacle pre w = some .scriptExit)

end Marcel.Session
