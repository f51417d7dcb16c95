import Verif.Model.Namespace

/-!
# VarHandler, workspaces' variables, jobs' variables

Models `VarHandler` and the environment part of `Workspace.open/close` (marcel/object/workspace.py), persisting a
namespace (marcel/nestednamespace.py 438-452, marcel/env.py 102-123), running a command in a child process
(marcel/job.py 63-84, marcel/core.py 233-247) and taking over its changes (marcel/main.py 243-252).
-/

namespace Marcel

variable {ν V W : Type} [DecidableEq ν] [DecidableEq V]

/-- The immutable variables (env.py 88-99). There is no comma after `'HOST'`, so Python joins it with `'ITALIC'`. -/
def immutableVars : List String :=
  ["BOLD", "COLOR_SCHEME", "Color", "DIRS", "HOME", "HOST" ++ "ITALIC", "MARCEL_VERSION", "pos", "PROMPT", "PWD",
   "USER"]

/-- `VarHandler` (workspace.py 109-119): namespace, `immutable_vars`, `_enforce_immutability`, `vars_written`, and the
reservoirs whose file has been deleted. -/
structure VH (ν V : Type) : Type where
  ns : NS ν V
  imm : List ν
  enforce : Bool
  written : List ν
  gone : List V

/-- Static facts about values: which are reservoirs, which can be wrapped without source (all but pipelines, see
`NS.pushLoop`), and Python's None. -/
structure Vals (V : Type) : Type where
  isRes : V → Bool
  wrappable : V → Bool
  none0 : V

namespace VH

/-- `check_mutability` (workspace.py 190-195) raises. -/
def refuses (s : VH ν V) (x : ν) : Bool := s.enforce && s.imm.contains x

/-- `set.add` (workspace.py 137). -/
def addWritten (s : VH ν V) (x : ν) : List ν := if s.written.contains x then s.written else x :: s.written

/-- workspace.py 138-139: the old value is a reservoir and is replaced. -/
def replaced (vals : Vals V) (s : VH ν V) (x : ν) (v : V) : List V :=
  match s.ns.dict.get? x with
  | some w => if vals.isRes w && v != w then w :: s.gone else s.gone
  | none => s.gone

/-- `setvar` with a source (workspace.py 133-140), as the assign op calls it (op/assign.py 66-74), or for values that
need none. -/
def setvar (vals : Vals V) (s : VH ν V) (x : ν) (v : V) : VH ν V × Option Exn :=
  if s.refuses x then (s, some .kill)
  else ({ s with ns := s.ns.assign x v, written := s.addWritten x, gone := s.replaced vals x v }, none)

/-- `setvar` without source: wrapping a pipeline fails an assertion (nestednamespace.py 167-169) after the dict has been
changed. -/
def setvarNoSource (vals : Vals V) (s : VH ν V) (x : ν) (v : V) : VH ν V × Option Exn :=
  if s.refuses x then (s, some .kill)
  else if vals.wrappable v then s.setvar vals x v
  else ({ s with ns := { s.ns with dict := s.ns.dict.set x v }, written := s.addWritten x,
                 gone := s.replaced vals x v }, some .crash)

/-- `setvar_import` (workspace.py 142-145). -/
def setvarImport (s : VH ν V) (x : ν) (v : V) : VH ν V × Option Exn :=
  if s.refuses x then (s, some .kill) else ({ s with ns := s.ns.assign x v }, none)

/-- `delvar` (workspace.py 147-157): `dict.pop` on the namespace, the scopes are not touched. -/
def delvar (vals : Vals V) (s : VH ν V) (x : ν) : VH ν V × Option Exn :=
  if s.refuses x then (s, some .kill)
  else match s.ns.dict.get? x with
    | none => (s, some .crash)
    | some v => ({ s with ns := { s.ns with dict := s.ns.dict.erase x }, written := s.written.filter (· != x),
                          gone := if vals.isRes v then v :: s.gone else s.gone }, none)

/-- `changes` (workspace.py 168-179). -/
def changes (s : VH ν V) : Dict ν V :=
  s.written.filterMap fun x => (s.ns.dict.get? x).map fun v => (x, v)

end VH

/-- What a command can do to variables; as `Prog` (Model/Namespace.lean), with imports told from assignments. -/
inductive VProg (ν V : Type) : Type
  | skip
  | set (x : ν) (e : Env ν V → V)
  | imp (x : ν) (e : Env ν V → V)
  | perm (x : ν) (e : Env ν V → V)
  | del (x : ν)
  | raise (e : Exn)
  | ite (c : Env ν V → Bool) (p q : VProg ν V)
  | seq (p q : VProg ν V)
  | guard (p : VProg ν V)
  | call (bs : List (ν × (Env ν V → V))) (p : VProg ν V)

/-- Execution; see `Prog.exec` for the pieces. -/
def VProg.exec (vals : Vals V) : VProg ν V → VH ν V → VH ν V × Option Exn
  | .skip, s => (s, none)
  | .set x e, s => s.setvar vals x (e s.ns.dict.get?)
  | .imp x e, s => s.setvarImport x (e s.ns.dict.get?)
  | .perm x e, s => ({ s with ns := s.ns.assignPermanent x (e s.ns.dict.get?) }, none)
  | .del x, s => s.delvar vals x
  | .raise e, s => (s, some e)
  | .ite c p q, s => if c s.ns.dict.get? then p.exec vals s else q.exec vals s
  | .seq p q, s =>
    match p.exec vals s with
    | (s', some e) => (s', some e)
    | (s', none) => q.exec vals s'
  | .guard p, s =>
    match p.exec vals s with
    | (s', some .kare) => (s', none)
    | r => r
  | .call bs p, s =>
    match s.ns.push vals.wrappable vals.none0 (Prog.evalArgs bs s.ns.dict.get?) with
    | (n1, some e) => ({ s with ns := n1 }, some e)
    | (n1, none) =>
      match p.exec vals { s with ns := n1 } with
      | (s2, e2) =>
        let e3 := if s2.ns.nScopes = n1.nScopes then e2 else some .crash
        match s2.ns.pop with
        | (n4, some e4) => ({ s2 with ns := n4 }, some e4)
        | (n4, none) => ({ s2 with ns := n4 }, e3)

/-- A session: commands one after the other, exceptions ending only the command (main.py 109-126). -/
def runCommands (vals : Vals V) : List (VProg ν V) → VH ν V → VH ν V
  | [], s => s
  | p :: ps, s => runCommands vals ps (p.exec vals s).1

/-- How values survive pickling: `EnvValue.to_persistent_state`, `restore`, `unwrap` (nestednamespace.py 83-109, 133-297). -/
structure Pickle (V W : Type) : Type where
  dump : V → W
  load : W → V

namespace Ws

/-- `to_persistent_state` (nestednamespace.py 438-443), what `Workspace.close` writes (workspace.py 270, 314-316,
444-448). With scopes left over it fails an assertion (315). -/
def save (pk : Pickle V W) (s : NS ν V) : Option (Dict ν W) :=
  match s.inner with
  | [] => some (s.top.map fun kv => (kv.1, pk.dump kv.2))
  | _ => none

/-- `from_persistent_state` (nestednamespace.py 445-452) on a namespace with one scope. -/
def restore (pk : Pickle V W) (saved : Dict ν W) (s : NS ν V) : NS ν V :=
  saved.foldl (fun s kw => ⟨s.dict.set kw.1 (pk.load kw.2), s.top.set kw.1 (pk.load kw.2), s.inner⟩) s

/-- `Workspace.open` (workspace.py 242-258) after locking: initial namespace (env.py 46-48, 139-159), then what the startup
script defines (250-252), then the persistent state. -/
def openNs (pk : Pickle V W) (initial config : Dict ν V) (saved : Dict ν W) : NS ν V :=
  restore pk saved ⟨(initial.update config), [], []⟩

/-- The environment after startup: `Environment.create` (env.py 249-268). Immutability is enforced only by the API (api.py 90);
the interactive shell and script execution (main.py 281-348) never call `enforce_var_immutability`. -/
def openVH (pk : Pickle V W) (apiUsage : Bool) (imm0 : List ν) (initial config : Dict ν V) (saved : Dict ν W) : VH ν V :=
  ⟨openNs pk initial config saved, imm0 ++ config.keys, apiUsage, [], []⟩

end Ws

namespace Job

/-- The child process of a job: `Environment` is pickled (env.py 102-106) and recreated (108-123): the workspace is opened
(the state on disk is what the parent started with) and the parent's persistent state put on top. Then the command is run
with `vars_written` cleared (core.py 241-243). -/
def child (vals : Vals V) (pk : Pickle V W) (imm0 : List ν) (initial config : Dict ν V) (disk : Dict ν W)
    (parentState : Dict ν W) (p : VProg ν V) : VH ν V × Option Exn :=
  p.exec vals { Ws.openVH pk false imm0 initial config disk with
    ns := Ws.restore pk parentState (Ws.openNs pk initial config disk), written := [] }

/-- The loop of `update_namespace` (main.py 251-252). -/
def applyChanges (vals : Vals V) : Dict ν V → VH ν V → VH ν V × Option Exn
  | [], s => (s, none)
  | (x, v) :: cs, s =>
    match s.setvarNoSource vals x v with
    | (s', some e) => (s', some e)
    | (s', none) => applyChanges vals cs s'

/-- `run_command_in_child` (job.py 63-84) and the parent's reaction (job.py 233-237): the changes are sent only if the command
ended without an exception. -/
def finish (vals : Vals V) (child : VH ν V × Option Exn) (parent : VH ν V) : VH ν V × Option Exn :=
  match child.2 with
  | some _ => (parent, none)
  | none => applyChanges vals child.1.changes parent

end Job

end Marcel
