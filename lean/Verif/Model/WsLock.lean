/-! # Model of workspace locking

`/repo/marcel/object/workspace.py` 34-58 (`Marker`), 242-310 (`open`, `close`, `delete`), 352-363 (`create_on_disk`), 382-420
(`lock_workspace`, `unlock_workspace`), 451-469 (`owner`), 486-491 (`delete_abandoned_markers`), 580-592 (`validate`);
`/repo/marcel/op/ws.py` 276-285, 300-313, 339-345; `/repo/marcel/util.py` 203-212 (`process_exists`).

The model has one workspace and any number of processes. Each call of the operating system (looking for a file,
listing a directory, renaming, removing or creating a marker, looking for a process) is one atomic step; steps of the
processes interleave in any order, and a process may die between any two steps. The files other than the markers are
not modelled. Not modelled: reuse of process ids; directory listings that are not atomic; moving damaged workspaces
(`mark_broken`).

Where the code raises an exception, the attempt ends (`fail`): the exceptions here are caught by the callers
(main.py 75-78, 285-292) and the process goes on without having opened (or closed) the workspace. -/

namespace Marcel.WsLock

abbrev Pid := Nat

/-- A marker file: `.WORKSPACE` (`none`) or `.WORKSPACE.pid`. workspace.py 34-55 -/
abbrev Marker := Option Pid

/-- Why `owner` is called: in `lock_workspace` called by `open`, `close` or `delete`, or in `unlock_workspace`. -/
inductive Goal | opening | closing | deleting | unlocking
deriving DecidableEq, Repr

/-- What follows the removal of abandoned markers: the rest of `owner`, or of `validate`. -/
inductive Cont
  | owner (g : Goal)
  | validate
deriving DecidableEq, Repr

/-- Where a process is. Each constructor is named after what the process does next. -/
inductive PC
  | idle
  | exists_ (g : Goal)                          -- 243, 286
  | checkUnowned (g : Goal)                     -- 454
  | checkDir (g : Goal)                         -- 456
  | sweepList (k : Cont)                        -- 487
  | sweep (k : Cont) (todo : List Pid)          -- 488-490
  | unlink (k : Cont) (r : Pid) (todo : List Pid)  -- 491
  | list (g : Goal)                             -- 461-469
  | owner (g : Goal) (r : Pid)                  -- 391-399
  | steal (g : Goal) (r : Pid)                  -- 403-405
  | rename (g : Goal)                           -- 389
  | confirm (g : Goal)                          -- 390, 407
  | unlock                                      -- 417-418
  | deleteMarker                                -- 290-292
  | rmdir                                       -- 295
  | validateExists                              -- 589
  | createExists                                -- 238, ws.py 279
  | mkdir                                       -- 355
  | touch                                       -- 58, 359, 592
deriving DecidableEq, Repr

/-- The workspace's configuration directory with its markers, and the processes. `holds p`: process `p` has the
workspace open (or is deleting it). -/
structure Sys where
  dir : Bool
  files : List Marker
  alive : Pid → Bool
  pc : Pid → PC
  holds : Pid → Bool

/-- What a process can start doing (workspace.py 242, 259, 285, 232; 580), and its death. -/
inductive Ev
  | open_ (p : Pid) | close (p : Pid) | delete (p : Pid) | create (p : Pid) | validate (p : Pid)
  | act (p : Pid)
  | crash (p : Pid)
deriving DecidableEq, Repr

def upd {α : Type} (f : Pid → α) (p : Pid) (v : α) : Pid → α := fun q => if q = p then v else f q

def Sys.goto (s : Sys) (p : Pid) (c : PC) : Sys := { s with pc := upd s.pc p c }
def Sys.setHolds (s : Sys) (p : Pid) (b : Bool) : Sys := { s with holds := upd s.holds p b }
def Sys.setFiles (s : Sys) (fs : List Marker) : Sys := { s with files := fs }

/-- An exception, or `cannot_lock_workspace`: the attempt is over. After a failed `close`, the process does not use the
workspace any more (main.py 75-78 ignores the exception). -/
def Sys.fail (s : Sys) (p : Pid) : Sys := (s.setHolds p false).goto p .idle

/-- `lock_workspace` returned `True`. 245, 262, 287 -/
def Sys.locked (s : Sys) (p : Pid) : Goal → Sys
  | .opening => (s.setHolds p true).goto p .idle
  | .closing => s.goto p (.checkUnowned .unlocking)
  | .deleting => (s.setHolds p true).goto p .deleteMarker
  | .unlocking => s.fail p

/-- `owner` returned `None`. 384-389, 412-414 -/
def Sys.noOwner (s : Sys) (p : Pid) : Goal → Sys
  | .unlocking => s.fail p
  | g => s.goto p (.rename g)

/-- `rename(a, b)`: replaces `b` if it exists; the caller has checked that `a` exists. -/
def renameFile (fs : List Marker) (a b : Marker) : List Marker := b :: (fs.erase a).erase b

/-- After the removal of abandoned markers. -/
def Sys.swept (s : Sys) (p : Pid) : Cont → Sys
  | .owner g => s.goto p (.list g)
  | .validate => s.goto p .validateExists

/-- An exception in the removal of abandoned markers. (`validate` is called when the process starts or changes
workspace, and does not give up the workspace.) -/
def Sys.sweepFail (s : Sys) (p : Pid) : Cont → Sys
  | .owner _ => s.fail p
  | .validate => s.goto p .idle

/-- The pids in the names of the owned markers. 487-489 -/
def owners (fs : List Marker) : List Pid := fs.filterMap id

/-- The next step of process `p`. `parent p` is the parent process (`locations.ppid`). -/
def Sys.act (parent : Pid → Pid) (s : Sys) (p : Pid) : Sys :=
  match s.pc p with
  | .idle => s
  | .exists_ g => if s.files.isEmpty then s.fail p else s.goto p (.checkUnowned g)
  | .checkUnowned g => if s.files.contains none then s.noOwner p g else s.goto p (.checkDir g)
  | .checkDir g => if s.dir then s.goto p (.sweepList (.owner g)) else s.noOwner p g
  | .sweepList k => if s.dir then s.goto p (.sweep k (owners s.files)) else s.sweepFail p k
  | .sweep k [] => s.swept p k
  | .sweep k (r :: todo) => if s.alive r then s.goto p (.sweep k todo) else s.goto p (.unlink k r todo)
  | .unlink k r todo =>
    if s.files.contains (some r) then (s.setFiles (s.files.erase (some r))).goto p (.sweep k todo)
    else s.sweepFail p k
  | .list g =>
    match s.files with
    | [some r] => s.goto p (.owner g r)
    | _ => s.fail p
  | .owner g r =>
    if g = .unlocking then
      if r = p then s.goto p .unlock else s.fail p
    else if r = p then s.locked p g
    else if r = parent p then s.locked p g
    else if s.alive r then s.fail p
    else s.goto p (.steal g r)
  | .steal g r =>
    if s.files.contains (some r) then (s.setFiles (renameFile s.files (some r) (some p))).goto p (.confirm g)
    else s.fail p
  | .rename g =>
    if s.files.contains none then (s.setFiles (renameFile s.files none (some p))).goto p (.confirm g)
    else s.fail p
  | .confirm g => if s.files.contains (some p) then s.locked p g else s.fail p
  | .unlock =>
    if s.files.contains (some p) then (s.setFiles (renameFile s.files (some p) none)).fail p
    else s.fail p
  | .deleteMarker =>
    if s.files.contains (some p) then ((s.setFiles (s.files.erase (some p))).setHolds p false).goto p .rmdir
    else s.fail p
  | .rmdir => if s.files.isEmpty then { s.fail p with dir := false } else s.fail p
  | .validateExists => if s.files.isEmpty then s.goto p .touch else s.goto p .idle
  | .createExists => if s.files.isEmpty then s.goto p .mkdir else s.goto p .idle
  | .mkdir => { s.goto p .touch with dir := true }
  | .touch =>
    if s.dir then (s.setFiles (if s.files.contains none then s.files else none :: s.files)).goto p .idle
    else s.goto p .idle

/-- One event. `none`: it cannot happen in this state. -/
def Sys.step (parent : Pid → Pid) (s : Sys) : Ev → Option Sys
  | .open_ p => if s.alive p && s.pc p = .idle && !s.holds p then some (s.goto p (.exists_ .opening)) else none
  | .close p => if s.alive p && s.pc p = .idle && s.holds p then some (s.goto p (.checkUnowned .closing)) else none
  | .delete p => if s.alive p && s.pc p = .idle && !s.holds p then some (s.goto p (.exists_ .deleting)) else none
  | .create p => if s.alive p && s.pc p = .idle && !s.holds p then some (s.goto p .createExists) else none
  | .validate p => if s.alive p && s.pc p = .idle then some (s.goto p (.sweepList .validate)) else none
  | .act p => if s.alive p && s.pc p ≠ .idle then some (s.act parent p) else none
  | .crash p => if s.alive p then some { (s.fail p) with alive := upd s.alive p false } else none

/-- A workspace that nobody has open. -/
def Sys.init : Sys := ⟨true, [none], fun _ => true, fun _ => .idle, fun _ => false⟩

/-- A sequence of events. -/
def Sys.exec (parent : Pid → Pid) (s : Sys) : List Ev → Option Sys
  | [] => some s
  | e :: es =>
    match s.step parent e with
    | some s' => s'.exec parent es
    | none => none

end Marcel.WsLock
