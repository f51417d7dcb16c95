/-! # Model of workspaces on disk: creation, deletion, closing, and what is done at a start with damaged workspaces

`/repo/marcel/object/workspace.py` 34-57, 231-308, 328-340, 351-505, 562-676; `/repo/marcel/locations.py` 79-157; `/repo/marcel/persistence/persistence.py` 24-78;
`/repo/marcel/main.py` 135-160; `/repo/marcel/op/ws.py` 251-342.

The file system has two trees, `~/.config/marcel` and `~/.local/share/marcel`. Each call that changes the file system is one step, or two for writing a file (truncating and writing);
marcel may be killed before any step. `shutil.move` is a `rename`. One process acts: interleavings of several processes are the subject of `Model/WsLock.lean`.
Not modelled: permissions, symbolic links, workspace names with slashes, names `.` and `..`. -/

namespace Marcel.WsDisk

abbrev Text := List Char

/-- File names, by what the code does with them. -/
inductive Name
  | version                    -- VERSION
  | workspace
  | broken
  | default_                   -- __DEFAULT__
  | startup                    -- startup.py
  | marker                     -- .WORKSPACE
  | ownedBy (pid : Nat)        -- .WORKSPACE.<pid>
  | oddMarker (k : Nat)        -- other names starting with .WORKSPACE: what follows the last dot is not a number
  | env                        -- env.pickle
  | envOf (pid : Nat)          -- <pid>.env.pickle
  | dotEnv (k : Nat)           -- other names ending in .env.pickle: what precedes the first dot is not a number
  | oddEnv (pid : Option Nat) (k : Nat)  -- other names ending in env.pickle; `pid` is the number before the first dot, if it is one
  | properties                 -- properties.pickle
  | history
  | reservoirs
  | pickleOf (pid k : Nat)     -- <pid>.<name>.pickle
  | pickle (k : Nat)           -- other names ending in .pickle
  | user (k : Nat)             -- all others
deriving DecidableEq, Repr

/-- The two trees: locations.py 79-81, 109-111 -/
inductive Root | config | data
deriving DecidableEq, Repr

/-- A directory or a file with its contents. Simplification: no symbolic links, permissions. -/
inductive Node
  | dir
  | file (c : Text)
deriving DecidableEq, Repr

abbrev Path := List Name

/-- A file system: what there is at each path. -/
abbrev FS := Root → Path → Option Node

/-- One change of the file system. -/
def FS.set (fs : FS) (r : Root) (p : Path) (n : Option Node) : FS :=
  fun r' p' => if r' = r ∧ p' = p then n else fs r' p'

/-- What a call of the operating system, or a function, does: it returns, raises an exception, or marcel is killed. -/
inductive Res (α : Type)
  | ok (a : α) (fs : FS) (k : Option Nat)
  | raised (fs : FS)
  | crashed (fs : FS)

/-- A program. The second argument is the number of steps until marcel is killed, `none` if it isn't. -/
def Prog (α : Type) := FS → Option Nat → Res α

/-- Returning a value. -/
def Prog.pure {α : Type} (a : α) : Prog α := fun fs k => .ok a fs k

/-- One statement after the other. -/
def Prog.bind {α β : Type} (m : Prog α) (f : α → Prog β) : Prog β := fun fs k =>
  match m fs k with
  | .ok a fs' k' => f a fs' k'
  | .raised fs' => .raised fs'
  | .crashed fs' => .crashed fs'

instance : Monad Prog where
  pure := Prog.pure
  bind := Prog.bind

/-- An exception. -/
def fail {α : Type} : Prog α := fun fs _ => .raised fs

/-- Looking at the file system. -/
def get {α : Type} (f : FS → α) : Prog α := fun fs k => .ok (f fs) fs k

/-- An exception unless the condition holds. -/
def require (f : FS → Bool) : Prog Unit := fun fs k => if f fs then .ok () fs k else .raised fs

/-- One step that changes the file system, unless marcel is killed before it. -/
def change (f : FS → FS) : Prog Unit := fun fs k =>
  match k with
  | none => .ok () (f fs) none
  | some 0 => .crashed fs
  | some (k + 1) => .ok () (f fs) (some k)

/-- `if` on what the file system contains -/
def ifThen (c : FS → Bool) (m : Prog Unit) : Prog Unit := fun fs k => if c fs then m fs k else .ok () fs k

/-- A `for` loop. -/
def forEach {α : Type} (f : α → Prog Unit) : List α → Prog Unit
  | [] => pure ()
  | a :: as => do
    f a
    forEach f as

/-- `Path.is_dir` -/
def isDir (r : Root) (p : Path) (fs : FS) : Bool := fs r p = some .dir

/-- `Path.exists` -/
def has (r : Root) (p : Path) (fs : FS) : Bool := (fs r p).isSome

/-- `Path.mkdir` for a directory whose parent exists -/
def mkdir (r : Root) (p : Path) : Prog Unit := do
  require fun fs => !has r p fs && (p = [] || isDir r p.dropLast fs)
  change fun fs => fs.set r p (some .dir)

/-- `Locations.ensure_dir_exists` (locations.py 150-157) for one level -/
def ensureDir (r : Root) (p : Path) : Prog Unit := ifThen (fun fs => !isDir r p fs) (mkdir r p)

/-- `Path.touch(exist_ok=True)` -/
def touch (r : Root) (p : Path) : Prog Unit :=
  ifThen (fun fs => !has r p fs) do
    require (isDir r p.dropLast)
    change fun fs => fs.set r p (some (.file []))

/-- `open(path, 'w')`, `write`: the file is truncated first. -/
def writeFile (r : Root) (p : Path) (c : Text) : Prog Unit := do
  require fun fs => !isDir r p fs && isDir r p.dropLast fs
  change fun fs => fs.set r p (some (.file []))
  change fun fs => fs.set r p (some (.file c))

/-- `Path.unlink` -/
def unlink (r : Root) (p : Path) : Prog Unit := do
  require fun fs => has r p fs && !isDir r p fs
  change fun fs => fs.set r p none

/-- `Path.unlink(missing_ok=True)` -/
def unlinkIfThere (r : Root) (p : Path) : Prog Unit := ifThen (has r p) (unlink r p)

/-- `open(path).read()` -/
def readFile (r : Root) (p : Path) : Prog Text := fun fs k =>
  match fs r p with
  | some (.file c) => .ok c fs k
  | _ => .raised fs

/-- The path without the prefix. -/
def strip : Path → Path → Option Path
  | [], q => some q
  | _ :: _, [] => none
  | a :: p, b :: q => if a = b then strip p q else none

/-- `rename`: everything at or below `a` goes to `b`. -/
def FS.move (fs : FS) (r : Root) (a b : Path) : FS := fun r' q =>
  if r' = r then
    match strip b q with
    | some q' => fs r (a ++ q')
    | none => if (strip a q).isSome then none else fs r q
  else fs r' q

/-- The environment of the process: all names that occur in the file system, in the order in which directories are listed; its pid and that of its parent;
which processes are alive; the contents of new files; the time, as a file name. -/
structure Cfg where
  names : List Name
  pid : Nat
  ppid : Nat
  alive : Nat → Bool
  emptyEnv : Text
  newProps : Text
  now : Name

/-- `Path.iterdir` of a directory -/
def Cfg.children (c : Cfg) (r : Root) (p : Path) (fs : FS) : List Name := c.names.filter fun n => has r (p ++ [n]) fs

/-- `iterdir`: an exception unless it is a directory -/
def Cfg.iterdir (c : Cfg) (r : Root) (p : Path) : Prog (List Name) := do
  require (isDir r p)
  get (c.children r p)

/-- `Path.rmdir` -/
def Cfg.rmdir (c : Cfg) (r : Root) (p : Path) : Prog Unit := do
  require fun fs => isDir r p fs && (c.children r p fs).isEmpty
  change fun fs => fs.set r p none

/-- `os.rename` for a file -/
def renameFile (r : Root) (a b : Path) : Prog Unit := do
  require fun fs => has r a fs && !isDir r b fs
  change fun fs => (fs.set r b (fs r a)).set r a none

/-- `shutil.move` to an existing directory -/
def moveInto (r : Root) (a : Path) (last : Name) (b : Path) : Prog Unit := do
  require fun fs => isDir r b fs && !has r (b ++ [last]) fs && has r a fs
  change fun fs => fs.move r a (b ++ [last])

/-! ## Workspaces -/

/-- `Marker.exists` (workspace.py 44): names starting with .WORKSPACE -/
def isMarker : Name → Bool
  | .marker => true
  | .ownedBy _ => true
  | .oddMarker _ => true
  | _ => false

/-- locations.py 87-94 and 113-120, for a workspace object that has this name (`none`: the empty name) and is not the default one. -/
def wsDir : Option Name → Path
  | none => [.workspace]
  | some n => [.workspace, n]

/-- `Marker.exists` 40-46 -/
def Cfg.markerExists (c : Cfg) (n : Name) (fs : FS) : Bool :=
  has .config [.workspace, n] fs && (c.children .config [.workspace, n] fs).any isMarker

/-- `delete_abandoned_markers` 486-491 for one file; `marker_filename_pid` 502-505: an exception if there is no number. -/
def Cfg.sweepOne (c : Cfg) (n : Name) : Name → Prog Unit
  | .ownedBy pid => if c.alive pid then pure () else unlink .config [.workspace, n, .ownedBy pid]
  | .oddMarker _ => fail
  | _ => pure ()

/-- `delete_abandoned_markers` 486-491 -/
def Cfg.sweep (c : Cfg) (n : Name) : Prog Unit := do
  let l ← c.iterdir .config [.workspace, n]
  forEach (c.sweepOne n) l

/-- `owner` 451-469; the inner `none`: nobody. -/
def Cfg.owner (c : Cfg) (n : Name) : Prog (Option Nat) := do
  if ← get (has .config [.workspace, n, .marker]) then pure none
  else if ← get (fun fs => !has .config [.workspace, n] fs) then pure none
  else
    c.sweep n
    let l ← c.iterdir .config [.workspace, n]
    match l.filter isMarker with
    | [.ownedBy p] => pure (some p)
    | _ => fail

/-- `lock_workspace` 382-407 for a named workspace -/
def Cfg.lock (c : Cfg) (n : Name) : Prog Bool := do
  match ← c.owner n with
  | none => do
    renameFile .config [.workspace, n, .marker] [.workspace, n, .ownedBy c.pid]
    get (has .config [.workspace, n, .ownedBy c.pid])
  | some p =>
    if p = c.pid then pure true
    else if p = c.ppid then pure true
    else if c.alive p then pure false
    else do
      renameFile .config [.workspace, n, .ownedBy p] [.workspace, n, .ownedBy c.pid]
      get (has .config [.workspace, n, .ownedBy c.pid])

/-- `unlock_workspace` 409-422 -/
def Cfg.unlock (c : Cfg) (n : Name) : Prog Unit := do
  match ← c.owner n with
  | none => pure ()
  | some p =>
    if p = c.pid then renameFile .config [.workspace, n, .ownedBy c.pid] [.workspace, n, .marker]
    else fail

/-- `create_dir` 372-380, the parent being there (`Locations.config_ws`, `data_ws` create it). -/
def createDir (r : Root) (p : Path) : Prog Unit := ifThen (fun fs => !has r p fs) (mkdir r p)

/-- `create_on_disk` 353-370 for a named workspace -/
def Cfg.createOnDisk (c : Cfg) (n : Name) (initial : Text) : Prog Unit := do
  createDir .config [.workspace, n]
  writeFile .config [.workspace, n, .startup] initial
  touch .config [.workspace, n, .marker]
  createDir .data [.workspace, n]
  createDir .data [.workspace, n, .reservoirs]
  writeFile .data [.workspace, n, .env] c.emptyEnv
  writeFile .data [.workspace, n, .properties] c.newProps
  touch .data [.workspace, n, .history]

/-- `ws --new` (ws.py 264-283), `Workspace.create` 237-240 -/
def Cfg.wsNew (c : Cfg) (n : Name) : Prog Unit := do
  require fun fs => !c.markerExists n fs
  let initial ← readFile .config [.workspace, .default_, .startup]
  c.createOnDisk n initial

/-- `ws --delete` (ws.py 324-340; `current` is the name of the current workspace, `none` for the default one), `Workspace.delete` 285-308 -/
def Cfg.wsDelete (c : Cfg) (current : Option Name) (n : Name) : Prog Unit := do
  require fun _ => !(some n = current)
  require (c.markerExists n)
  let locked ← c.lock n
  require fun _ => locked
  unlink .config [.workspace, n, .ownedBy c.pid]
  unlinkIfThere .config [.workspace, n, .startup]
  c.rmdir .config [.workspace, n]
  unlinkIfThere .data [.workspace, n, .history]
  unlinkIfThere .data [.workspace, n, .properties]
  unlinkIfThere .data [.workspace, n, .env]
  let l ← c.iterdir .data [.workspace, n, .reservoirs]
  forEach (fun f => unlink .data [.workspace, n, .reservoirs, f]) l
  c.rmdir .data [.workspace, n, .reservoirs]
  c.rmdir .data [.workspace, n]

/-- `dill.Unpickler(file).load()`: an exception if the file is empty. The contents of files are otherwise taken to be what was written. -/
def readPickle (r : Root) (p : Path) : Prog Text := do
  let c ← readFile r p
  require fun _ => !c.isEmpty
  pure c

/-- `Workspace.open` 242-258, `read_properties` 424-430, `read_environment` 439-442, for a named workspace: what is read from the properties, the startup script and the environment. -/
def Cfg.wsOpen (c : Cfg) (n : Name) : Prog (Text × Text × Text) := do
  require (c.markerExists n)
  let locked ← c.lock n
  require fun _ => locked
  let p ← readPickle .data [.workspace, n, .properties]
  let s ← readFile .config [.workspace, n, .startup]
  let e ← readPickle .data [.workspace, n, .env]
  pure (p, s, e)

/-- `Workspace.close` 260-278, `write_properties` 432-437, `write_environment` 444-448, for a named workspace that the process has open, with what is to be saved. -/
def Cfg.wsClose (c : Cfg) (n : Name) (props env : Text) : Prog Unit := do
  let locked ← c.lock n
  require fun _ => locked
  writeFile .data [.workspace, n, .properties] props
  writeFile .data [.workspace, n, .env] env
  c.unlock n

/-- `ws --list` (ws.py 251-261), `Workspace.list` 328-340: the named workspaces. `read_properties` is called for each. -/
def Cfg.listEach (c : Cfg) (n : Name) : Prog Unit :=
  ifThen (fun fs => isDir .config [.workspace, n] fs && !(n = .default_) && c.markerExists n fs) do
    let _ ← readPickle .data [.workspace, n, .properties]
    pure ()

/-- `Workspace.list` 328-340 -/
def Cfg.wsList (c : Cfg) : Prog (List Name) := do
  let l ← c.iterdir .config [.workspace]
  forEach c.listEach l
  get fun fs => l.filter fun n => isDir .config [.workspace, n] fs && !(n = .default_) && c.markerExists n fs

/-! ## Validation at a start -/

/-- workspace.py 617-620, `file.name.endswith('env.pickle')`: files that may be in the data directory -/
def dataName : Name → Bool
  | .properties => true
  | .history => true
  | .reservoirs => true
  | .env => true
  | .envOf _ => true
  | .dotEnv _ => true
  | .oddEnv _ _ => true
  | _ => false

/-- `validate` 593-621, after the markers have been dealt with: one name for each error. `isDefault` is whether it is the default workspace; `e` is the name it reports. -/
def Cfg.errorsOf (c : Cfg) (isDefault : Bool) (n : Name) (e : Option Name) (fs : FS) : List (Option Name) :=
  (if has .config [.workspace, n, .startup] fs then [] else [e]) ++
  (if (c.children .config [.workspace, n] fs).length > 2 then [e] else []) ++
  (if has .data [.workspace, n] fs then
    (if isDefault || has .data [.workspace, n, .env] fs then [] else [e]) ++
    (if isDefault || has .data [.workspace, n, .properties] fs then [] else [e]) ++
    (if has .data [.workspace, n, .history] fs then [] else [e]) ++
    (if isDir .data [.workspace, n, .reservoirs] fs then [] else [e]) ++
    ((c.children .data [.workspace, n] fs).filter fun m => !dataName m).map fun _ => e
  else [e])

/-- `WorkspaceValidater.validate` 580-622. The listings raise an exception unless the directories are directories. -/
def Cfg.validateWs (c : Cfg) (isDefault : Bool) (n : Name) (e : Option Name) : Prog (List (Option Name)) := do
  c.sweep n
  ifThen (fun fs => !c.markerExists n fs) (touch .config [.workspace, n, .marker])
  require fun fs => isDir .config [.workspace, n] fs && (!has .data [.workspace, n] fs || isDir .data [.workspace, n] fs)
  get (c.errorsOf isDefault n e)

/-- workspace.py 649-660 `delete_abandoned`: whether the name ends in .env.pickle or .pickle, and the number before the first dot, if it is one -/
def dotEnvName : Name → Option (Option Nat)
  | .envOf p => some (some p)
  | .dotEnv _ => some none
  | _ => none

/-- The same for the reservoirs, `.pickle` (workspace.py 667) -/
def dotPickleName : Name → Option (Option Nat)
  | .envOf p => some (some p)
  | .pickleOf p _ => some (some p)
  | .env => some none
  | .dotEnv _ => some none
  | .oddEnv p _ => some p
  | .pickle _ => some none
  | .properties => some none
  | _ => none

/-- `delete_abandoned` 649-660 for one file. -/
def Cfg.abandonOne (c : Cfg) (kind : Name → Option (Option Nat)) (dir : Path) (m : Name) : Prog Unit :=
  match kind m with
  | some (some p) => if c.alive p then pure () else unlink .data (dir ++ [m])
  | _ => pure ()

/-- `delete_abandoned` 649-660: one error for each name without a number. -/
def Cfg.abandon (c : Cfg) (kind : Name → Option (Option Nat)) (dir : Path) : Prog (List (Option Name)) := do
  let l ← c.iterdir .data dir
  forEach (c.abandonOne kind dir) l
  pure ((l.filter fun m => kind m == some none).map fun _ => none)

/-- `WorkspaceDefaultValidater.validate` 648-668. The default workspace reports the empty name. -/
def Cfg.validateDefault (c : Cfg) : Prog (List (Option Name)) := do
  let e1 ← c.abandon dotEnvName [.workspace, .default_]
  let e2 ← c.abandon dotPickleName [.workspace, .default_, .reservoirs]
  let e3 ← c.validateWs true .default_ none
  pure (e1 ++ e2 ++ e3)

/-- `workspace_named` persistence.py 41-43; workspace.py 471-472, 540-541 -/
def Cfg.validate (c : Cfg) (n : Name) : Prog (List (Option Name)) :=
  if n = .default_ then c.validateDefault else c.validateWs false n (some n)

/-- persistence.py 70-72: only the directories that are in both trees -/
def Cfg.validateIf (c : Cfg) (both : Bool) (n : Name) : Prog (List (Option Name)) := if both then c.validate n else pure []

/-- persistence.py 69-76 -/
def Cfg.validateEach (c : Cfg) (both : Name → Bool) : List Name → Prog (List (Option Name))
  | [] => pure []
  | n :: ns => do
    let e ← c.validateIf (both n) n
    let es ← c.validateEach both ns
    pure (e ++ es)

/-- `mark_broken` 474-484 in one tree; locations.py 96-104, 122-130 (the target is created as a directory, so that `shutil.move` moves into it). -/
def Cfg.asideIn (c : Cfg) (r : Root) (w : Option Name) : Prog Unit := do
  ensureDir r [.workspace]
  ifThen (has r (wsDir w)) do
    ensureDir r [.broken]
    ensureDir r [.broken, c.now]
    match w with
    | none => moveInto r [.workspace] .workspace [.broken, c.now]
    | some n => do
      ensureDir r [.broken, c.now, n]
      moveInto r [.workspace, n] n [.broken, c.now, n]

/-- `mark_broken` 474-484 -/
def Cfg.markBroken (c : Cfg) (w : Option Name) : Prog Unit := do
  c.asideIn .config w
  c.asideIn .data w

/-- `validate_all` (persistence.py 24-78) with `handle_persistence_validation_errors` (main.py 135-160). The sets of names are in the order of `names`. -/
def Cfg.start (c : Cfg) : Prog Unit := do
  ensureDir .config []
  require fun fs => has .config [.version] fs && !isDir .config [.version] fs
  ensureDir .config [.workspace]
  ensureDir .config [.broken]
  ensureDir .data []
  ensureDir .data [.workspace]
  ensureDir .data [.broken]
  let cs ← get (c.children .config [.workspace])
  let ds ← get (c.children .data [.workspace])
  let es ← c.validateEach (fun n => ds.contains n) cs
  forEach c.markBroken ((cs.filter fun n => !ds.contains n).map some ++ (ds.filter fun n => !cs.contains n).map some ++ es)

/-- The file system a program leaves. -/
def Res.fs {α : Type} : Res α → FS
  | .ok _ fs _ => fs
  | .raised fs => fs
  | .crashed fs => fs

end Marcel.WsDisk
