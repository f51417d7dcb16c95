/-! # Model of the storage layouts and their migration

`/repo/marcel/persistence/storagelayout.py` 32-311, with the parts of `/repo/marcel/locations.py` 84-153, 166-174 and
`/repo/marcel/object/workspace.py` 57-58, 353-382, 444-448 that `ensure_current` uses.

The file system has three trees: the home directory (only `.marcel.py` and `.marcel_history` matter), `~/.config/marcel` and
`~/.local/share/marcel`; these are different and not nested. Each call that changes the file system is one step, or two for
writing a file (truncating and writing); marcel may be interrupted (killed) before any step. `shutil.move` is a `rename`: both
places are on the same device. Not modelled: permissions, symbolic links, and changes made by others meanwhile. -/

namespace Marcel.Storage

abbrev Text := List Char

/-- The names that occur in the code; all others are `user`. -/
inductive Name
  | dotMarcel        -- .marcel.py
  | dotHistory       -- .marcel_history
  | startup          -- startup.py
  | marker           -- .WORKSPACE
  | history
  | reservoirs
  | oldDefault       -- __DEFAULT_WORKSPACE__
  | default_         -- __DEFAULT__
  | workspace
  | broken
  | version          -- VERSION
  | user (n : Nat)
deriving DecidableEq, Repr

inductive Root | home | config | data
deriving DecidableEq, Repr

inductive Node
  | dir
  | file (c : Text)
deriving DecidableEq, Repr

abbrev Path := List Name

/-- A file system: what there is at each path. -/
abbrev FS := Root → Path → Option Node

def FS.set (fs : FS) (r : Root) (p : Path) (n : Option Node) : FS :=
  fun r' p' => if r' = r ∧ p' = p then n else fs r' p'

/-- What a call of the operating system, or a function, does: it returns, raises an exception, or marcel is interrupted. -/
inductive Res (α : Type)
  | ok (a : α) (fs : FS) (k : Option Nat)
  | raised (fs : FS)
  | crashed (fs : FS)

/-- A program. The second argument is the number of steps until the interruption, `none` if there is none. -/
def Prog (α : Type) := FS → Option Nat → Res α

def Prog.pure {α : Type} (a : α) : Prog α := fun fs k => .ok a fs k

def Prog.bind {α β : Type} (m : Prog α) (f : α → Prog β) : Prog β := fun fs k =>
  match m fs k with
  | .ok a fs' k' => f a fs' k'
  | .raised fs' => .raised fs'
  | .crashed fs' => .crashed fs'

instance : Monad Prog where
  pure := Prog.pure
  bind := Prog.bind

/-- An exception. -/
def fail {α : Type} : Prog α := fun fs _ => .raised fs

/-- Looking at the file system. -/
def get {α : Type} (f : FS → α) : Prog α := fun fs k => .ok (f fs) fs k

/-- One step that changes the file system, unless marcel is interrupted before it. -/
def change (f : FS → FS) : Prog Unit := fun fs k =>
  match k with
  | none => .ok () (f fs) none
  | some 0 => .crashed fs
  | some (k + 1) => .ok () (f fs) (some k)

/-- `Path.is_dir` -/
def isDir (r : Root) (p : Path) (fs : FS) : Bool := fs r p = some .dir

/-- `Path.exists` -/
def has (r : Root) (p : Path) (fs : FS) : Bool := (fs r p).isSome

/-- `Path.mkdir()` for a directory whose parent exists; `parents` is only needed for the roots, whose parents are not modelled. -/
def mkdir (r : Root) (p : Path) : Prog Unit := do
  if ← get (has r p) then fail
  else if ← get (fun fs => p = [] || isDir r p.dropLast fs) then change fun fs => fs.set r p (some .dir)
  else fail

/-- `Path.mkdir(exist_ok=True)`, and `Locations.ensure_dir_exists` (locations.py 150-157). -/
def ensureDir (r : Root) (p : Path) : Prog Unit := do
  if ← get (isDir r p) then pure () else mkdir r p

/-- `Path.mkdir(parents=True, exist_ok=True)`, `p` from the root. -/
def ensureDirs (r : Root) (p : Path) : Path → Prog Unit
  | [] => ensureDir r p
  | n :: q => do
    ensureDir r p
    ensureDirs r (p ++ [n]) q

/-- `Workspace.create_dir` (workspace.py 374-382) -/
def createDir (r : Root) (p : Path) : Prog Unit := do
  if ← get (has r p) then pure () else ensureDirs r [] p

/-- `Path.touch` -/
def touch (r : Root) (p : Path) : Prog Unit := do
  if ← get (has r p) then pure ()
  else if ← get (isDir r p.dropLast) then change fun fs => fs.set r p (some (.file []))
  else fail

/-- `open(path, 'w')`, `write`: the file is truncated first. -/
def writeFile (r : Root) (p : Path) (c : Text) : Prog Unit := do
  if ← get (isDir r p) then fail
  else if ← get (isDir r p.dropLast) then
    change fun fs => fs.set r p (some (.file []))
    change fun fs => fs.set r p (some (.file c))
  else fail

/-- `Path.unlink` -/
def unlink (r : Root) (p : Path) : Prog Unit := do
  if ← get (fun fs => has r p fs && !isDir r p fs) then change fun fs => fs.set r p none else fail

/-- The path without the prefix. -/
def strip : Path → Path → Option Path
  | [], q => some q
  | _ :: _, [] => none
  | a :: p, b :: q => if a = b then strip p q else none

/-- `rename`: everything at or below `a` goes to `b`. -/
def FS.move (fs : FS) (ra : Root) (a : Path) (rb : Root) (b : Path) : FS := fun r q =>
  match (if r = rb then strip b q else none) with
  | some q' => fs ra (a ++ q')
  | none => if r = ra ∧ (strip a q).isSome then none else fs r q

/-- Nothing is below `p`: an empty directory. -/
def emptyDir (names : List Name) (r : Root) (p : Path) (fs : FS) : Bool :=
  isDir r p fs && names.all fun n => (fs r (p ++ [n])).isNone

/-- `os.rename`. The target may be a file, if the source is one, or an empty directory, if the source is one. A directory cannot be
moved into itself. `names` are all names that occur in the file system. -/
def rename (names : List Name) (ra : Root) (a : Path) (rb : Root) (b : Path) : Prog Unit := do
  if ← get (fun fs =>
      has ra a fs && !(ra = rb && (strip a b).isSome) && isDir rb b.dropLast fs &&
        (!has rb b fs || (isDir ra a fs && emptyDir names rb b fs) || (!isDir ra a fs && !isDir rb b fs)))
  then change fun fs => fs.move ra a rb b
  else fail

/-- `shutil.move`: into the target, if that is a directory. -/
def shMove (names : List Name) (ra : Root) (a : Path) (rb : Root) (b : Path) : Prog Unit := do
  if ← get (isDir rb b) then
    if ← get (has rb (b ++ a.getLast?.toList)) then fail else rename names ra a rb (b ++ a.getLast?.toList)
  else rename names ra a rb b

inductive Layout | original | xdg | ws1 | ws2 | ws3 | pt
deriving DecidableEq, Repr

/-- The first two lines of a text, without the line ends. -/
def line (t : Text) : Text := t.takeWhile (· ≠ '\n')
def afterLine (t : Text) : Text := (t.dropWhile (· ≠ '\n')).drop 1

/-- `str.strip` -/
def stripText (t : Text) : Text :=
  ((t.dropWhile fun c => c.isWhitespace).reverse.dropWhile fun c => c.isWhitespace).reverse

/-- The characters tested, one after the other. `none`: IndexError. -/
def checkAt (l : Text) : List (Nat × Char) → Option Bool
  | [] => some true
  | (i, c) :: rest =>
    match l[i]? with
    | none => none
    | some d => if d = c then checkAt l rest else some false

/-- storagelayout.py 301-310. `none`: IndexError. -/
def looksPt (t : Text) : Option Bool :=
  let l1 := stripText (line t)
  let l2 := stripText (line (afterLine t))
  if l1.length = 0 ∧ l2.length > 0 ∧ l2.take 3 = ['#', ' ', '2'] then
    checkAt l2 [(6, '-'), (9, '-'), (12, ' '), (15, ':'), (18, ':'), (21, '.')]
  else some false

/-- `StorageLayoutPromptToolkit.match` 287-311. `none`: an exception. -/
def matchPt (fs : FS) : Option Bool :=
  if has .config [] fs && has .config [.workspace] fs && has .config [.workspace, .default_] fs then
    match fs .data [.workspace, .default_, .history] with
    | some (.file c) => looksPt c
    | some .dir => none
    | none => some false
  else some false

/-- The other `match` methods: 269-273, 238-241, 196-198, 171-173, 150-152. -/
def matchWs3 (fs : FS) : Bool := has .config [] fs && has .config [.workspace] fs && has .config [.workspace, .default_] fs
def matchWs2 (fs : FS) : Bool := has .config [] fs && has .config [.oldDefault] fs
def matchWs1 (fs : FS) : Bool := has .config [] fs && has .config [.marker] fs
def matchXdg (fs : FS) : Bool := has .config [] fs && has .data [] fs
def matchOriginal (fs : FS) : Bool := has .home [.dotMarcel] fs && has .home [.dotHistory] fs

/-- `storage_layout` 32-44. The outer `none`: an exception. -/
def layoutOf (fs : FS) : Option (Option Layout) :=
  match matchPt fs with
  | none => none
  | some true => some (some .pt)
  | some false =>
    some <|
      if matchWs3 fs then some .ws3
      else if matchWs2 fs then some .ws2
      else if matchWs1 fs then some .ws1
      else if matchXdg fs then some .xdg
      else if matchOriginal fs then some .original
      else none

/-- The assertions after each migration: the layout must be the next one. -/
def expect (l : Layout) : Prog Unit := do
  if (← get layoutOf) = some (some l) then pure () else fail

/-- `StorageLayoutOriginal.migrate` 140-148 -/
def migrateOriginal (names : List Name) : Prog Unit := do
  ensureDir .config []
  ensureDir .data []
  shMove names .home [.dotMarcel] .config [.startup]
  shMove names .home [.dotHistory] .data [.history]
  expect .xdg

/-- `StorageLayoutXDG.migrate` 162-168 -/
def migrateXdg : Prog Unit := do
  touch .config [.marker]
  ensureDir .data [.reservoirs]
  expect .ws1

/-- `fix_default_workspace` 182-186 -/
def fixDefault (names : List Name) (r : Root) (files : List Name) : Prog Unit := do
  ensureDirs r [] [.oldDefault]
  files.forM fun n => shMove names r [n] r [.oldDefault]

/-- `StorageLayoutWS1.migrate` 181-194 -/
def migrateWs1 (names : List Name) : Prog Unit := do
  fixDefault names .config [.marker, .startup]
  fixDefault names .data [.history, .reservoirs]
  expect .ws2

/-- `StorageLayout.subdirs` 121-126. The order in which a directory is listed is that of `names`. -/
def subdirs (names : List Name) (r : Root) (p : Path) : Prog (List Name) := do
  if ← get (isDir r p) then get fun fs => names.filter fun n => isDir r (p ++ [n]) fs else fail

/-- `move_workspace_dirs` 208-217 -/
def moveWorkspace (names : List Name) (r : Root) (n : Name) : Prog Unit :=
  if n = .workspace then pure ()
  else do
    shMove names r [n] r [.workspace]
    if ← get (fun fs => has r [.workspace, n] fs && !has r [n] fs) then pure () else fail

/-- `fix_dirs` 219-231 -/
def fixDirs (names : List Name) (r : Root) : Prog Unit := do
  ensureDirs r [] [.workspace]
  (← subdirs names r []).forM (moveWorkspace names r)
  rename names r [.workspace, .oldDefault] r [.workspace, .default_]
  mkdir r [.broken]

/-- `StorageLayoutWS2.migrate` 207-238 -/
def migrateWs2 (names : List Name) : Prog Unit := do
  fixDirs names .config
  fixDirs names .data
  expect .ws3

/-- The history that replaces an old one (258-262); `now` is the time, `text` the message. -/
def newHistory (now text : Text) : Text := '\n' :: '#' :: ' ' :: (now ++ '\n' :: text)

/-- 254-262 -/
def resetHistory (now text : Text) (n : Name) : Prog Unit := do
  unlink .data [.workspace, n, .history]
  writeFile .data [.workspace, n, .history] (newHistory now text)

/-- `StorageLayoutWS3.migrate` 250-266 -/
def migrateWs3 (names : List Name) (now text : Text) : Prog Unit := do
  (← subdirs names .data [.workspace]).forM (resetHistory now text)
  expect .pt

/-- The loop 82-88, from each layout on. (As each `migrate` asserts which layout it arrives at, the loop is the sequence of the migrations.) -/
def fromWs3 (names : List Name) (now text : Text) : Prog Unit := migrateWs3 names now text
def fromWs2 (names : List Name) (now text : Text) : Prog Unit := do
  migrateWs2 names
  fromWs3 names now text
def fromWs1 (names : List Name) (now text : Text) : Prog Unit := do
  migrateWs1 names
  fromWs2 names now text
def fromXdg (names : List Name) (now text : Text) : Prog Unit := do
  migrateXdg
  fromWs1 names now text
def fromOriginal (names : List Name) (now text : Text) : Prog Unit := do
  migrateOriginal names
  fromXdg names now text

/-- What does not depend on the file system: the names that occur, the time and message of the new histories, the running version and whether it is newer
than an installed one, the initial startup script, the name and contents of the file with the environment. -/
structure Cfg where
  names : List Name
  now : Text
  text : Text
  version : Text
  older : Text → Bool
  initial : Text
  envName : Nat
  env : Text

def migrateFrom (c : Cfg) : Layout → Prog Unit
  | .pt => pure ()
  | .ws3 => fromWs3 c.names c.now c.text
  | .ws2 => fromWs2 c.names c.now c.text
  | .ws1 => fromWs1 c.names c.now c.text
  | .xdg => fromXdg c.names c.now c.text
  | .original => fromOriginal c.names c.now c.text

/-- `write_version` 48-53 -/
def writeVersion (c : Cfg) : Prog Unit := do
  ensureDir .config []
  touch .config [.version]
  writeFile .config [.version] c.version

/-- `initialize_persistent_config_and_data` 64-75 and `Workspace.create_on_disk` (workspace.py 353-372) for the default workspace. -/
def initLayout (c : Cfg) : Prog Unit := do
  ensureDir .config []
  ensureDirs .config [] [.workspace]
  ensureDirs .config [] [.broken]
  ensureDir .data []
  ensureDirs .data [] [.workspace]
  ensureDirs .data [] [.broken]
  writeVersion c
  createDir .config [.workspace, .default_]
  writeFile .config [.workspace, .default_, .startup] c.initial
  touch .config [.workspace, .default_, .marker]
  createDir .data [.workspace, .default_]
  createDir .data [.workspace, .default_, .reservoirs]
  writeFile .data [.workspace, .default_, .user c.envName] c.env
  touch .data [.workspace, .default_, .history]

/-- 55-62: whether the version file is out of date. -/
def outdated (c : Cfg) (fs : FS) : Bool :=
  match fs .config [.version] with
  | some (.file v) => c.older v
  | _ => c.older "0.0.0".toList

/-- `ensure_current` 47-93, at the start of marcel. -/
def ensureCurrent (c : Cfg) : Prog Unit := do
  match ← get layoutOf with
  | none => fail
  | some none => initLayout c
  | some (some l) => migrateFrom c l
  ensureDir .config []
  if ← get (outdated c) then writeVersion c else pure ()

/-- The file system a program leaves. -/
def Res.fs {α : Type} : Res α → FS
  | .ok _ fs _ => fs
  | .raised fs => fs
  | .crashed fs => fs

/-- Whether it returned. -/
def Res.isOk {α : Type} : Res α → Bool
  | .ok _ _ _ => true
  | _ => false

end Marcel.Storage
