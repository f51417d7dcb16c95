import Verif.Model.Storage

/-! # Specification: what an upgrade of the storage layout has to keep -/

namespace Marcel.Storage

/-- A place in the file system. -/
abbrev Place := Root × Path

/-- The moves an upgrade makes, one at a time: what was at (or below) the first place is at (or below) the second afterwards.
`~/.marcel.py` and `~/.marcel_history` go to the configuration and data directories, the files of the only workspace go to a directory
`__DEFAULT_WORKSPACE__`, each workspace directory goes to the directory `workspace`, and there `__DEFAULT_WORKSPACE__` becomes `__DEFAULT__`. -/
inductive Moves : Place → Place → Prop
  | startup (q : Path) : Moves (.home, .dotMarcel :: q) (.config, .startup :: q)
  | history (q : Path) : Moves (.home, .dotHistory :: q) (.data, .history :: q)
  | defaultConfig (n : Name) (q : Path) (h : n = .marker ∨ n = .startup) : Moves (.config, n :: q) (.config, .oldDefault :: n :: q)
  | defaultData (n : Name) (q : Path) (h : n = .history ∨ n = .reservoirs) : Moves (.data, n :: q) (.data, .oldDefault :: n :: q)
  | workspace (r : Root) (n : Name) (q : Path) (hr : r ≠ .home) (hn : n ≠ .workspace) : Moves (r, n :: q) (r, .workspace :: n :: q)
  | default_ (r : Root) (q : Path) (hr : r ≠ .home) : Moves (r, .workspace :: .oldDefault :: q) (r, .workspace :: .default_ :: q)

/-- Any number of moves. -/
inductive Later : Place → Place → Prop
  | refl (p : Place) : Later p p
  | step {p q r : Place} : Moves p q → Later q r → Later p r

/-- The files whose contents are not kept: the version file, the histories of workspaces (which are replaced because their format has
changed), the saved environment of this process in the default workspace, and a plain file in the place of the directory of the default workspace. -/
inductive Replaced (envs : Nat → Prop) : Place → Prop
  | version : Replaced envs (.config, [.version])
  | history (n : Name) : Replaced envs (.data, [.workspace, n, .history])
  | env (n : Nat) (h : envs n) : Replaced envs (.data, [.workspace, .default_, .user n])
  | notDir (r : Root) (hr : r ≠ .home) : Replaced envs (r, [.workspace, .default_])

/-- Every file is still there, with the same contents, at its old place or a later one, unless its contents are replaced by intention. -/
def Kept (envs : Nat → Prop) (fs fs' : FS) : Prop :=
  ∀ r p c, fs r p = some (.file c) →
    ∃ r' p', Later (r, p) (r', p') ∧ (Replaced envs (r', p') ∨ fs' r' p' = some (.file c))

/-- A file system is a tree: what is not at the top is in a directory. -/
def Tree (fs : FS) : Prop := ∀ r p n, (fs r (p ++ [n])).isSome → fs r p = some .dir

/-- The names that occur. -/
def Uses (U : Name → Prop) (fs : FS) : Prop := ∀ r p n, (fs r (p ++ [n])).isSome → U n

/-- The startup script, and the history, are not at their oldest place and at the next one at the same time. -/
def NoConflict (fs : FS) : Prop :=
  ¬((fs .home [.dotMarcel]).isSome ∧ (fs .config [.startup]).isSome) ∧
  ¬((fs .home [.dotHistory]).isSome ∧ (fs .data [.history]).isSome)

/-- The set of names includes the names that marcel uses. -/
def Closed (U : Name → Prop) : Prop := ∀ n, (∀ k, n ≠ .user k) → U n

/-- A start of marcel sees all names that occur, and the file with the environment is among those not kept. -/
structure StartOk (U : Name → Prop) (envs : Nat → Prop) (c : Cfg) : Prop where
  names : ∀ n, U n → n ∈ c.names
  env : envs c.envName
  envName : U (.user c.envName)

/-- A sequence of starts of marcel, each of them possibly interrupted after some number of steps. -/
def starts (fs : FS) (runs : List (Cfg × Option Nat)) : FS :=
  runs.foldl (fun fs x => (ensureCurrent x.1 fs x.2).fs) fs

/-! ## The upgrades -/

/-- From the oldest layout to XDG directories: where everything is afterwards. -/
def originalToXdg (fs : FS) : FS
  | .home, .dotMarcel :: _ => none
  | .home, .dotHistory :: _ => none
  | .config, [] => some .dir
  | .data, [] => some .dir
  | .config, .startup :: q => fs .home (.dotMarcel :: q)
  | .data, .history :: q => fs .home (.dotHistory :: q)
  | r, p => fs r p

/-- The first layout with workspaces has a marker and a directory for reservoirs. -/
def xdgToWs1 (fs : FS) : FS
  | .config, [.marker] => some (.file [])
  | .data, [.reservoirs] => some .dir
  | r, p => fs r p

/-- The default workspace has its own directory. -/
def ws1ToWs2 (fs : FS) : FS
  | .config, [.oldDefault] => some .dir
  | .config, .oldDefault :: n :: q => if n = .marker ∨ n = .startup then fs .config (n :: q) else none
  | .config, .marker :: _ => none
  | .config, .startup :: _ => none
  | .data, [.oldDefault] => some .dir
  | .data, .oldDefault :: n :: q => if n = .history ∨ n = .reservoirs then fs .data (n :: q) else none
  | .data, .history :: _ => none
  | .data, .reservoirs :: _ => none
  | r, p => fs r p

/-- Directories of workspaces are in the directory `workspace`, that of the default workspace is called `__DEFAULT__`, and there is a
directory for broken workspaces. Files that are not in a workspace stay where they are. -/
def ws2ToWs3 (fs : FS) : FS
  | .home, p => fs .home p
  | r, [] => fs r []
  | _, [.workspace] => some .dir
  | r, .workspace :: .default_ :: q => fs r (.oldDefault :: q)
  | _, .workspace :: .oldDefault :: _ => none
  | r, .workspace :: n :: q => if fs r [n] = some .dir then fs r (n :: q) else none
  | _, [.broken] => some .dir
  | r, n :: q => if fs r [n] = some .dir then none else fs r (n :: q)

/-- All histories are replaced. -/
def ws3ToPt (new : Text) (fs : FS) : FS
  | .data, [.workspace, n, .history] => if fs .data [.workspace, n] = some .dir then some (.file new) else none
  | r, p => fs r p

/-- The version file is written if it is out of date. -/
def withVersion (c : Cfg) (fs : FS) : FS :=
  if outdated c fs then fs.set .config [.version] (some (.file c.version)) else fs

/-- A time as it is written by `strftime('%Y-%m-%d %H:%M:%S.%f')`, in this millennium. -/
def IsTime (now : Text) : Prop :=
  ∃ y1 y2 y3 m1 m2 d1 d2 h1 h2 n1 n2 s1 s2 f : Char, ∃ fs : Text,
    now = ['2', y1, y2, y3, '-', m1, m2, '-', d1, d2, ' ', h1, h2, ':', n1, n2, ':', s1, s2, '.'] ++ (fs ++ [f]) ∧
    ∀ c ∈ [y1, y2, y3, m1, m2, d1, d2, h1, h2, n1, n2, s1, s2, f] ++ fs, c.isDigit

/-- The names that occur, and those that marcel uses, each once (the order in which directories are listed). -/
structure Lists (names : List Name) (fs : FS) : Prop where
  own : ∀ n, (∀ k, n ≠ .user k) → n ∈ names
  all : ∀ r p n, (fs r (p ++ [n])).isSome → n ∈ names
  nodup : names.Nodup

/-- The oldest layout (before 0.13.6): only the two files in the home directory. -/
structure IsOriginal (fs : FS) : Prop where
  tree : Tree fs
  startup : (fs .home [.dotMarcel]).isSome
  history : ∃ c, fs .home [.dotHistory] = some (.file c) ∧ looksPt c = some false
  config : ∀ p, p ≠ [] → fs .config p = none
  data : ∀ p, p ≠ [] → fs .data p = none
  roots : (fs .config [] = none ∧ (fs .data [] = none ∨ fs .data [] = some .dir)) ∨ (fs .data [] = none ∧ fs .config [] = some .dir)

/-- What the layouts from XDG to the first two layouts with workspaces have in common: nothing is called `workspace`, no directory
is called `__DEFAULT__`, no plain file is called `broken`, the version is a file. -/
structure IsOld (fs : FS) : Prop where
  tree : Tree fs
  config : fs .config [] = some .dir
  data : fs .data [] = some .dir
  workspace : ∀ r, r ≠ .home → fs r [.workspace] = none
  default_ : ∀ r, r ≠ .home → fs r [.default_] ≠ some .dir
  broken : ∀ r, r ≠ .home → ∀ c, fs r [.broken] ≠ some (.file c)
  version : fs .config [.version] ≠ some .dir

/-- XDG directories (before 0.20): startup script and history, no workspaces. -/
structure IsXdg (fs : FS) : Prop extends IsOld fs where
  marker : fs .config [.marker] = none
  startup : (fs .config [.startup]).isSome
  history : ∃ c, fs .data [.history] = some (.file c) ∧ looksPt c = some false
  reservoirs : fs .data [.reservoirs] = none ∨ fs .data [.reservoirs] = some .dir
  oldDefault : ∀ r, r ≠ .home → fs r [.oldDefault] = none
  histories : ∀ n, n ≠ .reservoirs → fs .data [n] = some .dir → ∃ c, fs .data [n, .history] = some (.file c)

/-- The first layout with workspaces (before 0.24): each named workspace has a directory with a history, the default workspace does not. -/
structure IsWs1 (fs : FS) : Prop extends IsOld fs where
  marker : (fs .config [.marker]).isSome
  startup : (fs .config [.startup]).isSome
  history : ∃ c, fs .data [.history] = some (.file c) ∧ looksPt c = some false
  reservoirs : fs .data [.reservoirs] = some .dir
  oldDefault : ∀ r, r ≠ .home → fs r [.oldDefault] = none
  histories : ∀ n, n ≠ .reservoirs → fs .data [n] = some .dir → ∃ c, fs .data [n, .history] = some (.file c)

/-- The next layout (before 0.28): the default workspace also has a directory. -/
structure IsWs2 (fs : FS) : Prop extends IsOld fs where
  oldDefault : ∀ r, r ≠ .home → fs r [.oldDefault] = some .dir
  history : ∃ c, fs .data [.oldDefault, .history] = some (.file c) ∧ looksPt c = some false
  histories : ∀ n, fs .data [n] = some .dir → ∃ c, fs .data [n, .history] = some (.file c)

/-- The next layout (before 0.32): the present one, but with histories in another format. -/
structure IsWs3 (fs : FS) : Prop where
  tree : Tree fs
  config : fs .config [.workspace, .default_] = some .dir
  data : fs .data [.workspace, .default_] = some .dir
  history : ∃ c, fs .data [.workspace, .default_, .history] = some (.file c) ∧ looksPt c = some false
  histories : ∀ n, fs .data [.workspace, n] = some .dir → ∃ c, fs .data [.workspace, n, .history] = some (.file c)
  version : fs .config [.version] ≠ some .dir

/-- The present layout. -/
structure IsPt (fs : FS) : Prop where
  tree : Tree fs
  config : fs .config [.workspace, .default_] = some .dir
  history : ∃ c, fs .data [.workspace, .default_, .history] = some (.file c) ∧ looksPt c = some true
  version : fs .config [.version] ≠ some .dir

/-- A file system with the given contents. -/
def FS.ofList (l : List (Root × Path × Node)) : FS := fun r p => (l.find? fun e => e.1 = r ∧ e.2.1 = p).map (·.2.2)

end Marcel.Storage
