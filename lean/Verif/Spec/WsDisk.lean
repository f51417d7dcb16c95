import Verif.Model.WsDisk

/-! # Specification: sound workspaces, and what a start may do to the stored files -/

namespace Marcel.WsDisk

/-- The marker of a workspace that nobody uses, or of a process that is alive. -/
def Live (c : Cfg) (m : Name) : Prop := m = .marker ∨ ∃ p, m = .ownedBy p ∧ c.alive p = true

/-- Names ending in `env.pickle`. -/
def EnvPickle (m : Name) : Prop := m = .env ∨ (∃ p, m = .envOf p) ∨ (∃ k, m = .dotEnv k) ∨ ∃ p k, m = .oddEnv p k

/-- What may be in the data directory of a workspace. -/
def DataFile (m : Name) : Prop := m = .properties ∨ m = .history ∨ m = .reservoirs ∨ EnvPickle m

/-- A sound workspace: everything is there that belongs there, and nothing else; at most one marker, not counting those of dead processes. -/
structure Sound (c : Cfg) (n : Name) (fs : FS) : Prop where
  configDir : fs .config [.workspace, n] = some .dir
  startup : fs .config [.workspace, n, .startup] ≠ none
  configOnly : ∀ m, fs .config [.workspace, n, m] ≠ none → m = .startup ∨ m = .marker ∨ ∃ p, m = .ownedBy p
  oneMarker : ∀ m m', Live c m → Live c m' → fs .config [.workspace, n, m] ≠ none → fs .config [.workspace, n, m'] ≠ none → m = m'
  dataDir : fs .data [.workspace, n] = some .dir
  env : fs .data [.workspace, n, .env] ≠ none
  properties : fs .data [.workspace, n, .properties] ≠ none
  history : fs .data [.workspace, n, .history] ≠ none
  reservoirs : fs .data [.workspace, n, .reservoirs] = some .dir
  dataOnly : ∀ m, fs .data [.workspace, n, m] ≠ none → DataFile m

/-- Files of the default workspace that belong to a process. -/
def OfProcess (m : Name) : Prop := (∃ p, m = .envOf p) ∨ (∃ p k, m = .pickleOf p k) ∨ ∃ p k, m = .oddEnv (some p) k

/-- A sound default workspace. -/
structure SoundDefault (fs : FS) : Prop where
  configDir : fs .config [.workspace, .default_] = some .dir
  startup : fs .config [.workspace, .default_, .startup] ≠ none
  configOnly : ∀ m, fs .config [.workspace, .default_, m] ≠ none → m = .startup ∨ m = .marker
  dataDir : fs .data [.workspace, .default_] = some .dir
  history : fs .data [.workspace, .default_, .history] ≠ none
  reservoirs : fs .data [.workspace, .default_, .reservoirs] = some .dir
  dataOnly : ∀ m, fs .data [.workspace, .default_, m] ≠ none → DataFile m ∧ ∀ k, m ≠ .dotEnv k
  pickles : ∀ m, fs .data [.workspace, .default_, .reservoirs, m] ≠ none → OfProcess m ∨ dotPickleName m = none
  envFiles : ∀ p, fs .data [.workspace, .default_, .envOf p] ≠ some .dir
  reservoirFiles : ∀ m, fs .data [.workspace, .default_, .reservoirs, m] ≠ some .dir

/-- A file system in which the default workspace is sound. Others may be damaged in any way, except that a name that is there in both trees is that of directories (a file in
both trees makes marcel fail, see `C64_false_file`), and that each marker of a workspace has a pid (see `C64_false_marker`) and is a file. -/
structure Healthy (fs : FS) : Prop where
  tree : ∀ r p n, fs r (p ++ [n]) ≠ none → fs r p = some .dir
  version : ∃ t, fs .config [.version] = some (.file t)
  workspaces : ∀ r, fs r [.workspace] = some .dir
  brokens : ∀ r, fs r [.broken] = some .dir
  both : ∀ n, fs .config [.workspace, n] ≠ none → fs .data [.workspace, n] ≠ none →
    fs .config [.workspace, n] = some .dir ∧ fs .data [.workspace, n] = some .dir ∧ ∀ k, fs .config [.workspace, n, .oddMarker k] = none
  markerFiles : ∀ n p, fs .config [.workspace, n, .ownedBy p] ≠ some .dir
  default_ : SoundDefault fs

/-- The names are those of the file system; the time has not been used before. -/
structure Fits (c : Cfg) (fs : FS) : Prop where
  covers : ∀ r p n, fs r (p ++ [n]) ≠ none → n ∈ c.names
  marker : .marker ∈ c.names
  nodup : c.names.Nodup
  fresh : ∀ r, fs r [.broken, c.now] = none

/-- Files that may come and go: markers, and what belongs to processes in the default workspace. -/
def Transient (r : Root) (p : Path) : Prop :=
  (r = .config ∧ ∃ n m, (m = .marker ∨ ∃ p, m = .ownedBy p) ∧ p = [.workspace, n, m]) ∨
  (r = .data ∧ ∃ m, OfProcess m ∧ (p = [.workspace, .default_, m] ∨ p = [.workspace, .default_, .reservoirs, m]))

/-- What a start is to do. -/
structure Started (c : Cfg) (fs fs' : FS) : Prop where
  /-- The default workspace and the sound ones are as before. -/
  kept : ∀ n, n = .default_ ∨ Sound c n fs → ∀ r q, ¬ Transient r (.workspace :: n :: q) → fs' r (.workspace :: n :: q) = fs r (.workspace :: n :: q)
  /-- The sound ones have one marker: that of the process that uses it, if there is one. -/
  oneMarker : ∀ n, Sound c n fs → ∃ m, Live c m ∧ (∀ m', fs' .config [.workspace, n, m'] ≠ none ↔ m' = .startup ∨ m' = m) ∧
    ∀ m', Live c m' → fs .config [.workspace, n, m'] ≠ none → m' = m
  /-- The damaged ones are gone, and everything that was in them is below `broken`. -/
  gone : ∀ n, n ≠ .default_ → ¬ Sound c n fs → ∀ r q, fs' r (.workspace :: n :: q) = none
  aside : ∀ n, n ≠ .default_ → ¬ Sound c n fs → ∀ r q, ¬ Transient r (.workspace :: n :: q) → fs' r (.broken :: c.now :: n :: n :: q) = fs r (.workspace :: n :: q)
  /-- What was moved aside earlier is as before, and so is all the rest. -/
  earlier : ∀ r t q, t ≠ c.now → fs' r (.broken :: t :: q) = fs r (.broken :: t :: q)
  rest : ∀ r p, (∀ q, p ≠ .workspace :: q) → (∀ q, p ≠ .broken :: q) → fs' r p = fs r p
  /-- All workspaces are sound. -/
  allSound : ∀ r n, n ≠ .default_ → fs' r [.workspace, n] ≠ none → Sound c n fs'
  default_ : SoundDefault fs'

/-- Starts one after the other, each of which may be interrupted at any point. -/
inductive Starts : FS → FS → Prop
  | none (fs : FS) : Starts fs fs
  | more {fs fs' : FS} (h : Starts fs fs') (c : Cfg) (hf : Fits c fs') (k : Option Nat) : Starts fs (c.start fs' k).fs

/-- A file system with the given entries. -/
def FS.of : List (Root × Path × Node) → FS
  | [] => fun _ _ => none
  | (r, p, n) :: l => (FS.of l).set r p (some n)

/-- A workspace that nobody uses, with all its files and nothing else. -/
structure Intact (n : Name) (fs : FS) : Prop where
  configDir : fs .config [.workspace, n] = some .dir
  startup : ∃ t, fs .config [.workspace, n, .startup] = some (.file t)
  marker : ∃ t, fs .config [.workspace, n, .marker] = some (.file t)
  configOnly : ∀ m, fs .config [.workspace, n, m] ≠ none → m = .startup ∨ m = .marker
  dataDir : fs .data [.workspace, n] = some .dir
  env : ∃ t, fs .data [.workspace, n, .env] = some (.file t)
  properties : ∃ t, fs .data [.workspace, n, .properties] = some (.file t)
  history : ∃ t, fs .data [.workspace, n, .history] = some (.file t)
  reservoirs : fs .data [.workspace, n, .reservoirs] = some .dir
  dataOnly : ∀ m, fs .data [.workspace, n, m] ≠ none → m = .env ∨ m = .properties ∨ m = .history ∨ m = .reservoirs
  reservoirFiles : ∀ m, fs .data [.workspace, n, .reservoirs, m] ≠ some .dir

/-- The paths of a workspace. -/
def Within (n : Name) (p : Path) : Prop := ∃ q, p = .workspace :: n :: q

/-- What a new workspace consists of. -/
def newWorkspace (c : Cfg) (startup : Text) : Root → Path → Option Node
  | .config, [] => some .dir
  | .config, [.startup] => some (.file startup)
  | .config, [.marker] => some (.file [])
  | .data, [] => some .dir
  | .data, [.reservoirs] => some .dir
  | .data, [.env] => some (.file c.emptyEnv)
  | .data, [.properties] => some (.file c.newProps)
  | .data, [.history] => some (.file [])
  | _, _ => none

end Marcel.WsDisk
