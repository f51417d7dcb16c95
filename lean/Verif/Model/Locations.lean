import Verif.Model.Filenames

/-! # Model of the places of marcel's files

`/repo/marcel/locations.py` 53-180, `/repo/marcel/object/workspace.py` 35-57 (`Marker`), 514 (the name of the default workspace), with the parts of `pathlib` that are used.

Simplifications: that directories are created (`ensure_dir_exists`) is in `Model/WsDisk`; `expanduser` of `~` or `~user` is a parameter (`none`: an exception, which ends marcel). -/

namespace Marcel.Locations

/-- A path of `pathlib` (`PurePosixPath`): its root (nothing, `/` or `//`, by the number of slashes) and its parts. -/
structure Path where
  root : Nat
  parts : List Str
deriving DecidableEq, Repr

def slash : Char := '/'

/-- The root that a string has: three or more slashes count as one. -/
def rootOf (s : Str) : Nat :=
  if (s.takeWhile (· = slash)).length = 0 then 0
  else if (s.takeWhile (· = slash)).length = 2 then 2
  else 1

/-- `pathlib.Path(s)`: empty parts and dots are left out. -/
def parse (s : Str) : Path := ⟨rootOf s, (Filenames.splitOn s).filter fun x => x ≠ [] && x ≠ ['.']⟩

/-- `p / q` for paths: an absolute path replaces the one before. -/
def Path.append (p q : Path) : Path := if q.root = 0 then ⟨p.root, p.parts ++ q.parts⟩ else q

/-- `p / s` for a string. -/
def Path.div (p : Path) (s : Str) : Path := p.append (parse s)

/-- `expanduser`: a relative path whose first part begins with `~`. -/
def Path.expanduser (home : Str → Option Path) (p : Path) : Option Path :=
  match p.parts with
  | x :: xs => if p.root = 0 && x.head? = some '~' then (home x).map fun h => ⟨h.root, h.parts ++ xs⟩ else some p
  | [] => some p

/-- The environment variables that are used, and the process. -/
structure Env where
  home : Option Str
  xdgConfig : Option Str
  xdgData : Option Str
  userHome : Str → Option Path     -- `~`, `~user`

/-- `normalize_dir` 159-176 with one default. `none`: marcel ends. -/
def normalizeDir (e : Env) (provided : Option Str) (default_ : Option Path) : Option Path :=
  match provided with
  | some s => (parse s).expanduser e.userHome
  | none =>
    match default_ with
    | some p => p.expanduser e.userHome
    | none => none

/-- `Locations.__init__` 59-71: the home directory. -/
def homeDir (e : Env) : Option Path := normalizeDir e e.home (e.userHome ['~'])

/-- 63-66 -/
def configBase (e : Env) : Option Path :=
  match homeDir e with
  | some h => normalizeDir e e.xdgConfig (some (h.div ".config".toList))
  | none => none

/-- 67-70 -/
def dataBase (e : Env) : Option Path :=
  match homeDir e with
  | some h => normalizeDir e e.xdgData (some ((h.div ".local".toList).div "share".toList))
  | none => none

/-- What `Locations` holds, 59-75. -/
structure Loc where
  config : Path
  data : Path
  pid : Nat

/-- A workspace: the default workspace, or one with a name. -/
inductive Ws
  | default_
  | named (n : Str)
deriving DecidableEq, Repr

/-- 178-180 -/
def dirName : Ws → Str
  | .default_ => "__DEFAULT__".toList
  | .named n => n

/-- A number in a file name. -/
def num (n : Nat) : Str := Nat.toDigits 10 n

/-- 81-83 -/
def Loc.version (l : Loc) : Path := (l.config.div "marcel".toList).div "VERSION".toList

/-- 85-92 -/
def Loc.configWs (l : Loc) (w : Ws) : Path := ((l.config.div "marcel".toList).div "workspace".toList).div (dirName w)

/-- 94-102 -/
def Loc.configBroken (l : Loc) (w : Ws) (time : Str) : Path := (((l.config.div "marcel".toList).div "broken".toList).div time).div (dirName w)

/-- 104-105 -/
def Loc.startup (l : Loc) (w : Ws) : Path := (l.configWs w).div "startup.py".toList

/-- 111-118 -/
def Loc.dataWs (l : Loc) (w : Ws) : Path := ((l.data.div "marcel".toList).div "workspace".toList).div (dirName w)

/-- 120-128 -/
def Loc.dataBroken (l : Loc) (w : Ws) (time : Str) : Path := (((l.data.div "marcel".toList).div "broken".toList).div time).div (dirName w)

/-- 130-132 (an assertion excludes the default workspace) -/
def Loc.properties (l : Loc) (n : Str) : Path := (l.dataWs (.named n)).div "properties.pickle".toList

/-- 134-136 -/
def Loc.envFile (l : Loc) : Ws → Path
  | .default_ => (l.dataWs .default_).div (num l.pid ++ ".env.pickle".toList)
  | .named n => (l.dataWs (.named n)).div "env.pickle".toList

/-- 138-139 -/
def Loc.history (l : Loc) (w : Ws) : Path := (l.dataWs w).div "history".toList

/-- 143-146: the name of the file -/
def Loc.resName (l : Loc) (w : Ws) (var : Str) : Str :=
  match w with
  | .default_ => num l.pid ++ ".".toList ++ var ++ ".pickle".toList
  | .named _ => var ++ ".pickle".toList

/-- 141-147 -/
def Loc.reservoir (l : Loc) (w : Ws) (var : Str) : Path :=
  if var = [] then (l.dataWs w).div "reservoirs".toList else ((l.dataWs w).div "reservoirs".toList).div (l.resName w var)

/-- workspace.py 48-49 -/
def Loc.unowned (l : Loc) (w : Ws) : Path := (l.configWs w).div ".WORKSPACE".toList

/-- workspace.py 51-54 -/
def Loc.owned (l : Loc) (w : Ws) (pid : Nat) : Path := (l.configWs w).div (".WORKSPACE".toList ++ ".".toList ++ num pid)

end Marcel.Locations
