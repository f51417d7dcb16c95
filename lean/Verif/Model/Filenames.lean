import Verif.Model.Tab

/-! # Model of file name arguments

`/repo/marcel/op/filenames.py`, which turns the arguments of `ls`, `cd`, `pushd`, `upload`, `download` into paths, down to the characters of the names; `posixpath.normpath`, `pathlib.Path.expanduser`
and `pathlib.Path.glob` of Python (3.11). In `Model/Ls` and `Model/DirStack` what arguments denote is given; here it is computed.

Simplifications: no symbolic links (so that `..` is the directory above), the file system does not change, all directories can be listed. Which names match a pattern within one
component (`fnmatch`) is a parameter. A path is the list of its names (`Path.parts` without the root); that joining names by slashes and splitting the result gives the names again is not
modelled. Python: 3.11, in which `**` at the end of a pattern gives directories only. -/

namespace Marcel.Filenames

/-- A path below `/`: its names. `..` can be one of them. -/
abbrev Path := List Str

inductive Kind
  | file
  | dir
deriving DecidableEq, Repr

/-- The file system: what each path without `..` is, and the names in each directory in the order of listing; all directories at or below one, for `**`. -/
structure Tree where
  kind : Path → Option Kind
  names : Path → List Str
  below : Path → List Path

def dotdot : Str := ['.', '.']

/-- The place of a path with `..`, there being no links. -/
def canon (p : Path) : Path := p.foldl (fun q c => if c = dotdot then q.dropLast else q ++ [c]) []

def Tree.exists_ (t : Tree) (p : Path) : Bool := (t.kind (canon p)).isSome
def Tree.isDir (t : Tree) (p : Path) : Bool := t.kind (canon p) == some .dir

/-- `pathlib`: a component is a pattern if it has one of these. -/
def magic (c : Str) : Bool := c.any fun x => x == '*' || x == '?' || x == '['

/-- `Path.glob`: the paths below `base` that match; `fnm` is `fnmatch`. -/
def glob (t : Tree) (fnm : Str → Str → Bool) (base : Path) : List Str → List Path
  | [] => [base]
  | c :: cs =>
    if c = dotdot then glob t fnm (base ++ [c]) cs
    else if c = ['*', '*'] then (t.below (canon base)).flatMap fun d => glob t fnm (base ++ d) cs
    else if magic c then
      ((t.names (canon base)).filter fun n => fnm c n && (cs.isEmpty || t.isDir (base ++ [n]))).flatMap fun n => glob t fnm (base ++ [n]) cs
    else if if cs.isEmpty then t.exists_ (base ++ [c]) else t.isDir (base ++ [c]) then glob t fnm (base ++ [c]) cs
    else []

/-- `str.split('/')` -/
def splitOn (s : Str) : List Str :=
  match s with
  | [] => [[]]
  | c :: cs =>
    if c = '/' then [] :: splitOn cs
    else match splitOn cs with
      | [] => [[c]]
      | w :: ws => (c :: w) :: ws

/-- `posixpath.normpath`: the leading slashes that it leaves. -/
def initialSlashes (s : Str) : Nat :=
  match s with
  | '/' :: '/' :: '/' :: _ => 1
  | '/' :: '/' :: _ => 2
  | '/' :: _ => 1
  | _ => 0

/-- `posixpath.normpath`: the loop over the components, those found so far being in reverse. -/
def normLoop (absolute : Bool) (acc : List Str) : List Str → List Str
  | [] => acc.reverse
  | c :: cs =>
    if c = [] || c = ['.'] then normLoop absolute acc cs
    else if c ≠ dotdot || (!absolute && acc.isEmpty) || acc.head? == some dotdot then normLoop absolute (c :: acc) cs
    else normLoop absolute acc.tail cs

/-- `posixpath.normpath` -/
def normpath (s : Str) : Nat × List Str := (initialSlashes s, normLoop (initialSlashes s ≠ 0) [] (splitOn s))

/-- `Path.expanduser`; `home` gives the home directory of a user (the empty name: of this one). The outer `none`: RuntimeError. -/
def expanduser (home : Str → Option Path) (slashes : Nat) (comps : List Str) : Option (Nat × List Str) :=
  match slashes, comps with
  | 0, ('~' :: user) :: cs => (home user).map fun h => (1, h ++ cs)
  | n, cs => some (n, cs)

/-- `_normalize_paths` 66-86 for one argument; the current directory is absolute. -/
def normalizePath (cwd : Path) (home : Str → Option Path) (arg : Str) : Option (Nat × Path) :=
  let (n, cs) := normpath (Tab.resolveEscapes arg)
  match expanduser home n cs with
  | none => none
  | some (0, cs) => some (1, cwd ++ cs)
  | some (n, cs) => some (n, cs)

/-- `_normalize_paths` 66-86 -/
def normalizePaths (cwd : Path) (home : Str → Option Path) : List Str → Option (List (Nat × Path))
  | [] => some []
  | a :: as =>
    match normalizePath cwd home a, normalizePaths cwd home as with
    | some p, some ps => some (p :: ps)
    | _, _ => none

/-- `roots`, `roots_set` 46-47 -/
structure Roots where
  roots : List Path := []
  seen : List Path := []

/-- 60-62: those not seen before. -/
def addNew (r : Roots) : List Path → Roots
  | [] => r
  | p :: ps => if r.seen.contains p then addNew r ps else addNew ⟨r.roots ++ [p], p :: r.seen⟩ ps

/-- 49-64, the loop. `/` is not recorded as seen. `none`: `Path.glob` refuses the pattern `/...`, if there are two leading slashes. -/
def collect (t : Tree) (fnm : Str → Str → Bool) (r : Roots) : List (Nat × Path) → Option Roots
  | [] => some r
  | (n, p) :: ps =>
    if n ≠ 1 then none
    else if p = [] then collect t fnm ⟨r.roots ++ [[]], r.seen⟩ ps
    else collect t fnm (addNew r (glob t fnm [] p)) ps

/-- `normalize` 44-64; `none`: an exception -/
def normalize (t : Tree) (fnm : Str → Str → Bool) (cwd : Path) (home : Str → Option Path) (args : List Str) : Option (List Path) :=
  match normalizePaths cwd home args with
  | none => none
  | some ps => (collect t fnm {} ps).map Roots.roots

end Marcel.Filenames
