/-! # Model of `ls`

`/repo/marcel/op/ls.py` 113-132, `/repo/marcel/op/filenames.py` 44-64, `/repo/marcel/op/filenamesop.py` 73-140, 161-171.

The file system does not change while the command runs. Names are natural numbers, compared by `<` (Python: strings). What a pattern matches
(`Path.glob`) is given. Not modelled: the formatting of files (`base`, `MetadataCache`), `~`, escapes and `..` in arguments, missing search
permission on a directory that can be listed, names that cannot be printed (ls.py 125-132). -/

namespace Marcel.Ls

abbrev Name := Nat
abbrev Ino := Nat
abbrev Path := List Name

/-- What an inode can be. The entries of a directory are missing if it may not be listed. The target of a symbolic link is the inode
`Path.resolve` leads to, `none` if there is none. -/
inductive Node
  | file
  | other
  | dir (entries : Option (List (Name × Ino)))
  | link (target : Option Ino)
  deriving DecidableEq, Repr

/-- A file system: the inode of `/`, and what each inode is. -/
structure FS where
  root : Ino
  node : Ino → Node

namespace FS

/-- The inode found by following a symbolic link. -/
def follow (fs : FS) (i : Ino) : Option Ino :=
  match fs.node i with
  | .link t => t
  | _ => some i

/-- The entries of the directory that `i` is or links to, if it may be listed. -/
def entriesOf (fs : FS) (i : Ino) : Option (List (Name × Ino)) :=
  match fs.follow i with
  | some j => match fs.node j with
    | .dir es => es
    | _ => none
  | none => none

/-- The inode a path denotes, starting at `i`; symbolic links are followed except for the last name (`lstat`). -/
def walk (fs : FS) (i : Ino) : Path → Option Ino
  | [] => some i
  | n :: p => match fs.entriesOf i with
    | some es => match es.lookup n with
      | some j => walk fs j p
      | none => none
    | none => none

/-- `Path.lstat` -/
def lstat (fs : FS) (p : Path) : Option Ino := fs.walk fs.root p

/-- `Path.stat` -/
def stat (fs : FS) (p : Path) : Option Ino := (fs.lstat p).bind fs.follow

/-- `Path.is_dir` -/
def isDir (fs : FS) (p : Path) : Bool :=
  match fs.stat p with
  | some i => match fs.node i with
    | .dir _ => true
    | _ => false
  | none => false

/-- `Path.is_symlink` -/
def isSymlink (fs : FS) (p : Path) : Bool :=
  match fs.lstat p with
  | some i => match fs.node i with
    | .link _ => true
    | _ => false
  | none => false

/-- `Path.iterdir`; `none`: PermissionError. -/
def iterdir (fs : FS) (p : Path) : Option (List Path) :=
  match fs.lstat p with
  | some i => (fs.entriesOf i).map (·.map fun e => p ++ [e.1])
  | none => none

end FS

/-- The order of paths (`sorted`, filenamesop.py 91, 125). -/
def pathLe : Path → Path → Bool
  | [], _ => true
  | _ :: _, [] => false
  | a :: p, b :: q => if a < b then true else if b < a then false else pathLe p q

/-- Insertion into a sorted list. -/
def insertPath (p : Path) : List Path → List Path
  | [] => [p]
  | q :: qs => if pathLe p q then p :: q :: qs else q :: insertPath p qs

/-- `sorted` -/
def sorted (ps : List Path) : List Path := ps.foldr insertPath []

/-- Depth: `-0`, `-1`, `-r`. -/
inductive Depth
  | zero | one | deep
  deriving DecidableEq, Repr

/-- The options, after `setup` has filled in the defaults (filenamesop.py 85-90). -/
structure Opts where
  depth : Depth
  file : Bool
  dir : Bool
  symlink : Bool

/-- filenamesop.py 85-90. `d0`, `d1`, `dr`: at most one of them is true. -/
def mkOpts (d0 d1 dr file dir symlink : Bool) : Opts :=
  let depth := if d0 then .zero else if d1 then .one else if dr then .deep else .one
  if !(file || dir || symlink) then ⟨depth, true, true, true⟩ else ⟨depth, file, dir, symlink⟩

/-- What is sent: a file, or an error. -/
inductive Out
  | path (p : Path)
  | denied (p : Path)
  | missing (p : Path)
  deriving DecidableEq, Repr

/-- The state of the operator: what it has sent, and the directories visited. `emitted_paths` is the set of the paths sent. -/
structure St where
  out : List Out
  visited : List Ino

/-- ls.py 118-121: whether the file is of a kind that was asked for. -/
def wanted (o : Opts) (n : Node) : Bool :=
  match n with
  | .file => o.file
  | .dir _ => o.dir
  | .link _ => o.symlink
  | .other => false

/-- `Ls.send_path` ls.py 114-132. The first component: there is no such file (`lstat` raises FileNotFoundError). -/
def sendPath (fs : FS) (o : Opts) (p : Path) (s : St) : Bool × St :=
  match fs.lstat p with
  | none => (true, s)
  | some i =>
    if wanted o (fs.node i) && !(s.out.contains (.path p)) then (false, { s with out := s.out ++ [.path p] }) else (false, s)

/-- `dir_already_visited` filenamesop.py 161-171 -/
def alreadyVisited (fs : FS) (p : Path) (s : St) : Bool :=
  fs.isSymlink p && (match fs.stat p with | some i => s.visited.contains i | none => false)

/-- The condition at 121: whether the directory is visited. -/
def descends (fs : FS) (o : Opts) (p : Path) (level : Nat) (s : St) : Bool :=
  fs.isDir p && ((level == 0 && (o.depth == .one || o.depth == .deep)) || o.depth == .deep) && !alreadyVisited fs p s

/-- 123-124 -/
def mark (fs : FS) (p : Path) (s : St) : St :=
  match fs.stat p with
  | some i => { s with visited := s.visited ++ [i] }
  | none => s

/-- 129-132: the error reported for an entry that does not exist. -/
def noteMissing (p : Path) (r : Bool × St) : St :=
  if r.1 then { r.2 with out := r.2.out ++ [.missing p] } else r.2

mutual
/-- `FilenamesOp.visit` 117-140. The first component of the result: FileNotFoundError. `fuel` bounds the recursion (`none`: used up); see
`C48_terminates`. -/
def visit (fs : FS) (o : Opts) : Nat → Path → Nat → St → Option (Bool × St)
  | 0, _, _, _ => none
  | fuel + 1, p, level, s =>
    match sendPath fs o p s with
    | (true, s) => some (true, s)
    | (false, s) =>
      if descends fs o p level s then
        match fs.iterdir p with
        | none => some (false, { mark fs p s with out := (mark fs p s).out ++ [.denied p] })
        | some ps => (visitAll fs o fuel (sorted ps) (level + 1) (mark fs p s)).map fun s => (false, s)
      else some (false, s)
/-- The loop 126-134. -/
def visitAll (fs : FS) (o : Opts) : Nat → List Path → Nat → St → Option St
  | _, [], _, s => some s
  | 0, _ :: _, _, _ => none
  | fuel + 1, p :: ps, level, s =>
    match visit fs o fuel p level s with
    | none => none
    | some r => visitAll fs o fuel ps level (noteMissing p r)
end

/-- `run` 104-109. A root that does not exist ends the command. -/
def runRoots (fs : FS) (o : Opts) (fuel : Nat) : List Path → St → Option (Bool × St)
  | [], s => some (false, s)
  | p :: ps, s =>
    match visit fs o fuel p 0 s with
    | none => none
    | some (true, s) => some (true, s)
    | some (false, s) => runRoots fs o fuel ps s

/-- filenames.py 47-64. An argument is `/` or a pattern, given by what it matches. -/
inductive Arg
  | root
  | glob (matches_ : List Path)

/-- The loop filenames.py 49-63: the roots so far, and the set of them (which does not include `/` if that was given literally). -/
def normalize : List Arg → List Path → List Path → List Path
  | [], roots, _ => roots
  | .root :: as, roots, seen => normalize as (roots ++ [[]]) seen
  | .glob ms :: as, roots, seen => normalize as (roots ++ (addNew seen ms).1) (addNew seen ms).2
where
  /-- 58-63 -/
  addNew (seen : List Path) (ms : List Path) : List Path × List Path :=
    ms.foldl (fun (r : List Path × List Path) p => if r.2.contains p then r else (r.1 ++ [p], r.2 ++ [p])) ([], seen)

/-- The roots. filenamesop.py 77-84, 91. `none`: killed, because nothing matches. -/
def roots (args : List Arg) (cwd : Path) : Option (List Path) :=
  if args.length > 0 && (normalize args [] []).length == 0 then none
  else some (sorted (if (normalize args [] []).length == 0 then [cwd] else normalize args [] []))

/-- The command. `none`: out of fuel, or killed; otherwise whether it was ended by FileNotFoundError, and what was sent. -/
def ls (fs : FS) (o : Opts) (fuel : Nat) (args : List Arg) (cwd : Path) : Option (Bool × List Out) :=
  match roots args cwd with
  | none => none
  | some rs => (runRoots fs o fuel rs ⟨[], []⟩).map fun r => (r.1, r.2.out)

end Marcel.Ls
