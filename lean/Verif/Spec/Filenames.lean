import Verif.Model.Filenames

/-! # Specification of file name arguments (for C68)

An argument is a list of names separated by slashes, from the root, the current directory or a home directory. It is resolved name by name; the result is a pattern for paths. -/

namespace Marcel.Filenames

/-- Names separated by slashes. -/
def join : List Str → Str
  | [] => []
  | [c] => c
  | c :: cs => c ++ '/' :: join cs

inductive Start
  | root
  | here
  | home (user : Str)
deriving DecidableEq, Repr

/-- An argument. -/
structure Arg where
  start : Start
  comps : List Str
deriving DecidableEq, Repr

/-- As typed (after quotes and escapes). -/
def Arg.text (a : Arg) : Str :=
  match a.start with
  | .root => '/' :: join a.comps
  | .here => join a.comps
  | .home u => join (('~' :: u) :: a.comps)

/-- From a path, go through the names: nothing and `.` stay, `..` goes up. -/
def resolve (p : Path) (cs : List Str) : Path :=
  cs.foldl (fun q c => if c = [] ∨ c = ['.'] then q else if c = dotdot then q.dropLast else q ++ [c]) p

/-- Where an argument starts. -/
def Start.path (cwd : Path) (home : Str → Option Path) : Start → Path
  | .root => []
  | .here => cwd
  | .home u => (home u).getD []

/-- The pattern that an argument stands for. -/
def Arg.pattern (cwd : Path) (home : Str → Option Path) (a : Arg) : List Str := resolve (a.start.path cwd home) a.comps

/-- A name with one of these is a pattern. -/
def special (c : Str) : Bool := c.contains '*' || c.contains '?' || c.contains '['

/-- Where a path leads: `..` goes up. -/
def place (q : Path) : Path := q.foldl (fun q c => if c = dotdot then q.dropLast else q ++ [c]) []

/-- A path matches a pattern if its names match those of the pattern one by one; `**` matches any number of names. -/
inductive Matches (fnm : Str → Str → Bool) : List Str → Path → Prop
  | nil : Matches fnm [] []
  | name {c n : Str} {cs : List Str} {p : Path} : c ≠ ['*', '*'] → (if special c then fnm c n = true else n = c) → Matches fnm cs p → Matches fnm (c :: cs) (n :: p)
  | deep {cs : List Str} {p q : Path} : Matches fnm cs q → Matches fnm (['*', '*'] :: cs) (p ++ q)

/-- A tree of files. -/
structure Tree.OK (t : Tree) : Prop where
  root : t.kind [] = some .dir
  parent : ∀ p n, t.kind (p ++ [n]) ≠ none → t.kind p = some .dir
  names_ : ∀ p n, t.kind p = some .dir → (n ∈ t.names p ↔ t.kind (p ++ [n]) ≠ none)
  below_ : ∀ p d, t.kind p = some .dir → (d ∈ t.below p ↔ t.kind (p ++ d) = some .dir)
  noDots : ∀ p n, t.kind (p ++ [n]) ≠ none → n ≠ dotdot ∧ n ≠ [] ∧ n ≠ ['.']

/-- Names as they are found in a directory's path: no pattern, nothing special. -/
def Literal (p : Path) : Prop := ∀ c ∈ p, special c = false ∧ c ≠ dotdot ∧ c ≠ [] ∧ c ≠ ['.']

/-- Arguments that this is about: no backslashes, not two slashes at the beginning, no `~` but that of a home directory, and no `..` after it. -/
structure Arg.OK (home : Str → Option Path) (a : Arg) : Prop where
  slash : ∀ c ∈ a.comps, '/' ∉ c
  escape : ∀ c ∈ a.comps, '\\' ∉ c
  some_ : (∀ u, a.start ≠ .home u) → a.comps = [[]] ∨ ∃ c cs, a.comps = c :: cs ∧ c ≠ []
  tilde : a.start = .here → ∀ c ∈ a.comps, c.head? ≠ some '~'
  home_ : ∀ u, a.start = .home u → '/' ∉ u ∧ '\\' ∉ u ∧ dotdot ∉ a.comps ∧ ∃ h, home u = some h ∧ Literal h

/-- What the arguments are to give: the places that exist and match one of them. -/
def Denoted (t : Tree) (fnm : Str → Str → Bool) (cwd : Path) (home : Str → Option Path) (args : List Arg) (x : Path) : Prop :=
  t.kind x ≠ none ∧ ∃ a ∈ args, Matches fnm (a.pattern cwd home) x ∧ ((a.pattern cwd home).getLast? = some ['*', '*'] → t.kind x = some .dir)

end Marcel.Filenames
