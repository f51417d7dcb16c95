import Verif.Model.Ops
/-! # Model of the comparison and hashing of the objects in a stream

`File` (object/file.py 116-135), `Process` (object/process.py 35-54), `HistoryRecord` (object/historyrecord.py 26-42), objects
without such methods (e.g. `Error`), and Python's numbers, strings and `None`; the operators `unique` (op/unique.py 76-101) and `sort` (op/sort.py
74-88) on items made of these. (`Host`: see Model/Cluster.)

Simplifications: numbers are integers, not floating point numbers or booleans; items are tuples (not lists) and their components are not tuples; the
set of `GeneralUniquer` looks at the elements with the same hash in the order in which they were added, last one first. A path is
the list of its parts, as pathlib compares them. The values of hashes are not known: they are a parameter. -/

namespace Marcel.Objects

abbrev Str := List Char

/-- The lexicographic order of Python's strings, lists and tuples, given that of the elements. -/
def lexLt {κ : Type} [DecidableEq κ] (lt : κ → κ → Bool) : List κ → List κ → Bool
  | _, [] => false
  | [], _ :: _ => true
  | a :: as, b :: bs => if a = b then lexLt lt as bs else lt a b

/-- `<` of strings -/
def strLt : Str → Str → Bool := lexLt (fun c d => decide (c.toNat < d.toNat))

/-- `<` of paths: pathlib compares the lists of the parts -/
def pathLt : List Str → List Str → Bool := lexLt strLt

/-- A component of an item. `rest` stands for the attributes that comparisons do not look at. `plain`: an object without comparison methods, which is
equal to itself only. -/
inductive Obj
  | nil
  | int (n : Int)
  | str (s : Str)
  | file (path : List Str) (rest : Nat)
  | proc (pid : Int) (rest : Nat)
  | hist (id : Int) (rest : Nat)
  | plain (id : Nat)
  deriving DecidableEq

/-- The comparison operators. -/
inductive Cmp
  | eq | ne | lt | le | gt | ge
  deriving DecidableEq

/-- The operator with its operands exchanged. -/
def Cmp.swap : Cmp → Cmp
  | .eq => .eq
  | .ne => .ne
  | .lt => .gt
  | .le => .ge
  | .gt => .lt
  | .ge => .le

/-- Comparing may raise an `AttributeError` or a `TypeError`. -/
inductive Err
  | attr
  | type
  deriving DecidableEq

/-- Comparison of two integers -/
def intCmp (c : Cmp) (m n : Int) : Bool :=
  match c with
  | .eq => decide (m = n)
  | .ne => decide (m ≠ n)
  | .lt => decide (m < n)
  | .le => decide (m ≤ n)
  | .gt => decide (m > n)
  | .ge => decide (m ≥ n)

/-- Comparison of two strings -/
def strCmp (c : Cmp) (s t : Str) : Bool :=
  match c with
  | .eq => decide (s = t)
  | .ne => decide (s ≠ t)
  | .lt => strLt s t
  | .le => decide (s = t) || strLt s t
  | .gt => strLt t s
  | .ge => decide (s = t) || strLt t s

/-- The methods of `File`, if the other one is a file, too (file.py 119-135): comparison of the paths. -/
def fileCmp (c : Cmp) (p q : List Str) : Bool :=
  match c with
  | .eq => decide (p = q)
  | .ne => decide (p ≠ q)
  | .lt => pathLt p q
  | .le => decide (p = q) || pathLt p q
  | .gt => pathLt q p
  | .ge => decide (p = q) || pathLt q p

/-- The methods of `Process` (process.py 38-54) -/
def procCmp (c : Cmp) (m n : Int) : Bool :=
  match c with
  | .eq => decide (m = n)
  | .ne => decide (m ≠ n)
  | .lt => decide (m < n)
  | .le => decide (m ≤ n)
  | .gt => decide (m > n)
  | .ge => decide (m ≥ n)

/-- The methods of `HistoryRecord` (historyrecord.py 26-42) -/
def histCmp (c : Cmp) (m n : Int) : Bool :=
  match c with
  | .eq => decide (m = n)
  | .ne => decide (m ≠ n)
  | .lt => decide (m < n)
  | .le => decide (m ≤ n)
  | .gt => decide (m > n)
  | .ge => decide (m ≥ n)

/-- The method of `a` for the operator, applied to `b`. `none` is `NotImplemented`. `other.path`, `other.pid`, `other.id` are
attribute errors for anything else. -/
def method (c : Cmp) (a b : Obj) : Except Err (Option Bool) :=
  match a with
  | .nil => .ok (if b = .nil then (match c with | .eq => some true | .ne => some false | _ => none) else none)
  | .int m => match b with | .int n => .ok (some (intCmp c m n)) | _ => .ok none
  | .str s => match b with | .str t => .ok (some (strCmp c s t)) | _ => .ok none
  | .file p _ => match b with | .file q _ => .ok (some (fileCmp c p q)) | _ => .error .attr
  | .proc m _ => match b with | .proc n _ => .ok (some (procCmp c m n)) | _ => .error .attr
  | .hist m _ => match b with | .hist n _ => .ok (some (histCmp c m n)) | _ => .error .attr
  | .plain _ => .ok none

/-- `a == b`, `a < b` etc. (Python's rich comparison): the method of the left operand, then that of the right one, then the
default. -/
def pyCmp (c : Cmp) (a b : Obj) : Except Err Bool :=
  match method c a b with
  | .error e => .error e
  | .ok (some r) => .ok r
  | .ok none =>
    match method c.swap b a with
    | .error e => .error e
    | .ok (some r) => .ok r
    | .ok none =>
      match c with
      | .eq => .ok (decide (a = b))
      | .ne => .ok (decide (a ≠ b))
      | _ => .error .type

/-- An item: a tuple. -/
abbrev Item := List Obj

/-- `==` of tuples: the components, up to the first that differ; then the lengths. -/
def itemEq : Item → Item → Except Err Bool
  | [], [] => .ok true
  | [], _ :: _ => .ok false
  | _ :: _, [] => .ok false
  | a :: as, b :: bs =>
    match pyCmp .eq a b with
    | .error e => .error e
    | .ok false => .ok false
    | .ok true => itemEq as bs

/-- `<` of tuples: that of the first components that differ, or of the lengths. -/
def itemLt : Item → Item → Except Err Bool
  | _, [] => .ok false
  | [], _ :: _ => .ok true
  | a :: as, b :: bs =>
    match pyCmp .eq a b with
    | .error e => .error e
    | .ok false => pyCmp .lt a b
    | .ok true => itemLt as bs

/-- Python's hash functions. -/
structure Hashes where
  nil : Int
  int : Int → Int
  str : Str → Int
  path : List Str → Int
  plain : Nat → Int
  tuple : List Int → Int

/-- `hash(a)`; `none`: unhashable. `File.__hash__` (file.py 116-117) is that of the path, `Process.__hash__` (process.py 35-36) is the pid, which Python
treats as it does an integer. `HistoryRecord` defines `__eq__` without `__hash__`, which makes it unhashable. -/
def Obj.hash (H : Hashes) : Obj → Option Int
  | .nil => some H.nil
  | .int n => some (H.int n)
  | .str s => some (H.str s)
  | .file p _ => some (H.path p)
  | .proc n _ => some (H.int n)
  | .hist _ _ => none
  | .plain i => some (H.plain i)

/-- The hashes of the components. -/
def hashes (H : Hashes) : Item → Option (List Int)
  | [] => some []
  | a :: as =>
    match a.hash H, hashes H as with
    | some h, some hs => some (h :: hs)
    | _, _ => none

/-- The hash of a tuple. -/
def itemHash (H : Hashes) (x : Item) : Option Int := (hashes H x).map H.tuple

/-- Looking for `x`, which has the hash `h`, in a set. -/
def search (H : Hashes) (h : Int) (x : Item) : List Item → Except Err Bool
  | [] => .ok false
  | y :: ys =>
    if itemHash H y = some h then
      match itemEq y x with
      | .error e => .error e
      | .ok true => .ok true
      | .ok false => search H h x ys
    else search H h x ys

/-- `x in seen`, for a set. -/
def setHas (H : Hashes) (seen : List Item) (x : Item) : Except Err Bool :=
  match itemHash H x with
  | none => .error .type
  | some h => search H h x seen

/-- `GeneralUniquer.receive` (unique.py 82-89): a `TypeError` kills the command. -/
def uniqueItem (H : Hashes) (seen : List Item) (x : Item) : Res (List Item) Item :=
  match setHas H seen x with
  | .ok true => ⟨seen, [], none⟩
  | .ok false => ⟨x :: seen, [.item x], none⟩
  | .error .type => ⟨seen, [], some .kill⟩
  | .error .attr => ⟨seen, [], some .crash⟩

/-- `unique` (unique.py 49-89). -/
def uniqueObj (H : Hashes) : Op (List Item) Item Item where
  init := []
  item := uniqueItem H
  flush := fun s => ⟨s, [.flush], none⟩
  no_flush := by
    intro s x
    unfold uniqueItem
    rcases setHas H s x with ⟨_ | _⟩ | ⟨_ | _⟩ <;> simp

/-- `self.current != x` (unique.py 98-101): `current` is `None` at first. For tuples, `!=` is the negation of `==`. -/
def differs : Option Item → Item → Except Err Bool
  | none, _ => .ok true
  | some y, x =>
    match itemEq y x with
    | .error e => .error e
    | .ok b => .ok (!b)

/-- `ConsecutiveUniquer.receive` (unique.py 98-101). -/
def consecutiveItem (current : Option Item) (x : Item) : Res (Option Item) Item :=
  match differs current x with
  | .ok true => ⟨some x, [.item x], none⟩
  | .ok false => ⟨current, [], none⟩
  | .error _ => ⟨current, [], some .crash⟩

/-- `unique --consecutive` (unique.py 92-101). -/
def consecutiveObj : Op (Option Item) Item Item where
  init := none
  item := consecutiveItem
  flush := fun s => ⟨s, [.flush], none⟩
  no_flush := by
    intro s x
    unfold consecutiveItem
    rcases differs s x with _ | ⟨_ | _⟩ <;> simp

/-- `sort` without a key (sort.py 74-88). Only for items for which no `AttributeError` is raised. -/
def sortObj : Op (Option (List Item)) Item Item :=
  sortOp (fun x => .ok x) (fun a b => (itemLt a b).toOption)

end Marcel.Objects
