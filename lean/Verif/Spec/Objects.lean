import Verif.Model.Objects
/-! # Specification: when objects in a stream are equal, and their order -/

namespace Marcel.Objects

/-- The lexicographic order: `ys` is longer than its beginning `xs`, or the first elements that differ are in the order `r`. -/
def Before {κ : Type} (r : κ → κ → Prop) (xs ys : List κ) : Prop :=
  (∃ b bs, ys = xs ++ b :: bs) ∨ ∃ pre a as b bs, xs = pre ++ a :: as ∧ ys = pre ++ b :: bs ∧ r a b

/-- Strings are ordered by the codes of their characters. -/
def StrBefore : Str → Str → Prop := Before (fun c d => c.toNat < d.toNat)

/-- Paths are ordered by their parts. -/
def PathBefore : List Str → List Str → Prop := Before StrBefore

/-- Equal objects: files with the same path, processes with the same pid, history records with the same number. -/
inductive Same : Obj → Obj → Prop
  | nil : Same .nil .nil
  | int (n) : Same (.int n) (.int n)
  | str (s) : Same (.str s) (.str s)
  | file (p r r') : Same (.file p r) (.file p r')
  | proc (n r r') : Same (.proc n r) (.proc n r')
  | hist (n r r') : Same (.hist n r) (.hist n r')
  | plain (i) : Same (.plain i) (.plain i)

/-- The order of objects: files by path, processes by pid, history records by number. -/
inductive Precedes : Obj → Obj → Prop
  | int {m n : Int} : m < n → Precedes (.int m) (.int n)
  | str {s t : Str} : StrBefore s t → Precedes (.str s) (.str t)
  | file {p q : List Str} (r r') : PathBefore p q → Precedes (.file p r) (.file q r')
  | proc {m n : Int} (r r') : m < n → Precedes (.proc m r) (.proc n r')
  | hist {m n : Int} (r r') : m < n → Precedes (.hist m r) (.hist n r')

/-- Kinds of objects. -/
inductive Kind
  | nil | int | str | file | proc | hist | plain
  deriving DecidableEq

def Obj.kind : Obj → Kind
  | .nil => .nil
  | .int _ => .int
  | .str _ => .str
  | .file _ _ => .file
  | .proc _ _ => .proc
  | .hist _ _ => .hist
  | .plain _ => .plain

/-- Kinds that have an order. -/
def Kind.Ordered : Kind → Prop
  | .nil => False
  | .plain => False
  | _ => True

/-- Kinds that are part of Python, or do not define comparisons. -/
def Kind.Builtin : Kind → Prop
  | .file => False
  | .proc => False
  | .hist => False
  | _ => True

/-- What an object is identified by. -/
def Obj.key : Obj → Obj
  | .file p _ => .file p 0
  | .proc n _ => .proc n 0
  | .hist n _ => .hist n 0
  | a => a

/-- What an item is identified by. -/
def ident (x : Item) : Item := x.map Obj.key

/-- Of several items with the same identity, the first. -/
def firsts (seen : List Item) : List Item → List Item
  | [] => []
  | x :: xs => if ident x ∈ seen then firsts seen xs else x :: firsts (ident x :: seen) xs

/-- Of consecutive items with the same identity, the first. -/
def runs (last : Option Item) : List Item → List Item
  | [] => []
  | x :: xs => if last.map ident = some (ident x) then runs last xs else x :: runs (some x) xs

/-- The kinds of the components of an item. -/
def shape (x : Item) : List Kind := x.map Obj.kind

/-- Items that can be tested for equality: at no position there is a file, process or history record in one of them and something of another kind
in the other. -/
def Testable : Item → Item → Prop
  | a :: as, b :: bs => (a.kind = b.kind ∨ (a.kind.Builtin ∧ b.kind.Builtin)) ∧ Testable as bs
  | _, _ => True

/-- The order of items: that of the first components that differ. -/
inductive ItemBefore : Item → Item → Prop
  | shorter (b bs) : ItemBefore [] (b :: bs)
  | here {a b : Obj} (as bs) : Precedes a b → ItemBefore (a :: as) (b :: bs)
  | there {a b : Obj} {as bs : Item} : Same a b → ItemBefore as bs → ItemBefore (a :: as) (b :: bs)

end Marcel.Objects
