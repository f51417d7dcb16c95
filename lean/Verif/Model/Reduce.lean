import Verif.Model.Red
import Verif.Model.PyVal

/-!
# The standard reduction functions (marcel/reduction.py, function.py, argsparser.py 260-278)

The operators of Python are modelled for None, bool, int, str and list. Simplifications: other types (float, tuple,
set, user types) are left out; lists cannot be compared by `max`/`min` here (the model refuses them, Python compares them
element by element); messages of exceptions are reduced to the type of the exception.
-/

namespace Marcel
namespace Reduce

/-- Python values. -/
inductive Val : Type
  | none
  | bool (b : Bool)
  | int (n : Int)
  | str (s : List Char)
  | list (xs : List Val)

mutual
/-- Whether two values of the model are the same (used for groups; unlike Python, 1 and True are different here). -/
def Val.same : Val → Val → Bool
  | .none, .none => true
  | .bool a, .bool b => a == b
  | .int a, .int b => a == b
  | .str a, .str b => a == b
  | .list xs, .list ys => sameAll xs ys
  | _, _ => false
/-- The same for lists of values. -/
def sameAll : List Val → List Val → Bool
  | [], [] => true
  | x :: xs, y :: ys => x.same y && sameAll xs ys
  | _, _ => false
end

mutual
theorem Val.same_iff : ∀ a b : Val, a.same b = true ↔ a = b
  | .none, b => by cases b <;> simp [Val.same]
  | .bool a, b => by cases b <;> simp [Val.same]
  | .int a, b => by cases b <;> simp [Val.same]
  | .str a, b => by cases b <;> simp [Val.same]
  | .list xs, b => by
    cases b <;> simp only [Val.same, Bool.false_eq_true, Val.list.injEq, reduceCtorEq]
    exact sameAll_iff xs _
theorem sameAll_iff : ∀ xs ys : List Val, sameAll xs ys = true ↔ xs = ys
  | [], ys => by cases ys <;> simp [sameAll]
  | x :: xs, ys => by
    cases ys with
    | nil => simp [sameAll]
    | cons y ys => simp [sameAll, Val.same_iff x y, sameAll_iff xs ys]
end

instance : DecidableEq Val := fun a b => decidable_of_iff (a.same b = true) (Val.same_iff a b)

/-- `bool(v)` in Python. -/
def Val.truth : Val → Bool
  | .none => false
  | .bool b => b
  | .int n => n != 0
  | .str s => !s.isEmpty
  | .list xs => !xs.isEmpty

/-- A bool used as a number is 0 or 1; an int is itself. -/
def Val.num : Val → Option Int
  | .bool b => some (if b then 1 else 0)
  | .int n => some n
  | _ => Option.none

/-- `xs * n`: repetition, empty if `n` is not positive. -/
def times {α : Type} (xs : List α) (n : Int) : List α := (List.replicate n.toNat xs).flatten

/-- `a + b`. -/
def add : Val → Val → Except Msg Val
  | .str s, .str t => .ok (.str (s ++ t))
  | .list xs, .list ys => .ok (.list (xs ++ ys))
  | a, b =>
    match a.num, b.num with
    | some m, some n => .ok (.int (m + n))
    | _, _ => .error "TypeError"

/-- `a * b`. -/
def mul (a b : Val) : Except Msg Val :=
  match a, b, a.num, b.num with
  | .str s, _, _, some n => .ok (.str (times s n))
  | .list xs, _, _, some n => .ok (.list (times xs n))
  | _, .str s, some n, _ => .ok (.str (times s n))
  | _, .list xs, some n, _ => .ok (.list (times xs n))
  | _, _, some m, some n => .ok (.int (m * n))
  | _, _, _, _ => .error "TypeError"

/-- `a & ~b` of natural numbers. -/
def natDiff (a b : Nat) : Nat := a ^^^ (a &&& b)

/-- `m & n` of ints of any size, in two's complement. -/
def intAnd : Int → Int → Int
  | .ofNat a, .ofNat b => .ofNat (a &&& b)
  | .ofNat a, .negSucc b => .ofNat (natDiff a b)
  | .negSucc a, .ofNat b => .ofNat (natDiff b a)
  | .negSucc a, .negSucc b => .negSucc (a ||| b)

/-- `m | n` of ints of any size, in two's complement. -/
def intOr : Int → Int → Int
  | .ofNat a, .ofNat b => .ofNat (a ||| b)
  | .ofNat a, .negSucc b => .negSucc (natDiff b a)
  | .negSucc a, .ofNat b => .negSucc (natDiff a b)
  | .negSucc a, .negSucc b => .negSucc (a &&& b)

/-- `m ^ n` of ints of any size, in two's complement. -/
def intXor : Int → Int → Int
  | .ofNat a, .ofNat b => .ofNat (a ^^^ b)
  | .ofNat a, .negSucc b => .negSucc (a ^^^ b)
  | .negSucc a, .ofNat b => .negSucc (a ^^^ b)
  | .negSucc a, .negSucc b => .ofNat (a ^^^ b)

/-- `&`, `|`, `^`: of two bools a bool, otherwise of numbers. -/
def bits (f : Bool → Bool → Bool) (g : Int → Int → Int) : Val → Val → Except Msg Val
  | .bool a, .bool b => .ok (.bool (f a b))
  | a, b =>
    match a.num, b.num with
    | some m, some n => .ok (.int (g m n))
    | _, _ => .error "TypeError"

/-- The order of strings: by the first difference. -/
def strLess : List Char → List Char → Bool
  | _, [] => false
  | [], _ :: _ => true
  | a :: s, b :: t => if a.toNat < b.toNat then true else if b.toNat < a.toNat then false else strLess s t

/-- `a < b`. -/
def less : Val → Val → Except Msg Bool
  | .str s, .str t => .ok (strLess s t)
  | a, b =>
    match a.num, b.num with
    | some m, some n => .ok (decide (m < n))
    | _, _ => .error "TypeError"

/-- `max(a, b)`: the second argument if it is greater, otherwise the first. -/
def pyMax (a b : Val) : Except Msg Val :=
  match less a b with
  | .ok true => .ok b
  | .ok false => .ok a
  | .error m => .error m

/-- `min(a, b)`: the second argument if it is smaller, otherwise the first. -/
def pyMin (a b : Val) : Except Msg Val :=
  match less b a with
  | .ok true => .ok b
  | .ok false => .ok a
  | .error m => .error m

/-- All of the functions begin with `x if acc is None else ...`. -/
def fromNone (f : Val → Val → Except Msg Val) : Val → Val → Except Msg Val
  | .none, x => .ok x
  | acc, x => f acc x

/-- `r_plus` (reduction.py 17-18). -/
def rPlus := fromNone add
/-- `r_times` (reduction.py 21-22). -/
def rTimes := fromNone mul
/-- `r_xor` (reduction.py 25-26). -/
def rXor := fromNone (bits (fun a b => a ^^ b) intXor)
/-- `r_bit_and` (reduction.py 29-30). -/
def rBitAnd := fromNone (bits (fun a b => a && b) intAnd)
/-- `r_bit_or` (reduction.py 33-34). -/
def rBitOr := fromNone (bits (fun a b => a || b) intOr)
/-- `r_and` (reduction.py 37-38): `acc and x`. -/
def rAnd := fromNone fun acc x => .ok (if acc.truth then x else acc)
/-- `r_or` (reduction.py 41-42): `acc or x`. -/
def rOr := fromNone fun acc x => .ok (if acc.truth then acc else x)
/-- `r_max` (reduction.py 45-46). -/
def rMax := fromNone pyMax
/-- `r_min` (reduction.py 49-50). -/
def rMin := fromNone pyMin

/-- `r_count` (reduction.py 53-54). -/
def rCount : Val → Val → Except Msg Val
  | .none, _ => .ok (.int 1)
  | acc, _ => add acc (.int 1)

/-- `r_concat` (reduction.py 57-62), as far as the value returned is concerned (what it does to the list object is
modelled below). -/
def rConcat : Val → Val → Except Msg Val
  | .none, x => .ok (.list [x])
  | .list xs, x => .ok (.list (xs ++ [x]))
  | _, _ => .error "AttributeError"

/-- `SymbolFunction.FUNCTIONS` (function.py 81-94). `is_count` (45-46): the function is `r_count`; `is_grouping` (108-109):
the symbol is a period. -/
def symbols : List (String × RedFn Val) :=
  [("+", .fn false rPlus), ("*", .fn false rTimes), ("^", .fn false rXor), ("&", .fn false rBitAnd),
   ("|", .fn false rBitOr), ("and", .fn false rAnd), ("or", .fn false rOr), ("max", .fn false rMax),
   ("min", .fn false rMin), ("count", .fn true rCount), ("concat", .fn false rConcat), (".", .group)]

/-- `ArgsParser.function` (argsparser.py 260-278) for a string: a symbol, otherwise the variable of this name, if it is
callable. (`vars`: the callables among the variables. Unescaping of the string is not modelled.) -/
def function (vars : String → Option (RedFn Val)) (name : String) : Option (RedFn Val) :=
  match symbols.find? (fun s => s.1 == name) with
  | some s => some s.2
  | none => vars name

/-- `functions` of a command: each argument is converted, the first that is no function ends the command. -/
def functions (vars : String → Option (RedFn Val)) (names : List String) : Option (List (RedFn Val)) :=
  names.mapM (function vars)

/-- `Squish.receive` (squish.py 67-76): `functools.reduce(f, x, None)`. -/
def squish (f : Val → Val → Except Msg Val) (x : List Val) : Except Msg Val := x.foldlM f .none

/-! ### List objects

`r_concat` appends to the list object that the accumulator holds, and `red -i` sends this object each time. -/

/-- What an accumulator holds: a value, or a list object made by `r_concat` (number in the heap). -/
inductive Slot : Type
  | val (v : Val)
  | obj (a : Nat)

/-- The list objects made so far and their contents. -/
abbrev Heap := List (List Val)

/-- What the receiver finds if it looks at a slot. -/
def Slot.look (h : Heap) : Slot → Val
  | .val v => v
  | .obj a => .list (h[a]?.getD [])

/-- A call of `r_concat` (reduction.py 57-62): None is replaced by a new list object, an existing one gets one more
element. (The third case does not occur: `concat` columns begin with None, and `red` puts nothing else into them.) -/
def concatObj (h : Heap) (acc : Slot) (x : Val) : Except Msg (Heap × Slot) :=
  match acc with
  | .val .none => .ok (h ++ [[x]], .obj h.length)
  | .obj a => .ok (h.set a ((h[a]?.getD []) ++ [x]), .obj a)
  | .val (.list ys) => .ok (h ++ [ys ++ [x]], .obj h.length)
  | .val _ => .error "AttributeError"

/-- One incremental reduction with several columns: which of them are `concat`, and the function of the others. -/
inductive ObjFn : Type
  | concat
  | pure (isCount : Bool) (f : Val → Val → Except Msg Val)

/-- A column of the loop of `NonGroupingReducer.receive` (red.py 208). -/
def ObjFn.call (h : Heap) (acc : Slot) (x : Val) : ObjFn → Except Msg (Heap × Slot)
  | .concat => concatObj h acc x
  | .pure _ f =>
    match f (acc.look h) x with
    | .ok v => .ok (h, .val v)
    | .error m => .error m

/-- The loop of `NonGroupingReducer.receive` (red.py 204-208), with list objects. -/
def objLoop : List ObjFn → Heap → List Slot → List Val → Heap × List Slot × Option Msg
  | f :: fs, h, a :: acc, v :: x =>
    match f.call h a v with
    | .error m => (h, a :: acc, some m)
    | .ok (h', a') => let r := objLoop fs h' acc x; (r.1, a' :: r.2.1, r.2.2)
  | _, h, acc, _ => (h, acc, none)

/-- Where the accumulators begin (red.py 190-196). -/
def ObjFn.start : ObjFn → Slot
  | .pure true _ => .val (.int 0)
  | _ => .val .none

/-- The events that `red -i` sends for some items (red.py 198-210): the item and the accumulators, with the heap at the
time of sending; and the heap at the end. -/
def objRun (fs : List ObjFn) : Heap → List Slot → List (List Val) → List (Heap × Ev (List Val × List Slot)) × Heap
  | h, _, [] => ([], h)
  | h, acc, x :: xs =>
    if x.length < fs.length then
      let r := objRun fs h acc xs; ((h, .err "Input too short.") :: r.1, r.2)
    else
      match objLoop fs h acc x with
      | (h', acc', some m) => let r := objRun fs h' acc' xs; ((h', .err m) :: r.1, r.2)
      | (h', acc', none) => let r := objRun fs h' acc' xs; ((h', .item (x, acc')) :: r.1, r.2)

/-- What a receiver finds in an event: the item, followed by the accumulators as they are now. -/
def found (h : Heap) : Ev (List Val × List Slot) → Ev (List Val)
  | .item (x, acc) => .item (x ++ acc.map (Slot.look h))
  | .err m => .err m
  | .flush => .flush

/-- A receiver that looks at each item as it arrives (e.g. `write`). -/
def foundAtOnce (r : List (Heap × Ev (List Val × List Slot)) × Heap) : List (Ev (List Val)) :=
  r.1.map fun e => found e.1 e.2

/-- A receiver that keeps the items and looks at them at the end (e.g. `reverse`, `sort`, storing in a variable, or a
Python program that collects the output). -/
def foundAtEnd (r : List (Heap × Ev (List Val × List Slot)) × Heap) : List (Ev (List Val)) :=
  r.1.map fun e => found r.2 e.2

end Reduce
end Marcel
