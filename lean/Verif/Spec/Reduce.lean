import Verif.Model.Reduce

/-! What the standard reduction functions are supposed to compute. Nothing here refers to how marcel does it. -/

namespace Marcel
namespace Reduce

/-- Bit `i` of an integer in two's complement, of any size. -/
def bit (n : Int) (i : Nat) : Bool := (n / 2 ^ i) % 2 = 1

/-- What counts as false in Python. -/
inductive Falsy : Val → Prop
  | none : Falsy .none
  | false : Falsy (.bool Bool.false)
  | zero : Falsy (.int 0)
  | empty : Falsy (.str [])
  | emptyList : Falsy (.list [])

/-- The order of strings, as in a dictionary: by code points, a prefix comes first. -/
def Before (s t : List Char) : Prop :=
  (∃ u, u ≠ [] ∧ t = s ++ u) ∨
  ∃ p a b s' t', s = p ++ a :: s' ∧ t = p ++ b :: t' ∧ a.toNat < b.toNat

/-- Values that are numbers, and which: True and False are 1 and 0. -/
inductive Numbers : List Val → List Int → Prop
  | nil : Numbers [] []
  | int {xs ns} (n : Int) : Numbers xs ns → Numbers (.int n :: xs) (n :: ns)
  | yes {xs ns} : Numbers xs ns → Numbers (.bool true :: xs) (1 :: ns)
  | no {xs ns} : Numbers xs ns → Numbers (.bool false :: xs) (0 :: ns)

/-- `Result f xs v`: reducing the values `xs` with the function called `f` gives `v`. -/
inductive Result : String → List Val → Val → Prop
  | sum {ns : List Int} : ns ≠ [] → Result "+" (ns.map .int) (.int ns.sum)
  | joined {ss : List (List Char)} : ss ≠ [] → Result "+" (ss.map .str) (.str ss.flatten)
  | joinedLists {ls : List (List Val)} : ls ≠ [] → Result "+" (ls.map .list) (.list ls.flatten)
  | product {ns : List Int} : ns ≠ [] → Result "*" (ns.map .int) (.int (ns.foldr (· * ·) 1))
  | mixedSum {xs : List Val} {ns : List Int} : Numbers xs ns → 2 ≤ xs.length → Result "+" xs (.int ns.sum)
  | mixedProduct {xs : List Val} {ns : List Int} : Numbers xs ns → 2 ≤ xs.length → Result "*" xs (.int (ns.foldr (· * ·) 1))
  | repeated {s : List Char} {n : Nat} : Result "*" [.str s, .int n] (.str (List.replicate n s).flatten)
  | repeatedNot {s : List Char} {n : Int} : n ≤ 0 → Result "*" [.str s, .int n] (.str [])
  | repeatedList {l : List Val} {n : Nat} : Result "*" [.int n, .list l] (.list (List.replicate n l).flatten)
  | bitAnd {ns : List Int} {v : Int} : ns ≠ [] → (∀ i, bit v i = true ↔ ∀ n ∈ ns, bit n i = true) →
      Result "&" (ns.map .int) (.int v)
  | bitOr {ns : List Int} {v : Int} : ns ≠ [] → (∀ i, bit v i = true ↔ ∃ n ∈ ns, bit n i = true) →
      Result "|" (ns.map .int) (.int v)
  | bitXor {ns : List Int} {v : Int} : ns ≠ [] →
      (∀ i, bit v i = true ↔ (ns.filter fun n => bit n i).length % 2 = 1) → Result "^" (ns.map .int) (.int v)
  | allTrue {bs : List Bool} {b : Bool} : bs ≠ [] → (b = true ↔ ∀ c ∈ bs, c = true) → Result "&" (bs.map .bool) (.bool b)
  | someTrue {bs : List Bool} {b : Bool} : bs ≠ [] → (b = true ↔ true ∈ bs) → Result "|" (bs.map .bool) (.bool b)
  | oddTrue {bs : List Bool} {b : Bool} : bs ≠ [] → (b = true ↔ bs.count true % 2 = 1) →
      Result "^" (bs.map .bool) (.bool b)
  | andAll {xs : List Val} {v : Val} : (∀ x ∈ xs, ¬ Falsy x) → Result "and" (xs ++ [v]) v
  | andSome {xs ys : List Val} {v : Val} : (∀ x ∈ xs, ¬ Falsy x) → Falsy v → v ≠ .none → Result "and" (xs ++ v :: ys) v
  | orNone {xs : List Val} {v : Val} : (∀ x ∈ xs, Falsy x) → Result "or" (xs ++ [v]) v
  | orSome {xs ys : List Val} {v : Val} : (∀ x ∈ xs, Falsy x) → ¬ Falsy v → Result "or" (xs ++ v :: ys) v
  | greatest {ns : List Int} {m : Int} : m ∈ ns → (∀ n ∈ ns, n ≤ m) → Result "max" (ns.map .int) (.int m)
  | least {ns : List Int} {m : Int} : m ∈ ns → (∀ n ∈ ns, m ≤ n) → Result "min" (ns.map .int) (.int m)
  | last {ss : List (List Char)} {m : List Char} : m ∈ ss → (∀ s ∈ ss, ¬ Before m s) → Result "max" (ss.map .str) (.str m)
  | first {ss : List (List Char)} {m : List Char} : m ∈ ss → (∀ s ∈ ss, ¬ Before s m) → Result "min" (ss.map .str) (.str m)
  | count {xs : List Val} : Result "count" xs (.int xs.length)
  | concat {xs : List Val} : xs ≠ [] → Result "concat" xs (.list xs)
  | nothing {f : String} : f ≠ "count" → Result f [] .none

end Reduce
end Marcel
