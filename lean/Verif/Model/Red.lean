import Verif.Model.Ops
import Verif.Model.PyDict

/-!
# red (marcel/op/red.py)

`none0` is Python's None and `zero` is 0. Items are tuples (`List V`). Simplifications: items that
are Python lists make `x + tuple(...)` (red.py 210, 241) fail with a TypeError and are not
modelled; grouping values are hashable and compared by identity.
-/

namespace Marcel

variable {V : Type}

/-- One of red's function arguments: grouping (`.`), or a binary function, which may be the
`count` function (`Function.is_grouping`, `Function.is_count` in function.py). -/
inductive RedFn (V : Type) : Type
  | group
  | fn (isCount : Bool) (f : V → V → Except Msg V)

/-- Initial accumulator of `NonGroupingReducer.__init__` (red.py 190-196). -/
def RedFn.start (none0 zero : V) : RedFn V → V
  | .fn true _ => zero
  | _ => none0

/-- The loop `for i in range(self.n)` of both `receive` methods (red.py 204-208, 237-239): component
by component, in place; the first failing function ends it, leaving the components before it
updated. Returns the accumulator and the failure. -/
def redLoop : List (RedFn V) → List V → List V → List V × Option Msg
  | .group :: fs, _ :: acc, v :: x => let r := redLoop fs acc x; (v :: r.1, r.2)
  | .fn _ f :: fs, a :: acc, v :: x =>
    match f a v with
    | .error m => (a :: acc, some m)
    | .ok a' => let r := redLoop fs acc x; (a' :: r.1, r.2)
  | _, acc, _ => (acc, none)

/-- `NonGroupingReducer` (red.py 188-217). The state is `self.accumulator` (None after flush). -/
def redOp (none0 zero : V) (incremental : Bool) (fs : List (RedFn V)) :
    Op (Option (List V)) (List V) (List V) where
  init := some (fs.map (RedFn.start none0 zero))
  item := fun s x =>
    if x.length < fs.length then fatal s "Input too short."
    else
      match s with
      | none => ⟨none, [], some .crash⟩
      | some acc =>
        match redLoop fs acc x with
        | (acc', some m) => fatal (some acc') m
        | (acc', none) => ⟨some acc', if incremental then [.item (x ++ acc')] else [], none⟩
  flush := fun s =>
    match s with
    | some acc => if incremental then ⟨s, [.flush], none⟩ else ⟨none, [.item acc, .flush], none⟩
    | none => ⟨none, [.flush], none⟩
  no_flush := by
    intro s x
    split
    · simp [fatal]
    · cases s with
      | none => simp
      | some acc =>
        rcases h : redLoop fs acc x with ⟨acc', _ | m⟩
        · simp only [h]; split <;> simp
        · simp [h, fatal]

/-- `GroupingReducer.group` (red.py 251-255): the components of `x` at the grouping positions. -/
def groupOf : List (RedFn V) → List V → List V
  | .group :: fs, v :: x => v :: groupOf fs x
  | .fn _ _ :: fs, _ :: x => groupOf fs x
  | _, _ => []

/-- `GroupingReducer.data` (red.py 257-261): the components at the other positions. -/
def dataOf : List (RedFn V) → List V → List V
  | .group :: fs, _ :: x => dataOf fs x
  | .fn _ _ :: fs, v :: x => v :: dataOf fs x
  | _, _ => []

/-- `GroupingReducer` (red.py 220-249). The accumulator of a group is stored in the dict before the
functions are called (233-236), so it stays there even if one of them fails. -/
def redGroupOp [DecidableEq V] (none0 : V) (incremental : Bool) (fs : List (RedFn V)) :
    Op (Option (Dict (List V) (List V))) (List V) (List V) where
  init := some []
  item := fun s x =>
    if x.length < fs.length then fatal s "Input too short."
    else
      match s with
      | none => ⟨none, [], some .crash⟩
      | some d =>
        let g := groupOf fs x
        let acc := (d.get? g).getD (List.replicate fs.length none0)
        match redLoop fs acc x with
        | (acc', some m) => fatal (some (d.set g acc')) m
        | (acc', none) =>
          ⟨some (d.set g acc'), if incremental then [.item (x ++ dataOf fs acc')] else [], none⟩
  flush := fun s =>
    match s with
    | none => ⟨none, [.flush], none⟩
    | some d =>
      if incremental then ⟨s, [.flush], none⟩
      else ⟨if d.isEmpty then s else none, ofItems (d.map (·.2)) ++ [.flush], none⟩
  no_flush := by
    intro s x
    split
    · simp [fatal]
    · cases s with
      | none => simp
      | some d =>
        dsimp only
        rcases h : redLoop fs ((d.get? (groupOf fs x)).getD (List.replicate fs.length none0)) x with ⟨acc', _ | m⟩
        · simp only; split <;> simp
        · simp [fatal]

/-- `Red.setup` (red.py 145-157): which reducer is used. -/
def redIsGrouping (fs : List (RedFn V)) : Bool :=
  fs.any fun f => match f with
    | .group => true
    | .fn _ _ => false

end Marcel
