import Verif.Model.Ops

/-!
# Python values, `expand` and `squish`
-/

namespace Marcel

/-- Python values, as far as marcel looks into them (`tuple`, `list`, `set`, `dict`/Struct,
generators); everything else is an `atom`. -/
inductive PyVal : Type
  | none
  | atom (n : Int)
  | tup (xs : List PyVal)
  | lst (xs : List PyVal)
  | set (xs : List PyVal)
  | dict (kvs : List (PyVal × PyVal))
  | gen (xs : List PyVal)

namespace PyVal

/-- What `Op.receive_input` passes to `receive` for a value sent to it (core.py 102): a tuple or list
is taken as it is, anything else becomes a 1-tuple. An item is represented by the list of its
components; whether it is a tuple or a list is not recorded. -/
def wrap : PyVal → List PyVal
  | .tup xs => xs
  | .lst xs => xs
  | v => [v]

/-- The elements of an expandable value (expand.py 114-127): sequence, generator, set, dict, Struct. -/
def elements : PyVal → Option (List PyVal)
  | .tup xs => some xs
  | .lst xs => some xs
  | .gen xs => some xs
  | .set xs => some xs
  | .dict kvs => some (kvs.map fun kv => .tup [kv.1, kv.2])
  | _ => Option.none

end PyVal

/-- `Expander.expand` (expand.py 113-127). -/
def expandSeq (x : List PyVal) : List PyVal :=
  match x with
  | [only] =>
    match only.elements with
    | some es => es
    | none => x
  | _ => x

/-- `SequenceExpander.receive` (expand.py 135-137) without a position, `ComponentExpander.receive`
(146-163) with one. A negative position violates the assertion in line 150. What is sent is wrapped by
the receiver. -/
def expandOp (position : Option Int) : Op Unit (List PyVal) (List PyVal) where
  init := ()
  item := fun _ x =>
    match position with
    | none => ⟨(), ofItems ((expandSeq x).map PyVal.wrap), none⟩
    | some p =>
      if p ≥ x.length then ⟨(), [.item x], none⟩
      else if p < 0 then ⟨(), [], some .crash⟩
      else
        let pre := x.take p.toNat
        let post := x.drop (p.toNat + 1)
        match x[p.toNat]? with
        | none => ⟨(), [], some .crash⟩
        | some v => ⟨(), ofItems ((expandSeq [v]).map fun y => pre ++ [y] ++ post), none⟩
  flush := fun _ => ⟨(), [.flush], none⟩
  no_flush := by
    intro s x
    split
    · simp [ofItems]
    · split
      · simp
      · split
        · simp
        · dsimp only; split <;> simp [ofItems]

/-- `Squish.receive` (squish.py 73-76): `functools.reduce` from None, each call guarded by `Op.call`. -/
def squishOp (f : PyVal → PyVal → Except Msg PyVal) : Op Unit (List PyVal) (List PyVal) where
  init := ()
  item := fun _ x =>
    match x.foldlM f PyVal.none with
    | .ok v => ⟨(), [.item v.wrap], none⟩
    | .error m => fatal () m
  flush := fun _ => ⟨(), [.flush], none⟩
  no_flush := by intro s x; cases x.foldlM f PyVal.none <;> simp [fatal]

end Marcel
