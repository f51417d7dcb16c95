import Verif.Model.Ops

/-!
# cast (marcel/op/cast.py)

Values are arbitrary (`V`), `isNone` says which one is None. A conversion function may fail with an exception (an
`Exception`; functions such as `exit`, which raise something else, are not modelled).
-/

namespace Marcel
namespace Cast

variable {V : Type}

/-- A member of the module `builtins`: is it a type, and what does calling it with one argument do. -/
structure Builtin (V : Type) : Type where
  isType : Bool
  call : V → Except Msg V

/-- `Cast.setup` in interactive use and in scripts (cast.py 64-71): the names are looked up in `builtins`, in order; the
first that is not there ends the command. -/
def setup (builtins : String → Option (Builtin V)) : List String → Except Msg (List (V → Except Msg V))
  | [] => .ok []
  | name :: names =>
    match builtins name with
    | none => .error s!"Not a valid type name: {name}"
    | some b =>
      match setup builtins names with
      | .ok fs => .ok (b.call :: fs)
      | .error m => .error m

/-- The loop of `Cast.receive` (cast.py 76-80) from position `i` on: `Op.call` sends an error and gives the item up when
the function fails. -/
def castFrom (isNone : V → Bool) (fs : List (V → Except Msg V)) (i : Nat) : List V → Except Msg (List V)
  | [] => .ok []
  | v :: vs =>
    let w : Except Msg V :=
      if isNone v then .ok v
      else
        match fs[i]? with
        | some f => f v
        | none => .ok v
    match w with
    | .error m => .error m
    | .ok w =>
      match castFrom isNone fs (i+1) vs with
      | .ok ws => .ok (w :: ws)
      | .error m => .error m

/-- `Cast.receive` (cast.py 73-84). -/
def castOp (isNone : V → Bool) (fs : List (V → Except Msg V)) : Op Unit (List V) (List V) where
  init := ()
  item := fun _ x =>
    match castFrom isNone fs 0 x with
    | .ok y => ⟨(), [.item y], none⟩
    | .error m => fatal () m
  flush := fun _ => ⟨(), [.flush], none⟩
  no_flush := by intro s x; cases castFrom isNone fs 0 x <;> simp [fatal]

end Cast
end Marcel
