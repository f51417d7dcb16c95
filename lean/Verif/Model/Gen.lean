import Verif.Model.Stream

/-!
# gen (marcel/op/gen.py)
-/

namespace Marcel

/-- Decimal digits of a natural number as code points, most significant first (`str(n)`). Strings are lists
of code points, which is how Python compares them. -/
def decimal (n : Nat) : List Nat :=
  if n < 10 then [48 + n] else decimal (n / 10) ++ [48 + n % 10]

/-- Python's `str` on an int. -/
def pyStr : Int → List Nat
  | .ofNat n => decimal n
  | .negSucc n => 45 :: decimal (n + 1)

/-- Python's `'{:>0N}'.format(x)`: right aligned in `N` columns, filled with '0'. -/
def zeroFill (width : Nat) (s : List Nat) : List Nat :=
  List.replicate (width - s.length) 48 ++ s

/-- What `gen` sends: an int, or a padded string. -/
inductive GenOut
  | num (x : Int)
  | str (s : List Nat)
  deriving DecidableEq, Repr

/-- `Gen.setup` (gen.py 78-90); the result is the width of the format, if there is one. A `pad` that
is not positive always kills, as `str` is never empty. -/
def genSetup (count start : Int) (pad : Option Int) : Except Exn (Option Nat) :=
  match pad with
  | none => .ok none
  | some p =>
    if count = 0 then .error .kill
    else if start < 0 then .error .kill
    else if ((pyStr (start + count - 1)).length : Int) > p then .error .kill
    else .ok (some p.toNat)

/-- `format.format(x) if format else x` (gen.py 97, 101). -/
def genFormat (format : Option Nat) (x : Int) : GenOut :=
  match format with
  | none => .num x
  | some w => .str (zeroFill w (pyStr x))

/-- The loops of `Gen.run` (gen.py 92-101) after at most `steps` iterations, from `x` on: what has been sent,
and whether the loop has ended. `stop` is the end of the range; `none` is `while True`. -/
def genLoop (format : Option Nat) (stop : Option Int) : Nat → Int → List GenOut × Bool
  | 0, x => ([], match stop with | none => false | some e => decide (e ≤ x))
  | k + 1, x =>
    match stop with
    | none =>
      let r := genLoop format stop k (x + 1)
      (genFormat format x :: r.1, r.2)
    | some e =>
      if e ≤ x then ([], true)
      else
        let r := genLoop format stop k (x + 1)
        (genFormat format x :: r.1, r.2)

/-- `gen count start [--pad pad]` observed for `steps` loop iterations: setup, then run. -/
def gen (count start : Int) (pad : Option Int) (steps : Nat) : Except Exn (List GenOut × Bool) :=
  match genSetup count start pad with
  | .error e => .error e
  | .ok format =>
    if count = 0 then .ok (genLoop format none steps start)
    else .ok (genLoop format (some (start + count)) steps start)

end Marcel
