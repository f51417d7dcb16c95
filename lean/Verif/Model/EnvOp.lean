import Verif.Model.Lexer
import Verif.Model.Ops
import Verif.Model.PyDict

/-! # Model of the variables at a start of marcel, of `env`, and of `import`

`/repo/marcel/env.py` 44-48, 125-159, 249-273; `/repo/marcel/configscript.py` 21-60; `/repo/marcel/object/workspace.py` 125-160, 242-258; `/repo/marcel/op/env.py` 66-223;
`/repo/marcel/op/import.py` 51-118. -/

namespace Marcel.EnvOp

variable {V : Type}

/-! ## Start -/

/-- A function in `PermanentNamespace`, without its argument: one that computes a value, or one that returns what the variable `value` of `initial_namespace` holds when the function is called
(env.py 158: Python's functions refer to variables, not to the values these have when the function is made). -/
inductive Later (V : Type)
  | computes (v : V)
  | value

/-- The loop env.py 156-158, over the items of the module `marcel.builtin`. The result also has what `value` holds in the end. -/
def builtinLoop (perm : Dict Str (Later V)) (value : Option V) : List (Str × V) → Dict Str (Later V) × Option V
  | [] => (perm, value)
  | (key, v) :: items =>
    if key.head? = some '_' then builtinLoop perm (some v) items
    else builtinLoop (perm.set key .value) (some v) items

/-- `initial_namespace` (env.py 125-159): `explicit` are the assignments in 139-155. -/
def initialNamespace (explicit : Dict Str V) (builtins : List (Str × V)) : Dict Str (Later V) × Option V :=
  builtinLoop (explicit.map fun kv => (kv.1, .computes kv.2)) none builtins

/-- Calling such a function. Without builtins there is no `value`; then there are no such functions either. -/
def Later.call (value : Option V) : Later V → Option V
  | .computes v => some v
  | .value => value

/-- `add_to_namespace` (env.py 46-48) -/
def addToNamespace (value : Option V) (ns : Dict Str V) : Dict Str (Later V) → Option (Dict Str V)
  | [] => some ns
  | (x, f) :: rest =>
    match f.call value with
    | none => none
    | some v => addToNamespace value (ns.set x v) rest

/-- env.py 271-273 -/
def neverMutable : List Str := ["MARCEL_VERSION".toList, "HOME".toList, "USER".toList, "HOST".toList, "WORKSPACE".toList]

inductive StartErr
  /-- `KillCommandException`, configscript.py 37-40 -/
  | neverMutable
  /-- `StartupScriptException`, configscript.py 57-59 -/
  | script
  /-- UnboundLocalError; does not happen -/
  | unbound
deriving DecidableEq, Repr

/-- `Workspace.open` (workspace.py 246-252), up to restoring what was stored. The startup script is a function from the namespace it sees to the variables it defines (configscript.py 43-60), `none`
if it raises an exception. -/
def start (explicit : Dict Str V) (builtins : List (Str × V)) (script : Dict Str V → Option (Dict Str V)) : Except StartErr (Dict Str V) :=
  match addToNamespace (initialNamespace explicit builtins).2 [] (initialNamespace explicit builtins).1 with
  | none => .error .unbound
  | some ns =>
    match script ns with
    | none => .error .script
    | some defined => if neverMutable.any fun x => defined.has x then .error .neverMutable else .ok (ns.update defined)

/-! ## env -/

/-- Python's `<` on text: by code points. -/
def strLt : Str → Str → Bool
  | [], [] => false
  | [], _ :: _ => true
  | _ :: _, [] => false
  | a :: s, b :: t => if a = b then strLt s t else a.toNat < b.toNat

/-- Python's `<` on pairs: the second components are compared only if the first ones are equal. `lt v w = none` models an exception. -/
def pairLt (lt : V → V → Option Bool) (a b : Str × V) : Option Bool :=
  if a.1 = b.1 then lt a.2 b.2 else some (strLt a.1 b.1)

/-- `sorted` on pairs. -/
def sortedPairs (lt : V → V → Option Bool) (l : List (Str × V)) : Option (List (Str × V)) :=
  (pySort (pairLt lt) [] (l.map fun kv => (kv, ()))).map fun l => l.map (·.1)

/-- Python's `in` on text. -/
def isIn (pat : Str) : Str → Bool
  | [] => pat.isPrefixOf []
  | c :: cs => pat.isPrefixOf (c :: cs) || isIn pat cs

/-- The arguments of `env` (op/env.py 80-92). -/
structure EnvArgs where
  var : Option Str
  delete : Option Str
  pattern : Option Str
  builtins : Bool
  os : Bool

inductive EnvErr
  /-- `KillCommandException`: undefined variable (op/env.py 163-164), or immutable (workspace.py 190-195) -/
  | kill
  /-- `sorted` raises an exception -/
  | sort
  /-- op/env.py 213-214 -/
  | assertion
deriving DecidableEq, Repr

/-- What `env` sends, the namespace afterwards, and the exception it raises. -/
structure EnvResult (V : Type) where
  out : List (Str × V)
  ns : Dict Str V
  err : Option EnvErr

/-- Python's truth of an optional text: not None, and not empty. -/
def given (s : Option Str) : Option Str :=
  match s with
  | some (c :: cs) => some (c :: cs)
  | _ => none

/-- op/env.py 199-200 -/
def includes (a : EnvArgs) (x : Str) : Bool := a.builtins || x != "__builtins__".toList

/-- `Env.run` (op/env.py 127-135), `EnvMarcel` (167-200), `EnvOS` (203-223). `isNone` recognizes Python's None, `refused` are the variables that must not be changed. -/
def env (lt : V → V → Option Bool) (isNone : V → Bool) (refused : Str → Bool) (os : Dict Str V) (ns : Dict Str V) (a : EnvArgs) : EnvResult V :=
  match given a.var with
  | some x =>
    -- 169-175, 205-211
    match (if a.os then os else ns).get? x with
    | none => ⟨[], ns, some .kill⟩
    | some v => if isNone v then ⟨[], ns, some .kill⟩ else ⟨[(x, v)], ns, none⟩
  | none =>
    match given a.delete with
    | some x =>
      if a.os then ⟨[], ns, some .assertion⟩
      else if refused x then ⟨[], ns, some .kill⟩
      else
        -- 177-183; workspace.py 147-157
        match ns.get? x with
        | none => ⟨[], ns, none⟩
        | some v => ⟨[(x, v)], ns.erase x, none⟩
    | none =>
      match given a.pattern with
      | some pat =>
        if a.os then
          -- 216-219
          match sortedPairs lt os with
          | none => ⟨[], ns, some .sort⟩
          | some l => ⟨l.filter fun kv => isIn pat kv.1, ns, none⟩
        else
          -- 185-192
          match sortedPairs lt (ns.filter fun kv => isIn pat kv.1 && includes a kv.1) with
          | none => ⟨[], ns, some .sort⟩
          | some l => ⟨l, ns, none⟩
      | none =>
        if a.os then
          -- 221-223
          match sortedPairs lt os with
          | none => ⟨[], ns, some .sort⟩
          | some l => ⟨l, ns, none⟩
        else
          -- 194-197
          match sortedPairs lt ns with
          | none => ⟨[], ns, some .sort⟩
          | some l => ⟨l.filter fun kv => includes a kv.1, ns, none⟩

/-! ## import -/

/-- What `import_module` gives (util.py 264-265): the module object, and its `__dict__`. -/
structure Module (V : Type) where
  value : V
  dict : Dict Str V

/-- The arguments of `import` (op/import.py 53-58). -/
structure ImportArgs where
  module : Str
  symbol : Option Str
  as : Option Str

inductive ImportErr
  /-- the checks in `setup`, op/import.py 81-88 -/
  | refused
  /-- 115-116 -/
  | noModule
  /-- 117-118 -/
  | noSymbol
deriving DecidableEq, Repr

/-- The loop op/import.py 101-106. -/
def importAll (ns : Dict Str V) : List (Str × V) → Dict Str V
  | [] => ns
  | (x, v) :: rest => if x.head? = some '_' then importAll ns rest else importAll (ns.set x v) rest

/-- op/import.py 83: a symbol that is neither `*` nor an identifier. -/
def badSymbol (identifier : Str → Bool) (a : ImportArgs) : Bool :=
  match given a.symbol with
  | some s => s ≠ ['*'] && !identifier s
  | none => false

/-- op/import.py 85 -/
def badName (identifier : Str → Bool) (a : ImportArgs) : Bool :=
  match given a.as with
  | some n => !identifier n
  | none => false

/-- op/import.py 90-118 -/
def importRun (modules : Str → Option (Module V)) (ns : Dict Str V) (a : ImportArgs) : Dict Str V × Option ImportErr :=
  match modules a.module with
  | none => (ns, some .noModule)
  | some m =>
    match a.symbol with
    | none => (ns.set (a.as.getD a.module) m.value, none)
    | some s =>
      if s = ['*'] then (importAll ns m.dict, none)
      else
        match m.dict.get? s with
        | none => (ns, some .noSymbol)
        | some v => (ns.set (a.as.getD s) v, none)

/-- op/import.py 81-118. `identifier` is `str.isidentifier`. The variables of the shell may all be assigned to (the immutable ones are immutable only for the API, which has no `import`). -/
def import_ (identifier : Str → Bool) (modules : Str → Option (Module V)) (ns : Dict Str V) (a : ImportArgs) : Dict Str V × Option ImportErr :=
  if badSymbol identifier a then (ns, some .refused)
  else if badName identifier a then (ns, some .refused)
  else if a.symbol = some ['*'] ∧ a.as ≠ none then (ns, some .refused)
  else importRun modules ns a

end Marcel.EnvOp
