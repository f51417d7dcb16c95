import Verif.Model.Args

/-! # Specification of operator arguments (for C37, C38)

How arguments may be arranged: uses of flags, each with or without a value, then the anonymous arguments. Nothing here
refers to the parsing functions; from the model only the declarations (`ArgsDecl`) are used. -/

namespace Marcel
open PyArg
variable {V : Type} [PyArg V]

/-- The argument is the short or long form of a declared flag. -/
def ArgsDecl.IsFlag (d : ArgsDecl V) (x : V) : Prop :=
  ∃ f ∈ d.flags, ∃ s, str x = some s ∧ (f.short = some s ∨ f.long = some s)

/-- The argument looks like a flag: a string of at least two characters starting with `-`. -/
def LooksLikeFlag (x : V) : Prop := ∃ c cs, str x = some ('-' :: c :: cs)

/-- The argument stands for several short flags. -/
def ArgsDecl.Combined (d : ArgsDecl V) (x : V) (letters : List Char) : Prop :=
  2 ≤ letters.length ∧ str x = some ('-' :: letters) ∧ letters.head? ≠ some '-' ∧
  ∀ l ∈ letters, d.IsFlag (ofStr ['-', l] : V)

/-- The use of a flag: what was typed, the value given (if any), and the value it results in. -/
structure Use (V : Type) where
  flag : FlagDecl V
  sym : V
  value : Option V
  result : V

/-- An anonymous argument: what was typed, and its converted value. -/
structure AnonUse (V : Type) where
  raw : V
  result : V

/-- The arguments, as typed. -/
def arranged (uses : List (Use V)) (vals : List (AnonUse V)) : List V :=
  uses.flatMap (fun u => u.sym :: u.value.toList) ++ vals.map (·.raw)

/-- The use of a flag is as declared. -/
structure Use.OK (d : ArgsDecl V) (u : Use V) : Prop where
  declared : u.flag ∈ d.flags
  sym : ∃ s, str u.sym = some s ∧ (u.flag.short = some s ∨ u.flag.long = some s)
  value : ∀ v, u.value = some v → ¬ d.IsFlag v ∧ ¬ LooksLikeFlag v
  none_ : u.flag.arity = .noValue → u.value = none
  one : u.flag.arity = .oneValue → u.value.isSome ∧ isTrue u.result = false
  result : match u.value with
    | some v => u.flag.convert v = some u.result
    | none => u.result = u.flag.default

/-- Names of the arguments given. -/
def givenNames (d : ArgsDecl V) (uses : List (Use V)) (vals : List (AnonUse V)) : List Str :=
  uses.map (·.flag.name) ++ (d.anons.take vals.length).map (·.name)

/-- A permitted arrangement of arguments. -/
structure Arrangement (d : ArgsDecl V) (uses : List (Use V)) (vals : List (AnonUse V)) : Prop where
  flagUses : ∀ u ∈ uses, u.OK d
  once : (uses.map (·.flag.name)).Nodup
  /-- anonymous arguments are not flags; the first doesn't even look like one (if there are any flags) -/
  anon : ∀ a ∈ vals, ¬ d.IsFlag a.raw
  first : ∀ a as, vals = a :: as → d.flags ≠ [] → ¬ LooksLikeFlag a.raw
  /-- a value directly after a flag that may have one belongs to the flag -/
  greedy : vals ≠ [] → ∀ u, uses.getLast? = some u → u.value.isSome ∨ u.flag.arity = .noValue
  /-- positional arguments are converted by their declarations, in order, further ones by that of the list -/
  convert : ∀ (i : Nat) (a : AnonUse V), vals[i]? = some a →
    match d.anons[i]? with
    | some decl => decl.convert a.raw = some a.result
    | none => ∃ l, d.anonList = some l ∧ l.convert a.raw = some a.result
  /-- what is not given has a default -/
  required : ∀ (i : Nat) (decl : AnonDecl V), d.anons[i]? = some decl → vals.length ≤ i → decl.default.isSome
  atMostOne : ∀ g ∈ d.atMostOne, (g.filter (fun n => n ∈ givenNames d uses vals)).length ≤ 1
  exactlyOne : ∀ g ∈ d.exactlyOne, (g.filter (fun n => n ∈ givenNames d uses vals)).length = 1

/-- What ends up in the op, in the order in which it is stored: the values of the flags given, of the positional
arguments (given or default), and the list of the remaining arguments. -/
def argStores (d : ArgsDecl V) (uses : List (Use V)) (vals : List (AnonUse V)) : List (Str × ArgValue V) :=
  uses.map (fun u => (u.flag.target, .one u.result)) ++
  ((d.anons.zip vals).map (fun (decl, a) => (decl.target, .one a.result)) ++
  ((d.anons.drop vals.length).filterMap (fun decl => decl.default.map fun v => (decl.target, .one v)) ++
  d.anonList.toList.map (fun l => (l.target, .list ((vals.drop d.anons.length).map (·.result))))))

end Marcel
