import Verif.Model.PyDict
import Verif.Model.Lexer

/-! # Model of argument parsing

`/repo/marcel/argsparser.py` 57-171 (declarations), 295-500 (`ArgsParser.parse`), 503-536 (`PipelineArgsParser`), and
`/repo/marcel/op/runpipeline.py` 38-55, 107-127 (binding the arguments of a pipeline).

Every exception raised in these functions is (a subclass of) `KillCommandException`: errors are raised as `ArgsError`,
and everything raised by a conversion function is turned into an `ArgsError` at lines 454-458. So the model has one
kind of failure: `none`. The conversion functions themselves (lines 176-289) are parameters of the model.

Parsing happens before the command runs, so a failure here means that nothing is executed. -/

namespace Marcel

/-- The Python values given as arguments: which of them are strings (`isinstance(x, str)`), strings made by the
parser, and the value `True`. -/
class PyArg (V : Type) where
  str : V → Option Str
  ofStr : Str → V
  str_ofStr : ∀ s, str (ofStr s) = some s
  tru : V
  isTrue : V → Bool
  tru_isTrue : isTrue tru = true

open PyArg

/-- argsparser.py 41-43 -/
inductive Arity | noValue | oneValue | optionalValue
deriving DecidableEq, Repr

/-- argsparser.py 57-92, 134-141. `convert` is `none` where it raises. -/
structure FlagDecl (V : Type) where
  name : Str
  short : Option Str
  long : Option Str
  arity : Arity
  default : V
  target : Str
  convert : V → Option V

/-- argsparser.py 103-107, 143-144. `default` is `none` for `NO_DEFAULT`. -/
structure AnonDecl (V : Type) where
  name : Str
  default : Option V
  target : Str
  convert : V → Option V

/-- argsparser.py 110-113, 146-147 -/
structure AnonListDecl (V : Type) where
  name : Str
  target : Str
  convert : V → Option V

/-- argsparser.py 122-130, 149-153 -/
structure ArgsDecl (V : Type) where
  flags : List (FlagDecl V)
  anons : List (AnonDecl V)
  anonList : Option (AnonListDecl V)
  atMostOne : List (List Str)
  exactlyOne : List (List Str)

/-- What is put into the op: a value, or the list of the remaining anonymous arguments. -/
inductive ArgValue (V : Type)
  | one (v : V)
  | list (vs : List V)

variable {V : Type} [PyArg V]

/-- argsparser.py 323-328: is this string the short or long form of the flag? -/
def FlagDecl.symbol (f : FlagDecl V) (s : Str) : Bool := f.short = some s || f.long = some s

/-- argsparser.py 323-328 -/
def ArgsDecl.findFlag (d : ArgsDecl V) (x : V) : Option (FlagDecl V) :=
  match str x with
  | some s => d.flags.find? (·.symbol s)
  | none => none

/-- argsparser.py 94-100 -/
def plausible (x : V) : Bool :=
  match str x with
  | some s => 2 ≤ s.length && s.head? = some '-'
  | none => false

/-- argsparser.py 351-362 -/
def ArgsDecl.expand (d : ArgsDecl V) (x : V) : List V :=
  match str x with
  | some ('-' :: c :: d' :: cs) =>
    if c ≠ '-' then
      if (c :: d' :: cs).all (fun l => (d.findFlag (ofStr ['-', l] : V)).isSome)
      then (c :: d' :: cs).map (fun l => ofStr ['-', l])
      else [x]
    else [x]
  | _ => [x]

/-- argsparser.py 411-416: the local variables of `extract_flags_and_anon`. -/
structure ArgState (V : Type) where
  flags : Dict Str V := []
  anon : Dict Str V := []
  anonList : List V := []
  current : Option (FlagDecl V) := none
  flagOk : Bool

/-- argsparser.py 437-447: an anonymous argument. -/
def ArgsDecl.stepAnon (d : ArgsDecl V) (st : ArgState V) (x : V) : Option (ArgState V) :=
  if st.anon.length ≥ d.anons.length then
    match d.anonList with
    | some l => (l.convert x).map fun v => { st with anonList := st.anonList ++ [v], flagOk := false }
    | none => none
  else
    match d.anons[st.anon.length]? with
    | some a => (a.convert x).map fun v => { st with anon := st.anon.set a.name v, flagOk := false }
    | none => none

/-- argsparser.py 420-451: one (expanded) argument. -/
def ArgsDecl.step (d : ArgsDecl V) (st : ArgState V) (x : V) : Option (ArgState V) :=
  match d.findFlag x with
  | some f =>
    if st.flagOk then
      if st.flags.has f.name then none
      else some { st with flags := st.flags.set f.name f.default, current := some f }
    else none
  | none =>
    if plausible x && st.flagOk then none
    else
      match st.current with
      | none => d.stepAnon st x
      | some f =>
        if f.arity = .noValue then d.stepAnon st x
        else (f.convert x).map fun v => { st with flags := st.flags.set f.name v, current := none }

/-- argsparser.py 418-451: the two loops. -/
def ArgsDecl.extract (d : ArgsDecl V) (st : ArgState V) : List V → Option (ArgState V)
  | [] => some st
  | x :: xs =>
    match (d.expand x).foldlM d.step st with
    | some st' => d.extract st' xs
    | none => none

/-- argsparser.py 330-339, restricted to flags: the flag found by name. (The names in `flags` come from flags.) -/
def ArgsDecl.flagByName (d : ArgsDecl V) (name : Str) : Option (FlagDecl V) := d.flags.find? (·.name = name)

/-- argsparser.py 467-475: `value is True` against the flag's arity. -/
def ArgsDecl.checkValueCounts (d : ArgsDecl V) (flags : Dict Str V) : Bool :=
  flags.all fun (name, v) =>
    match d.flagByName name with
    | some f =>
      if f.arity = .oneValue && isTrue v then false
      else if f.arity = .noValue && !isTrue v then false
      else true
    | none => false

/-- `len(group.intersection(names))` -/
def inter (group names : List Str) : Nat := (group.filter (fun n => names.contains n)).length

/-- argsparser.py 477-481 -/
def ArgsDecl.checkAtMostOne (d : ArgsDecl V) (names : List Str) : Bool :=
  d.atMostOne.all fun g => inter g names ≤ 1

/-- argsparser.py 483-487 -/
def ArgsDecl.checkExactlyOne (d : ArgsDecl V) (names : List Str) : Bool :=
  d.exactlyOne.all fun g => inter g names = 1

/-- argsparser.py 494-498: the loop over the anonymous arguments not given. (The code takes `anon_args[len(anon)]`
each time; as names are unique, these are the remaining declarations in order.) -/
def completeAnon (anon : Dict Str V) : List (AnonDecl V) → Option (Dict Str V)
  | [] => some anon
  | a :: as =>
    match a.default with
    | none => none
    | some v => completeAnon (anon.set a.name v) as

/-- argsparser.py 330-339: the target of the argument with the name. -/
def ArgsDecl.targetOf (d : ArgsDecl V) (name : Str) : Option Str :=
  match d.flags.find? (·.name = name) with
  | some f => some f.target
  | none =>
    match d.anons.find? (·.name = name) with
    | some a => some a.target
    | none =>
      match d.anonList with
      | some l => if l.name = name then some l.target else none
      | none => none

/-- argsparser.py 312-317: storing values in the op. -/
def ArgsDecl.transfer (d : ArgsDecl V) (op : Dict Str (ArgValue V)) :
    List (Str × ArgValue V) → Option (Dict Str (ArgValue V))
  | [] => some op
  | (name, v) :: rest =>
    match d.targetOf name with
    | some t => d.transfer (op.set t v) rest
    | none => none

/-- argsparser.py 295-317, `parse`. (`names` also gets the declaration object of the anonymous list, line 304, which
is not a name and so is in no group.) The result is `op.__dict__`. -/
def ArgsDecl.parse (d : ArgsDecl V) (args : List V) (op : Dict Str (ArgValue V)) : Option (Dict Str (ArgValue V)) := do
  let st ← d.extract { flagOk := decide (d.flags.length > 0) } args
  let names := st.flags.keys ++ st.anon.keys
  if !st.anonList.isEmpty && d.anonList.isNone then none   -- 303, 462-464
  if !d.checkValueCounts st.flags then none
  if !d.checkAtMostOne names then none
  if !d.checkExactlyOne names then none
  let anon ← completeAnon st.anon (d.anons.drop st.anon.length)
  let op ← d.transfer op (st.flags.map fun (k, v) => (k, .one v))
  let list := match d.anonList with
    | some l => [(l.name, ArgValue.list st.anonList)]
    | none => []
  d.transfer op (anon.map (fun (k, v) => (k, .one v)) ++ list)

/-- argsparser.py 78-82, 134-141, 369-404: declarations that pass `validate` (and the assertions of `Flag`), and the
defaults of flags (134-141: only flags with an optional value have a default other than `True`). -/
structure ArgsDecl.Valid (d : ArgsDecl V) : Prop where
  shortForm : ∀ f ∈ d.flags, ∀ s, f.short = some s → ∃ c, c ≠ '-' ∧ s = ['-', c]
  longForm : ∀ f ∈ d.flags, ∀ s, f.long = some s → ∃ c cs, c ≠ '-' ∧ s = '-' :: '-' :: c :: cs
  symbols : ∀ (i j : Nat) (f g : FlagDecl V), d.flags[i]? = some f → d.flags[j]? = some g →
    ∀ s, f.symbol s = true → g.symbol s = true → i = j
  names : (d.flags.map (·.name) ++ (d.anons.map (·.name) ++ (d.anonList.toList.map (·.name)))).Nodup
  default : ∀ f ∈ d.flags, f.arity ≠ .optionalValue → f.default = tru
  anonOrder : ∀ (i j : Nat) (a b : AnonDecl V), d.anons[i]? = some a → d.anons[j]? = some b → i ≤ j →
    a.default.isSome → b.default.isSome
  listTerminal : d.anonList.isSome → ∀ a ∈ d.anons, a.default = none

/-! ## Arguments of pipelines -/

/-- argsparser.py 532-535: the string after `--` or `-`. -/
def flagName (s : Str) : Option Str :=
  match s with
  | '-' :: '-' :: n => some n
  | '-' :: n => some n
  | _ => none

/-- argsparser.py 530-536. `isIdentifier` is Python's `str.isidentifier`, left open. -/
def paramFlag (isIdentifier : Str → Bool) (x : V) : Option Str :=
  match str x with
  | none => none
  | some s =>
    match flagName s with
    | some n => if n ≠ [] && isIdentifier n then some n else none
    | none => none

/-- argsparser.py 508-528, the loop: `args`, `kwargs`, `param_name`, `flags_done`. -/
def pipelineArgs (isIdentifier : Str → Bool) (args : List V) (kwargs : Dict Str V) (param : Option Str) (done : Bool) :
    List V → Option (List V × Dict Str V)
  | [] => some (args, kwargs)
  | x :: xs =>
    match paramFlag isIdentifier x with
    | some n => if done then none else pipelineArgs isIdentifier args kwargs (some n) done xs
    | none =>
      match param with
      | none => pipelineArgs isIdentifier (args ++ [x]) kwargs none true xs
      | some n =>
        if kwargs.has n then none
        else pipelineArgs isIdentifier args (kwargs.set n x) none done xs

/-- runpipeline.py 107-127, `bindings`; the result maps parameters to values, `none` being Python's `None`.
(`unset` is a set, so the order in which the remaining parameters are added is not determined; here it is the order of
the parameters. The order of the bindings has no effect.) -/
def bindings (params : List Str) (args : List V) (kwargs : Dict Str V) : Option (Dict Str (Option V)) :=
  if args.length > params.length then none
  else
    let pos : Dict Str (Option V) :=
      (params.zip args).foldl (fun b (p, v) => Dict.set b p (some v)) []
    if kwargs.keys.any (fun k => pos.has k) then none
    else
      let b := kwargs.foldl (fun b (k, v) => Dict.set b k (some v)) pos
      some ((params.filter fun p => !b.has p).foldl (fun b p => Dict.set b p none) b)

/-- runpipeline.py 50-55 and 64: what `setup` does with the arguments (before the pipeline's own setup). -/
def pipelineBindings (params : List Str) (args : List V) (kwargs : Dict Str V) : Option (Dict Str (Option V)) :=
  if params.length < args.length + kwargs.length then none
  else bindings params args kwargs

end Marcel
