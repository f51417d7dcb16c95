import Verif.Model.Ops
import Verif.Model.Red
import Verif.Model.Gen
import Verif.Model.Api
import Verif.Model.Resolve

/-! # Model of the execution of a command, from the text to the output

Glue between `Model/Resolve` (from the text to the operators and their arguments), `Model/Args` and `Model/Api` (parsing of the arguments), `Model/Ops` and `Model/Gen` (the operators) and
`Model/Stream` (push execution): `/repo/marcel/parser.py` 1278-1295; `/repo/marcel/argsparser.py` 176-184, 260-278; `/repo/marcel/core.py` 106-110, 179-215; `/repo/marcel/pipeline.py` 48-69, 236-240, 306-338;
`setup` of the operators.

The operators are `gen`, `map`, `select`, `head`, `tail`, `reverse`, `sort`, `unique`, `window`, `squish`, `expand`, `red`; commands with other operators have the result `none` here. -/

namespace Marcel.Exec

/-- A function given as an argument: by an expression, or by a name or symbol (argsparser.py 269-276). -/
inductive FnRef
  | source (src : Str)
  | named (name : Str)
deriving DecidableEq, Repr

/-- Arguments of the operators. -/
inductive XArg
  | str (s : Str)
  | fn (f : FnRef)
  | int (n : Int)
  | true_
  | none_
  | pipe
deriving DecidableEq, Repr

instance : PyArg XArg where
  str := fun | .str x => some x | _ => none
  ofStr := .str
  str_ofStr := fun _ => rfl
  tru := .true_
  isTrue := fun | .true_ => true | _ => false
  tru_isTrue := rfl

/-- What is left open about Python: the values in streams, and what functions do to them. -/
structure World (V : Type) where
  /-- `f(*x)` -/
  fn : FnRef → V → Except Msg V
  /-- core.py 102: a value that is not a tuple or list is made a tuple of length one. -/
  wrap : V → V
  truth : V → Bool
  /-- `isinstance(x, int)`, and the number -/
  toInt : V → Option Int
  ofInt : Int → V
  ofStr : List Nat → V
  /-- `a < b`; none: TypeError -/
  lt : V → V → Option Bool
  hashable : V → Bool
  /-- `[]` -/
  empty : V
  /-- `f(a, x)`, for the functions of `red` and `squish` -/
  fn2 : FnRef → V → V → Except Msg V
  /-- The components of an item, which is a tuple or list. -/
  elems : V → List V
  /-- A tuple -/
  seq : List V → V
  /-- `None` -/
  none0 : V
  /-- `0` -/
  zero : V
  /-- What is in a value that can be expanded: a sequence, generator, set, dict or Struct (expand.py 109-119). -/
  elements : V → Option (List V)
  /-- argsparser.py 269-276: whether the string is a symbol or the name of a function -/
  isFunction : Str → Bool
  /-- parser.py 349-376: the source is that of a function (without or with `lambda`), and its compilation succeeds -/
  compiles : Str → Bool

variable {V : Type} [DecidableEq V]

/-- The digits after the first of a numeral, for `int`. -/
def moreDigits (acc : Nat) : Str → Option Nat
  | [] => some acc
  | c :: cs =>
    if c = '_' then
      match cs with
      | [] => none
      | d :: ds => if d.isDigit then moreDigits (10 * acc + (d.toNat - 48)) ds else none
    else if c.isDigit then moreDigits (10 * acc + (c.toNat - 48)) cs else none

/-- Digits, for `int`. -/
def digits : Str → Option Nat
  | [] => none
  | c :: cs => if c.isDigit then moreDigits (c.toNat - 48) cs else none

/-- Python's `int` on a string (argsparser.py 181); none: ValueError. Simplification: only ASCII digits. -/
def pyInt (s : Str) : Option Int :=
  match pyStrip s with
  | '-' :: r => (digits r).map fun n => -(n : Int)
  | '+' :: r => (digits r).map fun n => (n : Int)
  | r => (digits r).map fun n => (n : Int)

/-- `str_to_int` (argsparser.py 176-184) -/
def strToInt : XArg → Option XArg
  | .int n => some (.int n)
  | .fn f => some (.fn f)
  | .str s => (pyInt s).map .int
  | _ => none

/-- `function` (argsparser.py 260-278) -/
def toFunction (w : World V) : XArg → Option XArg
  | .fn f => some (.fn f)
  | .str s => if w.isFunction s then some (.fn (.named s)) else none
  | _ => none

/-- The conversions. Those that the operators here don't use are irrelevant. -/
def conversions (w : World V) : Api.Py XArg where
  strToInt := strToInt
  toFloat := some
  checkStr := some
  checkStrOrFile := some
  checkPipeline := some
  function := toFunction w
  functionOrPipeline := some
  forkGen := some
  cluster := some
  strOrPipeline := some
  truth := fun _ => true
  none_ := .none_
  zero := .int 0
  rGroup := .none_

/-- `create_op_builtin` (parser.py 1291-1293): what is given to the argument parser. The value of a string token is the (original) string, that of an expression a function
(parser.py 418-419, 349-371); none: KillCommandException (373-374). -/
def argOf (w : World V) : CArg → Option XArg
  | .tok (.str _ lit _) => some (.str lit.original)
  | .tok (.expr src) => if w.compiles src then some (.fn (.source src)) else none
  | .flag s => some (.str s)
  | _ => some .pipe

/-- The values of all arguments (parser.py 1291-1293). -/
def argsOf (w : World V) : List CArg → Option (List XArg)
  | [] => some []
  | c :: cs =>
    match argOf w c with
    | none => none
    | some x => (argsOf w cs).map (x :: ·)

/-- `eval_function` (core.py 179-199, types: int) for an argument converted by `str_to_int`. -/
def evalInt (w : World V) : XArg → Except Exn Int
  | .int n => .ok n
  | .fn f =>
    match w.fn f w.empty with
    | .error _ => .error .kill
    | .ok v =>
      match w.toInt v with
      | some n => .ok n
      | none => .error .kill
  | _ => .error .crash

/-- The field of an operator; `None` if it isn't set. -/
def field (op : Dict Str (ArgValue XArg)) (name : String) : XArg :=
  match op.get? name.toList with
  | some (.one v) => v
  | _ => .none_

/-- The function in a field. -/
def fieldFn (w : World V) (op : Dict Str (ArgValue XArg)) (name : String) (x : V) : Except Msg V :=
  match field op name with
  | .fn f => w.fn f x
  | _ => .error "not callable"

/-- An operator after `setup`: `gen`, by what it has sent after so many steps, and whether it has ended; or another one, with `must_not_be_first_in_pipeline`. -/
inductive Ready (V : Type) : Type 1
  | source (sent : Nat → List V × Bool)
  | stage (notFirst : Bool) (op : AnyOp V)

/-- What `gen` sends. -/
def genValue (w : World V) : GenOut → V
  | .num x => w.wrap (w.ofInt x)
  | .str s => w.wrap (w.ofStr s)

/-- `eval_function` for an argument that may be missing. -/
def evalPad (w : World V) : XArg → Except Exn (Option Int)
  | .none_ => .ok none
  | x => (evalInt w x).map some

/-- `Gen.setup` and `run` (gen.py 77-101) -/
def setupGen (w : World V) (op : Dict Str (ArgValue XArg)) : Except Exn (Ready V) :=
  match evalPad w (field op "pad_arg") with
  | .error e => .error e
  | .ok pad =>
    match evalInt w (field op "count_arg") with
    | .error e => .error e
    | .ok count =>
      match evalInt w (field op "start_arg") with
      | .error e => .error e
      | .ok start =>
        match genSetup count start pad with
        | .error e => .error e
        | .ok format => .ok (.source fun steps =>
            let r := genLoop format (if count = 0 then none else some (start + count)) steps start
            (r.1.map (genValue w), r.2))

/-- The functions in a field. -/
def fieldFns (op : Dict Str (ArgValue XArg)) (name : String) : List FnRef :=
  match op.get? name.toList with
  | some (.list vs) => vs.filterMap fun | .fn f => some f | _ => none
  | _ => []

/-- Events, with what is in them changed. -/
def evMap {A B : Type} (f : A → B) : Ev A → Ev B
  | .item x => .item (f x)
  | .err m => .err m
  | .flush => .flush

/-- An operator on components, as one on items. -/
def viaOp {σ A B : Type} (i : V → A) (j : B → V) (o : Op σ A B) : Op σ V V where
  init := o.init
  item := fun s x => ⟨(o.item s (i x)).st, (o.item s (i x)).out.map (evMap j), (o.item s (i x)).exn⟩
  flush := fun s => ⟨(o.flush s).st, (o.flush s).out.map (evMap j), (o.flush s).exn⟩
  no_flush := by
    intro s x h
    obtain ⟨e, he, h⟩ := List.mem_map.mp h
    cases e with
    | flush => exact o.no_flush s (i x) he
    | _ => cases h

/-- `unwrap_op_output` (util.py 95-100) -/
def unwrapOut (w : World V) (x : V) : V :=
  match w.elems x with
  | [y] => y
  | _ => x

/-- `Window.setup` (window.py 145-161) -/
def setupWindow (w : World V) (op : Dict Str (ArgValue XArg)) : Except Exn (Ready V) :=
  match evalPad w (field op "overlap_arg") with
  | .error e => .error e
  | .ok overlap =>
    match evalPad w (field op "disjoint_arg") with
    | .error e => .error e
    | .ok disjoint =>
      match windowSetup (if field op "predicate" = .none_ then none else some fun x => (fieldFn w op "predicate" x).map w.truth) overlap disjoint with
      | .error e => .error e
      | .ok (.pred p) => .ok (.stage true ⟨_, viaOp id w.seq (predWindowOp (unwrapOut w) p)⟩)
      | .ok (.overlap n) => .ok (.stage true ⟨_, viaOp id (fun l => w.seq (l.map (·.getD w.none0))) (overlapWindowOp (unwrapOut w) n)⟩)
      | .ok (.disjoint n) => .ok (.stage true ⟨_, viaOp id (fun l => w.seq (l.map (·.getD w.none0))) (disjointWindowOp (unwrapOut w) n)⟩)

/-- `Squish.receive` (squish.py 73-76): `functools.reduce` from None. -/
def squishXOp (w : World V) (f : FnRef) : Op Unit V V where
  init := ()
  item := fun _ x =>
    match (w.elems x).foldlM (w.fn2 f) w.none0 with
    | .ok v => ⟨(), [.item (w.wrap v)], none⟩
    | .error m => fatal () m
  flush := fun _ => ⟨(), [.flush], none⟩
  no_flush := by intro s x; cases (w.elems x).foldlM (w.fn2 f) w.none0 <;> simp [fatal]

/-- `Squish.setup` (squish.py 66-69) -/
def squishFn (op : Dict Str (ArgValue XArg)) : FnRef :=
  match field op "function" with
  | .fn f => f
  | _ => .named ['+']

/-- `Expander.expand` (expand.py 113-127) -/
def expandV (w : World V) (xs : List V) : List V :=
  match xs with
  | [only] =>
    match w.elements only with
    | some es => es
    | none => xs
  | _ => xs

/-- `Expander.receive` (expand.py 135-137, 146-163). Simplification: with a position, a list is sent as a tuple. -/
def expandXOp (w : World V) (position : Option Int) : Op Unit V V where
  init := ()
  item := fun _ x =>
    match position with
    | none => ⟨(), ofItems ((expandV w (w.elems x)).map w.wrap), none⟩
    | some p =>
      if p ≥ (w.elems x).length then ⟨(), [.item x], none⟩
      else if p < 0 then ⟨(), [], some .crash⟩
      else
        match (w.elems x)[p.toNat]? with
        | none => ⟨(), [], some .crash⟩
        | some v => ⟨(), ofItems ((expandV w [v]).map fun y => w.seq ((w.elems x).take p.toNat ++ [y] ++ (w.elems x).drop (p.toNat + 1))), none⟩
  flush := fun _ => ⟨(), [.flush], none⟩
  no_flush := by
    intro s x
    split
    · simp [ofItems]
    · split
      · simp
      · split
        · simp
        · split <;> simp [ofItems]

/-- The functions of `red`: `Function.is_grouping`, `is_count` (function.py 41-45, 109-110) -/
def redFn (w : World V) (f : FnRef) : RedFn V :=
  if f = .named ['.'] then .group
  else .fn (f = .named ['c', 'o', 'u', 'n', 't']) (w.fn2 f)

/-- `Red.setup` (red.py 141-159) -/
def setupRed (w : World V) (op : Dict Str (ArgValue XArg)) : Ready V :=
  let fs := (fieldFns op "functions").map (redFn w)
  let incremental : Bool := field op "incremental" = .true_
  if redIsGrouping fs then .stage false ⟨_, viaOp w.elems w.seq (redGroupOp w.none0 incremental fs)⟩
  else .stage false ⟨_, viaOp w.elems w.seq (redOp w.none0 w.zero incremental fs)⟩

/-- The operators for which `setup` is modelled. -/
inductive Kind
  | gen | map | select | head | tail | reverse | sort | unique | window | squish | expand | red
deriving DecidableEq, Repr

/-- The operator with the name. -/
def kindOf (name : Str) : Option Kind :=
  if name = "gen".toList then some .gen
  else if name = "map".toList then some .map
  else if name = "select".toList then some .select
  else if name = "head".toList then some .head
  else if name = "tail".toList then some .tail
  else if name = "reverse".toList then some .reverse
  else if name = "sort".toList then some .sort
  else if name = "unique".toList then some .unique
  else if name = "window".toList then some .window
  else if name = "squish".toList then some .squish
  else if name = "expand".toList then some .expand
  else if name = "red".toList then some .red
  else none

/-- The declarations of the arguments of the operators (see `Api.Call.decl`). -/
def Kind.decl (w : World V) : Kind → ArgsDecl XArg
  | .gen => (Api.Call.gen none none none).decl (conversions w)
  | .map => (Api.Call.map .none_).decl (conversions w)
  | .select => (Api.Call.select .none_).decl (conversions w)
  | .head => (Api.Call.head .none_).decl (conversions w)
  | .tail => (Api.Call.tail .none_).decl (conversions w)
  | .reverse => Api.Call.reverse.decl (conversions w)
  | .sort => (Api.Call.sort none).decl (conversions w)
  | .unique => (Api.Call.unique false).decl (conversions w)
  | .window => (Api.Call.window none none none).decl (conversions w)
  | .squish => (Api.Call.squish none).decl (conversions w)
  | .expand => (Api.Call.expand none).decl (conversions w)
  | .red => (Api.Call.red [] false).decl (conversions w)

/-- `setup` of the operators (map.py 59-60, select.py 57-58, head.py 57-61, tail.py 58-62, reverse.py 39-41, sort.py 59-62, unique.py 61-62). For `map`: core.py 102 is done by the receiver. -/
def Kind.setup (w : World V) (op : Dict Str (ArgValue XArg)) : Kind → Except Exn (Ready V)
  | .gen => setupGen w op
  | .map => .ok (.stage false ⟨_, mapOp fun x => (fieldFn w op "function" x).map w.wrap⟩)
  | .select => .ok (.stage false ⟨_, selectOp fun x => (fieldFn w op "function" x).map w.truth⟩)
  | .head =>
    match evalInt w (field op "n_arg") with
    | .error e => .error e
    | .ok n =>
      match headOp n with
      | .error e => .error e
      | .ok o => .ok (.stage false ⟨_, o⟩)
  | .tail =>
    match evalInt w (field op "n_arg") with
    | .error e => .error e
    | .ok n =>
      match tailOp n with
      | .error e => .error e
      | .ok o => .ok (.stage false ⟨_, o⟩)
  | .reverse => .ok (.stage false ⟨_, reverseOp⟩)
  | .sort =>
    if field op "key" = .none_ then .ok (.stage true ⟨_, sortOp .ok w.lt⟩)
    else .ok (.stage true ⟨_, sortOp (fieldFn w op "key") w.lt⟩)
  | .unique =>
    if field op "consecutive" = .true_ then .ok (.stage true ⟨_, uniqueConsecutiveOp⟩)
    else .ok (.stage true ⟨_, uniqueOp w.hashable⟩)
  | .window => setupWindow w op
  | .squish => .ok (.stage false ⟨_, squishXOp w (squishFn op)⟩)
  | .expand =>
    match evalPad w (field op "position_arg") with
    | .error e => .error e
    | .ok p => .ok (.stage false ⟨_, expandXOp w p⟩)
  | .red => .ok (setupRed w op)

/-- How a command ended, or that it has not ended. -/
inductive End
  | finished
  | running
  | stopped (x : Exn)
deriving DecidableEq, Repr

/-- What a command has sent to its end, and how it ended. -/
structure Result (V : Type) where
  sent : List (Ev V)
  how : End

/-- An operator that has been created: which, and its fields. -/
abbrev Made := Kind × Dict Str (ArgValue XArg)

/-- `create_op_builtin` (parser.py 1278-1295): the inner `none`: the arguments are not accepted, KillCommandException; the outer one: not one of the operators here. -/
def make (w : World V) : Created → Option (Option Made)
  | .builtin name args =>
    match kindOf name with
    | some k =>
      match argsOf w args with
      | none => some none
      | some xs => some (((k.decl w).parse xs []).map fun op => (k, op))
    | none => none
  | _ => none

/-- All the operators of a pipeline. -/
def makeAll (w : World V) : List Created → Option (Option (List Made))
  | [] => some (some [])
  | c :: cs =>
    match make w c with
    | none => none
    | some none => some none
    | some (some o) =>
      match makeAll w cs with
      | none => none
      | some none => some none
      | some (some os) => some (some (o :: os))

/-- pipeline.py 59-62: `setup` of all the operators. -/
def setupAll (w : World V) : List Made → Except Exn (List (Ready V))
  | [] => .ok []
  | (k, op) :: os =>
    match k.setup w op with
    | .error e => .error e
    | .ok r =>
      match setupAll w os with
      | .error e => .error e
      | .ok rs => .ok (r :: rs)

/-- pipeline.py 48-69: connecting the operators (`gen` must be first), then `setup`. -/
def setupPipeline (w : World V) (ops : List Made) : Except Exn (List (Ready V)) :=
  if ops.tail.any (fun o => o.1 = .gen) then .error .kill else setupAll w ops

/-- The operators that are not sources. -/
def stages : List (Ready V) → List (AnyOp V)
  | [] => []
  | .source _ :: rs => stages rs
  | .stage _ o :: rs => o :: stages rs

/-- How it ended, given whether an exception ended it. -/
def ending (x : Option Exn) : End :=
  match x with
  | some e => .stopped e
  | none => .finished

/-- `run_pipeline` after setup (pipeline.py 331-334), with `run` of `gen` (gen.py 92-101) and that of other operators (core.py 106-111: `receive` with an empty list, where KillAndResumeException isn't caught),
observed until the source has taken `steps` steps. -/
def runReady (w : World V) (steps : Nat) : List (Ready V) → Result V
  | [] => ⟨[], .finished⟩
  | .source sent :: rs =>
    let c := (chain (stages rs)).2
    if (sent steps).2 then
      let r := c.obs (ofItems (sent steps).1 ++ [.flush])
      ⟨r.1, ending r.2⟩
    else
      let r := c.obs (ofItems (sent steps).1)
      ⟨r.1, if r.2 = none then .running else ending r.2⟩
  | .stage true _ :: _ => ⟨[], .stopped .kill⟩
  | .stage false o :: rs =>
    let c := (chain (o :: stages rs)).2
    let r := c.item c.init w.empty
    match r.exn with
    | some e => ⟨r.out, .stopped e⟩
    | none =>
      let r' := c.flush r.st
      ⟨r.out ++ r'.out, ending r'.exn⟩

/-- A pipeline: parsing the arguments, setup, run. `none`: there is an operator that is not modelled here. -/
def runPipeline (w : World V) (steps : Nat) (cs : List Created) : Option (Result V) :=
  match makeAll w cs with
  | none => none
  | some none => some ⟨[], .stopped .kill⟩
  | some (some ops) =>
    match setupPipeline w ops with
    | .error e => some ⟨[], .stopped e⟩
    | .ok rs => some (runReady w steps rs)

/-- What is shown of what is sent to the `write` that ends every command (pipeline.py 236-240): items and errors. -/
inductive Shown (V : Type)
  | item (x : V)
  | error (m : Msg)
deriving DecidableEq, Repr

/-- What `write` shows: everything it is sent. -/
def shown : List (Ev V) → List (Shown V)
  | [] => []
  | .item x :: es => .item x :: shown es
  | .err m :: es => .error m :: shown es
  | .flush :: es => shown es

/-- A command: the text is parsed, the operators are created, set up and run. Parameters and variables are in other models. The outcome: a syntax error; or what is shown, and how it ends. -/
def exec (w : World V) (names : Names) (steps : Nat) (text : Str) : Option (Except LexErr (List (Shown V) × End)) :=
  match resolve names text with
  | .error e => some (.error e)
  | .ok (.pipeline (.mk [] cs)) =>
    match runPipeline w steps cs with
    | some r => some (.ok (shown r.sent, r.how))
    | none => none
  | .ok _ => none

end Marcel.Exec
