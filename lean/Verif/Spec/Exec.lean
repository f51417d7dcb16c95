import Verif.Model.Exec
import Verif.Spec.Syntax

/-! # Specification of commands (for C72)

Stages of a pipeline: how they are written, and what they do with a stream. From the model are used: what is left open about Python (`World`), the type `Shown` of what is in a stream,
and `End`. -/

namespace Marcel.Exec

/-- An integer given to an operator: a literal, or an expression that is evaluated when the command starts. -/
inductive Num
  | lit (n : Int)
  | expr (src : Str)

/-- The stages of a pipeline. -/
inductive Stage
  | gen (count start : Option Num)
  | map (f : FnRef)
  | select (f : FnRef)
  | head (n : Num)
  | tail (n : Num)
  | reverse
  | sort (key : Option FnRef)
  | unique (consecutive : Bool)
  | windowBy (f : FnRef)
  | disjoint (n : Num)
  | squish (f : Option FnRef)
  | expand (position : Option Num)
  | red (incremental : Bool) (fs : List FnRef)

/-! ## Writing -/

/-- The character of a digit. -/
def digit (d : Fin 10) : Char := ['0', '1', '2', '3', '4', '5', '6', '7', '8', '9'][d]

/-- The number with these digits. -/
def value (ds : List (Fin 10)) : Nat := ds.foldl (fun n d => 10 * n + d.val) 0

/-- The text is a numeral of the number. -/
inductive Numeral : Str → Int → Prop
  | pos (ds : List (Fin 10)) : ds ≠ [] → Numeral (ds.map digit) (value ds)
  | neg (ds : List (Fin 10)) : ds ≠ [] → Numeral ('-' :: ds.map digit) (-(value ds : Int))

/-- How an integer is given. -/
inductive Num.Written : Num → SArg → Prop
  | lit (w : Word) (n : Int) : Numeral w.kept n → Num.Written (.lit n) (.word w)
  | expr (src : Str) : Num.Written (.expr src) (.expr src)

/-- How a function is given: by an expression, or by a name or symbol. -/
inductive FnRef.Written : FnRef → SArg → Prop
  | source (src : Str) : FnRef.Written (.source src) (.expr src)
  | named (w : Word) : w.kept.head? ≠ some '-' → '\\' ∉ w.kept → FnRef.Written (.named w.kept) (.word w)

/-- Functions. -/
inductive FnRef.AllWritten : List FnRef → List SArg → Prop
  | nil : FnRef.AllWritten [] []
  | cons (f : FnRef) (fs : List FnRef) (a : SArg) (as : List SArg) : f.Written a → FnRef.AllWritten fs as → FnRef.AllWritten (f :: fs) (a :: as)

/-- An optional argument. -/
inductive Num.WrittenOpt : Option Num → List SArg → Prop
  | none : Num.WrittenOpt none []
  | some (n : Num) (a : SArg) : n.Written a → Num.WrittenOpt (some n) [a]

/-- How a stage is written. For `gen`, a count cannot begin with a minus sign, as that would be taken for a flag (and the same for the number of items of a window); there is no START without COUNT. (For `--pad` see C20.) -/
inductive Stage.Written : Stage → SOp → Prop
  | gen (w : Word) (count start : Option Num) (cs ss : List SArg) : w.kept = "gen".toList → (∀ v, SArg.word v ∈ cs → v.kept.head? ≠ some '-') → (count = none → start = none) → Num.WrittenOpt count cs → Num.WrittenOpt start ss →
      Stage.Written (.gen count start) (.named w (cs ++ ss))
  | map (w : Word) (f : FnRef) (a : SArg) : w.kept = "map".toList → f.Written a → Stage.Written (.map f) (.named w [a])
  | bare (src : Str) : Stage.Written (.map (.source src)) (.bare src)
  | select (w : Word) (f : FnRef) (a : SArg) : w.kept = "select".toList → f.Written a → Stage.Written (.select f) (.named w [a])
  | head (w : Word) (n : Num) (a : SArg) : w.kept = "head".toList → n.Written a → Stage.Written (.head n) (.named w [a])
  | tail (w : Word) (n : Num) (a : SArg) : w.kept = "tail".toList → n.Written a → Stage.Written (.tail n) (.named w [a])
  | reverse (w : Word) : w.kept = "reverse".toList → Stage.Written .reverse (.named w [])
  | sort (w : Word) : w.kept = "sort".toList → Stage.Written (.sort none) (.named w [])
  | sortKey (w : Word) (f : FnRef) (a : SArg) : w.kept = "sort".toList → f.Written a → Stage.Written (.sort (some f)) (.named w [a])
  | unique (w : Word) : w.kept = "unique".toList → Stage.Written (.unique false) (.named w [])
  | consecutive (w v : Word) : w.kept = "unique".toList → v.kept = "-c".toList ∨ v.kept = "--consecutive".toList →
      Stage.Written (.unique true) (.named w [.word v])
  | windowBy (w : Word) (f : FnRef) (a : SArg) : w.kept = "window".toList → f.Written a → Stage.Written (.windowBy f) (.named w [a])
  | disjoint (w v : Word) (n : Num) (a : SArg) : w.kept = "window".toList → v.kept = "-d".toList ∨ v.kept = "--disjoint".toList → n.Written a → (∀ u, a = SArg.word u → u.kept.head? ≠ some '-') →
      Stage.Written (.disjoint n) (.named w [.word v, a])
  | squish (w : Word) : w.kept = "squish".toList → Stage.Written (.squish none) (.named w [])
  | squishBy (w : Word) (f : FnRef) (a : SArg) : w.kept = "squish".toList → f.Written a → Stage.Written (.squish (some f)) (.named w [a])
  | expand (w : Word) (n : Option Num) (as : List SArg) : w.kept = "expand".toList → Num.WrittenOpt n as → Stage.Written (.expand n) (.named w as)
  | red (w : Word) (fs : List FnRef) (as : List SArg) : w.kept = "red".toList → FnRef.AllWritten fs as → Stage.Written (.red false fs) (.named w as)
  | incremental (w v : Word) (fs : List FnRef) (as : List SArg) : w.kept = "red".toList → v.kept = "-i".toList ∨ v.kept = "--incremental".toList → FnRef.AllWritten fs as →
      Stage.Written (.red true fs) (.named w (.word v :: as))

/-- A pipeline of stages, as written. -/
inductive StagesWritten : List Stage → List SOp → Prop
  | nil : StagesWritten [] []
  | cons (st : Stage) (sts : List Stage) (o : SOp) (os : List SOp) : st.Written o → StagesWritten sts os → StagesWritten (st :: sts) (o :: os)

/-! ## Meaning -/

variable {V : Type} [DecidableEq V]

/-- The items in a stream. -/
def itemsOf (s : List (Shown V)) : List V := s.filterMap fun | .item x => some x | .error _ => none

/-- The errors in a stream. -/
def errorsOf (s : List (Shown V)) : List (Shown V) := s.filter fun | .item _ => false | .error _ => true

/-- A stream: what is in it so far, and whether it is finished, goes on, or was cut off. -/
structure Stream (V : Type) where
  sent : List (Shown V)
  how : End

/-- The value of an integer argument; none: it has none. -/
def Num.eval (w : World V) : Num → Option Int
  | .lit n => some n
  | .expr src =>
    match w.fn (.source src) w.empty with
    | .ok v => w.toInt v
    | .error _ => none

/-- A missing argument of `gen` is 0. -/
def evalOpt (w : World V) : Option Num → Option Int
  | none => some 0
  | some n => n.eval w

/-- `f` applied to an item: the result, or the error. -/
def applied (w : World V) (f : FnRef) (x : V) : Shown V :=
  match w.fn f x with
  | .ok y => .item (w.wrap y)
  | .error m => .error m

/-- An item selected by `f`: kept, dropped, or replaced by the error. -/
def chosen (w : World V) (f : FnRef) (x : V) : List (Shown V) :=
  match w.fn f x with
  | .ok y => if w.truth y then [.item x] else []
  | .error m => [.error m]

/-- What is sent for an item, and errors as they are. -/
def forItem (f : V → List (Shown V)) : Shown V → List (Shown V)
  | .item x => f x
  | .error m => [.error m]

/-- The first `n` items, and all errors. -/
def firstItems : Nat → List (Shown V) → List (Shown V)
  | _, [] => []
  | n, .error m :: s => .error m :: firstItems n s
  | 0, .item _ :: s => firstItems 0 s
  | n + 1, .item x :: s => .item x :: firstItems n s

/-- All but the first `n` items, and all errors. -/
def afterItems : Nat → List (Shown V) → List (Shown V)
  | _, [] => []
  | n, .error m :: s => .error m :: afterItems n s
  | 0, .item x :: s => .item x :: afterItems 0 s
  | n + 1, .item _ :: s => afterItems n s

/-- Each item comes when `n` more items have come, and so the last `n` never come; errors come at once. `late` are the items that haven't come yet. -/
def delayed (n : Nat) (late : List V) : List (Shown V) → List (Shown V)
  | [] => []
  | .error m :: s => .error m :: delayed n late s
  | .item x :: s =>
    if late.length < n then delayed n (late ++ [x]) s
    else ((late ++ [x]).take 1).map .item ++ delayed n ((late ++ [x]).drop 1) s

/-- The items that have not come before, and all errors. -/
def newItems (seen : List V) : List (Shown V) → List (Shown V)
  | [] => []
  | .error m :: s => .error m :: newItems seen s
  | .item x :: s => if x ∈ seen then newItems seen s else .item x :: newItems (x :: seen) s

/-- The items that differ from the one before, and all errors. -/
def changedItems (last : Option V) : List (Shown V) → List (Shown V)
  | [] => []
  | .error m :: s => .error m :: changedItems last s
  | .item x :: s => if last = some x then changedItems last s else .item x :: changedItems (some x) s

/-- A stage that sends on something for everything it receives. -/
def Passes (f : List (Shown V) → List (Shown V)) (inp out : Stream V) : Prop := out = ⟨f inp.sent, inp.how⟩

/-- A stage that sends on errors at once, and something for the items when the stream is finished. -/
def Collects (f : List V → Stream V → Prop) (inp out : Stream V) : Prop :=
  if inp.how = .finished then ∃ t, f (itemsOf inp.sent) t ∧ out = ⟨errorsOf inp.sent ++ t.sent, t.how⟩
  else out = ⟨errorsOf inp.sent, inp.how⟩

/-- The key by which an item is sorted: without a function, the item itself. -/
def keyOf (w : World V) (key : Option FnRef) (x : V) : Except Msg V :=
  match key with
  | none => .ok x
  | some f => w.fn f x

/-- Sorting: if the key of some item can't be computed, the error of the first such item is reported and the command ends. Otherwise, if the keys can be compared with one another (and are ordered by that), all
items are sent, sorted by their keys, those with equal keys in the order in which they came. If some keys can't be compared, the command may be stopped; or the items are sent in some order. -/
inductive Sorts (w : World V) (key : Option FnRef) (xs : List V) : Stream V → Prop
  | failure (ys zs : List V) (x : V) (m : Msg) : xs = ys ++ x :: zs → (∀ y ∈ ys, ∃ k, keyOf w key y = .ok k) → keyOf w key x = .error m →
      Sorts w key xs ⟨[.error m], .stopped .kare⟩
  | sorted (k : V → V) (ys : List V) : (∀ x ∈ xs, keyOf w key x = .ok (k x)) → ys.Perm xs →
      (∀ le : V → V → Prop, (∀ a b c, le a b → le b c → le a c) →
        (∀ x ∈ xs, ∀ y ∈ xs, w.lt (k x) (k y) = some true ∧ le (k x) (k y) ∧ ¬ le (k y) (k x) ∨ w.lt (k x) (k y) = some false ∧ le (k y) (k x)) →
        ys.Pairwise (fun a b => le (k a) (k b)) ∧ ∀ c, ∀ [DecidablePred fun a => le (k a) c ∧ le c (k a)], ys.filter (fun a => le (k a) c ∧ le c (k a)) = xs.filter (fun a => le (k a) c ∧ le c (k a))) →
      Sorts w key xs ⟨ys.map .item, .finished⟩
  | killed (k : V → V) : (∀ x ∈ xs, keyOf w key x = .ok (k x)) → (∃ x ∈ xs, ∃ y ∈ xs, w.lt (k x) (k y) = none) → Sorts w key xs ⟨[], .stopped .kill⟩

/-- `unique`: the command is stopped by an item that isn't hashable. -/
inductive Unifies (w : World V) (inp : Stream V) : Stream V → Prop
  | all : (∀ x ∈ itemsOf inp.sent, w.hashable x = true) → Unifies w inp ⟨newItems [] inp.sent, inp.how⟩
  | killed (s t : List (Shown V)) (x : V) : inp.sent = s ++ .item x :: t → (∀ y ∈ itemsOf s, w.hashable y = true) → w.hashable x = false →
      Unifies w inp ⟨newItems [] s, .stopped .kill⟩

/-- An item as it is put into windows: an item with one component is that component. -/
def single (w : World V) (x : V) : V :=
  match w.elems x with
  | [y] => y
  | _ => x

/-- Windows that begin where `f` is true; `cur` is the window that has begun. What is sent, and the window that has begun at the end. -/
inductive Cuts (w : World V) (f : FnRef) : List V → List (Shown V) → List (Shown V) → List V → Prop
  | nil (cur : List V) : Cuts w f cur [] [] cur
  | error (cur last : List V) (m : Msg) (s t : List (Shown V)) : Cuts w f cur s t last → Cuts w f cur (.error m :: s) (.error m :: t) last
  | fails (cur last : List V) (x : V) (m : Msg) (s t : List (Shown V)) : w.fn f x = .error m → Cuts w f cur s t last → Cuts w f cur (.item x :: s) (.error m :: t) last
  | stays (cur last : List V) (x y : V) (s t : List (Shown V)) : w.fn f x = .ok y → w.truth y = false → Cuts w f (cur ++ [single w x]) s t last → Cuts w f cur (.item x :: s) t last
  | first (last : List V) (x y : V) (s t : List (Shown V)) : w.fn f x = .ok y → w.truth y = true → Cuts w f [single w x] s t last → Cuts w f [] (.item x :: s) t last
  | cut (c : V) (cur last : List V) (x y : V) (s t : List (Shown V)) : w.fn f x = .ok y → w.truth y = true → Cuts w f [single w x] s t last →
      Cuts w f (c :: cur) (.item x :: s) (.item (w.seq (c :: cur)) :: t) last

/-- Windows of `n` items. -/
inductive Fills (w : World V) (n : Int) : List V → List (Shown V) → List (Shown V) → List V → Prop
  | nil (cur : List V) : Fills w n cur [] [] cur
  | error (cur last : List V) (m : Msg) (s t : List (Shown V)) : Fills w n cur s t last → Fills w n cur (.error m :: s) (.error m :: t) last
  | grows (cur last : List V) (x : V) (s t : List (Shown V)) : (cur.length + 1 : Int) ≠ n → Fills w n (cur ++ [single w x]) s t last → Fills w n cur (.item x :: s) t last
  | full (cur last : List V) (x : V) (s t : List (Shown V)) : (cur.length + 1 : Int) = n → Fills w n [] s t last →
      Fills w n cur (.item x :: s) (.item (w.seq (cur ++ [single w x])) :: t) last

/-- A stage that sends on something for what it receives, and something at the end of the stream. -/
def Ends (inp out : Stream V) (sent atEnd : List (Shown V)) : Prop :=
  out = if inp.how = .finished then ⟨sent ++ atEnd, .finished⟩ else ⟨sent, inp.how⟩

/-- The components of an item, combined by `f`, beginning with None. -/
def combined (w : World V) (f : FnRef) (x : V) : Shown V :=
  match (w.elems x).foldlM (w.fn2 f) w.none0 with
  | .ok y => .item (w.wrap y)
  | .error m => .error m

/-- What is in a list of one value, if that can be expanded; otherwise the list. -/
def contents (w : World V) : List V → List V
  | [y] => match w.elements y with
    | some ys => ys
    | none => [y]
  | xs => xs

/-- What an item is expanded to, without a position, or with one (none: that is negative). -/
inductive Expanded (w : World V) (x : V) : Option Int → Option (List V) → Prop
  | whole : Expanded w x none (some ((contents w (w.elems x)).map w.wrap))
  | beyond (p : Int) : (w.elems x).length ≤ p → Expanded w x (some p) (some [x])
  | inside (before after : List V) (y : V) : w.elems x = before ++ y :: after →
      Expanded w x (some before.length) (some ((contents w [y]).map fun z => w.seq (before ++ z :: after)))
  | negative (p : Int) : p < 0 → Expanded w x (some p) none

/-- Expanding: a negative position ends the command, with an internal error, when the first item comes. -/
inductive Expands (w : World V) (p : Option Int) : List (Shown V) → List (Shown V) → Option Exn → Prop
  | nil : Expands w p [] [] none
  | error (m : Msg) (s t : List (Shown V)) (e : Option Exn) : Expands w p s t e → Expands w p (.error m :: s) (.error m :: t) e
  | item (x : V) (ys : List V) (s t : List (Shown V)) (e : Option Exn) : Expanded w x p (some ys) → Expands w p s t e → Expands w p (.item x :: s) (ys.map .item ++ t) e
  | crash (x : V) (s : List (Shown V)) : Expanded w x p none → Expands w p (.item x :: s) [] (some .crash)

/-- The symbol for grouping, and that for counting. -/
def dot : FnRef := .named ['.']
def count : FnRef := .named ['c', 'o', 'u', 'n', 't']

/-- A function for each component: the components are taken into the accumulators, from left to right, until a function fails. Where the symbol for grouping is, the component is kept. -/
inductive Reduced (w : World V) : List FnRef → List V → List V → List V → Option Msg → Prop
  | done (acc xs : List V) : Reduced w [] acc xs acc none
  | group (fs : List FnRef) (a x : V) (acc xs acc' : List V) (e : Option Msg) : Reduced w fs acc xs acc' e → Reduced w (dot :: fs) (a :: acc) (x :: xs) (x :: acc') e
  | ok (f : FnRef) (fs : List FnRef) (a x a' : V) (acc xs acc' : List V) (e : Option Msg) : f ≠ dot → w.fn2 f a x = .ok a' → Reduced w fs acc xs acc' e →
      Reduced w (f :: fs) (a :: acc) (x :: xs) (a' :: acc') e
  | failure (f : FnRef) (fs : List FnRef) (a x : V) (acc xs : List V) (m : Msg) : f ≠ dot → w.fn2 f a x = .error m → Reduced w (f :: fs) (a :: acc) (x :: xs) (a :: acc) (some m)

/-- The components where the symbol for grouping is; and the others. -/
def keptAt (fs : List FnRef) (xs : List V) : List V := ((fs.zip xs).filter fun p => p.1 = dot).map (·.2)
def dataAt (fs : List FnRef) (xs : List V) : List V := ((fs.zip xs).filter fun p => p.1 ≠ dot).map (·.2)

/-- The accumulators of a group, given those of all groups; a new group begins with None. -/
def accOf (w : World V) (fs : List FnRef) (g : List V) (gs : List (List V × List V)) : List V :=
  match gs.find? (·.1 = g) with
  | some p => p.2
  | none => fs.map fun _ => w.none0

/-- The accumulators of a group are changed; a new group comes last. -/
def withAcc (g acc : List V) (gs : List (List V × List V)) : List (List V × List V) :=
  if g ∈ gs.map (·.1) then gs.map fun p => if p.1 = g then (g, acc) else p else gs ++ [(g, acc)]

/-- Without grouping there is one group from the beginning; counting begins with 0. -/
def startGroups (w : World V) (fs : List FnRef) : List (List V × List V) :=
  if dot ∈ fs then [] else [([], fs.map fun f => if f = count then w.zero else w.none0)]

/-- Items are taken into the accumulators of their groups. With `incremental`, for each item the item and the accumulators are sent. -/
inductive Reduces (w : World V) (incremental : Bool) (fs : List FnRef) : List (List V × List V) → List (Shown V) → List (Shown V) → List (List V × List V) → Prop
  | nil (gs : List (List V × List V)) : Reduces w incremental fs gs [] [] gs
  | error (gs gs' : List (List V × List V)) (m : Msg) (s t : List (Shown V)) : Reduces w incremental fs gs s t gs' → Reduces w incremental fs gs (.error m :: s) (.error m :: t) gs'
  | short (gs gs' : List (List V × List V)) (x : V) (s t : List (Shown V)) : (w.elems x).length < fs.length → Reduces w incremental fs gs s t gs' →
      Reduces w incremental fs gs (.item x :: s) (.error "Input too short." :: t) gs'
  | failure (gs gs' : List (List V × List V)) (x : V) (acc : List V) (m : Msg) (s t : List (Shown V)) : fs.length ≤ (w.elems x).length →
      Reduced w fs (accOf w fs (keptAt fs (w.elems x)) gs) (w.elems x) acc (some m) → Reduces w incremental fs (withAcc (keptAt fs (w.elems x)) acc gs) s t gs' →
      Reduces w incremental fs gs (.item x :: s) (.error m :: t) gs'
  | ok (gs gs' : List (List V × List V)) (x : V) (acc : List V) (s t : List (Shown V)) : fs.length ≤ (w.elems x).length →
      Reduced w fs (accOf w fs (keptAt fs (w.elems x)) gs) (w.elems x) acc none → Reduces w incremental fs (withAcc (keptAt fs (w.elems x)) acc gs) s t gs' →
      Reduces w incremental fs gs (.item x :: s) ((if incremental then [.item (w.seq (w.elems x ++ dataAt fs acc))] else []) ++ t) gs'

/-- What is sent for the groups at the end. -/
def totals (w : World V) (incremental : Bool) (gs : List (List V × List V)) : List (Shown V) := if incremental then [] else gs.map fun p => .item (w.seq p.2)

/-- A function that is given as an argument of a stage, or used to compute a number. -/
def Stage.functions : Stage → List FnRef
  | .gen c s => [c, s].filterMap fun | some (.expr src) => some (.source src) | _ => none
  | .map f => [f]
  | .select f => [f]
  | .head (.expr src) => [.source src]
  | .tail (.expr src) => [.source src]
  | .sort (some f) => [f]
  | .windowBy f => [f]
  | .disjoint (.expr src) => [.source src]
  | .squish (some f) => [f]
  | .expand (some (.expr src)) => [.source src]
  | .red _ fs => fs
  | _ => []

/-- The function exists: an expression is one, and a name is that of a function. -/
def FnRef.Exists (w : World V) : FnRef → Prop
  | .source src => w.compiles src = true
  | .named name => w.isFunction name = true

def Stage.isGen : Stage → Prop
  | .gen _ _ => True
  | _ => False

/-- The stages that need input. -/
def Stage.needsInput : Stage → Prop
  | .sort _ => True
  | .unique _ => True
  | .windowBy _ => True
  | .disjoint _ => True
  | _ => False

/-- What is wrong with the arguments of a stage: an expression is no expression, or a function doesn't exist; a number has no value; or it is 0, for `head` and `tail`, or negative, for `window`. -/
def Stage.Bad (w : World V) (st : Stage) : Prop :=
  (∃ f ∈ st.functions, ¬ f.Exists w) ∨
  match st with
  | .gen count start => evalOpt w count = none ∨ evalOpt w start = none
  | .head n => n.eval w = none ∨ n.eval w = some 0
  | .tail n => n.eval w = none ∨ n.eval w = some 0
  | .disjoint n => n.eval w = none ∨ ∃ k, n.eval w = some k ∧ k < 0
  | .expand (some n) => n.eval w = none
  | _ => False

/-- What a stage does with a stream. -/
def Stage.Does (w : World V) : Stage → Stream V → Stream V → Prop
  | .gen _ _ => fun _ _ => False
  | .map f => Passes fun s => s.flatMap (forItem fun x => [applied w f x])
  | .select f => Passes fun s => s.flatMap (forItem (chosen w f))
  | .head n => fun inp out => ∃ k, n.eval w = some k ∧ (0 < k ∧ Passes (firstItems k.toNat) inp out ∨ k < 0 ∧ Passes (afterItems (-k).toNat) inp out)
  | .tail n => fun inp out => ∃ k, n.eval w = some k ∧
      (0 < k ∧ Collects (fun xs t => t = ⟨(xs.drop (xs.length - k.toNat)).map .item, .finished⟩) inp out ∨ k < 0 ∧ Passes (delayed (-k).toNat []) inp out)
  | .reverse => Collects fun xs t => t = ⟨xs.reverse.map .item, .finished⟩
  | .sort key => Collects (Sorts w key)
  | .unique false => Unifies w
  | .unique true => Passes (changedItems none)
  | .windowBy f => fun inp out => ∃ s last, Cuts w f [] inp.sent s last ∧ Ends inp out s (if last = [] then [] else [.item (w.seq last)])
  | .disjoint n => fun inp out => ∃ k s last, n.eval w = some k ∧ Fills w k [] inp.sent s last ∧
      Ends inp out s (if last = [] then [] else [.item (w.seq (last ++ List.replicate (k.toNat - last.length) w.none0))])
  | .squish f => Passes fun s => s.flatMap (forItem fun x => [combined w (f.getD (.named ['+'])) x])
  | .expand n => fun inp out => ∃ p s e, (match n with | none => p = none | some n => ∃ k, n.eval w = some k ∧ p = some k) ∧ Expands w p inp.sent s e ∧
      out = ⟨s, match e with | none => inp.how | some e => .stopped e⟩
  | .red incremental fs => fun inp out => ∃ s gs, Reduces w incremental fs (startGroups w fs) inp.sent s gs ∧ Ends inp out s (totals w incremental gs)

/-- What the first stage of a command sends until it has taken so many steps. `gen` sends numbers. A function is called without arguments, once; if that fails, the command ends. Other operators that can be first
receive an empty list. -/
def Stage.Starts (w : World V) (steps : Nat) : Stage → Stream V → Prop
  | .gen count start => fun out => ∃ c s, evalOpt w count = some c ∧ evalOpt w start = some s ∧
      (c = 0 ∧ out = ⟨(List.range steps).map fun i : Nat => .item (w.wrap (w.ofInt (s + i))), .running⟩ ∨
       c ≠ 0 ∧ out = ⟨(List.range (min steps c.toNat)).map fun i : Nat => .item (w.wrap (w.ofInt (s + i))), if c ≤ steps then .finished else .running⟩)
  | .map f => fun out => out = ⟨[applied w f w.empty], if (w.fn f w.empty).isOk then .finished else .stopped .kare⟩
  | .select f => fun out => out = ⟨chosen w f w.empty, if (w.fn f w.empty).isOk then .finished else .stopped .kare⟩
  | .head n => (Stage.head n).Does w ⟨[.item w.empty], .finished⟩
  | .tail n => (Stage.tail n).Does w ⟨[.item w.empty], .finished⟩
  | .reverse => Stage.reverse.Does w ⟨[.item w.empty], .finished⟩
  | .sort _ => fun _ => False
  | .unique _ => fun _ => False
  | .windowBy _ => fun _ => False
  | .disjoint _ => fun _ => False
  | .squish f => fun out => out = ⟨[combined w (f.getD (.named ['+'])) w.empty], if ((w.elems w.empty).foldlM (w.fn2 (f.getD (.named ['+']))) w.none0).isOk then .finished else .stopped .kare⟩
  | .expand n => (Stage.expand n).Does w ⟨[.item w.empty], .finished⟩
  | .red incremental fs => fun out => ∃ s gs, Reduces w incremental fs (startGroups w fs) [.item w.empty] s gs ∧
      ((∃ m, s = [.error m]) ∧ out = ⟨s, .stopped .kare⟩ ∨ (¬ ∃ m, s = [.error m]) ∧ out = ⟨s ++ totals w incremental gs, .finished⟩)

/-- One stage after the other. -/
inductive Runs (w : World V) : List Stage → Stream V → Stream V → Prop
  | nil (s : Stream V) : Runs w [] s s
  | cons (st : Stage) (sts : List Stage) (s t u : Stream V) : st.Does w s t → Runs w sts t u → Runs w (st :: sts) s u

/-- A command that can't start: a stage has bad arguments; `gen` is not first; or the first stage needs input. -/
def CannotStart (w : World V) (sts : List Stage) : Prop :=
  (∃ st ∈ sts, st.Bad w) ∨ (∃ st ∈ sts.tail, st.isGen) ∨ (∃ st, sts.head? = some st ∧ st.needsInput)

/-- What a command shows until its first stage has taken so many steps, and how it ends. -/
inductive Executes (w : World V) (steps : Nat) (sts : List Stage) : List (Shown V) × End → Prop
  | refused : CannotStart w sts → Executes w steps sts ([], .stopped .kill)
  | runs (st : Stage) (rest : List Stage) (s t : Stream V) : ¬ CannotStart w sts → sts = st :: rest → st.Starts w steps s → Runs w rest s t →
      Executes w steps sts (t.sent, t.how)

end Marcel.Exec
