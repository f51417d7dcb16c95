import Verif.Model.Ops
import Verif.Model.PyDict

/-!
# Operators with pipeline arguments

`union`, `difference`, `intersect`, `join`, `filter`, `case`, `args`. An argument pipeline is modelled
by what running it emits and how it ends (`ArgRun`; for `case` and `args`, which feed or bind their
argument pipelines, by operators and functions). Argument pipelines may not change variables here.
-/

namespace Marcel

variable {α β κ V : Type}

/-- What one run of an argument pipeline (`run_pipeline`, pipeline.py 313-339) sends to the receiver of
its last operator, and the exception it ends with. -/
structure ArgRun (α : Type) : Type where
  out : List (Ev α)
  exn : Option Exn

/-- Events other than end-of-stream: what gets through an operator that does not propagate flush. -/
def dropFlush : List (Ev α) → List (Ev α)
  | [] => []
  | .flush :: es => dropFlush es
  | e :: es => e :: dropFlush es

theorem flush_not_mem_dropFlush (es : List (Ev α)) : Ev.flush ∉ dropFlush es := by
  induction es with
  | nil => simp [dropFlush]
  | cons e es ih => cases e <;> simp [dropFlush, ih]

/-! ### union -/

/-- `Union.flush` (union.py 74-77) with `PropagateFlushFromLast` (101-115) appended to each argument
pipeline (85-98): all arguments run, only the last one's end-of-stream gets through. -/
def unionFlush : List (ArgRun α) → ArgRun α
  | [] => ⟨[], none⟩
  | [a] => a
  | a :: as =>
    if a.exn.isSome then ⟨dropFlush a.out, a.exn⟩
    else ⟨dropFlush a.out ++ (unionFlush as).out, (unionFlush as).exn⟩

/-- `Union` (union.py 54-98). -/
def unionOp (args : List (ArgRun α)) : Op Unit α α where
  init := ()
  item := fun _ x => ⟨(), [.item x], none⟩
  flush := fun _ =>
    let r := unionFlush args
    if r.exn.isSome then ⟨(), r.out, r.exn⟩ else ⟨(), r.out ++ [.flush], none⟩
  no_flush := by simp

/-! ### difference -/

/-- The `map(load_right)` / `map(count_inputs)` operator appended to the argument pipeline (difference.py
97-106, intersect.py 88-100): counts the items in a dict; an unhashable item kills the command. Errors and
flush go nowhere (the operator has no receiver). -/
def loadCounts [DecidableEq α] (hashable : α → Bool) :
    Dict α Nat → List (Ev α) → Option Exn → Dict α Nat × Option Exn
  | d, [], e => (d, e)
  | d, .item x :: es, e =>
    if hashable x then
      loadCounts hashable (d.set x (match d.get? x with | none => 1 | some n => n + 1)) es e
    else (d, some .kill)
  | d, _ :: es, e => loadCounts hashable d es e

/-- State of `Difference`: `first` and `right`. -/
structure DiffSt (α : Type) : Type where
  first : Bool
  right : Dict α Nat

/-- `Difference.receive`, second part (difference.py 85-95). -/
def diffItem [DecidableEq α] (hashable : α → Bool) (d : Dict α Nat) (x : α) : Res (DiffSt α) α :=
  if hashable x then
    match d.get? x with
    | some n => if n = 1 then ⟨⟨false, d.erase x⟩, [], none⟩ else ⟨⟨false, d.set x (n - 1)⟩, [], none⟩
    | none => ⟨⟨false, d⟩, [.item x], none⟩
  else ⟨⟨false, d⟩, [], some .kill⟩

/-- `Difference` (difference.py 65-106): the argument pipeline is run on the first item. -/
def diffOp [DecidableEq α] (hashable : α → Bool) (arg : ArgRun α) : Op (DiffSt α) α α where
  init := ⟨true, []⟩
  item := fun s x =>
    if s.first then
      match loadCounts hashable s.right arg.out arg.exn with
      | (d, some e) => ⟨⟨true, d⟩, [], some e⟩
      | (d, none) => diffItem hashable d x
    else diffItem hashable s.right x
  flush := fun s => ⟨s, [.flush], none⟩
  no_flush := by
    have H : ∀ (d : Dict α Nat) (x : α), Ev.flush ∉ (diffItem hashable d x).out := by
      intro d x
      simp only [diffItem]
      split
      · split
        · split <;> simp
        · simp
      · simp
    intro s x
    split
    · rcases loadCounts hashable s.right arg.out arg.exn with ⟨d, _ | e⟩
      · exact H d x
      · simp
    · exact H _ x

/-! ### intersect -/

/-- The merge step of `Intersect.ensure_args_consumed` (intersect.py 108-119): the counts become minima,
items missing in `input` are deleted. -/
def intersectMerge [DecidableEq α] (common input : Dict α Nat) : Dict α Nat :=
  common.filterMap fun kv =>
    let n := (input.get? kv.1).getD 0
    if n = 0 then none
    else if n < kv.2 then some (kv.1, n)
    else some kv

/-- `Intersect.ensure_args_consumed` (intersect.py 102-119), the loop over the pipelines. -/
def intersectLoad [DecidableEq α] (hashable : α → Bool) :
    Option (Dict α Nat) → List (ArgRun α) → Option (Dict α Nat) × Option Exn
  | common, [] => (common, none)
  | common, a :: as =>
    match loadCounts hashable [] a.out a.exn with
    | (_, some e) => (common, some e)
    | (input, none) =>
      intersectLoad hashable
        (some (match common with
          | none => input
          | some c => intersectMerge c input)) as

/-- `Intersect` (intersect.py 55-119). The state is `common`. Without argument pipelines `common` stays
None and `common.get` raises AttributeError. -/
def intersectOp [DecidableEq α] (hashable : α → Bool) (args : List (ArgRun α)) :
    Op (Option (Dict α Nat)) α α where
  init := none
  item := fun s x =>
    match (match s with
      | some c => (some c, none)
      | none => intersectLoad hashable none args) with
    | (c, some e) => ⟨c, [], some e⟩
    | (none, none) => ⟨none, [], some .crash⟩
    | (some c, none) =>
      if hashable x then
        let n := (c.get? x).getD 0
        if n > 0 then ⟨some (c.set x (n - 1)), [.item x], none⟩ else ⟨some c, [], none⟩
      else ⟨some c, [], some .kill⟩
  flush := fun s => ⟨s, [.flush], none⟩
  no_flush := by
    intro s x
    generalize (match s with
      | some c => (some c, none)
      | none => intersectLoad hashable none args) = r
    rcases r with ⟨_ | c, _ | e⟩ <;> simp
    split
    · split <;> simp
    · simp

/-! ### join -/

/-- The value stored for a join value in `Join.inner`: a tuple, or a list of tuples once there are
two (join.py 139-145). -/
inductive JoinVal (V : Type) : Type
  | one (x : List V)
  | many (xs : List (List V))

/-- `load_inner` (join.py 133-147). An empty item violates the assertion, which `Op.call` turns into an
error that goes nowhere. -/
def joinLoad [DecidableEq V] (hashable : V → Bool) :
    Dict V (JoinVal V) → List (Ev (List V)) → Option Exn → Dict V (JoinVal V) × Option Exn
  | d, [], e => (d, e)
  | d, .item [] :: es, e => joinLoad hashable d es e
  | d, .item (k :: x) :: es, e =>
    if hashable k then
      joinLoad hashable (d.set k (match d.get? k with
        | none => .one (k :: x)
        | some (.one y) => .many [y, k :: x]
        | some (.many ys) => .many (ys ++ [k :: x]))) es e
    else (d, some .kill)
  | d, _ :: es, e => joinLoad hashable d es e

/-- State of `Join`: `first` and `inner`. -/
structure JoinSt (V : Type) : Type where
  first : Bool
  inner : Dict V (JoinVal V)

/-- `Join.receive`, second part (join.py 112-125). -/
def joinItem [DecidableEq V] (hashable : V → Bool) (keep : Bool) (d : Dict V (JoinVal V)) (x : List V) :
    Res (JoinSt V) (List V) :=
  match x with
  | [] => ⟨⟨false, d⟩, [], some .crash⟩
  | k :: _ =>
    if hashable k then
      match d.get? k with
      | none => ⟨⟨false, d⟩, if keep then [.item x] else [], none⟩
      | some (.many ms) => ⟨⟨false, d⟩, ofItems (ms.map fun m => x ++ m.drop 1), none⟩
      | some (.one m) => ⟨⟨false, d⟩, [.item (x ++ m.drop 1)], none⟩
    else ⟨⟨false, d⟩, [], some .kill⟩

/-- `Join` (join.py 90-150). -/
def joinOp [DecidableEq V] (hashable : V → Bool) (keep : Bool) (arg : ArgRun (List V)) :
    Op (JoinSt V) (List V) (List V) where
  init := ⟨true, []⟩
  item := fun s x =>
    if s.first then
      match joinLoad hashable s.inner arg.out arg.exn with
      | (d, some e) => ⟨⟨true, d⟩, [], some e⟩
      | (d, none) => joinItem hashable keep d x
    else joinItem hashable keep s.inner x
  flush := fun s => ⟨s, [.flush], none⟩
  no_flush := by
    have H : ∀ (d : Dict V (JoinVal V)) (x : List V), Ev.flush ∉ (joinItem hashable keep d x).out := by
      intro d x
      cases x with
      | nil => simp [joinItem]
      | cons k x =>
        simp only [joinItem]
        split
        · split
          · split <;> simp
          · simp [ofItems]
          · simp
        · simp
    intro s x
    split
    · rcases joinLoad hashable s.inner arg.out arg.exn with ⟨d, _ | e⟩
      · exact H d x
      · simp
    · exact H _ x

/-! ### filter -/

/-- `add_to_right` (filter.py 133-137). -/
def filterLoad [DecidableEq κ] (hashable : κ → Bool) :
    List κ → List (Ev κ) → Option Exn → List κ × Option Exn
  | r, [], e => (r, e)
  | r, .item x :: es, e => if hashable x then filterLoad hashable (x :: r) es e else (r, some .kill)
  | r, _ :: es, e => filterLoad hashable r es e

/-- `Filter` (filter.py 89-141). `compare` includes the wrapping in line 119; an exception in it is not
guarded by `Op.call`. The state is `right` (a set). -/
def filterOp [DecidableEq κ] (hashable : κ → Bool) (compare : α → Except Msg κ) (discard : Bool) (arg : ArgRun κ) :
    Op (Option (List κ)) α α where
  init := none
  item := fun s x =>
    match (match s with
      | some r => (r, none)
      | none => filterLoad hashable [] arg.out arg.exn) with
    | (r, some e) => ⟨some r, [], some e⟩
    | (r, none) =>
      match compare x with
      | .error _ => ⟨some r, [], some .crash⟩
      | .ok c =>
        if hashable c then
          if decide (c ∈ r) = !discard then ⟨some r, [.item x], none⟩ else ⟨some r, [], none⟩
        else ⟨some r, [], some .kill⟩
  flush := fun s => ⟨s, [.flush], none⟩
  no_flush := by
    intro s x
    generalize (match s with
      | some r => (r, none)
      | none => filterLoad hashable [] arg.out arg.exn) = r
    rcases r with ⟨r, _ | e⟩
    · simp only
      split
      · simp
      · split
        · split <;> simp
        · simp
    · simp

/-! ### case -/

/-- The loop of `Case.receive` (case.py 97-105): the number of the first branch whose predicate is
true; a raising predicate is handled by `Op.call`. -/
def caseMatch : List (α → Except Msg Bool) → α → Except Msg (Option Nat)
  | [], _ => .ok none
  | p :: ps, x =>
    match p x with
    | .error m => .error m
    | .ok true => .ok (some 0)
    | .ok false =>
      match caseMatch ps x with
      | .ok (some i) => .ok (some (i + 1))
      | r => r

/-- Replacing one state. -/
def setAt {σ : Nat → Type} (s : (i : Nat) → σ i) (i : Nat) (v : σ i) : (i : Nat) → σ i :=
  fun j => if h : i = j then h ▸ v else s j

/-- `Case.flush` (case.py 107-112), the loop over the branch pipelines `i, i+1, ..., i+n-1`. -/
def caseFlush {σ : Nat → Type} (pipe : (i : Nat) → Op (σ i) α β) :
    Nat → Nat → ((i : Nat) → σ i) → Res ((i : Nat) → σ i) β
  | _, 0, s => ⟨s, [], none⟩
  | i, n + 1, s =>
    let r := (pipe i).flush (s i)
    let s' := setAt s i r.st
    if r.exn.isSome then ⟨s', dropFlush r.out, r.exn⟩
    else
      let r' := caseFlush pipe (i + 1) n s'
      ⟨r'.st, dropFlush r.out ++ r'.out, r'.exn⟩

/-- `Case` (case.py 72-112). Branch `i` has predicate `preds[i]` and pipeline `pipe i`; the default
pipeline, if any, is `pipe preds.length`. The branch pipelines end in a `Redirect` (redirect.py), which
hands items and errors to case's receiver but not end-of-stream. -/
def caseOp {σ : Nat → Type} (preds : List (α → Except Msg Bool)) (hasDefault : Bool)
    (pipe : (i : Nat) → Op (σ i) α β) : Op ((i : Nat) → σ i) α β where
  init := fun i => (pipe i).init
  item := fun s x =>
    match caseMatch preds x with
    | .error m => fatal s m
    | .ok (some i) =>
      let r := (pipe i).step (s i) (.item x)
      ⟨setAt s i r.st, r.out, r.exn⟩
    | .ok none =>
      if hasDefault then
        let r := (pipe preds.length).step (s preds.length) (.item x)
        ⟨setAt s preds.length r.st, r.out, r.exn⟩
      else ⟨s, [], none⟩
  flush := fun s =>
    let r := caseFlush pipe 0 (if hasDefault then preds.length + 1 else preds.length) s
    if r.exn.isSome then r else ⟨r.st, r.out ++ [.flush], none⟩
  no_flush := by
    intro s x
    rcases caseMatch preds x with m | _ | i
    · simp [fatal]
    · simp only
      split
      · exact (pipe preds.length).step_no_flush _ (by simp)
      · simp
    · exact (pipe i).step_no_flush _ (by simp)

/-! ### args -/

/-- State of `Args`: the collected arguments, and whatever the argument pipeline can change (`ρ`). -/
structure ArgsSt (V ρ : Type) : Type where
  args : List V
  env : ρ

/-- `Args` (args.py 63-106). `body env bs` runs the argument pipeline with the i-th parameter bound to
`bs[i]`; its last operator is a `Redirect`. `unwrap` is `unwrap_op_output`, `asList` makes the list bound to the
parameter with --all. In `flush` a failing run propagates end-of-stream once, a successful one twice
(100-106). -/
def argsOp {ρ : Type} (n : Nat) (all : Bool) (unwrap : α → V) (none0 : V) (asList : List V → V) (env0 : ρ)
    (body : ρ → List V → Res ρ β) : Op (ArgsSt V ρ) α β where
  init := ⟨[], env0⟩
  item := fun s x =>
    let args := s.args ++ [unwrap x]
    if all = false ∧ args.length = n then
      let r := body s.env args
      ⟨⟨[], r.st⟩, dropFlush r.out, r.exn⟩
    else ⟨⟨args, s.env⟩, [], none⟩
  flush := fun s =>
    if s.args.length > 0 then
      let bs := if all then [asList s.args] else s.args ++ List.replicate (n - s.args.length) none0
      let r := body s.env bs
      if r.exn.isSome then ⟨⟨[], r.st⟩, dropFlush r.out ++ [.flush], r.exn⟩
      else ⟨⟨[], r.st⟩, dropFlush r.out ++ [.flush, .flush], none⟩
    else ⟨s, [.flush], none⟩
  no_flush := by
    intro s x
    dsimp only
    split
    · exact flush_not_mem_dropFlush _
    · simp

/-- `Args.check_args` (args.py 113-120): the number of parameters that is accepted. -/
def argsSetup (n : Nat) (all : Bool) : Except Exn Unit :=
  if all = true ∧ n ≠ 1 then .error .kill
  else if n = 0 then .error .kill
  else .ok ()

end Marcel
