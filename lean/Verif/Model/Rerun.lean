import Verif.Model.Red
import Verif.Model.SetOps
/-! # Model of running a pipeline more than once

A pipeline in a command is run many times if it is an argument of `args` (op/args.py 83-90: `run_pipeline` for every batch), and a
pipeline that is the value of a variable is run whenever the variable is. `PipelineMarcel.run_pipeline` (pipeline.py 313-339)
calls `setup` and `customize_pipelines` of the same operator objects every time. `RunPipeline.setup` (op/runpipeline.py 56-62)
copies the pipeline first, with `Op.copy` (core.py 130-133): a new object with the same attributes, which are not copied.

So here an operator is not only what happens between `setup` and `flush` (`Op`), but an object with attributes that exists before
and after. Attributes which hold a list, dictionary or other object that is changed in place hold an address, and the
object is in a heap, so that copies share it. The attributes that hold the arguments are not assigned to by the operators modelled here
(except `Sudo.args`), and are parameters.

The type `ρ` stands for the variables of the environment: arguments are functions of these, evaluated by `setup` (core.py
`eval_function`).

Not modelled: exceptions raised by the receiver while an operator sends several items in one call (see `Op.comp`, which does not
model where in its loop the sender was interrupted); API pipelines, whose functions make new operators for each run (`PipelineFunction`). -/

namespace Marcel.Rerun

variable {ρ α β γ κ σ C : Type}

/-- A class of operators: the state of a new object (its attributes and its heap), `setup` together with `customize_pipelines`,
`receive`, `flush`, and `back s t`: the state of an object when a copy of it, made in state `s`, has come to state `t`. -/
structure Cls (ρ α β : Type) where
  S : Type
  new : S
  setup : ρ → S → S × Option Exn
  item : ρ → S → α → Res S β
  flush : ρ → S → Res S β
  back : S → S → S
  back_self : ∀ s, back s s = s := by intro s; rfl

/-- One event delivered (see `Op.step`). -/
def Cls.step (c : Cls ρ α β) (r : ρ) (s : c.S) : Ev α → Res c.S β
  | .item x => Op.catchKare (c.item r s x)
  | .err m => ⟨s, [.err m], none⟩
  | .flush => c.flush r s

/-- A sequence of events delivered (see `Op.feed`). -/
def Cls.feed (c : Cls ρ α β) (r : ρ) : c.S → List (Ev α) → Res c.S β
  | s, [] => ⟨s, [], none⟩
  | s, e :: es =>
    if (c.step r s e).exn.isSome then c.step r s e
    else ⟨(c.feed r (c.step r s e).st es).st, (c.step r s e).out ++ (c.feed r (c.step r s e).st es).out,
          (c.feed r (c.step r s e).st es).exn⟩

/-- One run: `setup`, then the events (pipeline.py 313-339). -/
def Cls.run (c : Cls ρ α β) (r : ρ) (s : c.S) (es : List (Ev α)) : Res c.S β :=
  match c.setup r s with
  | (s', some e) => ⟨s', [], some e⟩
  | (s', none) => c.feed r s' es

/-- What can be observed of a series of runs. `copies`: a copy is made for each run (a pipeline variable); otherwise it is always
the same object that is run (the argument of `args`). -/
def Cls.runs (c : Cls ρ α β) (copies : Bool) : c.S → List (ρ × List (Ev α)) → List (List (Ev β) × Option Exn)
  | _, [] => []
  | s, (r, es) :: rs =>
    ((c.run r s es).out, (c.run r s es).exn) ::
      c.runs copies (if copies then c.back s (c.run r s es).st else (c.run r s es).st) rs

/-- Two operators in a pipeline: `setup` in order (pipeline.py 59-64); pushing as in `Op.comp`. -/
def Cls.comp (p : Cls ρ α β) (q : Cls ρ β γ) : Cls ρ α γ where
  S := p.S × q.S
  new := (p.new, q.new)
  setup := fun r s =>
    match p.setup r s.1 with
    | (s1, some e) => ((s1, s.2), some e)
    | (s1, none) => ((s1, (q.setup r s.2).1), (q.setup r s.2).2)
  item := fun r s x =>
    ⟨((p.item r s.1 x).st, (q.feed r s.2 (p.item r s.1 x).out).st), (q.feed r s.2 (p.item r s.1 x).out).out,
      (q.feed r s.2 (p.item r s.1 x).out).exn <|> (p.item r s.1 x).exn⟩
  flush := fun r s =>
    ⟨((p.flush r s.1).st, (q.feed r s.2 (p.flush r s.1).out).st), (q.feed r s.2 (p.flush r s.1).out).out,
      (q.feed r s.2 (p.flush r s.1).out).exn <|> (p.flush r s.1).exn⟩
  back := fun s t => (p.back s.1 t.1, q.back s.2 t.2)
  back_self := by intro s; rw [p.back_self, q.back_self]

/-- An operator without attributes other than its arguments, given by what it does with an item. -/
def statelessCls (f : ρ → α → Res Unit β) : Cls ρ α β where
  S := Unit
  new := ()
  setup := fun _ s => (s, none)
  item := fun r _ x => f r x
  flush := fun _ _ => ⟨(), [.flush], none⟩
  back := fun s _ => s

/-- map.py 49-64 -/
def mapCls (f : ρ → α → Except Msg β) : Cls ρ α β :=
  statelessCls (fun r x => match f r x with
    | .ok y => ⟨(), [.item y], none⟩
    | .error m => ⟨(), [.err m], some .kare⟩)

/-- select.py 46-65 -/
def selectCls (f : ρ → α → Except Msg Bool) : Cls ρ α α :=
  statelessCls (fun r x => match f r x with
    | .ok true => ⟨(), [.item x], none⟩
    | .ok false => ⟨(), [], none⟩
    | .error m => ⟨(), [.err m], some .kare⟩)

/-- An operator whose `setup` makes an object that does the work, and keeps it in an attribute: `Head.impl` (head.py 57-61), `Tail.impl`
(tail.py 58-62), `Unique.uniquer` (unique.py 60-61), `Window.window_generator` (window.py 145-161), `Red.reducer` (red.py
145-157), `Expand.expander` (expand.py 97-99). The attribute is an address; the object there is of the kind `κ` and has the state
`σ`. The attribute is `None` until the first `setup`. -/
def implCls (kind : ρ → Except Exn κ) (impl : κ → Op σ α β) : Cls ρ α β where
  S := Option Nat × List (κ × σ)
  new := (none, [])
  setup := fun r s =>
    match kind r with
    | .error e => (s, some e)
    | .ok k => ((some s.2.length, s.2 ++ [(k, (impl k).init)]), none)
  item := fun _ s x =>
    match s.1.bind (fun a => s.2[a]?.map (fun o => (a, o))) with
    | some (a, k, t) =>
      ⟨(s.1, s.2.set a (k, ((impl k).item t x).st)), ((impl k).item t x).out, ((impl k).item t x).exn⟩
    | none => ⟨s, [], some .crash⟩
  flush := fun _ s =>
    match s.1.bind (fun a => s.2[a]?.map (fun o => (a, o))) with
    | some (a, k, t) =>
      ⟨(s.1, s.2.set a (k, ((impl k).flush t).st)), ((impl k).flush t).out, ((impl k).flush t).exn⟩
    | none => ⟨s, [], some .crash⟩
  back := fun s t => (s.1, t.2)

/-- head.py 45-96 -/
def headCls (n : ρ → Int) : Cls ρ α α :=
  implCls (fun r => if n r = 0 then .error .kill else .ok (n r))
    (fun k => if k > 0 then headKeep k.toNat else headSkip (-k).toNat)

/-- tail.py 46-126 -/
def tailCls (n : ρ → Int) : Cls ρ α α :=
  implCls (fun r => if n r = 0 then .error .kill else .ok (n r))
    (fun k => if k > 0 then tailKeep k.toNat else tailSkip (-k).toNat)

/-- unique.py 51-89 -/
def uniqueCls [DecidableEq α] (hashable : α → Bool) : Cls ρ α α :=
  implCls (fun _ => .ok ()) (fun _ => uniqueOp hashable)

/-- unique.py 51-101, --consecutive -/
def uniqueConsecutiveCls [DecidableEq α] : Cls ρ α α :=
  implCls (fun _ => .ok ()) (fun _ => uniqueConsecutiveOp)

/-- window.py, --predicate -/
def predWindowCls (unwrap : α → β) (p : ρ → α → Except Msg Bool) : Cls ρ α (List β) :=
  implCls (fun r => .ok (p r)) (fun p => predWindowOp unwrap p)

/-- window.py, --overlap -/
def overlapWindowCls (unwrap : α → β) (n : ρ → Nat) : Cls ρ α (List (Option β)) :=
  implCls (fun r => if n r = 0 then .error .kill else .ok (n r)) (fun n => overlapWindowOp unwrap n)

/-- window.py, --disjoint -/
def disjointWindowCls (unwrap : α → β) (n : ρ → Nat) : Cls ρ α (List (Option β)) :=
  implCls (fun r => .ok (n r)) (fun n => disjointWindowOp unwrap n)

/-- red.py, without grouping -/
def redCls {V : Type} (none0 zero : V) (incremental : Bool) (fs : List (RedFn V)) : Cls ρ (List V) (List V) :=
  implCls (fun _ => .ok ()) (fun _ => redOp none0 zero incremental fs)

/-- red.py, with grouping -/
def redGroupCls {V : Type} [DecidableEq V] (none0 : V) (incremental : Bool) (fs : List (RedFn V)) :
    Cls ρ (List V) (List V) :=
  implCls (fun _ => .ok ()) (fun _ => redGroupOp none0 incremental fs)

/-- `Sort` (sort.py 48-87): `setup` makes a new list. -/
def sortCls {K : Type} (key : ρ → α → Except Msg K) (lt : K → K → Option Bool) : Cls ρ α α where
  S := Option Nat × List (List α)
  new := (none, [])
  setup := fun _ s => ((some s.2.length, s.2 ++ [[]]), none)
  item := fun _ s x =>
    match s.1 with
    | some a => ⟨(s.1, s.2.set a ((s.2[a]?).getD [] ++ [x])), [], none⟩
    | none => ⟨s, [], none⟩
  flush := fun r s =>
    match s.1 with
    | none => ⟨s, [.flush], none⟩
    | some a =>
      match withKeys (key r) ((s.2[a]?).getD []) with
      | .error m => ⟨s, [.err m], some .kare⟩
      | .ok kc =>
        match pySort lt [] kc with
        | none => ⟨s, [], some .kill⟩
        | some sorted =>
          ⟨(none, s.2.set a (sorted.map (·.2))), ofItems (sorted.map (·.2)) ++ [.flush], none⟩
  back := fun s t => (s.1, t.2)

/-- `Reverse` (reverse.py 37-54): the list is made by `__init__`; there is no `setup`. -/
def reverseCls : Cls ρ α α where
  S := Option Nat × List (List α)
  new := (some 0, [[]])
  setup := fun _ s => (s, none)
  item := fun _ s x =>
    match s.1 with
    | some a => ⟨(s.1, s.2.set a ((s.2[a]?).getD [] ++ [x])), [], none⟩
    | none => ⟨s, [], some .crash⟩
  flush := fun _ s =>
    match s.1 with
    | some a =>
      ⟨(none, s.2.set a ((s.2[a]?).getD []).reverse), ofItems ((s.2[a]?).getD []).reverse ++ [.flush], none⟩
    | none => ⟨s, [.flush], none⟩
  back := fun s t => (s.1, t.2)

/-- End-of-stream? -/
def isFlush : Ev β → Bool
  | .flush => true
  | _ => false

/-- What `n` `Redirect`s (redirect.py 20-33) in a row send to the operator that they belong to, when the first one gets the events `es`. A
`Redirect` sends items and errors there, and passes on only end-of-stream to the next one (`Op.flush`). -/
def redirects : Nat → List (Ev β) → List (Ev β)
  | 0, _ => []
  | n + 1, es => es.filter (fun e => !isFlush e) ++ redirects n (es.filter isFlush)

/-- `Args` (args.py 63-123). The attributes are `args` and the number of `Redirect`s appended to `pipeline`: `customize_pipelines` (122-123)
appends one each time. `body` is what the argument pipeline does, without the `Redirect`s. With `--all`, `flush` makes a new list, whose only
element is the old one (93), and it is the new one that is cleared. -/
def argsCls {V : Type} (n : Nat) (all : Bool) (unwrap : α → V) (none0 : V) (asList : List V → V)
    (body : ρ → List V → ArgRun β) : Cls ρ α β where
  S := (Option Nat × Nat) × List (List V)
  new := ((none, 0), [])
  setup := fun _ s =>
    if all = true ∧ n ≠ 1 then (s, some .kill)
    else if n = 0 then (s, some .kill) else (((some s.2.length, s.1.2 + 1), s.2 ++ [[]]), none)
  item := fun r s x =>
    match s.1.1 with
    | none => ⟨s, [], some .crash⟩
    | some a =>
      if all = false ∧ ((s.2[a]?).getD [] ++ [unwrap x]).length = n then
        ⟨(s.1, s.2.set a []), redirects s.1.2 (body r ((s.2[a]?).getD [] ++ [unwrap x])).out,
          (body r ((s.2[a]?).getD [] ++ [unwrap x])).exn⟩
      else ⟨(s.1, s.2.set a ((s.2[a]?).getD [] ++ [unwrap x])), [], none⟩
  flush := fun r s =>
    match s.1.1 with
    | none => ⟨s, [], some .crash⟩
    | some a =>
      if ((s.2[a]?).getD []).length > 0 then
        let bs := if all then [asList ((s.2[a]?).getD [])]
          else (s.2[a]?).getD [] ++ List.replicate (n - ((s.2[a]?).getD []).length) none0
        let s' := if all then ((some s.2.length, s.1.2), s.2 ++ [[]]) else (s.1, s.2.set a [])
        if (body r bs).exn.isSome then
          ⟨s', redirects s.1.2 (body r bs).out ++ [.flush], (body r bs).exn⟩
        else
          ⟨s', redirects s.1.2 (body r bs).out ++ [.flush, .flush], none⟩
      else ⟨s, [.flush], none⟩
  back := fun s t => (s.1, t.2)

/-- What `n` operators `PropagateFlushFromLast(last)` (union.py 100-115) in a row let through. -/
def propagates (last : Bool) : Nat → List (Ev α) → List (Ev α)
  | 0, es => es
  | n + 1, es => propagates last n (es.filter (fun e => !isFlush e || last))

/-- The loop of `Union.flush` (union.py 74-77), if `n` of these operators have been appended to each pipeline. -/
def unionFlushN (n : Nat) : List (ArgRun α) → ArgRun α
  | [] => ⟨[], none⟩
  | a :: as =>
    if a.exn.isSome then ⟨propagates as.isEmpty n a.out, a.exn⟩
    else ⟨propagates as.isEmpty n a.out ++ (unionFlushN n as).out, (unionFlushN n as).exn⟩

/-- `Union` (union.py 54-97): the number of operators appended to the pipelines, one more each time (85-97). -/
def unionCls (args : ρ → List (ArgRun α)) : Cls ρ α α where
  S := Nat
  new := 0
  setup := fun _ n => (n + 1, none)
  item := fun _ n x => ⟨n, [.item x], none⟩
  flush := fun r n =>
    if (unionFlushN n (args r)).exn.isSome then ⟨n, (unionFlushN n (args r)).out, (unionFlushN n (args r)).exn⟩
    else ⟨n, (unionFlushN n (args r)).out ++ [.flush], none⟩
  back := fun s _ => s

/-- The counts in a dictionary (difference.py 99-101), as `load_right` changes them. -/
def count1 [DecidableEq α] (d : Dict α Nat) (x : α) : Dict α Nat :=
  d.set x (match d.get? x with | none => 1 | some n => n + 1)

/-- `n` further `map(load_right)` operators: each of them gets the `None` which the one before returns, as the item `(None,)`. -/
def nones [DecidableEq α] (none1 : α) : Nat → Dict α Nat → Dict α Nat
  | 0, d => d
  | n + 1, d => nones none1 n (count1 d none1)

/-- What arrives in the dictionary from the argument pipeline when `n + 1` operators `map(load_right)` have been appended to it
(difference.py 97-106). -/
def loadN [DecidableEq α] (hashable : α → Bool) (none1 : α) (n : Nat) :
    Dict α Nat → List (Ev α) → Option Exn → Dict α Nat × Option Exn
  | d, [], e => (d, e)
  | d, .item x :: es, e =>
    if hashable x then loadN hashable none1 n (nones none1 n (count1 d x)) es e
    else (d, some .kill)
  | d, _ :: es, e => loadN hashable none1 n d es e

/-- The attributes of a `Difference`: `first`, `right`, and the number of operators appended to `pipeline`. -/
structure DiffObj (α : Type) where
  first : Bool
  right : Dict α Nat
  maps : Nat

/-- `Difference` (difference.py 65-106). The dictionary is made by each `customize_pipelines` (105) and is not shared with
earlier runs, so it is an attribute here. -/
def diffCls [DecidableEq α] (hashable : α → Bool) (none1 : α) (arg : ρ → ArgRun α) : Cls ρ α α where
  S := DiffObj α
  new := ⟨true, [], 0⟩
  setup := fun _ s => (⟨true, [], s.maps + 1⟩, none)
  item := fun r s x =>
    if s.first then
      match loadN hashable none1 (s.maps - 1) s.right (arg r).out (arg r).exn with
      | (d, some e) => ⟨⟨true, d, s.maps⟩, [], some e⟩
      | (d, none) => let q := diffItem hashable d x; ⟨⟨q.st.first, q.st.right, s.maps⟩, q.out, q.exn⟩
    else let q := diffItem hashable s.right x; ⟨⟨q.st.first, q.st.right, s.maps⟩, q.out, q.exn⟩
  flush := fun _ s => ⟨s, [.flush], none⟩
  back := fun s _ => s

/-- `load_inner` for an item (join.py 134-147). -/
def joinAdd {V : Type} [DecidableEq V] (d : Dict V (JoinVal V)) (k : V) (x : List V) : Dict V (JoinVal V) :=
  d.set k (match d.get? k with
    | none => .one (k :: x)
    | some (.one y) => .many [y, k :: x]
    | some (.many ys) => .many (ys ++ [k :: x]))

/-- `n` further `map(load_inner)` operators: each of them gets the `None` which the one before returns, as the item `(None,)`. -/
def joinNones {V : Type} [DecidableEq V] (none0 : V) : Nat → Dict V (JoinVal V) → Dict V (JoinVal V)
  | 0, d => d
  | n + 1, d => joinNones none0 n (joinAdd d none0 [])

/-- What arrives in the dictionary from the argument pipeline when `n + 1` operators `map(load_inner)` have been appended to it
(join.py 132-150). -/
def joinLoadN {V : Type} [DecidableEq V] (hashable : V → Bool) (none0 : V) (n : Nat) :
    Dict V (JoinVal V) → List (Ev (List V)) → Option Exn → Dict V (JoinVal V) × Option Exn
  | d, [], e => (d, e)
  | d, .item [] :: es, e => joinLoadN hashable none0 n d es e
  | d, .item (k :: x) :: es, e =>
    if hashable k then joinLoadN hashable none0 n (joinNones none0 n (joinAdd d k x)) es e
    else (d, some .kill)
  | d, _ :: es, e => joinLoadN hashable none0 n d es e

/-- The attributes of a `Join`: `first`, `inner`, and the number of operators appended to `pipeline`. -/
structure JoinObj (V : Type) where
  first : Bool
  inner : Dict V (JoinVal V)
  maps : Nat

/-- `Join` (join.py 90-150). The dictionary is made by each `customize_pipelines` (149) and is not shared with earlier runs, so it is an
attribute here. -/
def joinCls {V : Type} [DecidableEq V] (hashable : V → Bool) (none0 : V) (keep : Bool) (arg : ρ → ArgRun (List V)) :
    Cls ρ (List V) (List V) where
  S := JoinObj V
  new := ⟨true, [], 0⟩
  setup := fun _ s => (⟨true, [], s.maps + 1⟩, none)
  item := fun r s x =>
    if s.first then
      match joinLoadN hashable none0 (s.maps - 1) s.inner (arg r).out (arg r).exn with
      | (d, some e) => ⟨⟨true, d, s.maps⟩, [], some e⟩
      | (d, none) => let q := joinItem hashable keep d x; ⟨⟨q.st.first, q.st.inner, s.maps⟩, q.out, q.exn⟩
    else let q := joinItem hashable keep s.inner x; ⟨⟨q.st.first, q.st.inner, s.maps⟩, q.out, q.exn⟩
  flush := fun _ s => ⟨s, [.flush], none⟩
  back := fun s _ => s

/-- What arrives in the set from the argument pipeline when `n + 1` operators `map(add_to_right)` have been appended to it (filter.py
133-141): as in `loadN`, with sets. -/
def filterLoadN [DecidableEq α] (hashable : α → Bool) (none1 : α) (n : Nat) :
    List α → List (Ev α) → Option Exn → List α × Option Exn
  | d, [], e => (d, e)
  | d, .item x :: es, e =>
    if hashable x then filterLoadN hashable none1 n (List.replicate n none1 ++ x :: d) es e
    else (d, some .kill)
  | d, _ :: es, e => filterLoadN hashable none1 n d es e

/-- `Filter.receive` 116-124, after loading. The state is `right` and the number of operators appended. -/
def filterItem [DecidableEq α] (hashable : α → Bool) (discard : Bool) (n : Nat) (right : List α) (x : α) :
    Res (Option (List α) × Nat) α :=
  if hashable x then
    if decide (x ∈ right) = !discard then ⟨(some right, n), [.item x], none⟩ else ⟨(some right, n), [], none⟩
  else ⟨(some right, n), [], some .kill⟩

/-- `Filter` (filter.py 89-141), without `--compare`: `setup` sets `right` to `None`, and `load_right` appends an operator to `pipeline`
(138-139). The attributes are `right` and the number of operators appended. -/
def filterCls [DecidableEq α] (hashable : α → Bool) (none1 : α) (discard : Bool) (arg : ρ → ArgRun α) : Cls ρ α α where
  S := Option (List α) × Nat
  new := (none, 0)
  setup := fun _ s => ((none, s.2), none)
  item := fun r s x =>
    match s.1 with
    | some right => filterItem hashable discard s.2 right x
    | none =>
      match filterLoadN hashable none1 s.2 [] (arg r).out (arg r).exn with
      | (right, some e) => ⟨(some right, s.2 + 1), [], some e⟩
      | (right, none) => filterItem hashable discard (s.2 + 1) right x
  flush := fun _ s => ⟨s, [.flush], none⟩
  back := fun s _ => s

/-- `Intersect` (intersect.py 55-118): `setup` (68-70) leaves `common` as it is. What the additional `map(count_inputs)` operators count
when the operator is set up more than once does not matter here, because the pipelines are not run again. -/
def intersectCls [DecidableEq α] (hashable : α → Bool) (args : ρ → List (ArgRun α)) : Cls ρ α α where
  S := Option (Dict α Nat)
  new := none
  setup := fun _ s => (s, none)
  item := fun r s x => (intersectOp hashable (args r)).item s x
  flush := fun r s => (intersectOp hashable (args r)).flush s
  back := fun s _ => s

/-- Setting up the argument pipelines `i, ..., i+n-1` of a `Case` (case.py 131-163, the function `pipeline` and the loop): `PipelineMarcel.setup`
(pipeline.py 304-311) sets up the operators only if the state of the pipeline is IDLE, and makes it SETUP. The pipelines of a
`Case` are not run by `run_pipeline`, which is what would make it IDLE again. Any exception becomes a
`KillCommandException` (142-143). The state of each pipeline: whether it is SETUP, and its operators. -/
def caseSetup (pipe : (i : Nat) → Cls ρ α β) (r : ρ) :
    Nat → Nat → ((i : Nat) → Bool × (pipe i).S) → ((i : Nat) → Bool × (pipe i).S) × Option Exn
  | _, 0, s => (s, none)
  | i, n + 1, s =>
    if (s i).1 then caseSetup pipe r (i + 1) n s
    else match (pipe i).setup r (s i).2 with
      | (t, some _) => (setAt (σ := fun i => Bool × (pipe i).S) s i (false, t), some .kill)
      | (t, none) => caseSetup pipe r (i + 1) n (setAt (σ := fun i => Bool × (pipe i).S) s i (true, t))

/-- `Case.flush` (case.py 107-112), the loop over the pipelines `i, ..., i+n-1`. -/
def caseFlushN (pipe : (i : Nat) → Cls ρ α β) (r : ρ) :
    Nat → Nat → ((i : Nat) → Bool × (pipe i).S) → Res ((i : Nat) → Bool × (pipe i).S) β
  | _, 0, s => ⟨s, [], none⟩
  | i, n + 1, s =>
    let q := (pipe i).flush r (s i).2
    let s' := setAt (σ := fun i => Bool × (pipe i).S) s i ((s i).1, q.st)
    if q.exn.isSome then ⟨s', dropFlush q.out, q.exn⟩
    else
      let q' := caseFlushN pipe r (i + 1) n s'
      ⟨q'.st, dropFlush q.out ++ q'.out, q'.exn⟩

/-- An item for the pipeline `i` of a `Case` (case.py 104-105). -/
def caseSend (pipe : (i : Nat) → Cls ρ α β) (r : ρ) (s : (i : Nat) → Bool × (pipe i).S) (i : Nat) (x : α) :
    Res ((i : Nat) → Bool × (pipe i).S) β :=
  let q := (pipe i).step r (s i).2 (.item x)
  ⟨setAt (σ := fun i => Bool × (pipe i).S) s i ((s i).1, q.st), q.out, q.exn⟩

/-- `Case` (case.py 72-172), see `caseOp`. The attribute `args` holds the argument pipelines; the branches are made anew by every `setup`, each
with a new `Redirect` at its end, so there is nothing else in the state. A copy of the operator has the same list `args`. -/
def caseCls (preds : List (ρ → α → Except Msg Bool)) (hasDefault : Bool) (pipe : (i : Nat) → Cls ρ α β) :
    Cls ρ α β where
  S := (i : Nat) → Bool × (pipe i).S
  new := fun i => (false, (pipe i).new)
  setup := fun r s => caseSetup pipe r 0 (if hasDefault then preds.length + 1 else preds.length) s
  item := fun r s x =>
    match caseMatch (preds.map (fun p => p r)) x with
    | .error m => ⟨s, [.err m], some .kare⟩
    | .ok (some i) => caseSend pipe r s i x
    | .ok none => if hasDefault then caseSend pipe r s preds.length x else ⟨s, [], none⟩
  flush := fun r s =>
    let q := caseFlushN pipe r 0 (if hasDefault then preds.length + 1 else preds.length) s
    if q.exn.isSome then q else ⟨q.st, q.out ++ [.flush], none⟩
  back := fun _ t => t

/-- `Sudo` (sudo.py 72-127), with the pipeline as its only argument: `setup` (83-91) removes it from the list `args`, which `Op.copy`
does not copy. `run p` is what the operator does with the pipeline. -/
def sudoCls {P : Type} (pipeline : P) (run : ρ → P → ArgRun β) : Cls ρ α β where
  S := Option P × List P
  new := (none, [pipeline])
  setup := fun _ s =>
    match s.2.getLast? with
    | none => (s, some .kill)
    | some p => ((some p, s.2.dropLast), none)
  item := fun _ s _ => ⟨s, [], none⟩
  flush := fun r s =>
    match s.1 with
    | none => ⟨s, [], some .crash⟩
    | some p => ⟨s, (run r p).out, (run r p).exn⟩
  back := fun s t => (s.1, t.2)

/-- `map` with a function that calls `pos()`: `_count` (core.py 43-44, 101, 106-107) is set by `__init__` only. -/
def mapPosCls (f : ρ → Int → α → Except Msg β) : Cls ρ α β where
  S := Int
  new := -1
  setup := fun _ s => (s, none)
  item := fun r s x =>
    match f r (s + 1) x with
    | .ok y => ⟨s + 1, [.item y], none⟩
    | .error m => ⟨s + 1, [.err m], some .kare⟩
  flush := fun _ s => ⟨s, [.flush], none⟩
  back := fun s _ => s

end Marcel.Rerun
