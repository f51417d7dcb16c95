import Verif.Model.Stream

/-!
# Simple operators

`map`, `select`, `head`, `tail`, `reverse`, `sort`, `unique`, `window`.
A user function is a Lean function into `Except Msg _`; `error m` means that the Python function
raised. The tuple/list wrapping of items (core.py 102) is part of the item type here.
-/

namespace Marcel

variable {α β κ : Type}

/-- `Op.call` (core.py 82-92) on a failing function: `fatal_error` (141-149) sends the error and
raises KillAndResume. -/
def fatal {σ : Type} (s : σ) (m : Msg) : Res σ β := ⟨s, [.err m], some .kare⟩

/-- map.py 63-64. -/
def mapOp (f : α → Except Msg β) : Op Unit α β where
  init := ()
  item := fun _ x =>
    match f x with
    | .ok y => ⟨(), [.item y], none⟩
    | .error m => fatal () m
  flush := fun _ => ⟨(), [.flush], none⟩
  no_flush := by intro s x; cases f x <;> simp [fatal]

/-- select.py 62-65. -/
def selectOp (f : α → Except Msg Bool) : Op Unit α α where
  init := ()
  item := fun _ x =>
    match f x with
    | .ok true => ⟨(), [.item x], none⟩
    | .ok false => ⟨(), [], none⟩
    | .error m => fatal () m
  flush := fun _ => ⟨(), [.flush], none⟩
  no_flush := by intro s x; rcases f x with _ | ⟨_ | _⟩ <;> simp [fatal]

/-- `HeadKeepN` (head.py 77-85); the state is `received`. -/
def headKeep (n : Nat) : Op Nat α α where
  init := 0
  item := fun received x =>
    if n ≥ received + 1 then ⟨received + 1, [.item x], none⟩ else ⟨received + 1, [], none⟩
  flush := fun s => ⟨s, [.flush], none⟩
  no_flush := by intro s x; split <;> simp

/-- `HeadSkipN` (head.py 88-96). -/
def headSkip (n : Nat) : Op Nat α α where
  init := 0
  item := fun received x =>
    if n < received + 1 then ⟨received + 1, [.item x], none⟩ else ⟨received + 1, [], none⟩
  flush := fun s => ⟨s, [.flush], none⟩
  no_flush := by intro s x; split <;> simp

/-- `Head.setup` (head.py 57-61): 0 kills the command. -/
def headOp (n : Int) : Except Exn (Op Nat α α) :=
  if n = 0 then .error .kill
  else if n > 0 then .ok (headKeep n.toNat) else .ok (headSkip (-n).toNat)

/-- State of `TailImpl` (tail.py 75-81). -/
structure TailSt (α : Type) : Type where
  queue : List α
  «end» : Nat
  deriving Repr, DecidableEq

/-- The loop of `TailKeepN.flush` (tail.py 103-110). An index out of range would be an IndexError;
here it contributes nothing, and the theorems show that all `count` items are emitted. -/
def tailLoop (queue : List α) (n : Nat) : Nat → Nat → List α
  | 0, _ => []
  | count + 1, p => queue[p]?.toList ++ tailLoop queue n count ((p + 1) % n)

/-- `TailKeepN` (tail.py 90-112) under `Tail.flush` (67-69): end of stream is propagated by the
implementation and once more by `super().flush`. -/
def tailKeep (n : Nat) : Op (TailSt α) α α where
  init := ⟨[], 0⟩
  item := fun s x =>
    if s.queue.length < n then ⟨⟨s.queue ++ [x], s.end⟩, [], none⟩
    else ⟨⟨s.queue.set s.end x, (s.end + 1) % n⟩, [], none⟩
  flush := fun s =>
    let count := min n s.queue.length
    ⟨⟨[], s.end⟩, ofItems (tailLoop s.queue n count s.end) ++ [.flush] ++ [.flush], none⟩
  no_flush := by intro s x; split <;> simp

/-- `TailSkipN` (tail.py 115-126) under `Tail.flush` (67-69). -/
def tailSkip (n : Nat) : Op (TailSt α) α α where
  init := ⟨[], 0⟩
  item := fun s x =>
    if s.queue.length < n then ⟨⟨s.queue ++ [x], s.end⟩, [], none⟩
    else ⟨⟨s.queue.set s.end x, (s.end + 1) % n⟩, ofItems s.queue[s.end]?.toList, none⟩
  flush := fun s => ⟨s, [.flush], none⟩
  no_flush := by intro s x; split <;> simp [ofItems]

/-- `Tail.setup` (tail.py 58-62). -/
def tailOp (n : Int) : Except Exn (Op (TailSt α) α α) :=
  if n = 0 then .error .kill
  else if n > 0 then .ok (tailKeep n.toNat) else .ok (tailSkip (-n).toNat)

/-- reverse.py 37-54. `contents` is `None` after end of stream; receiving then is an
AttributeError. -/
def reverseOp : Op (Option (List α)) α α where
  init := some []
  item := fun s x =>
    match s with
    | some c => ⟨some (c ++ [x]), [], none⟩
    | none => ⟨none, [], some .crash⟩
  flush := fun s =>
    match s with
    | some c => ⟨none, ofItems c.reverse ++ [.flush], none⟩
    | none => ⟨none, [.flush], none⟩
  no_flush := by intro s x; cases s <;> simp

/-- `list.sort` on keyed items, as insertion sort: `x` goes in front of the first element that is
greater. `lt a b = none` models `a < b` raising a TypeError. Simplification: CPython's timsort is
stable and, on keys whose comparison is a strict weak order, has the same result; which comparisons are
attempted on incomparable keys may differ. -/
def pyInsert (lt : κ → κ → Option Bool) (x : κ × α) : List (κ × α) → Option (List (κ × α))
  | [] => some [x]
  | y :: ys =>
    match lt x.1 y.1 with
    | none => none
    | some true => some (x :: y :: ys)
    | some false => (pyInsert lt x ys).map (y :: ·)

/-- `list.sort` (see `pyInsert`). -/
def pySort (lt : κ → κ → Option Bool) (sorted : List (κ × α)) : List (κ × α) → Option (List (κ × α))
  | [] => some sorted
  | x :: xs =>
    match pyInsert lt x sorted with
    | none => none
    | some s => pySort lt s xs

/-- Key computation done by `list.sort(key=...)`: for all items, in order, before any comparison. -/
def withKeys (key : α → Except Msg κ) : List α → Except Msg (List (κ × α))
  | [] => .ok []
  | x :: xs =>
    match key x with
    | .error m => .error m
    | .ok k =>
      match withKeys key xs with
      | .error m => .error m
      | .ok r => .ok ((k, x) :: r)

/-- sort.py 48-91. Without a key argument the key is the item itself. A failing key function
raises KillAndResume out of `flush` (78); TypeError becomes KillCommand (86-87). -/
def sortOp (key : α → Except Msg κ) (lt : κ → κ → Option Bool) : Op (Option (List α)) α α where
  init := some []
  item := fun s x => ⟨s.map (· ++ [x]), [], none⟩
  flush := fun s =>
    match s with
    | none => ⟨none, [.flush], none⟩
    | some c =>
      match withKeys key c with
      | .error m => ⟨some c, [.err m], some .kare⟩
      | .ok kc =>
        match pySort lt [] kc with
        | none => ⟨some c, [], some .kill⟩
        | some sorted => ⟨none, ofItems (sorted.map (·.2)) ++ [.flush], none⟩
  no_flush := by simp

/-- `GeneralUniquer` (unique.py 76-89); the state is the set of items seen. -/
def uniqueOp [DecidableEq α] (hashable : α → Bool) : Op (List α) α α where
  init := []
  item := fun seen x =>
    if hashable x then
      if x ∈ seen then ⟨seen, [], none⟩ else ⟨x :: seen, [.item x], none⟩
    else ⟨seen, [], some .kill⟩
  flush := fun s => ⟨s, [.flush], none⟩
  no_flush := by intro s x; split <;> (try split) <;> simp

/-- `ConsecutiveUniquer` (unique.py 92-101); the state is `current`. -/
def uniqueConsecutiveOp [DecidableEq α] : Op (Option α) α α where
  init := none
  item := fun current x =>
    if current ≠ some x then ⟨some x, [.item x], none⟩ else ⟨current, [], none⟩
  flush := fun s => ⟨s, [.flush], none⟩
  no_flush := by intro s x; split <;> simp

/-! ## window (window.py). `unwrap` is `unwrap_op_output` (util.py 96-100). In windows,
`none` is the padding. -/

/-- `PredicateWindow` (window.py 201-213) with `flush_window` (195-198). -/
def predWindowOp (unwrap : α → β) (p : α → Except Msg Bool) : Op (List β) α (List β) where
  init := []
  item := fun w x =>
    match p x with
    | .error m => fatal w m
    | .ok true =>
      if w.length > 0 then ⟨[unwrap x], [.item w], none⟩ else ⟨[unwrap x], [], none⟩
    | .ok false => ⟨w ++ [unwrap x], [], none⟩
  flush := fun w =>
    if w.length > 0 then ⟨[], [.item w, .flush], none⟩ else ⟨[], [.flush], none⟩
  no_flush := by
    intro s x
    rcases p x with _ | ⟨_ | _⟩ <;> simp [fatal]
    split <;> simp

/-- Appending `None` while the window is shorter than `n` (window.py 233-234, 256-257). -/
def padTo (n : Nat) (w : List (Option β)) : List (Option β) :=
  w ++ List.replicate (n - w.length) none

/-- The loop of `OverlapWindow.flush` (window.py 236-239): `k` times drop the first, append None,
send. Returns the final window and the windows sent. -/
def overlapLoop : Nat → List (Option β) → List (Option β) × List (List (Option β))
  | 0, w => (w, [])
  | k + 1, w =>
    let w' := w.drop 1 ++ [none]
    let r := overlapLoop k w'
    (r.1, w' :: r.2)

/-- `OverlapWindow` (window.py 216-240). Note that on an empty window end of stream is not
propagated, and that the window is not cleared by `flush`. -/
def overlapWindowOp (unwrap : α → β) (n : Nat) : Op (List (Option β)) α (List (Option β)) where
  init := []
  item := fun w x =>
    let w1 := if w.length = n then w.drop 1 else w
    let w2 := w1 ++ [some (unwrap x)]
    if w2.length = n then ⟨w2, [.item w2], none⟩ else ⟨w2, [], none⟩
  flush := fun w =>
    if w.length > 0 then
      let first := if w.length < n then [padTo n w] else []
      let r := overlapLoop (n - 1) (padTo n w)
      ⟨r.1, ofItems first ++ ofItems r.2 ++ [.flush], none⟩
    else ⟨w, [], none⟩
  no_flush := by intro s x; dsimp only; split <;> split <;> simp

/-- `DisjointWindow` (window.py 243-259). -/
def disjointWindowOp (unwrap : α → β) (n : Nat) : Op (List (Option β)) α (List (Option β)) where
  init := []
  item := fun w x =>
    let w' := w ++ [some (unwrap x)]
    if w'.length = n then ⟨[], [.item w'], none⟩ else ⟨w', [], none⟩
  flush := fun w =>
    if w.length > 0 then ⟨[], [.item (padTo n w), .flush], none⟩ else ⟨w, [.flush], none⟩
  no_flush := by intro s x; dsimp only; split <;> simp

/-- The three kinds of windows behind one operator. -/
inductive WindowKind (α : Type) : Type
  | pred (p : α → Except Msg Bool)
  | overlap (n : Nat)
  | disjoint (n : Nat)

/-- `Window.setup` (window.py 145-161): which generator is used, given the arguments
(`ArgsParser.exactly_one` has made sure that at most one of them is given). `overlap = 0` is falsy
and falls through to the disjoint case, whose check then fails as `disjoint` is None. -/
def windowSetup (predicate : Option (α → Except Msg Bool)) (overlap disjoint : Option Int) :
    Except Exn (WindowKind α) :=
  match predicate with
  | some p => .ok (.pred p)
  | none =>
    match overlap with
    | some o =>
      if o ≠ 0 then
        if o ≥ 0 then .ok (.overlap o.toNat) else .error .kill
      else
        match disjoint with
        | some d => if d ≥ 0 then .ok (.disjoint d.toNat) else .error .kill
        | none => .error .kill
    | none =>
      match disjoint with
      | some d => if d ≥ 0 then .ok (.disjoint d.toNat) else .error .kill
      | none => .error .kill

end Marcel
