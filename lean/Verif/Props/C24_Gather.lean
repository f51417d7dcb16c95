import Verif.Model.Pipeline

/-!
# C24: gather and first

The part about the `errors` argument is false: it is ignored.
-/

namespace Marcel
open Api

variable {V E : Type}

/-! ### Specification -/

/-- How an emitted item appears in the result. -/
def presented (unwrap : Bool) (xs : List V) : Out V :=
  match unwrap, xs with
  | true, [x] => .val x
  | _, _ => .tup xs

/-- What gather should return for a stream: items and errors in order. -/
def gathered (unwrap : Bool) (es : List (Ev (List V))) : List (Out V) :=
  es.filterMap fun
    | .item xs => some (presented unwrap xs)
    | .err m => some (.error m)
    | .flush => none

/-! ### Proofs -/

theorem collect_gather (unwrap : Bool) (errors : E) (es : List (Ev (List V))) (l : List (Out V)) :
    es.foldl (step unwrap false errors) l = l ++ gathered unwrap es := by
  induction es generalizing l with
  | nil => simp [gathered]
  | cons e es ih =>
    rw [List.foldl_cons, ih]
    cases e with
    | item xs =>
      rcases xs with _ | ⟨x, _ | ⟨y, xs⟩⟩ <;> cases unwrap <;> simp [step, gathered, presented]
    | err m => simp [step, gathered]
    | flush => simp [step, gathered]

theorem collect_first (unwrap : Bool) (errors : E) (es : List (Ev (List V))) (l : List (Out V)) :
    es.foldl (step unwrap true errors) l = l ++ (items es).map (presented unwrap) := by
  induction es generalizing l with
  | nil => simp [items]
  | cons e es ih =>
    rw [List.foldl_cons, ih]
    cases e with
    | item xs =>
      rcases xs with _ | ⟨x, _ | ⟨y, xs⟩⟩ <;> cases unwrap <;> simp [step, items, presented]
    | err m => simp [step, items]
    | flush => simp [step, items]

/-- **C24, gather.** Whatever the pipeline emits, if it is not ended by a Python exception, gather returns all items and
errors it emitted (up to where it was killed, if it was) in order, singletons unwrapped exactly if requested. -/
theorem C24_gather_partial (unwrap : Bool) (errors : E) (es : List (Ev (List V))) (x : Option Exn)
    (hx : x ≠ some .crash) : gather unwrap errors (es, x) = .ok (gathered unwrap es) := by
  unfold gather
  split
  · next h => exact absurd h hx
  · rw [collect, collect_gather]; rfl

/-- Without unwrapping, the emitted items can be read off the result: nothing is lost. -/
theorem C24_gather_lossless (errors : E) (es : List (Ev (List V))) (x : Option Exn) (hx : x ≠ some .crash) :
    ∃ l, gather false errors (es, x) = .ok l ∧
      l.filterMap (fun | .tup vs => some vs | _ => none) = items es ∧
      l.filterMap (fun | .error m => some m | _ => none) = errs es := by
  refine ⟨_, C24_gather_partial false errors es x hx, ?_, ?_⟩
  · clear hx
    induction es with
    | nil => rfl
    | cons e es ih => cases e <;> simp_all [gathered, presented, items]
  · clear hx
    induction es with
    | nil => rfl
    | cons e es ih => cases e <;> simp_all [gathered, presented, errs]

/-- **C24, first.** first returns the first emitted item (None if there is none), errors notwithstanding — provided
that item is not itself an `Error` object. -/
theorem C24_first (isErr : V → Bool) (unwrap : Bool) (errors : E) (es : List (Ev (List V))) (x : Option Exn)
    (hx : x ≠ some .crash) (hi : ∀ v, (items es).head? = some [v] → isErr v = false) :
    first isErr unwrap errors (es, x) = .ok ((items es).head?.map (presented unwrap)) := by
  unfold first
  split
  · next h => exact absurd h hx
  · rw [collect, collect_first, List.nil_append, List.head?_map]
    cases h : (items es).head? with
    | none => rfl
    | some xs =>
      simp only [Option.map_some]
      rcases xs with _ | ⟨v, _ | ⟨w, ws⟩⟩
      · cases unwrap <;> rfl
      · have := hi v h
        cases unwrap <;> simp [presented, this]
      · cases unwrap <;> rfl

/-- **C24, first.** If the first item is an `Error` object, it is raised; this needs unwrapping, a tuple that contains it is
returned. -/
theorem C24_first_raises (isErr : V → Bool) (errors : E) (es : List (Ev (List V))) (x : Option Exn)
    (hx : x ≠ some .crash) (v : V) (hv : (items es).head? = some [v]) (he : isErr v = true) :
    first isErr true errors (es, x) = .error .crash ∧ first isErr false errors (es, x) = .ok (some (.tup [v])) := by
  unfold first
  constructor
  all_goals
    split
    · next h => exact absurd h hx
    · rw [collect, collect_first, List.nil_append, List.head?_map, hv]
      simp [presented, he]

/-- **The error handling part of C24 is false of the code**: whatever is given as `errors`, the result is the same;
errors are always part of gather's result (never excluded, never handed to the callback). -/
theorem C24_false {E' : Type} (unwrap : Bool) (errors : E) (errors' : E') (res : List (Ev (List V)) × Option Exn) :
    gather unwrap errors res = gather unwrap errors' res ∧
    (∀ m, Ev.err m ∈ res.1 → res.2 ≠ some .crash →
      ∃ l, gather unwrap errors res = .ok l ∧ Out.error m ∈ l) := by
  refine ⟨?_, fun m hm hx => ?_⟩
  · cases res with
    | mk es x =>
      by_cases hx : x = some .crash
      · subst hx; rfl
      · rw [C24_gather_partial _ _ _ _ hx, C24_gather_partial _ _ _ _ hx]
  · refine ⟨_, C24_gather_partial unwrap errors res.1 res.2 hx, ?_⟩
    exact List.mem_filterMap.2 ⟨.err m, hm, rfl⟩

/-- `first` does not stop the pipeline after the first item: its operator goes on to collect every item the pipeline
emits (so it does not return for an endless pipeline). -/
theorem C24_first_runs_on (unwrap : Bool) (errors : E) (es : List (Ev (List V))) :
    (collect unwrap true errors es).length = (items es).length := by
  rw [collect, collect_first]; simp

/-! ### The hypotheses can be met -/

example : gather true () ([.item [1], .err "e", .item [2, 3], .item [], .flush], some .kill) =
    .ok [.val 1, .error "e", .tup [2, 3], .tup []] := rfl
example : first (fun _ => false) true () ([.err "e", .item [7], .item [8], .flush], none) = .ok (some (Out.val 7)) := rfl
example : ∀ v, (items [.err "e", .item [7], .item [8], Ev.flush]).head? = some [v] → (v == 8) = false := by
  intro v h; simp [items] at h; simp [← h]

end Marcel
