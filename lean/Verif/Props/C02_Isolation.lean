import Verif.Model.Ops
import Verif.Props.C01_Staging

/-! C02: an item that makes a function fail only loses itself. -/

namespace Marcel
open Op

variable {σ τ α β γ : Type}

/-- An operator rejects `x` with message `m`: whatever its state, it answers `x` with one error,
raises KillAndResume, and does not change its state. -/
def Rejects (o : Op σ α β) (x : α) (m : Msg) : Prop :=
  ∀ s, o.item s x = ⟨s, [.err m], some .kare⟩

theorem clean_insert_err (u v : List (Ev β)) (m : Msg) :
    withoutErrs (u ++ .err m :: v) = withoutErrs (u ++ v) := by
  induction u with
  | nil => rfl
  | cons e u ih => cases e <;> simp [withoutErrs, ih]

/-- **C02.** Let `o`, in the state it is in after the events `a`, reject `x` with `m`. Then in any
pipeline `... | o | q`, with any events after (`b`) it, `x` changes nothing except for one more error,
at its place in the stream: same items, same end-of-stream signals, same way of ending. (In the second
case of the disjunction the command had been killed before `x` was reached.) -/
theorem C02_rejected_at (o : Op σ α β) (q : Op τ β γ) (x : α) (m : Msg) (a b : List (Ev α))
    (h : o.item (o.feed o.init a).st x = ⟨(o.feed o.init a).st, [.err m], some .kare⟩) :
    let with_x := (o.comp q).obs (a ++ .item x :: b)
    let without_x := (o.comp q).obs (a ++ b)
    items with_x.1 = items without_x.1 ∧ flushes with_x.1 = flushes without_x.1 ∧
    with_x.2 = without_x.2 ∧
    ((∃ u v, with_x.1 = u ++ .err m :: v ∧ without_x.1 = u ++ v) ∨ with_x = without_x) := by
  intro w wo
  have hw : w = staged o.obs q.obs (a ++ .item x :: b) := C01_obs o q _
  have hwo : wo = staged o.obs q.obs (a ++ b) := C01_obs o q _
  by_cases ha : (o.feed o.init a).exn.isSome
  · have : o.obs (a ++ .item x :: b) = o.obs (a ++ b) := by
      simp [obs, feed_append, ha]
    have hww : w = wo := by rw [hw, hwo]; simp [staged, this]
    refine ⟨by rw [hww], by rw [hww], by rw [hww], Or.inr hww⟩
  · have hx : (o.feed (o.feed o.init a).st (.item x :: b)) =
        ⟨(o.feed (o.feed o.init a).st b).st, .err m :: (o.feed (o.feed o.init a).st b).out,
          (o.feed (o.feed o.init a).st b).exn⟩ := by
      rw [feed_cons, step_item, h]; simp [catchKare]
    have h1 : o.obs (a ++ .item x :: b) =
        ((o.feed o.init a).out ++ .err m :: (o.feed (o.feed o.init a).st b).out,
          (o.feed (o.feed o.init a).st b).exn) := by
      simp [obs, feed_append, ha, hx]
    have h2 : o.obs (a ++ b) =
        ((o.feed o.init a).out ++ (o.feed (o.feed o.init a).st b).out,
          (o.feed (o.feed o.init a).st b).exn) := by
      simp [obs, feed_append, ha]
    generalize (o.feed o.init a).out = u at *
    generalize (o.feed (o.feed o.init a).st b).out = v at *
    generalize (o.feed (o.feed o.init a).st b).exn = y at *
    have t1 := C01_errors_transparent q q.init (u ++ .err m :: v)
    have t2 := C01_errors_transparent q q.init (u ++ v)
    rw [clean_insert_err] at t1
    have e1 : items w.1 = items wo.1 := by
      rw [hw, hwo]; simp only [staged, h1, h2]; simp only [obs]; rw [t1.1, t2.1]
    have e2 : flushes w.1 = flushes wo.1 := by
      rw [hw, hwo]; simp only [staged, h1, h2]; simp only [obs]; rw [t1.2.1, t2.2.1]
    have e3 : w.2 = wo.2 := by
      rw [hw, hwo]; simp only [staged, h1, h2]; simp only [obs]; rw [t1.2.2.1, t2.2.2.1]
    refine ⟨e1, e2, e3, ?_⟩
    by_cases hu : (q.feed q.init u).exn.isSome
    · right
      rw [hw, hwo]; simp only [staged, h1, h2]; simp [obs, feed_append, hu]
    · left
      refine ⟨(q.feed q.init u).out, (q.feed (q.feed q.init u).st v).out, ?_, ?_⟩
      · rw [hw]; simp only [staged, h1]; simp [obs, feed_append, hu, feed_cons, step_err]
      · rw [hwo]; simp only [staged, h2]; simp [obs, feed_append, hu]

/-- **C02.** Let `o` reject `x` with `m` in every state. Then in any pipeline `... | o | q`, with any
events before (`a`) and after (`b`) it, `x` changes nothing except for one more error, at its place. -/
theorem C02_rejected_item (o : Op σ α β) (q : Op τ β γ) (x : α) (m : Msg) (h : Rejects o x m)
    (a b : List (Ev α)) :
    let with_x := (o.comp q).obs (a ++ .item x :: b)
    let without_x := (o.comp q).obs (a ++ b)
    items with_x.1 = items without_x.1 ∧ flushes with_x.1 = flushes without_x.1 ∧
    with_x.2 = without_x.2 ∧
    ((∃ u v, with_x.1 = u ++ .err m :: v ∧ without_x.1 = u ++ v) ∨ with_x = without_x) :=
  C02_rejected_at o q x m a b (h _)

theorem map_rejects (f : α → Except Msg β) (x : α) (m : Msg) (h : f x = .error m) :
    Rejects (mapOp f) x m := by intro s; simp [mapOp, h, fatal]

theorem select_rejects (f : α → Except Msg Bool) (x : α) (m : Msg) (h : f x = .error m) :
    Rejects (selectOp f) x m := by intro s; simp [selectOp, h, fatal]

theorem window_rejects (u : α → β) (p : α → Except Msg Bool) (x : α) (m : Msg) (h : p x = .error m) :
    Rejects (predWindowOp u p) x m := by intro s; simp [predWindowOp, h, fatal]

/-- **C02** for map. -/
theorem C02_map (f : α → Except Msg β) (q : Op τ β γ) (x : α) (m : Msg) (h : f x = .error m)
    (a b : List (Ev α)) :
    let with_x := ((mapOp f).comp q).run (a ++ .item x :: b)
    let without_x := ((mapOp f).comp q).run (a ++ b)
    items with_x.1 = items without_x.1 ∧ with_x.2 = without_x.2 ∧
    ((∃ u v, with_x.1 = u ++ .err m :: v ∧ without_x.1 = u ++ v) ∨ with_x = without_x) := by
  have := C02_rejected_item (mapOp f) q x m (map_rejects f x m h) a (b ++ [.flush])
  simp only [Op.run, List.append_assoc, List.cons_append]
  exact ⟨this.1, this.2.2⟩

/-- **C02** for select. -/
theorem C02_select (f : α → Except Msg Bool) (q : Op τ α γ) (x : α) (m : Msg) (h : f x = .error m)
    (a b : List (Ev α)) :
    let with_x := ((selectOp f).comp q).run (a ++ .item x :: b)
    let without_x := ((selectOp f).comp q).run (a ++ b)
    items with_x.1 = items without_x.1 ∧ with_x.2 = without_x.2 ∧
    ((∃ u v, with_x.1 = u ++ .err m :: v ∧ without_x.1 = u ++ v) ∨ with_x = without_x) := by
  have := C02_rejected_item (selectOp f) q x m (select_rejects f x m h) a (b ++ [.flush])
  simp only [Op.run, List.append_assoc, List.cons_append]
  exact ⟨this.1, this.2.2⟩

/-- **C02** for predicate windows. -/
theorem C02_window (un : α → β) (p : α → Except Msg Bool) (q : Op τ (List β) γ) (x : α) (m : Msg)
    (h : p x = .error m) (a b : List (Ev α)) :
    let with_x := ((predWindowOp un p).comp q).run (a ++ .item x :: b)
    let without_x := ((predWindowOp un p).comp q).run (a ++ b)
    items with_x.1 = items without_x.1 ∧ with_x.2 = without_x.2 ∧
    ((∃ u v, with_x.1 = u ++ .err m :: v ∧ without_x.1 = u ++ v) ∨ with_x = without_x) := by
  have := C02_rejected_item (predWindowOp un p) q x m (window_rejects un p x m h) a (b ++ [.flush])
  simp only [Op.run, List.append_assoc, List.cons_append]
  exact ⟨this.1, this.2.2⟩

/-- **C02**, exact stream of map: every item is replaced, in place, by its image or by the error. -/
theorem C02_map_exact (f : α → Except Msg β) (xs : List α) :
    (mapOp f).run (ofItems xs) =
      (xs.map (fun x => match f x with | .ok y => Ev.item y | .error m => .err m) ++ [.flush], none) := by
  have h := obs_ofItems_unit (mapOp f)
    (by intro x; simp only [mapOp, catchKare_exn]; cases f x <;> simp [fatal]) xs
  simp only [obs, Prod.mk.injEq] at h
  rw [run_ofItems _ _ h.2, h.1]
  congr 1
  rw [show (mapOp f).flush _ = ⟨(), [.flush], none⟩ from rfl]
  congr 1
  clear h
  induction xs with
  | nil => rfl
  | cons x xs ih =>
    rw [List.flatMap_cons, List.map_cons, ih]
    simp only [mapOp]
    cases f x <;> simp [fatal]

/-- **C02**, exact stream of select: an item stays, goes, or is replaced by the error. -/
theorem C02_select_exact (f : α → Except Msg Bool) (xs : List α) :
    (selectOp f).run (ofItems xs) =
      (xs.flatMap (fun x => match f x with
        | .ok b => if b then [Ev.item x] else []
        | .error m => [.err m]) ++ [.flush], none) := by
  have h := obs_ofItems_unit (selectOp f)
    (by intro x; simp only [selectOp, catchKare_exn]; rcases f x with _ | ⟨_ | _⟩ <;> simp [fatal]) xs
  simp only [obs, Prod.mk.injEq] at h
  rw [run_ofItems _ _ h.2, h.1]
  rw [show (selectOp f).flush _ = ⟨(), [.flush], none⟩ from rfl]
  congr 2
  clear h
  induction xs with
  | nil => rfl
  | cons x xs ih =>
    rw [List.flatMap_cons, List.flatMap_cons, ih]
    congr 1
    simp only [selectOp]
    rcases f x with _ | ⟨_ | _⟩ <;> simp [fatal]

/-- Non-vacuity: division fails on 0. -/
def divBy (x : Nat) : Except Msg Nat := if x = 0 then .error "ZeroDivisionError" else .ok (100 / x)

example : divBy 0 = .error "ZeroDivisionError" := rfl
example : (((mapOp divBy).comp (tailKeep 2)).run (ofItems [5, 10] ++ .item 0 :: ofItems [20])).1 =
    [.err "ZeroDivisionError", .item 10, .item 5, .flush, .flush] := by decide

end Marcel
