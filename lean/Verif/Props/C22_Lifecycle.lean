import Verif.Model.Pipeline

/-!
# C22: misplaced operators, cleanup
-/

namespace Marcel
open Pipe

variable {α : Type}

/-! ### Specification -/

/-- The operators cleaned up, in order. -/
def cleanedUp : List (Eff α) → List Nat
  | [] => []
  | .cleanup i :: l => i :: cleanedUp l
  | _ :: l => cleanedUp l

/-- The operators set up, in order. -/
def wasSetUp : List (Eff α) → List Nat
  | [] => []
  | .setup i :: l => i :: wasSetUp l
  | _ :: l => wasSetUp l

/-- What the command emits. -/
def emitted : List (Eff α) → List (Ev α)
  | [] => []
  | .emit e :: l => e :: emitted l
  | _ :: l => emitted l

@[simp] theorem cleanedUp_append (a b : List (Eff α)) : cleanedUp (a ++ b) = cleanedUp a ++ cleanedUp b := by
  induction a with
  | nil => rfl
  | cons x a ih => cases x <;> simp [cleanedUp, ih]

@[simp] theorem emitted_append (a b : List (Eff α)) : emitted (a ++ b) = emitted a ++ emitted b := by
  induction a with
  | nil => rfl
  | cons x a ih => cases x <;> simp [emitted, ih]

@[simp] theorem wasSetUp_append (a b : List (Eff α)) : wasSetUp (a ++ b) = wasSetUp a ++ wasSetUp b := by
  induction a with
  | nil => rfl
  | cons x a ih => cases x <;> simp [wasSetUp, ih]

@[simp] theorem cleanedUp_emits (es : List (Ev α)) : cleanedUp (es.map Eff.emit) = [] := by
  induction es with
  | nil => rfl
  | cons x a ih => simp [cleanedUp, ih]

@[simp] theorem cleanedUp_errs (ms : List Msg) : cleanedUp (ms.map fun m => (Eff.emit (.err m) : Eff α)) = [] := by
  induction ms with
  | nil => rfl
  | cons x a ih => simp [cleanedUp, ih]

@[simp] theorem emitted_errs (ms : List Msg) :
    emitted (ms.map fun m => (Eff.emit (.err m) : Eff α)) = ms.map Ev.err := by
  induction ms with
  | nil => rfl
  | cons x a ih => simp [emitted, ih]

@[simp] theorem emitted_emits (es : List (Ev α)) : emitted (es.map Eff.emit) = es := by
  induction es with
  | nil => rfl
  | cons x a ih => simp [emitted, ih]

theorem cleanedUp_setups (ops : List (LOp α)) : cleanedUp (setups ops).1 = [] := by
  induction ops with
  | nil => rfl
  | cons o os ih => simp only [setups]; split <;> simp [cleanedUp, ih]

theorem cleanedUp_customs (ops : List (LOp α)) : cleanedUp (customs ops).1 = [] := by
  induction ops with
  | nil => rfl
  | cons o os ih => simp only [customs]; split <;> simp [cleanedUp, ih]

theorem cleanedUp_setup (ops : List (LOp α)) : cleanedUp (setup ops).1 = [] := by
  have h1 := cleanedUp_setups ops
  have h2 := cleanedUp_customs ops
  simp only [setup]
  split
  · split
    · next h => simpa [h] using h1
    · next h => rw [h] at h1; simp [h1, h2]
  · rfl

/-- Only errors are emitted by these effects. -/
def OnlyErrors (es : List (Ev α)) : Prop := ∀ e ∈ es, ∃ m, e = .err m

theorem onlyErrors_append {a b : List (Ev α)} (ha : OnlyErrors a) (hb : OnlyErrors b) : OnlyErrors (a ++ b) := by
  intro e he
  rcases List.mem_append.1 he with h | h
  · exact ha e h
  · exact hb e h

theorem onlyErrors_map (ms : List Msg) : OnlyErrors (ms.map (Ev.err (α := α))) := by
  intro e he
  obtain ⟨m, _, rfl⟩ := List.mem_map.1 he
  exact ⟨m, rfl⟩

theorem onlyErrors_setups (ops : List (LOp α)) : OnlyErrors (emitted (setups ops).1) := by
  induction ops with
  | nil => intro e he; simp [setups, emitted] at he
  | cons o os ih =>
    simp only [setups]
    split
    · simpa [emitted] using onlyErrors_map o.setup.1
    · simpa [emitted] using onlyErrors_append (onlyErrors_map o.setup.1) ih

theorem onlyErrors_customs (ops : List (LOp α)) : OnlyErrors (emitted (customs ops).1) := by
  induction ops with
  | nil => intro e he; simp [customs, emitted] at he
  | cons o os ih =>
    simp only [customs]
    split
    · simpa [emitted] using onlyErrors_map o.custom.1
    · simpa [emitted] using onlyErrors_append (onlyErrors_map o.custom.1) ih

theorem onlyErrors_setup (ops : List (LOp α)) : OnlyErrors (emitted (setup ops).1) := by
  have h1 := onlyErrors_setups ops
  have h2 := onlyErrors_customs ops
  simp only [setup]
  split
  · split
    · next h => simpa [h] using h1
    · next h => rw [h] at h1; simpa using onlyErrors_append h1 h2
  · intro e he; simp [emitted] at he

/-- **C22, part 1.** If the operators are distinct objects and one that must be first is not, then the
command is killed, and nothing at all happens: no operator is set up, nothing is emitted. -/
theorem C22_must_be_first (ops : List (LOp α)) (hnd : (ops.map (·.id)).Nodup) (i : Nat) (o : LOp α)
    (hi : 0 < i) (ho : ops[i]? = some o) (hf : o.mustBeFirst = true) :
    runPipeline ops = ([], some .kill) := by
  have hp : placementOk ops = false := by
    cases ops with
    | nil => simp at ho
    | cons a as =>
      simp only [List.map_cons, List.nodup_cons] at hnd
      obtain ⟨j, rfl⟩ : ∃ j, i = j + 1 := ⟨i - 1, by omega⟩
      rw [List.getElem?_cons_succ] at ho
      have hmem : o ∈ as := List.mem_of_getElem? ho
      have hne : o.id ≠ a.id := fun hc => hnd.1 (by rw [← hc]; exact List.mem_map_of_mem hmem)
      rw [placementOk, List.all_eq_false]
      exact ⟨o, by simp [hmem], by simp [hne, hf]⟩
  simp [runPipeline, setup, hp, fatal]

/-- **C22, part 2.** If the first operator must not be first, the command is ended by an exception, and emits nothing
but the errors sent by the operators while they were set up (e.g. about an argument that cannot be evaluated). -/
theorem C22_must_not_be_first (o : LOp α) (os : List (LOp α)) (hf : o.mustNotBeFirst = true) :
    (runPipeline (o :: os)).2 ≠ none ∧ OnlyErrors (emitted (runPipeline (o :: os)).1) := by
  have hs := onlyErrors_setup (o :: os)
  have hc : emitted (cleanups (o :: os)).1 = [] := by
    generalize o :: os = l
    induction l with
    | nil => rfl
    | cons a as ih => simp only [cleanups]; split <;> simp [emitted, ih]
  simp only [runPipeline]
  split
  · next h => rw [h] at hs; exact ⟨by simp, hs⟩
  · next h =>
    rw [h] at hs
    refine ⟨?_, ?_⟩
    · simp only [runFlush, hf, if_true]
      cases (cleanups (o :: os)).2 <;> simp
    · simpa [runFlush, hf, hc] using hs

/-- **C22, part 3.** Whatever the operators do while they run (any emissions, any exceptions), if the pipeline has
been set up and no operator's own cleanup fails, then every operator is cleaned up exactly once, in order, after
everything the command emits. -/
theorem C22_cleanup (ops : List (LOp α)) (hs : (setup ops).2 = none) (hc : ∀ o ∈ ops, o.cleanup = none) :
    ∃ before, (runPipeline ops).1 = before ++ ops.map (fun o => Eff.cleanup o.id) ∧ cleanedUp before = [] ∧
      (runPipeline ops).2 = (runFlush ops).2 := by
  have hcl : cleanups ops = (ops.map (fun o => Eff.cleanup o.id), none) := by
    clear hs
    induction ops with
    | nil => rfl
    | cons a as ih =>
      have := ih (fun o ho => hc o (by simp [ho]))
      simp [cleanups, hc a (by simp), this]
  cases h : setup ops with
  | mk l e =>
    rw [h] at hs
    simp only at hs
    subst hs
    refine ⟨l ++ (runFlush ops).1.map .emit, ?_, ?_, ?_⟩
    · simp [runPipeline, h, hcl]
    · have := cleanedUp_setup ops
      rw [h] at this
      simp [this]
    · simp [runPipeline, h, hcl]

/-- In general: the operators up to the first whose own cleanup fails are cleaned up. -/
theorem C22_cleanup_failing (as bs : List (LOp α)) (b : LOp α) (hs : (setup (as ++ b :: bs)).2 = none)
    (ha : ∀ o ∈ as, o.cleanup = none) (e : Exn) (hb : b.cleanup = some e) :
    cleanedUp (runPipeline (as ++ b :: bs)).1 = as.map (·.id) ++ [b.id] ∧
      (runPipeline (as ++ b :: bs)).2 = some e := by
  have hcl : cleanups (as ++ b :: bs) = (as.map (fun o => Eff.cleanup o.id) ++ [.cleanup b.id], some e) := by
    clear hs
    induction as with
    | nil => simp [cleanups, hb]
    | cons a as ih =>
      have := ih (fun o ho => ha o (by simp [ho]))
      simp [cleanups, ha a (by simp), this]
  have hm : ∀ l : List (LOp α), cleanedUp (l.map (fun o => (Eff.cleanup o.id : Eff α))) = l.map (·.id) := by
    intro l
    induction l with
    | nil => rfl
    | cons a l ih => simp [cleanedUp, ih]
  cases h : setup (as ++ b :: bs) with
  | mk l e =>
    rw [h] at hs
    simp only at hs
    subst hs
    have := cleanedUp_setup (as ++ b :: bs)
    rw [h] at this
    simp only at this
    constructor
    · simp [runPipeline, h, hcl, this, hm, cleanedUp]
    · simp [runPipeline, h, hcl]

/-- Observation (not claimed by C22, which speaks of pipelines that are run): if setting up fails, no operator is
cleaned up, not even those already set up; a store operator's file stays open (see C42). -/
theorem C22_setup_failure (ops : List (LOp α)) (e : Exn) (hs : (setup ops).2 = some e) :
    cleanedUp (runPipeline ops).1 = [] ∧ (runPipeline ops).2 = some (fatal e) := by
  have := cleanedUp_setup ops
  cases h : setup ops with
  | mk l e' =>
    rw [h] at hs this
    simp only at hs
    subst hs
    simp [runPipeline, h, this]

/-! ### The order of everything that happens -/

/-- Setting up one operator, with the errors it sends. -/
def setupOf (o : LOp α) : List (Eff α) := .setup o.id :: o.setup.1.map fun m => .emit (.err m)
/-- Customizing one operator, with the errors it sends. -/
def customOf (o : LOp α) : List (Eff α) := .custom o.id :: o.custom.1.map fun m => .emit (.err m)

theorem setups_ok (ops : List (LOp α)) (h : ∀ o ∈ ops, o.setup.2 = none) :
    setups ops = (ops.flatMap setupOf, none) := by
  induction ops with
  | nil => rfl
  | cons a as ih => simp [setups, h a (by simp), ih (fun o ho => h o (by simp [ho])), setupOf]

theorem customs_ok (ops : List (LOp α)) (h : ∀ o ∈ ops, o.custom.2 = none) :
    customs ops = (ops.flatMap customOf, none) := by
  induction ops with
  | nil => rfl
  | cons a as ih => simp [customs, h a (by simp), ih (fun o ho => h o (by simp [ho])), customOf]

theorem setups_fail (as bs : List (LOp α)) (b : LOp α) (h : ∀ o ∈ as, o.setup.2 = none) (e : Exn)
    (hb : b.setup.2 = some e) : setups (as ++ b :: bs) = (as.flatMap setupOf ++ setupOf b, some e) := by
  induction as with
  | nil => simp [setups, hb, setupOf]
  | cons a as ih => simp [setups, h a (by simp), ih (fun o ho => h o (by simp [ho])), setupOf]

theorem customs_fail (as bs : List (LOp α)) (b : LOp α) (h : ∀ o ∈ as, o.custom.2 = none) (e : Exn)
    (hb : b.custom.2 = some e) : customs (as ++ b :: bs) = (as.flatMap customOf ++ customOf b, some e) := by
  induction as with
  | nil => simp [customs, hb, customOf]
  | cons a as ih => simp [customs, h a (by simp), ih (fun o ho => h o (by simp [ho])), customOf]

theorem placement_ok (ops : List (LOp α)) (h : ∀ o ∈ ops.tail, o.mustBeFirst = false) : placementOk ops = true := by
  cases ops with
  | nil => rfl
  | cons a as =>
    simp only [placementOk, List.all_cons, Bool.and_eq_true, List.all_eq_true]
    exact ⟨by simp, fun p hp => by simp [h p (by simpa using hp)]⟩

/-- **C22, part 4.** If no operator is misplaced and none fails while set up or cleaned up, the command does exactly
this, in this order: all operators are set up from left to right; all are customized; the first one runs, everything it sends
(`r.out`) being handled by the others on the spot; then, unless an exception has ended the run, the first one is flushed
(it sends `f.out`), which is handled by the others in the state they are then in; all operators are cleaned up. After an
exception nothing is flushed. -/
theorem C22_order (o : LOp α) (os : List (LOp α)) (hp : o.mustNotBeFirst = false)
    (hq : ∀ p ∈ os, p.mustBeFirst = false) (hs : ∀ p ∈ o :: os, p.setup.2 = none)
    (hu : ∀ p ∈ o :: os, p.custom.2 = none) (hc : ∀ p ∈ o :: os, p.cleanup = none) :
    let others := (chain (os.map fun p => (⟨p.σ, p.op⟩ : AnyOp α))).2
    let r := o.run o.op.init
    let f := o.op.flush r.st
    let told := others.obs r.out
    let all := others.obs (r.out ++ f.out)
    ∃ out exn, runPipeline (o :: os) =
        ((o :: os).flatMap setupOf ++ (o :: os).flatMap customOf ++ out.map .emit ++
          (o :: os).map (fun p => .cleanup p.id), exn) ∧
      (∀ e, told.2 = some e → out = told.1 ∧ exn = some e) ∧
      (∀ e, told.2 = none → r.exn = some e → out = told.1 ∧ exn = some e) ∧
      (∀ e, told.2 = none → r.exn = none → all.2 = some e → out = all.1 ∧ exn = some e) ∧
      (told.2 = none → r.exn = none → all.2 = none → out = all.1 ∧ exn = f.exn) := by
  intro others r f told all
  have hcl : ∀ ops : List (LOp α), (∀ p ∈ ops, p.cleanup = none) →
      cleanups ops = (ops.map (fun o => Eff.cleanup o.id), none) := by
    intro ops h
    induction ops with
    | nil => rfl
    | cons a as ih => simp [cleanups, h a (by simp), ih (fun o ho => h o (by simp [ho]))]
  have hset : setup (o :: os) = ((o :: os).flatMap setupOf ++ (o :: os).flatMap customOf, none) := by
    rw [setup, if_pos (placement_ok _ (by simpa using hq)), setups_ok _ hs]
    simp [customs_ok _ hu]
  refine ⟨(runFlush (o :: os)).1, (runFlush (o :: os)).2, ?_, ?_⟩
  · rw [runPipeline, hset]
    simp [hcl _ hc]
  · have happ : ∀ (es fs : List (Ev α)) (s : _), (others.feed s es).exn = none →
        (others.feed s (es ++ fs)).out = (others.feed s es).out ++ (others.feed (others.feed s es).st fs).out ∧
        (others.feed s (es ++ fs)).exn = (others.feed (others.feed s es).st fs).exn := by
      intro es fs
      induction es with
      | nil => intro s _; simp [Op.feed_nil]
      | cons e es ih =>
        intro s h
        rw [Op.feed_cons] at h
        rw [List.cons_append, Op.feed_cons, Op.feed_cons]
        by_cases hx : (others.step s e).exn.isSome = true
        · rw [if_pos hx] at h; rw [h] at hx; simp at hx
        · rw [if_neg hx] at h
          have := ih _ h
          simp [hx, this]
    have hr : runFlush (o :: os) = match told.2 <|> r.exn with
        | some e => (told.1, some e)
        | none => (told.1 ++ (others.feed (others.feed others.init r.out).st f.out).out,
            (others.feed (others.feed others.init r.out).st f.out).exn <|> f.exn) := by
      simp only [runFlush, hp]
      rfl
    refine ⟨?_, ?_, ?_, ?_⟩
    · intro e h; rw [hr, h]; simp
    · intro e h1 h2; rw [hr, h1, h2]; simp
    · intro e h1 h2 h3
      have h4 := happ r.out f.out others.init h1
      have h5 : all.1 = _ := h4.1
      have h6 : all.2 = _ := h4.2
      rw [hr, h1, h2, h5]
      rw [h3] at h6
      refine ⟨rfl, ?_⟩
      show ((others.feed (others.feed others.init r.out).st f.out).exn <|> f.exn) = _
      rw [← h6]
      rfl
    · intro h1 h2 h3
      have h4 := happ r.out f.out others.init h1
      have h5 : all.1 = _ := h4.1
      have h6 : all.2 = _ := h4.2
      rw [hr, h1, h2, h5]
      rw [h3] at h6
      refine ⟨rfl, ?_⟩
      show ((others.feed (others.feed others.init r.out).st f.out).exn <|> f.exn) = _
      rw [← h6]
      rfl

/-- How a failure while setting up is reported: `KillAndResume` as `KillCommand`, anything else as it is. -/
inductive ReportedAs : Exn → Exn → Prop
  | kare : ReportedAs .kare .kill
  | kill : ReportedAs .kill .kill
  | crash : ReportedAs .crash .crash

theorem reportedAs_fatal (e : Exn) : ReportedAs e (fatal e) := by cases e <;> constructor

/-- **C22, part 5.** If an operator fails while it is set up, the command ends there: the operators before it have been set up, those
after it are not, nothing is customized, run or cleaned up; the command ends with `KillCommand`, or with the exception itself. -/
theorem C22_setup_stops (as bs : List (LOp α)) (b : LOp α) (hq : ∀ p ∈ (as ++ b :: bs).tail, p.mustBeFirst = false)
    (ha : ∀ o ∈ as, o.setup.2 = none) (e : Exn) (hb : b.setup.2 = some e) :
    ∃ e', ReportedAs e e' ∧
      runPipeline (as ++ b :: bs) = (as.flatMap setupOf ++ setupOf b, some e') := by
  refine ⟨fatal e, reportedAs_fatal e, ?_⟩
  rw [runPipeline, setup, if_pos (placement_ok _ hq), setups_fail as bs b ha e hb]

/-- **C22, part 5**, for an operator that fails while its pipeline arguments are customized. -/
theorem C22_custom_stops (as bs : List (LOp α)) (b : LOp α) (hq : ∀ p ∈ (as ++ b :: bs).tail, p.mustBeFirst = false)
    (hs : ∀ o ∈ as ++ b :: bs, o.setup.2 = none)
    (ha : ∀ o ∈ as, o.custom.2 = none) (e : Exn) (hb : b.custom.2 = some e) :
    ∃ e', ReportedAs e e' ∧
      runPipeline (as ++ b :: bs) =
        ((as ++ b :: bs).flatMap setupOf ++ (as.flatMap customOf ++ customOf b), some e') := by
  refine ⟨fatal e, reportedAs_fatal e, ?_⟩
  rw [runPipeline, setup, if_pos (placement_ok _ hq), setups_ok _ hs, customs_fail as bs b ha e hb]

/-! ### The hypotheses can be met -/

/-- An operator that emits three items when run, and otherwise passes everything on. -/
def exSource (id : Nat) : LOp Nat :=
  ⟨id, true, false, Unit, Op.pass, fun _ => ⟨(), [.item 0, .item 1, .item 2], none⟩, ([], none), ([], none), none⟩
/-- Like sort: must not be first. -/
def exSort (id : Nat) : LOp Nat :=
  ⟨id, false, true, Unit, Op.pass, fun _ => ⟨(), [], some .kill⟩, ([], none), ([], none), none⟩
/-- An operator that crashes on every item. -/
def exCrash (id : Nat) : LOp Nat :=
  ⟨id, false, false, Unit, ⟨(), fun _ _ => ⟨(), [], some .crash⟩, fun _ => ⟨(), [.flush], none⟩, by simp⟩,
    fun _ => ⟨(), [], some .crash⟩, ([], none), ([], none), none⟩

example : runPipeline [exSort 1, exSource 2] = ([], some .kill) :=
  C22_must_be_first _ (by simp [exSort, exSource]) 1 (exSource 2) (by simp) rfl rfl
example : (exSort 1).mustNotBeFirst = true := rfl
example : (setup [exSource 1, exCrash 2]).2 = none ∧ (runPipeline [exSource 1, exCrash 2]).2 = some .crash ∧
    cleanedUp (runPipeline [exSource 1, exCrash 2]).1 = [1, 2] := ⟨rfl, rfl, rfl⟩
example : emitted (runPipeline [exSource 1, exSort 2]).1 = [.item 0, .item 1, .item 2, .flush] := rfl
/-- The hypotheses of `C22_order` are met by a pipeline that succeeds and by one that fails while running. -/
example : (emitted (runPipeline [exSource 1, exSort 2]).1 = [.item 0, .item 1, .item 2, .flush]) ∧
    (runPipeline [exSource 1, exCrash 2]).2 = some .crash := ⟨rfl, rfl⟩
example : ∀ p ∈ [exSource 1, exCrash 2], p.setup.2 = none ∧ p.custom.2 = none ∧ p.cleanup = none := by
  simp [exSource, exCrash]
example : (exSource 1).mustNotBeFirst = false ∧ (exCrash 2).mustBeFirst = false := ⟨rfl, rfl⟩
/-- An operator whose setup fails with KillAndResume (e.g. an argument that cannot be evaluated). -/
def exBadSetup (id : Nat) : LOp Nat := { exCrash id with setup := (["bad"], some .kare) }
example : runPipeline [exSource 1, exBadSetup 2, exSort 3] =
    ([.setup 1, .setup 2, .emit (.err "bad")], some .kill) := rfl
/-- The distinctness of the objects is needed: `g | g` with the same object is not rejected. -/
example : (setup [exSource 1, exSource 1]).2 = none := rfl

end Marcel
