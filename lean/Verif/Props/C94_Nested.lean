import Verif.Lemmas.NestRun

/-! # C94: commands with pipelines as arguments

The specification is in `Spec/ExecNest.lean`. -/

namespace Marcel.Exec

open Op

set_option linter.unusedSectionVars false

variable {V : Type} [DecidableEq V]

/-! ## Lemmas: setting up the operators -/

/-- The result is one that the pipeline can have. -/
def ResultOf (P : Can V) (r : Result V) : Prop := ∃ t : Stream V, P (t.sent, t.how) ∧ IsResult t r

inductive AllResults : List (Can V) → List (Result V) → Prop
  | nil : AllResults [] []
  | cons (P : Can V) (Ps : List (Can V)) (r : Result V) (rs : List (Result V)) : ResultOf P r → AllResults Ps rs → AllResults (P :: Ps) (r :: rs)

theorem ran (P : Can V) (r : Result V) (h : ResultOf P r) (kare : Prop) (hs : ∀ r, P r → r.2 ≠ .running ∧ (kare ∨ r.2 ≠ .stopped .kare)) :
    ∃ a, ranTo r = some a ∧ RunOf P a ∧ (kare ∨ a.exn ≠ some .kare) := by
  obtain ⟨t, h1, h2, h3⟩ := h
  obtain ⟨h4, h5⟩ := hs _ h1
  simp only at h4 h5
  unfold ranTo
  rw [h2]
  cases hh : t.how with
  | running => exact absurd hh h4
  | finished =>
    rw [hh] at h3 h1 h5
    exact ⟨_, rfl, ⟨t.sent, .finished, h1, by simp, by rw [show (⟨t.sent, .finished⟩ : Stream V) = t by rw [← hh]]; exact h3⟩, .inr (by simp)⟩
  | stopped e =>
    rw [hh] at h3 h1 h5
    refine ⟨_, rfl, ⟨t.sent, .stopped e, h1, by simp, by rw [show (⟨t.sent, .stopped e⟩ : Stream V) = t by rw [← hh]]; exact h3⟩, ?_⟩
    rcases h5 with h5 | h5
    · exact .inl h5
    · right
      intro h
      cases h
      exact h5 rfl

theorem ran_all (w : World V) (steps : Nat) (kare : Prop) (ps : List (List NStage)) : ∀ rs : List (Result V), AllResults (canAll w steps ps) rs → SettledIn w steps kare ps →
    ∃ as, ranAll rs = some as ∧ AllRun (canAll w steps ps) as ∧ ∀ a ∈ as, kare ∨ a.exn ≠ some .kare := by
  induction ps with
  | nil =>
    intro rs h _
    rw [canAll] at h
    cases h
    exact ⟨[], rfl, (by rw [canAll]; exact .nil), (by intro a h; cases h)⟩
  | cons p ps ih =>
    intro rs h hs
    rw [canAll] at h
    rw [SettledIn] at hs
    cases h with
    | cons _ _ r rs h1 h2 =>
      obtain ⟨a, h3, h4, h5⟩ := ran _ r h1 kare hs.1.2
      obtain ⟨as, h6, h7, h8⟩ := ih rs h2 hs.2
      refine ⟨a :: as, by simp only [ranAll, h3, h6]; rfl, (by rw [canAll]; exact .cons _ _ _ _ h4 h7), ?_⟩
      intro b hb
      rcases List.mem_cons.mp hb with rfl | hb
      · exact h5
      · exact h8 b hb

theorem only_pipes (rs : List (Result V)) : (rs.map NArg.pipe).filterMap (fun | .pipe r => some r | _ => none) = rs := by
  induction rs with
  | nil => rfl
  | cons r rs ih => rw [List.map_cons, List.filterMap_cons]; simp only; rw [ih]

theorem pipes_field (rs : List (Result V)) : nestPipes [("pipelines".toList, ArgValue.list (rs.map NArg.pipe))] "pipelines" = rs := by
  show (rs.map NArg.pipe).filterMap _ = rs
  exact only_pipes rs

/-- The operators with pipelines. -/
def NStage.isNest : NStage → Prop
  | .plain _ => False
  | _ => True

theorem nest_prepared (w : World V) (steps : Nat) (st : NStage) (hn : st.isNest) (o : AnyOp V) (h : NOp w steps st o) (hq : (o.2.item o.2.init w.empty).exn ≠ some .kare) :
    NPrepared w steps st ⟨false, .ok (.stage false o)⟩ := by
  have hb : ¬ st.Bad w ∧ ¬ st.isGen ∧ ¬ st.needsInput := by
    cases st with
    | plain st => exact hn.elim
    | _ => exact ⟨fun h => h, fun h => h, fun h => h⟩
  refine ⟨⟨(by intro h; cases h), fun h => absurd h hb.2.1⟩, .inr ⟨hb.1, _, rfl, .stage o hb.2.1 hb.2.2 h ?_⟩⟩
  obtain ⟨es, x, s, h1, h2, h3⟩ := first_sends w (st.Does w steps) o hq h.1
  refine ⟨es, x, s, h1, ?_, ?_, h3⟩
  · cases st with
    | plain st => exact hn.elim
    | _ => simpa only [NStage.Starts, NStage.Does] using h2
  · rcases ndoes_how w steps st _ s h2 with h | ⟨e, h⟩ <;> rw [h] <;> simp

theorem onFirst_prepared (w : World V) (steps : Nat) (st : NStage) (hn : st.isNest) (o : AnyOp V) (R : Stream V → Stream V → Prop) (hR : st.Does w steps = R) (h : Implements' o R) (hs : SignalsOnce o.2) :
    NPrepared w steps st ⟨false, .ok (.stage false o)⟩ := by
  subst hR
  exact nest_prepared w steps st hn o ⟨h.1.one, fun _ => h.1, fun _ => hs⟩ (h.2 _)

theorem union_prepared (w : World V) (steps : Nat) (ps : List (List NStage)) (rs : List (Result V)) (h : AllResults (canAll w steps ps) rs) (hs : (NStage.union ps).Settled w steps) :
    ∃ o, NestKind.setup w [("pipelines".toList, .list (rs.map .pipe))] .union = some o ∧ NPrepared w steps (.union ps) ⟨false, .ok (.stage false o)⟩ := by
  rw [NStage.Settled] at hs
  obtain ⟨as, h1, h2, _⟩ := ran_all w steps True ps rs h hs
  refine ⟨⟨_, unionOp as⟩, by simp only [NestKind.setup, pipes_field, h1], ?_⟩
  refine nest_prepared w steps (.union ps) True.intro _ ⟨?_, fun h => absurd True.intro h, fun h => absurd True.intro h⟩ (by intro h; cases h)
  rw [NStage.Does]
  exact union_does _ as h2

theorem intersect_prepared (w : World V) (steps : Nat) (ps : List (List NStage)) (rs : List (Result V)) (h : AllResults (canAll w steps ps) rs) (hs : (NStage.intersect ps).Settled w steps) :
    ∃ o, NestKind.setup w [("pipelines".toList, .list (rs.map .pipe))] .intersect = some o ∧ NPrepared w steps (.intersect ps) ⟨false, .ok (.stage false o)⟩ := by
  rw [NStage.Settled] at hs
  obtain ⟨as, h1, h2, h3⟩ := ran_all w steps False ps rs h hs
  have h4 : NoneAgain as := fun a ha => (h3 a ha).resolve_left id
  have h5 : as.any again = false := by
    rw [List.any_eq_false]
    intro a ha
    simp only [again, decide_eq_true_eq]
    exact h4 a ha
  refine ⟨⟨_, intersectOp w.hashable (as.map (mapRun (starred w)))⟩, by simp only [NestKind.setup, pipes_field, h1, h5, Bool.false_eq_true, if_false], ?_⟩
  exact onFirst_prepared w steps (.intersect ps) True.intro _ _ (by rw [NStage.Does]) (intersect_does w _ as h2 h4) (signalsOnce_intersect _ _)

/-- One pipeline. -/
theorem ran_one (w : World V) (steps : Nat) (p : List NStage) (r : Result V) (h : ResultOf (NExecutes w steps p) r) (hs : ∀ r, NExecutes w steps p r → r.2 ≠ .running ∧ r.2 ≠ .stopped .kare) :
    ∃ a, ranAll [r] = some [a] ∧ RunOf (NExecutes w steps p) a ∧ a.exn ≠ some .kare ∧ again a = false := by
  obtain ⟨a, h1, h2, h3⟩ := ran _ r h False fun r hr => ⟨(hs r hr).1, .inr (hs r hr).2⟩
  have h4 := h3.resolve_left id
  refine ⟨a, by simp only [ranAll, h1]; rfl, h2, h4, ?_⟩
  simp only [again, decide_eq_false_iff_not]
  exact h4

theorem difference_prepared (w : World V) (steps : Nat) (p : List NStage) (r : Result V) (h : ResultOf (NExecutes w steps p) r) (hs : (NStage.difference p).Settled w steps) :
    ∃ o, NestKind.setup w [("pipeline".toList, .one (.pipe r))] .difference = some o ∧ NPrepared w steps (.difference p) ⟨false, .ok (.stage false o)⟩ := by
  rw [NStage.Settled] at hs
  obtain ⟨a, h1, h2, h3, h4⟩ := ran_one w steps p r h hs.2
  refine ⟨⟨_, diffOp w.hashable (mapRun (starred w) a)⟩, ?_, ?_⟩
  · simp only [NestKind.setup, show nestPipes [("pipeline".toList, ArgValue.one (NArg.pipe r))] "pipeline" = [r] from rfl, h1, h4, Bool.false_eq_true, if_false]
  · exact onFirst_prepared w steps (.difference p) True.intro _ _ (by rw [NStage.Does]) (difference_does w _ a h2 h3) (signalsOnce_difference _ _)

theorem join_prepared (w : World V) (steps : Nat) (keep : Bool) (p : List NStage) (r : Result V) (op : Dict Str (ArgValue (NArg V))) (hop : nestPipes op "pipeline" = [r])
    (hk : PyArg.isTrue (nestField op "keep") = keep) (h : ResultOf (NExecutes w steps p) r) (hs : (NStage.join keep p).Settled w steps) :
    ∃ o, NestKind.setup w op .join = some o ∧ NPrepared w steps (.join keep p) ⟨false, .ok (.stage false o)⟩ := by
  rw [NStage.Settled] at hs
  obtain ⟨a, h1, h2, h3, h4⟩ := ran_one w steps p r h hs.2
  refine ⟨⟨_, viaOp w.elems w.seq (joinOp w.hashable keep (mapRun w.elems a))⟩, ?_, ?_⟩
  · simp only [NestKind.setup, hop, h1, h4, hk, Bool.false_eq_true, if_false]
  · exact onFirst_prepared w steps (.join keep p) True.intro _ _ (by rw [NStage.Does]) (join_does w keep _ a h2 h3) (signalsOnce_via _ _ _ (signalsOnce_join _ _ _))

/-- The value of the flag for the function. -/
def compareArg : Option Str → NArg V
  | none => .none_
  | some src => .fn (.source src)

theorem filter_prepared (w : World V) (steps : Nat) (discard : Bool) (compare : Option Str) (p : List NStage) (r : Result V) (op : Dict Str (ArgValue (NArg V))) (hop : nestPipes op "pipeline" = [r])
    (hd : PyArg.isTrue (nestField op "discard") = discard) (hc : nestField op "compare" = compareArg compare)
    (h : ResultOf (NExecutes w steps p) r) (hs : (NStage.filter discard compare p).Settled w steps) :
    ∃ o, NestKind.setup w op .filter = some o ∧ NPrepared w steps (.filter discard compare p) ⟨false, .ok (.stage false o)⟩ := by
  rw [NStage.Settled] at hs
  obtain ⟨a, h1, h2, h3, h4⟩ := ran_one w steps p r h hs.2
  refine ⟨⟨_, filterOp w.hashable (compareKey w (nestField op "compare")) discard (mapRun (starred w) a)⟩, ?_, ?_⟩
  · simp only [NestKind.setup, hop, h1, h4, hd, Bool.false_eq_true, if_false]
  · refine onFirst_prepared w steps (.filter discard compare p) True.intro _ _ (by rw [NStage.Does]) (filter_does w discard compare _ ?_ _ a h2 h3) (signalsOnce_filter _ _ _ _)
    intro x
    rw [hc]
    cases compare <;> rfl

/-! ## Lemmas: from the stages to the operators -/

def nestNames : List Str := ["union".toList, "difference".toList, "intersect".toList, "join".toList, "filter".toList]

theorem nestNames_ops : ∀ x ∈ nestNames, x ∈ operatorNames ∧ x ∉ shellStyle ∧ x ∈ publicOps := by decide +kernel

/-- What becomes of a stage. -/
def NMade (w : World V) (steps : Nat) (st : NStage) (c : Created) : Prop :=
  (st.Unreadable w ∧ prepareOp w steps c = some none) ∨ (¬ st.Unreadable w ∧ ∃ p, prepareOp w steps c = some (some p) ∧ NPrepared w steps st p)

theorem kind_not_nest : ∀ (name : Str) (k : Kind), kindOf name = some k → nestKindOf name = none := by
  intro name k h
  have hn : ∀ n ∈ nestNames, kindOf n = none := by decide +kernel
  have : ∀ n ∈ nestNames, name ≠ n := by
    rintro n hn' rfl
    rw [hn _ hn'] at h; cases h
  simp only [nestNames, List.mem_cons, List.not_mem_nil, or_false] at this
  unfold nestKindOf
  rw [if_neg (this _ (.inl rfl)), if_neg (this _ (.inr (.inl rfl))), if_neg (this _ (.inr (.inr (.inl rfl)))), if_neg (this _ (.inr (.inr (.inr (.inl rfl))))), if_neg (this _ (.inr (.inr (.inr (.inr rfl)))))]

theorem prepare_plain (w : World V) (steps : Nat) (c : Created) (m : Option Made) (h : make w c = some m) :
    prepareOp w steps c = some (m.map fun m => ⟨decide (m.1 = .gen), m.1.setup w m.2⟩) := by
  cases c with
  | builtin name args =>
    have hk : nestKindOf name = none := by
      cases hk : kindOf name with
      | none => simp only [make, hk] at h; cases h
      | some k => exact kind_not_nest name k hk
    rw [prepareOp, hk]
    simp only [h]
    cases m <;> rfl
  | _ => cases h

theorem plain_made (w : World V) (steps : Nat) (st : Stage) (c : Created) (h : MadeFor w st c) : NMade w steps (.plain st) c := by
  have hu : (NStage.plain st).Unreadable w ↔ st.Unreadable w := by rw [NStage.Unreadable]; exact Iff.rfl
  rcases h with ⟨h1, h2⟩ | ⟨h1, k, op, h2, h3, h4⟩
  · exact .inl ⟨hu.mpr h1, prepare_plain w steps c none h2⟩
  · refine .inr ⟨fun h => h1 (hu.mp h), _, prepare_plain w steps c _ h2, ?_, ?_⟩
    · show decide (k = .gen) = true ↔ st.isGen
      rw [decide_eq_true_iff]; exact h3
    · show st.Bad w ∧ k.setup w op = .error .kill ∨ ¬ st.Bad w ∧ ∃ r, k.setup w op = .ok r ∧ _
      rcases h4 with h4 | ⟨h4, r, h5, h6⟩
      · exact .inl h4
      · exact .inr ⟨h4, r, h5, plain_ready w steps st r h6⟩

/-- What becomes of a pipeline that is an argument. -/
def PipeMade (w : World V) (steps : Nat) (p : List NStage) (c : CArg) : Prop :=
  (UnreadablePipe w p ∧ nestArg w steps c = some none) ∨ (¬ UnreadablePipe w p ∧ ∃ r, nestArg w steps c = some (some ⟨.pipe r⟩) ∧ ResultOf (NExecutes w steps p) r)

def PipesMade (w : World V) (steps : Nat) (ps : List (List NStage)) (cs : List CArg) : Prop :=
  (UnreadableIn w ps ∧ nestArgs w steps cs = some none) ∨ (¬ UnreadableIn w ps ∧ ∃ rs, nestArgs w steps cs = some (some ⟨rs.map .pipe⟩) ∧ AllResults (canAll w steps ps) rs)

def StagesMade (w : World V) (steps : Nat) (sts : List NStage) (cs : List Created) : Prop :=
  (UnreadablePipe w sts ∧ prepareOps w steps cs = some none) ∨ (¬ UnreadablePipe w sts ∧ ∃ ps, prepareOps w steps cs = some (some ps) ∧ AllPrepared w steps sts ps)

theorem nest_made (w : World V) (steps : Nat) (k : NestKind) (name : Str) (hk : nestKindOf name = some k) (cs : List CArg) (xs : List (NArg V)) (hx : nestArgs w steps cs = some (some ⟨xs⟩))
    (op : Dict Str (ArgValue (NArg V))) (hp : k.decl.parse xs [] = some op) (st : NStage) (h : ∃ o, NestKind.setup w op k = some o ∧ NPrepared w steps st ⟨false, .ok (.stage false o)⟩) :
    ∃ p, prepareOp w steps (.builtin name cs) = some (some p) ∧ NPrepared w steps st p := by
  obtain ⟨o, h1, h2⟩ := h
  refine ⟨_, ?_, h2⟩
  rw [prepareOp, hk]
  simp only [hx, hp, h1]

theorem nest_refused (w : World V) (steps : Nat) (k : NestKind) (name : Str) (hk : nestKindOf name = some k) (cs : List CArg) (hx : nestArgs w steps cs = some none) :
    prepareOp w steps (.builtin name cs) = some none := by
  rw [prepareOp, hk]
  simp only [hx]

theorem word_arg (w : World V) (steps : Nat) (v : Word) (hv : v.WF) : nestArg w steps (.tok (v.tok false)) = some (some ⟨.str v.kept⟩) := by
  show some (some (ULift.up (NArg.str v.lit.original))) = _
  rw [hv.original]

theorem nestArgs_cons (w : World V) (steps : Nat) (c : CArg) (cs : List CArg) (x : NArg V) (h : nestArg w steps c = some (some ⟨x⟩)) :
    nestArgs w steps (c :: cs) = (match nestArgs w steps cs with | none => none | some none => some none | some (some xs) => some (some ⟨x :: xs.down⟩)) := by
  rw [nestArgs, h]
  rfl

theorem nestArgs_nil (w : World V) (steps : Nat) : nestArgs w steps [] = some (some ⟨[]⟩) := by rw [nestArgs]

theorem nestArgs_bad (w : World V) (steps : Nat) (c : CArg) (cs : List CArg) (h : nestArg w steps c = some none) : nestArgs w steps (c :: cs) = some none := by
  rw [nestArgs, h]

/-- One pipeline after arguments that are accepted. -/
theorem nestArgs_one (w : World V) (steps : Nat) (c : CArg) (x : NArg V) (h : nestArg w steps c = some (some ⟨x⟩)) : nestArgs w steps [c] = some (some ⟨[x]⟩) := by
  rw [nestArgs_cons w steps c [] x h, nestArgs_nil]

/-- The arguments of `filter` before the pipeline. -/
theorem filter_args (w : World V) (names : Names) (steps : Nat) (discard : Bool) (compare : Option Str) (ds es : List SArg) (hd : DiscardWritten discard ds) (hc : CompareWritten compare es)
    (hwd : argsWF names.shellArgs false ds) (hwc : argsWF names.shellArgs false es) :
    ∃ bs, (∀ (a : SArg) (c : CArg), ArgMeans names false a c → ArgsMean names false (ds ++ es ++ [a]) (bs ++ [c])) ∧
      (((∃ src, compare = some src ∧ w.compiles src = false) ∧ ∀ cs, nestArgs w steps (bs ++ cs) = some none) ∨
       ((∀ src, compare = some src → w.compiles src = true) ∧
         (∀ c, nestArg w steps c = some none → nestArgs w steps (bs ++ [c]) = some none) ∧
         ∀ c r, nestArg w steps c = some (some ⟨.pipe r⟩) → ∃ xs op, nestArgs w steps (bs ++ [c]) = some (some ⟨xs⟩) ∧ NestKind.filter.decl.parse xs [] = some op ∧ nestPipes op "pipeline" = [r] ∧
           PyArg.isTrue (nestField op "discard") = discard ∧ nestField op "compare" = compareArg compare)) := by
  have hw : ∀ v : Word, v.WF → nestArg w steps (.tok (v.tok false)) = some (some ⟨.str v.kept⟩) := word_arg w steps
  have hok : ∀ src, w.compiles src = true → nestArg w steps (.tok (.expr src)) = some (some ⟨.fn (.source src)⟩) := by
    intro src h
    rw [nestArg, h]; rfl
  have hbad : ∀ src, w.compiles src = false → nestArg w steps (.tok (.expr src)) = some none := by
    intro src h
    rw [nestArg, h]; rfl
  cases hc with
  | none =>
    cases hd with
    | keep =>
      refine ⟨[], fun a c h => args1 h, .inr ⟨(by intro src h; cases h), fun c h => nestArgs_bad w steps c [] h, fun c r h => ⟨_, _, nestArgs_one w steps c _ h, filter_parse r, rfl, rfl, rfl⟩⟩⟩
    | said v hv =>
      refine ⟨[.tok (v.tok false)], fun a c h => .cons _ _ _ _ _ (.word false v) (args1 h), .inr ⟨(by intro src h; cases h), fun c h => ?_, fun c r h => ⟨_, _, ?_, filter_parse_keep v.kept hv r, rfl, rfl, rfl⟩⟩⟩
      · rw [List.cons_append, nestArgs_cons w steps _ _ _ (hw v hwd.1), List.nil_append, nestArgs_bad w steps c [] h]
      · rw [List.cons_append, nestArgs_cons w steps _ _ _ (hw v hwd.1), List.nil_append, nestArgs_one w steps c _ h]
    | discard v hv =>
      refine ⟨[.tok (v.tok false)], fun a c h => .cons _ _ _ _ _ (.word false v) (args1 h), .inr ⟨(by intro src h; cases h), fun c h => ?_, fun c r h => ⟨_, _, ?_, filter_parse_discard v.kept hv r, rfl, rfl, rfl⟩⟩⟩
      · rw [List.cons_append, nestArgs_cons w steps _ _ _ (hw v hwd.1), List.nil_append, nestArgs_bad w steps c [] h]
      · rw [List.cons_append, nestArgs_cons w steps _ _ _ (hw v hwd.1), List.nil_append, nestArgs_one w steps c _ h]
  | some u src hu =>
    have hu' := hw u hwc.1
    rcases Bool.eq_false_or_eq_true (w.compiles src) with hsrc | hsrc
    · have hs := hok src hsrc
      cases hd with
      | keep =>
        refine ⟨[.tok (u.tok false), .tok (.expr src)], fun a c h => .cons _ _ _ _ _ (.word false u) (.cons _ _ _ _ _ (.expr false src) (args1 h)),
          .inr ⟨(by intro s h; cases h; exact hsrc), fun c h => ?_, fun c r h => ⟨_, _, ?_, filter_parse_compare u.kept hu _ r, rfl, rfl, rfl⟩⟩⟩
        · simp only [List.cons_append, List.nil_append, nestArgs_cons w steps _ _ _ hu', nestArgs_cons w steps _ _ _ hs, nestArgs_bad w steps c [] h]
        · simp only [List.cons_append, List.nil_append, nestArgs_cons w steps _ _ _ hu', nestArgs_cons w steps _ _ _ hs, nestArgs_one w steps c _ h]
      | said v hv =>
        have hv' := hw v hwd.1
        refine ⟨[.tok (v.tok false), .tok (u.tok false), .tok (.expr src)], fun a c h => .cons _ _ _ _ _ (.word false v) (.cons _ _ _ _ _ (.word false u) (.cons _ _ _ _ _ (.expr false src) (args1 h))),
          .inr ⟨(by intro s h; cases h; exact hsrc), fun c h => ?_, fun c r h => ⟨_, _, ?_, filter_parse_keep_compare v.kept u.kept hv hu _ r, rfl, rfl, rfl⟩⟩⟩
        · simp only [List.cons_append, List.nil_append, nestArgs_cons w steps _ _ _ hv', nestArgs_cons w steps _ _ _ hu', nestArgs_cons w steps _ _ _ hs, nestArgs_bad w steps c [] h]
        · simp only [List.cons_append, List.nil_append, nestArgs_cons w steps _ _ _ hv', nestArgs_cons w steps _ _ _ hu', nestArgs_cons w steps _ _ _ hs, nestArgs_one w steps c _ h]
      | discard v hv =>
        have hv' := hw v hwd.1
        refine ⟨[.tok (v.tok false), .tok (u.tok false), .tok (.expr src)], fun a c h => .cons _ _ _ _ _ (.word false v) (.cons _ _ _ _ _ (.word false u) (.cons _ _ _ _ _ (.expr false src) (args1 h))),
          .inr ⟨(by intro s h; cases h; exact hsrc), fun c h => ?_, fun c r h => ⟨_, _, ?_, filter_parse_discard_compare v.kept u.kept hv hu _ r, rfl, rfl, rfl⟩⟩⟩
        · simp only [List.cons_append, List.nil_append, nestArgs_cons w steps _ _ _ hv', nestArgs_cons w steps _ _ _ hu', nestArgs_cons w steps _ _ _ hs, nestArgs_bad w steps c [] h]
        · simp only [List.cons_append, List.nil_append, nestArgs_cons w steps _ _ _ hv', nestArgs_cons w steps _ _ _ hu', nestArgs_cons w steps _ _ _ hs, nestArgs_one w steps c _ h]
    · have hs := hbad src hsrc
      have hb : ∀ cs, nestArgs w steps (.tok (u.tok false) :: .tok (.expr src) :: cs) = some none := by
        intro cs; rw [nestArgs_cons w steps _ _ _ hu', nestArgs_bad w steps _ cs hs]
      cases hd with
      | keep =>
        exact ⟨[.tok (u.tok false), .tok (.expr src)], fun a c h => .cons _ _ _ _ _ (.word false u) (.cons _ _ _ _ _ (.expr false src) (args1 h)), .inl ⟨⟨src, rfl, hsrc⟩, hb⟩⟩
      | said v hv =>
        refine ⟨[.tok (v.tok false), .tok (u.tok false), .tok (.expr src)], fun a c h => .cons _ _ _ _ _ (.word false v) (.cons _ _ _ _ _ (.word false u) (.cons _ _ _ _ _ (.expr false src) (args1 h))), .inl ⟨⟨src, rfl, hsrc⟩, fun cs => ?_⟩⟩
        simp only [List.cons_append, List.nil_append, nestArgs_cons w steps _ _ _ (hw v hwd.1), hb]
      | discard v hv =>
        refine ⟨[.tok (v.tok false), .tok (u.tok false), .tok (.expr src)], fun a c h => .cons _ _ _ _ _ (.word false v) (.cons _ _ _ _ _ (.word false u) (.cons _ _ _ _ _ (.expr false src) (args1 h))), .inl ⟨⟨src, rfl, hsrc⟩, fun cs => ?_⟩⟩
        simp only [List.cons_append, List.nil_append, nestArgs_cons w steps _ _ _ (hw v hwd.1), hb]

theorem filter_made (w : World V) (names : Names) (hn : ∀ x ∈ nestNames, names.defined x = false) (steps : Nat) (u : Word) (hu : u.kept = "filter".toList) (discard : Bool) (compare : Option Str) (p : List NStage)
    (ds es : List SArg) (a : SArg) (hd : DiscardWritten discard ds) (hc : CompareWritten compare es) (hwd : argsWF names.shellArgs false ds) (hwc : argsWF names.shellArgs false es) (c : CArg)
    (h1 : ArgMeans names false a c) (h2 : PipeMade w steps p c) (hs : (NStage.filter discard compare p).Settled w steps) :
    ∃ c, OpMeans names (.named u (ds ++ es ++ [a])) c ∧ NMade w steps (.filter discard compare p) c := by
  obtain ⟨bs, h3, h4⟩ := filter_args w names steps discard compare ds es hd hc hwd hwc
  refine ⟨_, op_means names u _ hu (hn _ (by decide)) (nestNames_ops _ (by decide)).1 (nestNames_ops _ (by decide)).2.1 _ _ (h3 a c h1), ?_⟩
  rcases h4 with ⟨h4, h5⟩ | ⟨h4, h5, h6⟩
  · exact .inl ⟨by rw [NStage.Unreadable]; exact .inl h4, nest_refused w steps .filter _ rfl _ (h5 [c])⟩
  · rcases h2 with ⟨h2, h7⟩ | ⟨h2, r, h7, h8⟩
    · exact .inl ⟨by rw [NStage.Unreadable]; exact .inr h2, nest_refused w steps .filter _ rfl _ (h5 c h7)⟩
    · obtain ⟨xs, op, h9, h10, h11, h12, h13⟩ := h6 c r h7
      refine .inr ⟨?_, nest_made w steps .filter _ rfl _ _ h9 _ h10 _ (filter_prepared w steps discard compare p r op h11 h12 h13 h8 hs)⟩
      rw [NStage.Unreadable]
      rintro (⟨src, h, h'⟩ | h)
      · rw [h4 src h] at h'; cases h'
      · exact h2 h

theorem pipe_made (w : World V) (names : Names) (steps : Nat) (p : List NStage)
    (H : ∀ os : List SOp, NStagesWritten p os → opsWF names.shellArgs os → SettledPipe w steps p → OncePipe p → ∃ cs, OpsMean names os cs ∧ StagesMade w steps p cs)
    (a : SArg) (h : PipeWritten p a) (hw : a.WF names.shellArgs false) (hs : SettledPipe w steps p) (ho : OncePipe p) : ∃ c, ArgMeans names false a c ∧ PipeMade w steps p c := by
    cases h with
    | mk _ ops h =>
      have hwf : (SPipe.mk [] none ops none).WF names.shellArgs := hw
      have hne : p ≠ [] := by
        rintro rfl
        cases h
        obtain ⟨_, _, _, _, h | h | h⟩ := hwf
        · cases h
        · exact h rfl
        · cases h
      obtain ⟨cs, h1, h2⟩ := H ops h hwf.2.2.1 hs ho
      refine ⟨.pipe (.mk [] cs), .pipe false _ _ (by simpa using PipeMeans.mk (n := names) [] none ops none cs h1), ?_⟩
      rcases h2 with ⟨h2, h3⟩ | ⟨h2, ps, h3, h4⟩
      · refine .inl ⟨h2, ?_⟩
        rw [nestArg, nestPipe, h3]
      · obtain ⟨t, h5, h6⟩ := npipeline_executes w steps p ps hne h4 ho
        refine .inr ⟨h2, _, ?_, t, h5, h6⟩
        rw [nestArg, nestPipe, h3]

mutual
theorem nstage_made (w : World V) (names : Names) (hnames : ∀ x ∈ stageNames, names.defined x = false) (hn : ∀ x ∈ nestNames, names.defined x = false) (steps : Nat) :
    ∀ (st : NStage) (o : SOp), st.Written o → o.WF names.shellArgs → st.Settled w steps → st.Once → ∃ c, OpMeans names o c ∧ NMade w steps st c
  | .plain st, o, h, hw, _, _ => by
    cases h with
    | plain _ _ h =>
      obtain ⟨c, h1, h2⟩ := stage_made w names hnames st o h hw
      exact ⟨c, h1, plain_made w steps st c h2⟩
  | .union ps, o, h, hw, hs, ho => by
    cases h with
    | union u _ as hu h =>
      have hwf : argsWF names.shellArgs false as := by
        have := hw.2.1
        rwa [hu, not_shell names _ (nestNames_ops _ (by decide)).2.2 (nestNames_ops _ (by decide)).2.1] at this
      obtain ⟨cs, h1, h2⟩ := pipes_made w names hnames hn steps ps as h hwf (by rw [NStage.Settled] at hs; exact ⟨_, hs⟩) (by rw [NStage.Once] at ho; exact ho)
      refine ⟨_, op_means names u _ hu (hn _ (by decide)) (nestNames_ops _ (by decide)).1 (nestNames_ops _ (by decide)).2.1 as cs h1, ?_⟩
      rcases h2 with ⟨h2, h3⟩ | ⟨h2, rs, h3, h4⟩
      · exact .inl ⟨by rw [NStage.Unreadable]; exact h2, nest_refused w steps .union _ rfl cs h3⟩
      · exact .inr ⟨by rw [NStage.Unreadable]; exact h2, nest_made w steps .union _ rfl cs _ h3 _ (union_parse rs) _ (union_prepared w steps ps rs h4 hs)⟩
  | .intersect ps, o, h, hw, hs, ho => by
    cases h with
    | intersect u _ as hu h =>
      have hwf : argsWF names.shellArgs false as := by
        have := hw.2.1
        rwa [hu, not_shell names _ (nestNames_ops _ (by decide)).2.2 (nestNames_ops _ (by decide)).2.1] at this
      obtain ⟨cs, h1, h2⟩ := pipes_made w names hnames hn steps ps as h hwf (by rw [NStage.Settled] at hs; exact ⟨_, hs⟩) (by rw [NStage.Once] at ho; exact ho)
      refine ⟨_, op_means names u _ hu (hn _ (by decide)) (nestNames_ops _ (by decide)).1 (nestNames_ops _ (by decide)).2.1 as cs h1, ?_⟩
      rcases h2 with ⟨h2, h3⟩ | ⟨h2, rs, h3, h4⟩
      · exact .inl ⟨by rw [NStage.Unreadable]; exact h2, nest_refused w steps .intersect _ rfl cs h3⟩
      · exact .inr ⟨by rw [NStage.Unreadable]; exact h2, nest_made w steps .intersect _ rfl cs _ h3 _ (intersect_parse rs) _ (intersect_prepared w steps ps rs h4 hs)⟩
  | .difference p, o, h, hw, hs, ho => by
    cases h with
    | difference u _ a hu h =>
      have hwf : argsWF names.shellArgs false [a] := by
        have := hw.2.1
        rwa [hu, not_shell names _ (nestNames_ops _ (by decide)).2.2 (nestNames_ops _ (by decide)).2.1] at this
      obtain ⟨c, h1, h2⟩ := pipe_made w names steps p (nstages_made w names hnames hn steps p) a h hwf.1 (by rw [NStage.Settled] at hs; exact hs.1) (by rw [NStage.Once] at ho; exact ho)
      refine ⟨_, op_means names u _ hu (hn _ (by decide)) (nestNames_ops _ (by decide)).1 (nestNames_ops _ (by decide)).2.1 [a] [c] (args1 h1), ?_⟩
      rcases h2 with ⟨h2, h3⟩ | ⟨h2, r, h3, h4⟩
      · exact .inl ⟨by rw [NStage.Unreadable]; exact h2, nest_refused w steps .difference _ rfl [c] (nestArgs_bad w steps c [] h3)⟩
      · exact .inr ⟨by rw [NStage.Unreadable]; exact h2, nest_made w steps .difference _ rfl [c] _ (nestArgs_one w steps c _ h3) _ (difference_parse r) _ (difference_prepared w steps p r h4 hs)⟩
  | .join keep p, o, h, hw, hs, ho => by
    cases h with
    | join u _ a hu h =>
      have hwf : argsWF names.shellArgs false [a] := by
        have := hw.2.1
        rwa [hu, not_shell names _ (nestNames_ops _ (by decide)).2.2 (nestNames_ops _ (by decide)).2.1] at this
      obtain ⟨c, h1, h2⟩ := pipe_made w names steps p (nstages_made w names hnames hn steps p) a h hwf.1 (by rw [NStage.Settled] at hs; exact hs.1) (by rw [NStage.Once] at ho; exact ho)
      refine ⟨_, op_means names u _ hu (hn _ (by decide)) (nestNames_ops _ (by decide)).1 (nestNames_ops _ (by decide)).2.1 [a] [c] (args1 h1), ?_⟩
      rcases h2 with ⟨h2, h3⟩ | ⟨h2, r, h3, h4⟩
      · exact .inl ⟨by rw [NStage.Unreadable]; exact h2, nest_refused w steps .join _ rfl [c] (nestArgs_bad w steps c [] h3)⟩
      · exact .inr ⟨by rw [NStage.Unreadable]; exact h2, nest_made w steps .join _ rfl [c] _ (nestArgs_one w steps c _ h3) _ (join_parse r) _ (join_prepared w steps false p r _ rfl rfl h4 hs)⟩
    | joinKeep u v _ a hu hv h =>
      have hwf : argsWF names.shellArgs false [.word v, a] := by
        have := hw.2.1
        rwa [hu, not_shell names _ (nestNames_ops _ (by decide)).2.2 (nestNames_ops _ (by decide)).2.1] at this
      obtain ⟨c, h1, h2⟩ := pipe_made w names steps p (nstages_made w names hnames hn steps p) a h hwf.2.1 (by rw [NStage.Settled] at hs; exact hs.1) (by rw [NStage.Once] at ho; exact ho)
      have hva := word_arg w steps v hwf.1
      refine ⟨_, op_means names u _ hu (hn _ (by decide)) (nestNames_ops _ (by decide)).1 (nestNames_ops _ (by decide)).2.1 [.word v, a] [.tok (v.tok false), c] (.cons _ _ _ _ _ (.word false v) (args1 h1)), ?_⟩
      rcases h2 with ⟨h2, h3⟩ | ⟨h2, r, h3, h4⟩
      · exact .inl ⟨by rw [NStage.Unreadable]; exact h2, nest_refused w steps .join _ rfl _ (by rw [nestArgs_cons w steps _ _ _ hva, nestArgs_bad w steps c [] h3])⟩
      · exact .inr ⟨by rw [NStage.Unreadable]; exact h2, nest_made w steps .join _ rfl _ _ (by rw [nestArgs_cons w steps _ _ _ hva, nestArgs_one w steps c _ h3]) _ (join_parse_keep v.kept hv r) _
          (join_prepared w steps true p r _ rfl rfl h4 hs)⟩
  | .filter discard compare p, o, h, hw, hs, ho => by
    cases h with
    | filter u _ _ _ ds es a hu hd hc h =>
      have hwf : argsWF names.shellArgs false (ds ++ es ++ [a]) := by
        have := hw.2.1
        rwa [hu, not_shell names _ (nestNames_ops _ (by decide)).2.2 (nestNames_ops _ (by decide)).2.1] at this
      obtain ⟨hwd, hwc, hwa⟩ : argsWF names.shellArgs false ds ∧ argsWF names.shellArgs false es ∧ a.WF names.shellArgs false := by
        cases hd <;> cases hc <;> simp only [List.nil_append, List.cons_append, argsWF] at hwf ⊢ <;> simp [hwf]
      obtain ⟨c, h1, h2⟩ := pipe_made w names steps p (nstages_made w names hnames hn steps p) a h hwa (by rw [NStage.Settled] at hs; exact hs.1) (by rw [NStage.Once] at ho; exact ho)
      refine filter_made w names hn steps u hu discard compare p ds es a hd hc hwd hwc c h1 ?_ hs
      exact h2
theorem pipes_made (w : World V) (names : Names) (hnames : ∀ x ∈ stageNames, names.defined x = false) (hn : ∀ x ∈ nestNames, names.defined x = false) (steps : Nat) :
    ∀ (ps : List (List NStage)) (as : List SArg), PipesWritten ps as → argsWF names.shellArgs false as → (∃ kare, SettledIn w steps kare ps) → OnceIn ps → ∃ cs, ArgsMean names false as cs ∧ PipesMade w steps ps cs
  | [], as, h, _, _, _ => by
    cases h
    exact ⟨[], .nil _, .inr ⟨by rw [UnreadableIn]; exact id, [], nestArgs_nil w steps, by rw [canAll]; exact .nil⟩⟩
  | p :: ps, as, h, hw, ⟨kare, hs⟩, ho => by
    cases h with
    | cons _ _ a as h1 h2 =>
      rw [SettledIn] at hs
      rw [OnceIn] at ho
      obtain ⟨c, h3, h4⟩ := pipe_made w names steps p (nstages_made w names hnames hn steps p) a h1 hw.1 hs.1.1 ho.1
      obtain ⟨cs, h5, h6⟩ := pipes_made w names hnames hn steps ps as h2 hw.2 ⟨kare, hs.2⟩ ho.2
      refine ⟨c :: cs, .cons _ _ _ _ _ h3 h5, ?_⟩
      rcases h4 with ⟨h4, h7⟩ | ⟨h4, r, h7, h8⟩
      · exact .inl ⟨by rw [UnreadableIn]; exact .inl h4, nestArgs_bad w steps c cs h7⟩
      · rcases h6 with ⟨h6, h9⟩ | ⟨h6, rs, h9, h10⟩
        · exact .inl ⟨by rw [UnreadableIn]; exact .inr h6, by rw [nestArgs_cons w steps c cs _ h7, h9]⟩
        · refine .inr ⟨by rw [UnreadableIn]; exact fun h => h.elim h4 h6, r :: rs, by rw [nestArgs_cons w steps c cs _ h7, h9]; rfl, ?_⟩
          rw [canAll]
          exact .cons _ _ _ _ h8 h10
theorem nstages_made (w : World V) (names : Names) (hnames : ∀ x ∈ stageNames, names.defined x = false) (hn : ∀ x ∈ nestNames, names.defined x = false) (steps : Nat) :
    ∀ (sts : List NStage) (os : List SOp), NStagesWritten sts os → opsWF names.shellArgs os → SettledPipe w steps sts → OncePipe sts → ∃ cs, OpsMean names os cs ∧ StagesMade w steps sts cs
  | [], os, h, _, _, _ => by
    cases h
    exact ⟨[], .nil, .inr ⟨by rw [UnreadablePipe]; exact id, [], by rw [prepareOps], .nil⟩⟩
  | st :: sts, os, h, hw, hs, ho => by
    cases h with
    | cons _ _ o os h1 h2 =>
      rw [SettledPipe] at hs
      rw [OncePipe] at ho
      obtain ⟨c, h3, h4⟩ := nstage_made w names hnames hn steps st o h1 hw.1 hs.1 ho.1
      obtain ⟨cs, h5, h6⟩ := nstages_made w names hnames hn steps sts os h2 hw.2 hs.2 ho.2.2
      refine ⟨c :: cs, .cons _ _ _ _ h3 h5, ?_⟩
      rcases h4 with ⟨h4, h7⟩ | ⟨h4, p, h7, h8⟩
      · exact .inl ⟨by rw [UnreadablePipe]; exact .inl h4, by rw [prepareOps, h7]⟩
      · rcases h6 with ⟨h6, h9⟩ | ⟨h6, ps, h9, h10⟩
        · exact .inl ⟨by rw [UnreadablePipe]; exact .inr h6, by rw [prepareOps, h7, h9]⟩
        · exact .inr ⟨by rw [UnreadablePipe]; exact fun h => h.elim h4 h6, p :: ps, by rw [prepareOps, h7, h9], .cons _ _ _ _ h8 h10⟩
end

/-! ## Commands -/

/-- **C94**: a command whose stages may have pipelines as arguments, at any depth. -/
theorem C94_nested_partial (w : World V) (names : Names) (hu : names.Usual)
    (hn : ∀ x ∈ ["gen".toList, "select".toList, "head".toList, "tail".toList, "reverse".toList, "sort".toList, "unique".toList, "window".toList, "squish".toList, "expand".toList, "red".toList,
      "union".toList, "difference".toList, "intersect".toList, "join".toList, "filter".toList], names.defined x = false)
    (sts : List NStage) (ops : List SOp) (hs : NStagesWritten sts ops)
    (hwf : (SCmd.pipeline (.mk [] none ops none)).WF names.shellArgs) (text : Str) (ht : (SCmd.pipeline (.mk [] none ops none)).WrittenAs text) (steps : Nat)
    (hset : SettledPipe w steps sts) (hone : OncePipe sts) :
    ∃ r, execNest w names steps text = some (.ok r) ∧ Shows w steps sts r := by
  have hnames : ∀ x ∈ stageNames, names.defined x = false := by
    intro x hx
    by_cases h : x = "map".toList
    · subst h; exact hu _ (by simp)
    · refine hn x ?_
      simp only [stageNames, List.mem_cons, List.not_mem_nil, or_false] at hx
      rw [show (["gen".toList, "select".toList, "head".toList, "tail".toList, "reverse".toList, "sort".toList, "unique".toList, "window".toList, "squish".toList, "expand".toList, "red".toList,
        "union".toList, "difference".toList, "intersect".toList, "join".toList, "filter".toList] : List Str) = ["gen".toList, "select".toList, "head".toList, "tail".toList, "reverse".toList, "sort".toList, "unique".toList, "window".toList, "squish".toList, "expand".toList, "red".toList] ++ nestNames from rfl]
      refine List.mem_append_left _ ?_
      simp only [List.mem_cons, List.not_mem_nil, or_false]
      rcases hx with h' | h' | h'
      · exact .inl h'
      · exact absurd h' h
      · exact .inr h'
  have hnest : ∀ x ∈ nestNames, names.defined x = false := fun x hx => hn x (List.mem_append_right ["gen".toList, "select".toList, "head".toList, "tail".toList, "reverse".toList, "sort".toList, "unique".toList, "window".toList, "squish".toList, "expand".toList, "red".toList] hx)
  have hne : sts ≠ [] := by
    rintro rfl
    cases hs
    obtain ⟨_, _, _, _, h | h | h⟩ := hwf
    · cases h
    · exact h rfl
    · cases h
  obtain ⟨cs, h1, h2⟩ := nstages_made w names hnames hnest steps sts ops hs hwf.2.2.1 hset hone
  have hr : resolve names text = .ok (.pipeline (.mk [] cs)) := by
    refine (C62_names_partial names hu _ hwf text ht _).mpr (.pipeline _ _ ?_)
    have := PipeMeans.mk (n := names) [] none ops none cs h1
    simpa using this
  unfold execNest
  rw [hr]
  rcases h2 with ⟨h2, h3⟩ | ⟨h2, ps, h3, h4⟩
  · exact ⟨_, by simp only [h3], .refused h2⟩
  · obtain ⟨t, h5, h6, h7⟩ := npipeline_executes w steps sts ps hne h4 hone
    refine ⟨(shown (runPrepared w steps ps).sent, (runPrepared w steps ps).how), by simp only [h3], .runs _ h2 ?_⟩
    rw [h6, h7.shown]
    exact h5

/-! ## Examples: the hypotheses are met -/

/-- `gen` with a number, as the pipeline: the numbers. -/
theorem gen_alone (n : Nat) (h0 : n ≠ 0) (h : n ≤ 10) (r : Outcome Int) (hr : NExecutes exampleWorld 10 [.plain (.gen (some (.lit n)) none)] r) :
    r = ((List.range n).map fun i : Nat => .item (i : Int), .finished) := by
  rw [NExecutes] at hr
  rcases hr with ⟨hc, _⟩ | ⟨_, s, t, h1, h2, h3⟩
  · exfalso
    rcases hc with ⟨st, h1, h2⟩ | ⟨st, h1, _⟩ | ⟨st, h1, h2⟩
    · rw [List.mem_singleton.mp h1] at h2
      have : ∀ n : Int, 0 ≤ n → ¬ (Stage.gen (some (.lit n)) none).Bad exampleWorld := by
        intro n hn
        simp only [Stage.Bad, evalOpt, Num.eval]
        rintro (⟨f, h, _⟩ | h | h)
        · cases h
        · cases h
        · cases h
      exact this n (by omega) h2
    · cases h1
    · cases h1; exact h2
  · rw [NStage.Starts] at h1
    rw [NRuns] at h2
    obtain ⟨c, a, hc, ha, h⟩ := h1
    cases hc; cases ha
    subst h2
    rcases h with ⟨h, _⟩ | ⟨_, h⟩
    · omega
    · rw [h3, h]
      have e1 : min 10 (n : Int).toNat = n := by omega
      have e2 : (n : Int) ≤ (10 : Nat) := by omega
      rw [e1, if_pos e2]
      simp [exampleWorld]

/-- `gen n` in the examples, as a stage and as written. -/
def genStage (d : Fin 10) : NStage := .plain (.gen (some (.lit (d.val : Int))) none)
def nestGen (d : Fin 10) : SOp := .named (plainWord "gen".toList) [.word (plainWord [digit d])]

theorem nestGen_written (d : Fin 10) : (genStage d).Written (nestGen d) := by
  refine .plain _ _ (.gen _ _ _ [_] [] rfl ?_ (by intro h; cases h) (.some _ _ (.lit _ _ ?_)) .none)
  · intro v hv
    simp only [List.mem_singleton, SArg.word.injEq] at hv
    subst hv
    rw [plainWord_kept]
    revert d; decide
  · have := Numeral.pos [d] (by simp)
    rw [plainWord_kept]
    simpa [value] using this

/-- `(| ops |)` -/
def nestArgument (ops : List SOp) : SArg := .pipe (.mk [] none ops none)

/-- An operator with pipelines. -/
def nestOp (name : String) (as : List SArg) : SOp := .named (plainWord name.toList) as

theorem nestOp_wf (name : String) (args : List SArg) (hs : name.toList ∈ "gen".toList :: nestNames) (ha : argsWF exampleNames.shellArgs false args) : (nestOp name args).WF exampleNames.shellArgs := by
  have h1 : ∀ s ∈ "gen".toList :: nestNames, exampleNames.shellArgs s = false ∧ s ≠ [] ∧ ∀ c ∈ s, plainChar c = true := by decide +kernel
  obtain ⟨h2, h3, h4⟩ := h1 _ hs
  refine ⟨plainWord_wf _ h3 h4, ?_, ?_⟩
  · rw [plainWord_kept, h2]; exact ha
  · rw [plainWord_kept, h2]; intro h; cases h

theorem nestGen_wf (d : Fin 10) : (nestGen d).WF exampleNames.shellArgs :=
  nestOp_wf "gen" _ (List.mem_cons_self ..) ⟨plainWord_wf _ (by simp) (by revert d; decide +kernel), True.intro⟩

theorem nestArgument_wf (o : SOp) (os : List SOp) (h : opsWF exampleNames.shellArgs (o :: os)) : (nestArgument (o :: os)).WF exampleNames.shellArgs false :=
  ⟨by simp, by simp, h, by simp, .inr (.inl (by simp))⟩

theorem genStage_settled (w : World Int) (d : Fin 10) : (genStage d).Settled w 10 := by rw [genStage, NStage.Settled]; exact True.intro

theorem gen_settled (d : Fin 10) (hd : d ≠ 0) : SettledPipe exampleWorld 10 [genStage d] ∧ ∀ r, NExecutes exampleWorld 10 [genStage d] r → r.2 ≠ .running ∧ r.2 ≠ .stopped .kare := by
  refine ⟨by rw [SettledPipe, SettledPipe]; exact ⟨genStage_settled _ d, True.intro⟩, ?_⟩
  intro r hr
  rw [gen_alone d.val (by omega) (by omega) r hr]
  simp

/-- `gen 6 | difference (| gen 2 |) | union (| gen 3 | intersect (| gen 1 |) |)` -/
def nestedStages : List NStage := [genStage 6, .difference [genStage 2], .union [[genStage 3, .intersect [[genStage 1]]]]]

def nestedOps : List SOp := [nestGen 6, nestOp "difference" [nestArgument [nestGen 2]], nestOp "union" [nestArgument [nestGen 3, nestOp "intersect" [nestArgument [nestGen 1]]]]]

theorem nested_written : NStagesWritten nestedStages nestedOps :=
  .cons _ _ _ _ (nestGen_written 6) (.cons _ _ _ _ (.difference _ _ _ rfl (.mk _ _ (.cons _ _ _ _ (nestGen_written 2) .nil)))
    (.cons _ _ _ _ (.union _ _ _ rfl (.cons _ _ _ _ (.mk _ _ (.cons _ _ _ _ (nestGen_written 3)
      (.cons _ _ _ _ (.intersect _ _ _ rfl (.cons _ _ _ _ (.mk _ _ (.cons _ _ _ _ (nestGen_written 1) .nil)) .nil)) .nil))) .nil)) .nil))

theorem nested_wf : (SCmd.pipeline (.mk [] none nestedOps none)).WF exampleNames.shellArgs := by
  have hg : ∀ d, opsWF exampleNames.shellArgs [nestGen d] := fun d => ⟨nestGen_wf d, True.intro⟩
  refine ⟨by simp, by simp, ⟨nestGen_wf 6, nestOp_wf _ _ (by decide) ⟨nestArgument_wf _ _ (hg 2), True.intro⟩, nestOp_wf _ _ (by decide) ⟨nestArgument_wf _ _ ⟨nestGen_wf 3, ?_, True.intro⟩, True.intro⟩, True.intro⟩, by simp, .inr (.inl (by simp [nestedOps]))⟩
  exact nestOp_wf _ _ (by decide) ⟨nestArgument_wf _ _ (hg 1), True.intro⟩

theorem nested_settled : SettledPipe exampleWorld 10 nestedStages := by
  have h1 : SettledPipe exampleWorld 10 [genStage 3, .intersect [[genStage 1]]] := by
    simp only [SettledPipe, NStage.Settled, SettledIn]
    exact ⟨genStage_settled _ 3, ⟨⟨⟨genStage_settled _ 1, True.intro⟩, fun r hr => ⟨((gen_settled 1 (by decide)).2 r hr).1, .inr ((gen_settled 1 (by decide)).2 r hr).2⟩⟩, True.intro⟩, True.intro⟩
  simp only [nestedStages, SettledPipe, NStage.Settled, SettledIn]
  refine ⟨genStage_settled _ 6, ⟨⟨genStage_settled _ 2, True.intro⟩, (gen_settled 2 (by decide)).2⟩, ⟨⟨by simpa only [SettledPipe, NStage.Settled, SettledIn] using h1, ?_⟩, True.intro⟩, True.intro⟩
  intro r hr
  refine ⟨?_, .inl True.intro⟩
  rw [NExecutes] at hr
  rcases hr with ⟨_, h⟩ | ⟨hc, s, t, h2, h3, h4⟩
  · rw [h]; simp
  · have h5 := gen_alone 3 (by simp) (by simp) (s.sent, s.how) (by
      rw [NExecutes]
      refine .inr ⟨?_, s, s, h2, by rw [NRuns], rfl⟩
      rintro (⟨st, h, h'⟩ | ⟨st, h, _⟩ | ⟨st, h, h'⟩)
      · exact hc (.inl ⟨st, List.mem_cons.mpr (.inl (List.mem_singleton.mp h)), h'⟩)
      · cases h
      · exact hc (.inr (.inr ⟨st, h, h'⟩)))
    rw [NRuns] at h3
    obtain ⟨u, h6, h7⟩ := h3
    rw [NRuns] at h7
    subst h7
    rw [h4]
    rcases ndoes_how _ _ _ _ _ h6 with h | ⟨e, h⟩
    · have := congrArg Prod.snd h5
      simp only at this
      simp only [h, this]; simp
    · simp only [h]; simp

theorem nested_once : OncePipe nestedStages := by
  simp [nestedStages, genStage, OncePipe, NStage.Once, OnceIn, NStage.repeatsEnd, NStage.isUnion]

/-- The theorem applies to this text; and this is what it shows: 2 to 5 is what is left of 0 to 5, and 0 is what is left of 0 to 2. -/
example : ∃ r, execNest exampleWorld exampleNames 10 "gen 6 | difference (| gen 2 |) | union (| gen 3 | intersect (| gen 1 |) |) ".toList = some (.ok r) ∧ Shows exampleWorld 10 nestedStages r :=
  C94_nested_partial exampleWorld exampleNames (fun _ _ => rfl) (fun _ _ => rfl) nestedStages nestedOps nested_written nested_wf _ (SCmd.writtenAs_text _ _ nested_wf) 10 nested_settled nested_once

example : (execNest exampleWorld exampleNames 10 "gen 6 | difference (| gen 2 |) | union (| gen 3 | intersect (| gen 1 |) |) ".toList).bind Except.toOption =
    some ([.item 2, .item 3, .item 4, .item 5, .item 0], .finished) := by decide +kernel

/-- A function that fails for the first number; a pipeline that can't start; a function that doesn't exist. -/
example : (execNest exampleWorld exampleNames 10 "gen 3 | filter -d -c (10 // x) (| gen 6 5 | filter (| gen 10 9 |) |) ".toList).bind Except.toOption =
    some ([], .stopped .crash) := by decide +kernel

example : (execNest exampleWorld exampleNames 10 "gen 3 | union (| gen 2 | gen 2 |) ".toList).bind Except.toOption = some ([.item 0, .item 1, .item 2], .stopped .kill) := by decide +kernel

example : (execNest exampleWorld exampleNames 10 "gen 3 | union (| gen 2 | (undefined) |) ".toList).bind Except.toOption = some ([], .stopped .kill) := by decide +kernel

/-! ## What is missing -/

/-- `gen 2 | union (| gen 3 |) | union (| gen 1 |)` -/
def twiceStages : List NStage := [genStage 2, .union [[genStage 3]], .union [[genStage 1]]]

def twiceOps : List SOp := [nestGen 2, nestOp "union" [nestArgument [nestGen 3]], nestOp "union" [nestArgument [nestGen 1]]]

theorem follows_gen (d : Fin 10) (hd : d ≠ 0) (s : List (Shown Int)) (how : End) (h : Follows [NExecutes exampleWorld 10 [genStage d]] s how) : s = (List.range d.val).map (fun i : Nat => .item (i : Int)) := by
  cases h with
  | next _ _ s t how h1 h2 =>
    cases h2
    have := gen_alone d.val (by omega) (by omega) _ h1
    rw [List.append_nil]
    exact congrArg Prod.fst this
  | stop _ _ s e h1 => exact congrArg Prod.fst (gen_alone d.val (by omega) (by omega) _ h1)

/-- All hypotheses of `C94_nested_partial` but the last are met, but `union` after `union` runs its pipeline twice: this is not what the stages should show. -/
theorem C94_false_union : NStagesWritten twiceStages twiceOps ∧ (SCmd.pipeline (.mk [] none twiceOps none)).WF exampleNames.shellArgs ∧
    (SCmd.pipeline (.mk [] none twiceOps none)).WrittenAs "gen 2 | union (| gen 3 |) | union (| gen 1 |) ".toList ∧ SettledPipe exampleWorld 10 twiceStages ∧
    ∃ r, execNest exampleWorld exampleNames 10 "gen 2 | union (| gen 3 |) | union (| gen 1 |) ".toList = some (.ok r) ∧
      r = ([.item 0, .item 1, .item 0, .item 1, .item 2, .item 0, .item 0], .finished) ∧ ¬ Shows exampleWorld 10 twiceStages r := by
  have hg : ∀ d, opsWF exampleNames.shellArgs [nestGen d] := fun d => ⟨nestGen_wf d, True.intro⟩
  have hwf : (SCmd.pipeline (.mk [] none twiceOps none)).WF exampleNames.shellArgs :=
    ⟨by simp, by simp, ⟨nestGen_wf 2, nestOp_wf _ _ (by decide) ⟨nestArgument_wf _ _ (hg 3), True.intro⟩, nestOp_wf _ _ (by decide) ⟨nestArgument_wf _ _ (hg 1), True.intro⟩, True.intro⟩, by simp, .inr (.inl (by simp [twiceOps]))⟩
  refine ⟨?_, hwf, SCmd.writtenAs_text _ _ hwf, ?_, ?_⟩
  · exact .cons _ _ _ _ (nestGen_written 2) (.cons _ _ _ _ (.union _ _ _ rfl (.cons _ _ _ _ (.mk _ _ (.cons _ _ _ _ (nestGen_written 3) .nil)) .nil))
      (.cons _ _ _ _ (.union _ _ _ rfl (.cons _ _ _ _ (.mk _ _ (.cons _ _ _ _ (nestGen_written 1) .nil)) .nil)) .nil))
  · simp only [twiceStages, SettledPipe, NStage.Settled, SettledIn]
    exact ⟨genStage_settled _ 2, ⟨⟨⟨genStage_settled _ 3, True.intro⟩, fun r hr => ⟨((gen_settled 3 (by decide)).2 r hr).1, .inl True.intro⟩⟩, True.intro⟩,
      ⟨⟨⟨genStage_settled _ 1, True.intro⟩, fun r hr => ⟨((gen_settled 1 (by decide)).2 r hr).1, .inl True.intro⟩⟩, True.intro⟩, True.intro⟩
  · have hx : (execNest exampleWorld exampleNames 10 "gen 2 | union (| gen 3 |) | union (| gen 1 |) ".toList).bind Except.toOption =
        some ([.item 0, .item 1, .item 0, .item 1, .item 2, .item 0, .item 0], .finished) := by decide +kernel
    cases he : execNest exampleWorld exampleNames 10 "gen 2 | union (| gen 3 |) | union (| gen 1 |) ".toList with
    | none => rw [he] at hx; cases hx
    | some r =>
      rw [he] at hx
      cases r with
      | error e => cases hx
      | ok r =>
        have hr : r = ([.item 0, .item 1, .item 0, .item 1, .item 2, .item 0, .item 0], .finished) := by
          simpa [Except.toOption] using hx
        refine ⟨r, rfl, hr, ?_⟩
        suffices h : ∀ r, Shows exampleWorld 10 twiceStages r → r.1.length ≤ 6 by
          intro h'
          have := h r h'
          rw [hr] at this
          revert this; decide
        intro r h
        cases h with
        | refused _ => simp
        | runs _ _ h =>
          unfold twiceStages at h
          rw [NExecutes] at h
          rcases h with ⟨_, h⟩ | ⟨hc, s, t, h2, h3, h4⟩
          · rw [h]; simp
          · have h5 := gen_alone 2 (by simp) (by simp) (s.sent, s.how) (by
              rw [NExecutes]
              refine .inr ⟨?_, s, s, h2, by rw [NRuns], rfl⟩
              rintro (⟨st, h, h'⟩ | ⟨st, h, _⟩ | ⟨st, h, h'⟩)
              · exact hc (.inl ⟨st, List.mem_cons.mpr (.inl (List.mem_singleton.mp h)), h'⟩)
              · cases h
              · exact hc (.inr (.inr ⟨st, h, h'⟩)))
            have h6 : s.sent.length = 2 := by rw [show s.sent = _ from congrArg Prod.fst h5]; rfl
            simp only [NRuns, NStage.Does, canAll] at h3
            obtain ⟨u, h7, v, h8, rfl⟩ := h3
            rw [h4]
            have hlen : ∀ (d : Fin 10) (_ : d ≠ 0) (a b : Stream Int), Unites [NExecutes exampleWorld 10 [genStage d]] a b → b.sent.length ≤ a.sent.length + d.val := by
              intro d hd a b h
              unfold Unites at h
              split at h
              · obtain ⟨x, how, h1, rfl⟩ := h
                rw [follows_gen d hd x how h1]
                simp
              · subst h; omega
            have h9 := hlen 3 (by decide) _ _ h7
            have h10 := hlen 1 (by decide) _ _ h8
            show t.sent.length ≤ 6
            have : ((3 : Fin 10).val) = 3 := rfl
            have : ((1 : Fin 10).val) = 1 := rfl
            omega

end Marcel.Exec
