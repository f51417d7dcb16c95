import Verif.Lemmas.ExecStages

/-! # C72: from the text of a command to what it shows

The specification is in `Spec/Exec.lean`: `StagesWritten` says how the stages of a pipeline are written, `Executes` what it shows and how it ends. The theorem goes through the whole of marcel:
the lexer and the parser, finding out what the names denote, parsing of the arguments, setting up the operators, and running them. -/

namespace Marcel.Exec

open Op

set_option linter.unusedSectionVars false

variable {V : Type} [DecidableEq V]

/-! ## Lemmas -/

inductive AllMade (w : World V) : List Stage → List Created → Prop
  | nil : AllMade w [] []
  | cons (st : Stage) (sts : List Stage) (c : Created) (cs : List Created) : MadeFor w st c → AllMade w sts cs → AllMade w (st :: sts) (c :: cs)

theorem stages_made (w : World V) (names : Names) (hnames : ∀ x ∈ stageNames, names.defined x = false) (sts : List Stage) (ops : List SOp) (h : StagesWritten sts ops) (hw : opsWF names.shellArgs ops) :
    ∃ cs, OpsMean names ops cs ∧ AllMade w sts cs := by
  induction h with
  | nil => exact ⟨[], .nil, .nil⟩
  | cons st sts o os h1 _ ih =>
    obtain ⟨c, h3, h4⟩ := stage_made w names hnames st o h1 hw.1
    obtain ⟨cs, h5, h6⟩ := ih hw.2
    exact ⟨c :: cs, .cons _ _ _ _ h3 h5, .cons _ _ _ _ h4 h6⟩

/-- Operators that have been created for stages. -/
inductive AllSet (w : World V) : List Stage → List Made → Prop
  | nil : AllSet w [] []
  | cons (st : Stage) (sts : List Stage) (k : Kind) (op : Dict Str (ArgValue XArg)) (ms : List Made) : (k = .gen ↔ st.isGen) →
      (st.Bad w ∧ k.setup w op = .error .kill ∨ ¬ st.Bad w ∧ ∃ r, k.setup w op = .ok r ∧ ReadyFor w st r) → AllSet w sts ms → AllSet w (st :: sts) ((k, op) :: ms)

theorem make_all (w : World V) (sts : List Stage) (cs : List Created) (h : AllMade w sts cs) :
    ((∃ st ∈ sts, st.Unreadable w) ∧ makeAll w cs = some none) ∨ ∃ ms, makeAll w cs = some (some ms) ∧ AllSet w sts ms := by
  induction h with
  | nil => exact .inr ⟨[], rfl, .nil⟩
  | cons st sts c cs h1 _ ih =>
    rcases h1 with ⟨h1, h2⟩ | ⟨h1, k, op, h2, h3, h4⟩
    · exact .inl ⟨⟨st, List.mem_cons_self, h1⟩, by simp only [makeAll, h2]⟩
    · rcases ih with ⟨⟨st', h5, h6⟩, h7⟩ | ⟨ms, h5, h6⟩
      · exact .inl ⟨⟨st', List.mem_cons_of_mem _ h5, h6⟩, by simp only [makeAll, h2, h7]⟩
      · exact .inr ⟨(k, op) :: ms, by simp only [makeAll, h2, h5], .cons _ _ _ _ _ h3 h4 h6⟩

inductive AllReady (w : World V) : List Stage → List (Ready V) → Prop
  | nil : AllReady w [] []
  | cons (st : Stage) (sts : List Stage) (r : Ready V) (rs : List (Ready V)) : ReadyFor w st r → AllReady w sts rs → AllReady w (st :: sts) (r :: rs)

theorem setup_all (w : World V) (sts : List Stage) (ms : List Made) (h : AllSet w sts ms) :
    ((∃ st ∈ sts, st.Bad w) ∧ setupAll w ms = .error .kill) ∨ ((∀ st ∈ sts, ¬ st.Bad w) ∧ ∃ rs, setupAll w ms = .ok rs ∧ AllReady w sts rs) := by
  induction h with
  | nil => exact .inr ⟨(by intro st h; cases h), [], rfl, .nil⟩
  | cons st sts k op ms _ h2 _ ih =>
    rcases h2 with ⟨h1, h2⟩ | ⟨h1, r, h2, h3⟩
    · exact .inl ⟨⟨st, List.mem_cons_self, h1⟩, by simp only [setupAll, h2]⟩
    · rcases ih with ⟨⟨st', h5, h6⟩, h7⟩ | ⟨h4, rs, h5, h6⟩
      · exact .inl ⟨⟨st', List.mem_cons_of_mem _ h5, h6⟩, by simp only [setupAll, h2, h7]⟩
      · refine .inr ⟨?_, r :: rs, by simp only [setupAll, h2, h5], .cons _ _ _ _ h3 h6⟩
        intro st' hst
        rcases List.mem_cons.mp hst with rfl | hst
        · exact h1
        · exact h4 st' hst

theorem any_gen (w : World V) (sts : List Stage) (ms : List Made) (h : AllSet w sts ms) : ms.any (fun o => o.1 = .gen) = true ↔ ∃ st ∈ sts, st.isGen := by
  induction h with
  | nil => simp
  | cons st sts k op ms h1 _ _ ih =>
    rw [List.any_cons, Bool.or_eq_true, ih, decide_eq_true_iff, h1]
    simp

/-- Stages that aren't first. -/
theorem stages_ready (w : World V) (sts : List Stage) (rs : List (Ready V)) (h : AllReady w sts rs) (hg : ∀ st ∈ sts, ¬ st.isGen) : AllImplement w sts (stages rs) := by
  induction h with
  | nil => exact .nil
  | cons st sts r rs h1 _ ih =>
    have ih := ih fun st h => hg st (List.mem_cons_of_mem _ h)
    cases h1 with
    | source sent h => exact absurd h (hg st List.mem_cons_self)
    | needs o _ _ h _ => exact .cons _ _ _ _ h ih
    | stage o _ _ h _ _ => exact .cons _ _ _ _ h ih

theorem starts_running (w : World V) (steps : Nat) (st : Stage) (s : Stream V) (hg : ¬ st.isGen) (h : st.Starts w steps s) : s.how ≠ .running := by
  have aux : ∀ (st' : Stage) (s : Stream V), st'.Does w ⟨[.item w.empty], .finished⟩ s → s.how ≠ .running := by
    intro st' s h
    rcases does_how w st' _ _ h with h | ⟨e, h⟩ <;> rw [h] <;> simp
  cases st with
  | gen => exact absurd True.intro hg
  | map src => simp only [Stage.Starts] at h; rw [h]; simp only; split <;> simp
  | select src => simp only [Stage.Starts] at h; rw [h]; simp only; split <;> simp
  | head n => exact aux (.head n) _ h
  | tail n => exact aux (.tail n) _ h
  | reverse => exact aux .reverse _ h
  | sort => exact h.elim
  | unique => exact h.elim
  | windowBy => exact h.elim
  | disjoint => exact h.elim
  | squish f => simp only [Stage.Starts] at h; rw [h]; simp only; split <;> simp
  | expand n => exact aux (.expand n) _ h
  | red inc fs =>
    obtain ⟨s', gs, _, ⟨_, h⟩ | ⟨_, h⟩⟩ := h <;> rw [h] <;> simp

theorem run_ready (w : World V) (steps : Nat) (st : Stage) (rest : List Stage) (r : Ready V) (rs : List (Ready V)) (h : AllReady w (st :: rest) (r :: rs)) (hg : ∀ st ∈ rest, ¬ st.isGen) :
    (st.needsInput ∧ runReady w steps (r :: rs) = ⟨[], .stopped .kill⟩) ∨
    (¬ st.needsInput ∧ ∃ s t, st.Starts w steps s ∧ Runs w rest s t ∧ shown (runReady w steps (r :: rs)).sent = t.sent ∧ (runReady w steps (r :: rs)).how = t.how) := by
  cases h with
  | cons _ _ _ _ h1 h2 =>
    have hi := stages_ready w rest rs h2 hg
    cases h1 with
    | needs o _ h _ _ => exact .inl ⟨h, rfl⟩
    | source sent hgen hs =>
      have hni : ¬ st.needsInput := by cases st with | gen => exact fun h => h | _ => exact hgen.elim
      refine .inr ⟨hni, ?_⟩
      obtain ⟨s, xs, h3, h4, h5, h6⟩ := hs steps
      subst h5
      simp only [runReady]
      rcases Bool.eq_false_or_eq_true (sent steps).2 with hd | hd
      · rw [hd] at h6
        obtain ⟨t, h7, h8⟩ := chain_runs w rest _ hi s (ofItems (sent steps).1 ++ [.flush]) none ⟨1, by rw [h4, evs_items]; rfl, by rw [h6]; exact ⟨by decide, rfl⟩⟩
        refine ⟨s, t, h3, h7, ?_⟩
        rw [hd]
        simp only [if_true]
        refine ⟨h8.shown, ?_⟩
        have := h8.ending (by
          rcases runs_how w rest s t h7 with h | ⟨e, h⟩ <;> rw [h]
          · rw [h6]; simp
          · simp)
        simpa using this
      · rw [hd] at h6
        obtain ⟨t, h7, h8⟩ := chain_runs w rest _ hi s (ofItems (sent steps).1) none ⟨0, by rw [h4, evs_items]; simp, by rw [h6]; exact ⟨rfl, rfl⟩⟩
        refine ⟨s, t, h3, h7, ?_⟩
        rw [hd]
        simp only [Bool.false_eq_true, if_false]
        refine ⟨h8.shown, ?_⟩
        have := h8.running (by
          rcases runs_how w rest s t h7 with h | ⟨e, h⟩ <;> rw [h]
          · rw [h6]; simp
          · simp)
        simpa using this
    | stage o hng h _ _ hf =>
      refine .inr ⟨h, ?_⟩
      obtain ⟨es, x, s, h3, h4, h5⟩ := hf steps
      obtain ⟨t, h7, h8⟩ := chain_runs w rest _ hi s es x h5
      refine ⟨s, t, h4, h7, ?_⟩
      rw [run_first w steps o rs es x h3]
      refine ⟨h8.shown, h8.ending ?_⟩
      rcases runs_how w rest s t h7 with h | ⟨e, h⟩ <;> rw [h]
      · exact starts_running w steps st s hng h4
      · simp

theorem pipeline_executes (w : World V) (steps : Nat) (sts : List Stage) (cs : List Created) (hne : sts ≠ []) (h : AllMade w sts cs) :
    ∃ r, runPipeline w steps cs = some r ∧ Executes w steps sts (shown r.sent, r.how) := by
  unfold runPipeline
  rcases make_all w sts cs h with ⟨⟨st, h1, h2⟩, h3⟩ | ⟨ms, h1, h2⟩
  · rw [h3]
    exact ⟨_, rfl, .refused (.inl ⟨st, h1, .inl h2⟩)⟩
  · rw [h1]
    simp only [setupPipeline]
    cases h2 with
    | nil => exact absurd rfl hne
    | cons st rest k op ms h3 h4 h5 =>
      by_cases hg : ∃ st ∈ rest, st.isGen
      · rw [if_pos (show ((k, op) :: ms).tail.any (fun o => o.1 = .gen) = true from (any_gen w rest ms h5).mpr hg)]
        exact ⟨_, rfl, .refused (.inr (.inl hg))⟩
      · rw [if_neg (show ¬ ((k, op) :: ms).tail.any (fun o => o.1 = .gen) = true from fun h => hg ((any_gen w rest ms h5).mp h))]
        rcases setup_all w (st :: rest) ((k, op) :: ms) (.cons _ _ _ _ _ h3 h4 h5) with ⟨h6, h7⟩ | ⟨h6, rs, h7, h8⟩
        · rw [h7]
          exact ⟨_, rfl, .refused (.inl h6)⟩
        · rw [h7]
          cases h8 with
          | cons _ _ r rs' h9 h10 =>
            refine ⟨_, rfl, ?_⟩
            have hg' : ∀ st ∈ rest, ¬ st.isGen := fun st h h' => hg ⟨st, h, h'⟩
            rcases run_ready w steps st rest r rs' (.cons _ _ _ _ h9 h10) hg' with ⟨h11, h12⟩ | ⟨h11, s, t, h12, h13, h14, h15⟩
            · rw [h12]
              exact .refused (.inr (.inr ⟨st, rfl, h11⟩))
            · rw [h14, h15]
              refine .runs st rest s t ?_ rfl h12 h13
              rintro (⟨st', h, h'⟩ | ⟨st', h, h'⟩ | ⟨st', h, h'⟩)
              · exact h6 st' h h'
              · exact hg' st' h h'
              · cases h; exact h11 h'

/-! ## The theorem -/

/-- **C72.** For every pipeline of the stages `gen`, `map` (also written as a bare expression), `select`, `head`, `tail`, `reverse`, `sort`, `unique`, `window` (with a predicate or `-d`), `squish`, `expand`, `red`, every text that is a way to write it, and every number of steps of the
first stage: executing the text shows what the stages do, one after the other, and ends as they do. No variable has the name of one of these operators (or of an operator with special syntax). -/
theorem C72_command (w : World V) (names : Names) (hu : names.Usual)
    (hn : ∀ x ∈ ["gen".toList, "select".toList, "head".toList, "tail".toList, "reverse".toList, "sort".toList, "unique".toList,
      "window".toList, "squish".toList, "expand".toList, "red".toList], names.defined x = false)
    (sts : List Stage) (ops : List SOp) (hs : StagesWritten sts ops)
    (hwf : (SCmd.pipeline (.mk [] none ops none)).WF names.shellArgs) (text : Str) (ht : (SCmd.pipeline (.mk [] none ops none)).WrittenAs text) (steps : Nat) :
    ∃ r, exec w names steps text = some (.ok r) ∧ Executes w steps sts r := by
  have hnames : ∀ x ∈ stageNames, names.defined x = false := by
    intro x hx
    by_cases h : x = "map".toList
    · subst h; exact hu _ (by simp)
    · refine hn x ?_
      simp only [stageNames, List.mem_cons, List.not_mem_nil, or_false] at hx ⊢
      rcases hx with h' | h' | h'
      · exact .inl h'
      · exact absurd h' h
      · exact .inr h'
  have hne : sts ≠ [] := by
    rintro rfl
    cases hs
    obtain ⟨_, _, _, _, h | h | h⟩ := hwf
    · cases h
    · exact h rfl
    · cases h
  obtain ⟨cs, h1, h2⟩ := stages_made w names hnames sts ops hs hwf.2.2.1
  have hr : resolve names text = .ok (.pipeline (.mk [] cs)) := by
    refine (C62_names_partial names hu _ hwf text ht _).mpr (.pipeline _ _ ?_)
    have := PipeMeans.mk (n := names) [] none ops none cs h1
    simpa using this
  obtain ⟨r, h3, h4⟩ := pipeline_executes w steps sts cs hne h2
  refine ⟨(shown r.sent, r.how), ?_, h4⟩
  unfold exec
  rw [hr]
  simp only [h3]

/-! ## Example: the hypotheses are met, and the theorem says what is shown -/

/-- Numbers; `x` is the argument of the function `10 // x`. -/
def exampleWorld : World Int where
  fn := fun f x => match f with
    | .source s => if s = "10 // x".toList then (if x = 0 then .error "division by zero" else .ok (10 / x)) else .ok x
    | .named _ => .ok x
  wrap := id
  truth := fun x => x ≠ 0
  toInt := some
  ofInt := id
  ofStr := fun s => s.length
  lt := fun a b => some (a < b)
  hashable := fun _ => true
  empty := 0
  fn2 := fun _ a x => .ok (a + x)
  elems := fun x => [x]
  seq := fun xs => xs.sum
  none0 := 0
  zero := 0
  elements := fun _ => none
  isFunction := fun _ => false
  compiles := fun s => s = "10 // x".toList

def exampleStages : List Stage := [.gen (some (.lit 5)) (some (.lit (-1))), .map (.source "10 // x".toList), .head (.lit 3), .reverse]

def exampleOps : List SOp := [.named (plainWord "gen".toList) [.word (plainWord "5".toList), .word (plainWord "-1".toList)], .bare "10 // x".toList,
  .named (plainWord "head".toList) [.word (plainWord "3".toList)], .named (plainWord "reverse".toList) []]

theorem example_written : StagesWritten exampleStages exampleOps := by
  refine .cons _ _ _ _ (.gen _ _ _ [_] [_] rfl ?_ (by intro h; cases h) (.some _ _ (.lit _ _ (.pos [5] (by decide)))) (.some _ _ (.lit _ _ (.neg [1] (by decide))))) ?_
  · intro v hv
    simp only [List.mem_singleton, SArg.word.injEq] at hv
    subst hv; decide
  · exact .cons _ _ _ _ (.bare _) (.cons _ _ _ _ (.head _ _ _ rfl (.lit _ _ (.pos [3] (by decide)))) (.cons _ _ _ _ (.reverse _ rfl) .nil))

/-- No variables are defined. -/
def exampleNames : Names := ⟨fun _ => false, fun _ => false⟩

theorem example_wf : (SCmd.pipeline (.mk [] none exampleOps none)).WF exampleNames.shellArgs := by
  have hw : ∀ s : Str, s ≠ [] → (∀ c ∈ s, plainChar c = true) → (plainWord s).WF := plainWord_wf
  have hshell : ∀ s ∈ ["gen".toList, "head".toList, "reverse".toList], exampleNames.shellArgs s = false := by decide +kernel
  have hop : ∀ (s : Str) (args : List SArg), s ∈ ["gen".toList, "head".toList, "reverse".toList] → (∀ c ∈ s, plainChar c = true) → argsWF exampleNames.shellArgs false args →
      (SOp.named (plainWord s) args).WF exampleNames.shellArgs := by
    intro s args hs hc ha
    refine ⟨hw s (by rintro rfl; revert hs; decide) hc, ?_, ?_⟩
    · rw [plainWord_kept, hshell s hs]; exact ha
    · rw [plainWord_kept, hshell s hs]; intro h; cases h
  refine ⟨by simp, by simp, ⟨?_, ?_, ?_, ?_, True.intro⟩, by simp, .inr (.inl (by simp [exampleOps]))⟩
  · exact hop _ _ (by decide) (by decide +kernel) ⟨hw _ (by decide) (by decide +kernel), hw _ (by decide) (by decide +kernel), True.intro⟩
  · refine ⟨?_, by decide⟩
    have : ∀ s : Str, s.all (fun c => c ≠ '(' && c ≠ ')' && c ≠ '\'' && c ≠ '"') = true → Balanced s := by
      intro s
      induction s with
      | nil => intro _; exact .nil
      | cons c s ih =>
        intro h
        simp only [List.all_cons, Bool.and_eq_true, decide_eq_true_eq] at h
        exact .chr c s h.1.1.1.1 h.1.1.1.2 h.1.1.2 h.1.2 (ih h.2)
    exact this _ (by decide)
  · exact hop _ _ (by decide) (by decide +kernel) ⟨hw _ (by decide) (by decide +kernel), True.intro⟩
  · exact hop _ _ (by decide) (by decide +kernel) True.intro

/-- The theorem applies to the text `gen 5 -1 | (10 // x) | head 3 | reverse`; and this is what it shows. -/
example : ∃ r, exec exampleWorld exampleNames 10 "gen 5 -1 | (10 // x) | head 3 | reverse ".toList = some (.ok r) ∧ Executes exampleWorld 10 exampleStages r :=
  C72_command exampleWorld exampleNames (fun _ _ => rfl) (fun _ _ => rfl) exampleStages exampleOps example_written example_wf _
    (SCmd.writtenAs_text _ _ example_wf) 10

example : (exec exampleWorld exampleNames 10 "gen 5 -1 | (10 // x) | head 3 | reverse ".toList).bind Except.toOption = some ([.error "division by zero", .item 5, .item 10, .item (-10)], .finished) := by decide +kernel

/-- After two steps `gen` is not done: nothing is shown but the error. -/
example : (exec exampleWorld exampleNames 2 "gen 5 -1 | (10 // x) | head 3 | reverse ".toList).bind Except.toOption = some ([.error "division by zero"], .running) := by decide +kernel

/-- A command that is refused. -/
example : (exec exampleWorld exampleNames 2 "reverse | gen 5 ".toList).bind Except.toOption = some ([], .stopped .kill) := by decide +kernel

/-! Tuples: `gen 5 | (x: (x % 2, x)) | red . + | sort | window -d 3`, with the text of the function shortened. -/

/-- Numbers, None, and tuples of values. -/
inductive Val
  | num (n : Int)
  | none_
  | tup (l : List Val)

mutual
  def Val.same : Val → Val → Bool
    | .num m, .num n => m = n
    | .none_, .none_ => true
    | .tup l, .tup m => Val.sames l m
    | _, _ => false
  def Val.sames : List Val → List Val → Bool
    | [], [] => true
    | x :: l, y :: m => Val.same x y && Val.sames l m
    | _, _ => false
end

mutual
  theorem Val.same_iff : ∀ a b : Val, Val.same a b = true ↔ a = b
    | .num m, b => by cases b <;> simp [Val.same]
    | .none_, b => by cases b <;> simp [Val.same]
    | .tup l, b => by
      cases b with
      | tup m => simp only [Val.same, Val.sames_iff l m, Val.tup.injEq]
      | _ => simp [Val.same]
  theorem Val.sames_iff : ∀ a b : List Val, Val.sames a b = true ↔ a = b
    | [], b => by cases b <;> simp [Val.sames]
    | x :: l, b => by
      cases b with
      | nil => simp [Val.sames]
      | cons y m => simp [Val.sames, Val.same_iff x y, Val.sames_iff l m]
end

instance : DecidableEq Val := fun a b => decidable_of_iff _ (Val.same_iff a b)

/-- The function `f` makes a pair of the remainder and the number. -/
def pairWorld : World Val where
  fn := fun f x => match f, x with
    | .source _, .tup [.num n] => .ok (.tup [.num (n % 2), .num n])
    | _, x => .ok x
  wrap := fun | .tup l => .tup l | x => .tup [x]
  truth := fun _ => true
  toInt := fun | .num n => some n | _ => none
  ofInt := .num
  ofStr := fun s => .num s.length
  lt := fun | .tup (.num a :: _), .tup (.num b :: _) => some (a < b) | _, _ => none
  hashable := fun _ => true
  empty := .tup []
  fn2 := fun _ a x => match a, x with
    | .num m, .num n => .ok (.num (m + n))
    | .none_, x => .ok x
    | _, _ => .error "can't add"
  elems := fun | .tup l => l | _ => []
  seq := .tup
  none0 := .none_
  zero := .num 0
  elements := fun | .tup l => some l | _ => none
  isFunction := fun s => s = "+".toList || s = ".".toList
  compiles := fun _ => true

/-- The sums of the odd and the even numbers; sorted; as one window, filled with None. -/
example : (exec pairWorld exampleNames 10 "gen 5 | (f) | red . + | sort | window -d 3 ".toList).bind Except.toOption =
    some ([.item (.tup [.tup [.num 0, .num 6], .tup [.num 1, .num 4], .none_])], .finished) := by decide +kernel

/-- Running totals. -/
example : (exec pairWorld exampleNames 10 "gen 3 | red -i + ".toList).bind Except.toOption =
    some ([.item (.tup [.num 0, .num 0]), .item (.tup [.num 1, .num 1]), .item (.tup [.num 2, .num 3])], .finished) := by decide +kernel

def pairStages : List Stage := [.gen (some (.lit 5)) none, .map (.source "f".toList), .red false [.named ".".toList, .named "+".toList], .sort none, .disjoint (.lit 3)]

def pairOps : List SOp := [.named (plainWord "gen".toList) [.word (plainWord "5".toList)], .bare "f".toList, .named (plainWord "red".toList) [.word (plainWord ".".toList), .word (plainWord "+".toList)],
  .named (plainWord "sort".toList) [], .named (plainWord "window".toList) [.word (plainWord "-d".toList), .word (plainWord "3".toList)]]

theorem pair_written : StagesWritten pairStages pairOps := by
  refine .cons _ _ _ _ (.gen _ _ _ [_] [] rfl ?_ (by intro h; cases h) (.some _ _ (.lit _ _ (.pos [5] (by decide)))) .none) ?_
  · intro v hv
    simp only [List.mem_singleton, SArg.word.injEq] at hv
    subst hv; decide
  · refine .cons _ _ _ _ (.bare _) (.cons _ _ _ _ (.red _ _ _ rfl (.cons _ _ _ _ (.named (plainWord ".".toList) (by decide) (by decide)) (.cons _ _ _ _ (.named (plainWord "+".toList) (by decide) (by decide)) .nil)))
      (.cons _ _ _ _ (.sort _ rfl) (.cons _ _ _ _ (.disjoint _ _ _ _ rfl (.inl rfl) (.lit _ _ (.pos [3] (by decide))) ?_) .nil)))
    intro u hu
    cases hu; decide

end Marcel.Exec
