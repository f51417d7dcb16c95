import Verif.Model.FArgs

/-! # C35: function parameters are recognized; C36: scripts are split into commands -/

namespace Marcel

/-! ## C35

Specification: a parameter is a name, or a star and a name; a header is an optional `lambda`, parameters separated
by commas, possibly followed by a comma, and a colon. -/

inductive FParam | plain | starred
deriving DecidableEq, Repr

def FParam.syms : FParam → List FSym
  | .plain => [.name]
  | .starred => [.star, .name]

/-- `p1, p2, ..., pn` -/
def fparamSyms : List FParam → List FSym
  | [] => []
  | [p] => p.syms
  | p :: ps => p.syms ++ .comma :: fparamSyms ps

/-- The symbols of a header. A trailing comma is only possible after a parameter. -/
def headerSyms (lam : Bool) (ps : List FParam) (trailing : Bool) : List FSym :=
  (if lam then [.lambda] else []) ++ (fparamSyms ps ++ ((if trailing && !ps.isEmpty then [.comma] else []) ++ [.colon]))

/-! ### From the specification to the parser -/

theorem run_params (ps : List FParam) (trailing : Bool) (body : List FSym) (p : FParse)
    (h : p.state = .start ∨ p.state = .arglist) :
    p.run (fparamSyms ps ++ ((if trailing && !ps.isEmpty then [.comma] else []) ++ (.colon :: body))) =
      { p with state := .end_, explicitColon := true, hasArgs := p.hasArgs || ps.any (· == .plain) } := by
  induction ps generalizing p with
  | nil =>
    obtain ⟨st, l, c, a⟩ := p
    rcases h with h | h <;> simp only at h <;> subst h <;>
      simp [fparamSyms, FParse.run, FParse.step, FState.terminal]
  | cons q qs ih =>
    cases qs with
    | nil =>
      obtain ⟨st, l, c, a⟩ := p
      rcases h with h | h <;> simp only at h <;> subst h <;> cases q <;> cases trailing <;>
        simp [fparamSyms, FParam.syms, FParse.run, FParse.step, FState.terminal]
    | cons q' qs =>
      have ih := fun p hp => ih p hp
      simp only [List.isEmpty_cons, Bool.not_false, Bool.and_true] at ih ⊢
      rw [show fparamSyms (q :: q' :: qs) = q.syms ++ .comma :: fparamSyms (q' :: qs) from rfl]
      obtain ⟨st, l, c, a⟩ := p
      rcases h with h | h <;> simp only at h <;> subst h <;> cases q <;>
        simp [FParam.syms, FParse.run, FParse.step, FState.terminal, ih, show (FParam.starred == FParam.plain) = false from rfl]

/-- Every header is recognized, with the right flags: `lambda` present, colon present, and (as to having parameters)
whether there is a parameter that is not starred. -/
theorem C35_header (lam : Bool) (ps : List FParam) (trailing : Bool) (body : List FSym) :
    fparse (headerSyms lam ps trailing ++ body) = ⟨.end_, lam, true, ps.any (· == .plain)⟩ := by
  unfold fparse headerSyms
  cases lam with
  | false =>
    simp only [Bool.false_eq_true, if_false, List.nil_append, List.append_assoc, List.cons_append]
    rw [run_params ps trailing body {} (.inl rfl)]
    simp [FParse.finish]
  | true =>
    simp only [if_true, List.append_assoc, List.cons_append, List.nil_append]
    have : FParse.run {} (.lambda :: (fparamSyms ps ++
        ((if trailing && !ps.isEmpty then [.comma] else []) ++ (.colon :: body)))) =
      FParse.run ⟨.arglist, true, false, false⟩ (fparamSyms ps ++
        ((if trailing && !ps.isEmpty then [.comma] else []) ++ (.colon :: body))) := by
      simp [FParse.run, FParse.step, FState.terminal]
    rw [this, run_params ps trailing body _ (.inr rfl)]
    simp [FParse.finish]

/-! ### From the parser to the specification -/

/-- What the loop has seen when it is in a state. -/
theorem run_end (ss : List FSym) : ∀ p : FParse, (p.run ss).state = .end_ →
    (p.state = .start → ∃ lam ps tr body, ss = headerSyms lam ps tr ++ body) ∧
    (p.state = .arglist → ∃ ps tr body, ss = headerSyms false ps tr ++ body) ∧
    (p.state = .star → ∃ ps tr body, .star :: ss = headerSyms false (.starred :: ps) tr ++ body) ∧
    (p.state = .arg → ∃ ps tr body, .name :: ss = headerSyms false (.plain :: ps) tr ++ body) := by
  induction ss with
  | nil =>
    intro p h
    simp only [FParse.run] at h
    refine ⟨?_, ?_, ?_, ?_⟩ <;> intro h' <;> rw [h] at h' <;> cases h'
  | cons s ss ih =>
    intro p h
    simp only [FParse.run] at h
    obtain ⟨st, l, c, a⟩ := p
    have args : ∀ p : FParse, (p.state = .arglist) → (p.step s).state = .end_ ∨ ¬ (p.step s).state.terminal →
        ((if (p.step s).state.terminal = true then p.step s else (p.step s).run ss).state = .end_) →
        ∃ ps tr body, s :: ss = headerSyms false ps tr ++ body := by
      intro p hp _ h
      obtain ⟨st, l, c, a⟩ := p
      simp only at hp
      subst hp
      cases s <;> simp [FParse.step, FState.terminal] at h
      case name =>
        obtain ⟨ps, tr, body, e⟩ := (ih _ h).2.2.2 rfl
        exact ⟨.plain :: ps, tr, body, e⟩
      case star =>
        obtain ⟨ps, tr, body, e⟩ := (ih _ h).2.2.1 rfl
        exact ⟨.starred :: ps, tr, body, e⟩
      case colon => exact ⟨[], false, ss, rfl⟩
    -- after a parameter
    have arg : ∀ (q : FParam) (p : FParse), p.state = .arg →
        ((if (p.step s).state.terminal = true then p.step s else (p.step s).run ss).state = .end_) →
        ∃ ps tr body, q.syms ++ s :: ss = headerSyms false (q :: ps) tr ++ body := by
      intro q p hp h
      obtain ⟨st, l, c, a⟩ := p
      simp only at hp
      subst hp
      cases s <;> simp [FParse.step, FState.terminal] at h
      case comma =>
        obtain ⟨ps, tr, body, e⟩ := (ih _ h).2.1 rfl
        cases ps with
        | nil =>
          refine ⟨[], true, body, ?_⟩
          simp [headerSyms, fparamSyms] at e
          rw [e]
          simp [headerSyms, fparamSyms]
        | cons q' ps =>
          refine ⟨q' :: ps, tr, body, ?_⟩
          rw [e]
          simp [headerSyms, fparamSyms]
      case colon => exact ⟨[], false, ss, by simp [headerSyms, fparamSyms]⟩
    refine ⟨?_, ?_, ?_, ?_⟩
    · intro hp
      simp only at hp
      subst hp
      cases s with
      | lambda =>
        simp [FParse.step, FState.terminal] at h
        obtain ⟨ps, tr, body, e⟩ := (ih _ h).2.1 rfl
        exact ⟨true, ps, tr, body, by rw [e]; simp [headerSyms]⟩
      | name =>
        simp [FParse.step, FState.terminal] at h
        obtain ⟨ps, tr, body, e⟩ := (ih _ h).2.2.2 rfl
        exact ⟨false, .plain :: ps, tr, body, e⟩
      | star =>
        simp [FParse.step, FState.terminal] at h
        obtain ⟨ps, tr, body, e⟩ := (ih _ h).2.2.1 rfl
        exact ⟨false, .starred :: ps, tr, body, e⟩
      | colon => exact ⟨false, [], false, ss, rfl⟩
      | comma => simp [FParse.step, FState.terminal] at h
      | other => simp [FParse.step, FState.terminal] at h
    · intro hp
      exact args _ hp (by
        simp only at hp
        subst hp
        cases s <;> simp [FParse.step, FState.terminal] at h ⊢) h
    · intro hp
      simp only at hp
      subst hp
      cases s <;> simp [FParse.step, FState.terminal] at h
      case name =>
        -- `star name` is a parameter; look at what follows it
        cases ss with
        | nil => simp [FParse.run] at h
        | cons s' ss' =>
          have h2 := h
          simp only [FParse.run] at h2
          cases s' <;> simp [FParse.step, FState.terminal] at h2
          case colon => exact ⟨[], false, ss', by simp [headerSyms, fparamSyms, FParam.syms]⟩
          case comma =>
            obtain ⟨ps, tr, body, e⟩ := (ih _ h).2.2.2 rfl
            cases ps with
            | nil =>
              simp [headerSyms, fparamSyms, FParam.syms] at e
              refine ⟨[], true, body, ?_⟩
              cases tr <;> simp at e
              rw [e]
              simp [headerSyms, fparamSyms, FParam.syms]
            | cons q' ps =>
              refine ⟨q' :: ps, tr, body, ?_⟩
              simp [headerSyms, fparamSyms, FParam.syms] at e ⊢
              exact e
    · intro hp
      exact arg .plain _ hp h

/-- **C35 (part that holds).** A text is recognized as a function with a parameter list exactly if it starts with an
optional `lambda`, a comma separated list of names and starred names (possibly with a trailing comma), and a colon. -/
theorem C35_partial (ss : List FSym) :
    (fparse ss).state = .end_ ↔ ∃ lam ps trailing body, ss = headerSyms lam ps trailing ++ body := by
  constructor
  · intro h
    have : (FParse.run {} ss).state = .end_ := by
      unfold fparse FParse.finish at h
      split at h
      · rename_i hne
        exact absurd h hne
      · exact h
    exact (run_end ss _ this).1 rfl
  · rintro ⟨lam, ps, trailing, body, rfl⟩
    rw [C35_header]

/-- Anything else is treated as an expression without parameters. -/
theorem C35_no_header (ss : List FSym) (h : (fparse ss).state ≠ .end_) (forAssignment : Bool) :
    exprPrefix forAssignment (fparse ss) = .thunk := by
  unfold fparse FParse.finish at h ⊢
  split at h
  · rename_i hne
    rw [if_pos hne]
    rfl
  · rename_i hne
    exact absurd (Classical.not_not.mp hne) h

/-- What the function of an expression is, in Python: the source, with `lambda` supplied if it is missing; and if
there is no header, `lambda:`. On assignment a function with parameters is returned rather than called. -/
theorem C35_prefix (lam : Bool) (ps : List FParam) (trailing : Bool) (body : List FSym) (forAssignment : Bool)
    (h : ps = [] ∨ .plain ∈ ps) :
    exprPrefix forAssignment (fparse (headerSyms lam ps trailing ++ body)) =
      (match lam, ps.isEmpty, forAssignment with
       | true, false, true => .thunk
       | true, _, _ => .none
       | false, false, true => .thunkLambda
       | false, _, _ => .lambda) := by
  rw [C35_header]
  rcases h with rfl | h
  · cases lam <;> cases forAssignment <;> rfl
  · have h1 : ps.any (· == .plain) = true := List.any_eq_true.mpr ⟨_, h, by simp⟩
    have h2 : ps.isEmpty = false := by cases ps <;> simp at h ⊢
    rw [h1, h2]
    cases lam <;> cases forAssignment <;> rfl

/-- False of the code: Python's `**kwargs` (the `**` is one token) and default values are not recognized, so that
`(x, **kw: ...)` and `(x, y=1: ...)` are taken for expressions without parameters. -/
theorem C35_false_kwargs : (fparse [.name, .comma, .other, .name, .colon, .name]).state = .noArgs ∧
    exprPrefix false (fparse [.name, .comma, .other, .name, .colon, .name]) = .thunk := ⟨rfl, rfl⟩

theorem C35_false_default : (fparse [.name, .comma, .name, .other, .other, .colon, .name]).state = .noArgs := rfl

/-- False of the code: a function all of whose parameters are starred, as in `f = (*a: ...)`, counts as having no
parameters, so that on assignment it is called (and its value assigned) instead of being assigned itself. -/
theorem C35_false_starred (body : List FSym) :
    (fparse (headerSyms false [.starred] false ++ body)).hasArgs = false ∧
    exprPrefix true (fparse (headerSyms false [.starred] false ++ body)) = .lambda ∧
    exprPrefix true (fparse (headerSyms false [.plain] false ++ body)) = .thunkLambda := by
  rw [C35_header, C35_header]
  exact ⟨rfl, rfl, rfl⟩

/-- Non-vacuity: `lambda x, *y: x + 1`. -/
example : headerSyms true [.plain, .starred] false ++ [.name, .other, .other] =
    [.lambda, .name, .comma, .star, .name, .colon, .name, .other, .other] := rfl
example : exprPrefix true (fparse [.lambda, .name, .comma, .star, .name, .colon, .name, .other, .other]) = .thunk := rfl

/-! ## C36 -/

/-- The line has something other than whitespace. -/
def NonBlank (line : Str) : Prop := ∃ c ∈ line, isspace c = false

/-- The line is continued on the next one. -/
def Continued (line : Str) : Prop := line.getLast? = some '\\'

/-- The line without its continuation mark. -/
def withoutMark (line : Str) : Str := if line.getLast? = some '\\' then line.dropLast else line

/-- How the (non-blank) lines of a script make up commands: each command is a possibly empty sequence of continued
lines and a line that is not continued (which may be missing at the end of the script), put together without the
continuation marks. Only a last command without any text is left out. -/
inductive Grouped : List Str → List Str → Prop
  | done : Grouped [] []
  | last (g : List Str) (h : ∀ l ∈ g, Continued l) (hne : g.flatMap withoutMark ≠ []) :
      Grouped g [g.flatMap withoutMark]
  | lastEmpty (g : List Str) (h : ∀ l ∈ g, Continued l) (he : g.flatMap withoutMark = []) : Grouped g []
  | command (g : List Str) (l : Str) (ls cmds : List Str) (h : ∀ x ∈ g, Continued x) (hl : ¬ Continued l)
      (hr : Grouped ls cmds) : Grouped (g ++ l :: ls) ((g.flatMap withoutMark ++ l) :: cmds)

/-- The lines of a script: what is between the newlines. -/
def IsLines (script : Str) (lines : List Str) : Prop :=
  lines ≠ [] ∧ (∀ l ∈ lines, '\n' ∉ l) ∧ List.intercalate ['\n'] lines = script

theorem intercalate_cons2 (sep x y : Str) (ys : List Str) :
    List.intercalate sep (x :: y :: ys) = x ++ sep ++ List.intercalate sep (y :: ys) := by
  simp [List.intercalate]

theorem splitLines_spec (cs : Str) : ∀ cur : Str, '\n' ∉ cur →
    splitLines cur cs ≠ [] ∧ (∀ l ∈ splitLines cur cs, '\n' ∉ l) ∧
    List.intercalate ['\n'] (splitLines cur cs) = cur ++ cs := by
  induction cs with
  | nil => intro cur h; simp [splitLines, h, List.intercalate]
  | cons c cs ih =>
    intro cur h
    by_cases hc : c = '\n'
    · subst hc
      obtain ⟨h1, h2, h3⟩ := ih [] (by simp)
      simp only [splitLines, if_true]
      refine ⟨by simp, ?_, ?_⟩
      · intro l hl
        simp at hl
        rcases hl with rfl | hl
        · exact h
        · exact h2 l hl
      · cases hs : splitLines [] cs with
        | nil => exact absurd hs h1
        | cons y ys =>
          rw [intercalate_cons2, ← hs, h3]
          simp
    · obtain ⟨h1, h2, h3⟩ := ih (cur ++ [c]) (by simp [h, Ne.symm hc])
      simp only [splitLines, hc, if_false]
      exact ⟨h1, h2, by rw [h3]; simp⟩

/-- There is only one way to split a text into lines, and it is the one the code uses. -/
theorem isLines_unique (script : Str) (lines : List Str) (h : IsLines script lines) : lines = splitLines [] script := by
  obtain ⟨h1, h2, rfl⟩ := h
  have key : ∀ (l cur : Str) (rest : Str), '\n' ∉ l → splitLines cur (l ++ rest) = splitLines (cur ++ l) rest := by
    intro l
    induction l with
    | nil => intro cur rest _; simp
    | cons c cs ih =>
      intro cur rest h
      simp at h
      simp only [List.cons_append, splitLines, Ne.symm h.1, if_false]
      rw [ih _ _ h.2]
      simp
  induction lines with
  | nil => exact absurd rfl h1
  | cons x xs ih =>
    cases xs with
    | nil =>
      have := key x [] [] (h2 x (by simp))
      simp only [List.append_nil, List.nil_append] at this
      simp [List.intercalate, this, splitLines]
    | cons y ys =>
      rw [intercalate_cons2, List.append_assoc, key x [] _ (h2 x (by simp))]
      simp only [List.nil_append, List.cons_append, splitLines, if_true]
      rw [← ih (by simp) (fun l hl => h2 l (by simp [hl]))]

instance (l : Str) : Decidable (NonBlank l) := by unfold NonBlank; infer_instance

theorem nonBlank_iff (l : Str) : l.any (fun c => !isspace c) = true ↔ NonBlank l := by
  simp [NonBlank]

theorem scriptCommands_grouped (lines : List Str) : ∀ g : List Str, (∀ l ∈ g, Continued l) →
    Grouped (g ++ lines.filter (fun l => NonBlank l)) (scriptCommands (g.flatMap withoutMark) lines) := by
  induction lines with
  | nil =>
    intro g hg
    simp only [scriptCommands, List.filter_nil, List.append_nil]
    split
    · rename_i h
      exact .last g hg (by intro e; rw [e] at h; simp at h)
    · rename_i h
      exact .lastEmpty g hg (List.length_eq_zero_iff.mp (by omega))
  | cons l ls ih =>
    intro g hg
    by_cases hb : NonBlank l
    · rw [scriptCommands, if_pos ((nonBlank_iff l).mpr hb), List.filter_cons_of_pos (by simpa using hb)]
      by_cases hc : l.getLast? = some '\\'
      · rw [if_pos hc]
        have := ih (g ++ [l]) (by
          intro x hx
          simp at hx
          rcases hx with hx | rfl
          · exact hg x hx
          · exact hc)
        simpa [withoutMark, hc] using this
      · rw [if_neg hc]
        exact .command g l _ _ hg hc (by simpa using ih [] (by simp))
    · have : ¬ (l.any (fun c => !isspace c) = true) := fun h => hb ((nonBlank_iff l).mp h)
      rw [scriptCommands, if_neg this, List.filter_cons_of_neg (by simpa using hb)]
      exact ih g hg

/-- **C36.** The commands of a script are its non-blank lines, grouped by continuation marks. -/
theorem C36_commands (script : Str) (lines : List Str) (h : IsLines script lines) :
    Grouped (lines.filter fun l => NonBlank l) (commandsInScript script) := by
  have := scriptCommands_grouped (splitLines [] script) [] (by simp)
  rw [← isLines_unique script lines h] at this
  unfold commandsInScript
  rw [← isLines_unique script lines h]
  simpa using this

/-- Every script has lines (so `C36_commands` applies to every script). -/
theorem C36_lines_exist (script : Str) : ∃ lines, IsLines script lines :=
  ⟨splitLines [] script, (splitLines_spec script [] (by simp)).1, (splitLines_spec script [] (by simp)).2.1,
    by simpa using (splitLines_spec script [] (by simp)).2.2⟩

theorem Grouped.lossless {lines cmds : List Str} (h : Grouped lines cmds) :
    cmds.flatten = lines.flatMap withoutMark := by
  induction h with
  | done => rfl
  | last g h hne => simp
  | lastEmpty g h he => simp [he]
  | command g l ls cmds h hl hr ih =>
    have hw : withoutMark l = l := by
      unfold withoutMark
      exact if_neg hl
    simp [ih, hw]

/-- The grouping is determined by the lines. -/
theorem Grouped.unique {lines c1 c2 : List Str} (h1 : Grouped lines c1) (h2 : Grouped lines c2) : c1 = c2 := by
  have split : ∀ (g g' : List Str) (l l' : Str) (ls ls' : List Str), (∀ x ∈ g, Continued x) → (∀ x ∈ g', Continued x) →
      ¬ Continued l → ¬ Continued l' → g ++ l :: ls = g' ++ l' :: ls' → g = g' ∧ l = l' ∧ ls = ls' := by
    intro g
    induction g with
    | nil =>
      intro g' l l' ls ls' _ hg' hl hl' e
      cases g' with
      | nil => simp at e; exact ⟨rfl, e.1, e.2⟩
      | cons x xs => simp at e; exact absurd (e.1 ▸ hg' x (by simp)) hl
    | cons y ys ih =>
      intro g' l l' ls ls' hg hg' hl hl' e
      cases g' with
      | nil => simp at e; exact absurd (e.1 ▸ hg y (by simp)) hl'
      | cons x xs =>
        simp at e
        obtain ⟨e1, e2⟩ := e
        obtain ⟨a, b, c⟩ := ih xs l l' ls ls' (fun z hz => hg z (by simp [hz])) (fun z hz => hg' z (by simp [hz])) hl hl' e2
        exact ⟨by rw [e1, a], b, c⟩
  have no : ∀ (g g' : List Str) (l : Str) (ls : List Str), (∀ x ∈ g', Continued x) → ¬ Continued l → g' = g ++ l :: ls → False := by
    intro g g' l ls h hl e
    exact hl (h l (by rw [e]; simp))
  induction h1 generalizing c2 with
  | done =>
    generalize e : ([] : List Str) = L at h2
    cases h2 with
    | done => rfl
    | last _ h hne => rw [← e] at hne; simp at hne
    | lastEmpty => exact e.symm
    | command => simp at e
  | last g h hne =>
    cases h2 with
    | done => simp at hne
    | last => rfl
    | lastEmpty _ _ he => exact absurd he hne
    | command g' l ls cmds h' hl hr => exact (no g' _ l ls h hl rfl).elim
  | lastEmpty g h he =>
    cases h2 with
    | done => rfl
    | last _ _ hne => exact absurd he hne
    | lastEmpty => rfl
    | command g' l ls cmds h' hl hr => exact (no g' _ l ls h hl rfl).elim
  | command g l ls cmds h hl hr ih =>
    generalize e : g ++ l :: ls = L at h2
    cases h2 with
    | done => simp at e
    | last _ h' _ => exact (no g _ l ls h' hl e.symm).elim
    | lastEmpty _ h' _ => exact (no g _ l ls h' hl e.symm).elim
    | command g' l' ls' cmds' h' hl' hr' =>
      obtain ⟨rfl, rfl, rfl⟩ := split g g' l l' ls ls' h h' hl hl' e
      rw [ih hr']

/-- No text is lost, duplicated or reordered: the commands put together are the non-blank lines put together, without
the continuation marks. -/
theorem C36_lossless (script : Str) (lines : List Str) (h : IsLines script lines) :
    (commandsInScript script).flatten = (lines.filter fun l => NonBlank l).flatMap withoutMark :=
  (C36_commands script lines h).lossless

/-- Commands written one per line (none of them blank or ending in a backslash) are read back. -/
theorem C36_roundtrip (cmds : List Str) (hne : cmds ≠ []) (h : ∀ c ∈ cmds, '\n' ∉ c ∧ NonBlank c ∧ ¬ Continued c) :
    commandsInScript (List.intercalate ['\n'] cmds) = cmds := by
  have hl : IsLines (List.intercalate ['\n'] cmds) cmds := ⟨hne, fun c hc => (h c hc).1, rfl⟩
  have h1 := C36_commands _ _ hl
  have hf : (cmds.filter fun l => NonBlank l) = cmds := List.filter_eq_self.mpr (fun c hc => by simpa using (h c hc).2.1)
  rw [hf] at h1
  have h2 : ∀ cs : List Str, (∀ c ∈ cs, ¬ Continued c) → Grouped cs cs := by
    intro cs
    induction cs with
    | nil => intro _; exact .done
    | cons c cs ih =>
      intro hc
      exact .command [] c cs cs (by simp) (hc c (by simp)) (ih fun d hd => hc d (by simp [hd]))
  exact h1.unique (h2 cmds fun c hc => (h c hc).2.2)

/-- Non-vacuity: three commands, one over two lines, with a blank line. -/
example : commandsInScript "a | b\n\nc \\\nd\ne".toList = ["a | b".toList, "c d".toList, "e".toList] := by
  have h : isspace 'a' = false ∧ isspace 'c' = false ∧ isspace 'd' = false ∧ isspace 'e' = false := by
    unfold isspace; decide
  simp [commandsInScript, splitLines, scriptCommands, h]

end Marcel
