import Verif.Spec.Syntax
import Verif.Props.C30_Words
import Verif.Props.C32_Exprs

/-! # Lexing written tokens -/

namespace Marcel

def PT.tok (shell : Bool) : PT → Tok
  | .word w => w.tok shell
  | .expr src => .expr src
  | .pipe => .pipe
  | .remote => .remote
  | .run b => .run b
  | .begin_ => .begin_
  | .end_ => .end_
  | .assign => .assign
  | .comma => .comma
  | .colon => .colon
  | .gt v a => .gt v a
  | .lt v => .lt v

/-- Possible in a command. -/
def PT.WF : PT → Prop
  | .word w => w.ShellWF
  | .expr src => ExprWF src
  | _ => True

/-- Possible outside the arguments of shell commands. -/
def PT.Strong : PT → Prop
  | .word w => w.WF
  | .expr src => ExprWF src
  | _ => True

theorem wordStart_of {c : Char} (h : c ∉ ['(', ')', '|', '@', '!', '=', ',', ':', '#', '>', '<']) :
    wordStart c = true := by
  simp only [List.mem_cons, List.not_mem_nil, or_false, not_or] at h
  simp [wordStart, h]

theorem Piece.WF.shell {p : Piece} (h : p.WF (wordEnd false)) (shell : Bool) : p.WF (wordEnd shell) := by
  cases shell with
  | false => exact h
  | true =>
    cases p with
    | plain c =>
      obtain ⟨h1, h2, h3⟩ := h
      refine ⟨h1, ?_, h3⟩
      simp [wordEnd] at h2 ⊢
      simp [h2]
    | escaped c => exact h
    | single s => exact h
    | double ds => exact h

theorem Piece.WF.weak {p : Piece} (h : p.WF (wordEnd false)) : p.WF (fun c => wordEnd true c || c == '#') := by
  cases p with
  | plain c =>
    obtain ⟨h1, h2, h3⟩ := h
    refine ⟨h1, ?_, h3⟩
    simp [wordEnd] at h2 ⊢
    simp [h2]
  | escaped c => exact h
  | single s => exact h
  | double ds => exact h

theorem Piece.WF.ofWeak {p : Piece} (h : p.WF (fun c => wordEnd true c || c == '#')) : p.WF (wordEnd true) := by
  cases p with
  | plain c =>
    obtain ⟨h1, h2, h3⟩ := h
    exact ⟨h1, (Bool.or_eq_false_iff.mp h2).1, h3⟩
  | escaped c => exact h
  | single s => exact h
  | double ds => exact h

theorem Word.WF.weak {w : Word} (h : w.WF) : w.ShellWF := ⟨fun p hp => (h.pieces p hp).weak, h.start, h.lit⟩

theorem Word.ArgWF.weak {w : Word} {shell : Bool} (h : w.ArgWF shell) : w.ShellWF := by
  cases shell with
  | true => exact h
  | false => exact Word.WF.weak h

theorem PT.Strong.weak {p : PT} (h : p.Strong) : p.WF := by
  cases p with
  | word w => exact Word.WF.weak h
  | expr src => exact h
  | _ => exact True.intro

theorem isspace_lparen : isspace '(' = false := by unfold isspace; decide
theorem isspace_symbol : ∀ c ∈ ['(', ')', '|', '@', '!', '=', ',', ':', '#', '>', '<', '$'], isspace c = false := by
  intro c hc
  simp only [List.mem_cons, List.not_mem_nil, or_false] at hc
  rcases hc with rfl | rfl | rfl | rfl | rfl | rfl | rfl | rfl | rfl | rfl | rfl | rfl <;> (unfold isspace; decide)

/-- Written tokens start with a non-blank character, which is not `)` or `#`. -/
theorem PT.text_head (p : PT) (h : p.WF) : ∃ c cs, p.text = c :: cs ∧ isspace c = false ∧ c ≠ ')' := by
  cases p with
  | word w => obtain ⟨c, cs, h1, h2, h3⟩ := h.start; exact ⟨c, cs, h1, h2, fun e => h3 (by simp [e])⟩
  | expr src => exact ⟨'(', src ++ [')'], rfl, isspace_lparen, by decide⟩
  | run b => cases b <;> exact ⟨_, _, rfl, isspace_symbol _ (by decide), by decide⟩
  | gt v a => cases v <;> cases a <;> exact ⟨_, _, rfl, isspace_symbol _ (by decide), by decide⟩
  | lt v => cases v <;> exact ⟨_, _, rfl, isspace_symbol _ (by decide), by decide⟩
  | _ => exact ⟨_, _, rfl, isspace_symbol _ (by decide), by decide⟩

theorem Word.lit_of {w : Word} (h : w.ShellWF) : StrLit.of w.kept = .ok w.lit ∧ w.lit.missingQuote = none := by
  obtain ⟨l, h1, h2⟩ := h.lit
  unfold Word.lit
  rw [h1]
  exact ⟨rfl, h2⟩

/-! ## Layouts -/

/-- The blanks after each token, by how many tokens come after it, and a comment at the end. -/
structure Layout where
  sp : Nat → Str
  tail : Str

structure Layout.OK (L : Layout) : Prop where
  blank : ∀ n, Blanks (L.sp n)
  tail : L.tail = [] ∨ ∃ cs, L.tail = '#' :: cs
  last : L.tail ≠ [] → L.sp 0 ≠ []

def Layout.text (L : Layout) : List PT → Str
  | [] => L.tail
  | p :: ps => p.text ++ (L.sp ps.length ++ L.text ps)

/-- Well-formed tokens that can be laid out in this way. -/
def Layout.Good (L : Layout) : List PT → Prop
  | [] => True
  | p :: ps => p.WF ∧ (L.sp ps.length = [] → ∀ q qs, ps = q :: qs → Tight p q) ∧ L.Good ps

theorem Layout.Good.wf {L : Layout} {ps : List PT} (h : L.Good ps) : ∀ p ∈ ps, p.WF := by
  induction ps with
  | nil => intro p hp; cases hp
  | cons q qs ih =>
    intro p hp
    rcases List.mem_cons.mp hp with rfl | hp
    · exact h.1
    · exact ih h.2.2 p hp

theorem Layout.Good.tail {L : Layout} {p : PT} {ps : List PT} (h : L.Good (p :: ps)) : L.Good ps := h.2.2

theorem Layout.Good.append {L : Layout} {ps qs : List PT} (h : L.Good (ps ++ qs)) : L.Good qs := by
  induction ps with
  | nil => exact h
  | cons p ps ih => exact ih h.2.2

theorem skipWs_append (s t : Str) (h : Blanks s) : skipWs (s ++ t) = skipWs t := by
  induction s with
  | nil => rfl
  | cons c cs ih =>
    unfold skipWs at ih ⊢
    rw [List.cons_append, List.dropWhile_cons, if_pos (h c (by simp))]
    exact ih (fun d hd => h d (by simp [hd]))

theorem skipWs_text {L : Layout} (hL : L.OK) (ps : List PT) (h : L.Good ps) : skipWs (L.text ps) = L.text ps := by
  cases ps with
  | nil =>
    show skipWs L.tail = L.tail
    rcases hL.tail with e | ⟨cs, e⟩ <;> rw [e]
    · rfl
    · exact skipWs_cons _ _ (isspace_symbol _ (by decide))
  | cons p ps =>
    obtain ⟨c, cs, h1, h2, _⟩ := p.text_head h.1
    rw [Layout.text, h1, List.cons_append, skipWs_cons _ _ h2]

theorem skipWs_gap {L : Layout} (hL : L.OK) (ps : List PT) (h : L.Good ps) : skipWs (L.sp ps.length ++ L.text ps) = L.text ps := by
  rw [skipWs_append _ _ (hL.blank _), skipWs_text hL ps h]

/-- What comes after a token: the end, a blank, or at once another one. -/
theorem gap_cases {L : Layout} (hL : L.OK) (p : PT) (ps : List PT) (h : L.Good (p :: ps)) (c : Char) (cs : Str)
    (e : L.sp ps.length ++ L.text ps = c :: cs) :
    isspace c = true ∨ ∃ q qs, ps = q :: qs ∧ L.sp ps.length = [] ∧ Tight p q ∧ q.text.head? = some c := by
  cases hs : L.sp ps.length with
  | cons d ds =>
    rw [hs] at e
    simp only [List.cons_append, List.cons.injEq] at e
    refine .inl ?_
    rw [← e.1]
    exact hL.blank _ d (by rw [hs]; simp)
  | nil =>
    rw [hs, List.nil_append] at e
    cases ps with
    | nil =>
      exfalso
      have h1 := hL.last (by intro h0; rw [show L.text [] = L.tail from rfl, h0] at e; cases e)
      exact h1 hs
    | cons q qs =>
      refine .inr ⟨q, qs, rfl, rfl, h.2.1 hs q qs rfl, ?_⟩
      obtain ⟨d, ds, h1, _⟩ := q.text_head h.2.2.1
      rw [Layout.text, h1] at e
      simp only [List.cons_append, List.cons.injEq] at e
      rw [h1, ← e.1]
      rfl

/-! ## One token -/

theorem lexHere_expr (shell : Bool) (src : Str) (h : ExprWF src) (rest : Str) :
    lexHere shell ('(' :: (src ++ ')' :: rest)) = .ok (some (.expr src, rest)) := by
  unfold lexHere
  have h1 : startsWith ['(', '|'] ('(' :: (src ++ ')' :: rest)) = false := by
    cases src with
    | nil => simp [startsWith, List.isPrefixOf]
    | cons c cs =>
      have := h.notBegin
      simp at this
      simp [startsWith, List.isPrefixOf, Ne.symm this]
  simp [h1, startsWith_ne, C32_matching src rest h.balanced, Except.map]

/-- A sequence of pieces up to a boundary. -/
theorem lexHere_pieces (shell : Bool) (w : Word) (hp : ∀ p ∈ w, p.WF (wordEnd shell)) (c : Char) (cs : Str) (hraw : w.raw = c :: cs)
    (hc : wordStart c = true) (lit : StrLit) (hl : StrLit.of w.kept = .ok lit) (rest : Str) (hr : Boundary (wordEnd shell) rest) :
    lexHere shell (w.raw ++ rest) = .ok (some (.str shell lit w.raw, rest)) := by
  have h := C31_word shell w hp rest hr
  have h1 : strToken shell (c :: cs ++ rest) = .ok (.str shell lit (c :: cs), rest) := by
    unfold strToken
    rw [← hraw]
    show (match strScan (termOf shell) .none (w.flatMap Piece.raw ++ rest) with | .error e => _ | .ok (chars, rest) => _) = _
    rw [h]
    simp only
    show (match StrLit.of w.kept with | .error e => _ | .ok lit => _) = _
    rw [hl]
    simp only [hraw]
    have : (c :: cs ++ rest).length - rest.length = (c :: cs).length := by simp; omega
    rw [this, List.take_left']
    rfl
  rw [hraw, List.cons_append, lexHere_word _ _ _ hc, ← List.cons_append, h1]
  rfl

/-- From the token at the beginning of the text to the token with what follows. -/
theorem nextToken_of_lexHere (shell : Bool) (t : Tok) (text X : Str) (hs : skipWs text = text)
    (h : lexHere shell text = .ok (some (t, X)))
    (hadj : ∀ c cs, X = c :: cs → isspace c = false → t.consolidatable = true →
      ∃ t' a r, lex1 shell (skipWs X) = .ok (some (t', a, r)) ∧ t'.consolidatable = false) :
    nextToken shell text = .ok (some (t, skipWs X)) := by
  unfold nextToken lex1
  rw [hs, h]
  cases X with
  | nil => simp
  | cons c cs =>
    simp only
    rcases Bool.eq_false_or_eq_true (isspace c) with hc | hc
    · simp [hc]
    · rcases Bool.eq_false_or_eq_true t.consolidatable with ht | ht
      case inr => simp [ht]
      case inl =>
        obtain ⟨t', a, r, h1, h2⟩ := hadj c cs rfl hc ht
        have hg : gatherAdjacent shell [t] (skipWs (c :: cs)) = .ok ([t], skipWs (c :: cs)) := by
          rw [gatherAdjacent.eq_def]
          split
          · rename_i e he; rw [h1] at he; cases he
          · rename_i he; rw [h1] at he; cases he
          · rename_i t'' a' r' he
            rw [h1] at he
            cases he
            rw [h2]
            rfl
        simp [hc, ht, hg]

/-- Every written token is read back, in marcel mode. -/
theorem lexHere_marcel {L : Layout} (hL : L.OK) (p : PT) (ps : List PT) (hg : L.Good (p :: ps)) (hp : p.Strong) :
    lexHere false (L.text (p :: ps)) = .ok (some (p.tok false, L.sp ps.length ++ L.text ps)) := by
  rw [Layout.text]
  have hX := gap_cases hL p ps hg
  have hg2 := hg.2.2
  generalize L.sp ps.length ++ L.text ps = X at hX
  -- what the next character is not
  have hne : ∀ d : Char, isspace d = false → (∀ q qs, ps = q :: qs → Tight p q → q.text.head? ≠ some d) → ∀ c cs, X = c :: cs → c ≠ d := by
    intro d hd hq c cs e hcd
    subst hcd
    rcases hX c cs e with h | ⟨q, qs, h1, _, h3, h4⟩
    · rw [hd] at h; cases h
    · exact hq q qs h1 h3 h4
  cases p with
  | word w =>
    obtain ⟨c, cs, h1, h2, h3⟩ := hp.start
    refine lexHere_pieces false w hp.pieces c cs h1 (wordStart_of h3) w.lit (Word.lit_of hp.weak).1 X ?_
    intro c cs e
    rcases hX c cs e with h | ⟨q, qs, h1, _, h3, h4⟩
    · exact .inl h
    · refine .inr ?_
      cases q with
      | word w => exact h3.elim
      | expr _ => exact h3.elim
      | remote => exact h3.elim
      | run _ => exact h3.elim
      | gt v a => cases v <;> cases a <;> (simp [PT.text] at h4; subst h4; decide)
      | lt v => cases v <;> (simp [PT.text] at h4; subst h4; decide)
      | _ => simp [PT.text] at h4; subst h4; decide
  | expr src =>
    have := lexHere_expr false src hp X
    simpa [PT.text, PT.tok] using this
  | pipe =>
    have h1 : startsWith ['|', ')'] ('|' :: X) = false := by
      cases X with
      | nil => rfl
      | cons c cs =>
        have := hne ')' (isspace_symbol _ (by decide)) (by
          intro q qs e _ h4
          obtain ⟨d, ds, e1, _, e2⟩ := q.text_head (hg2.wf q (by rw [e]; simp))
          rw [e1] at h4
          exact e2 (by simpa using h4)) c cs rfl
        simp [startsWith, List.isPrefixOf, Ne.symm this]
    simp [PT.text, PT.tok, lexHere, startsWith_ne, h1]
  | run b =>
    cases b with
    | true => simp [PT.text, PT.tok, lexHere, lexPunctuation, startsWith, List.isPrefixOf]
    | false =>
      have h1 : startsWith ['!'] X = false := by
        cases X with
        | nil => rfl
        | cons c cs =>
          have := hne '!' (isspace_symbol _ (by decide)) (by
            intro q qs e h3 h4
            cases q with
            | word w =>
              obtain ⟨d, ds, e1, _, e2⟩ := (hg2.wf _ (by rw [e]; simp) : PT.WF (.word w)).start
              simp only [PT.text] at h4
              rw [e1] at h4
              simp at h4
              subst h4
              exact e2 (by decide)
            | run _ => exact h3.elim
            | gt v a => cases v <;> cases a <;> simp [PT.text] at h4
            | lt v => cases v <;> simp [PT.text] at h4
            | _ => simp [PT.text] at h4) c cs rfl
          simp [startsWith, List.isPrefixOf, Ne.symm this]
      simp [PT.text, PT.tok, lexHere, lexPunctuation, startsWith_ne, h1]
  | gt v a =>
    have hgt : ∀ c cs, X = c :: cs → c ≠ '>' := hne '>' (isspace_symbol _ (by decide)) (by
      intro q qs e h3 h4
      cases q with
      | word w =>
        obtain ⟨d, ds, e1, _, e2⟩ := (hg2.wf _ (by rw [e]; simp) : PT.WF (.word w)).start
        simp only [PT.text] at h4
        rw [e1] at h4
        simp at h4
        subst h4
        exact e2 (by decide)
      | gt _ _ => exact h3.elim
      | run b => cases b <;> simp [PT.text] at h4
      | lt v => cases v <;> simp [PT.text] at h4
      | _ => simp [PT.text] at h4)
    have hdl : ∀ c cs, X = c :: cs → c ≠ '$' := hne '$' (isspace_symbol _ (by decide)) (by
      intro q qs e h3 h4
      cases q with
      | word w => exact h3 h4
      | gt _ _ => exact h3.elim
      | run b => cases b <;> simp [PT.text] at h4
      | lt v => cases v <;> simp [PT.text] at h4
      | _ => simp [PT.text] at h4)
    cases X with
    | nil =>
      cases v <;> cases a <;>
        simp [PT.text, PT.tok, lexHere, lexPunctuation, lexArrowOrString, startsWith, List.isPrefixOf]
    | cons c cs =>
      have h1 := hgt c cs rfl
      have h2 := hdl c cs rfl
      cases v <;> cases a <;>
        simp [PT.text, PT.tok, lexHere, lexPunctuation, lexArrowOrString, startsWith, List.isPrefixOf, Ne.symm h1, Ne.symm h2]
  | lt v =>
    have hdl : ∀ c cs, X = c :: cs → c ≠ '$' := hne '$' (isspace_symbol _ (by decide)) (by
      intro q qs e h3 h4
      cases q with
      | word w => exact h3 h4
      | gt v a => cases v <;> cases a <;> simp [PT.text] at h4
      | run b => cases b <;> simp [PT.text] at h4
      | lt v => cases v <;> simp [PT.text] at h4
      | _ => simp [PT.text] at h4)
    cases X with
    | nil => cases v <;> simp [PT.text, PT.tok, lexHere, lexPunctuation, lexArrowOrString, startsWith, List.isPrefixOf]
    | cons c cs =>
      have h2 := hdl c cs rfl
      cases v <;> simp [PT.text, PT.tok, lexHere, lexPunctuation, lexArrowOrString, startsWith, List.isPrefixOf, Ne.symm h2]
  | _ => simp [PT.text, PT.tok, lexHere, lexPunctuation, startsWith, List.isPrefixOf]

theorem lex1_marcel {L : Layout} (hL : L.OK) (p : PT) (ps : List PT) (hg : L.Good (p :: ps)) (hp : p.Strong) :
    ∃ a r, lex1 false (L.text (p :: ps)) = .ok (some (p.tok false, a, r)) := by
  unfold lex1
  rw [skipWs_text hL _ hg, lexHere_marcel hL p ps hg hp]
  exact ⟨_, _, rfl⟩

/-- A token that follows a word or an expression at once is neither. -/
theorem tight_symbol {p q : PT} (hp : (p.tok false).consolidatable = true) (h : Tight p q) :
    (∀ shell, (q.tok shell).consolidatable = false) ∧ q.Strong := by
  cases p with
  | word w => cases q <;> first | exact h.elim | exact ⟨fun _ => rfl, True.intro⟩
  | expr w => cases q <;> first | exact h.elim | exact ⟨fun _ => rfl, True.intro⟩
  | _ => cases hp

theorem nextToken_marcel {L : Layout} (hL : L.OK) (p : PT) (ps : List PT) (hg : L.Good (p :: ps)) (hp : p.Strong) :
    nextToken false (L.text (p :: ps)) = .ok (some (p.tok false, L.text ps)) := by
  have h := nextToken_of_lexHere false _ _ _ (skipWs_text hL _ hg) (lexHere_marcel hL p ps hg hp) (by
    intro c cs e hc ht
    rw [skipWs_gap hL ps hg.2.2]
    rcases gap_cases hL p ps hg c cs e with h | ⟨q, qs, rfl, _, h3, _⟩
    · rw [hc] at h; cases h
    · obtain ⟨h4, h5⟩ := tight_symbol ht h3
      obtain ⟨a, r, h6⟩ := lex1_marcel hL q qs hg.2.2 h5
      exact ⟨_, a, r, h6, h4 false⟩)
  rw [skipWs_gap hL ps hg.2.2] at h
  exact h

theorem nextToken_tail {L : Layout} (hL : L.OK) (shell : Bool) : nextToken shell (L.text []) = .ok none := by
  show nextToken shell L.tail = _
  unfold nextToken lex1
  rcases hL.tail with e | ⟨cs, e⟩ <;> rw [e]
  · rfl
  · rw [skipWs_cons _ _ (isspace_symbol _ (by decide))]
    simp [lexHere, lexPunctuation, startsWith, List.isPrefixOf]

theorem nextToken_text {L : Layout} (hL : L.OK) (ps : List PT) (h : L.Good ps) (hs : ∀ p qs, ps = p :: qs → p.Strong) :
    nextToken false (L.text ps) = .ok (match ps with | [] => none | p :: ps => some (p.tok false, L.text ps)) := by
  cases ps with
  | nil => exact nextToken_tail hL false
  | cons p ps => exact nextToken_marcel hL p ps h (hs p ps rfl)

/-! ## Shell mode -/

/-- What may follow an argument of a shell command. -/
def ShellNext : PT → Prop
  | .word _ | .expr _ | .pipe | .end_ | .gt _ _ => True
  | _ => False

/-- In shell mode `|`, `|)` and the output arrows are read as something that is neither a string nor an expression. -/
theorem lexHere_shell_stop {L : Layout} (hL : L.OK) (p : PT) (hp : p = .pipe ∨ p = .end_ ∨ ∃ v a, p = .gt v a) (ps : List PT)
    (hg : L.Good (p :: ps)) :
    ∃ t r, lexHere true (L.text (p :: ps)) = .ok (some (t, r)) ∧ t.isExpr = false ∧ t.isShellStr = false ∧ t.consolidatable = false := by
  rcases hp with rfl | rfl | ⟨v, a, rfl⟩
  · exact ⟨.pipe, _, by simp [Layout.text, PT.text, lexHere]; rfl, rfl, rfl, rfl⟩
  · exact ⟨.pipe, _, by simp [Layout.text, PT.text, lexHere]; rfl, rfl, rfl, rfl⟩
  · have h := lexHere_marcel hL (.gt v a) ps hg True.intro
    refine ⟨.gt v a, L.sp ps.length ++ L.text ps, ?_, rfl, rfl, rfl⟩
    rw [show PT.tok false (.gt v a) = .gt v a from rfl] at h
    rw [← h]
    cases v <;> cases a <;> simp [Layout.text, PT.text, lexHere, lexPunctuation, lexArrowOrString, startsWith_ne]

theorem nextToken_shell_stop {L : Layout} (hL : L.OK) (p : PT) (hp : p = .pipe ∨ p = .end_ ∨ ∃ v a, p = .gt v a) (ps : List PT)
    (hg : L.Good (p :: ps)) :
    ∃ t r, nextToken true (L.text (p :: ps)) = .ok (some (t, r)) ∧ t.isExpr = false ∧ t.isShellStr = false := by
  obtain ⟨t, r, h1, h2, h3, h4⟩ := lexHere_shell_stop hL p hp ps hg
  exact ⟨t, skipWs r, nextToken_of_lexHere true t _ r (skipWs_text hL _ hg) h1 (by intro c cs _ _ h; rw [h4] at h; cases h), h2, h3⟩

/-- Reading a word or expression in shell mode. -/
theorem nextToken_shell_of {L : Layout} (hL : L.OK) (p : PT) (ps : List PT) (hg : L.Good (p :: ps))
    (hn : ∀ q qs, ps = q :: qs → ShellNext q) (t : Tok) (hp : (p.tok false).consolidatable = true)
    (h : lexHere true (L.text (p :: ps)) = .ok (some (t, L.sp ps.length ++ L.text ps))) :
    nextToken true (L.text (p :: ps)) = .ok (some (t, L.text ps)) := by
  have h := nextToken_of_lexHere true _ _ _ (skipWs_text hL _ hg) h (by
    intro c cs e hc _
    rw [skipWs_gap hL ps hg.2.2]
    rcases gap_cases hL p ps hg c cs e with h | ⟨q, qs, rfl, _, h3, _⟩
    · rw [hc] at h; cases h
    · obtain ⟨h4, h5⟩ := tight_symbol hp h3
      have hstop : q = .pipe ∨ q = .end_ ∨ ∃ v a, q = .gt v a := by
        have := hn q qs rfl
        have h4 := h4 true
        cases q with
        | word w => cases h4
        | expr w => cases h4
        | pipe => exact .inl rfl
        | end_ => exact .inr (.inl rfl)
        | gt v a => exact .inr (.inr ⟨v, a, rfl⟩)
        | _ => exact this.elim
      obtain ⟨t', r, h6, _, _, h7⟩ := lexHere_shell_stop hL q hstop qs hg.2.2
      have h8 : ∃ a r', lex1 true (L.text (q :: qs)) = .ok (some (t', a, r')) := by
        unfold lex1
        rw [skipWs_text hL _ hg.2.2, h6]
        exact ⟨_, _, rfl⟩
      obtain ⟨a, r', h8⟩ := h8
      exact ⟨t', a, r', h8, h7⟩)
  rw [skipWs_gap hL ps hg.2.2] at h
  exact h

theorem nextToken_shell_word {L : Layout} (hL : L.OK) (w : Word) (ps : List PT) (hg : L.Good (.word w :: ps))
    (hn : ∀ q qs, ps = q :: qs → ShellNext q) :
    nextToken true (L.text (.word w :: ps)) = .ok (some (w.tok true, L.text ps)) := by
  refine nextToken_shell_of hL _ ps hg hn _ rfl ?_
  have hw : w.ShellWF := hg.1
  obtain ⟨c, cs, h1, h2, h3⟩ := hw.start
  refine lexHere_pieces true w (fun p hp => (hw.pieces p hp).ofWeak) c cs h1 (wordStart_of h3) w.lit (Word.lit_of hw).1 _ ?_
  intro c cs e
  rcases gap_cases hL _ ps hg c cs e with h | ⟨q, qs, h1, _, h3, h4⟩
  · exact .inl h
  · refine .inr ?_
    have := hn q qs h1
    cases q with
    | word w => exact h3.elim
    | expr _ => exact h3.elim
    | pipe => simp [PT.text] at h4; subst h4; decide
    | end_ => simp [PT.text] at h4; subst h4; decide
    | gt v a => cases v <;> cases a <;> (simp [PT.text] at h4; subst h4; decide)
    | _ => exact this.elim

theorem nextToken_shell_expr {L : Layout} (hL : L.OK) (src : Str) (ps : List PT) (hg : L.Good (.expr src :: ps))
    (hn : ∀ q qs, ps = q :: qs → ShellNext q) :
    nextToken true (L.text (.expr src :: ps)) = .ok (some (.expr src, L.text ps)) := by
  refine nextToken_shell_of hL _ ps hg hn _ rfl ?_
  have := lexHere_expr true src hg.1 (L.sp ps.length ++ L.text ps)
  simpa [Layout.text, PT.text] using this

/-! ## A word of a shell command, seen in marcel mode -/

theorem unescapeLit_append (x y a : Str) (h : unescapeLit x = .ok a) : unescapeLit (x ++ y) = (unescapeLit y).map (a ++ ·) := by
  fun_induction unescapeLit x generalizing a with
  | case1 =>
    cases h
    cases hy : unescapeLit y <;> simp [hy, Except.map]
  | case2 => cases h
  | case3 d cs' ih =>
    obtain ⟨b, h1, h2⟩ := map_eq_ok h
    subst h2
    rw [List.cons_append, List.cons_append, unescapeLit.eq_def]
    simp only [if_true]
    rw [ih b h1]
    cases unescapeLit y <;> simp [Except.map]
  | case4 c cs hc ih =>
    obtain ⟨b, h1, h2⟩ := map_eq_ok h
    subst h2
    rw [List.cons_append, unescapeLit.eq_def]
    simp only [if_neg hc]
    rw [ih b h1]
    cases unescapeLit y <;> simp [Except.map]

theorem unescapeLit_last (x : Str) (c : Char) (hc : c ≠ '\\') : ∃ a, unescapeLit (x ++ [c]) = .ok a := by
  suffices h : ∀ n (x : Str), x.length ≤ n → ∃ a, unescapeLit (x ++ [c]) = .ok a from h x.length x (Nat.le_refl _)
  intro n
  induction n with
  | zero =>
    intro x hx
    have : x = [] := List.length_eq_zero_iff.mp (by omega)
    subst this
    exact ⟨[c], by simp [unescapeLit, hc, Except.map]⟩
  | succ n ih =>
    intro x hx
    match x with
    | [] => exact ih [] (by simp)
    | [d] =>
      by_cases hd : d = '\\'
      · exact ⟨[c], by simp [unescapeLit, hd, Except.map]⟩
      · exact ⟨[d, c], by simp [unescapeLit, hd, hc, Except.map]⟩
    | d :: d' :: ds =>
      simp only [List.length_cons] at hx
      by_cases hd : d = '\\'
      · obtain ⟨a, h⟩ := ih ds (by omega)
        refine ⟨d' :: a, ?_⟩
        simp only [List.cons_append]
        rw [unescapeLit.eq_def]
        simp only [if_pos hd]
        rw [h]
        rfl
      · obtain ⟨a, h⟩ := ih (d' :: ds) (by simp; omega)
        refine ⟨d :: a, ?_⟩
        simp only [List.cons_append] at h ⊢
        rw [unescapeLit.eq_def]
        simp only [if_neg hd]
        rw [h]
        rfl

/-- No sequence of pieces ends in a lone escape. -/
theorem unescapeLit_pieces (n : Nat) : ∀ (w : Word), w.length = n → (∀ p ∈ w, p.WF (wordEnd false)) → ∃ a, unescapeLit w.kept = .ok a := by
  induction n with
  | zero =>
    intro w hw _
    have : w = [] := List.length_eq_zero_iff.mp hw
    subst this
    exact ⟨[], unescapeLit_nil⟩
  | succ n ih =>
    intro w hw hp
    have hne : w ≠ [] := by intro e; rw [e] at hw; cases hw
    obtain ⟨v, p, rfl⟩ : ∃ v p, w = v ++ [p] := ⟨w.dropLast, w.getLast hne, (List.dropLast_concat_getLast hne).symm⟩
    have hkept : Word.kept (v ++ [p]) = Word.kept v ++ p.kept := by simp [Word.kept]
    have hpp := hp p (by simp)
    rw [hkept]
    cases p with
    | plain c => exact unescapeLit_last _ c hpp.2.2.2.2
    | single s =>
      have : Piece.kept (.single s) = ('\'' :: s) ++ ['\''] := rfl
      rw [this, ← List.append_assoc]
      exact unescapeLit_last _ _ (by decide)
    | double ds =>
      have : Piece.kept (.double ds) = ('"' :: ds.flatMap DItem.kept) ++ ['"'] := rfl
      rw [this, ← List.append_assoc]
      exact unescapeLit_last _ _ (by decide)
    | escaped c =>
      by_cases hc : c = '\\'
      · obtain ⟨a, h⟩ := ih v (by simpa using hw) (fun q hq => hp q (by simp [hq]))
        rw [unescapeLit_append _ _ _ h, hc]
        exact ⟨a ++ ['\\'], by simp [Piece.kept, unescapeLit, Except.map]⟩
      · have : Piece.kept (.escaped c) = ['\\'] ++ [c] := rfl
        rw [this, ← List.append_assoc]
        exact unescapeLit_last _ c hc

theorem StrLit.of_pieces (w : Word) (hne : w.kept ≠ []) (hp : ∀ p ∈ w, p.WF (wordEnd false)) : ∃ l, StrLit.of w.kept = .ok l := by
  obtain ⟨a, h⟩ := unescapeLit_pieces _ w rfl hp
  cases hk : w.kept with
  | nil => exact absurd hk hne
  | cons c cs =>
    unfold StrLit.of
    simp only
    split
    · exact ⟨_, rfl⟩
    · rw [← hk, h]
      exact ⟨_, rfl⟩

theorem weak_split (w : Word) (hp : ∀ p ∈ w, p.WF (fun c => wordEnd true c || c == '#')) :
    (∀ p ∈ w, p.WF (wordEnd false)) ∨
    ∃ w1 c w2, w = w1 ++ .plain c :: w2 ∧ (∀ p ∈ w1, p.WF (wordEnd false)) ∧ (c = '=' ∨ c = ',' ∨ c = ':') := by
  induction w with
  | nil => exact .inl (by simp)
  | cons p w ih =>
    by_cases h : ∃ c, p = .plain c ∧ (c = '=' ∨ c = ',' ∨ c = ':')
    · obtain ⟨c, rfl, hc⟩ := h
      exact .inr ⟨[], c, w, rfl, by simp, hc⟩
    · have hpp : p.WF (wordEnd false) := by
        have h1 := hp p (by simp)
        cases p with
        | plain c =>
          obtain ⟨h2, h3, h4⟩ := h1
          refine ⟨h2, ?_, h4⟩
          have h5 : ¬ (c = '=' ∨ c = ',' ∨ c = ':') := fun hc => h ⟨c, rfl, hc⟩
          simp [wordEnd] at h3 ⊢
          simp only [not_or] at h5
          refine ⟨h3.1.1, h3.1.2.1, h3.1.2.2.1, h3.1.2.2.2.1, h3.1.2.2.2.2, ?_⟩
          exact ⟨h5.1, h3.2, h5.2.1, h5.2.2⟩
        | escaped c => exact h1
        | single s => exact h1
        | double ds => exact h1
      rcases ih (fun q hq => hp q (by simp [hq])) with h' | ⟨w1, c, w2, rfl, h2, h3⟩
      · refine .inl ?_
        intro q hq
        rcases List.mem_cons.mp hq with rfl | hq
        · exact hpp
        · exact h' q hq
      · refine .inr ⟨p :: w1, c, w2, rfl, ?_, h3⟩
        intro q hq
        rcases List.mem_cons.mp hq with rfl | hq
        · exact hpp
        · exact h2 q hq

/-- Whatever comes next in a command, it is a token also in marcel mode, and a word is a string. -/
theorem nextToken_weak {L : Layout} (hL : L.OK) (p : PT) (ps : List PT) (hg : L.Good (p :: ps)) :
    ∃ t r, nextToken false (L.text (p :: ps)) = .ok (some (t, r)) ∧ (t = p.tok false ∨ ((∃ w, p = .word w) ∧ t.isStr = true)) := by
  by_cases hp : p.Strong
  · exact ⟨_, _, nextToken_marcel hL p ps hg hp, .inl rfl⟩
  · cases p with
    | word w =>
      have hw : w.ShellWF := hg.1
      obtain ⟨c, cs, h1, h2, h3⟩ := hw.start
      rcases weak_split w hw.pieces with h | ⟨w1, d, w2, rfl, h4, h5⟩
      · exact absurd ⟨h, hw.start, hw.lit⟩ hp
      · have hraw : Word.raw (w1 ++ .plain d :: w2) = Word.raw w1 ++ d :: Word.raw w2 := by simp [Word.raw, Piece.raw]
        have hd : isspace d = false := by rcases h5 with rfl | rfl | rfl <;> exact isspace_symbol _ (by decide)
        obtain ⟨cs1, e1⟩ : ∃ cs1, Word.raw w1 = c :: cs1 := by
          cases hr : Word.raw w1 with
          | nil =>
            rw [hraw, hr] at h1
            simp only [List.nil_append, List.cons.injEq] at h1
            exfalso
            apply h3
            rw [← h1.1]
            rcases h5 with rfl | rfl | rfl <;> decide
          | cons c' cs' =>
            rw [hraw, hr] at h1
            simp only [List.cons_append, List.cons.injEq] at h1
            exact ⟨cs', by rw [h1.1]⟩
        have hk : Word.kept w1 ≠ [] := by
          cases w1 with
          | nil => cases e1
          | cons q qs =>
            intro e
            have hq : q.kept = [] := by
              simp only [Word.kept, List.flatMap_cons, List.append_eq_nil_iff] at e
              exact e.1
            cases q <;> cases hq
        obtain ⟨l, hl⟩ := StrLit.of_pieces w1 hk h4
        have htext : L.text (.word (w1 ++ .plain d :: w2) :: ps) = Word.raw w1 ++ d :: (Word.raw w2 ++ (L.sp ps.length ++ L.text ps)) := by
          simp [Layout.text, PT.text, hraw]
        have hlex := lexHere_pieces false w1 h4 c cs1 e1 (wordStart_of h3) l hl (d :: (Word.raw w2 ++ (L.sp ps.length ++ L.text ps))) (by
          intro c' cs' e
          cases e
          refine .inr ?_
          rcases h5 with rfl | rfl | rfl <;> decide)
        rw [← htext] at hlex
        refine ⟨_, _, nextToken_of_lexHere false _ _ _ (skipWs_text hL _ hg) hlex ?_, .inr ⟨⟨_, rfl⟩, rfl⟩⟩
        intro c' cs' e _ _
        cases e
        rw [skipWs_cons _ _ hd]
        unfold lex1
        rw [skipWs_cons _ _ hd]
        rcases h5 with rfl | rfl | rfl
        · exact ⟨.assign, _, _, by simp [lexHere, lexPunctuation, startsWith_ne]; exact ⟨rfl, rfl⟩, rfl⟩
        · exact ⟨.comma, _, _, by simp [lexHere, lexPunctuation, startsWith_ne]; exact ⟨rfl, rfl⟩, rfl⟩
        · exact ⟨.colon, _, _, by simp [lexHere, lexPunctuation, startsWith_ne]; exact ⟨rfl, rfl⟩, rfl⟩
    | expr src => exact absurd hg.1 hp
    | _ => exact absurd True.intro hp

/-! ## Lists of written tokens in marcel mode -/

/-- `next_token` with one expected type. -/
theorem expect1 {L : Layout} (hL : L.OK) (q : Tok → Bool) (ps : List PT) (h : L.Good ps) (hs : ∀ p qs, ps = p :: qs → p.Strong) :
    expect false [q] (L.text ps) = .ok (match ps with
      | [] => none
      | p :: ps => if q (p.tok false) then some (p.tok false, L.text ps) else none) := by
  unfold expect
  have hn := nextToken_text hL ps h hs
  rw [show [q].length = 0 + 1 from rfl, peekN, hn]
  cases ps with
  | nil => rfl
  | cons p ps =>
    show (if typesMatch [q] [p.tok false] then _ else _) = _
    simp only [typesMatch, Bool.and_true]
    split <;> rfl

/-- A type that does not distinguish strings. -/
def Uniform (r : Tok → Bool) : Prop := ∀ t t' : Tok, t.isStr = true → t'.isStr = true → r t = r t'

/-- `next_token` with two expected types. -/
theorem expect2 {L : Layout} (hL : L.OK) (q r : Tok → Bool) (hr : Uniform r) (ps : List PT) (h : L.Good ps)
    (hs : ∀ p qs, ps = p :: qs → p.Strong) :
    expect false [q, r] (L.text ps) = .ok (match ps with
      | p :: p' :: ps =>
        if q (p.tok false) && r (p'.tok false) then some (p.tok false, L.text (p' :: ps)) else none
      | _ => none) := by
  unfold expect
  have hn := nextToken_text hL ps h hs
  rw [show [q, r].length = 0 + 1 + 1 from rfl, peekN, hn]
  match ps, h with
  | [], _ => rfl
  | [p], _ =>
    show ((peekN false 1 (L.text []) >>= _) >>= _) = _
    rw [peekN, nextToken_tail hL]
    rfl
  | p :: p' :: ps, h =>
    show ((peekN false (0 + 1) (L.text (p' :: ps)) >>= _) >>= _) = _
    obtain ⟨t, rest, h1, h2⟩ := nextToken_weak hL p' ps h.2.2
    rw [peekN, h1]
    show (if typesMatch [q, r] [p.tok false, t] then _ else _) = _
    have : r t = r (p'.tok false) := by
      rcases h2 with rfl | ⟨⟨w, rfl⟩, h2⟩
      · rfl
      · exact hr _ _ h2 rfl
    simp only [typesMatch, Bool.and_true, this]
    split <;> rfl

end Marcel
