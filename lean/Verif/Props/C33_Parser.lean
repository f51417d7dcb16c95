import Verif.Lemmas.ParserFuel
import Verif.Lemmas.ParserRT

/-! # C33: parsing inverts printing; C34: redirections

`SCmd`, `SCmd.text`, `SCmd.meaning`, `SCmd.WF` are in `Verif.Spec.Syntax`. -/

namespace Marcel

/-- The parser terminates on every text: it returns a command or an error of the code's own, never the model's
artificial "bound too small". -/
theorem C33_terminates (isShell : Str → Bool) (text : Str) : parse isShell text ≠ .error .outOfFuel := by
  intro h
  have := parse_NF isShell text
  rw [h] at this
  exact this rfl

/-! ## Leading blanks -/

theorem lex1_lead (shell : Bool) (s t : Str) (h : Blanks s) : lex1 shell (s ++ t) = lex1 shell t := by
  unfold lex1
  rw [skipWs_append s t h]

theorem nextToken_lead (shell : Bool) (s t : Str) (h : Blanks s) : nextToken shell (s ++ t) = nextToken shell t := by
  unfold nextToken
  rw [lex1_lead shell s t h]

theorem peekN_lead (shell : Bool) (n : Nat) (s t : Str) (h : Blanks s) : peekN shell (n + 1) (s ++ t) = peekN shell (n + 1) t := by
  unfold peekN
  rw [nextToken_lead shell s t h]

theorem expect_lead (shell : Bool) (q : Tok → Bool) (qs : List (Tok → Bool)) (s t : Str) (h : Blanks s) :
    expect shell (q :: qs) (s ++ t) = expect shell (q :: qs) t := by
  unfold expect
  rw [List.length_cons, peekN_lead shell _ s t h, nextToken_lead shell s t h]

theorem pOp_lead (s t : Str) (h : Blanks s) : pOp (s ++ t) = pOp t := by
  unfold pOp
  rw [expect_lead _ _ _ s t h, expect_lead _ _ _ s t h, expect_lead _ _ _ s t h]

theorem pOpArgs_lead (isShell : Str → Bool) (fuel : Nat) (s t : Str) (h : Blanks s) : pOpArgs isShell fuel (s ++ t) = pOpArgs isShell fuel t := by
  rw [pOpArgs.eq_def, pOpArgs.eq_def]
  cases fuel with
  | zero => rfl
  | succ n =>
    simp only
    rw [expect_lead _ _ _ s t h, pOp_lead s t h]

theorem pOpSeq_lead (isShell : Str → Bool) (fuel : Nat) (s t : Str) (h : Blanks s) : pOpSeq isShell fuel (s ++ t) = pOpSeq isShell fuel t := by
  rw [pOpSeq.eq_def, pOpSeq.eq_def isShell fuel t]
  cases fuel with
  | zero => rfl
  | succ n =>
    simp only
    rw [pOpArgs_lead _ _ s t h]

theorem pPipelineOps_lead (isShell : Str → Bool) (fuel : Nat) (s t : Str) (h : Blanks s) :
    pPipelineOps isShell fuel (s ++ t) = pPipelineOps isShell fuel t := by
  rw [pPipelineOps.eq_def, pPipelineOps.eq_def isShell fuel t]
  cases fuel with
  | zero => rfl
  | succ n =>
    simp only
    rw [expect_lead _ _ _ s t h, expect_lead _ _ _ s t h, pOpSeq_lead _ _ s t h]

theorem pPipeline_lead (isShell : Str → Bool) (fuel : Nat) (s t : Str) (h : Blanks s) :
    pPipeline isShell fuel (s ++ t) = pPipeline isShell fuel t := by
  rw [pPipeline.eq_def, pPipeline.eq_def isShell fuel t]
  cases fuel with
  | zero => rfl
  | succ n =>
    simp only
    rw [expect_lead _ _ _ s t h, expect_lead _ _ _ s t h]
    refine congrArg _ (funext fun first => ?_)
    cases first with
    | some x => rfl
    | none =>
      show (pPipelineOps isShell n (s ++ t) >>= _) = (pPipelineOps isShell n t >>= _)
      rw [pPipelineOps_lead _ _ s t h]

theorem pCommand_lead (isShell : Str → Bool) (fuel : Nat) (s t : Str) (h : Blanks s) :
    pCommand isShell fuel (s ++ t) = pCommand isShell fuel t := by
  unfold pCommand
  rw [expect_lead _ _ _ s t h, pPipeline_lead _ _ s t h]

/-! ## Layouts of written tokens -/

theorem Layout.text_congr (L M : Layout) (ht : L.tail = M.tail) : ∀ (ps : List PT), (∀ n, n < ps.length → L.sp n = M.sp n) → L.text ps = M.text ps
  | [], _ => ht
  | p :: ps, h => by
    simp only [Layout.text]
    rw [h ps.length (by simp), Layout.text_congr L M ht ps (fun n hn => h n (by simp; omega))]

theorem Layout.good_congr (L M : Layout) : ∀ (ps : List PT), (∀ n, n < ps.length → L.sp n = M.sp n) → L.Good ps → M.Good ps
  | [], _, _ => True.intro
  | p :: ps, h, hg => by
    refine ⟨hg.1, ?_, Layout.good_congr L M ps (fun n hn => h n (by simp; omega)) hg.2.2⟩
    rw [← h ps.length (by simp)]
    exact hg.2.1

/-- However the tokens are written, that is a layout of them. -/
theorem Written.layout {ps : List PT} {text : Str} (h : Written ps text) (hwf : ∀ p ∈ ps, p.WF) :
    ∃ L : Layout, L.OK ∧ L.text ps = text ∧ L.Good ps := by
  induction h with
  | last p s he =>
    cases he with
    | blanks s hs =>
      exact ⟨⟨fun _ => s, []⟩, ⟨fun _ => hs, .inl rfl, fun h => absurd rfl h⟩, by simp [Layout.text],
        hwf p (by simp), (by intro _ q qs e; cases e), True.intro⟩
    | comment s cs hs hne =>
      exact ⟨⟨fun _ => s, '#' :: cs⟩, ⟨fun _ => hs, .inr ⟨_, rfl⟩, fun _ => hne⟩, by simp [Layout.text],
        hwf p (by simp), (by intro _ q qs e; cases e), True.intro⟩
  | cons p q ps s text hs ht _ ih =>
    obtain ⟨L, h1, h2, h3⟩ := ih (fun r hr => hwf r (List.mem_cons_of_mem _ hr))
    let M : Layout := ⟨fun n => if n = (q :: ps).length then s else L.sp n, L.tail⟩
    have hM : ∀ n, n < (q :: ps).length → L.sp n = M.sp n := by
      intro n hn
      show _ = if n = (q :: ps).length then s else L.sp n
      rw [if_neg (by omega)]
    have hs' : M.sp (q :: ps).length = s := if_pos rfl
    refine ⟨M, ⟨?_, h1.tail, ?_⟩, ?_, ?_⟩
    · intro n
      show Blanks (if n = (q :: ps).length then s else L.sp n)
      split
      · exact hs
      · exact h1.blank n
    · intro hne
      rw [← hM 0 (by simp)]
      exact h1.last hne
    · rw [← h2, Layout.text, hs', Layout.text_congr L M rfl (q :: ps) hM]
    · refine ⟨hwf p (by simp), ?_, Layout.good_congr L M (q :: ps) hM h3⟩
      rw [hs']
      intro e q' qs' e'
      cases e'
      exact ht e

theorem Layout.length_le (L : Layout) (ps : List PT) (h : ∀ p ∈ ps, p.WF) : ps.length ≤ (L.text ps).length := by
  induction ps with
  | nil => simp
  | cons p ps ih =>
    obtain ⟨c, cs, e, _⟩ := p.text_head (h p (by simp))
    have := ih (fun q hq => h q (by simp [hq]))
    simp only [List.length_cons, Layout.text, e, List.length_append]
    omega

theorem SCmd.toks_wf (isShell : Str → Bool) (c : SCmd) (h : c.WF isShell) : ∀ p ∈ c.toks, p.WF := by
  cases c with
  | assign w a =>
    intro p hp
    simp only [SCmd.toks, List.mem_cons] at hp
    rcases hp with rfl | rfl | hp
    · exact h.1.weak
    · exact True.intro
    · exact SArg.toks_wf isShell false a h.2 p hp
  | pipeline p => exact SPipe.toks_wf isShell p h

theorem SCmd.toks_ne (isShell : Str → Bool) (c : SCmd) (h : c.WF isShell) : c.toks ≠ [] := by
  cases c with
  | assign w a => simp [SCmd.toks]
  | pipeline p =>
    obtain ⟨params, inp, ops, out⟩ := p
    obtain ⟨_, _, _, _, hne⟩ := h
    intro e
    simp only [SCmd.toks, SPipe.toks, List.append_eq_nil_iff] at e
    obtain ⟨_, e1, e2, e3⟩ := e
    cases inp with
    | some x => simp [inpToks] at e1
    | none =>
      cases out with
      | some x => simp [outToks] at e3
      | none =>
        cases ops with
        | nil => simp at hne
        | cons o os =>
          cases o <;> simp [opsToks, SOp.toks] at e2

section
variable {L : Layout} (hL : L.OK)
include hL

theorem SPipe.not_assign (isShell : Str → Bool) (p : SPipe) (h : p.WF isShell) (rest : List PT) (hr : Ends rest)
    (hall : L.Good (p.toks ++ rest)) :
    expect false [Tok.isStr, Tok.isAssign] (L.text (p.toks ++ rest)) = .ok none := by
  obtain ⟨params, inp, ops, out⟩ := p
  obtain ⟨hpar, hin, hops, hout, hne⟩ := h
  have hs := (outStops (out := out) hr).1
  simp only [SPipe.toks, List.append_assoc] at hall ⊢
  cases params with
  | nil =>
    simp only [paramToks, List.nil_append] at hall ⊢
    cases inp with
    | none =>
      exact expect2_follow hL _ _ uniform_assign (fun _ h => h) _ hall (opsToks_strong ops hops (outToks out ++ rest) hs)
        (follow_ops ops out rest hr) (by intro p hp; cases p <;> first | rfl | exact hp.elim)
    | some x =>
      rw [expect2 hL _ _ uniform_assign _ hall (HeadStrong.cons (show PT.Strong (.word x.2) from hin x.1 x.2 rfl) _)]
      simp [inpToks, PT.tok, Tok.isAssign]
  | cons w ws =>
    have hw : PT.Strong (.word w) := hpar w (by simp)
    cases ws with
    | nil =>
      rw [expect2 hL _ _ uniform_assign _ hall (HeadStrong.cons hw _)]
      simp [paramToks, PT.tok, Tok.isAssign]
    | cons w' ws =>
      rw [expect2 hL _ _ uniform_assign _ hall (HeadStrong.cons hw _)]
      simp [paramToks, PT.tok, Tok.isAssign]

/-- The parser on a written command followed by text that cannot continue it. -/
theorem parse_written (isShell : Str → Bool) (c : SCmd) (h : c.WF isShell) (rest : List PT) (hr : Ends rest)
    (hall : L.Good (c.toks ++ rest)) (s : Str) (hs : Blanks s) :
    parse isShell (s ++ L.text (c.toks ++ rest)) =
      (if rest.isEmpty then .ok (c.meaning isShell) else .error .excessTokens) := by
  have hlen := L.length_le _ hall.wf
  have hfuel : parseFuel (L.text (c.toks ++ rest)) ≤ parseFuel (s ++ L.text (c.toks ++ rest)) := by
    unfold parseFuel; simp only [List.length_append]; omega
  have hrest : L.Good rest := hall.append
  unfold parse
  rw [nextToken_lead _ _ _ hs, pCommand_lead _ _ _ _ hs]
  obtain ⟨t, ts, e⟩ : ∃ t ts, c.toks = t :: ts := by
    cases ht : c.toks with
    | nil => exact absurd ht (SCmd.toks_ne isShell c h)
    | cons t ts => exact ⟨t, ts, rfl⟩
  have key : pCommand isShell (parseFuel (s ++ L.text (c.toks ++ rest))) (L.text (c.toks ++ rest)) =
      (if rest.isEmpty then .ok (c.meaning isShell) else .error .excessTokens) := by
    unfold pCommand
    cases c with
    | assign w a =>
      obtain ⟨hw, ha⟩ := h
      simp only [SCmd.toks, List.cons_append] at hall hlen hfuel ⊢
      rw [expect2 hL _ _ uniform_assign _ hall (HeadStrong.cons (show PT.Strong (.word w) from hw) _)]
      simp only [PT.tok, Tok.isAssign, Word.tok, Tok.isStr, Bool.and_self, if_true, ok_bind]
      unfold pAssignment
      rw [expect1 hL _ _ hall.tail (HeadStrong.of_true (by exact True.intro))]
      simp only [PT.tok, Tok.isAssign, if_true, ok_bind]
      rw [(rt hL isShell _).arg false a rest ha (by intro h; cases h) (by intro h; cases h) hall.tail.tail (by
        unfold parseFuel at hfuel ⊢; simp only [List.length_cons] at hlen; omega)]
      simp only [ok_bind]
      rw [nextToken_text hL _ hrest hr.stops.strong]
      have hv := Word.value_eq hw.weak
      simp only [Word.tok] at hv
      rw [hv]
      cases rest <;> rfl
    | pipeline p =>
      simp only [SCmd.toks] at hall hlen hfuel ⊢
      rw [SPipe.not_assign hL isShell p h rest hr hall]
      simp only [ok_bind]
      rw [(rt hL isShell _).pipeline p rest h hr hall (by unfold parseFuel at hfuel ⊢; omega)]
      simp only [ok_bind]
      rw [nextToken_text hL _ hrest hr.stops.strong]
      cases rest <;> rfl
  have hn : ∃ x, nextToken false (L.text (c.toks ++ rest)) = .ok (some x) := by
    rw [e] at hall ⊢
    obtain ⟨t, r, h, _⟩ := nextToken_weak hL _ _ hall
    exact ⟨_, h⟩
  obtain ⟨x, hn⟩ := hn
  rw [hn]
  exact key

end

/-- **C33.** Every well-formed command, however it is written out (with blanks between its words, expressions and symbols,
or without where that is unambiguous, and possibly with a comment after it), is parsed to the command that was written,
whatever variables and executables there are (`isShell` says which names stand for executables). Since a command is
returned only if all tokens were consumed (see `C33_excess`), nothing of the text is ignored but the comment. -/
theorem C33_roundtrip (isShell : Str → Bool) (c : SCmd) (h : c.WF isShell) (text : Str) (hw : c.WrittenAs text) :
    parse isShell text = .ok (c.meaning isShell) := by
  obtain ⟨s, t, hs, ht, rfl⟩ := hw
  obtain ⟨L, hL, rfl, hg⟩ := ht.layout (SCmd.toks_wf isShell c h)
  have := parse_written hL isShell c h [] (by intro p ps e; cases e) (by simpa using hg) s hs
  simpa using this

/-- A command followed by an unmatched `|)` (and anything after it) is refused. -/
theorem C33_excess (isShell : Str → Bool) (c : SCmd) (h : c.WF isShell) (rest : List PT) (hr : ∀ p ∈ rest, p.WF)
    (s t : Str) (hs : Blanks s) (ht : Written (c.toks ++ .end_ :: rest) t) :
    parse isShell (s ++ t) = .error .excessTokens := by
  obtain ⟨L, hL, rfl, hg⟩ := ht.layout (by
    intro p hp
    simp only [List.mem_append, List.mem_cons] at hp
    rcases hp with hp | rfl | hp
    · exact SCmd.toks_wf isShell c h p hp
    · exact True.intro
    · exact hr p hp)
  have := parse_written hL isShell c h (.end_ :: rest) (by intro p ps e; cases e; rfl) hg s hs
  simpa using this

/-- Two commands written the same way mean the same. -/
theorem C33_unambiguous (isShell : Str → Bool) (c d : SCmd) (hc : c.WF isShell) (hd : d.WF isShell) (text : Str)
    (hct : c.WrittenAs text) (hdt : d.WrittenAs text) : c.meaning isShell = d.meaning isShell := by
  have h1 := C33_roundtrip isShell c hc text hct
  have h2 := C33_roundtrip isShell d hd text hdt
  rw [h2] at h1
  exact (Except.ok.inj h1).symm

/-- Blanks and a comment do not matter: two ways to write a command are parsed to the same. -/
theorem C33_spacing (isShell : Str → Bool) (c : SCmd) (hc : c.WF isShell) (text text' : Str)
    (h : c.WrittenAs text) (h' : c.WrittenAs text') : parse isShell text = parse isShell text' := by
  rw [C33_roundtrip isShell c hc text h, C33_roundtrip isShell c hc text' h']

theorem written_text (ps : List PT) (hne : ps ≠ []) : Written ps (ps.flatMap fun p => p.text ++ [' ']) := by
  have hb : Blanks [' '] := by intro c hc; simp at hc; subst hc; unfold isspace; decide
  induction ps with
  | nil => exact absurd rfl hne
  | cons p ps ih =>
    cases ps with
    | nil =>
      have := Written.last p [' '] (.blanks _ hb)
      simpa using this
    | cons q ps =>
      have := Written.cons p q ps [' '] _ hb (by simp) (ih (by simp))
      simpa using this

/-- In particular with one blank after each token. -/
theorem SCmd.writtenAs_text (isShell : Str → Bool) (c : SCmd) (h : c.WF isShell) : c.WrittenAs c.text :=
  ⟨[], _, (by intro c hc; cases hc), written_text _ (SCmd.toks_ne isShell c h), rfl⟩

/-- Parsing is not total on texts with blanks removed: a word immediately followed by a comment makes the parser
fail with an internal error (parser.py 696) instead of ignoring the comment. -/
theorem C33_comment_false : parse (fun _ => false) "ls#x".toList = .error .attributeError := by
  have h : isspace 'l' = false ∧ isspace 's' = false ∧ isspace '#' = false ∧ isspace 'x' = false := by
    unfold isspace; decide
  obtain ⟨h1, h2, h3, h4⟩ := h
  have e1 : lex1 false "ls#x".toList = .ok (some (.str false ⟨['l', 's'], none, false, ['l', 's']⟩ ['l', 's'], true, ['#', 'x'])) := by
    simp [lex1, skipWs, h1, h3, lexHere, lexPunctuation, startsWith, List.isPrefixOf, strToken, strScan, termOf,
      marcelTerm, isQuote, h2, lexArrowOrString, StrLit.of, unescapeLit, Except.map, addChars]
  have e2 : lex1 false ['#', 'x'] = .ok none := by
    simp [lex1, skipWs, h3, lexHere, startsWith, List.isPrefixOf, lexPunctuation]
  have e3 : nextToken false "ls#x".toList = .error .attributeError := by
    unfold nextToken
    rw [e1]
    simp only
    have : ∀ acc, gatherAdjacent false acc ['#', 'x'] = .error .attributeError := by
      intro acc
      unfold gatherAdjacent
      split <;> simp_all
    rw [this]
    rfl
  unfold parse
  rw [e3]
  rfl

/-- Although `#` does not begin a comment inside the argument of a shell command, the first such argument cannot contain
it: the parser peeks at it before it knows that the command is a shell command, and fails with an internal error. -/
theorem C33_hash_false : parse (fun n => n == "cat".toList) "cat a#b".toList = .error .attributeError := by
  have h : isspace 'c' = false ∧ isspace 'a' = false ∧ isspace 't' = false ∧ isspace ' ' = true ∧ isspace '#' = false ∧ isspace 'b' = false := by
    unfold isspace; decide
  obtain ⟨h1, h2, h3, h4, h5, h6⟩ := h
  have e1 : lex1 false "cat a#b".toList = .ok (some (.str false ⟨['c', 'a', 't'], none, false, ['c', 'a', 't']⟩ ['c', 'a', 't'], false, ['a', '#', 'b'])) := by
    simp [lex1, skipWs, h1, h2, h3, h4, lexHere, lexPunctuation, startsWith, List.isPrefixOf, strToken, strScan, termOf,
      marcelTerm, isQuote, lexArrowOrString, StrLit.of, unescapeLit, Except.map, addChars]
  have e2 : lex1 false ['a', '#', 'b'] = .ok (some (.str false ⟨['a'], none, false, ['a']⟩ ['a'], true, ['#', 'b'])) := by
    simp [lex1, skipWs, h2, h5, lexHere, lexPunctuation, startsWith, List.isPrefixOf, strToken, strScan, termOf,
      marcelTerm, isQuote, lexArrowOrString, StrLit.of, unescapeLit, Except.map, addChars]
  have e3 : lex1 false ['#', 'b'] = .ok none := by
    simp [lex1, skipWs, h5, lexHere, startsWith, List.isPrefixOf, lexPunctuation]
  have e4 : nextToken false "cat a#b".toList = .ok (some (.str false ⟨['c', 'a', 't'], none, false, ['c', 'a', 't']⟩ ['c', 'a', 't'], ['a', '#', 'b'])) := by
    unfold nextToken
    rw [e1]
    rfl
  have e5 : nextToken false ['a', '#', 'b'] = .error .attributeError := by
    unfold nextToken
    rw [e2]
    simp only
    have : ∀ acc, gatherAdjacent false acc ['#', 'b'] = .error .attributeError := by
      intro acc
      unfold gatherAdjacent
      split <;> simp_all
    rw [this]
    rfl
  unfold parse
  rw [e4]
  show pCommand _ _ _ = _
  unfold pCommand expect
  rw [show [Tok.isStr, Tok.isAssign].length = 0 + 1 + 1 from rfl, peekN, e4]
  simp only [ok_bind]
  rw [peekN, e5]
  rfl
/-! ## Non-vacuity -/

/-- A word written without quotes and escapes. -/
def plainWord (s : Str) : Word := s.map .plain

theorem plainWord_raw (s : Str) : (plainWord s).raw = s := by
  unfold plainWord Word.raw
  rw [List.flatMap_map]
  show List.flatMap (fun c => [c]) s = s
  simp

theorem plainWord_kept (s : Str) : (plainWord s).kept = s := by
  unfold plainWord Word.kept
  rw [List.flatMap_map]
  show List.flatMap (fun c => [c]) s = s
  simp

def plainChar (c : Char) : Bool :=
  !isspace c && c ∉ ['(', ')', '|', '@', '!', '=', ',', ':', '#', '>', '<', '\'', '"', '\\']

theorem unescapeLit_plain (s : Str) (h : ∀ c ∈ s, c ≠ '\\') : unescapeLit s = .ok s := by
  induction s with
  | nil => simp [unescapeLit]
  | cons c cs ih =>
    have h1 := h c (by simp)
    have h2 := ih (fun d hd => h d (by simp [hd]))
    unfold unescapeLit
    simp [h1, h2, Except.map]

theorem StrLit.of_plain (s : Str) (hne : s ≠ []) (h : ∀ c ∈ s, plainChar c = true) :
    StrLit.of s = .ok ⟨s, none, false, s⟩ := by
  cases s with
  | nil => exact absurd rfl hne
  | cons c cs =>
    have hq : isQuote c = false := by
      have := h c (by simp)
      simp [plainChar] at this
      simp [isQuote, this]
    have hu := unescapeLit_plain (c :: cs) (fun d hd => by
      have := h d hd
      simp [plainChar] at this
      exact this.2.2.2.2.2.2.2.2.2.2.2.2.2.2)
    unfold StrLit.of
    simp [hq, hu, Except.map]

theorem plainWord_wf (s : Str) (hne : s ≠ []) (h : ∀ c ∈ s, plainChar c = true) : (plainWord s).WF := by
  refine ⟨?_, ?_, ?_⟩
  · intro p hp
    simp only [plainWord, List.mem_map] at hp
    obtain ⟨c, hc, rfl⟩ := hp
    have := h c hc
    simp [plainChar] at this
    refine ⟨this.1, ?_, ?_⟩
    · simp [wordEnd, this]
    · simp [this]
  · cases s with
    | nil => exact absurd rfl hne
    | cons c cs =>
      refine ⟨c, cs, plainWord_raw _, ?_⟩
      have := h c (by simp)
      simp [plainChar] at this
      simp [this]
  · exact ⟨_, by rw [plainWord_kept]; exact StrLit.of_plain s hne h, rfl⟩

theorem plainWord_lit (s : Str) (hne : s ≠ []) (h : ∀ c ∈ s, plainChar c = true) :
    (plainWord s).lit = ⟨s, none, false, s⟩ := by
  unfold Word.lit
  rw [plainWord_kept, StrLit.of_plain s hne h]

instance : DecidablePred fun s : Str => ∀ c ∈ s, plainChar c = true := fun s => by
  simp only
  infer_instance

/-- A command meeting the hypotheses: `x , y : f < map (x) | args (| z : g "a b" |) >> out`; the round trip applies. -/
def exampleCmd : SCmd :=
  .pipeline (.mk [plainWord "x".toList, plainWord "y".toList] (some (false, plainWord "f".toList))
    [.named (plainWord "map".toList) [.expr "x".toList],
     .named (plainWord "args".toList)
      [.pipe (.mk [plainWord "z".toList] none [.named (plainWord "g".toList) [.word [.double [.chr 'a', .chr ' ', .chr 'b']]]] none)]]
    (some (false, true, plainWord "out".toList)))

example : exampleCmd.text = "x , y : f < map (x) | args (| z : g \"a b\" |) >> out ".toList := rfl

theorem plainChar_of (s : Str) (h : s.all (fun c => c.isAlpha || c = '-') = true) : ∀ c ∈ s, plainChar c = true := by
  intro c hc
  have h1 := List.all_eq_true.mp h c hc
  simp only [Bool.or_eq_true, decide_eq_true_eq] at h1
  have hsp : isspace c = false := by
    rcases h1 with h1 | rfl
    · unfold isspace
      simp only [Char.isAlpha, Char.isUpper, Char.isLower, Bool.or_eq_true, Bool.and_eq_true, decide_eq_true_eq] at h1
      have : 65 ≤ c.toNat ∧ c.toNat ≤ 122 := by
        simp only [UInt32.le_iff_toNat_le, ge_iff_le] at h1
        simp only [Char.toNat]
        have e1 : 'A'.val.toNat = 65 := rfl
        have e2 : 'Z'.val.toNat = 90 := rfl
        have e3 : 'a'.val.toNat = 97 := rfl
        have e4 : 'z'.val.toNat = 122 := rfl
        omega
      simp
      omega
    · unfold isspace; decide
  unfold plainChar
  rw [hsp]
  simp only [Bool.not_false, Bool.true_and, decide_eq_true_eq]
  intro hm
  simp only [List.mem_cons, List.not_mem_nil, or_false] at hm
  rcases h1 with h1 | rfl
  · rcases hm with rfl | rfl | rfl | rfl | rfl | rfl | rfl | rfl | rfl | rfl | rfl | rfl | rfl | rfl <;>
      exact absurd h1 (by decide)
  · exact absurd hm (by decide)

theorem pw (s : Str) (hne : s ≠ []) (h : s.all (fun c => c.isAlpha || c = '-') = true) : (plainWord s).WF :=
  plainWord_wf s hne (plainChar_of s h)

theorem exampleCmd_wf : exampleCmd.WF (fun _ => false) := by
  have hx : ExprWF "x".toList := by
    refine ⟨?_, by decide⟩
    exact .chr 'x' [] (by decide) (by decide) (by decide) (by decide) .nil
  have hd : Word.WF [.double [.chr 'a', .chr ' ', .chr 'b']] := by
    refine ⟨?_, ?_, ?_⟩
    · intro p hp
      simp at hp
      subst hp
      intro d hd
      simp at hd
      rcases hd with rfl | rfl | rfl <;> exact ⟨by decide, by decide⟩
    · exact ⟨'"', _, rfl, by unfold isspace; decide, by decide⟩
    · exact ⟨_, rfl, rfl⟩
  refine ⟨?_, ?_, ⟨⟨pw _ (by decide) (by decide), ⟨hx, True.intro⟩, by intro h; cases h⟩,
    ⟨pw _ (by decide) (by decide), ⟨⟨?_, by simp, ⟨⟨pw _ (by decide) (by decide), ⟨hd, True.intro⟩, by intro h; cases h⟩, True.intro⟩,
      by simp, by simp⟩, True.intro⟩, by intro h; cases h⟩, True.intro⟩, ?_, by simp⟩
  · intro w hw
    simp at hw
    rcases hw with rfl | rfl <;> exact pw _ (by decide) (by decide)
  · intro v w e
    cases e
    exact pw _ (by decide) (by decide)
  · intro w hw
    simp at hw
    subst hw
    exact pw _ (by decide) (by decide)
  · intro v a w e
    cases e
    exact pw _ (by decide) (by decide)

example : parse (fun _ => false) "x , y : f < map (x) | args (| z : g \"a b\" |) >> out ".toList =
    .ok (exampleCmd.meaning fun _ => false) :=
  C33_roundtrip _ exampleCmd exampleCmd_wf _ (SCmd.writtenAs_text _ exampleCmd exampleCmd_wf)

/-- An argument of a shell command, written without quotes and escapes, with `=`, `,` or `:` in it. -/
theorem plainWord_shellWF (c : Char) (s : Str) (hc : plainChar c = true)
    (h : ∀ d ∈ s, plainChar d = true ∨ d ∈ ['=', ',', ':']) : (plainWord (c :: s)).ShellWF := by
  have hc' := hc
  simp [plainChar] at hc
  refine ⟨?_, ⟨c, s, plainWord_raw _, hc.1, ?_⟩, ?_⟩
  · intro p hp
    simp only [plainWord, List.mem_map] at hp
    obtain ⟨d, hd, rfl⟩ := hp
    have hd : plainChar d = true ∨ d ∈ ['=', ',', ':'] := by
      rcases List.mem_cons.mp hd with rfl | hd
      · exact .inl hc'
      · exact h d hd
    rcases hd with hd | hd
    · simp [plainChar] at hd
      refine ⟨hd.1, ?_, ?_⟩
      · simp [wordEnd, hd]
      · simp [hd]
    · simp only [List.mem_cons, List.not_mem_nil, or_false] at hd
      rcases hd with rfl | rfl | rfl <;> exact ⟨by unfold isspace; decide, by decide, by decide⟩
  · simp [hc]
  · have hq : isQuote c = false := by simp [isQuote, hc]
    have hu := unescapeLit_plain (c :: s) (fun d hd => by
      rcases List.mem_cons.mp hd with rfl | hd
      · simp [hc]
      · rcases h d hd with hd | hd
        · simp [plainChar] at hd
          simp [hd]
        · intro e
          subst e
          exact absurd hd (by decide))
    refine ⟨⟨c :: s, none, false, c :: s⟩, ?_, rfl⟩
    rw [plainWord_kept]
    unfold StrLit.of
    simp [hq, hu, Except.map]

/-- `ls` being a name whose arguments are those of a shell command: blanks are not needed around `|` and `>`, an argument
contains `=`, and there is a comment. -/
def exampleTight : SCmd :=
  .pipeline (.mk [] none [.named (plainWord "ls".toList) [.word (plainWord "--color=auto".toList)], .named (plainWord "sort".toList) []]
    (some (false, false, plainWord "f".toList)))

theorem exampleTight_wf : exampleTight.WF (fun n => n == "ls".toList) := by
  have h1 : (plainWord "--color=auto".toList).ShellWF :=
    plainWord_shellWF '-' "-color=auto".toList (plainChar_of ['-'] (by decide) '-' (by simp)) (by
      intro d hd
      by_cases h : (d.isAlpha || d = '-') = true
      · exact .inl (plainChar_of [d] (by simpa using h) d (by simp))
      · right
        revert h
        revert d
        decide)
  have h2 : (plainWord "--color=auto".toList).ArgWF true := by
    unfold Word.ArgWF
    exact h1
  refine ⟨by simp, by simp, ⟨⟨pw _ (by decide) (by decide), ⟨?_, True.intro⟩, ?_⟩, ⟨pw _ (by decide) (by decide), True.intro, ?_⟩, True.intro⟩, ?_, by simp⟩
  · exact h2
  · intro _ a ha
    simp at ha
    subst ha
    exact True.intro
  · intro _ a ha
    cases ha
  · intro v a w e
    cases e
    exact pw _ (by decide) (by decide)

theorem exampleTight_written : exampleTight.WrittenAs "ls --color=auto|sort>f # all".toList := by
  have hb : Blanks [' '] := by intro c hc; simp at hc; subst hc; unfold isspace; decide
  have hn : Blanks [] := by intro c hc; cases hc
  refine ⟨[], _, hn, ?_, rfl⟩
  refine Written.cons _ _ _ [' '] "--color=auto|sort>f # all".toList hb (by simp) ?_
  refine Written.cons _ _ _ [] "|sort>f # all".toList hn (fun _ => True.intro) ?_
  refine Written.cons _ _ _ [] "sort>f # all".toList hn (fun _ => True.intro) ?_
  refine Written.cons _ _ _ [] ">f # all".toList hn (fun _ => True.intro) ?_
  refine Written.cons _ _ _ [] "f # all".toList hn (fun _ => by show _ ≠ _; decide) ?_
  exact Written.last _ " # all".toList (.comment [' '] " all".toList hb (by simp))

example : parse (fun n => n == "ls".toList) "ls --color=auto|sort>f # all".toList =
    .ok (exampleTight.meaning fun n => n == "ls".toList) :=
  C33_roundtrip _ exampleTight exampleTight_wf _ exampleTight_written

/-! ## C34 -/

/-- What an argument is to the operator that gets it: a string (as written), an expression, or a pipeline. -/
inductive ArgView
  | str (s : Str)
  | expr (s : Str)
  | pipe (p : PPipe)
  | symbol (t : Tok)

/-- parser.py 1293-1295: arguments are passed to the operator by value. -/
def PArg.view : PArg → ArgView
  | .tok (.str _ lit _) => .str lit.original
  | .tok (.expr s) => .expr s
  | .tok t => .symbol t
  | .flag s => .str s
  | .pipe p => .pipe p

/-- What an operator is looked up by: its name, `@`, `!` or `!!`. -/
inductive OpView
  | name (s : Str)
  | remote
  | run (twice : Bool)

def OpTok.view : OpTok → OpView
  | .word lit _ => .name lit.original
  | .made n => .name n
  | .remote => .remote
  | .run b => .run b

def POp.view : POp → OpView × List ArgView
  | .mk op args => (op.view, args.map PArg.view)

def PPipe.view : PPipe → List Str × List (OpView × List ArgView)
  | .mk params ops => (params, ops.map POp.view)

def PCmd.view : PCmd → Option (List Str × List (OpView × List ArgView))
  | .pipeline p => some p.view
  | .assign _ _ => none

/-- `f <` is `read f |` and `v <$` is `load v |`. -/
def explicitIn : Option (Bool × Word) → List SOp
  | none => []
  | some (v, w) => [.named (plainWord (if v then "load".toList else "read".toList)) [.word w]]

/-- `> f` is `| write f`, `>> f` is `| write --append f`, `>$ v` is `| store v`, `>>$ v` is `| store --append v`. -/
def explicitOut : Option (Bool × Bool × Word) → List SOp
  | none => []
  | some (v, a, w) =>
    [.named (plainWord (if v then "store".toList else "write".toList))
      ((if a then [.word (plainWord "--append".toList)] else []) ++ [.word w])]

theorem Word.WF.arg {w : Word} (h : w.WF) (shell : Bool) : w.ArgWF shell := by
  unfold Word.ArgWF
  split
  · exact h.weak
  · exact h

theorem word_view (shell : Bool) (w : Word) (hw : w.WF) : PArg.view (.tok (w.tok shell)) = .str w.kept := by
  show ArgView.str w.lit.original = _
  rw [StrLit.of_original (Word.lit_of hw.weak).1]

theorem opsMeaning_append (isShell : Str → Bool) (xs ys : List SOp) :
    opsMeaning isShell (xs ++ ys) = opsMeaning isShell xs ++ opsMeaning isShell ys := by
  induction xs with
  | nil => rfl
  | cons x xs ih => simp [opsMeaning, ih]

theorem opsWF_append (isShell : Str → Bool) (xs ys : List SOp) (hx : opsWF isShell xs) (hy : opsWF isShell ys) :
    opsWF isShell (xs ++ ys) := by
  induction xs with
  | nil => exact hy
  | cons x xs ih => exact ⟨hx.1, ih hx.2⟩

theorem explicitIn_wf (isShell : Str → Bool) (inp : Option (Bool × Word))
    (h : ∀ v w, inp = some (v, w) → w.WF) : opsWF isShell (explicitIn inp) := by
  cases inp with
  | none => exact True.intro
  | some x =>
    obtain ⟨v, w⟩ := x
    have hw := h v w rfl
    refine ⟨⟨?_, ⟨hw.arg _, True.intro⟩, ?_⟩, True.intro⟩
    · cases v <;> exact pw _ (by decide) (by decide)
    · intro _ a ha
      simp at ha
      subst ha
      exact True.intro

theorem explicitOut_wf (isShell : Str → Bool) (out : Option (Bool × Bool × Word))
    (h : ∀ v a w, out = some (v, a, w) → w.WF) : opsWF isShell (explicitOut out) := by
  cases out with
  | none => exact True.intro
  | some x =>
    obtain ⟨v, a, w⟩ := x
    have hw := h v a w rfl
    refine ⟨⟨?_, ?_, ?_⟩, True.intro⟩
    · cases v <;> exact pw _ (by decide) (by decide)
    · cases a
      · exact ⟨hw.arg _, True.intro⟩
      · exact ⟨(pw "--append".toList (by decide) (by decide)).arg _, hw.arg _, True.intro⟩
    · intro _ b hb
      cases a <;> simp at hb
      · subst hb; exact True.intro
      · rcases hb with rfl | rfl <;> exact True.intro

theorem op_view_plain (s : Str) (hne : s ≠ []) (h : s.all (fun c => c.isAlpha || c = '-') = true) :
    OpTok.view (.word (plainWord s).lit (plainWord s).raw) = .name s := by
  rw [plainWord_lit s hne (plainChar_of s h)]
  rfl

theorem inp_view (isShell : Str → Bool) (inp : Option (Bool × Word)) (h : ∀ v w, inp = some (v, w) → w.WF) :
    (opsMeaning isShell (explicitIn inp)).map POp.view = (inpOps inp).map POp.view := by
  cases inp with
  | none => rfl
  | some x =>
    obtain ⟨v, w⟩ := x
    have hw := h v w rfl
    cases v with
    | false =>
      simp only [explicitIn, opsMeaning, SOp.meaning, argsMeaning, SArg.meaning, inpOps, List.map_cons, List.map_nil,
        POp.view, word_view _ w hw]
      rw [op_view_plain _ (by decide) (by decide)]
      rfl
    | true =>
      simp only [explicitIn, opsMeaning, SOp.meaning, argsMeaning, SArg.meaning, inpOps, List.map_cons, List.map_nil,
        POp.view, word_view _ w hw]
      rw [op_view_plain _ (by decide) (by decide)]
      rfl

theorem out_view (isShell : Str → Bool) (out : Option (Bool × Bool × Word)) (h : ∀ v a w, out = some (v, a, w) → w.WF) :
    (opsMeaning isShell (explicitOut out)).map POp.view = (outOps out).map POp.view := by
  cases out with
  | none => rfl
  | some x =>
    obtain ⟨v, a, w⟩ := x
    have hw := h v a w rfl
    have ha : ∀ shell, PArg.view (.tok ((plainWord "--append".toList).tok shell)) = .str "--append".toList := by
      intro shell
      rw [word_view shell _ (pw _ (by decide) (by decide)), plainWord_kept]
    cases v <;> cases a <;>
    · simp only [explicitOut, opsMeaning, SOp.meaning, argsMeaning, SArg.meaning, outOps, List.map_cons, List.map_nil,
        POp.view, word_view _ w hw, if_true, if_false, Bool.false_eq_true, List.nil_append, List.cons_append, ha]
      rw [op_view_plain _ (by decide) (by decide)]
      rfl

/-- **C34.** A pipeline with an input redirection, an output redirection, or both, is parsed to the same parameters,
operators and arguments as the pipeline in which the redirections are written out as `read`/`load` at the beginning and
`write`/`store` (with `--append` for `>>`) at the end. -/
theorem C34_redirection (isShell : Str → Bool) (params : List Word)
    (inp : Option (Bool × Word)) (ops : List SOp) (out : Option (Bool × Bool × Word))
    (h : (SPipe.mk params inp ops out).WF isShell) (text explicit : Str)
    (ht : (SCmd.pipeline (.mk params inp ops out)).WrittenAs text)
    (he : (SCmd.pipeline (.mk params none (explicitIn inp ++ (ops ++ explicitOut out)) none)).WrittenAs explicit) :
    (parse isShell text).map PCmd.view = (parse isShell explicit).map PCmd.view ∧
    ∃ c, parse isShell text = .ok c := by
  have hwf : (SPipe.mk params none (explicitIn inp ++ (ops ++ explicitOut out)) none).WF isShell := by
    obtain ⟨h1, h2, h3, h4, h5⟩ := h
    refine ⟨h1, by simp, opsWF_append _ _ _ (explicitIn_wf isShell inp h2)
      (opsWF_append _ _ _ h3 (explicitOut_wf isShell out h4)), by simp, ?_⟩
    refine .inr (.inl ?_)
    intro e
    simp only [List.append_eq_nil_iff] at e
    obtain ⟨e1, e2, e3⟩ := e
    rcases h5 with h5 | h5 | h5
    · cases inp with
      | none => simp at h5
      | some x => exact absurd e1 (List.cons_ne_nil _ _)
    · exact h5 e2
    · cases out with
      | none => simp at h5
      | some x => exact absurd e3 (List.cons_ne_nil _ _)
  have r1 := C33_roundtrip isShell (.pipeline (.mk params inp ops out)) h text ht
  have r2 := C33_roundtrip isShell (.pipeline (.mk params none _ none)) hwf explicit he
  refine ⟨?_, _, r1⟩
  rw [r1, r2]
  simp only [SCmd.meaning, SPipe.meaning, Except.map, PCmd.view, PPipe.view, opsMeaning_append, List.map_append]
  rw [inp_view isShell inp h.2.1, out_view isShell out h.2.2.2.1]
  simp [inpOps, outOps]

/-- The hypotheses are met by a pipeline with both redirections. -/
example : match exampleCmd with | .pipeline p => p.WF fun _ => false | _ => False := exampleCmd_wf

end Marcel
