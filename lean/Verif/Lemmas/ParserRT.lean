import Verif.Lemmas.ParserText

/-! # Parsing written commands: the round trip, by induction on the recursion bound -/

namespace Marcel

theorem ok_bind {ε α β : Type} (a : α) (f : α → Except ε β) : (Except.ok a >>= f) = f a := rfl

/-- What may follow an operator with its arguments. -/
def Stops (rest : List PT) : Prop := ∀ p ps, rest = p :: ps → p = .pipe ∨ p = .end_ ∨ ∃ v a, p = .gt v a

/-- What may follow a pipeline. -/
def Ends (rest : List PT) : Prop := ∀ p ps, rest = p :: ps → p = .end_

/-- The first token, if any, is not one that only occurs in the arguments of shell commands. -/
def HeadStrong (ps : List PT) : Prop := ∀ p qs, ps = p :: qs → p.Strong

theorem Ends.stops {rest : List PT} (h : Ends rest) : Stops rest := fun p ps e => .inr (.inl (h p ps e))

theorem Stops.strong {rest : List PT} (h : Stops rest) : HeadStrong rest := by
  intro p ps e
  rcases h p ps e with rfl | rfl | ⟨v, a, rfl⟩ <;> exact True.intro

theorem HeadStrong.cons {p : PT} (h : p.Strong) (ps : List PT) : HeadStrong (p :: ps) := by
  intro q qs e
  cases e
  exact h

theorem HeadStrong.of_true {p : PT} {ps : List PT} (h : p.Strong) : HeadStrong (p :: ps) := HeadStrong.cons h ps

theorem Stops.shellNext {rest : List PT} (h : Stops rest) : ∀ q qs, rest = q :: qs → ShellNext q := by
  intro p ps e
  rcases h p ps e with rfl | rfl | ⟨v, a, rfl⟩ <;> exact True.intro

theorem uniform_str : Uniform Tok.isStr := by intro t t' h h'; rw [h, h']
theorem uniform_assign : Uniform Tok.isAssign := by
  intro t t' h h'; cases t <;> simp [Tok.isStr] at h <;> cases t' <;> simp [Tok.isStr] at h' <;> rfl
theorem uniform_comma : Uniform Tok.isComma := by
  intro t t' h h'; cases t <;> simp [Tok.isStr] at h <;> cases t' <;> simp [Tok.isStr] at h' <;> rfl
theorem uniform_colon : Uniform Tok.isColon := by
  intro t t' h h'; cases t <;> simp [Tok.isStr] at h <;> cases t' <;> simp [Tok.isStr] at h' <;> rfl
theorem uniform_lt : Uniform Tok.isLt := by
  intro t t' h h'; cases t <;> simp [Tok.isStr] at h <;> cases t' <;> simp [Tok.isStr] at h' <;> rfl

/-! ## The written tokens of well-formed syntax are well-formed -/

mutual
theorem SArg.toks_wf (isShell : Str → Bool) (shell : Bool) : ∀ a : SArg, a.WF isShell shell → ∀ p ∈ a.toks, p.WF
  | .word w, h, p, hp => by simp [SArg.toks] at hp; subst hp; exact Word.ArgWF.weak h
  | .expr src, h, p, hp => by simp [SArg.toks] at hp; subst hp; exact h
  | .pipe q, h, p, hp => by
    simp [SArg.toks] at hp
    rcases hp with rfl | hp | rfl
    · exact True.intro
    · exact SPipe.toks_wf isShell q h p hp
    · exact True.intro
theorem argsToks_wf (isShell : Str → Bool) (shell : Bool) : ∀ as : List SArg, argsWF isShell shell as → ∀ p ∈ argsToks as, p.WF
  | [], _, p, hp => by simp [argsToks] at hp
  | a :: as, h, p, hp => by
    simp [argsToks] at hp
    rcases hp with hp | hp
    · exact SArg.toks_wf isShell shell a h.1 p hp
    · exact argsToks_wf isShell shell as h.2 p hp
theorem SOp.toks_wf (isShell : Str → Bool) : ∀ o : SOp, o.WF isShell → ∀ p ∈ o.toks, p.WF
  | .named w args, h, p, hp => by
    simp [SOp.toks] at hp
    rcases hp with rfl | hp
    · exact h.1.weak
    · exact argsToks_wf isShell _ args h.2.1 p hp
  | .remote args, h, p, hp => by
    simp [SOp.toks] at hp
    rcases hp with rfl | hp
    · exact True.intro
    · exact argsToks_wf isShell _ args h p hp
  | .run b args, h, p, hp => by
    simp [SOp.toks] at hp
    rcases hp with rfl | hp
    · exact True.intro
    · exact argsToks_wf isShell _ args h p hp
  | .bare src, h, p, hp => by simp [SOp.toks] at hp; subst hp; exact h
theorem moreOpsToks_wf (isShell : Str → Bool) : ∀ os : List SOp, opsWF isShell os → ∀ p ∈ moreOpsToks os, p.WF
  | [], _, p, hp => by simp [moreOpsToks] at hp
  | o :: os, h, p, hp => by
    simp [moreOpsToks] at hp
    rcases hp with rfl | hp | hp
    · exact True.intro
    · exact SOp.toks_wf isShell o h.1 p hp
    · exact moreOpsToks_wf isShell os h.2 p hp
theorem opsToks_wf (isShell : Str → Bool) : ∀ os : List SOp, opsWF isShell os → ∀ p ∈ opsToks os, p.WF
  | [], _, p, hp => by simp [opsToks] at hp
  | o :: os, h, p, hp => by
    simp [opsToks] at hp
    rcases hp with hp | hp
    · exact SOp.toks_wf isShell o h.1 p hp
    · exact moreOpsToks_wf isShell os h.2 p hp
theorem SPipe.toks_wf (isShell : Str → Bool) : ∀ q : SPipe, q.WF isShell → ∀ p ∈ q.toks, p.WF
  | .mk params inp ops out, h, p, hp => by
    obtain ⟨h1, h2, h3, h4, _⟩ := h
    simp [SPipe.toks] at hp
    rcases hp with hp | hp | hp | hp
    · exact paramToks_wf params h1 p hp
    · cases inp with
      | none => simp [inpToks] at hp
      | some vw =>
        simp [inpToks] at hp
        rcases hp with rfl | rfl
        · exact (h2 _ _ rfl).weak
        · exact True.intro
    · exact opsToks_wf isShell ops h3 p hp
    · cases out with
      | none => simp [outToks] at hp
      | some vaw =>
        simp [outToks] at hp
        rcases hp with rfl | rfl
        · exact True.intro
        · exact (h4 _ _ _ rfl).weak
theorem paramToks_wf : ∀ ws : List Word, (∀ w ∈ ws, w.WF) → ∀ p ∈ paramToks ws, p.WF
  | [], _, p, hp => by simp [paramToks] at hp
  | [w], h, p, hp => by
    simp [paramToks] at hp
    rcases hp with rfl | rfl
    · exact (h w (by simp)).weak
    · exact True.intro
  | w :: w' :: ws, h, p, hp => by
    simp [paramToks] at hp
    rcases hp with rfl | rfl | hp
    · exact (h w (by simp)).weak
    · exact True.intro
    · exact paramToks_wf (w' :: ws) (fun x hx => h x (by simp [hx])) p (by simpa [paramToks] using hp)
end

section
variable {L : Layout} (hL : L.OK)
include hL

/-! ## Shell mode -/

omit hL in
theorem expect_shell (q : Tok → Bool) (text : Str) (t : Tok) (r : Str)
    (h : nextToken true text = .ok (some (t, r))) :
    expect true [q] text = .ok (if q t then some (t, r) else none) := by
  unfold expect
  simp only [List.length_cons, List.length_nil, peekN, h, ok_bind, typesMatch, Bool.and_true]
  split <;> simp_all

omit hL in
theorem expect_shell_none (q : Tok → Bool) (text : Str) (h : nextToken true text = .ok none) : expect true [q] text = .ok none := by
  unfold expect
  simp only [List.length_cons, List.length_nil, peekN, h, ok_bind]

omit hL in
theorem checkQuote_word (shell : Bool) (w : Word) (hw : w.ShellWF) : checkQuote (w.tok shell) = .ok (.tok (w.tok shell)) := by
  unfold checkQuote Word.tok
  simp [(Word.lit_of hw).2]

/-- Nothing more to read in shell mode. -/
theorem shell_stops (rest : List PT) (hg : L.Good rest) (h : Stops rest) :
    (∃ r, nextToken true (L.text rest) = .ok r) ∧ pShellArg (L.text rest) = .ok (none, L.text rest) := by
  cases rest with
  | nil =>
    have h0 := nextToken_tail hL true
    refine ⟨⟨_, h0⟩, ?_⟩
    unfold pShellArg
    rw [expect_shell_none _ _ h0]
    simp only [ok_bind]
    rw [expect_shell_none _ _ h0]
    rfl
  | cons p ps =>
    obtain ⟨t, r, h1, h2, h3⟩ := nextToken_shell_stop hL p (h p ps rfl) ps hg
    refine ⟨⟨_, h1⟩, ?_⟩
    unfold pShellArg
    rw [expect_shell _ _ t r h1, h2]
    simp only [ok_bind, Bool.false_eq_true, if_false]
    rw [expect_shell _ _ t r h1, h3]
    rfl

theorem pShellArg_word (w : Word) (rest : List PT) (h : L.Good (.word w :: rest)) (hn : ∀ q qs, rest = q :: qs → ShellNext q) :
    pShellArg (L.text (.word w :: rest)) = .ok (some (.tok (w.tok true)), L.text rest) := by
  unfold pShellArg
  have h1 := nextToken_shell_word hL w rest h hn
  rw [expect_shell _ _ _ _ h1]
  simp only [ok_bind]
  rw [expect_shell _ _ _ _ h1]
  show (checkQuote (w.tok true) >>= _) = _
  rw [checkQuote_word true w h.1]
  rfl

theorem pShellArg_expr (src : Str) (rest : List PT) (h : L.Good (.expr src :: rest)) (hn : ∀ q qs, rest = q :: qs → ShellNext q) :
    pShellArg (L.text (.expr src :: rest)) = .ok (some (.tok (.expr src)), L.text rest) := by
  unfold pShellArg
  rw [expect_shell _ _ _ _ (nextToken_shell_expr hL src rest h hn)]
  rfl

/-! ## Parameters -/

omit hL in
theorem StrLit.of_original {s : Str} {l : StrLit} (h : StrLit.of s = .ok l) : l.original = s := by
  cases s with
  | nil => cases h
  | cons c cs =>
    unfold StrLit.of at h
    simp only at h
    split at h
    · cases h; rfl
    · cases hu : unescapeLit (c :: cs) with
      | error e => rw [hu] at h; cases h
      | ok s => rw [hu] at h; cases h; rfl

omit hL in
theorem Word.value_eq {w : Word} (hw : w.ShellWF) : (w.tok false).value = w.kept := by
  have h := (Word.lit_of hw).1
  show w.lit.original = w.kept
  exact StrLit.of_original h

theorem pVars_rt (ws : List Word) : ∀ (w : Word) (fuel : Nat) (acc : List Str) (rest : List PT),
    (∀ x ∈ w :: ws, x.WF) → fuel ≥ 2 + ws.length →
    ∀ tail, paramToks (w :: ws) = .word w :: tail → L.Good (tail ++ rest) →
    pVars fuel (some (w.tok false)) acc (L.text (tail ++ rest)) =
      .ok (acc ++ (w :: ws).map Word.kept, L.text rest) := by
  induction ws with
  | nil =>
    intro w fuel acc rest hw hf tail ht hg
    simp [paramToks] at ht
    subst ht
    have hw0 := hw w (by simp)
    obtain ⟨fuel, rfl⟩ : ∃ k, fuel = k + 2 := ⟨fuel - 2, by simp at hf; omega⟩
    have hs : HeadStrong (PT.colon :: rest) := HeadStrong.of_true (by exact True.intro)
    simp only [List.cons_append, List.nil_append] at hg ⊢
    unfold pVars
    have e : (w.tok false).isStr = true := rfl
    rw [e, if_pos rfl]
    show (expect false [Tok.isComma] (L.text (.colon :: rest)) >>= _) = _
    rw [expect1 hL _ _ hg hs]
    simp only [PT.tok, Tok.isComma, ok_bind]
    show (nextToken false (L.text (.colon :: rest)) >>= _) = _
    rw [nextToken_text hL _ hg hs]
    simp only [ok_bind]
    unfold pVars
    rw [Word.value_eq hw0.weak]
    rfl
  | cons w' ws ih =>
    intro w fuel acc rest hw hf tail ht hg
    have hw0 := hw w (by simp)
    have hw1 := hw w' (by simp)
    simp only [paramToks, List.cons.injEq, true_and] at ht
    subst ht
    obtain ⟨fuel, rfl⟩ : ∃ k, fuel = k + 1 := ⟨fuel - 1, by simp at hf; omega⟩
    obtain ⟨tail, ht⟩ : ∃ tail, paramToks (w' :: ws) = .word w' :: tail := by
      cases ws with
      | nil => exact ⟨_, rfl⟩
      | cons _ _ => exact ⟨_, rfl⟩
    rw [ht] at hg ⊢
    simp only [List.cons_append] at hg ⊢
    unfold pVars
    have e : (w.tok false).isStr = true := rfl
    rw [e, if_pos rfl]
    show (expect false [Tok.isComma] (L.text (.comma :: .word w' :: (tail ++ rest))) >>= _) = _
    rw [expect1 hL _ _ hg (HeadStrong.of_true (by exact True.intro))]
    simp only [PT.tok, Tok.isComma, ok_bind, if_true]
    rw [expect1 hL _ _ hg.tail (HeadStrong.cons (show PT.Strong (.word w') from hw1) _)]
    simp only [PT.tok, ok_bind]
    show pVars fuel (some (w'.tok false)) (acc ++ [(w.tok false).value]) (L.text (tail ++ rest)) = _
    rw [ih w' fuel _ rest (fun x hx => hw x (List.mem_cons_of_mem _ hx)) (by simp at hf ⊢; omega) tail ht hg.tail.tail,
      Word.value_eq hw0.weak]
    simp

end

/-! ## The induction -/

/-- What the parsing functions return on written syntax, given enough fuel. -/
structure RT (L : Layout) (isShell : Str → Bool) (fuel : Nat) : Prop where
  arg : ∀ (shell : Bool) (a : SArg) (rest : List PT), a.WF isShell shell → (shell = true → a.simple) →
    (shell = true → ∀ q qs, rest = q :: qs → ShellNext q) → L.Good (a.toks ++ rest) →
    8 * (a.toks ++ rest).length + 1 ≤ fuel →
    pArg isShell fuel shell (L.text (a.toks ++ rest)) = .ok (some (a.meaning isShell shell), L.text rest)
  argNone : ∀ (shell : Bool) (rest : List PT), Stops rest → L.Good rest → 1 ≤ fuel →
    pArg isShell fuel shell (L.text rest) = .ok (none, L.text rest)
  args : ∀ (shell : Bool) (as : List SArg) (acc : List PArg) (rest : List PT), argsWF isShell shell as →
    (shell = true → ∀ a ∈ as, a.simple) → Stops rest → L.Good (argsToks as ++ rest) → 8 * (argsToks as ++ rest).length + 2 ≤ fuel →
    pArgs isShell fuel shell acc (L.text (argsToks as ++ rest)) =
      .ok (acc ++ argsMeaning isShell shell as, L.text rest)
  opArgs : ∀ (o : SOp) (rest : List PT), o.WF isShell → Stops rest → L.Good (o.toks ++ rest) → 8 * (o.toks ++ rest).length + 3 ≤ fuel →
    pOpArgs isShell fuel (L.text (o.toks ++ rest)) = .ok (o.meaning isShell, L.text rest)
  opSeq : ∀ (o : SOp) (os : List SOp) (rest : List PT), opsWF isShell (o :: os) → Stops rest →
    (∀ ps, rest ≠ .pipe :: ps) → L.Good (opsToks (o :: os) ++ rest) → 8 * (opsToks (o :: os) ++ rest).length + 4 ≤ fuel →
    pOpSeq isShell fuel (L.text (opsToks (o :: os) ++ rest)) = .ok (opsMeaning isShell (o :: os), L.text rest)
  pipelineOps : ∀ (inp : Option (Bool × Word)) (ops : List SOp) (out : Option (Bool × Bool × Word)) (rest : List PT),
    (SPipe.mk [] inp ops out).WF isShell → Ends rest → L.Good (inpToks inp ++ (opsToks ops ++ (outToks out ++ rest))) →
    8 * (inpToks inp ++ (opsToks ops ++ (outToks out ++ rest))).length + 5 ≤ fuel →
    pPipelineOps isShell fuel (L.text (inpToks inp ++ (opsToks ops ++ (outToks out ++ rest)))) =
      .ok (inpOps inp ++ (opsMeaning isShell ops ++ outOps out), L.text rest)
  pipeline : ∀ (p : SPipe) (rest : List PT), p.WF isShell → Ends rest → L.Good (p.toks ++ rest) →
    8 * (p.toks ++ rest).length + 6 ≤ fuel →
    pPipeline isShell fuel (L.text (p.toks ++ rest)) = .ok (p.meaning isShell, L.text rest)

section
variable {L : Layout} (hL : L.OK) {isShell : Str → Bool} {fuel : Nat}
include hL

theorem RT.step_arg (ih : RT L isShell fuel) (shell : Bool) (a : SArg)
    (rest : List PT) (ha : a.WF isShell shell) (hs : shell = true → a.simple)
    (hn : shell = true → ∀ q qs, rest = q :: qs → ShellNext q) (hall : L.Good (a.toks ++ rest))
    (hf : 8 * (a.toks ++ rest).length + 1 ≤ fuel + 1) :
    pArg isShell (fuel + 1) shell (L.text (a.toks ++ rest)) = .ok (some (a.meaning isShell shell), L.text rest) := by
  rw [pArg.eq_def]
  simp only
  cases shell with
  | true =>
    cases a with
    | word w =>
      simp only [SArg.toks, List.cons_append, List.nil_append] at hall ⊢
      rw [nextToken_shell_word hL w rest hall (hn rfl), ok_bind, if_pos trivial, pShellArg_word hL w rest hall (hn rfl)]
      rfl
    | expr src =>
      simp only [SArg.toks, List.cons_append, List.nil_append] at hall ⊢
      rw [nextToken_shell_expr hL src rest hall (hn rfl), ok_bind, if_pos trivial, pShellArg_expr hL src rest hall (hn rfl)]
      rfl
    | pipe p => exact (hs rfl).elim
  | false =>
    have hst : HeadStrong (a.toks ++ rest) := by
      cases a with
      | word w => exact HeadStrong.cons (show PT.Strong (.word w) from ha) _
      | expr w => exact HeadStrong.cons (show PT.Strong (.expr w) from ha) _
      | pipe w => exact HeadStrong.of_true (by exact True.intro)
    rw [nextToken_text hL _ hall hst, ok_bind, if_neg (by decide)]
    cases a with
    | word w =>
      simp only [SArg.toks, List.cons_append, List.nil_append] at hall hst ⊢
      rw [expect1 hL _ _ hall hst]
      simp only [PT.tok, ok_bind]
      show ((expect false [Tok.isStr] (L.text (.word w :: rest))) >>= _) = _
      rw [expect1 hL _ _ hall hst]
      show (checkQuote (w.tok false) >>= _) = _
      rw [checkQuote_word false w hall.1]
      rfl
    | expr src =>
      simp only [SArg.toks, List.cons_append, List.nil_append] at hall hst ⊢
      rw [expect1 hL _ _ hall hst]
      simp only [PT.tok, ok_bind]
      show ((expect false [Tok.isStr] (L.text (.expr src :: rest))) >>= _) = _
      rw [expect1 hL _ _ hall hst]
      show ((expect false [Tok.isExpr] (L.text (.expr src :: rest))) >>= _) = _
      rw [expect1 hL _ _ hall hst]
      rfl
    | pipe p =>
      have hend : Ends (.end_ :: rest) := by intro q qs e; cases e; rfl
      simp only [SArg.toks, List.cons_append, List.append_assoc, List.nil_append] at hall hst hf ⊢
      rw [expect1 hL _ _ hall hst]
      show ((pPipeline isShell fuel (L.text (p.toks ++ .end_ :: rest))) >>= _) = _
      rw [ih.pipeline p (.end_ :: rest) ha hend hall.tail (by simp at hf ⊢; omega)]
      show ((expect false [Tok.isEnd] (L.text (.end_ :: rest))) >>= _) = _
      rw [expect1 hL _ _ hall.tail.append hend.stops.strong]
      rfl

theorem Tok.stops {rest : List PT} (hg : L.Good rest) (h : Stops rest) (q : Tok → Bool)
    (hq : q .pipe = false ∧ q .end_ = false ∧ ∀ v a, q (.gt v a) = false) :
    expect false [q] (L.text rest) = .ok none := by
  rw [expect1 hL _ _ hg h.strong]
  cases rest with
  | nil => rfl
  | cons p ps =>
    rcases h p ps rfl with rfl | rfl | ⟨v, a, rfl⟩
    · simp [PT.tok, hq.1]
    · simp [PT.tok, hq.2.1]
    · simp [PT.tok, hq.2.2]

theorem RT.step_argNone (isShell : Str → Bool) (fuel : Nat) (shell : Bool) (rest : List PT) (h : Stops rest) (hg : L.Good rest) :
    pArg isShell (fuel + 1) shell (L.text rest) = .ok (none, L.text rest) := by
  rw [pArg.eq_def]
  simp only
  cases shell with
  | true =>
    obtain ⟨⟨r, h1⟩, h2⟩ := shell_stops hL rest hg h
    rw [h1, ok_bind, if_pos rfl, h2]
  | false =>
    rw [nextToken_text hL _ hg h.strong, ok_bind, if_neg (by decide), Tok.stops hL hg h _ ⟨rfl, rfl, fun _ _ => rfl⟩]
    simp only [ok_bind]
    rw [Tok.stops hL hg h _ ⟨rfl, rfl, fun _ _ => rfl⟩]
    simp only [ok_bind]
    rw [Tok.stops hL hg h _ ⟨rfl, rfl, fun _ _ => rfl⟩]
    rfl

omit hL in
theorem RT.step_args (ih : RT L isShell fuel) (shell : Bool) (as : List SArg)
    (acc : List PArg) (rest : List PT) (ha : argsWF isShell shell as) (hs : shell = true → ∀ a ∈ as, a.simple)
    (hr : Stops rest) (hg : L.Good (argsToks as ++ rest)) (hf : 8 * (argsToks as ++ rest).length + 2 ≤ fuel + 1) :
    pArgs isShell (fuel + 1) shell acc (L.text (argsToks as ++ rest)) =
      .ok (acc ++ argsMeaning isShell shell as, L.text rest) := by
  rw [pArgs.eq_def]
  simp only
  cases as with
  | nil =>
    simp only [argsToks, List.nil_append] at hf hg ⊢
    rw [ih.argNone shell rest hr hg (by omega)]
    simp [ok_bind, argsMeaning]
  | cons a as =>
    simp only [argsToks, List.append_assoc] at hf hg ⊢
    have hnext : shell = true → ∀ q qs, argsToks as ++ rest = q :: qs → ShellNext q := by
      intro hsh q qs e
      cases as with
      | nil => exact hr.shellNext q qs e
      | cons b bs =>
        have hb := hs hsh b (by simp)
        cases b with
        | word w => simp [argsToks, SArg.toks] at e; rw [← e.1]; exact True.intro
        | expr w => simp [argsToks, SArg.toks] at e; rw [← e.1]; exact True.intro
        | pipe w => exact hb.elim
    rw [ih.arg shell a _ ha.1 (fun h => hs h a (by simp)) hnext hg (by omega)]
    have hpos : 1 ≤ a.toks.length := by
      cases a <;> simp [SArg.toks]
    simp only [ok_bind]
    rw [ih.args shell as _ rest ha.2 (fun h b hb => hs h b (by simp [hb])) hr hg.append (by simp at hf ⊢; omega)]
    simp [argsMeaning]

omit hL in
theorem shell_word (isShell : Str → Bool) (w : Word) (hw : w.WF) :
    (OpTok.word w.lit w.raw).shellArgs isShell = isShell w.kept := by
  show isShell w.lit.original = _
  rw [StrLit.of_original (Word.lit_of hw.weak).1]

omit hL in
theorem SOp.toks_strong (o : SOp) (ho : o.WF isShell) (rest : List PT) : HeadStrong (o.toks ++ rest) := by
  cases o with
  | named w args => exact HeadStrong.cons (show PT.Strong (.word w) from ho.1) _
  | remote args => exact HeadStrong.of_true (by exact True.intro)
  | run b args => exact HeadStrong.of_true (by exact True.intro)
  | bare src => exact HeadStrong.cons (show PT.Strong (.expr src) from ho) _

omit hL in
theorem opsToks_strong (ops : List SOp) (ho : opsWF isShell ops) (rest : List PT) (hr : Stops rest) : HeadStrong (opsToks ops ++ rest) := by
  cases ops with
  | nil => exact hr.strong
  | cons o os =>
    simp only [opsToks, List.append_assoc]
    exact SOp.toks_strong o ho.1 _

theorem RT.step_opArgs (ih : RT L isShell fuel) (o : SOp) (rest : List PT)
    (ho : o.WF isShell) (hr : Stops rest) (hall : L.Good (o.toks ++ rest)) (hf : 8 * (o.toks ++ rest).length + 3 ≤ fuel + 1) :
    pOpArgs isShell (fuel + 1) (L.text (o.toks ++ rest)) = .ok (o.meaning isShell, L.text rest) := by
  have hst := SOp.toks_strong o ho rest
  rw [pOpArgs.eq_def]
  simp only
  cases o with
  | bare src =>
    simp only [SOp.toks, List.cons_append, List.nil_append] at hall hst ⊢
    rw [expect1 hL _ _ hall hst]
    rfl
  | named w args =>
    obtain ⟨hw, hargs, hs⟩ := ho
    simp only [SOp.toks, List.cons_append, List.nil_append, List.length_cons] at hall hst hf ⊢
    rw [expect1 hL _ _ hall hst]
    simp only [ok_bind]
    have : pOp (L.text (.word w :: (argsToks args ++ rest))) = .ok (.word w.lit w.raw, L.text (argsToks args ++ rest)) := by
      unfold pOp
      rw [expect1 hL _ _ hall hst]
      rfl
    show (pOp _ >>= _) = _
    rw [this]
    simp only [ok_bind]
    rw [shell_word isShell w hw, ih.args _ args [] rest hargs hs hr hall.tail (by omega)]
    rfl
  | remote args =>
    simp only [SOp.toks, List.cons_append, List.nil_append, List.length_cons] at hall hst hf ⊢
    rw [expect1 hL _ _ hall hst]
    simp only [ok_bind]
    have : pOp (L.text (.remote :: (argsToks args ++ rest))) = .ok (.remote, L.text (argsToks args ++ rest)) := by
      unfold pOp
      rw [expect1 hL _ _ hall hst]
      simp only [PT.tok, ok_bind]
      show (expect _ _ _ >>= _) = _
      rw [expect1 hL _ _ hall hst]
      rfl
    show (pOp _ >>= _) = _
    rw [this]
    simp only [ok_bind]
    rw [show OpTok.remote.shellArgs isShell = false from rfl,
      ih.args false args [] rest ho (by intro h; cases h) hr hall.tail (by omega)]
    rfl
  | run b args =>
    simp only [SOp.toks, List.cons_append, List.nil_append, List.length_cons] at hall hst hf ⊢
    rw [expect1 hL _ _ hall hst]
    simp only [ok_bind]
    have : pOp (L.text (.run b :: (argsToks args ++ rest))) = .ok (.run b, L.text (argsToks args ++ rest)) := by
      unfold pOp
      rw [expect1 hL _ _ hall hst]
      simp only [PT.tok, ok_bind]
      show (expect _ _ _ >>= _) = _
      rw [expect1 hL _ _ hall hst]
      show (expect _ _ _ >>= _) = _
      rw [expect1 hL _ _ hall hst]
      rfl
    show (pOp _ >>= _) = _
    rw [this]
    simp only [ok_bind]
    rw [show (OpTok.run b).shellArgs isShell = false from rfl,
      ih.args false args [] rest ho (by intro h; cases h) hr hall.tail (by omega)]
    rfl

omit hL in
theorem moreOps_stops (os : List SOp) (rest : List PT) (hr : Stops rest) : Stops (moreOpsToks os ++ rest) := by
  cases os with
  | nil => exact hr
  | cons o os => intro p ps e; simp [moreOpsToks] at e; exact .inl e.1.symm

theorem RT.step_opSeq (ih : RT L isShell fuel) (o : SOp) (os : List SOp)
    (rest : List PT) (ho : opsWF isShell (o :: os)) (hr : Stops rest) (hp : ∀ ps, rest ≠ .pipe :: ps)
    (hg : L.Good (opsToks (o :: os) ++ rest)) (hf : 8 * (opsToks (o :: os) ++ rest).length + 4 ≤ fuel + 1) :
    pOpSeq isShell (fuel + 1) (L.text (opsToks (o :: os) ++ rest)) =
      .ok (opsMeaning isShell (o :: os), L.text rest) := by
  rw [pOpSeq.eq_def]
  simp only
  simp only [opsToks, List.append_assoc] at hf hg ⊢
  have hrest : Stops (moreOpsToks os ++ rest) := moreOps_stops os rest hr
  rw [ih.opArgs o _ ho.1 hrest hg (by omega)]
  simp only [ok_bind]
  rw [expect1 hL _ _ hg.append hrest.strong]
  cases os with
  | nil =>
    simp only [moreOpsToks, List.nil_append] at hf hg ⊢
    cases rest with
    | nil => rfl
    | cons p ps =>
      rcases hr p ps rfl with rfl | rfl | ⟨v, a, rfl⟩
      · exact absurd rfl (hp ps)
      · rfl
      · rfl
  | cons o' os =>
    have hg2 := hg.append
    simp only [moreOpsToks, List.cons_append, List.append_assoc] at hg2
    simp only [moreOpsToks, List.cons_append, List.append_assoc, PT.tok, Tok.isPipe, if_true, ok_bind]
    have := ih.opSeq o' os rest ho.2 hr hp (by simpa only [opsToks, List.append_assoc] using hg2.tail)
      (by simp [moreOpsToks, opsToks] at hf ⊢; omega)
    simp only [opsToks, List.append_assoc] at this
    rw [this]
    simp [ok_bind, opsMeaning]

omit hL in
theorem outOps_redirect (v a : Bool) (w : Word) :
    outOps (some (v, a, w)) = [redirectOut (.gt v a) (w.tok false)] := by
  cases v <;> cases a <;> rfl

omit hL in
theorem inpOps_redirect (v : Bool) (w : Word) : inpOps (some (v, w)) = [redirectIn (.lt v) (w.tok false)] := by
  cases v <;> rfl

omit hL in
theorem outStops {out : Option (Bool × Bool × Word)} {rest : List PT}
    (hr : Ends rest) : Stops (outToks out ++ rest) ∧ ∀ ps, outToks out ++ rest ≠ .pipe :: ps := by
  cases out with
  | none => exact ⟨hr.stops, fun ps e => by have := hr _ _ e; cases this⟩
  | some x =>
    obtain ⟨v, a, w⟩ := x
    refine ⟨?_, ?_⟩
    · intro p ps e; simp [outToks] at e; exact .inr (.inr ⟨_, _, e.1.symm⟩)
    · intro ps e; simp [outToks] at e

theorem pRedirectOut_rt (ops : List POp) (out : Option (Bool × Bool × Word)) (rest : List PT)
    (ho : ∀ v a w, out = some (v, a, w) → w.WF) (hr : Ends rest) (hg : L.Good (outToks out ++ rest)) :
    pRedirectOut ops (L.text (outToks out ++ rest)) = .ok (ops ++ outOps out, L.text rest) := by
  have hs := (outStops (out := out) hr).1
  unfold pRedirectOut
  rw [expect2 hL _ _ uniform_str _ hg hs.strong]
  cases out with
  | none =>
    simp only [outToks, List.nil_append]
    cases rest with
    | nil => simp [ok_bind, outOps]
    | cons p ps =>
      have := hr p ps rfl
      subst this
      cases ps with
      | nil => simp [ok_bind, outOps]
      | cons q qs => simp [ok_bind, outOps, PT.tok, Tok.isGt]
  | some x =>
    obtain ⟨v, a, w⟩ := x
    simp only [outToks, List.cons_append, List.nil_append] at hg ⊢
    simp only [PT.tok, Tok.isGt, Word.tok, Tok.isStr, Bool.and_self, if_true, ok_bind]
    rw [expect1 hL _ _ hg.tail (HeadStrong.cons (show PT.Strong (.word w) from ho _ _ _ rfl) _)]
    rw [outOps_redirect]
    rfl

/-- A named operator's tokens: a word that isn't followed by `<`, `,`, `:` or `=`. -/
def PT.follow : PT → Prop
  | .lt _ | .comma | .colon | .assign => False
  | _ => True

omit hL in
theorem follow_args (as : List SArg) (rest : List PT) (hr : Stops rest) :
    ∀ p ps, argsToks as ++ rest = p :: ps → p.follow := by
  intro p ps e
  cases as with
  | nil =>
    rcases hr p ps e with rfl | rfl | ⟨v, a, rfl⟩ <;> exact True.intro
  | cons a as =>
    cases a with
    | word w => simp [argsToks, SArg.toks] at e; rw [← e.1]; exact True.intro
    | expr w => simp [argsToks, SArg.toks] at e; rw [← e.1]; exact True.intro
    | pipe w => simp [argsToks, SArg.toks] at e; rw [← e.1]; exact True.intro

omit hL in
/-- No operator sequence (or output) begins with a word followed by `<`, `,`, `:` or `=`. -/
theorem follow_ops (ops : List SOp) (out : Option (Bool × Bool × Word)) (rest : List PT) (hr : Ends rest) :
    ∀ w p ps, opsToks ops ++ (outToks out ++ rest) = .word w :: p :: ps → p.follow := by
  intro w p ps e
  have hs := (outStops (out := out) hr).1
  cases ops with
  | nil =>
    simp only [opsToks, List.nil_append] at e
    rcases hs _ _ e with h | h | ⟨v, a, h⟩ <;> cases h
  | cons o os =>
    simp only [opsToks, List.append_assoc] at e
    cases o with
    | bare src => simp [SOp.toks] at e
    | remote args => simp [SOp.toks] at e
    | run b args => simp [SOp.toks] at e
    | named w' args =>
      simp only [SOp.toks, List.cons_append, List.cons.injEq] at e
      exact follow_args args _ (moreOps_stops os _ hs) p ps e.2

theorem expect2_follow (q r : Tok → Bool) (hu : Uniform r) (hq : ∀ t, q t = true → t.isStr = true) (ps : List PT) (h : L.Good ps)
    (hst : HeadStrong ps) (hf : ∀ w p qs, ps = .word w :: p :: qs → p.follow) (hr : ∀ p : PT, p.follow → r (p.tok false) = false) :
    expect false [q, r] (L.text ps) = .ok none := by
  rw [expect2 hL _ _ hu _ h hst]
  match ps with
  | [] => rfl
  | [p] => rfl
  | p :: p' :: qs =>
    simp only
    cases hp : q (p.tok false) with
    | false => rfl
    | true =>
      cases p with
      | word w => rw [hr p' (hf w p' qs rfl)]; rfl
      | _ => have := hq _ hp; simp [PT.tok, Tok.isStr] at this

omit hL in
theorem opsToks_head (ops : List SOp) (rest : List PT) (hne : ops ≠ []) :
    ∃ p ps, opsToks ops ++ rest = p :: ps ∧ (p.tok false).isGt = false ∧ (p.tok false).isEnd = false := by
  cases ops with
  | nil => exact absurd rfl hne
  | cons o os =>
    cases o <;> exact ⟨_, _, rfl, rfl, rfl⟩

theorem RT.step_pipelineOps (ih : RT L isShell fuel) (inp : Option (Bool × Word))
    (ops : List SOp) (out : Option (Bool × Bool × Word)) (rest : List PT)
    (h : (SPipe.mk [] inp ops out).WF isShell) (hr : Ends rest) (hg : L.Good (inpToks inp ++ (opsToks ops ++ (outToks out ++ rest))))
    (hf : 8 * (inpToks inp ++ (opsToks ops ++ (outToks out ++ rest))).length + 5 ≤ fuel + 1) :
    pPipelineOps isShell (fuel + 1) (L.text (inpToks inp ++ (opsToks ops ++ (outToks out ++ rest)))) =
      .ok (inpOps inp ++ (opsMeaning isShell ops ++ outOps out), L.text rest) := by
  obtain ⟨_, hin, hops, hout, hne⟩ := h
  obtain ⟨hs, hnp⟩ := outStops (out := out) hr
  have hrest := hg.append
  have hrst := opsToks_strong ops hops (outToks out ++ rest) hs
  have hout2 := hrest.append
  rw [pPipelineOps.eq_def]
  simp only
  cases inp with
  | some x =>
    obtain ⟨v, w⟩ := x
    have hw := hin _ _ rfl
    simp only [inpToks, List.cons_append, List.nil_append, List.length_cons] at hf hg ⊢
    rw [expect2 hL _ _ uniform_lt _ hg (HeadStrong.cons (show PT.Strong (.word w) from hw) _)]
    simp only [PT.tok, Word.tok, Tok.isStr, Tok.isLt, Bool.and_self, if_true, ok_bind]
    rw [expect1 hL _ _ hg.tail (HeadStrong.of_true (by exact True.intro))]
    simp only [PT.tok, Tok.isLt, if_true, ok_bind]
    rw [inpOps_redirect]
    by_cases ho : ops = []
    · subst ho
      simp only [opsToks, List.nil_append, opsMeaning] at hf ⊢
      cases out with
      | some y =>
        obtain ⟨v', a', w'⟩ := y
        rw [expect1 hL _ _ hout2 hs.strong]
        simp only [outToks, List.cons_append, List.nil_append, PT.tok, Tok.isGt, if_true, ok_bind] at hout2 ⊢
        rw [expect1 hL _ _ hout2.tail (HeadStrong.cons (show PT.Strong (.word w') from hout _ _ _ rfl) _), outOps_redirect]
        rfl
      | none =>
        simp only [outToks, List.nil_append, outOps, List.append_nil] at hout2 ⊢
        rw [expect1 hL _ _ hout2 hr.stops.strong]
        cases rest with
        | nil =>
          simp only [ok_bind]
          rw [nextToken_text hL _ hout2 hr.stops.strong]
          rfl
        | cons p ps =>
          have := hr p ps rfl
          subst this
          simp only [PT.tok, Tok.isGt, ok_bind]
          show (nextToken false (L.text (.end_ :: ps)) >>= _) = _
          rw [nextToken_text hL _ hout2 hr.stops.strong]
          rfl
    · obtain ⟨o, os, rfl⟩ : ∃ o os, ops = o :: os := by
        cases ops with
        | nil => exact absurd rfl ho
        | cons o os => exact ⟨o, os, rfl⟩
      obtain ⟨p, ps, e, hg', he⟩ := opsToks_head (o :: os) (outToks out ++ rest) ho
      have hseq := ih.opSeq o os _ hops hs hnp hrest (by omega)
      rw [e] at hrest hrst hseq ⊢
      rw [expect1 hL _ _ hrest hrst]
      simp only [hg', ok_bind]
      show (nextToken false (L.text (p :: ps)) >>= _) = _
      rw [nextToken_text hL _ hrest hrst]
      simp only [ok_bind, he]
      show (pOpSeq isShell fuel (L.text (p :: ps)) >>= _) = _
      rw [hseq]
      simp only [ok_bind]
      rw [pRedirectOut_rt hL _ out rest hout hr hout2]
      simp [Word.tok]
  | none =>
    simp only [inpToks, inpOps, List.nil_append] at hf hg ⊢
    rw [expect2_follow hL _ _ uniform_lt (fun _ h => h) _ hrest hrst (follow_ops ops out rest hr)
      (by intro p hp; cases p <;> first | rfl | exact hp.elim)]
    simp only [ok_bind]
    by_cases ho : ops = []
    · subst ho
      simp only [opsToks, List.nil_append, opsMeaning] at hf ⊢
      cases out with
      | some y =>
        obtain ⟨v', a', w'⟩ := y
        rw [expect2 hL _ _ uniform_str _ hout2 hs.strong]
        simp only [outToks, List.cons_append, List.nil_append, PT.tok, Tok.isGt, Word.tok, Tok.isStr, Bool.and_self,
          if_true, ok_bind] at hout2 ⊢
        rw [expect1 hL _ _ hout2.tail (HeadStrong.cons (show PT.Strong (.word w') from hout _ _ _ rfl) _), outOps_redirect]
        rfl
      | none => simp at hne
    · obtain ⟨o, os, rfl⟩ : ∃ o os, ops = o :: os := by
        cases ops with
        | nil => exact absurd rfl ho
        | cons o os => exact ⟨o, os, rfl⟩
      obtain ⟨p, ps, e, hg', he⟩ := opsToks_head (o :: os) (outToks out ++ rest) ho
      have hseq := ih.opSeq o os _ hops hs hnp hrest (by omega)
      rw [e] at hrest hrst hseq ⊢
      have : expect false [Tok.isGt, Tok.isStr] (L.text (p :: ps)) = .ok none := by
        rw [expect2 hL _ _ uniform_str _ hrest hrst]
        cases ps with
        | nil => rfl
        | cons q qs => simp [hg']
      rw [this]
      simp only [ok_bind]
      rw [hseq]
      simp only [ok_bind]
      rw [pRedirectOut_rt hL _ out rest hout hr hout2]

omit hL in
/-- The first token of a pipeline is not one that only occurs in the arguments of shell commands. -/
theorem pipe_strong (inp : Option (Bool × Word)) (ops : List SOp) (out : Option (Bool × Bool × Word)) (rest : List PT)
    (hin : ∀ v w, inp = some (v, w) → w.WF) (hops : opsWF isShell ops) (hr : Ends rest) :
    HeadStrong (inpToks inp ++ (opsToks ops ++ (outToks out ++ rest))) := by
  cases inp with
  | none => exact opsToks_strong ops hops _ (outStops hr).1
  | some x => exact HeadStrong.cons (show PT.Strong (.word x.2) from hin _ _ rfl) _

theorem RT.step_pipeline (ih : RT L isShell fuel) (p : SPipe) (rest : List PT)
    (h : p.WF isShell) (hr : Ends rest) (hg : L.Good (p.toks ++ rest)) (hf : 8 * (p.toks ++ rest).length + 6 ≤ fuel + 1) :
    pPipeline isShell (fuel + 1) (L.text (p.toks ++ rest)) = .ok (p.meaning isShell, L.text rest) := by
  obtain ⟨params, inp, ops, out⟩ := p
  obtain ⟨hpar, hin, hops, hout, hne⟩ := h
  simp only [SPipe.toks, List.append_assoc] at hg
  have hwf := hg.append
  have hst := pipe_strong inp ops out rest hin hops hr
  have hend : L.Good rest := hwf.append.append.append
  have hP := ih.pipelineOps inp ops out rest ⟨by simp, hin, hops, hout, hne⟩ hr hwf
    (by simp [SPipe.toks] at hf ⊢; omega)
  rw [pPipeline.eq_def]
  simp only [SPipe.toks, List.append_assoc, SPipe.meaning]
  cases params with
  | nil =>
    simp only [paramToks, List.nil_append, List.map_nil]
    have hfol : ∀ r : Tok → Bool, Uniform r → (∀ v, r (.lt v) = false) → (∀ p : PT, p.follow → r (p.tok false) = false) →
        expect false [Tok.isStr, r] (L.text (inpToks inp ++ (opsToks ops ++ (outToks out ++ rest)))) = .ok none := by
      intro r hu hlt hfo
      cases inp with
      | none =>
        exact expect2_follow hL _ _ hu (fun _ h => h) _ hwf hst (follow_ops ops out rest hr) hfo
      | some x =>
        rw [expect2 hL _ _ hu _ hwf hst]
        simp only [inpToks, List.cons_append, PT.tok, hlt]
        simp
    rw [hfol _ uniform_comma (fun _ => rfl) (by intro p hp; cases p <;> first | rfl | exact hp.elim)]
    simp only [ok_bind]
    rw [hfol _ uniform_colon (fun _ => rfl) (by intro p hp; cases p <;> first | rfl | exact hp.elim)]
    simp only [ok_bind]
    rw [hP]
    simp only [ok_bind]
    rw [nextToken_text hL _ hend hr.stops.strong]
    rfl
  | cons w ws =>
    obtain ⟨sep, tail, ht, hsep⟩ : ∃ sep tail, paramToks (w :: ws) = .word w :: sep :: tail ∧ (sep = .comma ∨ sep = .colon) := by
      cases ws with
      | nil => exact ⟨_, _, rfl, .inr rfl⟩
      | cons w' ws => exact ⟨_, _, rfl, .inl rfl⟩
    have hlen : ws.length + 2 ≤ (paramToks (w :: ws)).length := by
      clear ht hP hpar hf hg
      induction ws generalizing w with
      | nil => simp [paramToks]
      | cons w' ws ih' =>
        have := ih' w'
        simp [paramToks] at this ⊢
        omega
    have hall := hg
    rw [ht] at hall
    simp only [List.cons_append] at hall
    have hv := pVars_rt hL ws w fuel [] (inpToks inp ++ (opsToks ops ++ (outToks out ++ rest))) hpar
      (by simp only [SPipe.toks, List.length_append] at hf; omega) (sep :: tail) ht hall.tail
    have hs0 : HeadStrong (.word w :: sep :: (tail ++ (inpToks inp ++ (opsToks ops ++ (outToks out ++ rest))))) :=
      HeadStrong.cons (show PT.Strong (.word w) from hpar w (by simp)) _
    rw [ht]
    simp only [List.cons_append] at hv ⊢
    rcases hsep with rfl | rfl
    · rw [expect2 hL _ _ uniform_comma _ hall hs0]
      simp only [PT.tok, Word.tok, Tok.isStr, Tok.isComma, Bool.and_self, if_true, ok_bind]
      simp only [Word.tok] at hv
      rw [hv]
      simp only [ok_bind]
      rw [hP]
      simp only [ok_bind]
      rw [nextToken_text hL _ hend hr.stops.strong]
      rfl
    · rw [expect2 hL _ _ uniform_comma _ hall hs0]
      simp only [PT.tok, Tok.isComma, ok_bind, Bool.and_false, Bool.false_eq_true, if_false]
      rw [expect2 hL _ _ uniform_colon _ hall hs0]
      simp only [PT.tok, Word.tok, Tok.isStr, Tok.isColon, Bool.and_self, if_true, ok_bind]
      simp only [Word.tok] at hv
      rw [hv]
      simp only [ok_bind]
      rw [hP]
      simp only [ok_bind]
      rw [nextToken_text hL _ hend hr.stops.strong]
      rfl

theorem rt (isShell : Str → Bool) (fuel : Nat) : RT L isShell fuel := by
  induction fuel with
  | zero =>
    constructor <;> intros <;> omega
  | succ fuel ih =>
    exact ⟨ih.step_arg hL, fun shell rest h hg _ => RT.step_argNone hL isShell fuel shell rest h hg, ih.step_args, ih.step_opArgs hL,
      ih.step_opSeq hL, ih.step_pipelineOps hL, ih.step_pipeline hL⟩

end

end Marcel
