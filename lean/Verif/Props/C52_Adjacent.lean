import Verif.Lemmas.ParserText

/-!
# C52: words and expressions written without a space between them are one argument

`/home/(user)/data` means the text `/home/`, then the value of `user`, then `/data`. The token made of them is an expression,
whose source is a Python f-string. Also: an unmatched `)` is refused (C32).
-/

namespace Marcel

/-! ### Specification -/

/-- A word, or an expression in parentheses. -/
inductive Part
  | word (w : Word)
  | expr (src : Str)

namespace Part
/-- As typed. -/
def text : Part → Str
  | word w => w.raw
  | expr src => '(' :: (src ++ [')'])
/-- As it occurs in a Python f-string: the word itself, the expression in braces. -/
def interpolated : Part → Str
  | word w => w.kept
  | expr src => '{' :: (src ++ ['}'])
/-- Words are words and expressions expressions (see Spec/Syntax.lean). -/
def WF : Part → Prop
  | word w => w.WF
  | expr src => ExprWF src
def isWord : Part → Bool
  | word _ => true
  | expr _ => false
end Part

/-- No two words next to each other: they would be one word. -/
def Alternating : List Part → Prop
  | [] => True
  | [_] => True
  | p :: q :: ps => (p.isWord && q.isWord) = false ∧ Alternating (q :: ps)

/-! ### Proof -/

/-- The token of a part. -/
def Part.tok (shell : Bool) : Part → Tok
  | .word w => w.tok shell
  | .expr src => .expr src

/-- Does the text after a token follow immediately? -/
def adjacent : Str → Bool
  | [] => false
  | c :: _ => !isspace c

theorem lex1_part (shell : Bool) (p : Part) (hp : p.WF) (rest : Str)
    (hb : p.isWord = true → Boundary (wordEnd shell) rest) :
    lex1 shell (p.text ++ rest) = .ok (some (p.tok shell, adjacent rest, skipWs rest)) := by
  cases p with
  | word w =>
    obtain ⟨c, cs, h1, h2, h3⟩ := hp.start
    have hs := C31_word shell w (fun p h => (hp.pieces p h).shell shell) rest (hb rfl)
    have hl := (Word.lit_of (Word.WF.weak hp)).1
    have hraw : w.flatMap Piece.raw = c :: cs := h1
    have ht : strToken shell (c :: cs ++ rest) = .ok (w.tok shell, rest) := by
      unfold strToken
      rw [← hraw, hs]
      simp only
      rw [show StrLit.of (w.flatMap Piece.kept) = .ok w.lit from hl]
      simp only [Word.tok, Word.raw]
      congr 3
      have : (w.flatMap Piece.raw ++ rest).length - rest.length = (w.flatMap Piece.raw).length := by simp
      rw [this, List.take_left']
      rfl
    show lex1 shell (w.raw ++ rest) = _
    unfold lex1
    rw [show w.raw = c :: cs from h1, List.cons_append, skipWs_cons _ _ h2, lexHere_word _ _ _ (wordStart_of h3),
      ← List.cons_append, ht]
    cases rest <;> rfl
  | expr src =>
    have h := lexHere_expr shell src hp rest
    unfold lex1
    have e : (Part.expr src).text ++ rest = '(' :: (src ++ ')' :: rest) := by simp [Part.text]
    rw [e, skipWs_cons _ _ isspace_lparen, h]
    cases rest <;> rfl

theorem Part.text_head (p : Part) (h : p.WF) : ∃ c cs, p.text = c :: cs ∧ isspace c = false := by
  cases p with
  | word w => obtain ⟨c, cs, h1, h2, _⟩ := h.start; exact ⟨c, cs, h1, h2⟩
  | expr src => exact ⟨'(', src ++ [')'], rfl, isspace_lparen⟩

theorem Part.consolidatable (shell : Bool) (p : Part) : (p.tok shell).consolidatable = true := by
  cases p <;> rfl

theorem boundary_expr (shell : Bool) (src rest : Str) : Boundary (wordEnd shell) ((Part.expr src).text ++ rest) := by
  intro c cs h
  simp only [Part.text, List.cons_append, List.cons.injEq] at h
  right
  rw [← h.1]
  cases shell <;> decide

/-- What follows a part in an alternating sequence. -/
theorem after_part (shell : Bool) (p : Part) (ps : List Part) (hps : ∀ q ∈ ps, q.WF) (ha : Alternating (p :: ps)) (rest : Str)
    (hr : Blank rest) (hp : p.isWord = true) : Boundary (wordEnd shell) (ps.flatMap Part.text ++ rest) := by
  cases ps with
  | nil => exact hr.boundary
  | cons q qs =>
    have : q.isWord = false := by simpa [hp] using ha.1
    cases q with
    | word w => simp [Part.isWord] at this
    | expr src =>
      rw [List.flatMap_cons, List.append_assoc]
      exact boundary_expr shell src _

theorem skipWs_parts (ps : List Part) (hps : ∀ q ∈ ps, q.WF) (rest : Str) :
    ps ≠ [] → skipWs (ps.flatMap Part.text ++ rest) = ps.flatMap Part.text ++ rest ∧
      adjacent (ps.flatMap Part.text ++ rest) = true := by
  intro h
  cases ps with
  | nil => exact absurd rfl h
  | cons p ps =>
    obtain ⟨c, cs, h1, h2⟩ := p.text_head (hps p (by simp))
    rw [List.flatMap_cons, h1, List.append_assoc, List.cons_append]
    exact ⟨skipWs_cons _ _ h2, by simp [adjacent, h2]⟩

theorem gather_parts (shell : Bool) (ps : List Part) (p : Part) (hps : ∀ q ∈ p :: ps, q.WF) (ha : Alternating (p :: ps))
    (rest : Str) (hr : Blank rest) (acc : List Tok) :
    gatherAdjacent shell acc ((p :: ps).flatMap Part.text ++ rest) =
      .ok (acc ++ (p :: ps).map (Part.tok shell), skipWs rest) := by
  induction ps generalizing p acc with
  | nil =>
    have h := lex1_part shell p (hps p (by simp)) rest (fun hw => hr.boundary)
    rw [show [p].flatMap Part.text ++ rest = p.text ++ rest by simp, gatherAdjacent.eq_def, h]
    have hadj : adjacent rest = false := by
      cases rest with
      | nil => rfl
      | cons c cs => simp [adjacent, hr c cs rfl]
    simp [Part.consolidatable, hadj]
  | cons q qs ih =>
    have hq : ∀ q' ∈ q :: qs, q'.WF := fun q' hq' => hps q' (List.mem_cons_of_mem _ hq')
    have h := lex1_part shell p (hps p (by simp)) ((q :: qs).flatMap Part.text ++ rest)
      (after_part shell p (q :: qs) hq ha rest hr)
    obtain ⟨e1, e2⟩ := skipWs_parts (q :: qs) hq rest (by simp)
    have hi := ih q hq ha.2 (acc ++ [p.tok shell])
    rw [e1, e2] at h
    have et : (p :: q :: qs).flatMap Part.text ++ rest = p.text ++ ((q :: qs).flatMap Part.text ++ rest) := by
      simp [List.flatMap_cons]
    rw [et, gatherAdjacent.eq_def, h]
    simp only [Part.consolidatable, if_true]
    rw [hi]
    simp

theorem consolidateText_parts (shell : Bool) (ps : List Part) (hps : ∀ q ∈ ps, q.WF) :
    consolidateText (ps.map (Part.tok shell)) =
      '(' :: (('f' :: ("'''".toList ++ ps.flatMap Part.interpolated ++ "'''".toList)) ++ [')']) := by
  have : (ps.map (Part.tok shell)).flatMap consolidatePart = ps.flatMap Part.interpolated := by
    induction ps with
    | nil => rfl
    | cons p ps ih =>
      rw [List.map_cons, List.flatMap_cons, List.flatMap_cons, ih (fun q hq => hps q (by simp [hq]))]
      congr 1
      cases p with
      | word w =>
        have h := (Word.lit_of (Word.WF.weak (hps (.word w) (by simp)))).1
        show w.lit.original = w.kept
        revert h
        unfold StrLit.of
        split
        · simp
        · next c cs he =>
          split
          · intro h
            simp only [Except.ok.injEq] at h
            rw [← h, he]
          · intro h
            obtain ⟨z, h1, h2⟩ := map_eq_ok h
            rw [← h2, he]
      | expr src => rfl
  unfold consolidateText
  rw [this]
  show ['(', 'f', '\'', '\'', '\''] ++ _ ++ ['\'', '\'', '\'', ')'] = '(' :: 'f' :: (['\'', '\'', '\''] ++ _ ++ ['\'', '\'', '\'']) ++ [')']
  simp

/-! ### C52 -/

/-- **C52, partial.** Two or more words and expressions written without blanks between them, followed by a blank or the end of the
text, are read as one token: an expression, whose source is the Python f-string that has the words as they are (as kept by the lexer,
with quotes and escapes) and the expressions in braces, in the order they are written. This is so in marcel's and in shell
mode, provided that those texts between three single quotes are a Python string. Missing: the other case
(`C52_false_quote`), and a word that itself contains a brace (`C52_false_brace`). -/
theorem C52_partial (shell : Bool) (ps : List Part) (hn : 2 ≤ ps.length) (hps : ∀ p ∈ ps, p.WF) (ha : Alternating ps)
    (hl : PyLit ("'''".toList ++ ps.flatMap Part.interpolated ++ "'''".toList)) (rest : Str) (hr : Blank rest) :
    nextToken shell (ps.flatMap Part.text ++ rest) =
      .ok (some (.expr ('f' :: ("'''".toList ++ ps.flatMap Part.interpolated ++ "'''".toList)), skipWs rest)) := by
  match ps, hn with
  | p :: q :: qs, _ =>
    have hq : ∀ q' ∈ q :: qs, q'.WF := fun q' hq' => hps q' (List.mem_cons_of_mem _ hq')
    have h := lex1_part shell p (hps p (by simp)) ((q :: qs).flatMap Part.text ++ rest)
      (after_part shell p (q :: qs) hq ha rest hr)
    obtain ⟨e1, e2⟩ := skipWs_parts (q :: qs) hq rest (by simp)
    rw [e1, e2] at h
    have hg := gather_parts shell qs q hq ha.2 rest hr [p.tok shell]
    have hc : consolidate ([p.tok shell] ++ (q :: qs).map (Part.tok shell)) =
        .ok (.expr ('f' :: ("'''".toList ++ (p :: q :: qs).flatMap Part.interpolated ++ "'''".toList))) := by
      unfold consolidate
      rw [show [p.tok shell] ++ (q :: qs).map (Part.tok shell) = (p :: q :: qs).map (Part.tok shell) from rfl,
        consolidateText_parts shell _ hps]
      simp only
      rw [C32_matching _ []]
      refine .chr 'f' _ (by decide) (by decide) (by decide) (by decide) ?_
      have := Balanced.lit _ [] hl .nil (by
        intro q hq
        exact absurd (congrArg List.length hq) (by simp))
      simpa using this
    have et : (p :: q :: qs).flatMap Part.text ++ rest = p.text ++ ((q :: qs).flatMap Part.text ++ rest) := by
      simp [List.flatMap_cons]
    unfold nextToken
    rw [et, h]
    simp only [Part.consolidatable, Bool.and_self, if_true]
    rw [hg]
    simp only
    rw [if_pos (by simp), hc]

/-- The condition of `C52_partial` holds if there are no quotes and backslashes in what is written. -/
theorem C52_plain (s : Str) (h1 : '\'' ∉ s) (h2 : '\\' ∉ s) : PyLit ("'''".toList ++ s ++ "'''".toList) := by
  have hmap : ∀ s : Str, (s.map DItem.chr).flatMap DItem.raw = s := by
    intro s
    induction s with
    | nil => rfl
    | cons c s ih => rw [List.map_cons, List.flatMap_cons, ih]; rfl
  have := PyLit.triple '\'' (s.map .chr) (.inl rfl) (by
    intro c hc
    obtain ⟨d, hd, he⟩ := List.mem_map.1 hc
    simp only [DItem.chr.injEq] at he
    subst he
    rintro rfl
    exact h2 hd) (by
    intro a b hab hb hpre
    cases b with
    | nil => exact hb rfl
    | cons x b =>
      have hx : x ∈ s.map DItem.chr := by rw [hab]; simp
      obtain ⟨d, hd, rfl⟩ := List.mem_map.1 hx
      obtain ⟨t, ht⟩ := hpre
      simp only [List.cons_append, List.flatMap_cons, DItem.raw, List.cons.injEq] at ht
      exact h1 (ht.1 ▸ hd))
  rw [hmap] at this
  exact this

/-- An expression that stands alone, followed by a blank, is that expression (it is not made an f-string). -/
theorem C52_alone (shell : Bool) (p : Part) (hp : p.WF) (rest : Str) (hr : Blank rest) :
    nextToken shell (p.text ++ rest) = .ok (some (p.tok shell, skipWs rest)) := by
  have h := lex1_part shell p hp rest (fun _ => hr.boundary)
  have hadj : adjacent rest = false := by
    cases rest with
    | nil => rfl
    | cons c cs => simp [adjacent, hr c cs rfl]
  unfold nextToken
  rw [h, hadj]
  simp

/-- **C52 is false if the last word ends with a single quote**: `(x)'a'` is refused, although `(x)` and `'a'` are
an expression and a word: the f-string `f'''{x}'a''''` is not a Python string. -/
theorem C52_false_quote : nextToken false "(x)'a'".toList = .error .notPythonString := by
  have hw : (Part.word [.single ['a']]).WF := by
    refine ⟨by simp [Piece.WF], ⟨'\'', ['a', '\''], rfl, ?_, by decide⟩, ?_⟩
    · unfold isspace; decide
    · exact ⟨_, rfl, rfl⟩
  have he : (Part.expr ['x']).WF := ⟨.chr 'x' [] (by decide) (by decide) (by decide) (by decide) .nil, by decide⟩
  have h1 := lex1_part false (.expr ['x']) he ['\'', 'a', '\''] (by simp [Part.isWord])
  have h2 := gather_parts false [] (.word [.single ['a']]) (by simpa using hw) trivial [] (by intro c cs h; simp at h)
    [(Part.expr ['x']).tok false]
  have hq : isspace '\'' = false := by unfold isspace; decide
  show nextToken false ((Part.expr ['x']).text ++ ['\'', 'a', '\'']) = _
  unfold nextToken
  rw [h1]
  simp only [adjacent, hq, Bool.not_false, Part.consolidatable, Bool.and_self, if_true, skipWs_cons _ _ hq]
  rw [show gatherAdjacent false [(Part.expr ['x']).tok false] ['\'', 'a', '\''] = _ from h2]
  simp only
  rw [if_pos (by simp)]
  have hc : consolidate ([(Part.expr ['x']).tok false] ++ [Part.word [.single ['a']]].map (Part.tok false)) =
      .error .notPythonString := by
    unfold consolidate
    have ht := consolidateText_parts false [.expr ['x'], .word [.single ['a']]] (by
      intro q hq; rcases List.mem_cons.1 hq with rfl | hq
      · exact he
      · simp at hq; subst hq; exact hw)
    rw [show [(Part.expr ['x']).tok false] ++ [Part.word [.single ['a']]].map (Part.tok false) =
      [Part.expr ['x'], Part.word [.single ['a']]].map (Part.tok false) from rfl, ht]
    have ex : exprScan 1 ['f', '\'', '\'', '\'', '{', 'x', '}', '\'', 'a', '\'', '\'', '\'', '\'', ')'] = .error .notPythonString := by
      rw [exprScan_chr 1 (by decide) 'f' _ (by decide) (by decide) (by decide) (by decide)]
      rw [exprScan_quote_ok 1 (by decide) '\'' _ ['\'', ')'] (by decide) (by simp [pyString, pyStrScan, isQuote])]
      exact exprScan_quote_error 1 (by decide) '\'' _ .notPythonString (by decide) (by simp [pyString, pyStrScan, isQuote])
    have ey : exprToken ['f', '\'', '\'', '\'', '{', 'x', '}', '\'', 'a', '\'', '\'', '\'', '\'', ')'] = .error .notPythonString := by
      unfold exprToken
      rw [ex]
    exact (by rw [show (('f' :: ("'''".toList ++ [Part.expr ['x'], Part.word [.single ['a']]].flatMap Part.interpolated ++ "'''".toList)) ++ [')']) = ['f', '\'', '\'', '\'', '{', 'x', '}', '\'', 'a', '\'', '\'', '\'', '\'', ')'] from rfl]; simp only; rw [ey])
  rw [hc]

/-- **C52 is false if a word contains braces**: the word `{y}` next to the expression `(x)` gives the same token as
the expressions `(y)` and `(x)`: the value of `y` is put in place of the text `{y}`. -/
theorem C52_false_brace :
    nextToken false "{y}(x)".toList = nextToken false "(y)(x)".toList ∧
    nextToken false "{y}(x)".toList = .ok (some (.expr "f'''{y}{x}'''".toList, [])) := by
  have sp : ∀ c ∈ ['{', 'y', '}'], isspace c = false := by
    intro c hc
    simp only [List.mem_cons, List.not_mem_nil, or_false] at hc
    rcases hc with rfl | rfl | rfl <;> (unfold isspace; decide)
  have hw : (Part.word [.plain '{', .plain 'y', .plain '}']).WF := by
    refine ⟨?_, ⟨'{', ['y', '}'], rfl, sp _ (by simp), by decide⟩, ⟨_, rfl, rfl⟩⟩
    intro p hp
    simp only [List.mem_cons, List.not_mem_nil, or_false] at hp
    rcases hp with rfl | rfl | rfl <;> exact ⟨sp _ (by simp), by decide, by decide, by decide, by decide⟩
  have he : ∀ c, c = 'x' ∨ c = 'y' → (Part.expr [c]).WF := by
    rintro c (rfl | rfl)
    · exact ⟨.chr 'x' [] (by decide) (by decide) (by decide) (by decide) .nil, by decide⟩
    · exact ⟨.chr 'y' [] (by decide) (by decide) (by decide) (by decide) .nil, by decide⟩
  have hl : PyLit ("'''".toList ++ ['{', 'y', '}', '{', 'x', '}'] ++ "'''".toList) := C52_plain _ (by decide) (by decide)
  have hb : Blank [] := by intro c cs h; simp at h
  have h1 := C52_partial false [.word [.plain '{', .plain 'y', .plain '}'], .expr ['x']] (by simp) (by
    intro q hq; rcases List.mem_cons.1 hq with rfl | hq
    · exact hw
    · simp at hq; subst hq; exact he _ (.inl rfl)) ⟨rfl, trivial⟩ hl [] hb
  have h2 := C52_partial false [.expr ['y'], .expr ['x']] (by simp) (by
    intro q hq; rcases List.mem_cons.1 hq with rfl | hq
    · exact he _ (.inr rfl)
    · simp at hq; subst hq; exact he _ (.inl rfl)) ⟨rfl, trivial⟩ hl [] hb
  exact ⟨h1.trans h2.symm, h1⟩

/-! ### C32: an unmatched `)` -/

/-- **C32, unmatched `)`.** Where a token is expected (after any blanks), a `)` is refused, whatever follows. -/
theorem C32_unmatched_close (shell : Bool) (blanks rest : Str) (hb : ∀ c ∈ blanks, isspace c = true) :
    nextToken shell (blanks ++ ')' :: rest) = .error .unmatchedClose := by
  have hs : skipWs (blanks ++ ')' :: rest) = ')' :: rest := by
    induction blanks with
    | nil => exact skipWs_cons _ _ (isspace_symbol _ (by decide))
    | cons c cs ih =>
      have h := hb c (by simp)
      have := ih (fun d hd => hb d (by simp [hd]))
      simpa [skipWs, h] using this
  have h : lex1 shell (blanks ++ ')' :: rest) = .error .unmatchedClose := by
    unfold lex1
    rw [hs]
    cases shell <;> simp [lexHere, startsWith, List.isPrefixOf]
  unfold nextToken
  rw [h]

/-- Directly after a word or an expression a `)` is refused too. -/
theorem C32_unmatched_close_adjacent (shell : Bool) (p : Part) (hp : p.WF) (rest : Str) :
    nextToken shell (p.text ++ ')' :: rest) = .error .unmatchedClose := by
  have hc : isspace ')' = false := isspace_symbol _ (by decide)
  have h := lex1_part shell p hp (')' :: rest) (fun _ => by
    intro c cs h
    right
    simp only [List.cons.injEq] at h
    rw [← h.1]
    cases shell <;> decide)
  have h2 : lex1 shell (')' :: rest) = .error .unmatchedClose := by
    unfold lex1
    rw [skipWs_cons _ _ hc]
    cases shell <;> simp [lexHere, startsWith, List.isPrefixOf]
  have h3 : gatherAdjacent shell [p.tok shell] (')' :: rest) = .error .unmatchedClose := by
    rw [gatherAdjacent.eq_def, h2]
  unfold nextToken
  rw [h]
  simp only [adjacent, hc, Bool.not_false, Part.consolidatable, Bool.and_self, if_true, skipWs_cons _ _ hc, h3]

end Marcel
