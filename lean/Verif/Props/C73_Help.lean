import Verif.Lemmas.HelpFormat

/-! # C73: help is shown as it was written

`help` formats text with markup: `{b:bold}`, `{p}`, `{L,indent=4:6}`, ... A document that follows the rules of the markup language is shown completely and with the layout asked for, whatever the width of the
console: no character is lost or invented, nothing is highlighted that isn't marked and everything marked is, with its colour. The rules are needed: documents that break them are shown not at all. -/

namespace Marcel.Help

variable {C : Type}

/-- For every well-formed document, whatever wraps lines (without changing anything but blanks), the output
(1) without colours is the layouts of the paragraphs, one below the other;
(2) has the characters of the document in order, with their colours, but for blanks;
(3) has, for each formatted text, exactly one piece that is highlighted, with its colour;
(4) and such a piece has no blanks around it. -/
theorem C73_help (wrapper : Str → Str → Str → List Str) (hw : KeepsText wrapper) (s : Scheme C) (d : Doc) (h : d.WF) :
    ∃ out, format wrapper s d.raw = .ok out ∧
      out.flatMap Prod.fst = List.intercalate ['\n'] (d.paragraphs.map (Paragraph.layout wrapper)) ∧
      solidColored (out.flatMap segColored) = solidColored (d.items.flatMap (Item.colored s)) ∧
      out.filterMap segHighlight = d.items.filterMap (Item.highlight s) ∧
      ∀ t c, (t, some c) ∈ out → trim t = t := by
  obtain ⟨out, h1, h2, h3, h4, h5⟩ := format_ok hw s d h
  exact ⟨out, h1, h2, by simpa using h3, h4, h5⟩

/-- The runs that make up paragraphs: together all the lines; in a run all lines are blank or none is; and neighbours differ. -/
theorem C73_runs (ls : List (List Item)) :
    (runs ls).flatten = ls ∧ (∀ g ∈ runs ls, g ≠ [] ∧ ∀ l ∈ g, ∀ l' ∈ g, blankLine l = blankLine l') ∧
      (∀ a g g' b, runs ls = a ++ g :: g' :: b → ∀ l ∈ g, ∀ l' ∈ g', blankLine l ≠ blankLine l') := by
  refine ⟨runs_flatten ls, ?_⟩
  induction ls with
  | nil => exact ⟨by simp [runs], by intro a g g' b e; simp [runs] at e⟩
  | cons x ls ih =>
    obtain ⟨ih1, ih2⟩ := ih
    cases ls with
    | nil =>
      refine ⟨by simp [runs], ?_⟩
      intro a g g' b e
      simp only [runs] at e
      have := congrArg List.length e
      simp at this
      omega
    | cons y ls =>
      obtain ⟨g0, gs, e⟩ := runs_head y ls
      rw [e] at ih1 ih2
      have huni := (ih1 (y :: g0) (by simp)).2
      rw [runs, e]
      simp only
      by_cases hb : blankLine x = blankLine y
      · rw [if_pos hb]
        have hx : ∀ l ∈ x :: y :: g0, blankLine l = blankLine y := by
          intro l hl
          rcases List.mem_cons.1 hl with rfl | hl
          · exact hb
          · exact huni l hl y (by simp)
        refine ⟨?_, ?_⟩
        · intro g hg
          rcases List.mem_cons.1 hg with rfl | hg
          · exact ⟨by simp, fun l hl l' hl' => (hx l hl).trans (hx l' hl').symm⟩
          · exact ih1 g (by simp [hg])
        · intro a g g' b e' l hl l' hl'
          cases a with
          | nil =>
            simp only [List.nil_append, List.cons.injEq] at e'
            obtain ⟨rfl, e'⟩ := e'
            rw [hx l hl]
            exact ih2 [] (y :: g0) g' b (by rw [e']; rfl) y (by simp) l' hl'
          | cons a0 as =>
            simp only [List.cons_append, List.cons.injEq] at e'
            exact ih2 ((y :: g0) :: as) g g' b (by rw [e'.2]; rfl) l hl l' hl'
      · rw [if_neg hb]
        refine ⟨?_, ?_⟩
        · intro g hg
          rcases List.mem_cons.1 hg with rfl | hg
          · exact ⟨by simp, by simp⟩
          · exact ih1 g hg
        · intro a g g' b e' l hl l' hl'
          cases a with
          | nil =>
            simp only [List.nil_append, List.cons.injEq] at e'
            obtain ⟨rfl, rfl, e'⟩ := e'
            rw [List.mem_singleton.1 hl, huni l' hl' y (by simp)]
            exact hb
          | cons a0 as =>
            simp only [List.cons_append, List.cons.injEq] at e'
            exact ih2 as g g' b e'.2 l hl l' hl'

/-! ## An example -/

/-- A wrapper for a console of any width: everything on one line. -/
def oneLine (a _b t : Str) : List Str := [a ++ t]

theorem oneLine_keeps : KeepsText oneLine := by
  intro a b t ha _
  simp [oneLine, solid_append, solid_blank ha]

/-- A wrapper that puts each word on its own line. -/
def perWord (a b t : Str) : List Str :=
  match (splitOn ' ' t).filter (· ≠ []) with
  | [] => []
  | w :: ws => (a ++ w) :: ws.map (b ++ ·)

theorem solid_splitOn (t : Str) : solid (splitOn ' ' t).flatten = solid t := by
  induction t with
  | nil => rfl
  | cons c cs ih =>
    by_cases h : c = ' '
    · simp only [splitOn, if_pos h, List.flatten_cons, List.nil_append, ih]
      rw [h, solid_cons_blank space_blank]
    · rcases hs : splitOn ' ' cs with _ | ⟨w, ws⟩
      · exact absurd hs (splitOn_ne _ _)
      · rw [splitOn_cons h hs]
        rw [hs] at ih
        simp only [List.flatten_cons, List.cons_append] at ih ⊢
        rcases Bool.eq_false_or_eq_true (isspace c) with hc | hc
        · rw [solid_cons_blank hc, solid_cons_blank hc, ih]
        · rw [solid_cons hc, solid_cons hc, ih]

theorem perWord_keeps : KeepsText perWord := by
  intro a b t ha hb
  have h1 : ∀ l : List Str, (l.filter (· ≠ [])).flatten = l.flatten := by
    intro l
    induction l with
    | nil => rfl
    | cons x xs ih =>
      by_cases hx : x = []
      · rw [List.filter_cons_of_neg (by simp [hx]), ih, hx]; rfl
      · rw [List.filter_cons_of_pos (by simp [hx]), List.flatten_cons, ih]; rfl
  rw [← solid_splitOn t, ← h1 (splitOn ' ' t)]
  unfold perWord
  split
  · rename_i h; rw [h]
  · rename_i w ws h
    rw [h, List.flatten_cons, List.flatten_cons, solid_append, solid_append, solid_append, solid_blank ha, List.nil_append]
    congr 1
    clear h
    induction ws with
    | nil => rfl
    | cons v vs ih => rw [List.map_cons, List.flatten_cons, List.flatten_cons, solid_append, solid_append, solid_append, solid_blank hb, ih]; rfl

/-- The characters of a string, to be written as they are. -/
def plainItems (s : String) : List Item := s.toList.map fun c => .chr (.plain c)

/-- `Use {r:ls} \{x\}.\n\nEnd{L,indent=2:4,wrap=F}\n{c123b:a\nb} c\nd` -/
def sample : Doc :=
  { intro := plainItems "Use " ++ [.mark .reference ['r'] ("ls".toList.map .plain)] ++ plainItems " " ++ [.chr (.escaped '{'), .chr (.plain 'x'), .chr (.escaped '}')] ++ plainItems ".\n\nEnd"
    sections := [⟨⟨2, 4, false⟩, "L,indent=2:4,wrap=F".toList, plainItems "\n" ++ [.mark (.rgb 1 2 3 true false) "c123b".toList ("a\nb".toList.map .plain)] ++ plainItems " c\nd"⟩] }

theorem sample_raw : sample.raw = "Use {r:ls} \\{x\\}.\n\nEnd{L,indent=2:4,wrap=F}\n{c123b:a\nb} c\nd".toList := by decide +kernel

theorem sample_chars : (∀ i ∈ plainItems "Use ", i.WF) ∧ (∀ i ∈ plainItems " ", i.WF) ∧ (∀ i ∈ plainItems ".\n\nEnd", i.WF) ∧ (∀ i ∈ plainItems "\n", i.WF) ∧ (∀ i ∈ plainItems " c\nd", i.WF) := by
  have key : ∀ s : String, (∀ c ∈ s.toList, (TChar.plain c).WF) → ∀ i ∈ plainItems s, i.WF := by
    intro s hs i hi
    obtain ⟨c, hc, rfl⟩ := List.mem_map.1 hi
    exact hs c hc
  exact ⟨key _ (by decide +kernel), key _ (by decide +kernel), key _ (by decide +kernel), key _ (by decide +kernel), key _ (by decide +kernel)⟩

theorem sample_wf : sample.WF := by
  obtain ⟨h1, h2, h3, h4, h5⟩ := sample_chars
  refine ⟨?_, ?_, ?_, ?_, ?_, trivial⟩
  · intro i hi
    simp only [sample, List.mem_append, List.mem_cons, List.not_mem_nil, or_false] at hi
    rcases hi with (((hi | rfl) | hi) | rfl | rfl | rfl) | hi
    · exact h1 i hi
    · exact ⟨.reference, by decide +kernel, by decide +kernel, by decide +kernel⟩
    · exact h2 i hi
    · show isspace '{' = false; decide +kernel
    · show _ ∧ _ ∧ _; decide +kernel
    · show isspace '}' = false; decide +kernel
    · exact h3 i hi
  · unfold noBackslash; decide +kernel
  · have hd : ∀ k, k < 10 → True := fun _ _ => trivial
    have e : Props.Written (propsOf true [.indent 2 4, .wrap false]) ('L' :: (',' :: ("indent".toList ++ '=' :: ['2'] ++ ':' :: ['4']) ++ (',' :: ("wrap".toList ++ ['=', 'F']) ++ []))) := by
      refine .l 'L' _ _ (.inr rfl) (.cons _ _ _ _ (.indents _ _ _ 2 4 (by decide +kernel) ?_ ?_) (.cons _ _ _ _ (.wrapFalse _ 'F' (by decide +kernel) (.inr rfl)) .nil))
      · exact .pos [2] (by simp)
      · exact .pos [4] (by simp)
    have e2 : ('L' :: (',' :: ("indent".toList ++ '=' :: ['2'] ++ ':' :: ['4']) ++ (',' :: ("wrap".toList ++ ['=', 'F']) ++ []))) = "L,indent=2:4,wrap=F".toList := by decide +kernel
    rw [e2] at e
    exact e
  · intro i hi
    simp only [List.mem_append, List.mem_cons, List.not_mem_nil, or_false] at hi
    rcases hi with (hi | rfl) | hi
    · exact h4 i hi
    · refine ⟨?_, by decide +kernel, by decide +kernel, by decide +kernel⟩
      have := Fmt.Written.rgb 'c' 1 2 3 ['b'] (.inl rfl) (by decide) (by simp)
      have e3 : ('c' :: Exec.digit 1 :: Exec.digit 2 :: Exec.digit 3 :: ['b']) = "c123b".toList := by decide +kernel
      rw [e3] at this
      exact this
    · exact h5 i hi
  · intro _; decide +kernel

/-- What the sample looks like: names of colours as colours. -/
def names : Scheme String := ⟨"reference", "bold", "italic", "name", fun r g b bold italic => s!"{r}{g}{b}{bold}{italic}"⟩

theorem sample_layout : List.intercalate ['\n'] (sample.paragraphs.map (Paragraph.layout perWord)) = "Use\nls\n{x}.\n\nEnd\n  a\n    b c\n    d".toList := by decide +kernel

theorem sample_shown : ∃ out, format perWord names sample.raw = .ok out ∧ out.flatMap Prod.fst = "Use\nls\n{x}.\n\nEnd\n  a\n    b c\n    d".toList ∧
    out.filterMap segHighlight = [("ls".toList, "reference"), ("ab".toList, "123truefalse")] := by
  obtain ⟨out, h1, h2, _, h4, _⟩ := C73_help perWord perWord_keeps names sample sample_wf
  refine ⟨out, h1, by rw [h2, sample_layout], by rw [h4]; decide +kernel⟩

/-! ## What breaks the rules -/

theorem stray_blocks {t : Str} (h : Simple t) (x : Char) (hx : ∀ b, (Ptr.mk b [x]).next.1 ≠ .opening ∧ (Ptr.mk b [x]).next.2 = ⟨x :: b, []⟩) : findBlocks ((t ++ [x]).length + 1) ⟨[], t ++ [x]⟩ = .ok [.text (t ++ [x])] := by
  have h1 : (Ptr.mk [] (t ++ [x])).atEnd = false := by simp [Ptr.atEnd]
  have h2 : (Ptr.mk [] (t ++ [x])).advancePast .opening = ⟨x :: t.reverse, []⟩ := by
    rw [advancePast_simple open_ne h, List.append_nil]
    by_cases he : (Ptr.mk t.reverse [x]).next.1 = .ended
    · rw [advancePast_stop (.inr he), (hx _).2]
    · rw [advancePast_step (hx _).1 he, (hx _).2, advancePast_end]
  have h3 : found ⟨[], t ++ [x]⟩ = ⟨x :: t.reverse, []⟩ := by
    unfold found; rw [h2]; rfl
  have h4 : findParagraphMarkup ⟨[], t ++ [x]⟩ = .ok none := by
    unfold findParagraphMarkup
    simp only
    rw [show findOpen _ _ = found ⟨[], t ++ [x]⟩ from rfl, h3]; rfl
  rw [findBlocks, h1, if_neg (by simp), h4]

theorem stray_remove (s : Scheme C) (r : Str) (hr : ∀ b, (Ptr.mk b r).atEnd = false ∧ ((Ptr.mk b r).peek = .closing ∨ (Ptr.mk b r).peek = .ended)) :
    ∀ (t : Str) (n : Nat) (b : Str) (k : Nat) (p : Str) (ms : List (Mark C)), Simple t → removeLoop s n ⟨b, t ++ r⟩ k p ms = .error .hang
  | _, 0, _, _, _, _, _ => rfl
  | [], n + 1, b, k, p, ms, _ => by
    obtain ⟨h1, h2⟩ := hr b
    rw [List.nil_append, removeLoop, h1, if_neg (by simp)]
    rcases h2 with h2 | h2 <;> rw [h2]
  | c :: t, n + 1, b, k, p, ms, h => by
    have hc := h c (by simp)
    rw [List.cons_append, removeLoop, show (Ptr.mk b (c :: (t ++ r))).atEnd = false from rfl, if_neg (by simp), peek_plain hc]
    simp only
    rw [next_plain hc]
    exact stray_remove s r hr t n _ _ _ _ (fun x hx => h x (by simp [hx]))

theorem stray_hangs (wrapper : Str → Str → Str → List Str) (s : Scheme C) {t : Str} (h : Simple t) (hn : '\n' ∉ t) (x : Char) (hb : isspace x = false)
    (hx : ∀ b, (Ptr.mk b [x]).next.1 ≠ .opening ∧ (Ptr.mk b [x]).next.2 = ⟨x :: b, []⟩)
    (hr : ∀ b, (Ptr.mk b [x]).atEnd = false ∧ ((Ptr.mk b [x]).peek = .closing ∨ (Ptr.mk b [x]).peek = .ended)) : format wrapper s (t ++ [x]) = .error .hang := by
  have hnl : '\n' ∉ t ++ [x] := by
    simp only [List.mem_append, List.mem_singleton, not_or]
    exact ⟨hn, fun e => by rw [← e, space_nl] at hb; exact absurd hb (by simp)⟩
  have hbl : (t ++ [x]).all isspace = false := by simp [hb]
  unfold format
  rw [stray_blocks h x hx]
  simp only [makeParagraphs, makeLoop, splitOn_none hnl, dropIgnored, List.getLast?_singleton, hbl, Bool.false_eq_true, if_false, List.foldl_cons, List.foldl_nil, addLine, Para.accepts,
    List.getLast?_nil, if_true, List.nil_append, List.reverse_singleton, formatParagraphs, formatParagraph, normalize, join, removeMarkup]
  rw [stray_remove s [x] hr t _ _ _ _ _ h]

/-- A brace that closes nothing: `help` hangs, after any line of characters that stand for themselves. -/
theorem C73_stray_brace_hangs (wrapper : Str → Str → Str → List Str) (s : Scheme C) {t : Str} (h : Simple t) (hn : '\n' ∉ t) : format wrapper s (t ++ ['}']) = .error .hang :=
  stray_hangs wrapper s h hn '}' brace_blank.2.1 (fun b => by rw [next_close]; simp) (fun b => ⟨rfl, .inl rfl⟩)

/-- A backslash at the end: `help` hangs. -/
theorem C73_last_backslash_hangs (wrapper : Str → Str → Str → List Str) (s : Scheme C) {t : Str} (h : Simple t) (hn : '\n' ∉ t) : format wrapper s (t ++ ['\\']) = .error .hang :=
  stray_hangs wrapper s h hn '\\' brace_blank.2.2 (fun b => ⟨by simp [Ptr.next], rfl⟩) (fun b => ⟨rfl, .inr rfl⟩)

/-- Markup of a paragraph at the end of a text is an error ("Unterminated markup"), whatever precedes it. -/
theorem C73_paragraph_last_fails (wrapper : Str → Str → Str → List Str) (s : Scheme C) {is : List Item} (h : ∀ i ∈ is, i.WF) {p : Props} {spec : Str} (hp : p.Written spec) :
    format wrapper s (itemsRaw is ++ '{' :: (spec ++ ['}'])) = .error .exception := by
  have h0 := found_items is h [] ('{' :: (spec ++ ['}']))
  obtain ⟨h1, ⟨c, u, hs, hcm⟩, _⟩ := props_written hp
  have h2 : found ⟨[], itemsRaw is ++ '{' :: (spec ++ ['}'])⟩ = ⟨'{' :: (itemsRaw is).reverse, spec ++ ['}']⟩ := by
    rw [h0, hs, List.cons_append, found_par hcm, List.append_nil]
  have h3 : (Ptr.mk ('{' :: (itemsRaw is).reverse) (spec ++ ['}'])).advancePast .closing = ⟨'}' :: (spec.reverse ++ '{' :: (itemsRaw is).reverse), []⟩ := by
    rw [advancePast_simple close_ne h1, advancePast_stop (by left; rw [next_close]), next_close]
  have h4 : findParagraphMarkup ⟨[], itemsRaw is ++ '{' :: (spec ++ ['}'])⟩ = .error .exception := by
    unfold findParagraphMarkup
    simp only
    rw [show findOpen _ _ = found ⟨[], itemsRaw is ++ '{' :: (spec ++ ['}'])⟩ from rfl, h2, h3]
    rw [show (Ptr.mk ('{' :: (itemsRaw is).reverse) (spec ++ ['}'])).atEnd = false by simp [Ptr.atEnd]]
    rfl
  unfold format
  rw [findBlocks, show (Ptr.mk [] (itemsRaw is ++ '{' :: (spec ++ ['}']))).atEnd = false by simp [Ptr.atEnd], if_neg (by simp), h4]

/-- Fails with the given exception. -/
def failsWith {α : Type} (f : Fail) : Except Fail α → Bool
  | .error e => e = f
  | .ok _ => false

/-- An escaped backslash before the markup of a paragraph is an error. -/
theorem C73_backslash_paragraph_fails : failsWith .invalidMarkup (format oneLine names "a\\\\{p}b".toList) = true := by decide +kernel

/-- Formatted text without anything to see at the end of a text is an IndexError. -/
theorem C73_empty_markup_fails : failsWith .indexError (format oneLine names "a{b:}".toList) = true := by decide +kernel

/-- A blank line in formatted text is an error. -/
theorem C73_blank_line_in_markup_fails : failsWith .invalidMarkup (format oneLine names "{b:x\n\ny}".toList) = true := by decide +kernel

/-- An option after a blank is ignored: `{L, indent=8:8}` is the same as `{L}`. -/
theorem C73_blank_before_option_ignored : (parseParagraph "{L, indent=8:8}".toList).toOption = some ⟨4, 6, true⟩ ∧ (parseParagraph "{L,indent=8:8}".toList).toOption = some ⟨8, 8, true⟩ := by
  decide +kernel

end Marcel.Help
