import Verif.Lemmas.HelpBlocks

/-! # Lemmas about the formatting of help: paragraphs -/

namespace Marcel.Help

/-- The line end. -/
abbrev nl : Item := .chr (.plain '\n')

/-- The pieces of a line, as written, cut at line ends in formatted text. -/
def pieces (l : List Item) : List Str := splitOn '\n' (itemsRaw l)

theorem lines_ne (is : List Item) : lines is ≠ [] := by
  cases is with
  | nil => simp [lines]
  | cons i is =>
    simp only [lines]
    split
    · simp
    · split <;> simp

theorem lines_nl (is : List Item) : lines (nl :: is) = [] :: lines is := by
  simp only [lines]
  split
  · rename_i h; exact absurd h (lines_ne is)
  · rename_i l ls h; rw [h]; simp

theorem lines_cons {i : Item} {is l : List Item} {ls : List (List Item)} (h : i ≠ nl) (e : lines is = l :: ls) : lines (i :: is) = (i :: l) :: ls := by
  simp only [lines, e, if_neg h]

theorem pieces_lines : ∀ is : List Item, splitOn '\n' (itemsRaw is) = (lines is).flatMap pieces
  | [] => rfl
  | i :: is => by
    have ih := pieces_lines is
    by_cases h : i = nl
    · subst h
      rw [lines_nl, List.flatMap_cons, ← ih]
      simp [itemsRaw, Item.raw, TChar.raw, splitOn, pieces]
    · rcases hl : lines is with _ | ⟨l, ls⟩
      · exact absurd hl (lines_ne is)
      · rw [lines_cons h hl, List.flatMap_cons]
        rw [hl, List.flatMap_cons] at ih
        rcases hp : pieces l with _ | ⟨x, xs⟩
        · exact absurd hp (splitOn_ne _ _)
        · rw [hp] at ih
          rcases List.eq_nil_or_concat (splitOn '\n' i.raw) with hi | ⟨a, z, hi⟩
          · exact absurd hi (splitOn_ne _ _)
          · rw [List.concat_eq_append] at hi
            have e1 := splitOn_append '\n' (itemsRaw is) x (xs ++ ls.flatMap pieces) ih i.raw z a hi
            have e2 := splitOn_append '\n' (itemsRaw l) x xs hp i.raw z a hi
            have e3 : pieces (i :: l) = a ++ (z ++ x) :: xs := e2
            rw [e3]
            simp only [itemsRaw, List.flatMap_cons] at e1 ⊢
            rw [e1]
            simp

/-- A line of well-formed items. -/
def Good (l : List Item) : Prop := (∀ i ∈ l, i.WF) ∧ nl ∉ l

theorem lines_good : ∀ is : List Item, (∀ i ∈ is, i.WF) → ∀ l ∈ lines is, Good l
  | [], _ => by
    intro l hl
    simp only [lines, List.mem_singleton] at hl
    subst hl
    exact ⟨by simp, by simp⟩
  | i :: is, hw => by
    have ih := lines_good is (fun x hx => hw x (by simp [hx]))
    by_cases h : i = nl
    · subst h
      rw [lines_nl]
      intro l hl
      rcases List.mem_cons.1 hl with rfl | hl
      · exact ⟨by simp, by simp⟩
      · exact ih l hl
    · rcases he : lines is with _ | ⟨l, ls⟩
      · exact absurd he (lines_ne is)
      · rw [lines_cons h he]
        rw [he] at ih
        intro x hx
        rcases List.mem_cons.1 hx with rfl | hx
        · obtain ⟨g1, g2⟩ := ih l (by simp)
          refine ⟨?_, ?_⟩
          · intro y hy
            rcases List.mem_cons.1 hy with rfl | hy
            · exact hw _ (by simp)
            · exact g1 y hy
          · intro hm
            rcases List.mem_cons.1 hm with e | hm
            · exact h e.symm
            · exact g2 hm
        · exact ih x (by simp [hx])

theorem blank_append (a b : Str) : blank (a ++ b) = (blank a && blank b) := by simp [blank]

theorem blankLine_cons (i : Item) (l : List Item) : blankLine (i :: l) = (blank i.text && blankLine l) := by
  simp [blankLine, itemsText, blank]

theorem raw_blank_chr {c : TChar} (h : c.WF) (hn : Item.chr c ≠ nl) : ∃ x xs, c.raw = x :: xs ∧ '\n' ∉ c.raw ∧ blank c.raw = isspace c.char ∧ (isspace c.char = true → c.raw = [c.char]) := by
  have hb : isspace '\\' = false := by unfold isspace; decide +kernel
  cases c with
  | plain c =>
    refine ⟨c, [], rfl, ?_, by simp [blank, TChar.raw, TChar.char], fun _ => rfl⟩
    simp only [TChar.raw, List.mem_singleton]
    rintro rfl
    exact hn rfl
  | escaped c =>
    have hc : isspace c = false := h
    refine ⟨'\\', [c], rfl, ?_, by simp [blank, TChar.raw, TChar.char, hb, hc], fun e => by simp [TChar.char, hc] at e⟩
    simp only [TChar.raw, List.mem_cons, List.not_mem_nil, or_false, not_or]
    refine ⟨by decide, ?_⟩
    rintro rfl
    rw [space_nl] at hc
    exact absurd hc (by simp)

theorem brace_blank : isspace '{' = false ∧ isspace '}' = false ∧ isspace '\\' = false := by unfold isspace; decide +kernel

/-- A piece of raw characters is blank only if the piece of text is. -/
theorem chars_pieces : ∀ cs : List TChar, (∀ c ∈ cs, c.WF) → (splitOn '\n' (charsRaw cs)).map blank = (splitOn '\n' (charsText cs)).map blank
  | [], _ => rfl
  | c :: cs, hw => by
    have ih := chars_pieces cs (fun x hx => hw x (by simp [hx]))
    have hc := hw c (by simp)
    simp only [charsRaw, charsText, List.flatMap_cons, List.map_cons] at ih ⊢
    by_cases h : Item.chr c = nl
    · simp only [Item.chr.injEq] at h
      subst h
      simp only [TChar.raw, TChar.char, List.singleton_append, splitOn, if_pos, List.map_cons, ih]
    · obtain ⟨x, xs, e1, e2, e3, e4⟩ := raw_blank_chr hc h
      have e5 : c.char ≠ '\n' := by
        intro e
        rw [e4 (by rw [e]; exact space_nl), e] at e2
        simp at e2
      rcases h1 : splitOn '\n' (cs.flatMap TChar.raw) with _ | ⟨w, ws⟩
      · exact absurd h1 (splitOn_ne _ _)
      · rcases h2 : splitOn '\n' (cs.map TChar.char) with _ | ⟨v, vs⟩
        · exact absurd h2 (splitOn_ne _ _)
        · have e6 := splitOn_append '\n' (cs.flatMap TChar.raw) w ws h1 c.raw c.raw [] (by rw [splitOn_none e2]; rfl)
          rw [e6, splitOn_cons e5 h2]
          rw [h1, h2] at ih
          simp only [List.map_cons, List.cons.injEq] at ih
          simp only [List.nil_append, List.map_cons, ih.2, blank_append, e3, ih.1]
          simp [blank]

theorem mark_pieces {f : Fmt} {spec : Str} {content : List TChar} (h : (Item.mark f spec content).WF) : ∀ x ∈ splitOn '\n' (Item.mark f spec content).raw, blank x = false := by
  obtain ⟨h1, h2, h3, h4⟩ := h
  have hs : '\n' ∉ '{' :: spec ++ [':'] := by
    have hd : ∀ d : Fin 10, '\n' ≠ Exec.digit d := by decide +kernel
    cases h1 with
    | rgb c r g b style hc hl hst =>
      simp only [List.cons_append, List.mem_cons, List.mem_append, List.not_mem_nil, or_false, not_or]
      refine ⟨by decide, ?_, hd r, hd g, hd b, ?_, by decide⟩
      · rcases hc with rfl | rfl <;> decide
      · intro hm
        rcases hst _ hm with e | e | e | e <;> exact absurd e (by decide)
    | _ => decide
  have e1 : (Item.mark f spec content).raw = ('{' :: spec ++ [':']) ++ (charsRaw content ++ ['}']) := by simp [Item.raw]
  have hcp := chars_pieces content h2
  rw [linesOf_eq] at h4
  have hb1 : ∀ y, blank ('{' :: spec ++ [':'] ++ y) = false := by intro y; simp [blank, brace_blank.1]
  have hb2 : ∀ y, blank (y ++ ['}']) = false := by intro y; simp [blank, brace_blank.2.1]
  rcases List.eq_nil_or_concat (splitOn '\n' (charsRaw content)) with hi | ⟨a, z, hi⟩
  · exact absurd hi (splitOn_ne _ _)
  · rw [List.concat_eq_append] at hi
    have e2 := splitOn_append '\n' ['}'] ['}'] [] (splitOn_none (by decide)) (charsRaw content) z a hi
    have hmid : ∀ y ∈ a.tail, blank y = false := by
      intro y hy
      have e3 : a.tail.map blank = ((splitOn '\n' (charsText content)).tail.dropLast).map blank := by
        rw [List.map_dropLast, List.map_tail, List.map_tail, ← hcp, hi]
        cases a <;> simp
      have e4 : blank y ∈ a.tail.map blank := List.mem_map_of_mem hy
      rw [e3] at e4
      obtain ⟨w, hw, ew⟩ := List.mem_map.1 e4
      rw [← ew]
      exact h4 w hw
    rw [e1]
    cases a with
    | nil =>
      rw [List.nil_append] at e2
      rw [splitOn_append '\n' _ (z ++ ['}']) [] e2 _ _ [] (by rw [splitOn_none hs]; rfl)]
      intro x hx
      simp only [List.nil_append, List.mem_singleton] at hx
      subst hx
      exact hb1 _
    | cons a0 as =>
      rw [List.cons_append] at e2
      rw [splitOn_append '\n' _ a0 (as ++ [z ++ ['}']]) e2 _ _ [] (by rw [splitOn_none hs]; rfl)]
      intro x hx
      simp only [List.nil_append, List.mem_cons, List.mem_append, List.not_mem_nil, or_false] at hx
      rcases hx with rfl | hx | rfl
      · exact hb1 _
      · exact hmid x hx
      · exact hb2 _

theorem pieces_ok : ∀ l : List Item, Good l → ∃ x xs, pieces l = x :: xs ∧ (∀ y ∈ xs, blank y = false) ∧ blank x = blankLine l ∧ (blankLine l = true → xs = [])
  | [], _ => ⟨[], [], rfl, by simp, rfl, fun _ => rfl⟩
  | i :: l, h => by
    obtain ⟨x, xs, e1, e2, e3, e4⟩ := pieces_ok l ⟨fun y hy => h.1 y (by simp [hy]), fun hm => h.2 (by simp [hm])⟩
    have hi := h.1 i (by simp)
    have hn : i ≠ nl := fun e => h.2 (by simp [e])
    have key : ∀ a z, splitOn '\n' i.raw = a ++ [z] → pieces (i :: l) = a ++ (z ++ x) :: xs := by
      intro a z hz
      exact splitOn_append '\n' (itemsRaw l) x xs e1 i.raw z a hz
    cases i with
    | chr c =>
      obtain ⟨u, us, r1, r2, r3, r4⟩ := raw_blank_chr hi hn
      refine ⟨c.raw ++ x, xs, key [] c.raw (by rw [show (Item.chr c).raw = c.raw from rfl, splitOn_none r2]; rfl), e2, ?_, ?_⟩
      · rw [blank_append, blankLine_cons, e3, r3]; simp [blank, Item.text]
      · rw [blankLine_cons, Bool.and_eq_true]
        exact fun hb => e4 hb.2
    | mark f spec content =>
      have hm := mark_pieces hi
      have hbl : blankLine (.mark f spec content :: l) = false := by
        rw [blankLine_cons, show blank (Item.mark f spec content).text = false from hi.2.2.1]; rfl
      rcases List.eq_nil_or_concat (splitOn '\n' (Item.mark f spec content).raw) with hz | ⟨a, z, hz⟩
      · exact absurd hz (splitOn_ne _ _)
      · rw [List.concat_eq_append] at hz
        have ek := key a z hz
        have hzx : blank (z ++ x) = false := by
          rw [blank_append, hm z (by rw [hz]; simp)]; rfl
        cases a with
        | nil => exact ⟨z ++ x, xs, ek, e2, by rw [hzx, hbl], fun hb => by rw [hbl] at hb; exact absurd hb (by simp)⟩
        | cons a0 as =>
          refine ⟨a0, as ++ (z ++ x) :: xs, ek, ?_, ?_, fun hb => by rw [hbl] at hb; exact absurd hb (by simp)⟩
          · intro y hy
            simp only [List.mem_append, List.mem_cons] at hy
            rcases hy with hy | rfl | hy
            · exact hm y (by rw [hz]; simp [hy])
            · exact hzx
            · exact e2 y hy
          · rw [hbl]; exact hm a0 (by rw [hz]; simp)

theorem pieces_blank {l : List Item} (h : Good l) : pieces l ≠ [] ∧ ∀ x ∈ pieces l, blank x = blankLine l := by
  obtain ⟨x, xs, e1, e2, e3, e4⟩ := pieces_ok l h
  rw [e1]
  refine ⟨by simp, ?_⟩
  intro y hy
  rcases List.mem_cons.1 hy with rfl | hy
  · exact e3
  · rcases Bool.eq_false_or_eq_true (blankLine l) with hb | hb
    · rw [e4 hb] at hy; simp at hy
    · rw [hb]; exact e2 y hy

theorem dropIgnored_eq {is : List Item} (hw : ∀ i ∈ is, i.WF) : dropIgnored (splitOn '\n' (itemsRaw is)) = (keptLines is).flatMap pieces := by
  rw [pieces_lines]
  rcases List.eq_nil_or_concat (lines is) with hl | ⟨a, z, hl⟩
  · exact absurd hl (lines_ne is)
  · rw [List.concat_eq_append] at hl
    have hz := lines_good is hw z (by rw [hl]; simp)
    obtain ⟨x, xs, e1, e2, e3, e4⟩ := pieces_ok z hz
    obtain ⟨n1, n2⟩ := pieces_blank hz
    unfold dropIgnored keptLines
    rw [hl]
    simp only [List.flatMap_append, List.flatMap_cons, List.flatMap_nil, List.append_nil, List.getLast?_append, List.getLast?_singleton, Option.some_or, Option.any_some, List.dropLast_concat]
    rcases List.eq_nil_or_concat (pieces z) with hp | ⟨b, y, hp⟩
    · exact absurd hp n1
    · rw [List.concat_eq_append] at hp
      rw [hp]
      simp only [List.getLast?_append, List.getLast?_singleton, Option.some_or]
      have hy : blank y = blankLine z := n2 y (by rw [hp]; simp)
      rcases Bool.eq_false_or_eq_true (blankLine z) with hb | hb
      · rw [if_pos (show y.all isspace = true by rw [show y.all isspace = blank y from rfl, hy, hb]), if_pos hb]
        have : b = [] := by
          rw [e1, e4 hb] at hp
          cases b with
          | nil => rfl
          | cons b0 bs => simp at hp
        subst this
        rw [List.nil_append, List.dropLast_concat]
      · rw [if_neg (show ¬ y.all isspace = true by rw [show y.all isspace = blank y from rfl, hy, hb]; simp), if_neg (by rw [hb]; simp)]
        simp [hp]

/-! ## Grouping lines -/

/-- Adding a line of items. -/
def eadd : List Paragraph → List Item → List Paragraph
  | [], _ => []
  | p :: ps, l =>
    match p.lines.getLast? with
    | none => ⟨p.props, p.lines ++ [l]⟩ :: ps
    | some l' => if blankLine l' = blankLine l then ⟨p.props, p.lines ++ [l]⟩ :: ps else ⟨unmarked, [l]⟩ :: p :: ps

/-- The paragraph as written. -/
def toPara (p : Paragraph) : Para := ⟨p.props, p.lines.flatMap fun l => (pieces l).map normalize⟩

theorem normalize_empty (s : Str) : (normalize s).isEmpty = blank s := by
  unfold normalize
  rcases Bool.eq_false_or_eq_true (s.all isspace) with h | h
  · rw [if_pos h]; simp [blank, h]
  · rw [if_neg (by rw [h]; simp), show blank s = s.all isspace from rfl, h]
    cases s with
    | nil => simp at h
    | cons c cs => rfl

theorem foldl_addLine (v : Bool) (ps : List Para) : ∀ (xs : List Str) (p : Para), (∀ x ∈ xs, blank x = v) → (∀ l, p.lines.getLast? = some l → l.isEmpty = v) →
    xs.foldl addLine (p :: ps) = ⟨p.props, p.lines ++ xs.map normalize⟩ :: ps
  | [], p, _, _ => by simp
  | x :: xs, p, hx, hp => by
    have ha : p.accepts x = true := by
      unfold Para.accepts
      cases hl : p.lines.getLast? with
      | none => rfl
      | some l =>
        simp only [normalize_empty, hp l hl, hx x (by simp), beq_self_eq_true]
    simp only [List.foldl_cons, addLine, ha, if_true]
    rw [foldl_addLine v ps xs _ (fun y hy => hx y (by simp [hy]))]
    · simp
    · intro l hl
      simp only [List.getLast?_append, List.getLast?_singleton, Option.some_or, Option.some.injEq] at hl
      rw [← hl, normalize_empty]
      exact hx x (by simp)

theorem toPara_last {p : Paragraph} {l : List Item} (hl : p.lines.getLast? = some l) (hg : Good l) : ∀ x, (toPara p).lines.getLast? = some x → x.isEmpty = blankLine l := by
  intro x hx
  rcases List.eq_nil_or_concat p.lines with he | ⟨a, z, he⟩
  · rw [he] at hl; simp at hl
  · rw [List.concat_eq_append] at he
    rw [he] at hl
    simp only [List.getLast?_append, List.getLast?_singleton, Option.some_or, Option.some.injEq] at hl
    subst hl
    obtain ⟨n1, n2⟩ := pieces_blank hg
    rcases List.eq_nil_or_concat (pieces z) with hp | ⟨b, y, hp⟩
    · exact absurd hp n1
    · rw [List.concat_eq_append] at hp
      simp only [toPara, he, List.flatMap_append, List.flatMap_cons, List.flatMap_nil, List.append_nil, hp, List.map_append, List.map_cons, List.map_nil] at hx
      rw [← List.append_assoc] at hx
      simp only [List.getLast?_append, List.getLast?_singleton, Option.some_or, Option.some.injEq] at hx
      rw [← hx, normalize_empty]
      exact n2 y (by rw [hp]; simp)

theorem fold_pieces {p : Paragraph} {ps : List Paragraph} {l : List Item} (hl : Good l) (hp : ∀ z, p.lines.getLast? = some z → Good z) :
    (pieces l).foldl addLine ((p :: ps).map toPara) = (eadd (p :: ps) l).map toPara := by
  obtain ⟨n1, n2⟩ := pieces_blank hl
  simp only [eadd, List.map_cons]
  cases hz : p.lines.getLast? with
  | none =>
    have : p.lines = [] := List.getLast?_eq_none_iff.1 hz
    rw [foldl_addLine (blankLine l) _ _ _ n2 (by intro x hx; simp [toPara, this] at hx)]
    simp [toPara, this]
  | some z =>
    have ht := toPara_last hz (hp z hz)
    by_cases hb : blankLine z = blankLine l
    · simp only [if_pos hb]
      rw [foldl_addLine (blankLine l) _ _ _ n2 (by rw [← hb]; exact ht)]
      simp [toPara]
    · simp only [if_neg hb]
      rcases hpl : pieces l with _ | ⟨x, xs⟩
      · exact absurd hpl n1
      · rw [hpl] at n2
        have ha : (toPara p).accepts x = false := by
          have hne : (toPara p).lines ≠ [] := by
            rcases List.eq_nil_or_concat p.lines with he | ⟨a, w, he⟩
            · rw [he] at hz; simp at hz
            · rw [List.concat_eq_append] at he
              have : w = z := by rw [he] at hz; simpa using hz
              subst this
              intro hh
              simp only [toPara, he, List.flatMap_append, List.flatMap_cons, List.flatMap_nil, List.append_nil, List.append_eq_nil_iff, List.map_eq_nil_iff] at hh
              exact (pieces_blank (hp w hz)).1 hh.2
          unfold Para.accepts
          cases hq : (toPara p).lines.getLast? with
          | none => exact absurd (List.getLast?_eq_none_iff.1 hq) hne
          | some w =>
            simp only [normalize_empty, ht w hq, n2 x (by simp)]
            simpa using hb
        simp only [List.foldl_cons, addLine, ha, Bool.false_eq_true, if_false]
        rw [foldl_addLine (blankLine l) _ xs _ (fun y hy => n2 y (by simp [hy])) (by
          intro w hw
          simp only [List.getLast?_singleton, Option.some.injEq] at hw
          rw [← hw, normalize_empty]; exact n2 x (by simp))]
        simp [toPara, hpl, defaultProps, unmarked]

theorem eadd_last (p : Paragraph) (ps : List Paragraph) (l : List Item) : ∃ q qs, eadd (p :: ps) l = q :: qs ∧ q.lines.getLast? = some l := by
  simp only [eadd]
  cases p.lines.getLast? with
  | none => exact ⟨_, _, rfl, by simp⟩
  | some z =>
    by_cases h : blankLine z = blankLine l
    · simp only [if_pos h]; exact ⟨_, _, rfl, by simp⟩
    · simp only [if_neg h]; exact ⟨_, _, rfl, by simp⟩

theorem fold_lines : ∀ (ls : List (List Item)) (p : Paragraph) (ps : List Paragraph), (∀ l ∈ ls, Good l) → (∀ z, p.lines.getLast? = some z → Good z) →
    (ls.flatMap pieces).foldl addLine ((p :: ps).map toPara) = (ls.foldl eadd (p :: ps)).map toPara
  | [], _, _, _, _ => rfl
  | l :: ls, p, ps, hl, hp => by
    rw [List.flatMap_cons, List.foldl_append, fold_pieces (hl l (by simp)) hp, List.foldl_cons]
    obtain ⟨q, qs, e, hq⟩ := eadd_last p ps l
    rw [e]
    exact fold_lines ls q qs (fun x hx => hl x (by simp [hx])) (by intro z hz; rw [hq] at hz; cases hz; exact hl l (by simp))

theorem runs_head (l : List Item) (ls : List (List Item)) : ∃ g gs, runs (l :: ls) = (l :: g) :: gs := by
  simp only [runs]
  split
  · split
    · exact ⟨_, _, rfl⟩
    · exact ⟨_, _, rfl⟩
  · exact ⟨[], [], rfl⟩

/-- An unmarked paragraph. -/
abbrev un (g : List (List Item)) : Paragraph := ⟨unmarked, g⟩

theorem fold_runs : ∀ (ls : List (List Item)) (p : Props) (pre : List (List Item)) (l : List Item) (ps : List Paragraph) (g : List (List Item)) (gs : List (List (List Item))),
    runs (l :: ls) = (l :: g) :: gs → ls.foldl eadd (⟨p, pre ++ [l]⟩ :: ps) = (gs.map un).reverse ++ ⟨p, pre ++ l :: g⟩ :: ps
  | [], p, pre, l, ps, g, gs, e => by
    simp only [runs, List.cons.injEq, true_and] at e
    obtain ⟨rfl, rfl⟩ := e
    rfl
  | x :: ls, p, pre, l, ps, g, gs, e => by
    obtain ⟨g', gs', e'⟩ := runs_head x ls
    rw [runs, e'] at e
    simp only at e
    have hlast : (pre ++ [l]).getLast? = some l := by simp
    simp only [List.foldl_cons, eadd, hlast]
    by_cases hb : blankLine l = blankLine x
    · rw [if_pos hb] at e
      simp only [List.cons.injEq, true_and] at e
      obtain ⟨rfl, rfl⟩ := e
      rw [if_pos hb, fold_runs ls p (pre ++ [l]) x ps g' gs' e']
      simp
    · rw [if_neg hb] at e
      simp only [List.cons.injEq, true_and] at e
      obtain ⟨rfl, rfl⟩ := e
      rw [if_neg hb]
      have := fold_runs ls unmarked [] x (⟨p, pre ++ [l]⟩ :: ps) g' gs' e'
      rw [List.nil_append] at this
      rw [this]
      simp

theorem fold_section (p : Props) (is : List Item) (ps : List Paragraph) : (keptLines is).foldl eadd (⟨p, []⟩ :: ps) = (sectionParagraphs p is).reverse ++ ps := by
  unfold sectionParagraphs
  rcases h : keptLines is with _ | ⟨l, ls⟩
  · rfl
  · obtain ⟨g, gs, e⟩ := runs_head l ls
    rw [e]
    have := fold_runs ls p [] l ps g gs e
    simp only [List.nil_append] at this
    simp only [List.foldl_cons, eadd, List.getLast?_nil, List.nil_append]
    rw [this]
    simp

theorem keptLines_good {is : List Item} (hw : ∀ i ∈ is, i.WF) : ∀ l ∈ keptLines is, Good l := by
  intro l hl
  unfold keptLines at hl
  split at hl
  · exact lines_good is hw l (List.dropLast_subset _ hl)
  · exact lines_good is hw l hl

theorem rawParas_ok : ∀ (ss : List Section) (p : Props) (body : List Item) (ps : List Paragraph), (∀ i ∈ body, i.WF) → SectionsWF body ss →
    rawParas ((⟨p, []⟩ :: ps).map toPara) body ss
      = (ss.reverse.flatMap (fun s => (sectionParagraphs s.props (afterMarkup s.items)).reverse) ++ (sectionParagraphs p body).reverse ++ ps).map toPara
  | [], p, body, ps, hw, _ => by
    rw [rawParas, dropIgnored_eq hw, fold_lines _ _ _ (keptLines_good hw) (by simp), fold_section]
    simp
  | s :: ss, p, body, ps, hw, hs => by
    obtain ⟨h1, h2, h3, h4, h5⟩ := hs
    obtain ⟨xs, hxs⟩ := afterMarkup_suffix s.items
    have hw' : ∀ i ∈ afterMarkup s.items, i.WF := fun i hi => h3 i (by rw [hxs]; exact List.mem_append_right _ hi)
    rw [rawParas, dropIgnored_eq hw, fold_lines _ _ _ (keptLines_good hw) (by simp), fold_section]
    have := rawParas_ok ss s.props (afterMarkup s.items) ((sectionParagraphs p body).reverse ++ ps) hw' (sectionsWF_before (fun hb => by rw [hxs] at hb; exact noBackslash_suffix hb) h5)
    rw [List.map_cons] at this
    rw [show (⟨s.props, []⟩ : Para) = toPara ⟨s.props, []⟩ from rfl, this]
    simp

theorem makeParagraphs_ok (d : Doc) (h : d.WF) : ∃ bs, findBlocks (d.raw.length + 1) ⟨[], d.raw⟩ = .ok bs ∧ makeParagraphs bs = d.paragraphs.map toPara := by
  obtain ⟨hw, hs⟩ := h
  obtain ⟨bs, h1, h2, h3⟩ := findBlocks_ok d.sections d.intro (d.raw.length + 1) [] hw hs (by simp [Clean]) (by simp [Doc.raw])
  refine ⟨bs, h1, ?_⟩
  rcases h3 with ⟨hne, t, bs', rfl⟩ | ⟨he, hb⟩
  · unfold makeParagraphs
    simp only
    rw [h2, show [(⟨defaultProps, []⟩ : Para)] = ([⟨unmarked, []⟩] : List Paragraph).map toPara from rfl, rawParas_ok _ _ _ _ hw hs]
    simp only [Doc.paragraphs, if_neg hne, List.append_nil, ← List.map_reverse]
    congr 1
    simp [List.reverse_flatMap, Function.comp_def]
  · have : makeParagraphs bs = (makeLoop [] bs).reverse := by
      unfold makeParagraphs
      split
      · rename_i t bs'; exact absurd rfl (hb t bs')
      · rfl
    rw [this, h2, he]
    simp only [Doc.paragraphs, he, if_true, List.nil_append]
    cases hss : d.sections with
    | nil => rfl
    | cons s ss =>
      rw [hss] at hs
      obtain ⟨h1, h2, h3, h4, h5⟩ := hs
      obtain ⟨xs, hxs⟩ := afterMarkup_suffix s.items
      have hw' : ∀ i ∈ afterMarkup s.items, i.WF := fun i hi => h3 i (by rw [hxs]; exact List.mem_append_right _ hi)
      have e := rawParas_ok ss s.props (afterMarkup s.items) [] hw' (sectionsWF_before (fun hb => by rw [hxs] at hb; exact noBackslash_suffix hb) h5)
      rw [rawParas]
      have e0 : (dropIgnored (splitOn '\n' (itemsRaw []))).foldl addLine [] = [] := rfl
      rw [e0, show ([⟨s.props, []⟩] : List Para) = ([⟨s.props, []⟩] : List Paragraph).map toPara from rfl, e]
      simp only [List.append_nil, ← List.map_reverse]
      congr 1
      simp [List.reverse_flatMap, Function.comp_def]

end Marcel.Help
