import Verif.Lemmas.HelpParas

/-! # Lemmas about the formatting of help: removing markup, and highlighting -/

namespace Marcel.Help

variable {C : Type}

/-! ## Removing markup -/

theorem styleOf_ok : ∀ (st : Str) (b i : Bool), (∀ x ∈ st, x = 'b' ∨ x = 'B' ∨ x = 'i' ∨ x = 'I') →
    styleOf b i st = some (b || st.any fun x => x == 'b' || x == 'B', i || st.any fun x => x == 'i' || x == 'I')
  | [], b, i, _ => by simp [styleOf]
  | x :: st, b, i, h => by
    have ih := fun b i => styleOf_ok st b i (fun y hy => h y (by simp [hy]))
    rcases h x (by simp) with rfl | rfl | rfl | rfl
    · rw [styleOf, if_pos (by decide), ih]; simp
    · rw [styleOf, if_pos (by decide), ih]; simp
    · rw [styleOf, if_neg (by decide), if_pos (by decide), ih]; simp
    · rw [styleOf, if_neg (by decide), if_pos (by decide), ih]; simp

theorem advancePast_colon : ∀ (st : Str), (∀ x ∈ st, x = 'b' ∨ x = 'B' ∨ x = 'i' ∨ x = 'I') → ∀ (b r : Str), (Ptr.mk b (st ++ ':' :: r)).advancePast (.chr ':') = ⟨':' :: (st.reverse ++ b), r⟩
  | [], _, b, r => by
    have := next_plain (c := ':') (by decide) b r
    rw [List.nil_append, advancePast_stop (by left; rw [this]), this]; rfl
  | x :: st, h, b, r => by
    have hx : (TChar.plain x).WF ∧ x ≠ ':' := by rcases h x (by simp) with rfl | rfl | rfl | rfl <;> decide
    have := next_plain hx.1 b (st ++ ':' :: r)
    rw [List.cons_append, advancePast_step (by rw [this]; simpa using hx.2) (by rw [this]; simp), this, advancePast_colon st (fun y hy => h y (by simp [hy]))]
    simp

theorem digitOf_digit (d : Fin 10) : digitOf (.chr (Exec.digit d)) = some (d.val : Int) := by revert d; decide +kernel

theorem formatting_ok (s : Scheme C) {f : Fmt} {spec : Str} (h : f.Written spec) (b r : Str) :
    formatting s ⟨b, '{' :: (spec ++ ':' :: r)⟩ = .ok (f.color s, ⟨':' :: (spec.reverse ++ '{' :: b), r⟩) := by
  unfold formatting
  rw [next_open]
  simp only
  have colon : ∀ b', (Ptr.mk b' (':' :: r)).next = (.chr ':', ⟨':' :: b', r⟩) := fun b' => next_plain (by decide) b' r
  cases h with
  | rgb c r' g' b' style hc hl hs =>
    have h1 : (TChar.plain c).WF ∧ c ∉ ['b', 'B', 'i', 'I', 'n', 'N', 'r', 'R'] ∧ c ∈ ['c', 'C'] := by rcases hc with rfl | rfl <;> decide
    simp only [List.cons_append]
    rw [next_plain h1.1]
    simp only
    rw [if_neg h1.2.1, if_pos h1.2.2]
    unfold rgbFormat
    rw [next_plain (digit_simple r'), next_plain (digit_simple g'), next_plain (digit_simple b')]
    simp only [digitOf_digit]
    have hcl : Clean (style.reverse ++ Exec.digit b' :: Exec.digit g' :: Exec.digit r' :: c :: '{' :: b) := by
      rcases List.eq_nil_or_concat style with rfl | ⟨xs, x, rfl⟩
      · exact clean_cons (digit_simple b').2.2 _
      · rw [List.concat_eq_append] at *
        have : x ≠ '\\' := by rcases hs x (by simp) with rfl | rfl | rfl | rfl <;> decide
        simp only [List.reverse_append, List.reverse_cons, List.reverse_nil, List.nil_append, List.cons_append]
        exact clean_cons this _
    rw [advancePast_colon style hs, backup_clean hcl]
    simp only
    rw [contentsTo_eq, if_neg (by omega), styleOf_ok style false false hs]
    simp only [colon]
    simp [Fmt.color]
  | _ =>
    simp only [List.singleton_append]
    rw [next_plain (by decide)]
    simp only
    rw [if_pos (by decide), colon]
    simp only [if_true]
    rfl

theorem markupContent_ok : ∀ (cs : List TChar) (n : Nat) (b r acc : Str), (∀ c ∈ cs, c.WF) → cs.length < n →
    markupContent n ⟨b, charsRaw cs ++ '}' :: r⟩ acc = .ok (acc ++ charsText cs, ⟨'}' :: ((charsRaw cs).reverse ++ b), r⟩)
  | _, 0, _, _, _, _, h => absurd h (by omega)
  | [], n + 1, b, r, acc, _, _ => by
    simp only [charsRaw, List.flatMap_nil, List.nil_append, markupContent, next_close, charsText, List.map_nil, List.append_nil, List.reverse_nil]
  | c :: cs, n + 1, b, r, acc, hw, hn => by
    have hc := hw c (by simp)
    simp only [charsRaw, List.flatMap_cons, List.append_assoc, markupContent, next_tchar hc]
    have := markupContent_ok cs n (c.raw.reverse ++ b) r (acc ++ [c.char]) (fun x hx => hw x (by simp [hx])) (by simpa using hn)
    simp only [charsRaw] at this
    rw [this]
    simp [charsText]

/-- Positions of formatted text. -/
def marksOf (s : Scheme C) : Nat → List Item → List (Mark C)
  | _, [] => []
  | k, .chr c :: is => marksOf s (if isspace c.char then k else k + 1) is
  | k, .mark f _ content :: is => ⟨k, (solid (charsText content)).length, f.color s⟩ :: marksOf s (k + (solid (charsText content)).length) is

theorem charsRaw_length (cs : List TChar) : cs.length ≤ (charsRaw cs).length := by
  induction cs with
  | nil => simp
  | cons c cs ih =>
    simp only [charsRaw, List.flatMap_cons, List.length_append, List.length_cons] at ih ⊢
    have : 1 ≤ c.raw.length := by cases c <;> simp [TChar.raw]
    omega

theorem removeLoop_ok (s : Scheme C) : ∀ (is : List Item) (n : Nat) (b : Str) (k : Nat) (plain : Str) (ms : List (Mark C)), (∀ i ∈ is, i.WF) → (itemsRaw is).length < n →
    removeLoop s n ⟨b, itemsRaw is⟩ k plain ms = .ok (plain ++ itemsText is, ms ++ marksOf s k is)
  | _, 0, _, _, _, _, _, h => absurd h (by omega)
  | [], n + 1, b, k, plain, ms, _, _ => by simp [removeLoop, itemsRaw, Ptr.atEnd, itemsText, marksOf]
  | .chr c :: is, n + 1, b, k, plain, ms, hw, hn => by
    have hc : c.WF := hw (.chr c) (by simp)
    have hw' : ∀ i ∈ is, i.WF := fun x hx => hw x (by simp [hx])
    have e : itemsRaw (.chr c :: is) = c.raw ++ itemsRaw is := rfl
    have h1 : (Ptr.mk b (c.raw ++ itemsRaw is)).atEnd = false ∧ (Ptr.mk b (c.raw ++ itemsRaw is)).peek = .chr c.char := by
      cases c with
      | plain c => exact ⟨rfl, peek_plain hc b _⟩
      | escaped c => exact ⟨rfl, by simp [TChar.raw, Ptr.peek, TChar.char]⟩
    have hl : 0 < c.raw.length := by cases c <;> simp [TChar.raw]
    rw [e] at hn ⊢
    rw [List.length_append] at hn
    simp only [removeLoop, h1.1, h1.2, Bool.false_eq_true, if_false, next_tchar hc]
    rw [removeLoop_ok s is n _ _ _ _ hw' (by omega)]
    simp [itemsText, Item.text, marksOf]
  | .mark f spec content :: is, n + 1, b, k, plain, ms, hw, hn => by
    have hm : (Item.mark f spec content).WF := hw (.mark f spec content) (by simp)
    have hw' : ∀ i ∈ is, i.WF := fun x hx => hw x (by simp [hx])
    have e : itemsRaw (.mark f spec content :: is) = '{' :: (spec ++ ':' :: (charsRaw content ++ '}' :: itemsRaw is)) := by
      simp [itemsRaw, Item.raw]
    rw [e] at hn ⊢
    simp only [List.length_append, List.length_cons] at hn
    have h1 : (Ptr.mk b ('{' :: (spec ++ ':' :: (charsRaw content ++ '}' :: itemsRaw is)))).peek = .opening := by simp [Ptr.peek]
    have h2 : (Ptr.mk b ('{' :: (spec ++ ':' :: (charsRaw content ++ '}' :: itemsRaw is)))).atEnd = false := rfl
    have hl := charsRaw_length content
    simp only [removeLoop, h1, h2, Bool.false_eq_true, if_false, formatting_ok s hm.1]
    rw [markupContent_ok content _ _ _ _ hm.2.1 (by simp only [List.length_append, List.length_cons]; omega)]
    simp only
    rw [removeLoop_ok s is n _ _ _ _ hw' (by omega)]
    simp [itemsText, Item.text, marksOf, nonWs, solid]

theorem removeMarkup_ok (s : Scheme C) {is : List Item} (hw : ∀ i ∈ is, i.WF) : removeMarkup s (itemsRaw is) = .ok (itemsText is, marksOf s 0 is) := by
  unfold removeMarkup
  rw [removeLoop_ok s is _ _ _ _ _ hw (by omega)]
  simp

/-! ## Highlighting -/

theorem solid_append (a b : Str) : solid (a ++ b) = solid a ++ solid b := by simp [solid]

theorem solid_cons_blank {c : Char} (h : isspace c = true) (t : Str) : solid (c :: t) = solid t := by simp [solid, h]

theorem solid_cons {c : Char} (h : isspace c = false) (t : Str) : solid (c :: t) = c :: solid t := by simp [solid, h]

theorem takeNonWs_ok : ∀ (t : Str) (k : Nat), k ≤ (solid t).length →
    ∃ a r, takeNonWs k t = some (a, r) ∧ a ++ r = t ∧ solid a = (solid t).take k ∧ solid r = (solid t).drop k ∧ (k ≠ 0 → ∃ u x, a = u ++ [x] ∧ isspace x = false)
  | t, 0, _ => ⟨[], t, by cases t <;> rfl, rfl, rfl, rfl, fun h => absurd rfl h⟩
  | [], k + 1, h => by simp [solid] at h
  | c :: t, k + 1, h => by
    rcases Bool.eq_false_or_eq_true (isspace c) with hc | hc
    · rw [solid_cons_blank hc] at h ⊢
      obtain ⟨a, r, e1, e2, e3, e4, e5⟩ := takeNonWs_ok t (k + 1) h
      refine ⟨c :: a, r, ?_, by rw [List.cons_append, e2], by rw [solid_cons_blank hc, e3], e4, ?_⟩
      · simp [takeNonWs, hc, e1]
      · intro hk
        obtain ⟨u, x, rfl, hx⟩ := e5 hk
        exact ⟨c :: u, x, rfl, hx⟩
    · rw [solid_cons hc] at h ⊢
      obtain ⟨a, r, e1, e2, e3, e4, e5⟩ := takeNonWs_ok t k (by simpa using h)
      refine ⟨c :: a, r, ?_, by rw [List.cons_append, e2], by rw [solid_cons hc, e3]; rfl, by rw [e4]; rfl, ?_⟩
      · simp [takeNonWs, hc, e1]
      · intro _
        by_cases hk : k = 0
        · subst hk
          have : a = [] := by
            have : takeNonWs 0 t = some ([], t) := by cases t <;> rfl
            rw [this] at e1
            simp only [Option.some.injEq, Prod.mk.injEq] at e1
            exact e1.1.symm
          exact ⟨[], c, by rw [this]; rfl, hc⟩
        · obtain ⟨u, x, rfl, hx⟩ := e5 hk
          exact ⟨c :: u, x, rfl, hx⟩

theorem skipWs_ok : ∀ (t : Str), solid t ≠ [] → ∃ a r, skipWs t = some (a, r) ∧ a ++ r = t ∧ solid a = [] ∧ solid r = solid t ∧ ∃ x r', r = x :: r' ∧ isspace x = false
  | [], h => by simp [solid] at h
  | c :: t, h => by
    rcases Bool.eq_false_or_eq_true (isspace c) with hc | hc
    · rw [solid_cons_blank hc] at h ⊢
      obtain ⟨a, r, e1, e2, e3, e4, e5⟩ := skipWs_ok t h
      refine ⟨c :: a, r, ?_, by rw [List.cons_append, e2], by rw [solid_cons_blank hc, e3], e4, e5⟩
      simp [skipWs, hc, e1]
    · exact ⟨[], c :: t, by simp [skipWs, hc], rfl, rfl, rfl, c, t, rfl, hc⟩

theorem trim_eq {t u v : Str} {x y : Char} (h1 : t = x :: u) (hx : isspace x = false) (h2 : t = v ++ [y]) (hy : isspace y = false) : trim t = t := by
  unfold trim
  have e1 : t.dropWhile isspace = t := by rw [h1, List.dropWhile_cons_of_neg (by simp [hx])]
  have e2 : t.reverse.dropWhile isspace = t.reverse := by
    rw [h2, List.reverse_append, List.reverse_singleton, List.singleton_append, List.dropWhile_cons_of_neg (by simp [hy])]
  rw [e1, e2, List.reverse_reverse]

/-- The output, without colours. -/
def outText (out : List (Seg C)) : Str := out.flatMap Prod.fst

/-- The output is the given text, with the colours of the items. -/
def Shows (s : Scheme C) (out : List (Seg C)) (text : Str) (pre : Str) (is : List Item) : Prop :=
  outText out = text ∧ solidColored (out.flatMap segColored) = pre.map (fun c => (c, none)) ++ solidColored (is.flatMap (Item.colored s)) ∧
    out.filterMap segHighlight = is.filterMap (Item.highlight s) ∧ ∀ t c, (t, some c) ∈ out → trim t = t

theorem colored_map (x : Str) (o : Option C) : solidColored (x.map fun c => (c, o)) = (solid x).map fun c => (c, o) := by
  simp only [solidColored, solid, List.filter_map]; rfl

theorem colored_append (a b : List (Char × Option C)) : solidColored (a ++ b) = solidColored a ++ solidColored b := by simp [solidColored]

theorem itemsText_cons (i : Item) (is : List Item) : itemsText (i :: is) = i.text ++ itemsText is := by simp [itemsText]

theorem formatLoop_ok (s : Scheme C) : ∀ (is : List Item) (k : Nat) (pre t : Str), (∀ i ∈ is, i.WF) → solid t = pre ++ solid (itemsText is) →
    ∃ out, formatLoop k (marksOf s (k + pre.length) is) t = .ok out ∧ Shows s out t pre is
  | [], k, pre, t, _, ht => by
    refine ⟨[(t, none)], rfl, by simp [outText], ?_, by simp [segHighlight], by simp⟩
    simp only [List.flatMap_cons, List.flatMap_nil, List.append_nil, segColored, colored_map, ht]
    simp [itemsText, solid, solidColored]
  | .chr c :: is, k, pre, t, hw, ht => by
    rw [itemsText_cons, solid_append] at ht
    rcases Bool.eq_false_or_eq_true (isspace c.char) with hc | hc
    · obtain ⟨out, e1, e2, e3, e4, e5⟩ := formatLoop_ok s is k pre t (fun x hx => hw x (by simp [hx])) (by rw [ht]; simp [Item.text, solid, hc])
      refine ⟨out, by simpa [marksOf, hc] using e1, e2, ?_, by rw [e4, List.filterMap_cons_none rfl], e5⟩
      rw [e3, List.flatMap_cons, colored_append]
      simp [Item.colored, solidColored, hc]
    · obtain ⟨out, e1, e2, e3, e4, e5⟩ := formatLoop_ok s is k (pre ++ [c.char]) t (fun x hx => hw x (by simp [hx])) (by rw [ht]; simp [Item.text, solid, hc])
      refine ⟨out, ?_, e2, ?_, by rw [e4, List.filterMap_cons_none rfl], e5⟩
      · simp only [marksOf, hc, Bool.false_eq_true, if_false]
        simpa [Nat.add_assoc] using e1
      · rw [e3, List.flatMap_cons, colored_append]
        simp [Item.colored, solidColored, hc]
  | .mark f spec content :: is, k, pre, t, hw, ht => by
    obtain ⟨h1, h2, h3, h4⟩ := hw (.mark f spec content) (by simp)
    rw [itemsText_cons, solid_append, show (Item.mark f spec content).text = charsText content from rfl] at ht
    have hne : solid (charsText content) ≠ [] := by
      intro e
      have : blank (charsText content) = true := by
        simp only [blank, List.all_eq_true]
        intro x hx
        have := List.filter_eq_nil_iff.1 e x hx
        simpa using this
      rw [h3] at this; exact absurd this (by simp)
    obtain ⟨a, t1, a1, a2, a3, a4, _⟩ := takeNonWs_ok t pre.length (by rw [ht]; simp)
    rw [ht, List.take_left] at a3
    rw [ht, List.drop_left] at a4
    obtain ⟨b, t2, b1, b2, b3, b4, xb, rb, b5, b6⟩ := skipWs_ok t1 (by rw [a4]; simp [hne])
    rw [a4] at b4
    obtain ⟨c, t3, c1, c2, c3, c4, c5⟩ := takeNonWs_ok t2 (solid (charsText content)).length (by rw [b4]; simp)
    rw [b4, List.take_left] at c3
    rw [b4, List.drop_left] at c4
    obtain ⟨out, e1, e2, e3, e4, e5⟩ := formatLoop_ok s is (k + pre.length + (solid (charsText content)).length) [] t3 (fun x hx => hw x (by simp [hx])) (by simpa using c4)
    have hte : t.isEmpty = false := by
      cases t with
      | nil =>
        exfalso
        have hh : solid ([] : Str) = [] := rfl
        rw [hh] at ht
        have := congrArg List.length ht
        simp only [List.length_nil, List.length_append] at this
        have := List.length_pos_iff.2 hne
        omega
      | cons x xs => rfl
    have htrim : trim c = c := by
      obtain ⟨u, y, hu, hy⟩ := c5 (fun e => hne (List.length_eq_zero_iff.1 e))
      have : ∃ w, c = xb :: w := by
        rw [b5] at c2
        cases c with
        | nil => simp at hu
        | cons z zs =>
          simp only [List.cons_append, List.cons.injEq] at c2
          exact ⟨zs, by rw [c2.1]⟩
      obtain ⟨w, hw'⟩ := this
      exact trim_eq hw' b6 hu hy
    refine ⟨(a ++ b, none) :: (c, some (f.color s)) :: out, ?_, ?_, ?_, ?_, ?_⟩
    · simp only [marksOf, formatLoop, hte, Bool.false_eq_true, if_false]
      rw [show k + pre.length - k = pre.length by omega, a1]
      simp only [b1, c1]
      rw [show max k (k + pre.length) = k + pre.length by omega]
      simp only [List.length_nil, Nat.add_zero] at e1
      rw [e1]
      rfl
    · simp only [outText, List.flatMap_cons] at e2 ⊢
      rw [e2, ← a2, ← b2, ← c2]; simp
    · simp only [List.flatMap_cons, colored_append, e3, segColored, colored_map, solid_append, a3, b3, c3, Item.colored]
      simp
    · simp only [List.filterMap_cons, segHighlight, Option.map_none, Option.map_some, Item.highlight, c3]
      rw [e4]
    · intro t' c' hm
      simp only [List.mem_cons, Prod.mk.injEq, reduceCtorEq, and_false, false_or] at hm
      rcases hm with ⟨rfl, _⟩ | hm
      · exact htrim
      · exact e5 t' c' hm

/-! ## Paragraphs -/

theorem flatMap_intercalate {α β : Type} (f : α → List β) (sep : List α) : ∀ ls : List (List α), (List.intercalate sep ls).flatMap f = List.intercalate (sep.flatMap f) (ls.map fun l => l.flatMap f)
  | [] => rfl
  | [l] => by simp [List.intercalate]
  | l :: l' :: ls => by
    have ih := flatMap_intercalate f sep (l' :: ls)
    simp only [List.intercalate, List.intersperse, List.map_cons, List.flatten_cons, List.flatMap_append] at ih ⊢
    rw [ih]

/-- The items of a line; none if it is blank. -/
def lineItems (l : List Item) : List Item := if blankLine l then [] else l

/-- The items of a paragraph. -/
def parItems (p : Paragraph) : List Item := List.intercalate [nl] (p.lines.map lineItems)

theorem parItems_text (p : Paragraph) : itemsText (parItems p) = p.text := by
  unfold itemsText parItems Paragraph.text
  rw [flatMap_intercalate, List.map_map]
  have e : [nl].flatMap Item.text = ['\n'] := rfl
  rw [e]
  congr 1
  apply List.map_congr_left
  intro l _
  simp only [Function.comp, lineItems, lineText]
  split <;> rfl

theorem join_ne {α : Type} (sep : List α) (a b : List (List α)) (ha : a ≠ []) (hb : b ≠ []) : List.intercalate sep (a ++ b) = List.intercalate sep a ++ sep ++ List.intercalate sep b := by
  induction a with
  | nil => exact absurd rfl ha
  | cons x xs ih =>
    cases xs with
    | nil =>
      cases b with
      | nil => exact absurd rfl hb
      | cons y ys => simp [List.intercalate]
    | cons z zs =>
      have := ih (by simp)
      simp only [List.intercalate, List.cons_append, List.intersperse, List.flatten_cons] at this ⊢
      rw [this]; simp

theorem join_splitOn (s : Str) : List.intercalate ['\n'] (splitOn '\n' s) = s := by
  induction s with
  | nil => rfl
  | cons c cs ih =>
    rcases h : splitOn '\n' cs with _ | ⟨w, ws⟩
    · exact absurd h (splitOn_ne _ _)
    · rw [h] at ih
      by_cases hc : c = '\n'
      · simp only [splitOn, if_pos hc, h]
        rw [show [] :: w :: ws = [[]] ++ (w :: ws) from rfl, join_ne _ _ _ (by simp) (by simp), ih, hc]
        simp [List.intercalate]
      · rw [splitOn_cons hc h]
        cases ws with
        | nil => simpa [List.intercalate] using ih
        | cons v vs =>
          simp only [List.intercalate, List.intersperse, List.flatten_cons] at ih ⊢
          rw [← ih]; simp

theorem norm_pieces {l : List Item} (h : Good l) : List.intercalate ['\n'] ((pieces l).map normalize) = itemsRaw (lineItems l) := by
  obtain ⟨x, xs, e1, e2, e3, e4⟩ := pieces_ok l h
  rcases Bool.eq_false_or_eq_true (blankLine l) with hb | hb
  · rw [e1, e4 hb]
    have : normalize x = [] := by
      unfold normalize; rw [if_pos (show x.all isspace = true from e3.trans hb)]
    simp [this, lineItems, hb, itemsRaw, List.intercalate]
  · have hn : (pieces l).map normalize = pieces l := by
      have : ∀ y ∈ pieces l, normalize y = id y := by
        intro y hy
        have := (pieces_blank h).2 y hy
        unfold normalize
        rw [if_neg (by rw [show y.all isspace = blank y from rfl, this, hb]; simp)]; rfl
      rw [List.map_congr_left this, List.map_id]
    rw [hn, pieces, join_splitOn]
    simp [lineItems, hb]

theorem parItems_raw (p : Paragraph) (hg : ∀ l ∈ p.lines, Good l) : join ['\n'] (toPara p).lines = itemsRaw (parItems p) := by
  rw [join_eq]
  unfold parItems itemsRaw toPara
  rw [flatMap_intercalate, show [nl].flatMap Item.raw = ['\n'] from rfl]
  simp only [List.map_map]
  generalize p.lines = ls at hg
  induction ls with
  | nil => rfl
  | cons l ls ih =>
    have hl := norm_pieces (hg l (by simp))
    have hne : (pieces l).map normalize ≠ [] := by simpa using (pieces_blank (hg l (by simp))).1
    cases ls with
    | nil =>
      simp only [List.flatMap_cons, List.flatMap_nil, List.append_nil, List.map_cons, List.map_nil, Function.comp]
      rw [hl]; simp [List.intercalate, itemsRaw]
    | cons l' ls =>
      have ih := ih (fun x hx => hg x (by simp [hx]))
      have hne' : (l' :: ls).flatMap (fun l => (pieces l).map normalize) ≠ [] := by
        simp only [List.flatMap_cons]
        intro e
        exact (pieces_blank (hg l' (by simp))).1 (by simpa using (List.append_eq_nil_iff.1 e).1)
      rw [List.flatMap_cons, join_ne _ _ _ hne hne', ih, hl, List.map_cons]
      have hj := join_ne ['\n'] [itemsRaw (lineItems l)] ((l' :: ls).map ((fun l => l.flatMap Item.raw) ∘ lineItems)) (by simp) (by simp)
      rw [show List.intercalate ['\n'] [itemsRaw (lineItems l)] = itemsRaw (lineItems l) by simp [List.intercalate]] at hj
      exact hj.symm

theorem mapIdx_const {α β : Type} (f : α → β) (l : List α) : (l.mapIdx fun _ x => f x) = l.map f := by
  induction l with
  | nil => rfl
  | cons a l ih => simp [ih]

theorem wrapText_eq (wrapper : Str → Str → Str → List Str) (p : Paragraph) : wrapText wrapper p.props p.text = p.layout wrapper := by
  unfold wrapText Paragraph.layout
  rcases Bool.eq_false_or_eq_true p.props.wrap with h | h
  · simp only [h, if_true, join_eq, linesOf_eq]
    rfl
  · simp only [h, Bool.false_eq_true, if_false, join_eq, linesOf_eq]
    rcases hs : splitOn '\n' p.text with _ | ⟨l, ls⟩
    · exact absurd hs (splitOn_ne _ _)
    · simp only [List.mapIdx_cons, if_true, Nat.add_eq_zero_iff, Nat.one_ne_zero, and_false, if_false, mapIdx_const]
      rfl

theorem solid_intercalate {sep : Str} (h : solid sep = []) (ls : List Str) : solid (List.intercalate sep ls) = solid ls.flatten := by
  induction ls with
  | nil => rfl
  | cons a r ih =>
    cases r with
    | nil => simp [List.intercalate]
    | cons b r' =>
      simp only [List.intercalate, List.intersperse, List.flatten_cons, solid_append] at ih ⊢
      rw [ih, h]; rfl

theorem solid_flatten (ls : List Str) : solid ls.flatten = (ls.map solid).flatten := by
  induction ls with
  | nil => rfl
  | cons a r ih => rw [List.flatten_cons, solid_append, ih]; rfl

theorem solid_dropWhile (s : Str) : solid (s.dropWhile isspace) = solid s := by
  induction s with
  | nil => rfl
  | cons c cs ih =>
    rcases Bool.eq_false_or_eq_true (isspace c) with h | h
    · rw [List.dropWhile_cons_of_pos h, ih, solid_cons_blank h]
    · rw [List.dropWhile_cons_of_neg (by simp [h])]

theorem solid_trim (s : Str) : solid (trim s) = solid s := by
  unfold trim
  have hr : ∀ t : Str, solid t.reverse = (solid t).reverse := by intro t; simp [solid]
  rw [hr, solid_dropWhile, hr, List.reverse_reverse, solid_dropWhile]

theorem space_blank : isspace ' ' = true := by unfold isspace; decide +kernel

theorem spaces_blank (n : Int) : blank (spaces n) = true := by
  simp only [blank, spaces, List.all_eq_true]
  intro x hx
  rw [(List.mem_replicate.1 hx).2]; exact space_blank

theorem solid_blank {s : Str} (h : blank s = true) : solid s = [] := by
  simp only [solid, List.filter_eq_nil_iff]
  intro x hx
  have := List.all_eq_true.1 h x hx
  simp [this]

theorem solid_lines (s : Str) : ((linesOf s).map solid).flatten = solid s := by
  rw [← solid_flatten, ← solid_intercalate (sep := ['\n']) (solid_blank (by simp [blank, space_nl])), linesOf_eq, join_splitOn]

theorem solid_layout {wrapper : Str → Str → Str → List Str} (hw : KeepsText wrapper) (p : Paragraph) : solid (p.layout wrapper) = solid p.text := by
  unfold Paragraph.layout
  rw [solid_intercalate (solid_blank (by simp [blank, space_nl]))]
  split
  · rw [hw _ _ _ (spaces_blank _) (spaces_blank _), solid_intercalate (solid_blank (by simp [blank, space_blank])), solid_flatten, List.map_map]
    rw [← solid_lines p.text]
    congr 1
    apply List.map_congr_left
    intro l _
    exact solid_trim l
  · rw [solid_flatten, ← solid_lines p.text]
    congr 1
    apply List.ext_getElem
    · simp
    · intro n h1 h2
      simp only [List.getElem_map, List.getElem_mapIdx, solid_append, solid_blank (spaces_blank _), List.nil_append]

theorem parItems_wf {p : Paragraph} (hg : ∀ l ∈ p.lines, Good l) : ∀ i ∈ parItems p, i.WF := by
  unfold parItems
  have hx : ∀ l ∈ p.lines.map lineItems, ∀ i ∈ l, i.WF := by
    intro l hl
    obtain ⟨l', h1, rfl⟩ := List.mem_map.1 hl
    unfold lineItems
    split
    · simp
    · exact (hg l' h1).1
  generalize p.lines.map lineItems = ls at hx
  induction ls with
  | nil => intro i hi; simp [List.intercalate] at hi
  | cons a r ih =>
    cases r with
    | nil => intro i hi; simp [List.intercalate] at hi; exact hx a (by simp) i hi
    | cons b r' =>
      have ih := ih (fun l hl => hx l (by simp [hl]))
      intro i hi
      simp only [List.intercalate, List.intersperse, List.flatten_cons, List.mem_append, List.mem_singleton] at hi ih
      rcases hi with hi | rfl | hi
      · exact hx a (by simp) i hi
      · exact ⟨by decide, by decide, by decide⟩
      · exact ih i hi

theorem formatParagraph_ok {wrapper : Str → Str → Str → List Str} (hw : KeepsText wrapper) (s : Scheme C) (p : Paragraph) (hg : ∀ l ∈ p.lines, Good l) :
    ∃ out, formatParagraph wrapper s (toPara p) = .ok out ∧ Shows s out (p.layout wrapper) [] (parItems p) := by
  unfold formatParagraph
  rw [parItems_raw p hg, removeMarkup_ok s (parItems_wf hg)]
  simp only
  rw [parItems_text, show (toPara p).props = p.props from rfl, wrapText_eq]
  have := formatLoop_ok s (parItems p) 0 [] (p.layout wrapper) (parItems_wf hg) (by rw [solid_layout hw, parItems_text]; rfl)
  exact this

theorem formatParagraphs_ok {wrapper : Str → Str → Str → List Str} (hw : KeepsText wrapper) (s : Scheme C) : ∀ (ps : List Paragraph), (∀ p ∈ ps, ∀ l ∈ p.lines, Good l) →
    ∃ out, formatParagraphs wrapper s (ps.map toPara) = .ok out ∧ Shows s out (List.intercalate ['\n'] (ps.map (Paragraph.layout wrapper))) [] (ps.flatMap parItems)
  | [], _ => ⟨[], rfl, rfl, rfl, rfl, by simp⟩
  | [p], h => by
    obtain ⟨out, e1, e2⟩ := formatParagraph_ok hw s p (h p (by simp))
    refine ⟨out, e1, ?_⟩
    simpa [List.intercalate] using e2
  | p :: q :: ps, h => by
    obtain ⟨out, e1, e2, e3, e4, e5⟩ := formatParagraph_ok hw s p (h p (by simp))
    obtain ⟨out', d1, d2, d3, d4, d5⟩ := formatParagraphs_ok hw s (q :: ps) (fun x hx => h x (by simp [hx]))
    refine ⟨out ++ (['\n'], none) :: out', ?_, ?_, ?_, ?_, ?_⟩
    · simp only [List.map_cons] at d1 ⊢
      simp only [formatParagraphs, e1]
      rw [d1]; rfl
    · simp only [outText, List.flatMap_append, List.flatMap_cons] at e2 d2 ⊢
      rw [e2, d2]
      simp [List.intercalate]
    · simp only [List.flatMap_append, List.flatMap_cons, colored_append, segColored, colored_map, e3] at d3 ⊢
      rw [d3]
      simp [solid, space_nl]
    · simp only [List.filterMap_append, List.flatMap_cons] at d4 ⊢
      rw [e4, List.filterMap_cons_none rfl, d4]
    · intro t c hm
      simp only [List.mem_append, List.mem_cons, Prod.mk.injEq, reduceCtorEq, and_false, false_or] at hm
      rcases hm with hm | hm
      · exact e5 t c hm
      · exact d5 t c hm

/-! ## All items are shown -/

theorem solid_flatMap {β : Type} {g : Item → List β} (hg : ∀ c : TChar, isspace c.char = true → g (.chr c) = []) : ∀ (l : List Item), (∀ i ∈ l, i.WF) → blankLine l = true → l.flatMap g = []
  | [], _, _ => rfl
  | .chr c :: l, hw, hb => by
    rw [blankLine_cons, Bool.and_eq_true] at hb
    rw [List.flatMap_cons, hg c (by simpa [Item.text, blank] using hb.1), solid_flatMap hg l (fun x hx => hw x (by simp [hx])) hb.2]; rfl
  | .mark f spec content :: l, hw, hb => by
    rw [blankLine_cons, Bool.and_eq_true] at hb
    have := (hw (.mark f spec content) (by simp)).2.2.1
    rw [show blank (Item.mark f spec content).text = blank (charsText content) from rfl, this] at hb
    exact absurd hb.1 (by simp)

theorem lines_flatMap {β : Type} {g : Item → List β} (hg : ∀ c : TChar, isspace c.char = true → g (.chr c) = []) : ∀ (is : List Item), (lines is).flatten.flatMap g = is.flatMap g
  | [] => rfl
  | i :: is => by
    have ih := lines_flatMap hg is
    by_cases h : i = nl
    · subst h
      rw [lines_nl, List.flatten_cons, List.nil_append, ih, List.flatMap_cons, hg (.plain '\n') space_nl]; rfl
    · rcases he : lines is with _ | ⟨l, ls⟩
      · exact absurd he (lines_ne is)
      · rw [lines_cons h he]
        rw [he] at ih
        simp only [List.flatten_cons, List.flatMap_append, List.flatMap_cons, List.append_assoc] at ih ⊢
        rw [ih]

theorem kept_flatMap {β : Type} {g : Item → List β} (hg : ∀ c : TChar, isspace c.char = true → g (.chr c) = []) {is : List Item} (hw : ∀ i ∈ is, i.WF) : (keptLines is).flatten.flatMap g = is.flatMap g := by
  rw [← lines_flatMap hg is]
  unfold keptLines
  rcases List.eq_nil_or_concat (lines is) with hl | ⟨a, z, hl⟩
  · exact absurd hl (lines_ne is)
  · rw [List.concat_eq_append] at hl
    have hz := lines_good is hw z (by rw [hl]; simp)
    rw [hl]
    simp only [List.getLast?_append, List.getLast?_singleton, Option.some_or, Option.any_some, List.dropLast_concat]
    split
    · rename_i hb
      simp [List.flatMap_append, solid_flatMap hg z hz.1 hb]
    · rfl

theorem runs_flatten : ∀ ls : List (List Item), (runs ls).flatten = ls
  | [] => rfl
  | [l] => rfl
  | l :: x :: ls => by
    have ih := runs_flatten (x :: ls)
    obtain ⟨g, gs, e⟩ := runs_head x ls
    rw [e] at ih
    rw [runs, e]
    simp only
    split
    · simpa using ih
    · simpa using ih

theorem section_lines (p : Props) (is : List Item) : (sectionParagraphs p is).flatMap Paragraph.lines = keptLines is := by
  unfold sectionParagraphs
  have := runs_flatten (keptLines is)
  split
  · rename_i h; rw [h] at this; simpa using this
  · rename_i g gs h
    rw [h] at this
    simp only [List.flatMap_cons, List.flatMap_map]
    rw [← this, List.flatten_cons]
    simp [List.flatMap]

theorem section_good {p : Props} {is : List Item} (hw : ∀ i ∈ is, i.WF) : ∀ q ∈ sectionParagraphs p is, ∀ l ∈ q.lines, Good l := by
  intro q hq l hl
  refine keptLines_good hw l ?_
  rw [← section_lines p is]
  exact List.mem_flatMap.2 ⟨q, hq, hl⟩

theorem par_flatMap {β : Type} {g : Item → List β} (hg : ∀ c : TChar, isspace c.char = true → g (.chr c) = []) (p : Paragraph) (hgood : ∀ l ∈ p.lines, Good l) : (parItems p).flatMap g = p.lines.flatten.flatMap g := by
  unfold parItems
  rw [flatMap_intercalate]
  have e : [nl].flatMap g = [] := by simp [hg (.plain '\n') space_nl]
  rw [e]
  have e2 : ∀ l ∈ p.lines, (lineItems l).flatMap g = l.flatMap g := by
    intro l hl
    unfold lineItems
    split
    · rename_i hb; rw [solid_flatMap hg l (hgood l hl).1 hb]; rfl
    · rfl
  have e3 : ∀ ls : List (List β), List.intercalate [] ls = ls.flatten := by
    intro ls
    induction ls with
    | nil => rfl
    | cons a r ih =>
      cases r with
      | nil => simp [List.intercalate]
      | cons b r' =>
        simp only [List.intercalate, List.intersperse, List.flatten_cons] at ih ⊢
        rw [ih]; simp
  rw [e3, List.map_map]
  have e4 : p.lines.map ((fun l => l.flatMap g) ∘ lineItems) = p.lines.map fun l => l.flatMap g := List.map_congr_left (fun l hl => e2 l hl)
  rw [e4]
  induction p.lines with
  | nil => rfl
  | cons l ls ih => simp [List.flatMap_append, ih]

theorem section_flatMap {β : Type} {g : Item → List β} (hg : ∀ c : TChar, isspace c.char = true → g (.chr c) = []) (p : Props) {is : List Item} (hw : ∀ i ∈ is, i.WF) :
    ((sectionParagraphs p is).flatMap parItems).flatMap g = is.flatMap g := by
  rw [← kept_flatMap hg hw, ← section_lines p is]
  have := section_good (p := p) hw
  generalize sectionParagraphs p is = ps at this
  induction ps with
  | nil => rfl
  | cons q qs ih =>
    simp only [List.flatMap_cons, List.flatMap_append, List.flatten_append]
    rw [ih (fun x hx => this x (by simp [hx])), par_flatMap hg q (this q (by simp))]

theorem after_flatMap {β : Type} {g : Item → List β} (hg : ∀ c : TChar, isspace c.char = true → g (.chr c) = []) : ∀ is : List Item, (afterMarkup is).flatMap g = is.flatMap g
  | [] => rfl
  | .mark f s c :: is => rfl
  | .chr (.escaped c) :: is => rfl
  | .chr (.plain c) :: is => by
    simp only [afterMarkup]
    split
    · rename_i h; subst h; rw [List.flatMap_cons, hg (.plain '\n') space_nl]; rfl
    · split
      · rename_i h; rw [List.flatMap_cons, hg (.plain c) h, after_flatMap hg is]; rfl
      · rfl

theorem sections_wf : ∀ (ss : List Section) (is : List Item), SectionsWF is ss → ∀ s ∈ ss, ∀ i ∈ s.items, i.WF
  | [], _, _ => by simp
  | s :: ss, is, h => by
    intro x hx
    rcases List.mem_cons.1 hx with rfl | hx
    · exact h.2.2.1
    · exact sections_wf ss s.items h.2.2.2.2 x hx

theorem after_wf {is : List Item} (h : ∀ i ∈ is, i.WF) : ∀ i ∈ afterMarkup is, i.WF := by
  obtain ⟨xs, hxs⟩ := afterMarkup_suffix is
  intro i hi
  exact h i (by rw [hxs]; exact List.mem_append_right _ hi)

theorem doc_good (d : Doc) (h : d.WF) : ∀ p ∈ d.paragraphs, ∀ l ∈ p.lines, Good l := by
  intro p hp
  unfold Doc.paragraphs at hp
  rcases List.mem_append.1 hp with hp | hp
  · split at hp
    · simp at hp
    · exact section_good h.1 p hp
  · obtain ⟨s, hs, hp⟩ := List.mem_flatMap.1 hp
    exact section_good (after_wf (sections_wf _ _ h.2 s hs)) p hp

theorem doc_flatMap {β : Type} {g : Item → List β} (hg : ∀ c : TChar, isspace c.char = true → g (.chr c) = []) (d : Doc) (h : d.WF) : (d.paragraphs.flatMap parItems).flatMap g = d.items.flatMap g := by
  unfold Doc.paragraphs Doc.items
  simp only [List.flatMap_append]
  congr 1
  · split
    · rename_i he; rw [he]; rfl
    · exact section_flatMap hg _ h.1
  · have := sections_wf _ _ h.2
    generalize d.sections = ss at this
    induction ss with
    | nil => rfl
    | cons s ss ih =>
      simp only [List.flatMap_cons, List.flatMap_append]
      rw [ih (fun x hx => this x (by simp [hx])), section_flatMap hg _ (after_wf (this s (by simp))), after_flatMap hg]

theorem filterMap_flatMap {α β : Type} (f : α → Option β) (l : List α) : l.filterMap f = l.flatMap fun x => (f x).toList := by
  induction l with
  | nil => rfl
  | cons a l ih =>
    simp only [List.filterMap_cons, List.flatMap_cons, ← ih]
    cases f a <;> rfl

theorem solidColored_flatMap (s : Scheme C) (is : List Item) : solidColored (is.flatMap (Item.colored s)) = is.flatMap fun i => solidColored (i.colored s) := by
  induction is with
  | nil => rfl
  | cons i is ih => rw [List.flatMap_cons, colored_append, ih, List.flatMap_cons]

theorem format_ok {wrapper : Str → Str → Str → List Str} (hw : KeepsText wrapper) (s : Scheme C) (d : Doc) (h : d.WF) :
    ∃ out, format wrapper s d.raw = .ok out ∧ Shows s out (List.intercalate ['\n'] (d.paragraphs.map (Paragraph.layout wrapper))) [] d.items := by
  obtain ⟨bs, h1, h2⟩ := makeParagraphs_ok d h
  obtain ⟨out, e1, e2, e3, e4, e5⟩ := formatParagraphs_ok hw s d.paragraphs (doc_good d h)
  refine ⟨out, ?_, e2, ?_, ?_, e5⟩
  · unfold format
    rw [h1]
    simp only
    rw [h2, e1]
  · rw [e3, solidColored_flatMap, solidColored_flatMap, doc_flatMap (by intro c hc; simp [Item.colored, solidColored, hc]) d h]
  · rw [e4, filterMap_flatMap, filterMap_flatMap, doc_flatMap (by intro c _; rfl) d h]

end Marcel.Help
