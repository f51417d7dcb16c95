import Verif.Lemmas.Help

/-! # Lemmas about the formatting of help: blocks of text -/

namespace Marcel.Help

/-- The character before the pointer is not a backslash. -/
def Clean (b : Str) : Prop := b.head? ≠ some '\\'

theorem backup_clean {c : Char} {b : Str} (h : Clean b) (a : Str) : (Ptr.mk (c :: b) a).backup = .ok ⟨b, c :: a⟩ := by
  cases b with
  | nil => rfl
  | cons d b' =>
    have : d ≠ '\\' := fun e => h (by simp [e])
    simp only [Ptr.backup, if_neg this]

theorem clean_cons {c : Char} (h : c ≠ '\\') (b : Str) : Clean (c :: b) := by simpa [Clean] using h

theorem raw_ne (i : Item) : i.raw ≠ [] := by
  cases i with
  | chr c => cases c <;> simp [Item.raw, TChar.raw]
  | mark _ _ _ => simp [Item.raw]

theorem itemsRaw_ne {is : List Item} (h : is ≠ []) : itemsRaw is ≠ [] := by
  cases is with
  | nil => exact absurd rfl h
  | cons i is =>
    simp only [itemsRaw, List.flatMap_cons]
    intro e
    exact raw_ne i (List.append_eq_nil_iff.1 e).1

theorem clean_items {is : List Item} (hw : ∀ i ∈ is, i.WF) (hb : noBackslash is) {b : Str} (h : Clean b) : Clean ((itemsRaw is).reverse ++ b) := by
  rcases List.eq_nil_or_concat is with rfl | ⟨xs, i, rfl⟩
  · exact h
  · have e : (itemsRaw (xs ++ [i])).reverse = i.raw.reverse ++ (itemsRaw xs).reverse := by simp [itemsRaw]
    rw [List.concat_eq_append] at *
    rw [e, List.append_assoc]
    have hi := hw i (by simp)
    cases i with
    | mark f spec content =>
      have e3 : (Item.mark f spec content).raw.reverse = '}' :: ('{' :: spec ++ ':' :: charsRaw content).reverse := by simp [Item.raw]
      rw [e3]
      exact clean_cons (by decide) _
    | chr c =>
      cases c with
      | plain c => exact clean_cons hi.2.2 _
      | escaped c =>
        refine clean_cons ?_ _
        rintro rfl
        exact hb (by simp)

theorem space_nl : isspace '\n' = true := by unfold isspace; decide +kernel

/-- What is left after the markup of a paragraph; `one`: nothing but one blank. -/
inductive Left (rest : Str) (is : List Item) : List Item → Prop
  | same : Left rest is (afterMarkup is)
  | one (c : Char) : rest = [] → afterMarkup is = [] → isspace c = true → c ≠ '\n' → Item.WF (.chr (.plain c)) → Left rest is [.chr (.plain c)]

theorem skipBlanks_ok (rest : Str) (hr : rest = [] ∨ ∃ r, rest = '{' :: r) : ∀ (is : List Item) (n : Nat) (b : Str), (∀ i ∈ is, i.WF) → (itemsRaw is).length < n → Clean b →
    (is = [] → rest = [] → ∃ c b', b = c :: b' ∧ isspace c = true ∧ c ≠ '\n' ∧ Item.WF (.chr (.plain c)) ∧ Clean b') →
    ∃ b' is', skipBlanks n ⟨b, itemsRaw is ++ rest⟩ = .ok ⟨b', itemsRaw is' ++ rest⟩ ∧ Clean b' ∧ Left rest is is'
  | _, 0, _, _, h, _, _ => absurd h (by omega)
  | [], n + 1, b, _, _, hb, he => by
    rcases hr with rfl | ⟨r, rfl⟩
    · obtain ⟨c, b', rfl, h1, h2, h3, h4⟩ := he rfl rfl
      refine ⟨b', [.chr (.plain c)], ?_, h4, .one c rfl rfl h1 h2 h3⟩
      show (Ptr.mk (c :: b') []).backup = _
      rw [backup_clean h4]; rfl
    · refine ⟨b, [], ?_, hb, .same⟩
      simp only [itemsRaw, List.flatMap_nil, List.nil_append, skipBlanks, next_open]
      exact backup_clean hb _
  | .mark f spec content :: is, n + 1, b, hw, hl, hb, he => by
    refine ⟨b, .mark f spec content :: is, ?_, hb, .same⟩
    simp only [itemsRaw, List.flatMap_cons, Item.raw, List.cons_append, skipBlanks, next_open]
    exact backup_clean hb _
  | .chr (.escaped c) :: is, n + 1, b, hw, hl, hb, he => by
    refine ⟨b, .chr (.escaped c) :: is, ?_, hb, .same⟩
    have hc : isspace c = false := hw (.chr (.escaped c)) (by simp)
    have hn : c ≠ '\n' := by rintro rfl; rw [space_nl] at hc; exact absurd hc (by simp)
    simp only [itemsRaw, List.flatMap_cons, Item.raw, TChar.raw, List.cons_append, List.nil_append, skipBlanks, next_escaped, if_neg hn, hc]
    rfl
  | .chr (.plain c) :: is, n + 1, b, hw, hl, hb, he => by
    have hc : (TChar.plain c).WF := hw (.chr (.plain c)) (by simp)
    simp only [itemsRaw, List.flatMap_cons, Item.raw, TChar.raw, List.cons_append, List.nil_append, List.length_cons] at hl ⊢
    by_cases h1 : c = '\n'
    · refine ⟨c :: b, is, ?_, clean_cons hc.2.2 _, ?_⟩
      · simp only [skipBlanks, next_plain hc, if_pos h1]
      · have := Left.same (rest := rest) (is := .chr (.plain c) :: is)
        rw [show afterMarkup (.chr (.plain c) :: is) = is from by simp only [afterMarkup, if_pos h1]] at this
        exact this
    · rcases Bool.eq_false_or_eq_true (isspace c) with h2 | h2
      · obtain ⟨b', is', e, h3, h4⟩ := skipBlanks_ok rest hr is n (c :: b) (fun x hx => hw x (by simp [hx])) (by simp only [itemsRaw]; omega) (clean_cons hc.2.2 _)
          (fun _ _ => ⟨c, b, rfl, h2, h1, hc, hb⟩)
        refine ⟨b', is', ?_, h3, ?_⟩
        · simp only [skipBlanks, next_plain hc, if_neg h1, h2]
          exact e
        · have e2 : afterMarkup (.chr (.plain c) :: is) = afterMarkup is := by simp only [afterMarkup, if_neg h1, h2, if_true]
          cases h4 with
          | same => rw [← e2]; exact .same
          | one x a1 a2 a3 a4 a5 => exact .one x a1 (e2 ▸ a2) a3 a4 a5
      · refine ⟨b, .chr (.plain c) :: is, ?_, hb, ?_⟩
        · simp only [skipBlanks, next_plain hc, if_neg h1, h2, Bool.false_eq_true, if_false]
          rw [backup_clean hb]
          simp [Item.raw, TChar.raw]
        · have := Left.same (rest := rest) (is := .chr (.plain c) :: is)
          rw [show afterMarkup (.chr (.plain c) :: is) = .chr (.plain c) :: is from by simp only [afterMarkup, if_neg h1, h2, Bool.false_eq_true, if_false]] at this
          exact this

/-! ## Blocks and paragraphs, as written -/

/-- Paragraphs, as written, in reverse order. -/
def rawParas (ps : List Para) (body : List Item) : List Section → List Para
  | [] => (dropIgnored (splitOn '\n' (itemsRaw body))).foldl addLine ps
  | s :: ss => rawParas (⟨s.props, []⟩ :: (dropIgnored (splitOn '\n' (itemsRaw body))).foldl addLine ps) (afterMarkup s.items) ss

theorem afterMarkup_suffix : ∀ is : List Item, ∃ xs, is = xs ++ afterMarkup is
  | [] => ⟨[], rfl⟩
  | .mark f s c :: is => ⟨[], rfl⟩
  | .chr (.escaped c) :: is => ⟨[], rfl⟩
  | .chr (.plain c) :: is => by
    obtain ⟨xs, h⟩ := afterMarkup_suffix is
    simp only [afterMarkup]
    split
    · exact ⟨[.chr (.plain c)], rfl⟩
    · split
      · exact ⟨.chr (.plain c) :: xs, by rw [List.cons_append, ← h]⟩
      · exact ⟨[], rfl⟩

theorem noBackslash_suffix {xs is : List Item} (h : noBackslash (xs ++ is)) : noBackslash is := by
  cases hi : is.getLast? with
  | none => simp [noBackslash, hi]
  | some x =>
    unfold noBackslash at h ⊢
    rw [List.getLast?_append, hi] at h
    rw [hi]
    exact h

theorem sectionsWF_before {is is' : List Item} {ss : List Section} (h : noBackslash is → noBackslash is') (hs : SectionsWF is ss) : SectionsWF is' ss := by
  cases ss with
  | nil => trivial
  | cons s ss => exact ⟨h hs.1, hs.2⟩

theorem contentsTo_eq (b x y : Str) : (Ptr.mk b (x ++ y)).contentsTo ⟨x.reverse ++ b, y⟩ = x := by
  simp [Ptr.contentsTo]

theorem findMarkup_none {body : List Item} (hw : ∀ i ∈ body, i.WF) (b : Str) : findParagraphMarkup ⟨b, itemsRaw body⟩ = .ok none := by
  have h := found_items body hw b []
  rw [List.append_nil, found_end] at h
  unfold findParagraphMarkup
  simp only
  rw [show findOpen _ _ = found ⟨b, itemsRaw body⟩ from rfl, h]
  rfl

theorem findMarkup_some {body : List Item} (hw : ∀ i ∈ body, i.WF) (hb : noBackslash body) {p : Props} {spec : Str} (hp : p.Written spec) {b r : Str} (hc : Clean b) (hr : r ≠ []) :
    findParagraphMarkup ⟨b, itemsRaw body ++ '{' :: (spec ++ '}' :: r)⟩
      = .ok (some (⟨(itemsRaw body).reverse ++ b, '{' :: (spec ++ '}' :: r)⟩, ⟨'}' :: (spec.reverse ++ '{' :: ((itemsRaw body).reverse ++ b)), r⟩)) := by
  have h := found_items body hw b ('{' :: (spec ++ '}' :: r))
  obtain ⟨h1, ⟨c, s, hs, hcm⟩, _⟩ := props_written hp
  have h2 : found ⟨b, itemsRaw body ++ '{' :: (spec ++ '}' :: r)⟩ = ⟨'{' :: ((itemsRaw body).reverse ++ b), spec ++ '}' :: r⟩ := by
    rw [h, hs, List.cons_append, found_par hcm]
  have h3 : (Ptr.mk ('{' :: ((itemsRaw body).reverse ++ b)) (spec ++ '}' :: r)).advancePast .closing = ⟨'}' :: (spec.reverse ++ '{' :: ((itemsRaw body).reverse ++ b)), r⟩ := by
    rw [advancePast_simple close_ne h1, advancePast_stop (by left; rw [next_close]), next_close]
  unfold findParagraphMarkup
  simp only
  rw [show findOpen _ _ = found ⟨b, itemsRaw body ++ '{' :: (spec ++ '}' :: r)⟩ from rfl, h2, h3]
  have h4 : (Ptr.mk ('{' :: ((itemsRaw body).reverse ++ b)) (spec ++ '}' :: r)).atEnd = false := by rw [hs]; rfl
  have h5 : (Ptr.mk ('}' :: (spec.reverse ++ '{' :: ((itemsRaw body).reverse ++ b))) r).atEnd = false := by
    cases r with
    | nil => exact absurd rfl hr
    | cons x xs => rfl
  rw [h4, h5, backup_clean (clean_items hw hb hc)]
  rfl

theorem dropIgnored_blank {s : Str} (h : s.all isspace = true) (hn : '\n' ∉ s) : dropIgnored (splitOn '\n' s) = [] := by
  rw [splitOn_none hn]
  simp [dropIgnored, h]

theorem findBlocks_ok : ∀ (ss : List Section) (body : List Item) (n : Nat) (b : Str), (∀ i ∈ body, i.WF) → SectionsWF body ss → Clean b → (itemsRaw body ++ sectionsRaw ss).length < n →
    ∃ bs, findBlocks n ⟨b, itemsRaw body ++ sectionsRaw ss⟩ = .ok bs ∧ (∀ ps, makeLoop ps bs = rawParas ps body ss) ∧
      ((body ≠ [] ∧ ∃ t bs', bs = .text t :: bs') ∨ (body = [] ∧ ∀ t bs', bs ≠ .text t :: bs'))
  | _, _, 0, _, _, _, _, h => absurd h (by omega)
  | [], body, n + 1, b, hw, _, _, _ => by
    by_cases he : body = []
    · subst he
      exact ⟨[], rfl, fun ps => rfl, .inr ⟨rfl, by simp⟩⟩
    · refine ⟨[.text (itemsRaw body)], ?_, fun ps => rfl, .inl ⟨he, _, _, rfl⟩⟩
      have h1 : (Ptr.mk b (itemsRaw body)).atEnd = false := by
        rw [Ptr.atEnd, List.isEmpty_eq_false_iff]; exact itemsRaw_ne he
      simp only [sectionsRaw, List.flatMap_nil, List.append_nil]
      simp only [findBlocks, h1, findMarkup_none hw, Bool.false_eq_true, if_false]
  | s :: ss, body, n + 1, b, hw, hs, hb, hl => by
    obtain ⟨h1, h2, h3, h4, h5⟩ := hs
    have e1 : sectionsRaw (s :: ss) = '{' :: (s.spec ++ '}' :: (itemsRaw s.items ++ sectionsRaw ss)) := by simp [sectionsRaw]
    have hr : sectionsRaw ss = [] ∨ ∃ r, sectionsRaw ss = '{' :: r := by
      cases ss with
      | nil => exact .inl rfl
      | cons t ts => exact .inr ⟨_, rfl⟩
    have hss : sectionsRaw ss = [] → ss = [] := by
      cases ss with
      | nil => exact fun _ => rfl
      | cons t ts => intro h; simp [sectionsRaw] at h
    have hne : itemsRaw s.items ++ sectionsRaw ss ≠ [] := by
      intro e
      obtain ⟨ea, eb⟩ := List.append_eq_nil_iff.1 e
      exact itemsRaw_ne (h4 (hss eb)) ea
    rw [e1] at hl ⊢
    have hclean : Clean ('}' :: (s.spec.reverse ++ '{' :: ((itemsRaw body).reverse ++ b))) := clean_cons (by decide) _
    obtain ⟨b', is', k1, k2, k3⟩ := skipBlanks_ok (sectionsRaw ss) hr s.items ((itemsRaw s.items ++ sectionsRaw ss).length + 1)
      ('}' :: (s.spec.reverse ++ '{' :: ((itemsRaw body).reverse ++ b))) h3 (by simp; omega) hclean (fun ha hb' => absurd ha (h4 (hss hb')))
    obtain ⟨xs, hxs⟩ := afterMarkup_suffix s.items
    have hw' : ∀ i ∈ is', i.WF := by
      cases k3 with
      | same => intro i hi; exact h3 i (by rw [hxs]; exact List.mem_append_right _ hi)
      | one c _ _ _ _ hc => intro i hi; rw [List.mem_singleton] at hi; subst hi; exact hc
    have hs' : SectionsWF is' ss := by
      cases k3 with
      | same => exact sectionsWF_before (fun hb => by rw [hxs] at hb; exact noBackslash_suffix hb) h5
      | one c hr' _ _ _ hc => rw [hss hr']; trivial
    have hlen : (itemsRaw is' ++ sectionsRaw ss).length < n := by
      have : (itemsRaw is').length ≤ (itemsRaw s.items).length + 1 := by
        cases k3 with
        | same => rw [hxs]; simp [itemsRaw]; rw [← hxs]; omega
        | one c _ _ _ _ hc => simp [itemsRaw, Item.raw, TChar.raw]
      simp only [List.length_append, List.length_cons] at hl ⊢
      omega
    obtain ⟨bs, m1, m2, m3⟩ := findBlocks_ok ss is' n b' hw' hs' k2 hlen
    refine ⟨(if (Ptr.mk b (itemsRaw body ++ '{' :: (s.spec ++ '}' :: (itemsRaw s.items ++ sectionsRaw ss)))).before.length < ((itemsRaw body).reverse ++ b).length then [.text (itemsRaw body)] else [])
      ++ .para s.props :: bs, ?_, ?_, ?_⟩
    · have a1 : (Ptr.mk b (itemsRaw body ++ '{' :: (s.spec ++ '}' :: (itemsRaw s.items ++ sectionsRaw ss)))).atEnd = false := by
        simp [Ptr.atEnd]
      have a2 : (Ptr.mk ((itemsRaw body).reverse ++ b) ('{' :: (s.spec ++ '}' :: (itemsRaw s.items ++ sectionsRaw ss)))).contentsTo
          ⟨'}' :: (s.spec.reverse ++ '{' :: ((itemsRaw body).reverse ++ b)), itemsRaw s.items ++ sectionsRaw ss⟩ = '{' :: (s.spec ++ ['}']) := by
        have := contentsTo_eq ((itemsRaw body).reverse ++ b) ('{' :: (s.spec ++ ['}'])) (itemsRaw s.items ++ sectionsRaw ss)
        simpa using this
      rw [findBlocks, a1, if_neg (by simp), findMarkup_some hw h1 h2 hb hne]
      simp only
      rw [a2, (props_written h2).2.2]
      simp only
      rw [k1]
      simp only
      rw [m1]
      simp only
      rw [contentsTo_eq]
    · intro ps
      have r1 : ∀ qs, rawParas qs is' ss = rawParas qs (afterMarkup s.items) ss := by
        intro qs
        cases k3 with
        | same => rfl
        | one c hr' ha hsp hnl hc =>
          rw [hss hr', ha]
          simp only [rawParas]
          rw [dropIgnored_blank (s := itemsRaw [.chr (.plain c)]) (by simp [itemsRaw, Item.raw, TChar.raw, hsp]) (by simpa [itemsRaw, Item.raw, TChar.raw] using fun e => hnl e.symm)]
          rfl
      by_cases he : body = []
      · subst he
        simp only [itemsRaw, List.flatMap_nil, List.reverse_nil, List.nil_append, Nat.lt_irrefl, if_false, makeLoop]
        rw [m2, r1]
        rfl
      · have hl2 : b.length < ((itemsRaw body).reverse ++ b).length := by
          have := List.length_pos_iff.2 (itemsRaw_ne he)
          simp only [List.length_append, List.length_reverse]; omega
        rw [if_pos hl2]
        simp only [List.singleton_append, makeLoop]
        rw [m2, r1]
        rfl
    · by_cases he : body = []
      · right
        subst he
        refine ⟨rfl, ?_⟩
        intro t bs'
        simp [itemsRaw]
      · left
        have hl2 : b.length < ((itemsRaw body).reverse ++ b).length := by
          have := List.length_pos_iff.2 (itemsRaw_ne he)
          simp only [List.length_append, List.length_reverse]; omega
        refine ⟨he, itemsRaw body, .para s.props :: bs, ?_⟩
        rw [if_pos hl2]; rfl

end Marcel.Help
