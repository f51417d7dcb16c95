import Verif.Lemmas.HelpFormat

/-! # A check for help texts

`check t` says whether a text is a well-formed document. The parser below is not trusted: what it returns is checked (`check_sound`). -/

namespace Marcel.Help

/-- The digit that a character is. -/
def digitAt (c : Char) : Option (Fin 10) := (List.finRange 10).find? fun d => Exec.digit d == c

theorem digitAt_sound {c : Char} {d : Fin 10} (h : digitAt c = some d) : Exec.digit d = c := by
  have := List.find?_some h
  simpa using this

/-- The digits of a text. -/
def digitsOf : Str → Option (List (Fin 10))
  | [] => some []
  | c :: cs =>
    match digitAt c, digitsOf cs with
    | some d, some ds => some (d :: ds)
    | _, _ => none

theorem digitsOf_sound {s : Str} {ds : List (Fin 10)} (h : digitsOf s = some ds) : ds.map Exec.digit = s := by
  induction s generalizing ds with
  | nil => simp [digitsOf] at h; subst h; rfl
  | cons c cs ih =>
    rw [digitsOf] at h
    split at h
    · rename_i d ds' h1 h2
      cases h
      rw [List.map_cons, digitAt_sound h1, ih h2]
    · exact absurd h (by simp)

/-- The number that a text is. -/
def numOf (s : Str) : Option Int :=
  match digitsOf s with
  | some (d :: ds) => some (Exec.value (d :: ds))
  | _ => none

theorem numOf_sound {s : Str} {n : Int} (h : numOf s = some n) : Exec.Numeral s n := by
  unfold numOf at h
  split at h
  · rename_i d ds hd
    cases h
    have := Exec.Numeral.pos (d :: ds) (by simp)
    rwa [digitsOf_sound hd] at this
  · exact absurd h (by simp)

/-- The format that is written so. -/
def fmtOf : Str → Option Fmt
  | [c] =>
    if c = 'r' then some .reference else if c = 'R' then some .reference else if c = 'b' then some .bold else if c = 'B' then some .bold
    else if c = 'i' then some .italic else if c = 'I' then some .italic else if c = 'n' then some .name else if c = 'N' then some .name else none
  | c :: r :: g :: b :: style =>
    match digitAt r, digitAt g, digitAt b with
    | some r, some g, some b =>
      if (c = 'c' ∨ c = 'C') ∧ style.length ≤ 2 ∧ (∀ x ∈ style, x = 'b' ∨ x = 'B' ∨ x = 'i' ∨ x = 'I') then
        some (.rgb r g b (style.any fun x => x == 'b' || x == 'B') (style.any fun x => x == 'i' || x == 'I'))
      else none
    | _, _, _ => none
  | _ => none

theorem fmtOf_sound {s : Str} {f : Fmt} (h : fmtOf s = some f) : f.Written s := by
  unfold fmtOf at h
  split at h
  · rename_i c
    repeat' split at h
    all_goals first | (cases h; done) | (cases h; subst_vars; constructor)
  · rename_i c r g b style
    split at h
    · rename_i r' g' b' hr hg hb
      split at h
      · rename_i hc
        cases h
        rw [← digitAt_sound hr, ← digitAt_sound hg, ← digitAt_sound hb]
        exact .rgb c r' g' b' style hc.1 hc.2.1 hc.2.2
      · exact absurd h (by simp)
    · exact absurd h (by simp)
  · exact absurd h (by simp)

/-- The part before a character, and what follows it, if it is there. -/
def cut (x : Char) : Str → Str × Option Str
  | [] => ([], none)
  | c :: cs => if c = x then ([], some cs) else ((c :: (cut x cs).1), (cut x cs).2)

theorem cut_sound {x : Char} {s : Str} : s = (cut x s).1 ++ (match (cut x s).2 with | none => [] | some r => x :: r) := by
  induction s with
  | nil => rfl
  | cons c cs ih =>
    rw [cut]
    by_cases h : c = x
    · rw [if_pos h, h]; rfl
    · rw [if_neg h]
      show c :: cs = c :: (_ ++ _)
      rw [← ih]

/-- The option that is written so. -/
def optOf (s : Str) : Option POpt :=
  match cut '=' s with
  | (k, none) => if k.map Char.toLower = "wrap".toList then some (.wrap true) else none
  | (k, some v) =>
    if k.map Char.toLower = "wrap".toList then
      if v = ['t'] then some (.wrap true) else if v = ['T'] then some (.wrap true) else if v = ['f'] then some (.wrap false) else if v = ['F'] then some (.wrap false) else none
    else if k.map Char.toLower = "indent".toList then
      match cut ':' v with
      | (a, none) =>
        match numOf a with
        | some n => some (.indent n n)
        | none => none
      | (a, some b) =>
        match numOf a, numOf b with
        | some n, some m => some (.indent n m)
        | _, _ => none
    else if ∀ c ∈ k ++ v, c ∉ [',', '=', '{', '}', '\\'] then some .other
    else none

theorem optOf_sound {s : Str} {o : POpt} (h : optOf s = some o) : o.Written s := by
  have hs := cut_sound (x := '=') (s := s)
  unfold optOf at h
  generalize cut '=' s = q at h hs
  rcases q with ⟨k, _ | v⟩
  · simp only [List.append_nil] at hs
    subst hs
    simp only at h
    split at h
    · rename_i hk; cases h; exact .wrapAlone _ hk
    · exact absurd h (by simp)
  · simp only at hs h
    subst hs
    split at h
    · rename_i hk
      repeat' split at h
      all_goals first
        | (cases h; done)
        | (rename_i hv; subst hv; cases h; exact .wrapTrue k _ hk (.inl rfl))
        | (rename_i hv; subst hv; cases h; exact .wrapTrue k _ hk (.inr rfl))
        | (rename_i hv; subst hv; cases h; exact .wrapFalse k _ hk (.inl rfl))
        | (rename_i hv; subst hv; cases h; exact .wrapFalse k _ hk (.inr rfl))
    · rename_i hk
      split at h
      · rename_i hi
        have hv := cut_sound (x := ':') (s := v)
        generalize cut ':' v = q at h hv
        rcases q with ⟨a, _ | b⟩
        · simp only [List.append_nil] at hv h
          subst hv
          split at h
          · rename_i n hn; cases h; exact .indent k _ n hi (numOf_sound hn)
          · exact absurd h (by simp)
        · simp only at hv h
          subst hv
          split at h
          · rename_i n m hn hm; cases h
            have := POpt.Written.indents k a b n m hi (numOf_sound hn) (numOf_sound hm)
            simpa using this
          · exact absurd h (by simp)
      · rename_i hi
        split at h
        · rename_i ho; cases h; exact .other k v hk hi ho
        · exact absurd h (by simp)

/-- The options that are written so, each after a comma. -/
def optsOf : Nat → Str → Option (List POpt)
  | _, [] => some []
  | 0, _ => none
  | n + 1, c :: s =>
    if c ≠ ',' then none
    else
      match optOf (cut ',' s).1, optsOf n ((match (cut ',' s).2 with | none => [] | some r => ',' :: r)) with
      | some o, some os => some (o :: os)
      | _, _ => none

theorem optsOf_sound {n : Nat} {s : Str} {os : List POpt} (h : optsOf n s = some os) : POpt.AllWritten os s := by
  induction n generalizing s os with
  | zero =>
    cases s with
    | nil => cases h; exact .nil
    | cons c s => exact absurd h (by simp [optsOf])
  | succ n ih =>
    cases s with
    | nil => cases h; exact .nil
    | cons c s =>
      rw [optsOf] at h
      split at h
      · exact absurd h (by simp)
      · rename_i hc
        have hc : c = ',' := by simpa using hc
        subst hc
        split at h
        · rename_i o os' h1 h2
          cases h
          have := POpt.AllWritten.cons o os' _ _ (optOf_sound h1) (ih h2)
          rw [List.cons_append, ← cut_sound (x := ',') (s := s)] at this
          exact this
        · exact absurd h (by simp)

/-- The attributes that are written so. -/
def propsFor : Str → Option Props
  | [] => none
  | c :: s =>
    match optsOf s.length s with
    | none => none
    | some os => if c = 'p' ∨ c = 'P' then some (propsOf false os) else if c = 'l' ∨ c = 'L' then some (propsOf true os) else none

theorem propsFor_sound {s : Str} {p : Props} (h : propsFor s = some p) : p.Written s := by
  cases s with
  | nil => exact absurd h (by simp [propsFor])
  | cons c s =>
    rw [propsFor] at h
    split at h
    · exact absurd h (by simp)
    · rename_i os ho
      split at h
      · rename_i hc; cases h; exact .p c os s hc (optsOf_sound ho)
      · split at h
        · rename_i hc; cases h; exact .l c os s hc (optsOf_sound ho)
        · exact absurd h (by simp)

/-- Is the item well-formed? -/
def Item.ok : Item → Bool
  | .chr c => decide c.WF
  | .mark f spec content => decide (fmtOf spec = some f) && content.all (fun c => decide c.WF) && !blank (charsText content) && (linesOf (charsText content)).tail.dropLast.all fun l => !blank l

theorem Item.ok_sound {i : Item} (h : i.ok = true) : i.WF := by
  cases i with
  | chr c => exact (of_decide_eq_true h : c.WF)
  | mark f spec content =>
    simp only [Item.ok, Bool.and_eq_true, decide_eq_true_eq, List.all_eq_true, Bool.not_eq_eq_eq_not, Bool.not_true] at h
    exact ⟨fmtOf_sound h.1.1.1, h.1.1.2, h.1.2, h.2⟩

/-- Are the sections well-formed? -/
def sectionsOk (before : List Item) : List Section → Bool
  | [] => true
  | s :: ss => decide (before.getLast? ≠ some (.chr (.escaped '\\'))) && decide (propsFor s.spec = some s.props) && s.items.all Item.ok && (!ss.isEmpty || !s.items.isEmpty) && sectionsOk s.items ss

theorem sectionsOk_sound {before : List Item} {ss : List Section} (h : sectionsOk before ss = true) : SectionsWF before ss := by
  induction ss generalizing before with
  | nil => trivial
  | cons s ss ih =>
    simp only [sectionsOk, Bool.and_eq_true, decide_eq_true_eq, List.all_eq_true] at h
    obtain ⟨⟨⟨⟨h1, h2⟩, h3⟩, h4⟩, h5⟩ := h
    refine ⟨h1, propsFor_sound h2, fun i hi => Item.ok_sound (h3 i hi), ?_, ih h5⟩
    rintro rfl e
    simp [e] at h4

/-- Is the document well-formed? -/
def Doc.ok (d : Doc) : Bool := d.intro.all Item.ok && sectionsOk d.intro d.sections

theorem Doc.ok_sound {d : Doc} (h : d.ok = true) : d.WF := by
  simp only [Doc.ok, Bool.and_eq_true, List.all_eq_true] at h
  exact ⟨fun i hi => Item.ok_sound (h.1 i hi), sectionsOk_sound h.2⟩

/-- Characters up to a closing brace, and what follows. -/
def takeChars : Str → List TChar × Str
  | [] => ([], [])
  | ['\\'] => ([], [])
  | '\\' :: c :: s => ((.escaped c :: (takeChars s).1), (takeChars s).2)
  | c :: s => if c = '}' then ([], s) else ((.plain c :: (takeChars s).1), (takeChars s).2)

/-- Items up to the markup of a paragraph, and what follows. -/
def takeItems : Nat → Str → List Item × Str
  | 0, s => ([], s)
  | n + 1, s =>
    match s with
    | [] => ([], [])
    | c :: s =>
      if c = '\\' then
        match s with
        | [] => ([], [])
        | c :: s => ((.chr (.escaped c) :: (takeItems n s).1), (takeItems n s).2)
      else if c = '{' then
        if s.head? = some 'p' ∨ s.head? = some 'P' ∨ s.head? = some 'l' ∨ s.head? = some 'L' then ([], c :: s)
        else
          let q := cut ':' s
          let r := takeChars (q.2.getD [])
          let t := takeItems n r.2
          (.mark ((fmtOf q.1).getD .bold) q.1 r.1 :: t.1, t.2)
      else ((.chr (.plain c) :: (takeItems n s).1), (takeItems n s).2)

/-- The sections of a text. -/
def takeSections : Nat → Str → List Section
  | 0, _ => []
  | n + 1, s =>
    match s with
    | [] => []
    | _ :: s =>
      let q := cut '}' s
      let r := takeItems s.length (q.2.getD [])
      ⟨(propsFor q.1).getD ⟨0, 0, true⟩, q.1, r.1⟩ :: takeSections n r.2

/-- A document that might be written so. -/
def parseDoc (s : Str) : Doc :=
  let r := takeItems s.length s
  ⟨r.1, takeSections r.2.length r.2⟩

/-- Is the text a well-formed document? -/
def check (s : Str) : Bool := (parseDoc s).ok && decide ((parseDoc s).raw = s)

theorem check_sound {s : Str} (h : check s = true) : ∃ d : Doc, d.raw = s ∧ d.WF := by
  simp only [check, Bool.and_eq_true, decide_eq_true_eq] at h
  exact ⟨parseDoc s, h.2, Doc.ok_sound h.1⟩

/-- One document after another. -/
def Doc.append (d e : Doc) : Doc :=
  match d.sections.getLast? with
  | none => ⟨d.intro ++ e.intro, e.sections⟩
  | some s => ⟨d.intro, d.sections.dropLast ++ ⟨s.props, s.spec, s.items ++ e.intro⟩ :: e.sections⟩

theorem sectionsRaw_append (a b : List Section) : sectionsRaw (a ++ b) = sectionsRaw a ++ sectionsRaw b := by simp [sectionsRaw]
theorem itemsRaw_append (a b : List Item) : itemsRaw (a ++ b) = itemsRaw a ++ itemsRaw b := by simp [itemsRaw]

theorem Doc.append_raw (d e : Doc) : (d.append e).raw = d.raw ++ e.raw := by
  unfold Doc.append
  rcases hl : d.sections.getLast? with _ | s
  · have : d.sections = [] := List.getLast?_eq_none_iff.1 hl
    simp [Doc.raw, this, itemsRaw_append, sectionsRaw]
  · have hs : d.sections = d.sections.dropLast ++ [s] := by
      have hne : d.sections ≠ [] := by rintro h; simp [h] at hl
      have := List.dropLast_concat_getLast hne
      rw [List.getLast?_eq_some_getLast hne] at hl
      cases hl
      exact this.symm
    show itemsRaw d.intro ++ sectionsRaw (d.sections.dropLast ++ _ :: e.sections) = itemsRaw d.intro ++ sectionsRaw d.sections ++ (itemsRaw e.intro ++ sectionsRaw e.sections)
    rw [show sectionsRaw d.sections = sectionsRaw (d.sections.dropLast ++ [s]) by rw [← hs], sectionsRaw_append, sectionsRaw_append]
    simp [sectionsRaw, itemsRaw_append]

theorem sectionsWF_append {before : List Item} {as : List Section} {s : Section} {is : List Item} {bs : List Section} (h : SectionsWF before (as ++ [s]))
    (hi : ∀ i ∈ is, i.WF) (hne : is ≠ []) (hb : SectionsWF is bs) : SectionsWF before (as ++ ⟨s.props, s.spec, s.items ++ is⟩ :: bs) := by
  have hlast : ∀ pre : List Item, (pre ++ is).getLast? = is.getLast? := by
    intro pre
    rw [List.getLast?_append]
    rcases hg : is.getLast? with _ | x
    · exact absurd (List.getLast?_eq_none_iff.1 hg) hne
    · rfl
  induction as generalizing before with
  | nil =>
    obtain ⟨h1, h2, h3, h4, -⟩ := h
    refine ⟨h1, h2, ?_, fun _ e => hne (List.append_eq_nil_iff.1 e).2, ?_⟩
    · intro i hm
      rcases List.mem_append.1 hm with hm | hm
      · exact h3 i hm
      · exact hi i hm
    · cases bs with
      | nil => trivial
      | cons b bs => exact ⟨by unfold noBackslash; rw [hlast]; exact hb.1, hb.2⟩
  | cons a as ih =>
    obtain ⟨h1, h2, h3, h4, h5⟩ := h
    exact ⟨h1, h2, h3, fun e => absurd e (by simp), ih h5⟩

theorem Doc.append_wf {d e : Doc} (hd : d.WF) (he : e.WF) (hne : e.intro ≠ []) : (d.append e).WF := by
  unfold Doc.append
  rcases hl : d.sections.getLast? with _ | s
  · have : d.sections = [] := List.getLast?_eq_none_iff.1 hl
    refine ⟨?_, ?_⟩
    · intro i hm
      rcases List.mem_append.1 hm with hm | hm
      · exact hd.1 i hm
      · exact he.1 i hm
    · show SectionsWF (d.intro ++ e.intro) e.sections
      rcases hs : e.sections with _ | ⟨b, bs⟩
      · trivial
      · have h2 := he.2
        rw [hs] at h2
        refine ⟨?_, h2.2⟩
        unfold noBackslash
        rw [List.getLast?_append]
        rcases hg : e.intro.getLast? with _ | x
        · exact absurd (List.getLast?_eq_none_iff.1 hg) hne
        · have := h2.1; unfold noBackslash at this; rw [hg] at this; exact this
  · have hs : d.sections = d.sections.dropLast ++ [s] := by
      have hne : d.sections ≠ [] := by rintro h; simp [h] at hl
      have := List.dropLast_concat_getLast hne
      rw [List.getLast?_eq_some_getLast hne] at hl
      cases hl
      exact this.symm
    have h2 := hd.2
    rw [hs] at h2
    exact ⟨hd.1, sectionsWF_append h2 he.1 hne he.2⟩

/-- Is a text that is given in pieces a well-formed document? The pieces are checked one by one. -/
def checkPieces : List Str → Bool
  | [] => true
  | [s] => check s
  | s :: r :: rs => check s && (!(takeItems r.length r).1.isEmpty) && checkPieces (r :: rs)

theorem checkPieces_sound {ps : List Str} (h : checkPieces ps = true) : ∃ d : Doc, d.raw = ps.flatten ∧ d.WF := by
  have key : ∀ ps s, checkPieces (s :: ps) = true → ∃ d : Doc, d.raw = (s :: ps).flatten ∧ d.WF ∧ ((takeItems s.length s).1 ≠ [] → d.intro ≠ []) := by
    intro ps
    induction ps with
    | nil =>
      intro s h
      simp only [checkPieces, check, Bool.and_eq_true, decide_eq_true_eq] at h
      exact ⟨parseDoc s, by simp [h.2], Doc.ok_sound h.1, fun hn => hn⟩
    | cons r rs ih =>
      intro s h
      simp only [checkPieces, check, Bool.and_eq_true, decide_eq_true_eq] at h
      obtain ⟨⟨⟨h1, h2⟩, h3⟩, h4⟩ := h
      obtain ⟨e, e1, e2, e3⟩ := ih r h4
      have hne : e.intro ≠ [] := e3 (by intro hh; simp [hh] at h3)
      refine ⟨(parseDoc s).append e, by rw [Doc.append_raw, e1, h2]; rfl, Doc.append_wf (Doc.ok_sound h1) e2 hne, ?_⟩
      intro hn
      have : (parseDoc s).intro ≠ [] := hn
      unfold Doc.append
      split
      · simp [this]
      · exact this
  cases ps with
  | nil => exact ⟨⟨[], []⟩, rfl, by simp, trivial⟩
  | cons s ps => obtain ⟨d, h1, h2, _⟩ := key ps s h; exact ⟨d, h1, h2⟩

end Marcel.Help
