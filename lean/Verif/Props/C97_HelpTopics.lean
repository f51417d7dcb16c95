import Verif.Lemmas.HelpTexts
import Verif.Props.C73_Help

/-! # C97: `help` has an answer to what it advertises

`help TOPIC` shows, whatever the capitals, the help of the operator of this name, otherwise of the topic of this name, and otherwise says that there is none. The texts that come with marcel are all shown, on consoles of all widths and in all
colours, and everything that the front page lists is there. -/

namespace Marcel.Help

variable {C : Type}

/-- `help` sends the text, as it is written, and an empty line: `C73_help` says what that means for a well-formed document. -/
def Answers (wrapper : Str → Str → Str → List Str) (s : Scheme C) (text : Str) (r : Except Ending (List (Sent C))) : Prop :=
  ∃ (d : Doc) (out : List (Seg C)), d.raw = text ∧ d.WF ∧ r = .ok [.text out, .text []] ∧
    out.flatMap Prod.fst = List.intercalate ['\n'] (d.paragraphs.map (Paragraph.layout wrapper)) ∧
    solidColored (out.flatMap segColored) = solidColored (d.items.flatMap (Item.colored s)) ∧
    out.filterMap segHighlight = d.items.filterMap (Item.highlight s)

theorem lookup_mem {β : Type} {l : List (Str × β)} (hn : (l.map Prod.fst).Nodup) {k : Str} {v : β} (h : (k, v) ∈ l) : l.lookup k = some v := by
  induction l with
  | nil => simp at h
  | cons p l ih =>
    rcases p with ⟨k', v'⟩
    rw [List.map_cons, List.nodup_cons] at hn
    rcases List.mem_cons.1 h with e | hm
    · cases e; simp
    · have hne : k ≠ k' := by rintro rfl; exact hn.1 (List.mem_map.2 ⟨_, hm, rfl⟩)
      rw [List.lookup_cons]
      have : (k == k') = false := by simpa using hne
      rw [this]
      exact ih hn.2 hm

theorem lookup_none {β : Type} {l : List (Str × β)} {k : Str} (h : ∀ v, (k, v) ∉ l) : l.lookup k = none := by
  induction l with
  | nil => rfl
  | cons p l ih =>
    rcases p with ⟨k', v'⟩
    have hne : k ≠ k' := by rintro rfl; exact h v' (by simp)
    rw [List.lookup_cons]
    have : (k == k') = false := by simpa using hne
    rw [this]
    exact ih fun v hm => h v (by simp [hm])

theorem format_answers {wrapper : Str → Str → Str → List Str} (hw : KeepsText wrapper) (s : Scheme C) {text : Str} (h : ∃ d : Doc, d.raw = text ∧ d.WF) :
    ∃ out, format wrapper s text = .ok out ∧ Answers wrapper s text (.ok [.text out, .text []]) := by
  obtain ⟨d, rfl, hd⟩ := h
  obtain ⟨out, h1, h2, h3, h4, _⟩ := format_ok hw s d hd
  exact ⟨out, h1, d, out, rfl, hd, rfl, h2, by simpa using h3, h4⟩

theorem lookup_some {β : Type} {l : List (Str × β)} {n : Str} {v : β} (h : l.lookup n = some v) : (n, v) ∈ l := by
  induction l with
  | nil => cases h
  | cons x l ih =>
    obtain ⟨k, w⟩ := x
    rw [List.lookup_cons] at h
    split at h
    · next hk =>
      have hk := eq_of_beq hk
      cases h
      subst hk
      exact List.mem_cons_self
    · exact List.mem_cons_of_mem _ (ih h)

/-- Whatever operators and topics there are: help on a name is (1) the help of the operator of this name; (2) if there is no such operator, the help of the topic; (3) if there is neither, a message that there is none.
(4) Nothing is sent unless the whole text could be formatted. Capitals make no difference. -/
theorem C97_help_topics (wrapper : Str → Str → Str → List Str) (hw : KeepsText wrapper) (s : Scheme C) (src : Sources) (ho : (src.ops.map Prod.fst).Nodup) (hd : (src.docs.map Prod.fst).Nodup) (t : Str) :
    (∀ text, (t.map Char.toLower, some text) ∈ src.ops → (∃ d : Doc, d.raw = text ∧ d.WF) → Answers wrapper s text (showHelp wrapper s src (.text t))) ∧
    (∀ text, (∀ h, (t.map Char.toLower, h) ∉ src.ops) → (t.map Char.toLower, text) ∈ src.docs → (∃ d : Doc, d.raw = text ∧ d.WF) → Answers wrapper s text (showHelp wrapper s src (.text t))) ∧
    ((∀ h, (t.map Char.toLower, h) ∉ src.ops) → (∀ h, (t.map Char.toLower, h) ∉ src.docs) → showHelp wrapper s src (.text t) = .error (.killed ("Help not available for ".toList ++ t.map Char.toLower))) ∧
    (∀ sent, showHelp wrapper s src (.text t) = .ok sent →
      (((t.map Char.toLower, none) ∈ src.ops ∧ sent = [.none, .text []]) ∨
       ∃ text out, ((t.map Char.toLower, some text) ∈ src.ops ∨ (t.map Char.toLower, text) ∈ src.docs) ∧ format wrapper s text = .ok out ∧ sent = [.text out, .text []])) := by
  have hname : topicName (.text t) = .ok (t.map Char.toLower) := rfl
  refine ⟨?_, ?_, ?_, ?_⟩
  · intro text hm hwf
    obtain ⟨out, h1, h2⟩ := format_answers hw s hwf
    unfold showHelp formatHelp
    simp only [hname, lookup_mem ho hm, h1]
    exact h2
  · intro text hno hm hwf
    obtain ⟨out, h1, h2⟩ := format_answers hw s hwf
    unfold showHelp formatHelp
    simp only [hname, lookup_none hno, lookup_mem hd hm, h1]
    exact h2
  · intro h1 h2
    unfold showHelp
    simp only [hname, lookup_none h1, lookup_none h2]
  · intro sent h
    unfold showHelp at h
    simp only [hname] at h
    have key : ∀ (help : Option Str), (match formatHelp wrapper s help with
        | .error e => .error e
        | .ok x => .ok [x, .text []]) = Except.ok sent →
        (help = none ∧ sent = [.none, .text []]) ∨ ∃ text out, help = some text ∧ format wrapper s text = .ok out ∧ sent = [.text out, .text []] := by
      intro help h
      cases help with
      | none => cases h; exact .inl ⟨rfl, rfl⟩
      | some text =>
        unfold formatHelp at h
        cases hf : format wrapper s text with
        | error f => simp [hf] at h
        | ok out =>
          simp only [hf] at h
          cases h
          exact .inr ⟨text, out, rfl, hf, rfl⟩
    cases ho' : src.ops.lookup (t.map Char.toLower) with
    | some help =>
      simp only [ho'] at h
      have hm := lookup_some ho'
      rcases key help h with ⟨rfl, h2⟩ | ⟨text, out, rfl, h2, h3⟩
      · exact .inl ⟨hm, h2⟩
      · exact .inr ⟨text, out, .inl hm, h2, h3⟩
    | none =>
      simp only [ho'] at h
      cases hd' : src.docs.lookup (t.map Char.toLower) with
      | none => simp only [hd'] at h; cases h
      | some help =>
        simp only [hd'] at h
        rcases key (some help) h with ⟨h1, _⟩ | ⟨text, out, h1, h2, h3⟩
        · cases h1
        · cases h1
          exact .inr ⟨_, out, .inr (lookup_some hd'), h2, h3⟩

/-- The operators that have help, and the topics. -/
def helpNames : List Str := (shippedOps.filter fun p => p.2.isSome).map Prod.fst ++ shippedDocs.map Prod.fst

theorem shipped_nodup : (shippedOps.map Prod.fst).Nodup ∧ (shippedDocs.map Prod.fst).Nodup ∧ ∀ n ∈ shippedDocs.map Prod.fst, n ∉ shippedOps.map Prod.fst := by decide +kernel

/-- All help that comes with marcel is shown: for each operator that has help and each topic, however its name is capitalized, on consoles of all widths (`wrapper`) and in all colours (`s`). -/
theorem C97_shipped (wrapper : Str → Str → Str → List Str) (hw : KeepsText wrapper) (s : Scheme C) (t text : Str)
    (h : (t.map Char.toLower, some text) ∈ shippedOps ∨ (t.map Char.toLower, text) ∈ shippedDocs) : Answers wrapper s text (showHelp wrapper s shipped (.text t)) := by
  obtain ⟨h1, h2, h3⟩ := shipped_nodup
  obtain ⟨g1, g2, _, _⟩ := C97_help_topics wrapper hw s shipped h1 h2 t
  rcases h with h | h
  · exact g1 text h (shippedOps_wf text ⟨_, h⟩)
  · refine g2 text ?_ h (shippedDocs_wf text ⟨_, h⟩)
    intro x hx
    exact h3 _ (List.mem_map.2 ⟨_, h, rfl⟩) (List.mem_map.2 ⟨_, hx, rfl⟩)

/-- A name with help is an operator that has a text, or a topic. -/
theorem helpNames_text {n : Str} (h : n ∈ helpNames) : ∃ text, (n, some text) ∈ shippedOps ∨ (n, text) ∈ shippedDocs := by
  unfold helpNames at h
  rcases List.mem_append.1 h with h | h
  · obtain ⟨⟨k, v⟩, hm, rfl⟩ := List.mem_map.1 h
    obtain ⟨h1, h2⟩ := List.mem_filter.1 hm
    cases v with
    | none => exact absurd h2 (by simp)
    | some text => exact ⟨text, .inl h1⟩
  · obtain ⟨⟨k, v⟩, hm, rfl⟩ := List.mem_map.1 h
    exact ⟨v, .inr hm⟩

/-- The entries of lists in a text: names marked with `{n:` after a dash and a blank. -/
def entries : Str → List Str
  | [] => []
  | c :: cs => (if "- {n:".toList.isPrefixOf (c :: cs) then [(cs.drop 4).takeWhile (· ≠ '}')] else []) ++ entries cs

/-- `help` alone shows the front page, and there is help for every entry of its lists. -/
theorem C97_front_page (wrapper : Str → Str → Str → List Str) (hw : KeepsText wrapper) (s : Scheme C) :
    Answers wrapper s (joined doc_marcel) (showHelp wrapper s shipped .absent) ∧
    (entries (joined doc_marcel)).length = 58 ∧
    ∀ n ∈ entries (joined doc_marcel), ∃ text, Answers wrapper s text (showHelp wrapper s shipped (.text n)) := by
  refine ⟨?_, by decide +kernel, ?_⟩
  · have h : showHelp wrapper s shipped .absent = showHelp wrapper s shipped (.text "marcel".toList) := rfl
    rw [h]
    refine C97_shipped wrapper hw s _ _ (.inr ?_)
    rw [show "marcel".toList.map Char.toLower = ['m', 'a', 'r', 'c', 'e', 'l'] by decide +kernel]
    simp [shippedDocs]
  · have h : ∀ n ∈ entries (joined doc_marcel), n.map Char.toLower = n ∧ n ∈ helpNames := by decide +kernel
    intro n hn
    obtain ⟨h1, h2⟩ := h n hn
    obtain ⟨text, h3⟩ := helpNames_text h2
    exact ⟨text, C97_shipped wrapper hw s n text (by rw [h1]; exact h3)⟩

/-- Every operator that can be used in commands, but `assign`, has help. -/
theorem C97_operators (wrapper : Str → Str → Str → List Str) (hw : KeepsText wrapper) (s : Scheme C) (n : Str) (h : n ∈ publicOps) (ha : n ≠ "assign".toList) :
    ∃ text, Answers wrapper s text (showHelp wrapper s shipped (.text n)) := by
  have hall : ∀ n ∈ publicOps, n = "assign".toList ∨ (n.map Char.toLower = n ∧ n ∈ helpNames) := by decide +kernel
  rcases hall n h with e | ⟨h1, h2⟩
  · exact absurd e ha
  · obtain ⟨text, h3⟩ := helpNames_text h2
    exact ⟨text, C97_shipped wrapper hw s n text (by rw [h1]; exact h3)⟩

/-! ## What is false -/

/-- There are operators without help, one of them public: `help assign` sends None, not a message. -/
theorem C97_false_assign (wrapper : Str → Str → Str → List Str) (s : Scheme C) : "assign".toList ∈ publicOps ∧
    ∀ n ∈ ["assign".toList, "first".toList, "gather".toList, "runpipeline".toList], showHelp wrapper s shipped (.text n) = .ok [.none, .text []] := by
  refine ⟨by decide +kernel, fun n hn => ?_⟩
  have h1 : ∀ n ∈ ["assign".toList, "first".toList, "gather".toList, "runpipeline".toList], n.map Char.toLower = n ∧ (n, none) ∈ (shippedOps.filter fun p => p.2.isNone) := by decide +kernel
  obtain ⟨e, hm⟩ := h1 n hn
  have hm : (n, none) ∈ shipped.ops := (List.mem_filter.1 hm).1
  have hname : topicName (.text n) = .ok n := by show Except.ok (n.map Char.toLower) = _; rw [e]
  unfold showHelp formatHelp
  have hl : shipped.ops.lookup n = some none := lookup_mem (l := shippedOps) shipped_nodup.1 hm
  simp only [hname, hl]

/-- The front page lists operators, but not all of them that have help. -/
theorem C97_false_front_page : (publicOps.filter fun n => n ∈ helpNames ∧ n ∉ entries (joined doc_marcel)) = ["download".toList, "fork".toList, "upload".toList] := by decide +kernel

/-- Is one text part of another? -/
def occurs (part : Str) : Str → Bool
  | [] => part.isEmpty
  | c :: cs => part.isPrefixOf (c :: cs) || occurs part cs

/-- The help of `upload` and `download`, and that of the topic `operator`, refer to help that isn't there. -/
theorem C97_false_reference (wrapper : Str → Str → Str → List Str) (s : Scheme C) :
    occurs "{n:help cluster}".toList (joined op_upload) = true ∧ occurs "{n:help cluster}".toList (joined op_download) = true ∧ occurs "{n:help out}".toList (joined doc_operator) = true ∧
    ∀ n ∈ ["cluster".toList, "out".toList], showHelp wrapper s shipped (.text n) = .error (.killed ("Help not available for ".toList ++ n)) := by
  refine ⟨by decide +kernel, by decide +kernel, by decide +kernel, fun n hn => ?_⟩
  have h : ∀ n ∈ ["cluster".toList, "out".toList], n.map Char.toLower = n ∧ n ∉ shippedOps.map Prod.fst ∧ n ∉ shippedDocs.map Prod.fst := by decide +kernel
  obtain ⟨h1, h2, h3⟩ := h n hn
  have hname : topicName (.text n) = .ok n := by show Except.ok (n.map Char.toLower) = _; rw [h1]
  have h4 : shipped.ops.lookup n = none := lookup_none fun v hv => h2 (List.mem_map.2 ⟨_, hv, rfl⟩)
  have h5 : shipped.docs.lookup n = none := lookup_none fun v hv => h3 (List.mem_map.2 ⟨_, hv, rfl⟩)
  unfold showHelp
  simp only [hname, h4, h5]

/-- A topic that is given by a function, `help (f)`, is not evaluated: there is an exception. -/
theorem C97_false_function (wrapper : Str → Str → Str → List Str) (s : Scheme C) (src : Sources) : showHelp wrapper s src .function = .error .attributeError := rfl

/-! ## A case -/

theorem C97_case : ("Ls".toList.map Char.toLower, some (joined op_ls)) ∈ shippedOps ∧ (∃ w, KeepsText w) ∧ (joined op_ls).length = 1255 := by
  refine ⟨?_, ⟨_, perWord_keeps⟩, by decide +kernel⟩
  rw [show "Ls".toList.map Char.toLower = ['l', 's'] by decide +kernel]
  simp [shippedOps]

end Marcel.Help
