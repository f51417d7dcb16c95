import Verif.Spec.Tab
import Verif.Props.C30_Words

/-! # C67: tab completion offers the names that fit, and what is accepted stands for the chosen one -/

namespace Marcel.Tab

/-! ## Sorting -/

theorem strLt_irrefl (a : Str) : strLt a a = false := by
  induction a with
  | nil => rfl
  | cons c a ih => simp [strLt, ih]

theorem strLt_asymm (a b : Str) (h : strLt a b = true) : strLt b a = false := by
  induction a generalizing b with
  | nil => cases b with
    | nil => rfl
    | cons d b => rfl
  | cons c a ih =>
    cases b with
    | nil => simp [strLt] at h
    | cons d b =>
      unfold strLt at h ⊢
      by_cases hcd : c = d
      · subst hcd
        simp only [if_true] at h ⊢
        exact ih b h
      · rw [if_neg hcd] at h
        rw [if_neg (Ne.symm hcd)]
        simp only [decide_eq_true_eq, decide_eq_false_iff_not] at h ⊢
        omega

/-- `a ≤ b ≤ c` gives `a ≤ c`. -/
theorem strLe_trans (a b c : Str) (h1 : strLt b a = false) (h2 : strLt c b = false) : strLt c a = false := by
  induction a generalizing b c with
  | nil => cases c <;> rfl
  | cons x a ih =>
    cases b with
    | nil => simp [strLt] at h1
    | cons y b =>
      cases c with
      | nil => simp [strLt] at h2
      | cons z c =>
        unfold strLt at h1 h2 ⊢
        by_cases hyx : y = x
        · subst hyx
          by_cases hzy : z = y
          · subst hzy
            simp only [if_true] at h1 h2 ⊢
            exact ih b c h1 h2
          · rw [if_neg hzy] at h2 ⊢
            exact h2
        · rw [if_neg hyx] at h1
          by_cases hzy : z = y
          · subst hzy
            rw [if_neg hyx]
            exact h1
          · rw [if_neg hzy] at h2
            simp only [decide_eq_false_iff_not] at h1 h2
            have hyx' : y.toNat ≠ x.toNat := fun h => hyx (Char.toNat_inj.mp h)
            have hzy' : z.toNat ≠ y.toNat := fun h => hzy (Char.toNat_inj.mp h)
            have hzx : z ≠ x := by rintro rfl; omega
            rw [if_neg hzx]
            simp only [decide_eq_false_iff_not]
            omega

theorem insertStr_perm (x : Str) (l : List Str) : (insertStr x l).Perm (x :: l) := by
  induction l with
  | nil => exact List.Perm.refl _
  | cons y l ih =>
    unfold insertStr
    split
    · exact (ih.cons y).trans (List.Perm.swap x y l)
    · exact List.Perm.refl _

theorem sorted_perm (l : List Str) : (sorted l).Perm l := by
  induction l with
  | nil => exact List.Perm.refl _
  | cons x l ih => exact (insertStr_perm x (sorted l)).trans (ih.cons x)

theorem insertStr_pairwise (x : Str) (l : List Str) (h : l.Pairwise fun a b => strLt b a = false) : (insertStr x l).Pairwise fun a b => strLt b a = false := by
  induction l with
  | nil => simp [insertStr]
  | cons y l ih =>
    rw [List.pairwise_cons] at h
    unfold insertStr
    split
    · rename_i hlt
      rw [List.pairwise_cons]
      refine ⟨fun z hz => ?_, ih h.2⟩
      rcases List.mem_cons.mp ((insertStr_perm x l).mem_iff.mp hz) with rfl | hz
      · exact strLt_asymm _ _ hlt
      · exact h.1 z hz
    · rename_i hlt
      have hlt : strLt y x = false := by simpa using hlt
      rw [List.pairwise_cons, List.pairwise_cons]
      refine ⟨fun z hz => ?_, h⟩
      rcases List.mem_cons.mp hz with rfl | hz
      · exact hlt
      · exact strLe_trans _ _ _ hlt (h.1 z hz)

theorem sorted_pairwise (l : List Str) : (sorted l).Pairwise fun a b => strLt b a = false := by
  induction l with
  | nil => exact List.Pairwise.nil
  | cons x l ih => exact insertStr_pairwise x _ ih

/-- The order is that of the lists of code points. -/
theorem strLt_iff (a b : Str) : strLt a b = true ↔ a.map Char.toNat < b.map Char.toNat := by
  induction a generalizing b with
  | nil => cases b <;> simp [strLt]
  | cons c a ih =>
    cases b with
    | nil => simp [strLt]
    | cons d b =>
      unfold strLt
      rw [List.map_cons, List.map_cons, List.cons_lt_cons_iff]
      by_cases h : c = d
      · subst h
        simp [ih]
      · have : c.toNat ≠ d.toNat := fun h' => h (Char.toNat_inj.mp h')
        simp [h, this]

theorem order_of {l : List Str} (h : l.Pairwise fun a b => strLt b a = false) : l.Pairwise fun a b => ¬ b.map Char.toNat < a.map Char.toNat :=
  h.imp fun {a b} hab => by rw [← strLt_iff, hab]; simp

/-! ## Words -/

theorem Typed.text_append (v w : Typed) : Typed.text (v ++ w) = Typed.text v ++ Typed.text w := by simp [Typed.text]
theorem Typed.value_append (v w : Typed) : Typed.value (v ++ w) = Typed.value v ++ Typed.value w := by simp [Typed.value]

theorem resolve_cons_plain (c : Char) (cs : Str) (h : c ≠ '\\') : resolveEscapes (c :: cs) = c :: resolveEscapes cs := by
  cases cs with
  | nil => simp [resolveEscapes, h]
  | cons d cs => rw [resolveEscapes.eq_3, if_neg h]

theorem resolve_escaped (c : Char) (cs : Str) : resolveEscapes ('\\' :: c :: cs) = c :: resolveEscapes cs := by
  rw [resolveEscapes.eq_3, if_pos rfl]

theorem resolve_text {shell : Bool} {w : Typed} (h : Typed.OK shell w) : resolveEscapes (Typed.text w) = Typed.value w := by
  induction w with
  | nil => rfl
  | cons p w ih =>
    obtain ⟨c, e⟩ := p
    have ih := ih fun p hp => h p (by simp [hp])
    cases e with
    | true =>
      show resolveEscapes ('\\' :: c :: Typed.text w) = c :: Typed.value w
      rw [resolve_escaped, ih]
    | false =>
      show resolveEscapes (c :: Typed.text w) = c :: Typed.value w
      rw [resolve_cons_plain _ _ (h (c, false) (by simp) rfl).2.2.2.2, ih]

theorem splitSlash_none (s : Str) (h : '/' ∉ s) : splitSlash s = none := by
  induction s with
  | nil => rfl
  | cons c s ih =>
    simp only [List.mem_cons, not_or] at h
    simp [splitSlash, ih h.2, Ne.symm h.1]

theorem splitSlash_last (a b : Str) (h : '/' ∉ b) : splitSlash (a ++ '/' :: b) = some (a, b) := by
  induction a with
  | nil => simp [splitSlash, splitSlash_none b h]
  | cons c a ih => simp [splitSlash, ih]

theorem slash_text {w : Typed} (h : '/' ∉ Typed.value w) : '/' ∉ Typed.text w := by
  intro hm
  obtain ⟨p, hp, hc⟩ := List.mem_flatMap.mp hm
  apply h
  have : '/' = p.1 := by
    split at hc
    · simp at hc; exact hc
    · simpa using hc
  exact List.mem_map.mpr ⟨p, hp, this.symm⟩

/-- A word splits as its value does. -/
theorem split_word {w : Typed} {d n : Str} (hs : Split (Typed.value w) d n) : ∃ wd wn : Typed, w = wd ++ wn ∧ Typed.value wd = d ∧ Typed.value wn = n := by
  have := List.map_eq_append_iff.mp (show w.map Prod.fst = d ++ n from hs.whole)
  obtain ⟨wd, wn, h1, h2, h3⟩ := this
  exact ⟨wd, wn, h1, h2, h3⟩

theorem head_quote {shell : Bool} {w : Typed} (h : Typed.OK shell w) : splitLeadingQuote (Typed.text w) = (none, Typed.text w) := by
  cases w with
  | nil => rfl
  | cons p w =>
    obtain ⟨c, e⟩ := p
    cases e with
    | true => rfl
    | false =>
      have := h (c, false) (by simp) rfl
      show splitLeadingQuote (c :: Typed.text w) = (none, c :: Typed.text w)
      simp [splitLeadingQuote, isQuote, this.2.2.1, this.2.2.2.1]

/-- What the handler makes of a word. -/
theorem handler_word {shell : Bool} {wd wn : Typed} (h : Typed.OK shell (wd ++ wn)) (hp : Typed.PlainSlashes (wd ++ wn)) {d n : Str} (hd : Typed.value wd = d) (hn : Typed.value wn = n)
    (hdir : d = [] ∨ d.getLast? = some '/') (hname : '/' ∉ n) :
    handler (Typed.text (wd ++ wn)) = ⟨none, dirName (Typed.text wd), Typed.text wn, tokenEscaping (Typed.text (wd ++ wn))⟩ := by
  unfold handler
  rw [head_quote h]
  simp only []
  rcases hdir with rfl | hdir
  · have : wd = [] := by simpa [Typed.value] using hd
    subst this
    simp only [List.nil_append]
    rw [splitSlash_none _ (slash_text (hn ▸ hname))]
    rfl
  · rcases List.eq_nil_or_concat wd with rfl | ⟨wd0, p, rfl⟩
    · subst hd; simp [Typed.value] at hdir
    · obtain ⟨c, e⟩ := p
      have hc : c = '/' := by
        subst hd
        simp [Typed.value] at hdir
        exact hdir
      subst hc
      have he : e = false := by
        cases e with
        | false => rfl
        | true => exact absurd (show ('/', true) ∈ wd0.concat ('/', true) ++ wn by simp) hp
      subst he
      have ht : Typed.text (wd0.concat ('/', false) ++ wn) = Typed.text wd0 ++ '/' :: Typed.text wn := by
        simp [Typed.text]
      rw [ht, splitSlash_last _ _ (slash_text (hn ▸ hname))]
      have hd2 : Typed.text (wd0.concat ('/', false)) = Typed.text wd0 ++ ['/'] := by simp [Typed.text]
      rw [hd2]
      generalize Typed.text wd0 = t
      cases t with
      | nil => rfl
      | cons c t =>
        have : dirName (c :: t ++ ['/']) = some (c :: t) := by
          unfold dirName
          split
          · rename_i h; simp at h
          · rename_i h; simp at h
          · rw [List.dropLast_concat]
        rw [this]

theorem dirName_resolve {shell : Bool} {wd : Typed} (h : Typed.OK shell wd) {d : Str} (hd : Typed.value wd = d) (hp : Typed.PlainSlashes wd) (hdir : d = [] ∨ d.getLast? = some '/') :
    (dirName (Typed.text wd)).map resolveEscapes = dirName d := by
  subst hd
  rcases hdir with hd | hdir
  · have : wd = [] := by simpa [Typed.value] using hd
    subst this
    rfl
  · rcases List.eq_nil_or_concat wd with rfl | ⟨wd0, p, rfl⟩
    · rfl
    · obtain ⟨c, e⟩ := p
      have hc : c = '/' := by
        simp [Typed.value] at hdir
        exact hdir
      subst hc
      have he : e = false := by
        cases e with
        | false => rfl
        | true => exact absurd (by simp) hp
      subst he
      have hd1 : Typed.text (wd0.concat ('/', false)) = Typed.text wd0 ++ ['/'] := by simp [Typed.text]
      have hd2 : Typed.value (wd0.concat ('/', false)) = Typed.value wd0 ++ ['/'] := by simp [Typed.value]
      have h0 : resolveEscapes (Typed.text wd0) = Typed.value wd0 := resolve_text (shell := shell) fun p hp => h p (by simp [hp])
      rw [hd1, hd2]
      have key : ∀ t : Str, dirName (t ++ ['/']) = if t = [] then some ['/'] else some t := by
        intro t
        cases t with
        | nil => rfl
        | cons c t =>
          rw [if_neg (by simp)]
          unfold dirName
          split
          · rename_i h; simp at h
          · rename_i h; simp at h
          · rw [List.dropLast_concat]
      rw [key, key]
      cases wd0 with
      | nil => rfl
      | cons p wd0 =>
        have h1 : Typed.text (p :: wd0) ≠ [] := by
          obtain ⟨c, e⟩ := p
          cases e <;> simp [Typed.text]
        have h2 : Typed.value (p :: wd0) ≠ [] := by simp [Typed.value]
        rw [if_neg h1, if_neg h2]
        simp [h0]

/-- Without escapes the text is the value. -/
theorem text_plain {w : Typed} (h : ∀ p ∈ w, p.2 = false) : Typed.text w = Typed.value w := by
  induction w with
  | nil => rfl
  | cons p w ih =>
    have := ih fun p hp => h p (by simp [hp])
    have hp := h p (by simp)
    simp [Typed.text, Typed.value, hp] at this ⊢
    exact this

/-- The escaping of the last character of the word does not change its value. -/
theorem escape_last {shell : Bool} {w : Typed} (h : Typed.OK shell w) :
    ∃ w0 : Typed, Typed.OK shell w0 ∧ Typed.value w0 = Typed.value w ∧ (∀ c, w0.head? = some (c, false) → w.head? = some (c, false)) ∧
      (Typed.text w).take ((Typed.text w).length - (if (tokenEscaping (Typed.text w)).isSome then 1 else 0)) ++ (tokenEscaping (Typed.text w)).getD [] = Typed.text w0 := by
  rcases List.eq_nil_or_concat w with rfl | ⟨v, p, rfl⟩
  · exact ⟨[], h, rfl, fun c hc => hc, by simp [Typed.text, tokenEscaping]⟩
  · obtain ⟨c, e⟩ := p
    cases e with
    | true =>
      refine ⟨_, h, rfl, fun c hc => hc, ?_⟩
      have : tokenEscaping (Typed.text (v.concat (c, true))) = none := by
        simp [Typed.text, tokenEscaping]
      rw [this]
      exact (List.append_nil _).trans (List.take_length ..)
    | false =>
      have ht : Typed.text (v.concat (c, false)) = Typed.text v ++ [c] := by simp [Typed.text]
      have hv : Typed.OK shell (v.concat (c, true)) := by
        intro p hp hf
        rw [List.concat_eq_append, List.mem_append, List.mem_singleton] at hp
        rcases hp with hp | rfl
        · exact h p (by simp [hp]) hf
        · cases hf
      by_cases hn : tokenEscaping (Typed.text (v.concat (c, false))) = none
      · exact ⟨_, h, rfl, fun c hc => hc, by rw [hn]; exact (List.append_nil _).trans (List.take_length ..)⟩
      · have hs : tokenEscaping (Typed.text (v.concat (c, false))) = some ['\\', c] := by
          rw [ht] at hn ⊢
          simp only [tokenEscaping, List.reverse_append, List.reverse_cons, List.reverse_nil, List.nil_append, List.singleton_append] at hn ⊢
          split at hn
          · rename_i h; rw [if_pos h]
          · exact absurd rfl hn
        refine ⟨v.concat (c, true), hv, by simp [Typed.value], ?_, ?_⟩
        · intro x hx
          cases v with
          | nil => simp at hx
          | cons p v => simpa using hx
        · rw [hs, ht]
          simp [Typed.text]

/-- The suffix as typed. -/
def escapedSuffix (s : Str) : Typed := s.map fun c => (c, needsEscape.contains c)

theorem escapedSuffix_text (s : Str) : Typed.text (escapedSuffix s) = escapeSuffix s := by
  simp only [Typed.text, escapedSuffix, escapeSuffix, List.flatMap_map]

theorem escapedSuffix_value (s : Str) : Typed.value (escapedSuffix s) = s := by
  simp [Typed.value, escapedSuffix, List.map_map, Function.comp_def]

theorem special_mem {c : Char} (h : special c) : c ∈ needsEscape := List.mem_append.mpr h

theorem escapedSuffix_ok {shell : Bool} {s : Str} (h : Typable shell s) : Typed.OK shell (escapedSuffix s) := by
  intro p hp hf
  obtain ⟨c, hc, rfl⟩ := List.mem_map.mp hp
  have hn : c ∉ needsEscape := by simpa using hf
  refine ⟨?_, ?_, ?_, ?_, ?_⟩
  · exact Bool.eq_false_iff.mpr fun h' => hn (special_mem (h c hc (.inl h')))
  · exact Bool.eq_false_iff.mpr fun h' => hn (special_mem (h c hc (.inr h')))
  all_goals
    intro h'
    simp only at h'
    subst h'
    exact hn (by decide)

theorem Typed.OK.append {shell : Bool} {v w : Typed} (hv : Typed.OK shell v) (hw : Typed.OK shell w) : Typed.OK shell (v ++ w) := by
  intro p hp
  rcases List.mem_append.mp hp with h | h
  · exact hv p h
  · exact hw p h

/-! ## Reading words -/

theorem typed_pieces (w : Typed) : ∃ ps : List Piece, ps.flatMap Piece.raw = Typed.text w ∧ ps.flatMap Piece.kept = Typed.text w ∧
    (∀ shell, Typed.OK shell w → ∀ p ∈ ps, p.WF (wordEnd shell)) := by
  refine ⟨w.map fun p => if p.2 then .escaped p.1 else .plain p.1, ?_, ?_, ?_⟩
  · rw [List.flatMap_map]
    unfold Typed.text
    congr 1; funext p
    split <;> rfl
  · rw [List.flatMap_map]
    unfold Typed.text
    congr 1; funext p
    split <;> rfl
  · intro shell h p hp
    obtain ⟨q, hq, rfl⟩ := List.mem_map.mp hp
    split
    · trivial
    · rename_i hf
      exact h q hq (by simpa using hf)

theorem unescapeLit_text {shell : Bool} {w : Typed} (h : Typed.OK shell w) : unescapeLit (Typed.text w) = .ok (Typed.value w) := by
  induction w with
  | nil => exact unescapeLit_nil
  | cons p w ih =>
    obtain ⟨c, e⟩ := p
    have ih := ih fun p hp => h p (by simp [hp])
    cases e with
    | true =>
      show unescapeLit ('\\' :: c :: Typed.text w) = .ok (c :: Typed.value w)
      rw [unescapeLit.eq_def]
      simp [ih, Except.map]
    | false =>
      show unescapeLit (c :: Typed.text w) = .ok (c :: Typed.value w)
      rw [unescapeLit.eq_def]
      simp [ih, Except.map, (h (c, false) (by simp) rfl).2.2.2.2]

/-- **C67**, what a word stands for: followed by a blank or the end of the line, it is read as a string whose value is that of the word. -/
theorem C67_read {shell : Bool} {w : Typed} (h : Typed.OK shell w) (hne : w ≠ []) (hst : Typed.Starts w) (rest : Str) (hr : Blank rest) :
    ∃ lit, nextToken shell (Typed.text w ++ rest) = .ok (some (.str shell lit (Typed.text w), skipWs rest)) ∧ lit.string = Typed.value w ∧ lit.missingQuote = none := by
  obtain ⟨ps, hraw, hkept, hwf⟩ := typed_pieces w
  obtain ⟨⟨c, e⟩, w', rfl⟩ := List.exists_cons_of_ne_nil hne
  refine ⟨⟨Typed.text ((c, e) :: w'), none, false, Typed.value ((c, e) :: w')⟩, ?_, rfl, rfl⟩
  have hlit : StrLit.of (Typed.text ((c, e) :: w')) = .ok ⟨Typed.text ((c, e) :: w'), none, false, Typed.value ((c, e) :: w')⟩ := by
    have hu := unescapeLit_text h
    cases e with
    | true =>
      have ht : Typed.text ((c, true) :: w') = '\\' :: c :: Typed.text w' := rfl
      rw [ht] at hu ⊢
      simp [StrLit.of, isQuote, hu, Except.map]
    | false =>
      have ht : Typed.text ((c, false) :: w') = c :: Typed.text w' := rfl
      have := h (c, false) (by simp) rfl
      rw [ht] at hu ⊢
      simp [StrLit.of, isQuote, hu, Except.map, this.2.2.1, this.2.2.2.1]
  rw [← hkept] at hlit
  cases e with
  | true =>
    have ht : Typed.text ((c, true) :: w') = '\\' :: (c :: Typed.text w') := rfl
    have := nextToken_pieces shell ps (hwf shell h) '\\' (c :: Typed.text w') (hraw.trans ht) (by decide) isspace_backslash _ hlit rest hr
    rwa [hraw, hkept] at this
  | false =>
    have ht : Typed.text ((c, false) :: w') = c :: Typed.text w' := rfl
    have hok := h (c, false) (by simp) rfl
    have hcs : wordStart c = true := by
      have h1 := hst c rfl
      have h2 : wordEnd shell c = false := hok.2.1
      simp only [List.mem_cons, List.not_mem_nil, or_false, not_or] at h1
      have h3 : c ≠ '(' ∧ c ≠ ')' ∧ c ≠ '|' ∧ c ≠ '<' ∧ c ≠ '>' := by
        refine ⟨?_, ?_, ?_, ?_, ?_⟩ <;> (rintro rfl; cases shell <;> simp [wordEnd] at h2)
      simp [wordStart, h1, h3]
    have := nextToken_pieces shell ps (hwf shell h) c (Typed.text w') (hraw.trans ht) hcs hok.1 _ hlit rest hr
    rwa [hraw, hkept] at this

/-! ## File names -/

/-- **C67**, what is offered: in completing a word typed without quotes, exactly the names in the directory that the word names before its last slash, after removal of the escapes and expansion of `~`,
that begin with what follows the last slash, in order. -/
theorem C67_offers {shell : Bool} {w : Typed} {d n : Str} {fs : Files} {l : List Str} (h : Typed.OK shell w) (hp : Typed.PlainSlashes w) (hs : Split (Typed.value w) d n)
    (hl : fs.list ((dirName d).map fs.expand) = .names l) :
    ∃ cs, completeFilename fs (Typed.text w) = some cs ∧ Offered l n (cs.map Completion.display) := by
  obtain ⟨wd, wn, rfl, hd, hn⟩ := split_word hs
  have hwd : Typed.OK shell wd := fun p hp => h p (by simp [hp])
  have hwn : Typed.OK shell wn := fun p hp => h p (by simp [hp])
  have hh := handler_word h hp hd hn hs.dir_ hs.name_
  have hpd : Typed.PlainSlashes wd := fun hm => hp (List.mem_append.mpr (.inl hm))
  have hdn := dirName_resolve hwd hd hpd hs.dir_
  have hdir : (handler (Typed.text (wd ++ wn))).dir fs = (dirName d).map fs.expand := by
    rw [hh]
    unfold Handler.dir
    rw [← hdn]
    cases hb : dirName (Typed.text wd) with
    | none => rfl
    | some b =>
      have hne : resolveEscapes b ≠ [] := by
        rw [hb] at hdn
        simp at hdn
        intro he
        rw [he] at hdn
        have := hdn.symm
        unfold dirName at this
        split at this
        · simp at this
        · simp at this
        · rename_i h1 h2
          simp only [Option.some.injEq] at this
          cases d with
          | nil => exact h1 rfl
          | cons x d =>
            cases d with
            | nil =>
              rcases hs.dir_ with h | h
              · simp at h
              · simp at h; subst h; exact h2 rfl
            | cons y d => simp at this
      simp [hne]
  refine ⟨_, by unfold completeFilename Handler.completeArg; rw [hdir]; simp only [hl, Option.map_some]; rfl, ?_⟩
  rw [hh]
  simp only [List.map_map]
  rw [show (Completion.display ∘ Handler.completion _ fs) = id from rfl, List.map_id, resolve_text hwn, hn]
  exact ⟨sorted_perm _, order_of (sorted_pairwise _)⟩

/-- **C67**, what is accepted: the line is then what preceded the word followed by a word whose value is the directory and the name that was chosen, and by a blank if it is not a directory and a slash if it is.
Missing: this supposes that the characters still to be typed that end words are among those that are escaped (see C67_false_typable), and whether it is a directory is determined only
if the directory was typed without escapes (C67_false_escaped_directory). -/
theorem C67_accepted_partial {shell : Bool} {w : Typed} {d n f : Str} {fs : Files} (pre : Str) (h : Typed.OK shell w) (hst : Typed.Starts w) (hp : Typed.PlainSlashes w)
    (hs : Split (Typed.value w) d n) {cs : List Completion} {c : Completion} (hc : completeFilename fs (Typed.text w) = some cs) (hm : c ∈ cs) (hf : c.display = f)
    (ht : Typable shell (f.drop n.length)) (hfirst : w = [] → f.head? ≠ some '#' ∧ f.head? ≠ some '=' ∧ f.head? ≠ some ',') :
    ∃ w' : Typed, Typed.OK shell w' ∧ Typed.Starts w' ∧ Typed.value w' = d ++ f ∧
      (c.accept (pre ++ Typed.text w) = pre ++ Typed.text w' ++ [' '] ∨ c.accept (pre ++ Typed.text w) = pre ++ Typed.text w' ++ ['/']) ∧
      ((∀ p ∈ w, p.2 = true → p.1 ∉ d) →
        c.accept (pre ++ Typed.text w) = pre ++ Typed.text w' ++ (if fs.isDir ((dirName d).map fs.expand) f then ['/'] else [' '])) := by
  obtain ⟨wd, wn, rfl, hd, hn⟩ := split_word hs
  have hwd : Typed.OK shell wd := fun p hp => h p (by simp [hp])
  have hwn : Typed.OK shell wn := fun p hp => h p (by simp [hp])
  have hh := handler_word h hp hd hn hs.dir_ hs.name_
  -- the completion
  have hcf : c = (handler (Typed.text (wd ++ wn))).completion fs f ∧ n.isPrefixOf f = true := by
    unfold completeFilename Handler.completeArg at hc
    split at hc
    · rename_i l hl
      simp only [Option.map_some, Option.some.injEq] at hc
      subst hc
      obtain ⟨g, hg, rfl⟩ := List.mem_map.mp hm
      have hg' : g = f := hf
      subst hg'
      refine ⟨rfl, ?_⟩
      have := (sorted_perm _).mem_iff.mp hg
      rw [List.mem_filter, hh] at this
      rw [resolve_text hwn, hn] at this
      exact this.2
    · simp at hc; subst hc; simp at hm
    · simp at hc
  obtain ⟨hcf, hpre⟩ := hcf
  obtain ⟨s, hs'⟩ := List.isPrefixOf_iff_prefix.mp hpre
  have hdrop : f.drop n.length = s := by rw [← hs']; simp
  have htake : f.take n.length = n := by rw [← hs']; simp
  rw [hdrop] at ht
  obtain ⟨w0, hw0, hv0, hhead, htxt⟩ := escape_last h
  -- the tail
  have hacc : c.accept (pre ++ Typed.text (wd ++ wn)) = pre ++ Typed.text (w0 ++ escapedSuffix s) ++ (if fs.isDir ((dirName (Typed.text wd)).map fs.expand) f then ['/'] else [' ']) := by
    subst hcf
    unfold Completion.accept Handler.completion
    rw [hh]
    simp only [Option.isNone_none, Bool.true_and]
    unfold Handler.completionText
    simp only [resolve_text hwn, hn, htake, hdrop]
    rw [Typed.text_append w0, ← htxt, escapedSuffix_text, List.length_append]
    have hlen : (if (tokenEscaping (Typed.text (wd ++ wn))).isSome = true then 1 else 0) ≤ (Typed.text (wd ++ wn)).length := by
      split
      · rename_i hsome
        cases htt : Typed.text (wd ++ wn) with
        | nil => rw [htt] at hsome; simp [tokenEscaping] at hsome
        | cons x t => simp
      · omega
    rw [Nat.add_sub_assoc hlen, List.take_length_add_append, hs']
    simp [List.append_assoc]
  refine ⟨w0 ++ escapedSuffix s, hw0.append (escapedSuffix_ok ht), ?_, ?_, ?_, ?_⟩
  · intro x hx
    cases hw0e : w0 with
    | cons p w0' =>
      rw [hw0e] at hx
      exact hst x (hhead x (by rw [hw0e]; simpa using hx))
    | nil =>
      rw [hw0e] at hx hv0
      have hw : wd ++ wn = [] := by
        have := hv0.symm
        unfold Typed.value at this
        exact List.map_eq_nil_iff.mp this
      have hfirst := hfirst hw
      have hn0 : n = [] := by
        have : wn = [] := (List.append_eq_nil_iff.mp hw).2
        subst this
        exact hn.symm
      subst hn0
      simp only [List.nil_append] at hs'
      subst hs'
      cases s with
      | nil => simp [escapedSuffix] at hx
      | cons y s =>
        simp only [escapedSuffix, List.map_cons, List.nil_append, List.head?_cons, Option.some.injEq, Prod.mk.injEq] at hx
        obtain ⟨rfl, hx⟩ := hx
        have hx : y ∉ needsEscape := by simpa using hx
        simp only [List.head?_cons, ne_eq, Option.some.injEq] at hfirst
        intro hy
        simp only [List.mem_cons, List.not_mem_nil, or_false] at hy
        rcases hy with rfl | rfl | rfl | rfl | rfl | rfl
        · exact hfirst.1 rfl
        · exact hx (by decide)
        · exact hx (by decide)
        · exact hfirst.2.1 rfl
        · exact hfirst.2.2 rfl
        · exact hx (by decide)
  · rw [Typed.value_append, hv0, escapedSuffix_value, Typed.value_append, hd, hn, List.append_assoc, hs']
  · rw [hacc]
    split
    · exact .inr rfl
    · exact .inl rfl
  · intro hpl
    have : Typed.text wd = d := by
      rw [← hd]
      refine text_plain fun p hp => ?_
      have := hpl p (by simp [hp])
      rcases Bool.eq_false_or_eq_true p.2 with h' | h'
      · exact absurd (hd ▸ List.mem_map.mpr ⟨p, hp, rfl⟩) (this h')
      · exact h'
    rw [hacc, this]

/-! ## Quoted names -/

theorem resolve_plain (s : Str) (h : '\\' ∉ s) : resolveEscapes s = s := by
  induction s with
  | nil => rfl
  | cons c s ih =>
    simp only [List.mem_cons, not_or] at h
    rw [resolve_cons_plain _ _ (Ne.symm h.1), ih h.2]

theorem dirName_slash (t : Str) : dirName (t ++ ['/']) = if t = [] then some ['/'] else some t := by
  cases t with
  | nil => rfl
  | cons c t =>
    rw [if_neg (by simp)]
    unfold dirName
    split
    · rename_i h; simp at h
    · rename_i h; simp at h
    · rw [List.dropLast_concat]

theorem handler_quoted {q : Char} {t d n : Str} (hq : isQuote q = true) (hs : Split t d n) : handler (q :: t) = ⟨some q, dirName d, n, tokenEscaping t⟩ := by
  obtain ⟨rfl, hn, hd⟩ := hs
  unfold handler splitLeadingQuote
  simp only [hq, if_true]
  rcases hd with rfl | hd
  · simp only [List.nil_append]
    rw [splitSlash_none _ hn]
    rfl
  · obtain ⟨d', rfl⟩ : ∃ d', d = d' ++ ['/'] := by
      rcases List.eq_nil_or_concat d with rfl | ⟨d', x, rfl⟩
      · simp at hd
      · simp at hd; subst hd; exact ⟨d', by simp⟩
    rw [dirName_slash, List.append_assoc, List.singleton_append, splitSlash_last _ _ hn]
    cases d' with
    | nil => rfl
    | cons c d' => rfl

/-- How a directory in quotes is looked up: `~` means the home directory only in single quotes. -/
def quotedDir (q : Char) (fs : Files) (d : Str) : Option Str := (dirName d).map fun b => if q = '"' then b else fs.expand b

theorem dirName_mem {d b : Str} (h : dirName d = some b) (hd : d.getLast? = some '/') : b ≠ [] ∧ ∀ c, c ∈ b → c ∈ d := by
  obtain ⟨d', rfl⟩ : ∃ d', d = d' ++ ['/'] := by
    rcases List.eq_nil_or_concat d with rfl | ⟨d', x, rfl⟩
    · simp at hd
    · simp at hd; subst hd; exact ⟨d', by simp⟩
  rw [dirName_slash] at h
  split at h
  · rename_i he
    subst he
    cases h
    exact ⟨by simp, fun c hc => hc⟩
  · rename_i he
    cases h
    exact ⟨he, fun c hc => by simp [hc]⟩

/-- **C67**, offered in quotes, if there is no backslash in what has been typed: in double quotes, `~` is not expanded. -/
theorem C67_quoted_offers_partial {q : Char} {t d n : Str} {fs : Files} {l : List Str} (hq : isQuote q = true) (hb : '\\' ∉ t) (hs : Split t d n) (hl : fs.list (quotedDir q fs d) = .names l) :
    ∃ cs, completeFilename fs (q :: t) = some cs ∧ Offered l n (cs.map Completion.display) := by
  have hh := handler_quoted hq hs
  have hnb : '\\' ∉ n := fun h => hb (by rw [hs.whole]; simp [h])
  have hdb : '\\' ∉ d := fun h => hb (by rw [hs.whole]; simp [h])
  have hdir : (handler (q :: t)).dir fs = quotedDir q fs d := by
    rw [hh]
    unfold Handler.dir quotedDir
    cases hdn : dirName d with
    | none => rfl
    | some b =>
      have hm : b ≠ [] ∧ ∀ c, c ∈ b → c ∈ d := by
        rcases hs.dir_ with rfl | h
        · cases hdn
        · exact dirName_mem hdn h
      have hr : resolveEscapes b = b := resolve_plain b fun h => hdb (hm.2 _ h)
      simp [hr, hm.1]
  refine ⟨_, by unfold completeFilename Handler.completeArg; rw [hdir]; simp only [hl, Option.map_some]; rfl, ?_⟩
  rw [hh]
  simp only [List.map_map]
  rw [show (Completion.display ∘ Handler.completion _ fs) = id from rfl, List.map_id, resolve_plain n hnb]
  exact ⟨sorted_perm _, order_of (sorted_pairwise _)⟩

/-- **C67**, accepted in quotes: what is added completes the name, and then the quote and a blank unless it is a directory. -/
theorem C67_quoted_accepted_partial {q : Char} {t d n f : Str} {fs : Files} (pre : Str) (hq : isQuote q = true) (hb : '\\' ∉ t) (hs : Split t d n) {cs : List Completion} {c : Completion}
    (hc : completeFilename fs (q :: t) = some cs) (hm : c ∈ cs) (hf : c.display = f) :
    c.accept (pre ++ q :: t) = pre ++ q :: (d ++ f) ++ (if fs.isDir ((dirName d).map fs.expand) f then ['/'] else [q, ' ']) := by
  have hh := handler_quoted hq hs
  have hnb : '\\' ∉ n := fun h => hb (by rw [hs.whole]; simp [h])
  have hcf : c = (handler (q :: t)).completion fs f ∧ n.isPrefixOf f = true := by
    unfold completeFilename Handler.completeArg at hc
    split at hc
    · rename_i l hl
      simp only [Option.map_some, Option.some.injEq] at hc
      subst hc
      obtain ⟨g, hg, rfl⟩ := List.mem_map.mp hm
      have hg' : g = f := hf
      subst hg'
      refine ⟨rfl, ?_⟩
      have := (sorted_perm _).mem_iff.mp hg
      rw [List.mem_filter, hh] at this
      rw [resolve_plain n hnb] at this
      exact this.2
    · simp at hc; subst hc; simp at hm
    · simp at hc
  obtain ⟨hcf, hpre⟩ := hcf
  obtain ⟨s, hs'⟩ := List.isPrefixOf_iff_prefix.mp hpre
  have hdrop : f.drop n.length = s := by rw [← hs']; simp
  have htake : f.take n.length = n := by rw [← hs']; simp
  subst hcf
  unfold Completion.accept Handler.completion
  rw [hh]
  simp only [Option.isNone_some, Bool.false_and, Bool.false_eq_true, if_false, Nat.sub_zero, List.take_length]
  unfold Handler.completionText
  simp only [resolve_plain n hnb, htake, hdrop, hs.whole, hs']
  rw [← hs']
  simp [List.append_assoc]

/-- **C67**, what a name completed in quotes stands for: itself, if it has no such quote, and no backslash in double quotes. -/
theorem C67_quoted_read_partial {q : Char} {v : Str} (shell : Bool) (hq : isQuote q = true) (hv : q ∉ v) (hb : q = '"' → '\\' ∉ v) (rest : Str) (hr : Blank rest) :
    ∃ lit, nextToken shell (q :: v ++ q :: rest) = .ok (some (.str shell lit (q :: v ++ [q]), skipWs rest)) ∧ lit.string = v ∧ lit.missingQuote = none := by
  by_cases h : q = '"'
  · subst h
    exact C30_double_quoted_verbatim_partial shell v hv (hb rfl) rest hr
  · have : q = '\'' := by simp [isQuote, h] at hq; exact hq
    subst this
    exact C30_single_quoted shell v hv rest hr

/-! ## Operators, flags, users, and topics -/

/-- **C67**, operators: exactly those that begin with what has been typed — all, after `|`, `(|` or `:` — and executables only if there are none. -/
theorem C67_op_offers (ops exes : List Str) (token : Str) :
    (completeOp ops exes token).map Completion.display =
      (if pipelineSyntax token then (if ops = [] then exes else ops)
       else if (ops.filter fun o => token.isPrefixOf o) = [] then exes.filter fun o => token.isPrefixOf o else ops.filter fun o => token.isPrefixOf o) := by
  have hd : ∀ (t : Str) (l : List Str), (l.map (stringCompletion t)).map Completion.display = l := by
    intro t l
    rw [List.map_map]
    exact List.map_id l
  have hall : ∀ l : List Str, (l.filter fun o => ([] : Str).isPrefixOf o) = l := fun l => List.filter_eq_self.mpr fun o _ => by simp
  have hlen : ∀ t : Str, (ops.filter fun op => decide (t.length = 0) || t.isPrefixOf op) = ops.filter fun op => t.isPrefixOf op := by
    intro t
    cases t with
    | nil => simp
    | cons c t => simp
  unfold completeOp
  simp only [hlen]
  rcases Bool.eq_false_or_eq_true (pipelineSyntax token) with h | h
  · simp only [h, if_true, hall]
    by_cases ho : ops = []
    · rw [if_pos (by simp [ho]), if_pos ho, hd]
    · rw [if_neg (by simpa using ho), if_neg ho, hd]
  · simp only [h, Bool.false_eq_true, if_false]
    by_cases ho : (ops.filter fun o => token.isPrefixOf o) = []
    · rw [if_pos (by simp [ho]), if_pos ho, hd]
    · rw [if_neg (by simpa using ho), if_neg ho, hd]

theorem accept_zero {c : Completion} (h : c.remove = 0) (line : Str) : c.accept line = line ++ c.text := by
  unfold Completion.accept
  rw [h, Nat.sub_zero, List.take_length]

theorem accept_string (pre token x : Str) (h : token.isPrefixOf x = true) : (stringCompletion token x).accept (pre ++ token) = pre ++ x ++ [' '] := by
  obtain ⟨s, rfl⟩ := List.isPrefixOf_iff_prefix.mp h
  rw [accept_zero rfl]
  simp [stringCompletion, List.append_assoc]

/-- **C67**, operators, accepted: the line ends with the operator and a blank; after `|`, `(|` or `:` it is added. -/
theorem C67_op_accepted (ops exes : List Str) (pre token : Str) {c : Completion} (hc : c ∈ completeOp ops exes token) :
    c.accept (pre ++ token) = pre ++ (if pipelineSyntax token then token else []) ++ c.display ++ [' '] := by
  have key : ∀ (t : Str) (l : List Str), c ∈ ((l.filter fun o => decide (t.length = 0) || t.isPrefixOf o).map (stringCompletion t)) → ∀ p : Str, c.accept (p ++ t) = p ++ c.display ++ [' '] := by
    intro t l hc p
    obtain ⟨x, hx, rfl⟩ := List.mem_map.mp hc
    refine accept_string p t x ?_
    have := (List.mem_filter.mp hx).2
    cases t with
    | nil => rfl
    | cons c t => simpa using this
  have key2 : ∀ (t : Str), c ∈ (exes.filter fun e => t.isPrefixOf e).map (stringCompletion t) → ∀ p : Str, c.accept (p ++ t) = p ++ c.display ++ [' '] := by
    intro t hc p
    obtain ⟨x, hx, rfl⟩ := List.mem_map.mp hc
    exact accept_string p t x (List.mem_filter.mp hx).2
  unfold completeOp at hc
  simp only [] at hc
  rcases Bool.eq_false_or_eq_true (pipelineSyntax token) with h | h
  · simp only [h, if_true] at hc ⊢
    have : c.accept ((pre ++ token) ++ []) = (pre ++ token) ++ c.display ++ [' '] := by
      split at hc
      · exact key2 [] hc _
      · exact key [] ops hc _
    simpa using this
  · simp only [h, Bool.false_eq_true, if_false, List.append_nil] at hc ⊢
    split at hc
    · exact key2 token hc _
    · exact key token ops hc _

/-- **C67**, flags: exactly the flags of the operator that begin with what has been typed, in order; accepting one gives the line that ends with it and a blank. -/
theorem C67_flags (flags : List Str) (pre token : Str) :
    Offered flags token ((completeFlag flags token).map Completion.display) ∧ ∀ c ∈ completeFlag flags token, c.accept (pre ++ token) = pre ++ c.display ++ [' '] := by
  unfold completeFlag
  refine ⟨⟨?_, ?_⟩, ?_⟩
  · rw [List.map_map, show (Completion.display ∘ stringCompletion token) = id from rfl, List.map_id]
    exact (sorted_perm flags).filter _
  · rw [List.map_map, show (Completion.display ∘ stringCompletion token) = id from rfl, List.map_id]
    exact order_of ((sorted_pairwise flags).filter _)
  · intro c hc
    obtain ⟨x, hx, rfl⟩ := List.mem_map.mp hc
    exact accept_string pre token x (List.mem_filter.mp hx).2

/-- **C67**, user names: after `~` and the beginning of a name, exactly the users whose names begin so, in order, and accepting one gives the line that ends with `~`, the name and a slash. -/
theorem C67_users (users : List Str) (pre t : Str) (h : '\\' ∉ t) :
    Offered (users.map ('~' :: ·)) ('~' :: t) ((completeUser users ('~' :: t)).map Completion.display) ∧
      ∀ c ∈ completeUser users ('~' :: t), c.accept (pre ++ '~' :: t) = pre ++ c.display ++ ['/'] := by
  unfold completeUser
  simp only [List.tail_cons, resolve_plain t h, List.map_map]
  have hdisp : (Completion.display ∘ fun u => (⟨u.drop t.length ++ ['/'], '~' :: u, 0⟩ : Completion)) = fun u => '~' :: u := rfl
  rw [hdisp]
  refine ⟨⟨?_, ?_⟩, ?_⟩
  · have : (users.map ('~' :: ·)).filter (fun f => ('~' :: t).isPrefixOf f) = (users.filter fun u => t.isPrefixOf u).map ('~' :: ·) := by
      rw [List.filter_map]
      congr 1
      try exact List.filter_congr fun u _ => by simp [List.isPrefixOf]
    rw [this]
    exact ((sorted_perm users).filter _).map _
  · refine order_of ?_
    rw [List.pairwise_map]
    refine ((sorted_pairwise users).filter _).imp fun {a b} hab => ?_
    show strLt ('~' :: b) ('~' :: a) = false
    simp [strLt, hab]
  · intro c hc
    obtain ⟨x, hx, rfl⟩ := List.mem_map.mp hc
    obtain ⟨s, rfl⟩ := List.isPrefixOf_iff_prefix.mp (List.mem_filter.mp hx).2
    rw [accept_zero rfl]
    simp [List.append_assoc]

/-- **C67**, help topics: exactly those that begin with what has been typed, and accepting one gives the line that ends with it. -/
theorem C67_topics (topics : List Str) (pre t : Str) (h : '\\' ∉ t) :
    (completeTopic topics t).map Completion.display = (topics.filter fun x => t.isPrefixOf x) ∧ ∀ c ∈ completeTopic topics t, c.accept (pre ++ t) = pre ++ c.display := by
  unfold completeTopic
  simp only [resolve_plain t h, List.map_map]
  refine ⟨List.map_id _, fun c hc => ?_⟩
  obtain ⟨x, hx, rfl⟩ := List.mem_map.mp hc
  obtain ⟨s, rfl⟩ := List.isPrefixOf_iff_prefix.mp (List.mem_filter.mp hx).2
  rw [accept_zero rfl]
  simp

/-- **C67**, at the beginning of a pipeline all operators are offered, and accepting one adds it. -/
theorem C67_op_all (ops exes : List Str) (pre token : Str) (h : token = ['|'] ∨ token = ['(', '|'] ∨ ∃ t, token = t ++ [':']) (hne : ops ≠ []) :
    (completeOp ops exes token).map Completion.display = ops ∧ ∀ c ∈ completeOp ops exes token, c.accept (pre ++ token) = pre ++ token ++ c.display ++ [' '] := by
  have hp : pipelineSyntax token = true := by
    rcases h with rfl | rfl | ⟨t, rfl⟩
    · rfl
    · rfl
    · simp [pipelineSyntax]
  refine ⟨by rw [C67_op_offers, if_pos hp, if_neg hne], fun c hc => ?_⟩
  rw [C67_op_accepted ops exes pre token hc, if_pos hp]

/-- **C67**, elsewhere those that begin with what has been typed. -/
theorem C67_op_typed (ops exes : List Str) (pre token : Str) (h1 : token ≠ ['|']) (h2 : token ≠ ['(', '|']) (h3 : ∀ t, token ≠ t ++ [':']) :
    (completeOp ops exes token).map Completion.display =
      (if (ops.filter fun o => token.isPrefixOf o) = [] then exes.filter fun o => token.isPrefixOf o else ops.filter fun o => token.isPrefixOf o) ∧
    ∀ c ∈ completeOp ops exes token, c.accept (pre ++ token) = pre ++ c.display ++ [' '] := by
  have hp : pipelineSyntax token = false := by
    have : token.getLast? ≠ some ':' := by
      intro h
      rcases List.eq_nil_or_concat token with rfl | ⟨t, x, rfl⟩
      · simp at h
      · simp at h; subst h; exact h3 t (by simp)
    simp [pipelineSyntax, h1, h2, this]
  refine ⟨by rw [C67_op_offers, if_neg (by simp [hp])], fun c hc => ?_⟩
  rw [C67_op_accepted ops exes pre token hc, if_neg (by simp [hp])]
  simp

theorem last_not_quote {c : Char} {t : Str} (hc : isQuote c = false) (hl : isQuote (t.getLast?.getD 'x') = false) : unquote (c :: t) = c :: t := by
  unfold unquote
  simp only [hc, Bool.false_eq_true, if_false]
  cases hg : (c :: t).getLast? with
  | none => rfl
  | some x =>
    have hx : isQuote x = false := by
      cases t with
      | nil => simp at hg; subst hg; exact hc
      | cons y t =>
        have : (y :: t).getLast? = some x := by simpa using hg
        rw [this] at hl
        exact hl
    simp [hx]

/-- **C67**, which of these applies to an argument, if the command is not `help`: user names to a word beginning with `~` up to its first slash, and otherwise names of files. -/
theorem C67_select (fs : Files) (users topics : List Str) (line : Str) (hh : ¬ ∃ s, skipWs line = ['h', 'e', 'l', 'p'] ++ s) :
    (∀ t, isQuote (t.getLast?.getD 'x') = false → '/' ∉ t → completeArgument fs users topics line ('~' :: t) = some (completeUser users ('~' :: t))) ∧
    (∀ t, isQuote (t.getLast?.getD 'x') = false → '/' ∈ t → completeArgument fs users topics line ('~' :: t) = completeFilename fs ('~' :: t)) ∧
    (∀ c t, isQuote c = false → isQuote (t.getLast?.getD 'x') = false → c ≠ '~' → completeArgument fs users topics line (c :: t) = completeFilename fs (c :: t)) ∧
    completeArgument fs users topics line [] = completeFilename fs [] ∧
    (∀ q c t, isQuote q = true → isQuote c = false → isQuote (t.getLast?.getD 'x') = false → c ≠ '~' → completeArgument fs users topics line (q :: c :: t) = completeFilename fs (q :: c :: t)) := by
  have hh : helpCommand line = false := by
    unfold helpCommand
    rcases Bool.eq_false_or_eq_true (['h', 'e', 'l', 'p'].isPrefixOf (skipWs line)) with h | h
    · obtain ⟨s, hs⟩ := List.isPrefixOf_iff_prefix.mp h
      exact absurd ⟨s, hs.symm⟩ hh
    · exact h
  refine ⟨fun t hl hs => ?_, fun t hl hs => ?_, fun c t hc hl hne => ?_, ?_, fun q c t hq hc hl hne => ?_⟩
  · have hu : userToken ('~' :: t) = true := by
      unfold userToken
      rw [last_not_quote rfl hl]
      simp [hs]
    simp [completeArgument, hh, hu]
  · have hu : userToken ('~' :: t) = false := by
      unfold userToken
      rw [last_not_quote rfl hl]
      simp [hs]
    simp [completeArgument, hh, hu]
  · have hu : userToken (c :: t) = false := by
      unfold userToken
      rw [last_not_quote hc hl]
      simp [hne]
    simp [completeArgument, hh, hu]
  · simp [completeArgument, hh, userToken, unquote]
  · have hu : userToken (q :: c :: t) = false := by
      unfold userToken
      have : unquote (q :: c :: t) = c :: t := by
        have h1 := last_not_quote hc hl
        unfold unquote at h1 ⊢
        simpa only [hq, hc, Bool.false_eq_true, if_false, if_true] using h1
      rw [this]
      simp [hne]
    simp [completeArgument, hh, hu]

/-- **C67**, and help topics if the command is `help`. -/
theorem C67_select_help (fs : Files) (users topics : List Str) (t token : Str) : completeArgument fs users topics (['h', 'e', 'l', 'p', ' '] ++ t) token = some (completeTopic topics token) := by
  have hh : helpCommand (['h', 'e', 'l', 'p', ' '] ++ t) = true := by
    unfold helpCommand
    have hsp : isspace 'h' = false := by unfold isspace; decide
    rw [List.cons_append, skipWs_cons _ _ hsp]
    simp [List.isPrefixOf]
  unfold completeArgument
  rw [if_pos hh]

/-! ## Examples -/

/-- A directory with these names, in which the names ending with `d` are directories. -/
def exFiles (l : List Str) : Files where
  list := fun d => if d = none then .names l else if d = some ['d', ' ', 'd'] then .names [['s', 'd'], ['s']] else .notFound
  isDir := fun d f => (d = none || d = some ['d', ' ', 'd']) && f.getLast? = some 'd'
  expand := id

/-- What the line becomes for each of the completions. -/
def accepted (fs : Files) (pre token : Str) : Option (List Str) := (completeFilename fs token).map fun cs => cs.map fun c => c.accept (pre ++ token)

/-- The hypotheses of C67_offers and C67_accepted_partial are met: `ls a\ b*` in a directory with such a name. -/
theorem C67_example : Typed.OK true [('a', false), (' ', true), ('b', false), ('*', false)] ∧ Typed.Starts [('a', false), (' ', true), ('b', false), ('*', false)] ∧
    Typed.PlainSlashes [('a', false), (' ', true), ('b', false), ('*', false)] ∧ Split "a b*".toList [] "a b*".toList ∧ Typable true "c d".toList ∧
    accepted (exFiles ["a b*c d".toList, "a b*c".toList, "a c".toList]) "ls ".toList "a\\ b*".toList = some ["ls a\\ b\\*c ".toList, "ls a\\ b\\*c\\ d/".toList] := by
  refine ⟨?_, ?_, by unfold Typed.PlainSlashes; decide, ⟨rfl, by decide, .inl rfl⟩, ?_, by decide +kernel⟩
  · intro p hp hf
    simp only [List.mem_cons, List.not_mem_nil, or_false] at hp
    rcases hp with rfl | rfl | rfl | rfl
    · exact ⟨by unfold isspace; decide, by decide, by decide, by decide, by decide⟩
    · cases hf
    · exact ⟨by unfold isspace; decide, by decide, by decide, by decide, by decide⟩
    · exact ⟨by unfold isspace; decide, by decide, by decide, by decide, by decide⟩
  · intro c hc
    simp at hc
    subst hc
    decide
  · intro c hc h
    simp only [show "c d".toList = ['c', ' ', 'd'] from rfl, List.mem_cons, List.not_mem_nil, or_false] at hc
    rcases hc with rfl | rfl | rfl
    · rcases h with h | h
      · unfold isspace at h; simp at h
      · simp [wordEnd] at h
    · decide
    · rcases h with h | h
      · unfold isspace at h; simp at h
      · simp [wordEnd] at h

/-- In quotes. -/
theorem C67_example_quoted : accepted (exFiles ["a b*c d".toList, "a b*c".toList, "a c".toList]) "ls ".toList "'a b".toList = some ["ls 'a b*c' ".toList, "ls 'a b*c d/".toList] := by decide +kernel

/-- The value that the line has for an argument: that of the first word of the text after the first `k` characters. -/
def argument (shell : Bool) (line : Str) (k : Nat) : Option Str :=
  match nextToken shell (line.drop k) with
  | .ok (some (.str _ lit _, _)) => some lit.string
  | _ => none

/-! ## Where it is wrong -/

/-- **C67 is false of names with characters that end words but are not escaped**: a comma, an equals sign or a hash sign in the argument of one of marcel's own operators; blanks other than those of ASCII in any;
and a hash sign at the beginning. -/
theorem C67_false_typable :
    (accepted (exFiles ["a,b".toList]) "cd ".toList "a".toList = some ["cd a,b ".toList] ∧ argument false "cd a,b ".toList 3 = some "a".toList) ∧
    (accepted (exFiles ["a=b".toList]) "cd ".toList "a".toList = some ["cd a=b ".toList] ∧ argument false "cd a=b ".toList 3 = some "a".toList) ∧
    (accepted (exFiles ["a#b".toList]) "cd ".toList "a".toList = some ["cd a#b ".toList] ∧ argument false "cd a#b ".toList 3 = none) ∧
    (accepted (exFiles [['a', '\u00a0', 'b']]) "ls ".toList "a".toList = some ["ls ".toList ++ ['a', '\u00a0', 'b', ' ']] ∧
      argument true ("ls ".toList ++ ['a', '\u00a0', 'b', ' ']) 3 = some "a".toList) ∧
    (accepted (exFiles ["#b".toList]) "ls ".toList [] = some ["ls #b ".toList] ∧ argument true "ls #b ".toList 3 = none) := by
  unfold argument
  refine ⟨⟨?_, ?_⟩, ⟨?_, ?_⟩, ⟨?_, ?_⟩, ⟨?_, ?_⟩, ⟨?_, ?_⟩⟩ <;> decide +kernel

/-- **C67 is false of a quoted name that contains the quote**, or a backslash in double quotes before a backslash. -/
theorem C67_false_quote :
    (accepted (exFiles ["it's".toList]) "ls ".toList "'it".toList = some ["ls 'it's' ".toList] ∧ argument true "ls 'it's' ".toList 3 ≠ some "it's".toList) ∧
    (accepted (exFiles ["a\\\\b".toList]) "ls ".toList "\"a".toList = some ["ls \"a\\\\b\" ".toList] ∧ argument true "ls \"a\\\\b\" ".toList 3 = some "a\\b".toList) := by
  refine ⟨⟨?_, ?_⟩, ?_, ?_⟩ <;> decide +kernel

/-- A backslash in single quotes is one, but it is taken for an escape when the names are matched: a name is offered that does not begin with what has been typed, and one that does is not. -/
theorem C67_false_backslash :
    accepted (exFiles ["ab".toList, "a\\b".toList]) "ls ".toList "'a\\b".toList = some ["ls 'a\\b' ".toList] ∧ (completeFilename (exFiles ["ab".toList, "a\\b".toList]) "'a\\b".toList).map (fun cs => cs.map Completion.display) = some ["ab".toList] := by
  constructor <;> decide +kernel

/-- A name completed after a lone backslash is not the one that was chosen. -/
theorem C67_false_lone : (completeFilename (exFiles ["ab".toList]) "a\\".toList).map (fun cs => cs.map Completion.display) = some ["ab".toList] ∧
    accepted (exFiles ["ab".toList]) "ls ".toList "a\\".toList = some ["ls a\\\\b ".toList] ∧ argument true "ls a\\\\b ".toList 3 = some "a\\b".toList := by
  refine ⟨?_, ?_, ?_⟩ <;> decide +kernel

/-- A subdirectory of a directory whose name has been typed with an escape is completed like a file. -/
theorem C67_false_escaped_directory : (exFiles []).isDir (some "d d".toList) "sd".toList = true ∧
    accepted (exFiles []) "ls ".toList "d\\ d/s".toList = some ["ls d\\ d/s ".toList, "ls d\\ d/sd ".toList] := by
  constructor <;> decide +kernel

/-- The help topics are offered for every command that begins with these four letters, and for executables that do. -/
theorem C67_false_help (fs : Files) (users : List Str) : completeArgument fs users ["ls".toList] "helper l".toList "l".toList = some [⟨['s'], "ls".toList, 0⟩] := by
  have : helpCommand "helper l".toList = true := by decide +kernel
  unfold completeArgument
  rw [this]
  rfl

/-- An exception escapes if what precedes the last slash is a file or cannot be read. -/
theorem C67_false_error : completeFilename { exFiles [] with list := fun _ => .error } "f/x".toList = none := by decide +kernel

end Marcel.Tab
