import Verif.Spec.Help
import Verif.Lemmas.ExecArgs

/-! # Lemmas about the formatting of help: scanning the text -/

namespace Marcel.Help

/-! ## Lists and lines -/

theorem splitOn_ne (sep : Char) (s : Str) : splitOn sep s ≠ [] := by
  cases s with
  | nil => simp [splitOn]
  | cons c cs =>
    simp only [splitOn]
    split
    · simp
    · split <;> simp

theorem splitOn_cons {sep c : Char} {s w : Str} {ws : List Str} (h : c ≠ sep) (e : splitOn sep s = w :: ws) : splitOn sep (c :: s) = (c :: w) :: ws := by
  simp only [splitOn, if_neg h, e]

theorem splitOn_append (sep : Char) (b h : Str) (t : List Str) (hb : splitOn sep b = h :: t) : ∀ (a l : Str) (i : List Str), splitOn sep a = i ++ [l] → splitOn sep (a ++ b) = i ++ (l ++ h) :: t
  | [], l, i, e => by
    cases i with
    | nil => simp only [splitOn, List.nil_append, List.cons.injEq, and_true] at e; subst e; simpa using hb
    | cons x xs => simp [splitOn] at e
  | c :: cs, l, i, e => by
    by_cases hc : c = sep
    · simp only [splitOn, if_pos hc] at e
      cases i with
      | nil =>
        simp only [List.nil_append, List.cons.injEq] at e
        exact absurd e.2 (splitOn_ne sep cs)
      | cons x xs =>
        simp only [List.cons_append, List.cons.injEq] at e
        simp only [List.cons_append, splitOn, if_pos hc, splitOn_append sep b h t hb cs l xs e.2, e.1]
    · rcases hs : splitOn sep cs with _ | ⟨w, ws⟩
      · exact absurd hs (splitOn_ne sep cs)
      · rw [splitOn_cons hc hs] at e
        cases i with
        | nil =>
          simp only [List.nil_append, List.cons.injEq] at e
          have := splitOn_append sep b h t hb cs w [] (by rw [hs, e.2]; rfl)
          rw [List.cons_append, splitOn_cons hc this, ← e.1]; rfl
        | cons x xs =>
          simp only [List.cons_append, List.cons.injEq] at e
          have := splitOn_append sep b h t hb cs l (w :: xs) (by rw [hs, e.2]; rfl)
          rw [List.cons_append, splitOn_cons hc this, ← e.1]; rfl

theorem splitOn_none {sep : Char} {s : Str} (h : sep ∉ s) : splitOn sep s = [s] := by
  induction s with
  | nil => rfl
  | cons c cs ih =>
    have h1 : c ≠ sep := fun e => h (by simp [e])
    simp only [splitOn, if_neg h1, ih fun x => h (by simp [x])]

theorem splitOn_mid {sep : Char} {s : Str} (h : sep ∉ s) (t : Str) : splitOn sep (s ++ sep :: t) = s :: splitOn sep t := by
  induction s with
  | nil => simp [splitOn]
  | cons c cs ih =>
    have h1 : c ≠ sep := fun e => h (by simp [e])
    simp only [List.cons_append, splitOn, if_neg h1, ih fun x => h (by simp [x])]

theorem linesOf_eq (s : Str) : linesOf s = splitOn '\n' s := by
  induction s with
  | nil => rfl
  | cons c cs ih =>
    simp only [linesOf, splitOn, ih]
    rcases hs : splitOn '\n' cs with _ | ⟨w, ws⟩
    · exact absurd hs (splitOn_ne _ cs)
    · rfl

theorem join_eq (sep : Str) (l : List Str) : join sep l = List.intercalate sep l := by
  induction l with
  | nil => rfl
  | cons a r ih =>
    cases r with
    | nil => simp [join]
    | cons b r' =>
      simp only [join, ih]
      simp [List.intercalate]

/-! ## Pointers -/

theorem next_plain {c : Char} (h : (TChar.plain c).WF) (b r : Str) : (Ptr.mk b (c :: r)).next = (.chr c, ⟨c :: b, r⟩) := by
  obtain ⟨h1, h2, h3⟩ := h
  simp [Ptr.next, h1, h2, h3]

theorem next_escaped (c : Char) (b r : Str) : (Ptr.mk b ('\\' :: c :: r)).next = (.chr c, ⟨c :: '\\' :: b, r⟩) := by
  simp [Ptr.next]

theorem next_open (b r : Str) : (Ptr.mk b ('{' :: r)).next = (.opening, ⟨'{' :: b, r⟩) := by
  simp [Ptr.next]

theorem next_close (b r : Str) : (Ptr.mk b ('}' :: r)).next = (.closing, ⟨'}' :: b, r⟩) := by
  simp [Ptr.next]

theorem next_tchar {c : TChar} (h : c.WF) (b r : Str) : (Ptr.mk b (c.raw ++ r)).next = (.chr c.char, ⟨c.raw.reverse ++ b, r⟩) := by
  cases c with
  | plain c => exact next_plain h b r
  | escaped c => exact next_escaped c b r

theorem next_shorter {q : Ptr} (h : q.next.1 ≠ .ended) : q.next.2.after.length < q.after.length := by
  rcases q with ⟨b, a⟩
  rcases a with _ | ⟨c, r⟩
  · exact absurd rfl h
  · revert h
    simp only [Ptr.next]
    repeat' split
    all_goals simp
    omega

theorem next_le (q : Ptr) : q.next.2.after.length ≤ q.after.length - 1 := by
  rcases q with ⟨b, a⟩
  rcases a with _ | ⟨c, r⟩
  · simp [Ptr.next]
  · simp only [Ptr.next]
    repeat' split
    all_goals simp

theorem advance_fuel (t : TC) : ∀ (n m : Nat) (q : Ptr), q.after.length < n → q.after.length < m → Ptr.advance t n q = Ptr.advance t m q
  | 0, _, _, h, _ => absurd h (by omega)
  | _ + 1, 0, _, _, h => absurd h (by omega)
  | n + 1, m + 1, q, hn, hm => by
    simp only [Ptr.advance]
    split
    · rfl
    · rename_i h
      have := next_shorter (q := q) (fun e => h (.inr e))
      exact advance_fuel t n m q.next.2 (by omega) (by omega)

theorem advancePast_stop {t : TC} {q : Ptr} (h : q.next.1 = t ∨ q.next.1 = .ended) : q.advancePast t = q.next.2 := by
  simp only [Ptr.advancePast, Ptr.advance, if_pos h]

theorem advancePast_step {t : TC} {q : Ptr} (h1 : q.next.1 ≠ t) (h2 : q.next.1 ≠ .ended) : q.advancePast t = q.next.2.advancePast t := by
  have h : ¬ (q.next.1 = t ∨ q.next.1 = .ended) := by simp [h1, h2]
  have h3 := next_shorter h2
  unfold Ptr.advancePast
  rw [Ptr.advance, if_neg h]
  exact advance_fuel t _ _ _ h3 (by omega)

theorem advancePast_le (t : TC) : ∀ (n : Nat) (q : Ptr), q.after.length = n → (q.advancePast t).after.length ≤ q.after.length - 1 := by
  intro n
  induction n using Nat.strongRecOn with
  | _ n ih =>
    intro q hq
    by_cases h : q.next.1 = t ∨ q.next.1 = .ended
    · rw [advancePast_stop h]; exact next_le q
    · rw [not_or] at h
      rw [advancePast_step h.1 h.2]
      have h3 := next_shorter h.2
      have := ih _ (by omega) q.next.2 rfl
      omega

theorem advancePast_end (t : TC) (b : Str) : (Ptr.mk b []).advancePast t = ⟨b, []⟩ := by
  rw [advancePast_stop (Or.inr rfl)]; rfl

theorem advancePast_tchar {t : TC} (ht : ∀ c, t ≠ .chr c) {c : TChar} (h : c.WF) (b r : Str) : (Ptr.mk b (c.raw ++ r)).advancePast t = (Ptr.mk (c.raw.reverse ++ b) r).advancePast t := by
  have := next_tchar h b r
  rw [advancePast_step (by rw [this]; exact fun e => ht _ e.symm) (by rw [this]; simp), this]

theorem advancePast_tchars {t : TC} (ht : ∀ c, t ≠ .chr c) : ∀ (cs : List TChar), (∀ c ∈ cs, c.WF) → ∀ (b r : Str), (Ptr.mk b (charsRaw cs ++ r)).advancePast t = (Ptr.mk ((charsRaw cs).reverse ++ b) r).advancePast t
  | [], _, b, r => rfl
  | c :: cs, h, b, r => by
    simp only [charsRaw, List.flatMap_cons, List.append_assoc, List.reverse_append]
    rw [advancePast_tchar ht (h c (by simp))]
    exact advancePast_tchars ht cs (fun x hx => h x (by simp [hx])) _ _

theorem charsRaw_plain (s : Str) : charsRaw (s.map TChar.plain) = s := by
  induction s with
  | nil => rfl
  | cons c cs ih =>
    simp only [charsRaw, List.map_cons, List.flatMap_cons] at ih ⊢
    rw [ih]; rfl

/-- Characters that stand for themselves. -/
def Simple (s : Str) : Prop := ∀ c ∈ s, c ≠ '{' ∧ c ≠ '}' ∧ c ≠ '\\'

theorem advancePast_simple {t : TC} (ht : ∀ c, t ≠ .chr c) {s : Str} (h : Simple s) (b r : Str) : (Ptr.mk b (s ++ r)).advancePast t = (Ptr.mk (s.reverse ++ b) r).advancePast t := by
  have := advancePast_tchars ht (s.map TChar.plain) (by intro c hc; obtain ⟨x, hx, rfl⟩ := List.mem_map.1 hc; exact h x hx) b r
  rwa [charsRaw_plain] at this

/-! ## Formats -/

theorem digit_simple (d : Fin 10) : Exec.digit d ≠ '{' ∧ Exec.digit d ≠ '}' ∧ Exec.digit d ≠ '\\' := by
  revert d; decide +kernel

theorem fmt_simple {f : Fmt} {s : Str} (h : f.Written s) : Simple s := by
  cases h with
  | rgb c r g b style hc hl hs =>
    intro x hx
    simp only [List.mem_cons] at hx
    rcases hx with rfl | rfl | rfl | rfl | hx
    · rcases hc with rfl | rfl <;> decide
    · exact digit_simple r
    · exact digit_simple g
    · exact digit_simple b
    · rcases hs x hx with rfl | rfl | rfl | rfl <;> decide
  | _ => intro x hx; simp only [List.mem_singleton] at hx; subst hx; decide

theorem fmt_head {f : Fmt} {s : Str} (h : f.Written s) : ∃ c r, s = c :: r ∧ c ∉ ['p', 'P', 'l', 'L'] := by
  cases h with
  | rgb c r g b style hc hl hs => exact ⟨c, _, rfl, by rcases hc with rfl | rfl <;> decide⟩
  | _ => exact ⟨_, _, rfl, by decide⟩

/-! ## Markup of paragraphs -/

theorem findOpen_fuel : ∀ (n m : Nat) (q : Ptr), q.after.length ≤ n → q.after.length ≤ m → findOpen n q = findOpen m q
  | 0, 0, _, _, _ => rfl
  | 0, m + 1, ⟨b, a⟩, h, _ => by
    have : a = [] := List.length_eq_zero_iff.1 (Nat.le_zero.1 h)
    subst this; rfl
  | n + 1, 0, ⟨b, a⟩, _, h => by
    have : a = [] := List.length_eq_zero_iff.1 (Nat.le_zero.1 h)
    subst this; rfl
  | n + 1, m + 1, q, hn, hm => by
    simp only [findOpen]
    have := advancePast_le .opening _ q rfl
    rw [findOpen_fuel n m (q.advancePast .opening) (by omega) (by omega)]

/-- Where the loop of `find_paragraph_markup` ends. -/
def found (q : Ptr) : Ptr := findOpen (q.after.length + 1) (q.advancePast .opening)

theorem open_ne (c : Char) : TC.opening ≠ .chr c := by simp
theorem close_ne (c : Char) : TC.closing ≠ .chr c := by simp

theorem found_end (b : Str) : found ⟨b, []⟩ = ⟨b, []⟩ := by
  unfold found; rw [advancePast_end]; rfl

theorem found_congr {q q' : Ptr} (h : q.advancePast .opening = q'.advancePast .opening) : found q = found q' := by
  unfold found
  rw [← h]
  have h1 := advancePast_le .opening _ q rfl
  have h2 := advancePast_le .opening _ q' rfl
  exact findOpen_fuel _ _ _ (by omega) (by rw [h]; omega)

theorem found_skip {q : Ptr} (h1 : (q.advancePast .opening).atEnd = false) (h2 : (q.advancePast .opening).peek ∉ [.chr 'p', .chr 'P', .chr 'l', .chr 'L']) :
    found q = found (q.advancePast .opening) := by
  have h3 := advancePast_le .opening _ q rfl
  have h4 := advancePast_le .opening _ (q.advancePast .opening) rfl
  conv => lhs; unfold found
  rw [findOpen, if_neg (by rw [h1]; simp), if_neg h2]
  exact findOpen_fuel _ _ _ (by omega) (by omega)

theorem peek_plain {c : Char} (h : c ≠ '{' ∧ c ≠ '}' ∧ c ≠ '\\') (b r : Str) : (Ptr.mk b (c :: r)).peek = .chr c := by
  simp [Ptr.peek, h]

theorem found_item {i : Item} (h : i.WF) (b r : Str) : found ⟨b, i.raw ++ r⟩ = found ⟨i.raw.reverse ++ b, r⟩ := by
  cases i with
  | chr c => exact found_congr (advancePast_tchar open_ne h b r)
  | mark f spec content =>
    obtain ⟨h1, h2, _, _⟩ := h
    obtain ⟨c, sp, hs, hc⟩ := fmt_head h1
    have hsi := fmt_simple h1
    have e1 : (Item.mark f spec content).raw ++ r = '{' :: (spec ++ ':' :: (charsRaw content ++ '}' :: r)) := by simp [Item.raw]
    have e2 : (Ptr.mk b ('{' :: (spec ++ ':' :: (charsRaw content ++ '}' :: r)))).advancePast .opening = ⟨'{' :: b, spec ++ ':' :: (charsRaw content ++ '}' :: r)⟩ := by
      rw [advancePast_stop (by left; rw [next_open]), next_open]
    rw [e1, found_skip (by rw [e2, hs]; rfl) (by
      rw [e2, hs, List.cons_append, peek_plain (hsi c (by simp [hs]))]
      simpa using hc), e2]
    refine found_congr ?_
    rw [advancePast_simple open_ne hsi]
    have := advancePast_simple (t := .opening) open_ne (s := [':']) (by intro x hx; simp only [List.mem_singleton] at hx; subst hx; decide)
      (spec.reverse ++ '{' :: b) (charsRaw content ++ '}' :: r)
    simp only [List.singleton_append] at this
    rw [this, advancePast_tchars open_ne content h2, advancePast_step (by rw [next_close]; simp) (by rw [next_close]; simp), next_close]
    simp [Item.raw]

theorem found_items : ∀ (is : List Item), (∀ i ∈ is, i.WF) → ∀ (b r : Str), found ⟨b, itemsRaw is ++ r⟩ = found ⟨(itemsRaw is).reverse ++ b, r⟩
  | [], _, _, _ => rfl
  | i :: is, h, b, r => by
    simp only [itemsRaw, List.flatMap_cons, List.append_assoc, List.reverse_append]
    rw [found_item (h i (by simp))]
    exact found_items is (fun x hx => h x (by simp [hx])) _ _

/-- What is true of the markup of a paragraph, as written. -/
theorem found_par {c : Char} {spec : Str} (hc : c ∈ ['p', 'P', 'l', 'L']) (b r : Str) : found ⟨b, '{' :: c :: (spec ++ r)⟩ = ⟨'{' :: b, c :: (spec ++ r)⟩ := by
  unfold found
  rw [advancePast_stop (by left; rw [next_open]), next_open]
  simp only [findOpen, Ptr.atEnd, List.isEmpty_cons, Bool.false_eq_true, if_false]
  rw [if_pos]
  rw [peek_plain]
  · simpa using hc
  · simp only [List.mem_cons, List.not_mem_nil, or_false] at hc
    rcases hc with rfl | rfl | rfl | rfl <;> decide

/-- The special characters in the markup of a paragraph. -/
def special : Str := [',', '=', ':', '{', '}', '\\']

theorem numeral_special {s : Str} {n : Int} (h : Exec.Numeral s n) : ∀ c ∈ s, c ∉ special := by
  have hd : ∀ d : Fin 10, Exec.digit d ∉ special := by decide +kernel
  cases h with
  | pos ds _ =>
    intro c hc
    obtain ⟨d, _, rfl⟩ := List.mem_map.1 hc
    exact hd d
  | neg ds _ =>
    intro c hc
    rcases List.mem_cons.1 hc with rfl | hc
    · decide
    · obtain ⟨d, _, rfl⟩ := List.mem_map.1 hc
      exact hd d

theorem key_special {k t : Str} (h : k.map Char.toLower = t) (ht : ∀ c ∈ t, c ∉ special) : ∀ c ∈ k, c ∉ special := by
  intro c hc hs
  have h1 : c.toLower ∈ t := by rw [← h]; exact List.mem_map_of_mem hc
  have h2 : ∀ x ∈ special, x.toLower = x := by decide +kernel
  exact ht _ h1 (by rw [h2 c hs]; exact hs)

theorem wrap_special : ∀ c ∈ "wrap".toList, c ∉ special := by decide +kernel
theorem indent_special : ∀ c ∈ "indent".toList, c ∉ special := by decide +kernel

theorem not_mem_of_special {s : Str} (h : ∀ c ∈ s, c ∉ special) {x : Char} (hx : x ∈ special) : x ∉ s := fun hm => h x hm hx

/-- The effect of an option. -/
def applyOpt (p : PropsSoFar) : POpt → PropsSoFar
  | .wrap b => { p with wrap := some b }
  | .indent a b => { p with indents := some (a, b) }
  | .other => p

theorem other_plain {k v : Str} (h : ∀ c ∈ k ++ v, c ∉ [',', '=', '{', '}', '\\']) : ',' ∉ (k ++ '=' :: v) ∧ Simple (k ++ '=' :: v) := by
  have hm : ∀ c ∈ k ++ '=' :: v, c = '=' ∨ c ∉ [',', '=', '{', '}', '\\'] := by
    intro c hc
    simp only [List.mem_append, List.mem_cons] at hc
    rcases hc with hc | rfl | hc
    · exact .inr (h c (by simp [hc]))
    · exact .inl rfl
    · exact .inr (h c (by simp [hc]))
  refine ⟨fun hc => ?_, fun c hc => ?_⟩
  · rcases hm _ hc with h | h
    · exact absurd h (by decide)
    · exact h (by simp)
  · rcases hm c hc with rfl | h
    · decide
    · refine ⟨?_, ?_, ?_⟩ <;> (rintro rfl; exact h (by simp))

theorem opt_plain {o : POpt} {s : Str} (h : o.Written s) : ',' ∉ s ∧ Simple s := by
  by_cases hot : o = .other
  · subst hot
    cases h with
    | other k v _ _ ho => exact other_plain ho
  have key : (∀ c ∈ s, c ∉ special ∨ c = '=' ∨ c = ':') → ',' ∉ s ∧ Simple s := by
    intro hk
    constructor
    · intro hm
      rcases hk _ hm with h | h | h
      · exact h (by decide)
      · exact absurd h (by decide)
      · exact absurd h (by decide)
    · intro c hc
      rcases hk c hc with h | rfl | rfl
      · refine ⟨?_, ?_, ?_⟩ <;> (rintro rfl; exact h (by decide))
      · decide
      · decide
  apply key
  intro c hc
  cases h with
  | wrapAlone k hk => exact .inl (key_special hk wrap_special c hc)
  | wrapTrue k v hk hv =>
    simp only [List.mem_append, List.mem_cons, List.not_mem_nil, or_false] at hc
    rcases hc with hc | rfl | rfl
    · exact .inl (key_special hk wrap_special c hc)
    · exact .inr (.inl rfl)
    · left; rcases hv with rfl | rfl <;> decide
  | wrapFalse k v hk hv =>
    simp only [List.mem_append, List.mem_cons, List.not_mem_nil, or_false] at hc
    rcases hc with hc | rfl | rfl
    · exact .inl (key_special hk wrap_special c hc)
    · exact .inr (.inl rfl)
    · left; rcases hv with rfl | rfl <;> decide
  | indent k v n hk hn =>
    simp only [List.mem_append, List.mem_cons] at hc
    rcases hc with hc | rfl | hc
    · exact .inl (key_special hk indent_special c hc)
    · exact .inr (.inl rfl)
    · exact .inl (numeral_special hn c hc)
  | indents k v w n m hk hn hm =>
    simp only [List.mem_append, List.mem_cons] at hc
    rcases hc with (hc | rfl | hc) | rfl | hc
    · exact .inl (key_special hk indent_special c hc)
    · exact .inr (.inl rfl)
    · exact .inl (numeral_special hn c hc)
    · exact .inr (.inr rfl)
    · exact .inl (numeral_special hm c hc)
  | other => exact absurd rfl hot

theorem parseOptions_cons {o : POpt} {s : Str} (h : o.Written s) (p : PropsSoFar) (ps : List Str) : parseOptions p (s :: ps) = parseOptions (applyOpt p o) ps := by
  have hwi : ¬ ("wrap".toList = "indent".toList) := by decide +kernel
  cases h with
  | wrapAlone k hk =>
    have h1 := splitOn_none (not_mem_of_special (key_special hk wrap_special) (x := '=') (by decide))
    simp only [parseOptions, h1]
    rw [if_pos (show lower s = _ from hk)]; rfl
  | wrapTrue k v hk hv =>
    have h1 := splitOn_mid (not_mem_of_special (key_special hk wrap_special) (x := '=') (by decide)) [v]
    have h2 : splitOn '=' [v] = [[v]] := splitOn_none (by rcases hv with rfl | rfl <;> decide)
    rw [h2] at h1
    have h3 : lower [v] = "t".toList := by rcases hv with rfl | rfl <;> decide
    simp only [parseOptions, h1]
    rw [if_neg (show ¬ lower k = _ by rw [show lower k = _ from hk]; exact hwi), if_pos (show lower k = _ from hk), h3]; rfl
  | wrapFalse k v hk hv =>
    have h1 := splitOn_mid (not_mem_of_special (key_special hk wrap_special) (x := '=') (by decide)) [v]
    have h2 : splitOn '=' [v] = [[v]] := splitOn_none (by rcases hv with rfl | rfl <;> decide)
    rw [h2] at h1
    have h3 : decide (lower [v] = "t".toList) = false := by rcases hv with rfl | rfl <;> decide
    simp only [parseOptions, h1]
    rw [if_neg (show ¬ lower k = _ by rw [show lower k = _ from hk]; exact hwi), if_pos (show lower k = _ from hk), h3]; rfl
  | indent k v n hk hn =>
    have h1 := splitOn_mid (not_mem_of_special (key_special hk indent_special) (x := '=') (by decide)) v
    rw [splitOn_none (not_mem_of_special (numeral_special hn) (x := '=') (by decide))] at h1
    have h2 : parseIndents v = some (n, n) := by
      simp only [parseIndents, splitOn_none (not_mem_of_special (numeral_special hn) (x := ':') (by decide)), List.map_cons, List.map_nil, Exec.pyInt_numeral hn]
    simp only [parseOptions, h1]
    rw [if_pos (show lower k = _ from hk), h2]; rfl
  | indents k v w n m hk hn hm =>
    have h1 := splitOn_mid (not_mem_of_special (key_special hk indent_special) (x := '=') (by decide)) (v ++ ':' :: w)
    have hne : '=' ∉ v ++ ':' :: w := by
      simp only [List.mem_append, List.mem_cons, not_or]
      exact ⟨not_mem_of_special (numeral_special hn) (by decide), by decide, not_mem_of_special (numeral_special hm) (by decide)⟩
    rw [splitOn_none hne] at h1
    have h2 : parseIndents (v ++ ':' :: w) = some (n, m) := by
      simp only [parseIndents, splitOn_mid (not_mem_of_special (numeral_special hn) (x := ':') (by decide)),
        splitOn_none (not_mem_of_special (numeral_special hm) (x := ':') (by decide)), List.map_cons, List.map_nil, Exec.pyInt_numeral hn, Exec.pyInt_numeral hm]
    rw [List.append_assoc, List.cons_append]
    simp only [parseOptions, h1]
    rw [if_pos (show lower k = _ from hk), h2]; rfl
  | other k v h1 h2 ho =>
    have hk : '=' ∉ k := fun hm => ho '=' (by simp [hm]) (by simp)
    have hv : '=' ∉ v := fun hm => ho '=' (by simp [hm]) (by simp)
    have h3 := splitOn_mid hk v
    rw [splitOn_none hv] at h3
    simp only [parseOptions, h3]
    rw [if_neg (show ¬ lower k = _ from h2), if_neg (show ¬ lower k = _ from h1)]; rfl

theorem parseOptions_all {os : List POpt} {s : Str} (h : POpt.AllWritten os s) :
    Simple s ∧ ∀ c : Char, c ≠ ',' → ∃ ps, splitOn ',' (c :: s) = [c] :: ps ∧ ∀ p, parseOptions p ps = some (os.foldl applyOpt p) := by
  induction h with
  | nil => exact ⟨by intro c hc; simp at hc, fun c hc => ⟨[], splitOn_none (by simpa using fun e => hc e.symm), fun _ => rfl⟩⟩
  | cons o os s ss ho hs ih =>
    obtain ⟨h1, h2⟩ := opt_plain ho
    obtain ⟨h3, h4⟩ := ih
    refine ⟨?_, ?_⟩
    · intro c hc
      simp only [List.mem_append, List.mem_cons] at hc
      rcases hc with (rfl | hc) | hc
      · decide
      · exact h2 c hc
      · exact h3 c hc
    · intro c hc
      obtain ⟨ps, e, hp⟩ := h4 'x' (by decide)
      have e2 : splitOn ',' ss = [] :: ps := by
        rcases he : splitOn ',' ss with _ | ⟨w, ws⟩
        · exact absurd he (splitOn_ne _ _)
        · rw [splitOn_cons (by decide) he] at e
          simp only [List.cons.injEq] at e
          rw [e.1.2, e.2]
      have e3 : splitOn ',' (s ++ ss) = s :: ps := by
        have := splitOn_append ',' ss [] ps e2 s s [] (splitOn_none h1)
        simpa using this
      refine ⟨s :: ps, ?_, ?_⟩
      · have := splitOn_mid (sep := ',') (s := [c]) (by simpa using fun e => hc e.symm) (s ++ ss)
        rw [e3] at this
        exact this
      · intro p
        rw [parseOptions_cons ho, hp]; rfl

theorem foldl_opts (os : List POpt) (p : PropsSoFar) :
    (os.foldl applyOpt p).indents = (os.reverse.findSome? POpt.indents).or p.indents ∧ (os.foldl applyOpt p).wrap = (os.reverse.findSome? POpt.wraps).or p.wrap := by
  induction os generalizing p with
  | nil => simp
  | cons o os ih =>
    simp only [List.foldl_cons, List.reverse_cons, List.findSome?_append]
    rw [(ih _).1, (ih _).2]
    cases o <;> simp [applyOpt, POpt.indents, POpt.wraps]

theorem props_written {p : Props} {spec : Str} (h : p.Written spec) :
    Simple spec ∧ (∃ c s, spec = c :: s ∧ c ∈ ['p', 'P', 'l', 'L']) ∧ parseParagraph ('{' :: (spec ++ ['}'])) = .ok p := by
  have key : ∀ (c : Char) (os : List POpt) (s : Str) (l : Bool), c ∈ ['p', 'P', 'l', 'L'] → [c].map Char.toLower = (if l then ['l'] else ['p']) → POpt.AllWritten os s →
      Simple (c :: s) ∧ (∃ c' s', c :: s = c' :: s' ∧ c' ∈ ['p', 'P', 'l', 'L']) ∧ parseParagraph ('{' :: (c :: s ++ ['}'])) = .ok (propsOf l os) := by
    intro c os s l hc hl ho
    have hcs : c ≠ ',' ∧ c ≠ '{' ∧ c ≠ '}' ∧ c ≠ '\\' := by
      simp only [List.mem_cons, List.not_mem_nil, or_false] at hc
      rcases hc with rfl | rfl | rfl | rfl <;> decide
    obtain ⟨h1, h2⟩ := parseOptions_all ho
    obtain ⟨ps, e, hp⟩ := h2 c hcs.1
    refine ⟨?_, ⟨c, s, rfl, hc⟩, ?_⟩
    · intro x hx
      rcases List.mem_cons.1 hx with rfl | hx
      · exact hcs.2
      · exact h1 x hx
    · unfold parseParagraph
      rw [if_neg (by simp [List.getLast?_cons])]
      have e2 : (('{' :: (c :: s ++ ['}'])).drop 1).dropLast = c :: s := by
        simp only [List.drop_succ_cons, List.drop_zero]; rw [List.dropLast_concat]
      have hfo := foldl_opts os {}
      rw [e2, e]
      simp only [List.length_singleton, Nat.lt_irrefl, gt_iff_lt, if_false, hp]
      rw [if_neg (by rw [show lower [c] = _ from hl]; cases l <;> simp)]
      rw [hfo.1, hfo.2, show lower [c] = _ from hl]
      cases l <;> simp [propsOf]
  cases h with
  | p c os s hc ho => exact key c os s false (by rcases hc with rfl | rfl <;> decide) (by rcases hc with rfl | rfl <;> decide) ho
  | l c os s hc ho => exact key c os s true (by rcases hc with rfl | rfl <;> decide) (by rcases hc with rfl | rfl <;> decide) ho

end Marcel.Help
