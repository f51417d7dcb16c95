import Verif.Spec.Exprs

/-! # C32: where parenthesized expressions end -/

namespace Marcel

theorem isQuote_iff (c : Char) : isQuote c = true ↔ c = '\'' ∨ c = '"' := by simp [isQuote]

theorem isQuote_backslash {q : Char} (hq : q = '\'' ∨ q = '"') : q ≠ '\\' := by
  rcases hq with rfl | rfl <;> decide

theorem pyStrScan_nil (q : Char) (t : Bool) : pyStrScan q t [] = .error .notPythonString := by
  rw [pyStrScan.eq_def]

theorem pyStrScan_cons (q : Char) (t : Bool) (c : Char) (cs : Str) :
    pyStrScan q t (c :: cs) =
      if isQuote c then
        if c = q then
          if t then (if cs.take 2 = [q, q] then .ok (cs.drop 2) else pyStrScan q t cs) else .ok cs
        else pyStrScan q t cs
      else if c = '\\' then
        match cs with
        | [] => .error .typeError
        | _ :: cs' => pyStrScan q t cs'
      else pyStrScan q t cs := by
  conv => lhs; rw [pyStrScan.eq_def]
  rfl

theorem pyStrScan_pair (q : Char) (t : Bool) (c : Char) (cs : Str) :
    pyStrScan q t ('\\' :: c :: cs) = pyStrScan q t cs := by
  rw [pyStrScan_cons, if_neg (by decide), if_pos rfl]

theorem pyStrScan_other (q : Char) (t : Bool) (c : Char) (cs : Str) (h1 : c ≠ q) (h2 : c ≠ '\\') :
    pyStrScan q t (c :: cs) = pyStrScan q t cs := by
  rw [pyStrScan_cons]
  simp [h1, h2]

theorem pyStrScan_single (q : Char) (hq : q = '\'' ∨ q = '"') (ds : List DItem)
    (h : ∀ c, DItem.chr c ∈ ds → c ≠ q ∧ c ≠ '\\') (rest : Str) :
    pyStrScan q false (ds.flatMap DItem.raw ++ q :: rest) = .ok rest := by
  induction ds with
  | nil =>
    rw [List.flatMap_nil, List.nil_append, pyStrScan_cons, if_pos ((isQuote_iff q).2 hq), if_pos rfl]
    simp
  | cons d ds ih =>
    have ih := ih (fun c hc => h c (by simp [hc]))
    rw [List.flatMap_cons, List.append_assoc]
    cases d with
    | chr c =>
      have := h c (by simp)
      show pyStrScan q false (c :: (ds.flatMap DItem.raw ++ q :: rest)) = _
      rw [pyStrScan_other _ _ _ _ this.1 this.2, ih]
    | pair c =>
      show pyStrScan q false ('\\' :: c :: (ds.flatMap DItem.raw ++ q :: rest)) = _
      rw [pyStrScan_pair, ih]

theorem take2_prefix (q : Char) (cs : Str) : cs.take 2 = [q, q] ↔ [q, q] <+: cs := by
  constructor
  · intro h; exact ⟨cs.drop 2, by rw [← h]; simp⟩
  · rintro ⟨t, rfl⟩; simp

theorem prefix_append_iff {q : Char} {x rest : Str} (hx : 2 ≤ x.length) :
    [q, q] <+: x ++ rest ↔ [q, q] <+: x := by
  constructor
  · rintro h
    exact List.prefix_of_prefix_length_le h (List.prefix_append x rest) (by simpa using hx)
  · intro h; exact h.trans (List.prefix_append x rest)

theorem pyStrScan_triple (q : Char) (hq : q = '\'' ∨ q = '"') (ds : List DItem)
    (h : ∀ c, DItem.chr c ∈ ds → c ≠ '\\')
    (h3 : ∀ a b, ds = a ++ b → b ≠ [] → ¬ [q, q, q] <+: b.flatMap DItem.raw ++ [q, q, q]) (rest : Str) :
    pyStrScan q true (ds.flatMap DItem.raw ++ [q, q, q] ++ rest) = .ok rest := by
  induction ds with
  | nil =>
    show pyStrScan q true (q :: q :: q :: rest) = .ok rest
    rw [pyStrScan_cons, if_pos ((isQuote_iff q).2 hq), if_pos rfl]
    simp
  | cons d ds ih =>
    have ih := ih (fun c hc => h c (by simp [hc])) (fun a b e hb => h3 (d :: a) b (by simp [e]) hb)
    cases d with
    | chr c =>
      have hc := h c (by simp)
      by_cases hcq : c = q
      · subst hcq
        have := h3 [] (.chr c :: ds) rfl (by simp)
        show pyStrScan c true (c :: (ds.flatMap DItem.raw ++ [c, c, c] ++ rest)) = _
        rw [pyStrScan_cons, if_pos ((isQuote_iff c).2 hq), if_pos rfl, if_pos rfl, if_neg, ih]
        intro e
        rw [take2_prefix, prefix_append_iff (by simp)] at e
        apply this
        show c :: [c, c] <+: c :: (ds.flatMap DItem.raw ++ [c, c, c])
        rw [List.cons_prefix_cons]
        exact ⟨rfl, e⟩
      · show pyStrScan q true (c :: (ds.flatMap DItem.raw ++ [q, q, q] ++ rest)) = _
        rw [pyStrScan_other _ _ _ _ hcq hc, ih]
    | pair c =>
      show pyStrScan q true ('\\' :: c :: (ds.flatMap DItem.raw ++ [q, q, q] ++ rest)) = _
      rw [pyStrScan_pair, ih]

/-- A literal not merging with what follows is recognized, and ends where it ends. -/
theorem pyString_lit (l : Str) (hl : PyLit l) (rest : Str) (hm : ∀ q, l = [q, q] → rest.head? ≠ some q) :
    ∃ q cs, l = q :: cs ∧ isQuote q = true ∧ pyString q (cs ++ rest) = .ok rest := by
  cases hl with
  | single q ds hq h =>
    refine ⟨q, ds.flatMap DItem.raw ++ [q], rfl, (isQuote_iff q).2 hq, ?_⟩
    unfold pyString
    rw [if_neg, List.append_assoc]
    · exact pyStrScan_single q hq ds h rest
    · intro e
      cases ds with
      | nil =>
        cases rest with
        | nil => simp at e
        | cons r rs =>
          simp at e
          exact hm q rfl (by simp [e])
      | cons d ds =>
        cases d with
        | chr c => simp [DItem.raw] at e; exact (h c (by simp)).1 e.1
        | pair c => simp [DItem.raw] at e; exact isQuote_backslash hq e.1.symm
  | triple q ds hq h h3 =>
    refine ⟨q, _, rfl, (isQuote_iff q).2 hq, ?_⟩
    unfold pyString
    rw [if_pos (by simp)]
    simpa using pyStrScan_triple q hq ds h h3 rest

theorem exprScan_zero (text : Str) : exprScan 0 text = .ok text := by rw [exprScan.eq_def]; simp

theorem exprScan_nil (n : Nat) : exprScan n [] = .ok [] := by
  rw [exprScan.eq_def]; split <;> rfl

theorem exprScan_open (n : Nat) (cs : Str) (hn : n ≠ 0) : exprScan n ('(' :: cs) = exprScan (n + 1) cs := by
  rw [exprScan, if_neg hn, if_pos rfl]

theorem exprScan_close (n : Nat) (cs : Str) : exprScan (n + 1) (')' :: cs) = exprScan n cs := by
  rw [exprScan, if_neg (by omega), if_neg (by decide), if_pos rfl]; rfl

theorem exprScan_quote_ok (n : Nat) (hn : n ≠ 0) (q : Char) (cs rest : Str) (hq : isQuote q = true)
    (h : pyString q cs = .ok rest) : exprScan n (q :: cs) = exprScan n rest := by
  have hq' := (isQuote_iff q).1 hq
  rw [exprScan, if_neg hn, if_neg (by rcases hq' with rfl | rfl <;> decide),
    if_neg (by rcases hq' with rfl | rfl <;> decide), if_pos hq]
  split
  · simp_all
  · simp_all

theorem exprScan_quote_error (n : Nat) (hn : n ≠ 0) (q : Char) (cs : Str) (e : LexErr) (hq : isQuote q = true)
    (h : pyString q cs = .error e) : exprScan n (q :: cs) = .error e := by
  have hq' := (isQuote_iff q).1 hq
  rw [exprScan, if_neg hn, if_neg (by rcases hq' with rfl | rfl <;> decide),
    if_neg (by rcases hq' with rfl | rfl <;> decide), if_pos hq]
  split
  · simp_all
  · simp_all

theorem exprScan_chr (n : Nat) (hn : n ≠ 0) (c : Char) (cs : Str) (h1 : c ≠ '(') (h2 : c ≠ ')') (h3 : c ≠ '\'')
    (h4 : c ≠ '"') : exprScan n (c :: cs) = exprScan n cs := by
  rw [exprScan, if_neg hn, if_neg h1, if_neg h2, if_neg (by simp [isQuote, h3, h4])]

/-- Balanced text is skipped. -/
theorem exprScan_balanced (s : Str) (hs : Balanced s) (n : Nat) (hn : n ≠ 0) (rest : Str)
    (hr : ∀ q, isQuote q = true → rest.head? ≠ some q) : exprScan n (s ++ rest) = exprScan n rest := by
  induction hs generalizing n rest with
  | nil => rfl
  | chr c s h1 h2 h3 h4 _ ih =>
    rw [List.cons_append, exprScan_chr n hn c _ h1 h2 h3 h4, ih n hn rest hr]
  | group a b _ _ iha ihb =>
    rw [List.cons_append, List.cons_append, exprScan_open n _ hn, List.append_assoc,
      iha (n + 1) (by omega) _ (by intro q hq h; simp at h; subst h; simp [isQuote] at hq),
      List.cons_append, exprScan_close, ihb n hn rest hr]
  | lit l s hl _ hm ih =>
    have hm' : ∀ q, l = [q, q] → (s ++ rest).head? ≠ some q := by
      intro q e
      cases s with
      | nil =>
        apply hr
        obtain ⟨q', cs, h1, h2, _⟩ := pyString_lit l hl [] (by simp)
        rw [e] at h1; simp at h1; rw [h1.1]; exact h2
      | cons c cs => simpa using hm q e
    obtain ⟨q, cs, h1, h2, h3⟩ := pyString_lit l hl (s ++ rest) hm'
    rw [h1, List.append_assoc, List.cons_append, exprScan_quote_ok n hn q _ _ h2 h3, ih n hn rest hr]

/-- **C32**: an expression `(s)` whose text `s` is balanced — parentheses inside Python string literals not counting —
is one token, with source `s`, whatever follows it. -/
theorem C32_matching (s rest : Str) (hs : Balanced s) : exprToken (s ++ ')' :: rest) = .ok (s, rest) := by
  have h : exprScan 1 (s ++ ')' :: rest) = .ok rest := by
    rw [exprScan_balanced s hs 1 (by decide) _ (by intro q hq h; simp at h; subst h; simp [isQuote] at hq),
      exprScan_close, exprScan_zero]
  unfold exprToken
  rw [h]
  have e : (s ++ ')' :: rest).length + 1 - rest.length = ('(' :: s ++ [')']).length := by
    simp; omega
  have e2 : '(' :: (s ++ ')' :: rest) = ('(' :: s ++ [')']) ++ rest := by simp
  simp only [e, e2, List.take_left', List.getLast?_concat, if_true]
  simp

/-! ## Every text either has a matching parenthesis or the scan runs to the end or fails -/

/-- What `pyStrScan` accepts is the rest of a literal. -/
theorem pyStrScan_single_inv (q : Char) (hq : q = '\'' ∨ q = '"') (n : Nat) (cs rest : Str) (hn : cs.length ≤ n)
    (h : pyStrScan q false cs = .ok rest) :
    ∃ ds : List DItem, (∀ c, DItem.chr c ∈ ds → c ≠ q ∧ c ≠ '\\') ∧ cs = ds.flatMap DItem.raw ++ q :: rest := by
  induction n generalizing cs with
  | zero =>
    have : cs = [] := List.length_eq_zero_iff.1 (by omega)
    subst this
    simp [pyStrScan_nil] at h
  | succ n ih =>
    cases cs with
    | nil => simp [pyStrScan_nil] at h
    | cons c cs =>
      by_cases h1 : c = q
      · subst h1
        rw [pyStrScan_cons, if_pos ((isQuote_iff c).2 hq), if_pos rfl] at h
        simp at h
        exact ⟨[], by simp, by simp [h]⟩
      · by_cases h2 : c = '\\'
        · subst h2
          cases cs with
          | nil => rw [pyStrScan_cons] at h; simp [isQuote] at h
          | cons d cs =>
            rw [pyStrScan_pair] at h
            obtain ⟨ds, h3, h4⟩ := ih cs (by simp at hn; omega) h
            exact ⟨.pair d :: ds, by simpa using h3, by simp [DItem.raw, h4]⟩
        · rw [pyStrScan_other _ _ _ _ h1 h2] at h
          obtain ⟨ds, h3, h4⟩ := ih cs (by simp at hn; omega) h
          refine ⟨.chr c :: ds, ?_, by simp [DItem.raw, h4]⟩
          intro x hx
          simp only [List.mem_cons, DItem.chr.injEq] at hx
          rcases hx with rfl | hx
          · exact ⟨h1, h2⟩
          · exact h3 x hx

theorem pyStrScan_triple_inv (q : Char) (hq : q = '\'' ∨ q = '"') (n : Nat) (cs rest : Str) (hn : cs.length ≤ n)
    (h : pyStrScan q true cs = .ok rest) :
    ∃ ds : List DItem, (∀ c, DItem.chr c ∈ ds → c ≠ '\\') ∧
      (∀ a b, ds = a ++ b → b ≠ [] → ¬ [q, q, q] <+: b.flatMap DItem.raw ++ [q, q, q]) ∧
      cs = ds.flatMap DItem.raw ++ [q, q, q] ++ rest := by
  induction n generalizing cs with
  | zero =>
    have : cs = [] := List.length_eq_zero_iff.1 (by omega)
    subst this
    simp [pyStrScan_nil] at h
  | succ n ih =>
    cases cs with
    | nil => simp [pyStrScan_nil] at h
    | cons c cs =>
      have step : ∀ (d : DItem) (cs' : Str), d.raw ++ cs' = c :: cs → cs'.length ≤ n →
          (∀ c, d = .chr c → c ≠ '\\') → ¬ [q, q, q] <+: c :: cs → pyStrScan q true cs' = .ok rest →
          ∃ ds : List DItem, (∀ c, DItem.chr c ∈ ds → c ≠ '\\') ∧
            (∀ a b, ds = a ++ b → b ≠ [] → ¬ [q, q, q] <+: b.flatMap DItem.raw ++ [q, q, q]) ∧
            c :: cs = ds.flatMap DItem.raw ++ [q, q, q] ++ rest := by
        intro d cs' e hl hd hnp h
        obtain ⟨ds, h3, h4, h5⟩ := ih cs' hl h
        refine ⟨d :: ds, ?_, ?_, by rw [← e, h5]; simp⟩
        · intro x hx
          simp only [List.mem_cons] at hx
          rcases hx with hx | hx
          · exact hd x hx.symm
          · exact h3 x hx
        · intro a b e' hb hp
          cases a with
          | cons x a =>
            simp only [List.cons_append, List.cons.injEq] at e'
            exact h4 a b e'.2 hb hp
          | nil =>
            simp only [List.nil_append] at e'
            subst e'
            apply hnp
            rw [← e, h5]
            refine hp.trans ⟨rest, ?_⟩
            simp
      by_cases h1 : c = q
      · subst h1
        rw [pyStrScan_cons, if_pos ((isQuote_iff c).2 hq), if_pos rfl, if_pos rfl] at h
        split at h
        · rename_i h2
          simp at h
          subst h
          refine ⟨[], by simp, ?_, ?_⟩
          · intro a b e hb
            simp at e
            exact absurd e.2 hb
          · have := List.take_append_drop 2 cs
            rw [h2] at this
            simpa using this.symm
        · rename_i h2
          refine step (.chr c) cs rfl (by simp at hn; omega) ?_ ?_ h
          · intro x hx; simp at hx; subst hx; exact isQuote_backslash hq
          · rw [List.cons_prefix_cons]
            rintro ⟨_, h3⟩
            exact h2 ((take2_prefix c cs).2 h3)
      · have hnp : ¬ [q, q, q] <+: c :: cs := by
          rw [List.cons_prefix_cons]; intro h3; exact h1 h3.1.symm
        by_cases h2 : c = '\\'
        · subst h2
          cases cs with
          | nil => rw [pyStrScan_cons] at h; simp [isQuote] at h
          | cons d cs =>
            rw [pyStrScan_pair] at h
            exact step (.pair d) cs rfl (by simp at hn; omega) (by simp) hnp h
        · rw [pyStrScan_other _ _ _ _ h1 h2] at h
          exact step (.chr c) cs rfl (by simp at hn; omega) (by intro x hx; simp at hx; subst hx; exact h2) hnp h

theorem pyString_inv (q : Char) (hq : isQuote q = true) (cs rest : Str) (h : pyString q cs = .ok rest) :
    ∃ l, PyLit l ∧ q :: cs = l ++ rest ∧ ∀ q', l = [q', q'] → rest.head? ≠ some q' := by
  have hq' := (isQuote_iff q).1 hq
  unfold pyString at h
  split at h
  · rename_i h2
    obtain ⟨ds, h3, h4, h5⟩ := pyStrScan_triple_inv q hq' _ _ rest (Nat.le_refl _) h
    refine ⟨_, .triple q ds hq' h3 h4, ?_, ?_⟩
    · have := List.take_append_drop 2 cs
      rw [h2, h5] at this
      simpa using this.symm
    · intro q' e
      simp at e
  · rename_i h2
    obtain ⟨ds, h3, h4⟩ := pyStrScan_single_inv q hq' _ _ rest (Nat.le_refl _) h
    refine ⟨_, .single q ds hq' h3, by simp [h4], ?_⟩
    intro q' e hr
    cases ds with
    | cons d ds =>
      have := congrArg List.length e
      cases d <;> simp [DItem.raw] at this
    | nil =>
      simp at e
      subst e
      cases rest with
      | nil => simp at hr
      | cons r rs => simp at hr; subst hr; simp [h4] at h2

theorem pyString_error (q : Char) (cs : Str) (e : LexErr) (h : pyString q cs = .error e) :
    e = .notPythonString ∨ e = .typeError := by
  have : ∀ t cs, pyStrScan q t cs = .error e → e = .notPythonString ∨ e = .typeError := by
    intro t cs h
    fun_induction pyStrScan q t cs
    all_goals first
      | (simp at h; done)
      | (simp at h; simp [h]; done)
      | (rename_i ih; exact ih h)
  unfold pyString at h
  split at h <;> exact this _ _ h

/-- Either there is a matching parenthesis, or scanning at any depth reaches the end of the text or fails in an
unterminated string literal. -/
theorem matching_or_not (m : Nat) (cs : Str) (hm : cs.length ≤ m) :
    (∃ s rest, Balanced s ∧ cs = s ++ ')' :: rest) ∨
    (∀ n, n ≠ 0 → exprScan n cs = .ok [] ∨ exprScan n cs = .error .notPythonString ∨
      exprScan n cs = .error .typeError) := by
  induction m generalizing cs with
  | zero =>
    have : cs = [] := List.length_eq_zero_iff.1 (by omega)
    subst this
    right; intro n _; left; exact exprScan_nil n
  | succ m ih =>
    cases cs with
    | nil => right; intro n _; left; exact exprScan_nil n
    | cons c cs =>
      replace hm : cs.length ≤ m := by simp at hm; omega
      by_cases h1 : c = '('
      · subst h1
        rcases ih cs hm with ⟨s, rest, h3, h4⟩ | h3
        · rcases ih rest (by rw [h4] at hm; simp at hm; omega) with ⟨s', rest', h5, h6⟩ | h5
          · left; exact ⟨_, rest', .group s s' h3 h5, by simp [h4, h6]⟩
          · right
            intro n hn
            have : exprScan n ('(' :: cs) = exprScan n rest := by
              rw [exprScan_open n _ hn, h4, exprScan_balanced s h3 (n + 1) (by omega) _
                (by intro q hq h; simp at h; subst h; simp [isQuote] at hq), exprScan_close]
            rw [this]; exact h5 n hn
        · right
          intro n hn
          rw [exprScan_open n _ hn]
          exact h3 (n + 1) (by omega)
      · by_cases h2 : c = ')'
        · subst h2; left; exact ⟨[], cs, .nil, rfl⟩
        · by_cases hq : isQuote c = true
          · cases hp : pyString c cs with
            | error e =>
              right
              intro n hn
              rw [exprScan_quote_error n hn c cs e hq hp]
              rcases pyString_error c cs e hp with rfl | rfl <;> simp
            | ok rest =>
              obtain ⟨l, h3, h4, h5⟩ := pyString_inv c hq cs rest hp
              rcases ih rest (by have := pyString_length hp; omega) with ⟨s, rest', h6, h7⟩ | h6
              · left
                refine ⟨_, rest', .lit l s h3 h6 ?_, by rw [h4, h7]; simp⟩
                intro q e
                have := h5 q e
                cases s with
                | nil => simp
                | cons d ds => simpa [h7] using this
              · right
                intro n hn
                rw [exprScan_quote_ok n hn c cs rest hq hp]
                exact h6 n hn
          · have h3 : c ≠ '\'' := fun e => hq (by subst e; decide)
            have h4 : c ≠ '"' := fun e => hq (by subst e; decide)
            rcases ih cs hm with ⟨s, rest, h5, h6⟩ | h5
            · left; exact ⟨c :: s, rest, .chr c s h1 h2 h3 h4 h5, by simp [h6]⟩
            · right; intro n hn; rw [exprScan_chr n hn c cs h1 h2 h3 h4]; exact h5 n hn

/-- **C32**, the converse, as far as it goes: a text after `(` in which there is no matching `)` is refused —
*provided its last character is not `)`*. What is missing: `C32_unmatched_false`. -/
theorem C32_unmatched_partial (cs : Str) (h : ¬ ∃ s rest, Balanced s ∧ cs = s ++ ')' :: rest)
    (hl : cs.getLast? ≠ some ')') : ∃ e, exprToken cs = .error e := by
  rcases matching_or_not cs.length cs (Nat.le_refl _) with h1 | h1
  · exact absurd h1 h
  · unfold exprToken
    rcases h1 1 (by decide) with h2 | h2 | h2 <;> rw [h2]
    · have e : ('(' :: cs).take (cs.length + 1 - ([] : Str).length) = '(' :: cs := by
        simp
      simp only [e]
      rw [if_neg]
      · exact ⟨_, rfl⟩
      · cases cs with
        | nil => simp
        | cons d ds => rw [List.getLast?_cons_cons]; exact hl
    · exact ⟨_, rfl⟩
    · exact ⟨_, rfl⟩

/-- **C32**: an expression token that was accepted and didn't use up all of the text ends at the matching
parenthesis. -/
theorem C32_accepted (cs src rest : Str) (h : exprToken cs = .ok (src, rest)) (hr : rest ≠ []) :
    Balanced src ∧ cs = src ++ ')' :: rest := by
  rcases matching_or_not cs.length cs (Nat.le_refl _) with ⟨s, r, h1, h2⟩ | h1
  · have := C32_matching s r h1
    rw [← h2, h] at this
    simp at this
    rw [this.1, this.2]
    exact ⟨h1, h2⟩
  · unfold exprToken at h
    rcases h1 1 (by decide) with h2 | h2 | h2 <;> rw [h2] at h
    · simp only at h
      split at h
      · simp at h; exact absurd h.2 hr
      · simp at h
    · simp at h
    · simp at h

/-- **C32** is false of the code: `((a)` has an unmatched parenthesis, and is accepted as an expression (with source
`(a`), because only the last character consumed is looked at. -/
theorem C32_unmatched_false :
    (¬ ∃ s rest, Balanced s ∧ "(a)".toList = s ++ ')' :: rest) ∧
    exprToken "(a)".toList = .ok ("(a".toList, []) := by
  have h : exprScan 1 "(a)".toList = .ok [] := by
    show exprScan 1 ['(', 'a', ')'] = _
    rw [exprScan_open 1 _ (by decide), exprScan_chr 2 (by decide) 'a' _ (by decide) (by decide) (by decide) (by decide),
      exprScan_close 1, exprScan_nil]
  refine ⟨?_, ?_⟩
  · rintro ⟨s, rest, h1, h2⟩
    have h3 : exprScan 1 "(a)".toList = .ok rest := by
      rw [h2, exprScan_balanced s h1 1 (by decide) _ (by intro q hq h; simp at h; subst h; simp [isQuote] at hq),
        exprScan_close, exprScan_zero]
    rw [h] at h3
    simp at h3
    subst h3
    -- s = "(a", which is not balanced
    have : s = ['(', 'a'] := by
      have e : ['(', 'a'] ++ [')'] = s ++ [')'] := h2
      exact (List.append_cancel_right e).symm
    subst this
    have h4 : exprScan 2 (['(', 'a'] ++ [')', ')']) = .ok [] := by
      rw [exprScan_balanced _ h1 2 (by decide) _ (by intro q hq h; simp at h; subst h; simp [isQuote] at hq),
        exprScan_close 1, exprScan_close 0, exprScan_zero]
    have h5 : exprScan 1 (['(', 'a'] ++ [')', ')']) = .ok [')'] := by
      rw [exprScan_balanced _ h1 1 (by decide) _ (by intro q hq h; simp at h; subst h; simp [isQuote] at hq),
        exprScan_close 0, exprScan_zero]
    have h6 : exprScan 1 (['(', 'a'] ++ [')', ')']) = .ok [] := by
      show exprScan 1 ('(' :: 'a' :: [')', ')']) = _
      rw [exprScan_open 1 _ (by decide),
        exprScan_chr 2 (by decide) 'a' _ (by decide) (by decide) (by decide) (by decide),
        exprScan_close 1, exprScan_close 0, exprScan_zero]
    rw [h5] at h6
    simp at h6
  · unfold exprToken
    rw [h]
    rfl

/-- Non-vacuity: `f(')', "\"(")` is balanced. -/
example : Balanced ("f(".toList ++ "')', \"\\\"(\")".toList) := by
  have l1 : PyLit "')'".toList := .single '\'' [.chr ')'] (by decide) (by simp)
  have l2 : PyLit "\"\\\"(\"".toList := .single '"' [.pair '"', .chr '('] (by decide) (by simp)
  refine .chr 'f' _ (by decide) (by decide) (by decide) (by decide) ?_
  refine .group ("')', \"\\\"(\"".toList) [] ?_ .nil
  refine .lit "')'".toList (", \"\\\"(\"".toList) l1 ?_ (by intro q h; simp at h)
  refine .chr ',' _ (by decide) (by decide) (by decide) (by decide) ?_
  refine .chr ' ' _ (by decide) (by decide) (by decide) (by decide) ?_
  exact .lit "\"\\\"(\"".toList [] l2 .nil (by intro q h; simp at h)

end Marcel
