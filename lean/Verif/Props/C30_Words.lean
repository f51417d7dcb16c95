import Verif.Spec.Words

/-! # C31 (where words end), C30 (quoting and escaping) -/

namespace Marcel

/-! ## Characters -/

theorem isspace_squote : isspace '\'' = false := by unfold isspace; decide
theorem isspace_dquote : isspace '"' = false := by unfold isspace; decide
theorem isspace_backslash : isspace '\\' = false := by unfold isspace; decide
theorem isspace_space : isspace ' ' = true := by unfold isspace; decide

/-- The terminating characters are neither quotes nor the escape character. -/
structure TermOK (term : Char → Bool) : Prop where
  sq : term '\'' = false
  dq : term '"' = false
  bs : term '\\' = false

theorem termOf_ok (shell : Bool) : TermOK (termOf shell) := by
  cases shell <;> constructor <;> decide

theorem termOf_eq_wordEnd (shell : Bool) (c : Char) : termOf shell c = wordEnd shell c := by
  cases shell <;> simp [termOf, wordEnd, marcelTerm, shellTerm] <;> rw [Bool.eq_iff_iff] <;> simp <;> grind

variable {term : Char → Bool}

theorem addChars_addChars (a b : Str) (r : Except LexErr (Str × Str)) :
    addChars a (addChars b r) = addChars (a ++ b) r := by
  cases r <;> simp [addChars, Except.map]

theorem addChars_nil (r : Except LexErr (Str × Str)) : addChars [] r = r := by
  cases r <;> simp [addChars, Except.map]

theorem addChars_ok (a b c : Str) : addChars a (.ok (b, c)) = .ok (a ++ b, c) := rfl

theorem addChars_error (a : Str) (e : LexErr) : addChars a (.error e) = .error e := rfl

theorem strScan_nil (q : Quote) : strScan term q [] = .ok ([], []) := by rw [strScan.eq_def]

theorem strScan_cons (q : Quote) (c : Char) (cs : Str) :
    strScan term q (c :: cs) =
      (if isspace c || term c then
        if q = .none then .ok ([], c :: cs) else addChars [c] (strScan term q cs)
      else if isQuote c then addChars [c] (strScan term (q.toggle c) cs)
      else if c == '\\' then
        if q = .single then addChars [c] (strScan term q cs)
        else
          match cs with
          | [] => if q = .none then .ok ([c], []) else .error .typeError
          | d :: cs' => addChars (if q = .double && d == '\\' then [d] else [c, d]) (strScan term q cs')
      else addChars [c] (strScan term q cs)) := by
  conv => lhs; rw [strScan.eq_def]
  rfl

theorem strScan_boundary {rest : Str} (h : Boundary term rest) : strScan term .none rest = .ok ([], rest) := by
  cases rest with
  | nil => exact strScan_nil _
  | cons c cs =>
    rw [strScan_cons, if_pos (by simpa using h c cs rfl)]
    rfl

theorem strScan_squote (ok : TermOK term) (q : Quote) (cs : Str) :
    strScan term q ('\'' :: cs) = addChars ['\''] (strScan term (q.toggle '\'') cs) := by
  rw [strScan_cons, if_neg (by simp [isspace_squote, ok.sq]), if_pos (by decide)]

theorem strScan_dquote (ok : TermOK term) (q : Quote) (cs : Str) :
    strScan term q ('"' :: cs) = addChars ['"'] (strScan term (q.toggle '"') cs) := by
  rw [strScan_cons, if_neg (by simp [isspace_dquote, ok.dq]), if_pos (by decide)]

theorem strScan_single (ok : TermOK term) (c : Char) (hc : c ≠ '\'') (cs : Str) :
    strScan term .single (c :: cs) = addChars [c] (strScan term .single cs) := by
  rw [strScan_cons]
  split
  · rfl
  · split
    · rename_i h
      simp [Quote.toggle, hc]
    · split <;> rfl

theorem strScan_double (ok : TermOK term) (c : Char) (hc : c ≠ '"') (hb : c ≠ '\\') (cs : Str) :
    strScan term .double (c :: cs) = addChars [c] (strScan term .double cs) := by
  rw [strScan_cons]
  split
  · rfl
  · split
    · simp [Quote.toggle, hc]
    · simp [hb]

theorem strScan_pair (ok : TermOK term) (c : Char) (cs : Str) :
    strScan term .double ('\\' :: c :: cs) = addChars (DItem.pair c).kept (strScan term .double cs) := by
  rw [strScan_cons, if_neg (by simp [isspace_backslash, ok.bs]), if_neg (by decide), if_pos (by decide),
    if_neg (by decide)]
  by_cases h : c = '\\' <;> simp [DItem.kept, h]

theorem strScan_escaped (ok : TermOK term) (c : Char) (cs : Str) :
    strScan term .none ('\\' :: c :: cs) = addChars ['\\', c] (strScan term .none cs) := by
  rw [strScan_cons, if_neg (by simp [isspace_backslash, ok.bs]), if_neg (by decide), if_pos (by decide),
    if_neg (by decide)]
  simp

theorem strScan_plain (c : Char) (h : (Piece.plain c).WF term) (cs : Str) :
    strScan term .none (c :: cs) = addChars [c] (strScan term .none cs) := by
  obtain ⟨h1, h2, h3, h4, h5⟩ := h
  rw [strScan_cons, if_neg (by simp [h1, h2]), if_neg (by simp [isQuote, h3, h4]), if_neg (by simp [h5])]

theorem strScan_single_append (ok : TermOK term) (s : Str) (hs : '\'' ∉ s) (cs : Str) :
    strScan term .single (s ++ cs) = addChars s (strScan term .single cs) := by
  induction s with
  | nil => simp [addChars_nil]
  | cons c s ih =>
    simp only [List.mem_cons, not_or] at hs
    rw [List.cons_append, strScan_single ok c (Ne.symm hs.1), ih hs.2, addChars_addChars]
    rfl

theorem strScan_double_append (ok : TermOK term) (ds : List DItem) (hs : ∀ d ∈ ds, d.WF) (cs : Str) :
    strScan term .double (ds.flatMap DItem.raw ++ cs) =
      addChars (ds.flatMap DItem.kept) (strScan term .double cs) := by
  induction ds with
  | nil => simp [addChars_nil]
  | cons d ds ih =>
    have ih := ih (fun d hd => hs d (by simp [hd]))
    have hd := hs d (by simp)
    rw [List.flatMap_cons, List.flatMap_cons, ← addChars_addChars, ← ih]
    cases d with
    | chr c =>
      exact strScan_double ok c hd.1 hd.2 _
    | pair c => exact strScan_pair ok c _

theorem strScan_piece (ok : TermOK term) (p : Piece) (hp : p.WF term) (cs : Str) :
    strScan term .none (p.raw ++ cs) = addChars p.kept (strScan term .none cs) := by
  cases p with
  | plain c => exact strScan_plain c hp cs
  | escaped c => exact strScan_escaped ok c cs
  | single s =>
    show strScan term .none ('\'' :: ((s ++ ['\'']) ++ cs)) = _
    rw [strScan_squote ok, show Quote.none.toggle '\'' = .single from rfl, List.append_assoc,
      strScan_single_append ok s hp, List.singleton_append, strScan_squote ok,
      show Quote.single.toggle '\'' = .none from rfl, addChars_addChars, addChars_addChars]
    rfl
  | double ds =>
    show strScan term .none ('"' :: ((ds.flatMap DItem.raw ++ ['"']) ++ cs)) = _
    rw [strScan_dquote ok, show Quote.none.toggle '"' = .double from rfl, List.append_assoc,
      strScan_double_append ok ds hp, List.singleton_append, strScan_dquote ok,
      show Quote.double.toggle '"' = .none from rfl, addChars_addChars, addChars_addChars]
    rfl

theorem strScan_pieces (ok : TermOK term) (ps : List Piece) (hp : ∀ p ∈ ps, p.WF term) (cs : Str) :
    strScan term .none (ps.flatMap Piece.raw ++ cs) =
      addChars (ps.flatMap Piece.kept) (strScan term .none cs) := by
  induction ps with
  | nil => simp [addChars_nil]
  | cons p ps ih =>
    rw [List.flatMap_cons, List.flatMap_cons, List.append_assoc, strScan_piece ok p (hp p (by simp)),
      ih (fun p h => hp p (by simp [h])), addChars_addChars]

/-- **C31**, reading: a sequence of pieces — ordinary characters, escaped characters, quoted texts, whatever
characters those contain — followed by whitespace, a terminating character or the end of the text is one string
token, and the token ends there. Marcel and shell mode (`wordEnd`). -/
theorem C31_word (shell : Bool) (ps : List Piece) (hp : ∀ p ∈ ps, p.WF (wordEnd shell)) (rest : Str)
    (hr : Boundary (wordEnd shell) rest) :
    strScan (termOf shell) .none (ps.flatMap Piece.raw ++ rest) = .ok (ps.flatMap Piece.kept, rest) := by
  have he : termOf shell = wordEnd shell := funext (termOf_eq_wordEnd shell)
  rw [strScan_pieces (termOf_ok shell) ps (he ▸ hp), strScan_boundary (he ▸ hr)]
  simp [addChars_ok]

/-! Every text has such a decomposition, up to an unterminated quote or a lone backslash at its end. -/

theorem split_single (ok : TermOK term) (text : Str) :
    (∃ s rest, '\'' ∉ s ∧ text = s ++ '\'' :: rest) ∨
    ('\'' ∉ text ∧ strScan term .single text = .ok (text, [])) := by
  induction text with
  | nil => right; simp [strScan_nil]
  | cons c cs ih =>
    by_cases hc : c = '\''
    · left; exact ⟨[], cs, by simp, by simp [hc]⟩
    · rcases ih with ⟨s, rest, h1, h2⟩ | ⟨h1, h2⟩
      · left; exact ⟨c :: s, rest, by simp [h1, Ne.symm hc], by simp [h2]⟩
      · right
        refine ⟨by simp [h1, Ne.symm hc], ?_⟩
        rw [strScan_single ok c hc, h2]; rfl

theorem split_double (ok : TermOK term) (n : Nat) (text : Str) (hn : text.length ≤ n) :
    ∃ ds : List DItem, (∀ d ∈ ds, d.WF) ∧
    ((∃ rest, text = ds.flatMap DItem.raw ++ '"' :: rest) ∨
     (text = ds.flatMap DItem.raw ∧ strScan term .double text = .ok (ds.flatMap DItem.kept, [])) ∨
     (text = ds.flatMap DItem.raw ++ ['\\'] ∧ strScan term .double text = .error .typeError)) := by
  induction n generalizing text with
  | zero =>
    have : text = [] := List.length_eq_zero_iff.1 (by omega)
    subst this
    exact ⟨[], by simp, Or.inr (Or.inl ⟨rfl, by simp [strScan_nil]⟩)⟩
  | succ n ih =>
    cases text with
    | nil => exact ⟨[], by simp, Or.inr (Or.inl ⟨rfl, by simp [strScan_nil]⟩)⟩
    | cons c cs =>
      by_cases hc : c = '"'
      · exact ⟨[], by simp, Or.inl ⟨cs, by simp [hc]⟩⟩
      · by_cases hb : c = '\\'
        · subst hb
          cases cs with
          | nil =>
            refine ⟨[], by simp, Or.inr (Or.inr ⟨rfl, ?_⟩)⟩
            rw [strScan_cons, if_neg (by simp [isspace_backslash, ok.bs]), if_neg (by decide), if_pos (by decide),
              if_neg (by decide)]
            rfl
          | cons d cs =>
            obtain ⟨ds, h1, h2⟩ := ih cs (by simp at hn; omega)
            refine ⟨.pair d :: ds, by intro x hx; simp at hx; rcases hx with rfl | hx; trivial; exact h1 x hx, ?_⟩
            rcases h2 with ⟨rest, h2⟩ | ⟨h2, h3⟩ | ⟨h2, h3⟩
            · left; exact ⟨rest, by simp [DItem.raw, ← h2]⟩
            · right; left
              refine ⟨by simp [DItem.raw, ← h2], ?_⟩
              rw [strScan_pair ok, h3, addChars_ok]; simp
            · right; right
              refine ⟨by simp [DItem.raw, ← h2], ?_⟩
              rw [strScan_pair ok, h3, addChars_error]
        · obtain ⟨ds, h1, h2⟩ := ih cs (by simp at hn; omega)
          refine ⟨.chr c :: ds,
            by intro x hx; simp at hx; rcases hx with rfl | hx; exact ⟨hc, hb⟩; exact h1 x hx, ?_⟩
          rcases h2 with ⟨rest, h2⟩ | ⟨h2, h3⟩ | ⟨h2, h3⟩
          · left; exact ⟨rest, by simp [DItem.raw, ← h2]⟩
          · right; left
            refine ⟨by simp [DItem.raw, ← h2], ?_⟩
            rw [strScan_double ok c hc hb, h3, addChars_ok]; simp [DItem.kept]
          · right; right
            refine ⟨by simp [DItem.raw, ← h2], ?_⟩
            rw [strScan_double ok c hc hb, h3, addChars_error]

/-- The ways a word can end at the end of the text without being complete: a lone backslash, an unterminated single
quoted text, an unterminated double quoted text, or one whose last character is a lone backslash. The second
component is what is kept; `none` if there is no token because the lexer fails with a TypeError. -/
inductive Incomplete : Str → Option Str → Prop
  | backslash : Incomplete ['\\'] (some ['\\'])
  | single (s : Str) (h : '\'' ∉ s) : Incomplete ('\'' :: s) (some ('\'' :: s))
  | double (ds : List DItem) (h : ∀ d ∈ ds, d.WF) :
      Incomplete ('"' :: ds.flatMap DItem.raw) (some ('"' :: ds.flatMap DItem.kept))
  | doubleBackslash (ds : List DItem) (h : ∀ d ∈ ds, d.WF) :
      Incomplete ('"' :: ds.flatMap DItem.raw ++ ['\\']) none

theorem boundary_nil : Boundary term [] := by intro c cs h; simp at h

theorem decompose (ok : TermOK term) (n : Nat) (text : Str) (hn : text.length ≤ n) :
    ∃ ps : List Piece, (∀ p ∈ ps, p.WF term) ∧
    ((∃ rest, text = ps.flatMap Piece.raw ++ rest ∧ Boundary term rest ∧
        strScan term .none text = .ok (ps.flatMap Piece.kept, rest)) ∨
     (∃ tail k, text = ps.flatMap Piece.raw ++ tail ∧ Incomplete tail k ∧
        strScan term .none text =
          match k with
          | some kept => .ok (ps.flatMap Piece.kept ++ kept, [])
          | none => .error .typeError)) := by
  -- prefixing a piece to a decomposed text
  have prefixed : ∀ (p : Piece) (hp : p.WF term) (cs : Str),
      (∃ ps : List Piece, (∀ p ∈ ps, p.WF term) ∧
      ((∃ rest, cs = ps.flatMap Piece.raw ++ rest ∧ Boundary term rest ∧
        strScan term .none cs = .ok (ps.flatMap Piece.kept, rest)) ∨
      (∃ tail k, cs = ps.flatMap Piece.raw ++ tail ∧ Incomplete tail k ∧
        strScan term .none cs =
          match k with
          | some kept => .ok (ps.flatMap Piece.kept ++ kept, [])
          | none => .error .typeError))) →
      (∃ ps : List Piece, (∀ p ∈ ps, p.WF term) ∧
      ((∃ rest, p.raw ++ cs = ps.flatMap Piece.raw ++ rest ∧ Boundary term rest ∧
        strScan term .none (p.raw ++ cs) = .ok (ps.flatMap Piece.kept, rest)) ∨
      (∃ tail k, p.raw ++ cs = ps.flatMap Piece.raw ++ tail ∧ Incomplete tail k ∧
        strScan term .none (p.raw ++ cs) =
          match k with
          | some kept => .ok (ps.flatMap Piece.kept ++ kept, [])
          | none => .error .typeError))) := by
    rintro p hp cs ⟨ps, h1, h2⟩
    refine ⟨p :: ps, by intro x hx; simp at hx; rcases hx with rfl | hx; exact hp; exact h1 x hx, ?_⟩
    rw [strScan_piece ok p hp]
    rcases h2 with ⟨rest, h2, h3, h4⟩ | ⟨tail, k, h2, h3, h4⟩
    · left
      exact ⟨rest, by simp [h2], h3, by rw [h4, addChars_ok]; simp⟩
    · right
      refine ⟨tail, k, by simp [h2], h3, ?_⟩
      rw [h4]
      cases k with
      | none => rfl
      | some kept => simp [addChars_ok]
  induction n generalizing text with
  | zero =>
    have : text = [] := List.length_eq_zero_iff.1 (by omega)
    subst this
    exact ⟨[], by simp, Or.inl ⟨[], rfl, boundary_nil, strScan_boundary boundary_nil⟩⟩
  | succ n ih =>
    cases text with
    | nil => exact ⟨[], by simp, Or.inl ⟨[], rfl, boundary_nil, strScan_boundary boundary_nil⟩⟩
    | cons c cs =>
      have hn : cs.length ≤ n := by simp at hn; omega
      by_cases hs : isspace c = true ∨ term c = true
      · have hb : Boundary term (c :: cs) := by intro d ds h; simp at h; rw [← h.1]; exact hs
        exact ⟨[], by simp, Or.inl ⟨c :: cs, rfl, hb, strScan_boundary hb⟩⟩
      · simp only [not_or, Bool.not_eq_true] at hs
        by_cases h1 : c = '\''
        · subst h1
          rcases split_single ok cs with ⟨s, rest, h2, h3⟩ | ⟨h2, h3⟩
          · have := prefixed (.single s) h2 rest (ih rest (by subst h3; simp at hn; omega))
            have e : (Piece.single s).raw ++ rest = '\'' :: cs := by simp [Piece.raw, h3]
            rw [e] at this
            exact this
          · refine ⟨[], by simp, Or.inr ⟨'\'' :: cs, some ('\'' :: cs), rfl, .single cs h2, ?_⟩⟩
            rw [strScan_squote ok, show Quote.none.toggle '\'' = .single from rfl, h3]; rfl
        · by_cases h1' : c = '"'
          · subst h1'
            obtain ⟨ds, hd, h⟩ := split_double ok cs.length cs (Nat.le_refl _)
            rcases h with ⟨rest, h3⟩ | ⟨h3, h4⟩ | ⟨h3, h4⟩
            · have := prefixed (.double ds) hd rest (ih rest (by subst h3; simp at hn; omega))
              have e : (Piece.double ds).raw ++ rest = '"' :: cs := by simp [Piece.raw, h3]
              rw [e] at this
              exact this
            · refine ⟨[], by simp, Or.inr ⟨'"' :: cs, some ('"' :: ds.flatMap DItem.kept), rfl, ?_, ?_⟩⟩
              · rw [h3]; exact .double ds hd
              · rw [strScan_dquote ok, show Quote.none.toggle '"' = .double from rfl, h4]; rfl
            · refine ⟨[], by simp, Or.inr ⟨'"' :: cs, none, rfl, ?_, ?_⟩⟩
              · rw [h3]; exact .doubleBackslash ds hd
              · rw [strScan_dquote ok, show Quote.none.toggle '"' = .double from rfl, h4]; rfl
          · by_cases h2 : c = '\\'
            · subst h2
              cases cs with
              | nil =>
                refine ⟨[], by simp, Or.inr ⟨['\\'], some ['\\'], rfl, .backslash, ?_⟩⟩
                rw [strScan_cons, if_neg (by simp [isspace_backslash, ok.bs]), if_neg (by decide), if_pos (by decide),
                  if_neg (by decide)]
                rfl
              | cons d cs => exact prefixed (.escaped d) trivial cs (ih cs (by simp at hn; omega))
            · exact prefixed (.plain c) ⟨hs.1, hs.2, h1, h1', h2⟩ cs (ih cs hn)

/-- **C31**, completeness: every text is a sequence of pieces followed either by a boundary — and then the string
token is exactly those pieces and ends exactly at that boundary — or by an incomplete quote or escape reaching to
the end of the text. So no terminating character inside quotes or escaped ends a word, and every other one does. -/
theorem C31_word_complete (shell : Bool) (text : Str) :
    ∃ ps : List Piece, (∀ p ∈ ps, p.WF (wordEnd shell)) ∧
    ((∃ rest, text = ps.flatMap Piece.raw ++ rest ∧ Boundary (wordEnd shell) rest ∧
        strScan (termOf shell) .none text = .ok (ps.flatMap Piece.kept, rest)) ∨
     (∃ tail k, text = ps.flatMap Piece.raw ++ tail ∧ Incomplete tail k ∧
        strScan (termOf shell) .none text =
          match k with
          | some kept => .ok (ps.flatMap Piece.kept ++ kept, [])
          | none => .error .typeError)) := by
  have he : termOf shell = wordEnd shell := funext (termOf_eq_wordEnd shell)
  have := decompose (termOf_ok shell) text.length text (Nat.le_refl _)
  rw [he] at this
  rw [he]
  exact this

/-- Non-vacuity: a word made of all four kinds of pieces, containing blanks, pipes and parentheses, ended by `|`. -/
example : (∀ p ∈ [Piece.plain 'a', .escaped ' ', .single "b | (".toList, .double [.chr ')', .pair '"']],
      p.WF (wordEnd false)) ∧ Boundary (wordEnd false) "| x".toList := by
  refine ⟨?_, ?_⟩
  · intro p hp
    simp only [List.mem_cons, List.not_mem_nil, or_false] at hp
    rcases hp with rfl | rfl | rfl | rfl
    · refine ⟨?_, ?_, ?_, ?_, ?_⟩ <;> first | decide | (unfold isspace; decide)
    · trivial
    · show '\'' ∉ _; decide
    · intro d hd
      simp only [List.mem_cons, List.not_mem_nil, or_false] at hd
      rcases hd with rfl | rfl
      · exact ⟨by decide, by decide⟩
      · trivial
  · intro c cs h
    right
    have : c = '|' := by simpa using (congrArg (fun l => l.head?) h.symm)
    subst this; decide

/-! ## C30 -/

/-- A character that doesn't start any token other than a string. -/
def wordStart (c : Char) : Bool :=
  c != '(' && c != ')' && c != '|' && c != '@' && c != '!' && c != '=' && c != ',' && c != ':' && c != '#' &&
  c != '>' && c != '<'

theorem startsWith_ne {a c : Char} (as cs : Str) (h : c ≠ a) : startsWith (a :: as) (c :: cs) = false := by
  simp [startsWith, List.isPrefixOf, Ne.symm h]

theorem lexHere_word (shell : Bool) (c : Char) (cs : Str) (h : wordStart c = true) :
    lexHere shell (c :: cs) = (strToken shell (c :: cs)).map some := by
  simp only [wordStart, Bool.and_eq_true, bne_iff_ne, ne_eq] at h
  obtain ⟨⟨⟨⟨⟨⟨⟨⟨⟨⟨h1, h2⟩, h3⟩, h4⟩, h5⟩, h6⟩, h7⟩, h8⟩, h9⟩, h10⟩, h11⟩ := h
  simp [lexHere, lexPunctuation, lexArrowOrString, startsWith_ne, *]

theorem skipWs_cons (c : Char) (cs : Str) (h : isspace c = false) : skipWs (c :: cs) = c :: cs := by
  simp [skipWs, h]

/-- The end of the text or whitespace. -/
def Blank (rest : Str) : Prop := ∀ c cs, rest = c :: cs → isspace c = true

theorem Blank.boundary {rest : Str} (h : Blank rest) : Boundary term rest := fun c cs e => Or.inl (h c cs e)

/-- A word followed by whitespace or the end is the next token. -/
theorem nextToken_word (shell : Bool) (c : Char) (cs : Str) (hc : wordStart c = true) (hs : isspace c = false)
    (chars rest : Str) (lit : StrLit) (text : Str) (ht : text = c :: cs ++ rest)
    (h : strScan (termOf shell) .none text = .ok (chars, rest)) (hl : StrLit.of chars = .ok lit)
    (hr : Blank rest) :
    nextToken shell text = .ok (some (.str shell lit (c :: cs), skipWs rest)) := by
  subst ht
  have h1 : strToken shell (c :: cs ++ rest) = .ok (.str shell lit (c :: cs), rest) := by
    unfold strToken
    rw [h]
    simp only [hl]
    have : (c :: cs ++ rest).length - rest.length = (c :: cs).length := by simp; omega
    rw [this, List.take_left']
    rfl
  have h2 : lex1 shell (c :: cs ++ rest) = .ok (some (.str shell lit (c :: cs), false, skipWs rest)) := by
    unfold lex1
    rw [List.cons_append, skipWs_cons _ _ hs, lexHere_word _ _ _ hc, ← List.cons_append, h1]
    cases rest with
    | nil => rfl
    | cons d ds => simp [Except.map, hr d ds rfl]
  unfold nextToken
  rw [h2]
  simp

theorem wordEnd_termOf (shell : Bool) : termOf shell = wordEnd shell := funext (termOf_eq_wordEnd shell)

/-- The token for a sequence of pieces followed by whitespace or the end of the text. -/
theorem nextToken_pieces (shell : Bool) (ps : List Piece) (hp : ∀ p ∈ ps, p.WF (wordEnd shell)) (c : Char) (cs : Str)
    (hraw : ps.flatMap Piece.raw = c :: cs) (hc : wordStart c = true) (hs : isspace c = false)
    (lit : StrLit) (hl : StrLit.of (ps.flatMap Piece.kept) = .ok lit) (rest : Str) (hr : Blank rest) :
    nextToken shell (ps.flatMap Piece.raw ++ rest) =
      .ok (some (.str shell lit (ps.flatMap Piece.raw), skipWs rest)) := by
  have := nextToken_word shell c cs hc hs _ rest lit (ps.flatMap Piece.raw ++ rest) (by rw [hraw])
    (C31_word shell ps hp rest hr.boundary) hl hr
  rw [this, hraw]

theorem StrLit.of_quoted (q : Char) (hq : isQuote q = true) (t : Str) :
    StrLit.of (q :: t ++ [q]) = .ok ⟨q :: t ++ [q], some q, false, t⟩ := by
  have h1 : (q :: (t ++ [q])).getLast? = some q := by
    rw [← List.cons_append, List.getLast?_concat]
  have h2 : (t ++ [q]).dropLast = t := List.dropLast_concat
  simp [StrLit.of, hq, h1, h2]

/-- **C30**, single quotes: any text not containing a single quote — blanks, terminators, backslashes and double
quotes included — written in single quotes and followed by whitespace or the end of the command is read as a string
whose value is exactly that text, with no missing quote. -/
theorem C30_single_quoted (shell : Bool) (t : Str) (ht : '\'' ∉ t) (rest : Str) (hr : Blank rest) :
    ∃ lit, nextToken shell ('\'' :: t ++ '\'' :: rest) =
        .ok (some (.str shell lit ('\'' :: t ++ ['\'']), skipWs rest)) ∧
      lit.string = t ∧ lit.missingQuote = none := by
  refine ⟨⟨'\'' :: t ++ ['\''], some '\'', false, t⟩, ?_, rfl, rfl⟩
  · have := nextToken_pieces shell [.single t] (by simpa [Piece.WF] using ht) '\'' (t ++ ['\''])
      (by simp [Piece.raw]) (by decide) isspace_squote ⟨'\'' :: t ++ ['\''], some '\'', false, t⟩
      (by simpa [Piece.kept] using StrLit.of_quoted '\'' (by decide) t) rest hr
    simpa [Piece.raw] using this

/-- Double every backslash. -/
def doubleBackslashes (t : Str) : Str := t.flatMap fun c => if c = '\\' then ['\\', '\\'] else [c]

/-- **C30**, double quotes: any text not containing a double quote, with every backslash doubled, written in double
quotes, is read as exactly that text. -/
theorem C30_double_quoted (shell : Bool) (t : Str) (ht : '"' ∉ t) (rest : Str) (hr : Blank rest) :
    ∃ lit, nextToken shell ('"' :: doubleBackslashes t ++ '"' :: rest) =
        .ok (some (.str shell lit ('"' :: doubleBackslashes t ++ ['"']), skipWs rest)) ∧
      lit.string = t ∧ lit.missingQuote = none := by
  let ds : List DItem := t.map fun c => if c = '\\' then .pair '\\' else .chr c
  have h1 : ds.flatMap DItem.raw = doubleBackslashes t := by
    simp only [ds, doubleBackslashes, List.flatMap_map]
    congr 1; funext c
    split <;> simp [DItem.raw, *]
  have h2 : ds.flatMap DItem.kept = t := by
    have : (fun c => ((if c = '\\' then .pair '\\' else .chr c : DItem)).kept) = fun c : Char => [c] := by
      funext c; split <;> simp [DItem.kept, *]
    simp only [ds, List.flatMap_map, this]
    simp
  have h3 : ∀ d ∈ ds, d.WF := by
    intro d hd
    simp only [ds, List.mem_map] at hd
    obtain ⟨c, hc, rfl⟩ := hd
    split
    · trivial
    · exact ⟨fun e => ht (e ▸ hc), by assumption⟩
  refine ⟨⟨'"' :: t ++ ['"'], some '"', false, t⟩, ?_, rfl, rfl⟩
  have := nextToken_pieces shell [.double ds] (by simpa [Piece.WF] using h3) '"' (ds.flatMap DItem.raw ++ ['"'])
    (by simp [Piece.raw]) (by decide) isspace_dquote ⟨'"' :: t ++ ['"'], some '"', false, t⟩
    (by simpa [Piece.kept, h2] using StrLit.of_quoted '"' (by decide) t) rest hr
  simpa [Piece.raw, h1] using this

/-- **C30**, double quotes, verbatim, for texts without a backslash. What is missing: with backslashes the text is
*not* read verbatim, see `C30_double_backslash_false`. -/
theorem C30_double_quoted_verbatim_partial (shell : Bool) (t : Str) (ht : '"' ∉ t) (hb : '\\' ∉ t) (rest : Str)
    (hr : Blank rest) :
    ∃ lit, nextToken shell ('"' :: t ++ '"' :: rest) =
        .ok (some (.str shell lit ('"' :: t ++ ['"']), skipWs rest)) ∧
      lit.string = t ∧ lit.missingQuote = none := by
  have : doubleBackslashes t = t := by
    clear ht
    induction t with
    | nil => rfl
    | cons c t ih =>
      simp only [List.mem_cons, not_or] at hb
      have := ih hb.2
      unfold doubleBackslashes at this ⊢
      rw [List.flatMap_cons, this, if_neg (Ne.symm hb.1)]
      rfl
  simpa [this] using C30_double_quoted shell t ht rest hr

theorem unescapeLit_nil : unescapeLit [] = .ok [] := by rw [unescapeLit.eq_def]

theorem unescapeLit_escaped (t : Str) : unescapeLit (t.flatMap fun c => ['\\', c]) = .ok t := by
  induction t with
  | nil => exact unescapeLit_nil
  | cons c t ih =>
    rw [List.flatMap_cons, unescapeLit.eq_def]
    simp [ih, Except.map]

/-- **C30**, escapes: any text — whatever characters it contains — with every character preceded by a backslash is
read as exactly that text. -/
theorem C30_escaped (shell : Bool) (t : Str) (ht : t ≠ []) (rest : Str) (hr : Blank rest) :
    ∃ lit, nextToken shell (t.flatMap (fun c => ['\\', c]) ++ rest) =
        .ok (some (.str shell lit (t.flatMap fun c => ['\\', c]), skipWs rest)) ∧
      lit.string = t ∧ lit.missingQuote = none := by
  obtain ⟨d, ds, rfl⟩ := List.exists_cons_of_ne_nil ht
  have e1 : ((d :: ds).map Piece.escaped).flatMap Piece.raw = (d :: ds).flatMap fun c => ['\\', c] := by
    rw [List.flatMap_map]; rfl
  have e2 : ((d :: ds).map Piece.escaped).flatMap Piece.kept = (d :: ds).flatMap fun c => ['\\', c] := by
    rw [List.flatMap_map]; rfl
  have hl : StrLit.of ((d :: ds).flatMap fun c => ['\\', c]) =
      .ok ⟨(d :: ds).flatMap fun c => ['\\', c], none, false, d :: ds⟩ := by
    have := unescapeLit_escaped (d :: ds)
    simp only [List.flatMap_cons, List.cons_append, List.nil_append] at this ⊢
    simp [StrLit.of, this, Except.map, isQuote]
  refine ⟨⟨(d :: ds).flatMap fun c => ['\\', c], none, false, d :: ds⟩, ?_, rfl, rfl⟩
  · rw [← e2] at hl
    have := nextToken_pieces shell ((d :: ds).map .escaped)
      (by intro p hp; simp only [List.mem_map] at hp; obtain ⟨_, _, rfl⟩ := hp; trivial) '\\'
      (d :: ds.flatMap fun c => ['\\', c]) (by rw [e1]; rfl) (by decide) isspace_backslash _ hl rest hr
    rw [e1, e2] at this
    exact this

/-- **C30**, unterminated: a nonempty text without a single (double) quote after an opening single (double) quote,
up to the end of the command, is reported as missing that quote. (For double quotes: texts without backslashes.)
What is missing: `C30_unterminated_false`. -/
theorem C30_unterminated_partial (shell : Bool) (q : Char) (hq : q = '\'' ∨ q = '"') (t : Str) (h0 : t ≠ [])
    (ht : q ∉ t) (hb : q = '"' → '\\' ∉ t) :
    ∃ lit, nextToken shell (q :: t) = .ok (some (.str shell lit (q :: t), [])) ∧
      lit.missingQuote = some q := by
  have hs : isspace q = false := by rcases hq with rfl | rfl; exact isspace_squote; exact isspace_dquote
  have hw : wordStart q = true := by rcases hq with rfl | rfl <;> decide
  have hQ : isQuote q = true := by rcases hq with rfl | rfl <;> decide
  have hlast : (q :: t).getLast? ≠ some q := by
    intro h
    cases t with
    | nil => exact h0 rfl
    | cons a as =>
      rw [List.getLast?_cons_cons] at h
      exact ht (List.mem_of_getLast? h)
  have hscan : strScan (termOf shell) .none (q :: t) = .ok (q :: t, []) := by
    have ok := termOf_ok shell
    rcases hq with rfl | rfl
    · rw [strScan_squote ok, show Quote.none.toggle '\'' = .single from rfl]
      have := strScan_single_append ok t ht []
      simp only [List.append_nil, strScan_nil, addChars_ok] at this
      rw [this]; rfl
    · rw [strScan_dquote ok, show Quote.none.toggle '"' = .double from rfl]
      have e : (t.map DItem.chr).flatMap DItem.raw = t := by
        rw [List.flatMap_map]; simp [DItem.raw]
      have e' : (t.map DItem.chr).flatMap DItem.kept = t := by
        rw [List.flatMap_map]; simp [DItem.kept]
      have := strScan_double_append ok (t.map DItem.chr) (by
        intro d hd; simp only [List.mem_map] at hd; obtain ⟨c, hc, rfl⟩ := hd
        exact ⟨fun h => ht (h ▸ hc), fun h => hb rfl (h ▸ hc)⟩) []
      rw [e, e'] at this
      simp only [List.append_nil, strScan_nil, addChars_ok] at this
      rw [this]; rfl
  refine ⟨⟨q :: t, some q, true, t⟩, ?_, rfl⟩
  have := nextToken_word shell q t hw hs (q :: t) [] ⟨q :: t, some q, true, t⟩ (q :: t) (by simp) hscan
    (by simp [StrLit.of, hQ, hlast]) (by intro c cs h; simp at h)
  simpa [skipWs] using this

/-- The scanned characters decide; used to compute the witnesses below. -/
theorem scan_false {s : Str} (h : strScan marcelTerm .none s = .ok (s, [])) (lit : StrLit)
    (hl : StrLit.of s = .ok lit) (c : Char) (cs : Str) (hs : s = c :: cs) (hc : wordStart c = true)
    (hc' : isspace c = false) : nextToken false s = .ok (some (.str false lit s, [])) := by
  subst hs
  have := nextToken_word false c cs hc hc' (c :: cs) [] lit (c :: cs) (by simp) h hl (by intro c cs h; simp at h)
  simpa [skipWs] using this

/-- **C30** fails for double quotes: of two backslashes between double quotes only one is kept. -/
theorem C30_double_backslash_false :
    ¬ ∀ t : Str, '"' ∉ t → ∃ lit raw, nextToken false ('"' :: t ++ ['"']) = .ok (some (.str false lit raw, [])) ∧
      lit.string = t := by
  intro h
  obtain ⟨lit, raw, h1, h2⟩ := h ['\\', '\\'] (by decide)
  obtain ⟨lit', h3, h4, _⟩ := C30_double_quoted false ['\\'] (by decide) [] (by intro c cs h; simp at h)
  have e : '"' :: doubleBackslashes ['\\'] ++ '"' :: [] = '"' :: ['\\', '\\'] ++ ['"'] := by decide
  rw [e] at h3
  rw [h1] at h3
  simp only [Except.ok.injEq, Option.some.injEq, Prod.mk.injEq, Tok.str.injEq, true_and] at h3
  rw [h3.1.1] at h2
  rw [h2] at h4
  simp at h4

/-- **C30** fails for unterminated literals: whether the literal is reported depends only on its first and last
character. A lone quote is taken for the empty string; `'a'b'` (an unterminated literal) is not reported, and
`'a'b` (terminated) is. -/
theorem C30_unterminated_false :
    (∃ lit, nextToken false ['\''] = .ok (some (.str false lit ['\''], [])) ∧ lit.string = [] ∧
      lit.missingQuote = none) ∧
    (∃ lit, nextToken false "'a'b'".toList = .ok (some (.str false lit "'a'b'".toList, [])) ∧
      lit.missingQuote = none) ∧
    (∃ lit, nextToken false "'a'b".toList = .ok (some (.str false lit "'a'b".toList, [])) ∧
      lit.missingQuote = some '\'') := by
  have ok : TermOK marcelTerm := termOf_ok false
  have pl : ∀ c ∈ ['a', 'b'], (Piece.plain c).WF marcelTerm := by
    intro c hc
    simp at hc
    rcases hc with rfl | rfl <;>
      refine ⟨?_, ?_, ?_, ?_, ?_⟩ <;> first | decide | (unfold isspace; decide)
  refine ⟨?_, ?_, ?_⟩
  · refine ⟨⟨['\''], some '\'', false, []⟩, scan_false ?_ _ ?_ '\'' [] rfl (by decide) isspace_squote, rfl, rfl⟩
    · rw [strScan_squote ok, strScan_nil]; rfl
    · rfl
  · refine ⟨⟨"'a'b'".toList, some '\'', false, "a'b".toList⟩,
      scan_false ?_ _ ?_ '\'' "a'b'".toList rfl (by decide) isspace_squote, rfl⟩
    · show strScan marcelTerm .none ((Piece.single ['a']).raw ++ ((Piece.plain 'b').raw ++ ['\''])) = _
      rw [strScan_piece ok (.single ['a']) (show '\'' ∉ ['a'] by decide), strScan_piece ok _ (pl 'b' (by simp)),
        strScan_squote ok, strScan_nil]
      rfl
    · rfl
  · refine ⟨⟨"'a'b".toList, some '\'', true, "a'b".toList⟩,
      scan_false ?_ _ ?_ '\'' "a'b".toList rfl (by decide) isspace_squote, rfl⟩
    · show strScan marcelTerm .none ((Piece.single ['a']).raw ++ ((Piece.plain 'b').raw ++ [])) = _
      rw [strScan_piece ok (.single ['a']) (show '\'' ∉ ['a'] by decide), strScan_piece ok _ (pl 'b' (by simp)), strScan_nil]
      rfl
    · rfl

/-- Non-vacuity: a text with blanks, a pipe, a backslash and a double quote can be single quoted; followed by a
blank. -/
example : '\'' ∉ "a | \\ \"".toList ∧ Blank " x".toList := by
  refine ⟨by decide, ?_⟩
  intro c cs h
  have : c = ' ' := by simpa using (congrArg (fun l => l.head?) h.symm)
  rw [this]; exact isspace_space
example : '"' ∉ "a \\ '".toList ∧ ("a'\" |".toList : Str) ≠ [] := by decide

/-! ## Tokens in the arguments of shell commands -/

theorem lexArrowOrString_shell {c : Char} {cs : Str} {t : Tok} {rest : Str}
    (h : lexArrowOrString true c cs = .ok (some (t, rest))) :
    t.isBegin = false ∧ t.isEnd = false ∧ t.isAssign = false ∧ t.isComma = false ∧ t.isColon = false ∧ t.isRemote = false := by
  unfold lexArrowOrString at h
  repeat' split at h
  all_goals first
    | (simp only [Except.ok.injEq, Option.some.injEq, Prod.mk.injEq] at h
       obtain ⟨rfl, _⟩ := h
       exact ⟨rfl, rfl, rfl, rfl, rfl, rfl⟩)
    | skip
  obtain ⟨z, hz, e⟩ := map_eq_ok h
  unfold strToken at hz
  repeat' split at hz
  all_goals first
    | cases hz
    | skip
  cases e
  exact ⟨rfl, rfl, rfl, rfl, rfl, rfl⟩

theorem lexHere_shell {text : Str} {t : Tok} {rest : Str} (h : lexHere true text = .ok (some (t, rest))) :
    t.isBegin = false ∧ t.isEnd = false ∧ t.isAssign = false ∧ t.isComma = false ∧ t.isColon = false ∧ t.isRemote = false := by
  unfold lexHere at h
  split at h
  · cases h
  · simp only [Bool.not_true, Bool.false_and, Bool.false_eq_true, if_false] at h
    split at h
    · obtain ⟨z, _, e⟩ := map_eq_ok h
      cases e
      exact ⟨rfl, rfl, rfl, rfl, rfl, rfl⟩
    split at h
    · cases h
    split at h
    · cases h
      exact ⟨rfl, rfl, rfl, rfl, rfl, rfl⟩
    unfold lexPunctuation at h
    simp only [Bool.not_true, Bool.false_and, Bool.false_eq_true, if_false] at h
    split at h
    · split at h <;> (cases h; exact ⟨rfl, rfl, rfl, rfl, rfl, rfl⟩)
    split at h
    · cases h
    exact lexArrowOrString_shell h

/-- **C31.** In the arguments of a shell command there are no pipelines, assignments, parameters or hosts: whatever the
text, `(|`, `|)`, `=`, `,`, `:` and `@` are not recognized there. -/
theorem C31_shell_tokens (text : Str) (t : Tok) (rest : Str) (h : nextToken true text = .ok (some (t, rest))) :
    t.isBegin = false ∧ t.isEnd = false ∧ t.isAssign = false ∧ t.isComma = false ∧ t.isColon = false ∧ t.isRemote = false := by
  have hl : ∀ t a rest, lex1 true text = .ok (some (t, a, rest)) →
      t.isBegin = false ∧ t.isEnd = false ∧ t.isAssign = false ∧ t.isComma = false ∧ t.isColon = false ∧ t.isRemote = false := by
    intro t a rest h
    unfold lex1 at h
    split at h <;> simp at h
    rename_i r hr
    obtain ⟨rfl, _, _⟩ := h
    exact lexHere_shell hr
  unfold nextToken at h
  split at h
  · cases h
  · cases h
  · rename_i t0 adj r h0
    have h1 := hl _ _ _ h0
    split at h
    · split at h
      · cases h
      · split at h
        · split at h
          · cases h
          · rename_i t' hc
            simp only [Except.ok.injEq, Option.some.injEq, Prod.mk.injEq] at h
            obtain ⟨rfl, _⟩ := h
            unfold consolidate at hc
            split at hc
            · cases hc
            · split at hc
              · cases hc
              · cases hc
                exact ⟨rfl, rfl, rfl, rfl, rfl, rfl⟩
        · simp only [Except.ok.injEq, Option.some.injEq, Prod.mk.injEq] at h
          obtain ⟨rfl, _⟩ := h
          exact h1
    · simp only [Except.ok.injEq, Option.some.injEq, Prod.mk.injEq] at h
      obtain ⟨rfl, _⟩ := h
      exact h1

/-- A text to which this applies: what would be the end of a pipeline argument elsewhere is a pipe symbol here. -/
example : nextToken true "|)".toList = .ok (some (.pipe, [')'])) := by
  have h : isspace '|' = false ∧ isspace ')' = false := by unfold isspace; decide
  have e : lex1 true "|)".toList = .ok (some (.pipe, true, [')'])) := by
    simp [lex1, skipWs, h.1, h.2, lexHere]
  unfold nextToken
  rw [e]
  rfl

/-- **C30/C31.** What separates words: exactly the characters for which Python's `str.isspace` is true (Unicode 15: tab, line
feed, vertical tab, form feed, carriage return, the separators 28 to 31, space, next line, no-break space, and the spaces and
separators of Unicode). -/
theorem C30_blanks (c : Char) : isspace c = true ↔ c.toNat ∈
    [9, 10, 11, 12, 13, 28, 29, 30, 31, 32, 133, 160, 5760, 8192, 8193, 8194, 8195, 8196, 8197, 8198, 8199, 8200, 8201, 8202,
     8232, 8233, 8239, 8287, 12288] := by
  unfold isspace
  simp only [Bool.or_eq_true, Bool.and_eq_true, decide_eq_true_eq, beq_iff_eq, List.mem_cons, List.not_mem_nil, or_false]
  generalize c.toNat = n
  constructor
  · intro h; omega
  · intro h; omega

end Marcel
