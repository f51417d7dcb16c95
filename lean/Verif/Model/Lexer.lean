/-! # Model of marcel's string literals and lexer

`/repo/marcel/stringliteral.py` and `/repo/marcel/parser.py` lines 85-825.

Text is a `List Char`.  The code keeps a text and a position; the model keeps the text that remains after the
position, which is all the code ever looks at (apart from the slices `text[start:end]` of what was consumed,
which are computed here as the part of the text that was consumed).  Python exceptions are values of `LexErr`. -/

namespace Marcel

abbrev Str := List Char

/-- The exceptions the lexer (and, below, the parser) raises. -/
inductive LexErr
  /-- `ParseError('Unmatched )')`, parser.py 744 -/
  | unmatchedClose
  /-- `LexerException(.., "Not a python string")`, parser.py 298 -/
  | notPythonString
  /-- `LexerException(.., 'Malformed Python expression')`, parser.py 401 -/
  | malformedExpression
  /-- `Exception('string literal terminated by lone escape')`, stringliteral.py 76 -/
  | loneEscape
  /-- Python's TypeError: `None in str` at parser.py 315, `''.join([.., None])` at parser.py 480 -/
  | typeError
  /-- Python's AttributeError: `None.is_string()` at parser.py 685, 1223 -/
  | attributeError
  /-- Python's IndexError: `''[0]` at stringliteral.py 56 -/
  | indexError
  /-- `EmptyCommand`, parser.py 1019 -/
  | emptyCommand
  /-- `SyntaxError(..)` and `PrematureEndError`, parser.py 1063, 1084, 1104, 1177, 1186, 1228, 1234 -/
  | syntaxError
  /-- `ParseError('.. followed by excess tokens')`, parser.py 1043 -/
  | excessTokens
  /-- `MissingQuoteException`, parser.py 1218 -/
  | missingQuote
  /-- Not an exception of the code: the recursion bound of the model was too small. -/
  | outOfFuel
deriving DecidableEq, Repr

/-- Python's `str.isspace` on one character: the code points whose bidirectional class is WS, B or S, or whose
category is Zs. Used at parser.py 443, 785. -/
@[irreducible] def isspace (c : Char) : Bool :=
  let n := c.toNat
  (9 ≤ n && n ≤ 13) || (28 ≤ n && n ≤ 32) || n == 0x85 || n == 0xa0 || n == 0x1680 ||
  (0x2000 ≤ n && n ≤ 0x200a) || n == 0x2028 || n == 0x2029 || n == 0x202f || n == 0x205f || n == 0x3000

/-- `c in Token.QUOTES`, parser.py 140-142; stringliteral.py 19. -/
def isQuote (c : Char) : Bool := c == '\'' || c == '"'

/-- `c in Token.STRING_TERMINATING` for a single character `c`, parser.py 161-177 (the two character symbols in
that list can't be equal to a single character). -/
def marcelTerm (c : Char) : Bool :=
  c == '(' || c == ')' || c == '|' || c == '=' || c == '#' || c == ',' || c == ':' || c == '<' || c == '>'

/-- `c in Token.SHELL_STRING_TERMINATING`, parser.py 178-188. -/
def shellTerm (c : Char) : Bool :=
  c == '(' || c == ')' || c == '|' || c == '<' || c == '>'

/-- parser.py 483-492, 772: which terminators apply depends on whether shell arguments are being parsed. -/
def termOf (shell : Bool) : Char → Bool := if shell then shellTerm else marcelTerm

/-! ## StringLiteral -/

/-- stringliteral.py 24-30: the attributes of a `StringLiteral`. `original` is also the value of the object as a
Python `str`. `escape` is omitted: nothing in the repository looks at it (`escaped()` has no callers). -/
structure StrLit where
  original : Str
  quote : Option Char
  unterminated : Bool
  string : Str
deriving DecidableEq, Repr

/-- stringliteral.py 62-78: removing escapes. -/
def unescapeLit : Str → Except LexErr Str
  | [] => .ok []
  | c :: cs =>
    if c = '\\' then
      match cs with
      | [] => .error .loneEscape
      | d :: cs' => (unescapeLit cs').map (d :: ·)
    else (unescapeLit cs).map (c :: ·)

/-- stringliteral.py 52-78, `compute_unadorned` (the literal is never `None` when it comes from the lexer).
`self[1:]` and `self[1:-1]` of a string starting with a quote: note that for the one character string `'` both the
first and the last character are the quote and `self[1:-1]` is empty. -/
def StrLit.of (original : Str) : Except LexErr StrLit :=
  match original with
  | [] => .error .indexError
  | c :: cs =>
    if isQuote c then
      let unterminated := (c :: cs).getLast? != some c
      .ok { original := c :: cs, quote := some c, unterminated := unterminated
            string := if unterminated then cs else cs.dropLast }
    else
      (unescapeLit (c :: cs)).map fun s =>
        { original := c :: cs, quote := none, unterminated := false, string := s }

/-- stringliteral.py 47-48. -/
def StrLit.missingQuote (l : StrLit) : Option Char := if l.unterminated then l.quote else none

/-! ## Tokens -/

/-- The values of the variable `quote` of `String.scan` (parser.py 437, 454, 456): `None`, `'`, or `"`. (The
`else` at parser.py 476-477, for another value of `quote`, is unreachable and so has no counterpart.) -/
inductive Quote | none | single | double
deriving DecidableEq, Repr

/-- parser.py 453-456: `quote` after the quote character `c`. -/
def Quote.toggle (q : Quote) (c : Char) : Quote :=
  match q with
  | .none => if c = '\'' then .single else .double
  | .single => if c = '\'' then .none else .single
  | .double => if c = '"' then .none else .double

/-- Add characters to the result of scanning the rest. -/
def addChars (cs : Str) (r : Except LexErr (Str × Str)) : Except LexErr (Str × Str) :=
  r.map fun r => (cs ++ r.1, r.2)

/-- parser.py 436-480, the loop of `String.scan`, from the state in which `quote` is `q`. Returns the characters
collected and the remaining text. -/
def strScan (term : Char → Bool) (q : Quote) (text : Str) : Except LexErr (Str × Str) :=
  match text with
  | [] => .ok ([], [])
  | c :: cs =>
    if isspace c || term c then
      if q = .none then .ok ([], c :: cs) else addChars [c] (strScan term q cs)
    else if isQuote c then addChars [c] (strScan term (q.toggle c) cs)
    else if c == '\\' then
      if q = .single then addChars [c] (strScan term q cs)
      else
        match cs with
        | [] => if q = .none then .ok ([c], []) else .error .typeError
        | d :: cs' => addChars (if q = .double && d == '\\' then [d] else [c, d]) (strScan term q cs')
    else addChars [c] (strScan term q cs)

/-- parser.py 290-336, the loop of `PythonString.scan`, after the opening quote(s). Returns the remaining text.
(The value of the `PythonString` is never used, only where it ends, so it is not modelled.) -/
def pyStrScan (q : Char) (triple : Bool) : Str → Except LexErr Str
  | [] => .error .notPythonString
  | c :: cs =>
    if isQuote c then
      if c = q then
        if triple then
          if cs.take 2 = [q, q] then .ok (cs.drop 2) else pyStrScan q triple cs
        else .ok cs
      else pyStrScan q triple cs
    else if c = '\\' then
      match cs with
      | [] => .error .typeError
      | _ :: cs' => pyStrScan q triple cs'
    else pyStrScan q triple cs

/-- parser.py 290-294: `PythonString.scan` when the text starts with the quote `q` followed by `cs`. -/
def pyString (q : Char) (cs : Str) : Except LexErr Str :=
  if cs.take 2 = [q, q] then pyStrScan q true (cs.drop 2) else pyStrScan q false cs

theorem pyStrScan_length {q : Char} {t : Bool} {cs rest : Str} (h : pyStrScan q t cs = .ok rest) :
    rest.length ≤ cs.length := by
  fun_induction pyStrScan q t cs
  case case1 => simp at h
  case case2 => simp at h; subst h; simp; omega
  case case3 ih => have := ih h; simp; omega
  case case4 => simp at h; subst h; simp
  case case5 ih => have := ih h; simp; omega
  case case6 => simp at h
  case case7 ih => have := ih h; simp; omega
  case case8 ih => have := ih h; simp; omega

theorem pyString_length {q : Char} {cs rest : Str} (h : pyString q cs = .ok rest) :
    rest.length ≤ cs.length := by
  unfold pyString at h
  split at h
  · have := pyStrScan_length h
    simp at this; omega
  · exact pyStrScan_length h

/-- parser.py 390-399, the loop of `Expression.scan`, with `nesting = n`. Returns the remaining text. -/
def exprScan (n : Nat) (text : Str) : Except LexErr Str :=
  if n = 0 then .ok text
  else match text with
    | [] => .ok []
    | c :: cs =>
      if c = '(' then exprScan (n + 1) cs
      else if c = ')' then exprScan (n - 1) cs
      else if isQuote c then
        match _h : pyString c cs with
        | .error e => .error e
        | .ok rest => exprScan n rest
      else exprScan n cs
termination_by text.length
decreasing_by all_goals (first | (have := pyString_length (by assumption); simp; omega) | simp)

/-- parser.py 386-401 and 381-384: `Expression.scan` on a text starting with `(` followed by `cs`, giving the
expression's source and the remaining text. `text[self.end - 1]` is the last character consumed; `source` is what
was consumed without its first and last character. -/
def exprToken (cs : Str) : Except LexErr (Str × Str) :=
  match exprScan 1 cs with
  | .error e => .error e
  | .ok rest =>
    let consumed := ('(' :: cs).take (cs.length + 1 - rest.length)
    if consumed.getLast? = some ')' then .ok (consumed.tail.dropLast, rest)
    else .error .malformedExpression

/-- parser.py 137-660: the tokens. A `String` token records whether it is a `ShellString`, its literal, and its
`raw()` text (125-126). -/
inductive Tok
  | str (shell : Bool) (lit : StrLit) (raw : Str)
  | expr (source : Str)
  | pipe
  | remote
  | run (twice : Bool)
  | begin_
  | end_
  | assign
  | comma
  | colon
  | gt (var append : Bool)
  | lt (var : Bool)
deriving DecidableEq, Repr

namespace Tok
def isStr : Tok → Bool | .str .. => true | _ => false
def isShellStr : Tok → Bool | .str s _ _ => s | _ => false
def isExpr : Tok → Bool | .expr .. => true | _ => false
def isPipe : Tok → Bool | .pipe => true | _ => false
def isRemote : Tok → Bool | .remote => true | _ => false
def isRun : Tok → Bool | .run _ => true | _ => false
def isBegin : Tok → Bool | .begin_ => true | _ => false
def isEnd : Tok → Bool | .end_ => true | _ => false
def isAssign : Tok → Bool | .assign => true | _ => false
def isComma : Tok → Bool | .comma => true | _ => false
def isColon : Tok → Bool | .colon => true | _ => false
def isGt : Tok → Bool | .gt .. => true | _ => false
def isLt : Tok → Bool | .lt _ => true | _ => false
/-- parser.py 684-685 -/
def consolidatable (t : Tok) : Bool := t.isStr || t.isExpr
end Tok

/-- parser.py 409-416, 772-773: a `String` token at the beginning of `text`. `raw` is what was consumed. -/
def strToken (shell : Bool) (text : Str) : Except LexErr (Tok × Str) :=
  match strScan (termOf shell) .none text with
  | .error e => .error e
  | .ok (chars, rest) =>
    match StrLit.of chars with
    | .error e => .error e
    | .ok lit => .ok (.str shell lit (text.take (text.length - rest.length)), rest)

/-- parser.py 782-789. -/
def skipWs (text : Str) : Str := text.dropWhile isspace

/-- parser.py 779-780: does `text` start with `symbol`? -/
def startsWith (symbol text : Str) : Bool := symbol.isPrefixOf text

/-- parser.py 759-773: the arrows, and otherwise a string. -/
def lexArrowOrString (shell : Bool) (c : Char) (cs : Str) : Except LexErr (Option (Tok × Str)) :=
  if startsWith ['>', '>', '$'] (c :: cs) then .ok (some (.gt true true, cs.drop 2))
  else if startsWith ['>', '$'] (c :: cs) then .ok (some (.gt true false, cs.drop 1))
  else if startsWith ['>', '>'] (c :: cs) then .ok (some (.gt false true, cs.drop 1))
  else if c == '>' then .ok (some (.gt false false, cs))
  else if startsWith ['<', '$'] (c :: cs) then .ok (some (.lt true, cs.drop 1))
  else if c == '<' then .ok (some (.lt false, cs))
  else (strToken shell (c :: cs)).map some

/-- parser.py 747-758: `@`, `!`, `!!`, `=`, `,`, `:` and comments, then the rest. -/
def lexPunctuation (shell : Bool) (c : Char) (cs : Str) : Except LexErr (Option (Tok × Str)) :=
  if !shell && c == '@' then .ok (some (.remote, cs))
  else if c == '!' then
    if startsWith ['!'] cs then .ok (some (.run true, cs.drop 1)) else .ok (some (.run false, cs))
  else if !shell && c == '=' then .ok (some (.assign, cs))
  else if !shell && c == ',' then .ok (some (.comma, cs))
  else if !shell && c == ':' then .ok (some (.colon, cs))
  else if c == '#' then .ok none
  else lexArrowOrString shell c cs

/-- parser.py 737-773: the token at the beginning of a text that doesn't start with whitespace (`none` for end of
text and for a comment). The order of the cases is that of the code. `Symbol.__init__` (539-542) advances by the
length of the symbol. -/
def lexHere (shell : Bool) (text : Str) : Except LexErr (Option (Tok × Str)) :=
  match text with
  | [] => .ok none
  | c :: cs =>
    if !shell && startsWith ['(', '|'] (c :: cs) then .ok (some (.begin_, cs.drop 1))
    else if !shell && startsWith ['|', ')'] (c :: cs) then .ok (some (.end_, cs.drop 1))
    else if c == '(' then (exprToken cs).map fun r => some (.expr r.1, r.2)
    else if c == ')' then .error .unmatchedClose
    else if c == '|' then .ok (some (.pipe, cs))
    else lexPunctuation shell c cs

/-- parser.py 720-777, `next_unconsolidated_token`: the token, whether it is adjacent to the next one, and the text
after it and the whitespace following it. -/
def lex1 (shell : Bool) (text : Str) : Except LexErr (Option (Tok × Bool × Str)) :=
  match lexHere shell (skipWs text) with
  | .error e => .error e
  | .ok none => .ok none
  | .ok (some (t, rest)) =>
    .ok (some (t, (match rest with | [] => false | c :: _ => !isspace c), skipWs rest))

/-- parser.py 710-715: what a token contributes to a consolidated expression. `token.value()` of a `String` token is its
`StringLiteral`, which as a Python string is the literal as written (quotes and escapes included). -/
def consolidatePart : Tok → Str
  | .str _ lit _ => lit.original
  | .expr src => '{' :: src ++ ['}']
  | _ => []

/-- parser.py 707-717: the text of a consolidated expression. -/
def consolidateText (ts : List Tok) : Str :=
  "(f'''".toList ++ ts.flatMap consolidatePart ++ "''')".toList

/-- parser.py 705-718 -/
def consolidate (ts : List Tok) : Except LexErr Tok :=
  match consolidateText ts with
  | [] => .error .indexError
  | _ :: cs =>
    match exprToken cs with
    | .error e => .error e
    | .ok (src, _) => .ok (.expr src)

/-! Every token consumes some text (needed for the definition of `nextToken` below to be accepted as terminating,
which is how the model shows that the lexer terminates). -/

theorem map_eq_ok {α β : Type} {f : α → β} {x : Except LexErr α} {y : β} (h : x.map f = .ok y) :
    ∃ z, x = .ok z ∧ f z = y := by
  cases x with
  | error e => simp [Except.map] at h
  | ok z => exact ⟨z, rfl, by simpa [Except.map] using h⟩

theorem strScan_length {term : Char → Bool} {q : Quote} {cs chars rest : Str}
    (h : strScan term q cs = .ok (chars, rest)) : rest.length ≤ cs.length ∧ (rest.length = cs.length → chars = []) := by
  fun_induction strScan term q cs generalizing chars rest
  all_goals first
    | (simp at h; done)
    | (simp at h; obtain ⟨rfl, rfl⟩ := h; simp; done)
    | (rename_i ih
       obtain ⟨z, h1, h2⟩ := map_eq_ok h
       simp only [Prod.mk.injEq] at h2
       obtain ⟨_, rfl⟩ := h2
       have := (ih h1).1
       refine ⟨by simp; omega, fun h' => ?_⟩
       simp at h'; omega)

theorem exprScan_length {n : Nat} {cs rest : Str} (h : exprScan n cs = .ok rest) : rest.length ≤ cs.length := by
  fun_induction exprScan n cs <;> simp_all
  all_goals first | (subst h; simp) | skip
  all_goals first | omega | skip
  have := pyString_length (by assumption)
  omega

theorem exprToken_length {cs src rest : Str} (h : exprToken cs = .ok (src, rest)) : rest.length ≤ cs.length := by
  unfold exprToken at h
  split at h
  · simp at h
  · rename_i r hr
    have := exprScan_length hr
    simp only at h
    split at h <;> simp at h
    obtain ⟨_, rfl⟩ := h
    exact this

theorem strToken_length {shell : Bool} {text rest : Str} {t : Tok} (h : strToken shell text = .ok (t, rest)) :
    rest.length < text.length := by
  unfold strToken at h
  split at h
  · simp at h
  · rename_i chars r hr
    have h1 := strScan_length hr
    split at h
    · simp at h
    · rename_i lit hl
      simp at h
      obtain ⟨_, rfl⟩ := h
      rcases Nat.lt_or_ge r.length text.length with h2 | h2
      · exact h2
      · have : chars = [] := h1.2 (by omega)
        subst this
        simp [StrLit.of] at hl

theorem startsWith_length {sym text : Str} (h : startsWith sym text = true) : sym.length ≤ text.length := by
  unfold startsWith at h
  exact (List.isPrefixOf_iff_prefix.1 h).length_le

theorem lexArrowOrString_length {shell : Bool} {c : Char} {cs rest : Str} {t : Tok}
    (h : lexArrowOrString shell c cs = .ok (some (t, rest))) : rest.length ≤ cs.length := by
  unfold lexArrowOrString at h
  repeat' split at h
  all_goals first
    | (obtain ⟨r, h1, h2⟩ := map_eq_ok h
       simp only [Option.some.injEq] at h2
       subst h2
       have := strToken_length h1; simp at this; omega)
    | (simp at h; obtain ⟨_, rfl⟩ := h; simp; done)

theorem lexPunctuation_length {shell : Bool} {c : Char} {cs rest : Str} {t : Tok}
    (h : lexPunctuation shell c cs = .ok (some (t, rest))) : rest.length ≤ cs.length := by
  unfold lexPunctuation at h
  repeat' split at h
  all_goals first
    | exact lexArrowOrString_length h
    | (simp at h; done)
    | (simp at h; obtain ⟨_, rfl⟩ := h; simp; done)

theorem lexHere_length {shell : Bool} {text rest : Str} {t : Tok} (h : lexHere shell text = .ok (some (t, rest))) :
    rest.length < text.length := by
  unfold lexHere at h
  cases text with
  | nil => simp at h
  | cons c cs =>
    dsimp only at h
    rw [List.length_cons]
    repeat' split at h
    all_goals first
      | (have := lexPunctuation_length h; omega)
      | (simp at h; done)
      | (obtain ⟨r, h1, h2⟩ := map_eq_ok h
         simp only [Option.some.injEq, Prod.mk.injEq] at h2
         obtain ⟨_, rfl⟩ := h2
         have := exprToken_length h1; omega)
      | (simp at h; obtain ⟨_, rfl⟩ := h; simp; done)
      | (simp at h; obtain ⟨_, rfl⟩ := h; simp; omega)

theorem skipWs_length (text : Str) : (skipWs text).length ≤ text.length := by
  unfold skipWs
  exact (List.dropWhile_suffix isspace).length_le

theorem lex1_length {shell : Bool} {text rest : Str} {t : Tok} {a : Bool}
    (h : lex1 shell text = .ok (some (t, a, rest))) : rest.length < text.length := by
  unfold lex1 at h
  split at h <;> simp at h
  rename_i r hr
  obtain ⟨_, _, rfl⟩ := h
  have := lexHere_length hr
  have := skipWs_length text
  have := skipWs_length r
  omega

/-- parser.py 692-700: collecting the tokens adjacent to a consolidatable one, from the remaining text `text`;
`acc` is `adjacent_tokens`. If the next token is `None` (a comment), `consolidatable(None)` raises
AttributeError. -/
def gatherAdjacent (shell : Bool) (acc : List Tok) (text : Str) : Except LexErr (List Tok × Str) :=
  match _h : lex1 shell text with
  | .error e => .error e
  | .ok none => .error .attributeError
  | .ok (some (t, adj, rest)) =>
    if t.consolidatable then
      if adj then gatherAdjacent shell (acc ++ [t]) rest else .ok (acc ++ [t], rest)
    else .ok (acc, text)
termination_by text.length
decreasing_by exact lex1_length (by assumption)

/-- parser.py 683-703, `Lexer.next_token`: the next token and the remaining text; `none` at the end. -/
def nextToken (shell : Bool) (text : Str) : Except LexErr (Option (Tok × Str)) :=
  match lex1 shell text with
  | .error e => .error e
  | .ok none => .ok none
  | .ok (some (t, adj, rest)) =>
    if adj && t.consolidatable then
      match gatherAdjacent shell [t] rest with
      | .error e => .error e
      | .ok (ts, rest') =>
        if ts.length > 1 then
          match consolidate ts with
          | .error e => .error e
          | .ok t' => .ok (some (t', rest'))
        else .ok (some (t, rest'))
    else .ok (some (t, rest))

theorem gatherAdjacent_length {shell : Bool} {acc ts : List Tok} {text rest : Str}
    (h : gatherAdjacent shell acc text = .ok (ts, rest)) : rest.length ≤ text.length := by
  fun_induction gatherAdjacent shell acc text
  case case1 => simp at h
  case case2 => simp at h
  case case3 h1 ih => have := ih h; have := lex1_length h1; omega
  case case4 h1 _ _ =>
    simp at h
    obtain ⟨_, rfl⟩ := h
    have := lex1_length h1; omega
  case case5 => simp at h; obtain ⟨_, rfl⟩ := h; omega

theorem nextToken_length {shell : Bool} {text rest : Str} {t : Tok}
    (h : nextToken shell text = .ok (some (t, rest))) : rest.length < text.length := by
  unfold nextToken at h
  split at h
  · simp at h
  · simp at h
  · rename_i t0 adj r hr
    have h0 := lex1_length hr
    split at h
    · split at h
      · simp at h
      · rename_i ts r' hg
        have h1 := gatherAdjacent_length hg
        split at h
        · split at h <;> simp at h
          obtain ⟨_, rfl⟩ := h
          omega
        · simp at h
          obtain ⟨_, rfl⟩ := h
          omega
    · simp at h
      obtain ⟨_, rfl⟩ := h
      exact h0

end Marcel
