import Verif.Model.Exec

/-! # Model of the formatting of help

`/repo/marcel/helpformatter.py`: text with markup is split into paragraphs, the markup is removed, the paragraphs are wrapped and indented, and the marked text is highlighted.

Left open: Python's `textwrap` (a parameter), and what highlighting does: the output is a list of pieces of text, those with a colour are what is given to `format_function` (467). A `TextPointer` is modelled
by the text before it (reversed) and after it; its count of non-blank characters (`nonws`) is used nowhere and left out. Lower case and digits: ASCII only. -/

namespace Marcel.Help

/-- Exceptions, and (a loop that goes on forever) `hang`. -/
inductive Fail
  | invalidMarkup
  | exception
  | assertion
  | indexError
  | hang
deriving DecidableEq, Repr

/-- What `peek` and `next` return (81-83): an opening or closing brace, the end, or a character. -/
inductive TC
  | opening
  | closing
  | ended
  | chr (c : Char)
deriving DecidableEq, Repr

/-- `TextPointer` 94-205 -/
structure Ptr where
  before : Str
  after : Str
deriving DecidableEq, Repr

/-- `peek` 130-141 -/
def Ptr.peek (q : Ptr) : TC :=
  match q.after with
  | [] => .ended
  | c :: r =>
    if c = '{' then .opening
    else if c = '}' then .closing
    else if c = '\\' then
      match r with
      | [] => .ended
      | d :: _ => .chr d
    else .chr c

/-- `next` 143-158 -/
def Ptr.next (q : Ptr) : TC × Ptr :=
  match q.after with
  | [] => (.ended, q)
  | c :: r =>
    if c = '{' then (.opening, ⟨c :: q.before, r⟩)
    else if c = '}' then (.closing, ⟨c :: q.before, r⟩)
    else if c = '\\' then
      match r with
      | [] => (.ended, ⟨c :: q.before, []⟩)
      | d :: r' => (.chr d, ⟨d :: c :: q.before, r'⟩)
    else (.chr c, ⟨c :: q.before, r⟩)

/-- `at_end` 160-161 -/
def Ptr.atEnd (q : Ptr) : Bool := q.after.isEmpty

/-- The loop of `advance_past` 166-170; at most so many steps. -/
def Ptr.advance (t : TC) : Nat → Ptr → Ptr
  | 0, q => q
  | n + 1, q => if q.next.1 = t ∨ q.next.1 = .ended then q.next.2 else Ptr.advance t n q.next.2

/-- `advance_past` 166-170 -/
def Ptr.advancePast (t : TC) (q : Ptr) : Ptr := Ptr.advance t (q.after.length + 1) q

/-- `backup` 192-202 -/
def Ptr.backup (q : Ptr) : Except Fail Ptr :=
  match q.before with
  | [] => .error .exception
  | c :: b =>
    match b with
    | [] => .ok ⟨[], c :: q.after⟩
    | d :: b' => if d = '\\' then .ok ⟨b', d :: c :: q.after⟩ else .ok ⟨b, c :: q.after⟩

/-- `contents_to` 185-187 -/
def Ptr.contentsTo (q e : Ptr) : Str := q.after.take (e.before.length - q.before.length)

/-- The colours for help (object/color.py 79-82, 140-147). -/
structure Scheme (C : Type) where
  reference : C
  bold : C
  italic : C
  name : C
  color : Int → Int → Int → Bool → Bool → C

variable {C : Type}

/-- `int(textp.next())` 327-329; none: ValueError. The markers are negative integers (81-83). -/
def digitOf : TC → Option Int
  | .opening => some (-1)
  | .closing => some (-2)
  | .ended => some (-3)
  | .chr c => if c.isDigit then some ((c.toNat - 48 : Nat) : Int) else none

/-- 336-344: the style; none: invalid markup. -/
def styleOf (bold italic : Bool) : Str → Option (Bool × Bool)
  | [] => some (bold, italic)
  | x :: xs =>
    if x.toLower = 'b' then styleOf true italic xs
    else if x.toLower = 'i' then styleOf bold true xs
    else none

/-- 326-347: `{cRGB[bi]:`, after the `c`. -/
def rgbFormat (s : Scheme C) (q : Ptr) : Except Fail (C × Ptr) :=
  match digitOf q.next.1, digitOf q.next.2.next.1, digitOf q.next.2.next.2.next.1 with
  | some r, some g, some b =>
    let q := q.next.2.next.2.next.2
    match (q.advancePast (.chr ':')).backup with
    | .error e => .error e
    | .ok colon =>
      if (q.contentsTo colon).length > 2 then .error .invalidMarkup
      else
        match styleOf false false (q.contentsTo colon) with
        | some (bold, italic) => .ok (s.color r g b bold italic, colon.next.2)
        | none => .error .invalidMarkup
  | _, _, _ => .error .invalidMarkup

/-- `TextMarkup.formatting` 309-354: the colour, and where the text starts. -/
def formatting (s : Scheme C) (q : Ptr) : Except Fail (C × Ptr) :=
  match q.next.2.next with
  | (.chr c, q2) =>
    if c ∈ ['b', 'B', 'i', 'I', 'n', 'N', 'r', 'R'] then
      if q2.next.1 = .chr ':' then
        .ok (if c.toLower = 'r' then s.reference else if c.toLower = 'b' then s.bold else if c.toLower = 'i' then s.italic else s.name, q2.next.2)
      else .error .invalidMarkup
    else if c ∈ ['c', 'C'] then rgbFormat s q2
    else .error .invalidMarkup
  | _ => .error .invalidMarkup

/-- 286-299: the content of the markup, and its end. -/
def markupContent : Nat → Ptr → Str → Except Fail (Str × Ptr)
  | 0, _, _ => .error .invalidMarkup
  | n + 1, q, acc =>
    match q.next with
    | (.closing, q') => .ok (acc, q')
    | (.chr c, q') => markupContent n q' (acc ++ [c])
    | _ => .error .invalidMarkup

/-- Number of characters that aren't blank. -/
def nonWs (s : Str) : Nat := (s.filter fun c => !isspace c).length

/-- `TextMarkup` 272-304: what is kept of markup. -/
structure Mark (C : Type) where
  preceding : Nat
  count : Nat
  color : C
deriving DecidableEq, Repr

/-- `remove_markup` 386-407, the loop: the plain text and the markup. -/
def removeLoop (s : Scheme C) : Nat → Ptr → Nat → Str → List (Mark C) → Except Fail (Str × List (Mark C))
  | 0, _, _, _, _ => .error .hang
  | n + 1, q, count, plain, marks =>
    if q.atEnd then .ok (plain, marks)
    else
      match q.peek with
      | .opening =>
        match formatting s q with
        | .error e => .error e
        | .ok (color, start) =>
          match markupContent start.after.length start [] with
          | .error e => .error e
          | .ok (content, q') => removeLoop s n q' (count + nonWs content) (plain ++ content) (marks ++ [⟨count, nonWs content, color⟩])
      | .chr c => removeLoop s n q.next.2 (if isspace c then count else count + 1) (plain ++ [c]) marks
      | _ => .error .hang

/-- `remove_markup` 386-407 -/
def removeMarkup (s : Scheme C) (text : Str) : Except Fail (Str × List (Mark C)) := removeLoop s (text.length + 1) ⟨[], text⟩ 0 [] []

/-- `str.split` with a separator of one character. -/
def splitOn (sep : Char) : Str → List Str
  | [] => [[]]
  | c :: cs =>
    if c = sep then [] :: splitOn sep cs
    else
      match splitOn sep cs with
      | [] => [[c]]
      | w :: ws => (c :: w) :: ws

/-- `str.join` with a separator. -/
def join (sep : Str) : List Str → Str
  | [] => []
  | [s] => s
  | s :: ss => s ++ sep ++ join sep ss

/-- `str.lower` -/
def lower (s : Str) : Str := s.map Char.toLower

/-- `ParagraphMarkup` 227-269: attributes of a paragraph. -/
structure Props where
  indent1 : Int
  indent2 : Int
  wrap : Bool
deriving DecidableEq, Repr

/-- The attributes while they are parsed. -/
structure PropsSoFar where
  indents : Option (Int × Int) := none
  wrap : Option Bool := none

/-- 253-261: the value of `indent`. -/
def parseIndents (value : Str) : Option (Int × Int) :=
  match (splitOn ':' value).map Exec.pyInt with
  | [some a] => some (a, a)
  | [some a, some b] => some (a, b)
  | _ => none

/-- 243-265: the options; none: invalid markup. Options with other names are ignored, if they have a value. -/
def parseOptions (p : PropsSoFar) : List Str → Option PropsSoFar
  | [] => some p
  | part :: parts =>
    match splitOn '=' part with
    | [k] => if lower k = "wrap".toList then parseOptions { p with wrap := some true } parts else none
    | [k, v] =>
      if lower k = "indent".toList then
        match parseIndents v with
        | some i => parseOptions { p with indents := some i } parts
        | none => none
      else if lower k = "wrap".toList then parseOptions { p with wrap := some (decide (lower v = "t".toList)) } parts
      else parseOptions p parts
    | _ => none

/-- `ParagraphMarkup` 209-269: parsing markup, braces included. -/
def parseParagraph (text : Str) : Except Fail Props :=
  if text.head? ≠ some '{' ∨ text.getLast? ≠ some '}' then .error .invalidMarkup
  else
    match splitOn ',' (text.drop 1).dropLast with
    | [] => .error .assertion
    | part :: parts =>
      if part.length > 1 then .error .invalidMarkup
      else if lower part ∉ [[], ['p'], ['l']] then .error .assertion
      else
        match parseOptions {} parts with
        | none => .error .invalidMarkup
        | some p =>
          let (i1, i2) := p.indents.getD (if lower part = ['p'] then (0, 0) else (4, 6))
          .ok ⟨i1, i2, p.wrap.getD true⟩

/-- `Paragraph` 361-372 -/
structure Para where
  props : Props
  lines : List Str

/-- `Paragraph.normalize` 473-475: a line of blanks becomes empty. -/
def normalize (line : Str) : Str := if line.all isspace then [] else line

/-- `Paragraph.append` 378-384: whether the line is accepted. -/
def Para.accepts (p : Para) (line : Str) : Bool :=
  match p.lines.getLast? with
  | none => true
  | some l => l.isEmpty == (normalize line).isEmpty

/-- 363: the markup of a paragraph without markup. -/
def defaultProps : Props := ⟨0, 0, true⟩

/-- 543-551: adding a line to the last paragraph, or as the beginning of a new one. Paragraphs are in reverse order. -/
def addLine : List Para → Str → List Para
  | [], _ => []
  | p :: ps, line =>
    if p.accepts line then { p with lines := p.lines ++ [normalize line] } :: ps
    else ⟨defaultProps, [normalize line]⟩ :: p :: ps

/-- A block of text, or a paragraph (508-512). -/
inductive Block
  | text (s : Str)
  | para (p : Props)

/-- `ignore` 575-577, and 540-542 -/
def dropIgnored (lines : List Str) : List Str :=
  match lines.getLast? with
  | some l => if l.all isspace then lines.dropLast else lines
  | none => lines

/-- `make_implicit_paragraph_boundaries_explicit` 524-552, the loop. Paragraphs are in reverse order. -/
def makeLoop (ps : List Para) : List Block → List Para
  | [] => ps
  | .para p :: bs => makeLoop (⟨p, []⟩ :: ps) bs
  | .text s :: bs => makeLoop ((dropIgnored (splitOn '\n' s)).foldl addLine ps) bs

/-- `make_implicit_paragraph_boundaries_explicit` 524-552 -/
def makeParagraphs (blocks : List Block) : List Para :=
  match blocks with
  | .text _ :: _ => (makeLoop [⟨defaultProps, []⟩] blocks).reverse
  | _ => (makeLoop [] blocks).reverse

/-- The loop of `find_paragraph_markup` 564-565. -/
def findOpen : Nat → Ptr → Ptr
  | 0, q => q
  | n + 1, q =>
    if q.atEnd then q
    else if q.peek ∈ [.chr 'p', .chr 'P', .chr 'l', .chr 'L'] then q
    else findOpen n (q.advancePast .opening)

/-- `find_paragraph_markup` 560-572; the inner `none`: there is none. -/
def findParagraphMarkup (q : Ptr) : Except Fail (Option (Ptr × Ptr)) :=
  let open_ := findOpen (q.after.length + 1) (q.advancePast .opening)
  if open_.atEnd then .ok none
  else
    let close := open_.advancePast .closing
    if close.atEnd then .error .exception
    else
      match open_.backup with
      | .error e => .error e
      | .ok o => .ok (some (o, close))

/-- 513-519: skipping blanks up to and including the first line end. -/
def skipBlanks : Nat → Ptr → Except Fail Ptr
  | 0, q => .ok q
  | n + 1, q =>
    match q.next with
    | (.chr c, q') => if c = '\n' then .ok q' else if isspace c then skipBlanks n q' else q'.backup
    | (_, q') => q'.backup

/-- `find_explicit_paragraph_boundaries` 501-520 -/
def findBlocks : Nat → Ptr → Except Fail (List Block)
  | 0, _ => .error .hang
  | n + 1, q =>
    if q.atEnd then .ok []
    else
      match findParagraphMarkup q with
      | .error e => .error e
      | .ok none => .ok [.text q.after]
      | .ok (some (open_, close)) =>
        match parseParagraph (open_.contentsTo close) with
        | .error e => .error e
        | .ok p =>
          match skipBlanks (close.after.length + 1) close with
          | .error e => .error e
          | .ok q' =>
            match findBlocks n q' with
            | .error e => .error e
            | .ok bs => .ok ((if q.before.length < open_.before.length then [.text (q.contentsTo open_)] else []) ++ .para p :: bs)

/-- `Paragraph.wrap` 409-436. `wrapper` is `TextWrapper(width, break_long_words=False, break_on_hyphens=False, initial_indent, subsequent_indent).wrap`. -/
def wrapText (wrapper : Str → Str → Str → List Str) (p : Props) (plain : Str) : Str :=
  if p.wrap then
    join ['\n'] (wrapper (List.replicate p.indent1.toNat ' ') (List.replicate p.indent2.toNat ' ') (join [' '] ((splitOn '\n' plain).map pyStrip)))
  else
    match splitOn '\n' plain with
    | [] => []
    | l :: ls => join ['\n'] ((List.replicate p.indent1.toNat ' ' ++ l) :: ls.map (List.replicate p.indent2.toNat ' ' ++ ·))

/-- 448-453, 460-466: the text up to and including so many non-blank characters, and the rest; none: IndexError. -/
def takeNonWs : Nat → Str → Option (Str × Str)
  | 0, t => some ([], t)
  | _ + 1, [] => none
  | k + 1, c :: t =>
    if isspace c then (takeNonWs (k + 1) t).map fun (a, r) => (c :: a, r)
    else (takeNonWs k t).map fun (a, r) => (c :: a, r)

/-- 455-457; none: IndexError. -/
def skipWs : Str → Option (Str × Str)
  | [] => none
  | c :: t => if isspace c then (skipWs t).map fun (a, r) => (c :: a, r) else some ([], c :: t)

/-- A piece of the output: text, and the colour it is highlighted with. -/
abbrev Seg (C : Type) := Str × Option C

/-- `Paragraph.format` 438-471 -/
def formatLoop (count : Nat) : List (Mark C) → Str → Except Fail (List (Seg C))
  | [], text => .ok [(text, none)]
  | m :: ms, text =>
    if text.isEmpty then .ok [(text, none)]
    else
      match takeNonWs (m.preceding - count) text with
      | none => .error .indexError
      | some (a, t1) =>
        match skipWs t1 with
        | none => .error .indexError
        | some (b, t2) =>
          match takeNonWs m.count t2 with
          | none => .error .indexError
          | some (c, t3) => (formatLoop (max count m.preceding + m.count) ms t3).map fun r => (a ++ b, none) :: (c, some m.color) :: r

/-- 493-496: a paragraph. -/
def formatParagraph (wrapper : Str → Str → Str → List Str) (s : Scheme C) (p : Para) : Except Fail (List (Seg C)) :=
  match removeMarkup s (join ['\n'] p.lines) with
  | .error e => .error e
  | .ok (plain, marks) => formatLoop 0 marks (wrapText wrapper p.props plain)

/-- 492-497: all paragraphs. -/
def formatParagraphs (wrapper : Str → Str → Str → List Str) (s : Scheme C) : List Para → Except Fail (List (Seg C))
  | [] => .ok []
  | [p] => formatParagraph wrapper s p
  | p :: ps =>
    match formatParagraph wrapper s p with
    | .error e => .error e
    | .ok r => (formatParagraphs wrapper s ps).map fun rs => r ++ (['\n'], none) :: rs

/-- `HelpFormatter.format` 486-497 -/
def format (wrapper : Str → Str → Str → List Str) (s : Scheme C) (text : Str) : Except Fail (List (Seg C)) :=
  match findBlocks (text.length + 1) ⟨[], text⟩ with
  | .error e => .error e
  | .ok blocks => formatParagraphs wrapper s (makeParagraphs blocks)

end Marcel.Help
