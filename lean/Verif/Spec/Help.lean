import Verif.Model.Help
import Verif.Spec.Exec

/-! # Help text: how it is written, and how it should look

The syntax of help (helpformatter.py 24-70) and the layout of a document, without pointers, positions or counters. -/

namespace Marcel.Help

/-- A character of a text: as it is, or after a backslash. -/
inductive TChar
  | plain (c : Char)
  | escaped (c : Char)
deriving DecidableEq, Repr

/-- The character that is meant. -/
def TChar.char : TChar → Char
  | .plain c => c
  | .escaped c => c

/-- The characters written. -/
def TChar.raw : TChar → Str
  | .plain c => [c]
  | .escaped c => ['\\', c]

/-- Braces and backslashes must be escaped; anything but a blank can be. -/
def TChar.WF : TChar → Prop
  | .plain c => c ≠ '{' ∧ c ≠ '}' ∧ c ≠ '\\'
  | .escaped c => isspace c = false

instance : (c : TChar) → Decidable c.WF
  | .plain c => inferInstanceAs (Decidable (c ≠ '{' ∧ c ≠ '}' ∧ c ≠ '\\'))
  | .escaped c => inferInstanceAs (Decidable (isspace c = false))

/-- Formats of text. -/
inductive Fmt
  | reference
  | bold
  | italic
  | name
  | rgb (r g b : Fin 10) (bold italic : Bool)
deriving DecidableEq, Repr

/-- The colour of a format. -/
def Fmt.color {C : Type} (s : Scheme C) : Fmt → C
  | .reference => s.reference
  | .bold => s.bold
  | .italic => s.italic
  | .name => s.name
  | .rgb r g b heavy slanted => s.color r.val g.val b.val heavy slanted

/-- How a format is written: `r`, `b`, `i`, `n`, or `c`, three digits and up to two of `b` and `i`. -/
inductive Fmt.Written : Fmt → Str → Prop
  | reference : Fmt.Written .reference ['r']
  | referenceU : Fmt.Written .reference ['R']
  | bold : Fmt.Written .bold ['b']
  | boldU : Fmt.Written .bold ['B']
  | italic : Fmt.Written .italic ['i']
  | italicU : Fmt.Written .italic ['I']
  | name : Fmt.Written .name ['n']
  | nameU : Fmt.Written .name ['N']
  | rgb (c : Char) (r g b : Fin 10) (style : Str) : (c = 'c' ∨ c = 'C') → style.length ≤ 2 → (∀ x ∈ style, x = 'b' ∨ x = 'B' ∨ x = 'i' ∨ x = 'I') →
      Fmt.Written (.rgb r g b (style.any fun x => x == 'b' || x == 'B') (style.any fun x => x == 'i' || x == 'I'))
        (c :: Exec.digit r :: Exec.digit g :: Exec.digit b :: style)

/-- A character of the text, or text with a format (`spec`: how the format is written). -/
inductive Item
  | chr (c : TChar)
  | mark (f : Fmt) (spec : Str) (content : List TChar)
deriving DecidableEq, Repr

/-- The text of characters. -/
def charsText (cs : List TChar) : Str := cs.map TChar.char

/-- How characters are written. -/
def charsRaw (cs : List TChar) : Str := cs.flatMap TChar.raw

/-- The lines of a text: it is cut at line ends. -/
def linesOf : Str → List Str
  | [] => [[]]
  | c :: cs =>
    match linesOf cs with
    | [] => [[c]]
    | l :: ls => if c = '\n' then [] :: l :: ls else (c :: l) :: ls

/-- A text of blanks. -/
def blank (s : Str) : Bool := s.all isspace

/-- The text without blanks. -/
def solid (s : Str) : Str := s.filter fun c => !isspace c

/-- Well-formed: a format is written correctly; formatted text has something that isn't blank, and no blank line inside it (i.e. other than its first and last line). -/
def Item.WF : Item → Prop
  | .chr c => c.WF
  | .mark f spec content => f.Written spec ∧ (∀ c ∈ content, c.WF) ∧ blank (charsText content) = false ∧ (∀ l ∈ (linesOf (charsText content)).tail.dropLast, blank l = false)

/-- The text of an item. -/
def Item.text : Item → Str
  | .chr c => [c.char]
  | .mark _ _ content => charsText content

/-- How an item is written. -/
def Item.raw : Item → Str
  | .chr c => c.raw
  | .mark _ spec content => '{' :: spec ++ ':' :: charsRaw content ++ ['}']

/-- Text with formats. -/
def itemsText (is : List Item) : Str := is.flatMap Item.text

/-- How text with formats is written. -/
def itemsRaw (is : List Item) : Str := is.flatMap Item.raw

/-- Options of a paragraph. -/
inductive POpt
  | wrap (b : Bool)
  | indent (first other : Int)
  | other
deriving DecidableEq, Repr

/-- How an option is written; capitals make no difference. Options with other names have a value, and no effect. (Beware: in `{L, indent=8:8}` the name of the option is ` indent`.) -/
inductive POpt.Written : POpt → Str → Prop
  | wrapAlone (k : Str) : k.map Char.toLower = "wrap".toList → POpt.Written (.wrap true) k
  | wrapTrue (k : Str) (v : Char) : k.map Char.toLower = "wrap".toList → (v = 't' ∨ v = 'T') → POpt.Written (.wrap true) (k ++ ['=', v])
  | wrapFalse (k : Str) (v : Char) : k.map Char.toLower = "wrap".toList → (v = 'f' ∨ v = 'F') → POpt.Written (.wrap false) (k ++ ['=', v])
  | indent (k v : Str) (n : Int) : k.map Char.toLower = "indent".toList → Exec.Numeral v n → POpt.Written (.indent n n) (k ++ '=' :: v)
  | indents (k v w : Str) (n m : Int) : k.map Char.toLower = "indent".toList → Exec.Numeral v n → Exec.Numeral w m → POpt.Written (.indent n m) (k ++ '=' :: v ++ ':' :: w)
  | other (k v : Str) : k.map Char.toLower ≠ "wrap".toList → k.map Char.toLower ≠ "indent".toList → (∀ c ∈ k ++ v, c ∉ [',', '=', '{', '}', '\\']) → POpt.Written .other (k ++ '=' :: v)

/-- Options in a row, each after a comma. -/
inductive POpt.AllWritten : List POpt → Str → Prop
  | nil : POpt.AllWritten [] []
  | cons (o : POpt) (os : List POpt) (s ss : Str) : o.Written s → POpt.AllWritten os ss → POpt.AllWritten (o :: os) (',' :: s ++ ss)

/-- The indents that an option gives. -/
def POpt.indents : POpt → Option (Int × Int)
  | .indent a b => some (a, b)
  | .wrap _ | .other => none

/-- The wrapping that an option asks for. -/
def POpt.wraps : POpt → Option Bool
  | .wrap b => some b
  | .indent _ _ | .other => none

/-- Attributes of a paragraph: what the last option of a kind says, otherwise indents of 0 for `p` and of 4 and 6 for `l`, and wrapping. -/
def propsOf (list : Bool) (os : List POpt) : Props :=
  let i := (os.reverse.findSome? POpt.indents).getD (if list then (4, 6) else (0, 0))
  ⟨i.1, i.2, (os.reverse.findSome? POpt.wraps).getD true⟩

/-- How the markup of a paragraph is written (between braces). -/
inductive Props.Written : Props → Str → Prop
  | p (c : Char) (os : List POpt) (s : Str) : (c = 'p' ∨ c = 'P') → POpt.AllWritten os s → Props.Written (propsOf false os) (c :: s)
  | l (c : Char) (os : List POpt) (s : Str) : (c = 'l' ∨ c = 'L') → POpt.AllWritten os s → Props.Written (propsOf true os) (c :: s)

/-- A section: markup of a paragraph (`spec`: how it is written), and what follows. -/
structure Section where
  props : Props
  spec : Str
  items : List Item

/-- A document: what precedes the first markup of a paragraph, and sections. -/
structure Doc where
  intro : List Item
  sections : List Section

/-- How sections are written. -/
def sectionsRaw (ss : List Section) : Str := ss.flatMap fun s => '{' :: s.spec ++ '}' :: itemsRaw s.items

/-- How a document is written. -/
def Doc.raw (d : Doc) : Str := itemsRaw d.intro ++ sectionsRaw d.sections

/-- The text doesn't end in an escaped backslash. -/
def noBackslash (is : List Item) : Prop := is.getLast? ≠ some (.chr (.escaped '\\'))

/-- Well-formed sections. There is no escaped backslash immediately before the markup of a paragraph, and such markup isn't the end of the document. -/
def SectionsWF (before : List Item) : List Section → Prop
  | [] => True
  | s :: ss => noBackslash before ∧ s.props.Written s.spec ∧ (∀ i ∈ s.items, i.WF) ∧ (ss = [] → s.items ≠ []) ∧ SectionsWF s.items ss

/-- Well-formed documents. -/
def Doc.WF (d : Doc) : Prop := (∀ i ∈ d.intro, i.WF) ∧ SectionsWF d.intro d.sections

/-- After the markup of a paragraph, blanks are dropped, up to and including a line end. -/
def afterMarkup : List Item → List Item
  | .chr (.plain c) :: is => if c = '\n' then is else if isspace c then afterMarkup is else .chr (.plain c) :: is
  | is => is

/-- The lines of a text with formats: it is cut at line ends, but not inside formatted text. -/
def lines : List Item → List (List Item)
  | [] => [[]]
  | i :: is =>
    match lines is with
    | [] => [[i]]
    | l :: ls => if i = .chr (.plain '\n') then [] :: l :: ls else (i :: l) :: ls

/-- A line of blanks. -/
def blankLine (l : List Item) : Bool := blank (itemsText l)

/-- The lines, but for a last one that is blank. -/
def keptLines (is : List Item) : List (List Item) :=
  if (lines is).getLast?.any blankLine then (lines is).dropLast else lines is

/-- Maximal runs of lines that are all blank, or all not blank. -/
def runs : List (List Item) → List (List (List Item))
  | [] => []
  | l :: ls =>
    match runs ls with
    | (l' :: g) :: gs => if blankLine l = blankLine l' then (l :: l' :: g) :: gs else [l] :: (l' :: g) :: gs
    | _ => [[l]]

/-- A paragraph: its attributes and its lines. -/
structure Paragraph where
  props : Props
  lines : List (List Item)

/-- Attributes of a paragraph that is not marked. -/
def unmarked : Props := ⟨0, 0, true⟩

/-- The paragraphs of a section: the runs of its lines. The attributes are those of the first. -/
def sectionParagraphs (p : Props) (is : List Item) : List Paragraph :=
  match runs (keptLines is) with
  | [] => [⟨p, []⟩]
  | g :: gs => ⟨p, g⟩ :: gs.map fun g => ⟨unmarked, g⟩

/-- The paragraphs of a document. -/
def Doc.paragraphs (d : Doc) : List Paragraph :=
  (if d.intro = [] then [] else sectionParagraphs unmarked d.intro) ++ d.sections.flatMap fun s => sectionParagraphs s.props (afterMarkup s.items)

/-- The text of a line; there is nothing on a blank line. -/
def lineText (l : List Item) : Str := if blankLine l then [] else itemsText l

/-- The text of a paragraph, without formats. -/
def Paragraph.text (p : Paragraph) : Str := List.intercalate ['\n'] (p.lines.map lineText)

/-- The text without blanks around it. -/
def trim (s : Str) : Str := ((s.dropWhile isspace).reverse.dropWhile isspace).reverse

/-- So many blanks. -/
def spaces (n : Int) : Str := List.replicate n.toNat ' '

/-- The layout of a paragraph: either wrapped, as one line made of all its lines, or with its lines as they are, indented. -/
def Paragraph.layout (wrapper : Str → Str → Str → List Str) (p : Paragraph) : Str :=
  List.intercalate ['\n']
    (if p.props.wrap then wrapper (spaces p.props.indent1) (spaces p.props.indent2) (List.intercalate [' '] ((linesOf p.text).map trim))
     else (linesOf p.text).mapIdx fun k l => spaces (if k = 0 then p.props.indent1 else p.props.indent2) ++ l)

/-- All items of a document. -/
def Doc.items (d : Doc) : List Item := d.intro ++ d.sections.flatMap Section.items

variable {C : Type}

/-- The characters of an item, with their colours. -/
def Item.colored (s : Scheme C) : Item → List (Char × Option C)
  | .chr c => [(c.char, none)]
  | .mark f _ content => (charsText content).map fun c => (c, some (f.color s))

/-- The text to be highlighted (without blanks) of an item. -/
def Item.highlight (s : Scheme C) : Item → Option (Str × C)
  | .chr _ => none
  | .mark f _ content => some (solid (charsText content), f.color s)

/-- The characters of the output, with their colours. -/
def segColored (x : Seg C) : List (Char × Option C) := x.1.map fun c => (c, x.2)

/-- A highlighted piece of output, without blanks. -/
def segHighlight (x : Seg C) : Option (Str × C) := x.2.map fun c => (solid x.1, c)

/-- Colored characters that aren't blank. -/
def solidColored (l : List (Char × Option C)) : List (Char × Option C) := l.filter fun x => !isspace x.1

/-- What is needed of `textwrap`: it changes nothing but blanks. -/
def KeepsText (wrapper : Str → Str → Str → List Str) : Prop :=
  ∀ a b t, blank a → blank b → solid (wrapper a b t).flatten = solid t

end Marcel.Help
