/-! # What a terminal shows

The part of ECMA-48 that concerns text attributes: `ESC [ p1 ; p2 … m` sets attributes (0: none, 1: bold, 3: italic, 38;5;n: colour n of the 256-colour palette),
other characters are shown with the attributes that are set. Nothing here refers to the model. -/

namespace Marcel.Terminal

structure Attr where
  bold : Bool := false
  italic : Bool := false
  color : Option Nat := none
deriving DecidableEq, Repr

/-- Nothing set. -/
def plain : Attr := {}

/-- Where the terminal is in reading its input: text, after ESC, after ESC [ and some characters. -/
inductive Mode
  | text
  | escape
  | control (read : List Char)
deriving DecidableEq, Repr

structure State where
  attr : Attr
  mode : Mode
deriving DecidableEq, Repr

/-- The numbers of a control sequence, separated by semicolons. -/
def numbers (current : Nat) : List Char → List Nat
  | [] => [current]
  | c :: cs => if c = ';' then current :: numbers 0 cs else numbers (10 * current + (c.toNat - 48)) cs

/-- Setting one attribute. -/
def setAttr (a : Attr) (n : Nat) : Attr :=
  if n = 0 then plain else if n = 1 then { a with bold := true } else if n = 3 then { a with italic := true } else a

/-- Setting attributes; colours take three numbers. -/
def setAttrs (a : Attr) : List Nat → Attr
  | [] => a
  | [n] => setAttr a n
  | [n, m] => setAttr (setAttr a n) m
  | n :: m :: k :: ns => if n = 38 ∧ m = 5 then setAttrs { a with color := some k } ns else setAttrs (setAttr a n) (m :: k :: ns)

/-- One character. -/
def step (s : State) (c : Char) : State × Option (Char × Attr) :=
  match s.mode with
  | .text => if c = Char.ofNat 27 then (⟨s.attr, .escape⟩, none) else (s, some (c, s.attr))
  | .escape => if c = '[' then (⟨s.attr, .control []⟩, none) else (⟨s.attr, .text⟩, none)
  | .control l => if c = 'm' then (⟨setAttrs s.attr (numbers 0 l), .text⟩, none) else (⟨s.attr, .control (l ++ [c])⟩, none)

/-- What is shown for a text, and the state afterwards. -/
def shows (s : State) : List Char → List (Char × Attr) × State
  | [] => ([], s)
  | c :: cs => ((step s c).2.toList ++ (shows (step s c).1 cs).1, (shows (step s c).1 cs).2)

/-- A terminal ready for text, with nothing set. -/
def ready : State := ⟨plain, .text⟩

end Marcel.Terminal
