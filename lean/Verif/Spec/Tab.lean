import Verif.Spec.Words
import Verif.Model.Tab

/-! # Specification of tab completion (for C67)

A word as typed without quotes is a list of characters each of which may be escaped. A path is split after its last slash into the directory and the beginning of a name.
Nothing here refers to the completer, except to the file system that it is given. -/

namespace Marcel.Tab

/-- A word typed without quotes: its characters, and whether each is preceded by a backslash. -/
abbrev Typed := List (Char × Bool)

/-- As it appears on the line. -/
def Typed.text (w : Typed) : Str := w.flatMap fun p => if p.2 then ['\\', p.1] else [p.1]

/-- What it stands for. -/
def Typed.value (w : Typed) : Str := w.map Prod.fst

/-- The unescaped characters of a word are those that belong to words; an unescaped quote would begin a quoted part. `shell`: the arguments of an executable. -/
def Typed.OK (shell : Bool) (w : Typed) : Prop :=
  ∀ p ∈ w, p.2 = false → isspace p.1 = false ∧ wordEnd shell p.1 = false ∧ p.1 ≠ '\'' ∧ p.1 ≠ '"' ∧ p.1 ≠ '\\'

/-- A word that begins with an unescaped `#`, `!`, `@` (or, in the arguments of executables, `=`, `,`, `:`) is not read as a word. -/
def Typed.Starts (w : Typed) : Prop := ∀ c, w.head? = some (c, false) → c ∉ ['#', '!', '@', '=', ',', ':']

/-- Slashes are not escaped. -/
def Typed.PlainSlashes (w : Typed) : Prop := ('/', true) ∉ w

/-- A path is a directory, ending with a slash unless it is empty, and a name. -/
structure Split (path dir name : Str) : Prop where
  whole : path = dir ++ name
  name_ : '/' ∉ name
  dir_ : dir = [] ∨ dir.getLast? = some '/'

/-- How the directory is named when it is looked up: nothing is the current directory, and the slash at the end does not count. -/
def dirName : Str → Option Str
  | [] => none
  | ['/'] => some ['/']
  | d => some d.dropLast

/-- The names in the directory that begin with what has been typed, in the order of the code points, each as often as it is listed. -/
structure Offered (listing : List Str) (begin_ : Str) (names : List Str) : Prop where
  same : names.Perm (listing.filter fun f => begin_.isPrefixOf f)
  order : names.Pairwise fun a b => ¬ b.map Char.toNat < a.map Char.toNat

/-- What is escaped: the six ASCII blanks, and what has a meaning for marcel or for shells. -/
def special (c : Char) : Prop := c ∈ [' ', '\t', '\n', '\r', Char.ofNat 11, Char.ofNat 12] ∨ c ∈ ['$', '!', '"', '&', '\'', '(', ')', '*', ':', ';', '<', '>', '?', '@', '[', '\\', '`', '{', '|']

instance (c : Char) : Decidable (special c) := by unfold special; infer_instance

/-- The characters of the name that are still to be typed can be: blanks and those that end words are among the ones that are escaped. -/
def Typable (shell : Bool) (s : Str) : Prop := ∀ c ∈ s, isspace c = true ∨ wordEnd shell c = true → special c

end Marcel.Tab
