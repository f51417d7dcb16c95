import Verif.Model.Lexer

/-! # Specification of words on the command line (for C30, C31)

A word is a sequence of pieces, each either an ordinary character, an escaped character, a text in single quotes,
or a text in double quotes. Nothing here refers to the lexer's scanning functions. -/

namespace Marcel

/-- What can occur between double quotes: a character, or a backslash followed by a character. -/
inductive DItem
  | chr (c : Char)
  | pair (c : Char)
deriving DecidableEq, Repr

namespace DItem
/-- As typed. -/
def raw : DItem → Str
  | chr c => [c]
  | pair c => ['\\', c]
/-- As kept: of a pair of backslashes only one. -/
def kept : DItem → Str
  | chr c => [c]
  | pair c => if c = '\\' then ['\\'] else ['\\', c]
def WF : DItem → Prop
  | chr c => c ≠ '"' ∧ c ≠ '\\'
  | pair _ => True
end DItem

inductive Piece
  | plain (c : Char)
  | escaped (c : Char)
  | single (s : Str)
  | double (ds : List DItem)
deriving DecidableEq, Repr

namespace Piece
/-- As typed. -/
def raw : Piece → Str
  | plain c => [c]
  | escaped c => ['\\', c]
  | single s => '\'' :: s ++ ['\'']
  | double ds => '"' :: ds.flatMap DItem.raw ++ ['"']
/-- As kept in the token. -/
def kept : Piece → Str
  | plain c => [c]
  | escaped c => ['\\', c]
  | single s => '\'' :: s ++ ['\'']
  | double ds => '"' :: ds.flatMap DItem.kept ++ ['"']
/-- `term` says which characters (other than whitespace) end a word. -/
def WF (term : Char → Bool) : Piece → Prop
  | plain c => isspace c = false ∧ term c = false ∧ c ≠ '\'' ∧ c ≠ '"' ∧ c ≠ '\\'
  | escaped _ => True
  | single s => '\'' ∉ s
  | double ds => ∀ d ∈ ds, d.WF
end Piece

/-- The end of the text, or a character that ends words. -/
def Boundary (term : Char → Bool) (rest : Str) : Prop :=
  ∀ c cs, rest = c :: cs → isspace c = true ∨ term c = true

/-- The characters ending a word in marcel's own syntax and in the arguments of executables. -/
def wordEnd (shell : Bool) (c : Char) : Bool :=
  if shell then c ∈ ['(', ')', '|', '<', '>'] else c ∈ ['(', ')', '|', '<', '>', '=', '#', ',', ':']

end Marcel
