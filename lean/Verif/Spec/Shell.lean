import Verif.Model.Lexer

/-! # Specification: how a shell splits a simple command into words (for C70)

POSIX, "Shell Command Language", 2.2 (quoting) and 2.3 (token recognition), for commands without operators and expansions: a text that has any is not a command in the sense of `Command`. -/

namespace Marcel.Shell

/-- Characters that separate words. -/
def blank (c : Char) : Prop := c = ' ' ∨ c = '\t'

/-- Characters that, not quoted, mean something else than themselves, or may do so in some place. -/
def Active (c : Char) : Prop :=
  c ∈ ['|', '&', ';', '<', '>', '(', ')', '$', '`', '\\', '"', '\'', '*', '?', '[', ']', '#', '~', '!', '{', '}', '^', '\n']

/-- A part of a word: as written, and what it stands for. -/
inductive Part : Str → Str → Prop
  | plain (c : Char) : ¬ blank c → ¬ Active c → Part [c] [c]
  | escaped (c : Char) : c ≠ '\n' → Part ['\\', c] [c]
  | single (s : Str) : '\'' ∉ s → Part ('\'' :: s ++ ['\'']) s
  | double (s : Str) : (∀ c ∈ s, c ∉ ['"', '\\', '$', '`', '!']) → Part ('"' :: s ++ ['"']) s

/-- A word is one part or more without anything in between. -/
inductive Word : Str → Str → Prop
  | one {t v : Str} : Part t v → Word t v
  | cons {t v t' v' : Str} : Part t v → Word t' v' → Word (t ++ t') (v ++ v')

/-- A command is one word or more with blanks in between. The second argument: the words, as the program gets them. -/
inductive Command : Str → List Str → Prop
  | one {t v : Str} : Word t v → Command t [v]
  | cons {t v b t' : Str} {ws : List Str} : Word t v → b ≠ [] → (∀ c ∈ b, blank c) → Command t' ws → Command (t ++ b ++ t') (v :: ws)

/-- A name that the shell takes as it is. -/
def Plain (s : Str) : Prop := s ≠ [] ∧ ∀ c ∈ s, isspace c = false ∧ ¬ Active c

end Marcel.Shell
