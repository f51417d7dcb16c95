import Verif.Spec.Exprs
import Verif.Model.Parser

/-! # Specification of marcel's concrete syntax (for C33, C34)

Abstract commands, how they are written, and what they denote. The grammar is the one in the comment at
`/repo/marcel/parser.py` 832-908. Nothing here refers to the parsing functions; the denotation uses the result type of
the parser (`PCmd`). -/

namespace Marcel

/-- A word: a non-empty sequence of pieces. -/
abbrev Word := List Piece

/-- A word as typed, and as kept in its token. -/
def Word.raw (w : Word) : Str := w.flatMap Piece.raw
def Word.kept (w : Word) : Str := w.flatMap Piece.kept

mutual
/-- An argument: a word, an expression in parentheses, or a pipeline in `(| ... |)`. -/
inductive SArg
  | word (w : Word)
  | expr (src : Str)
  | pipe (p : SPipe)
/-- An operator with its arguments: a name, `@`, `!` or `!!`; or a bare expression (short for `map`). -/
inductive SOp
  | named (w : Word) (args : List SArg)
  | remote (args : List SArg)
  | run (twice : Bool) (args : List SArg)
  | bare (src : Str)
/-- A pipeline: parameters, an optional input (`f <` or `v <$`), operators, and an optional output
(`> f`, `>> f`, `>$ v`, `>>$ v`). The Boolean of a redirection says whether it is to/from a variable, that of an output
whether it appends. -/
inductive SPipe
  | mk (params : List Word) (inp : Option (Bool × Word)) (ops : List SOp) (out : Option (Bool × Bool × Word))
end

inductive SCmd
  | assign (var : Word) (value : SArg)
  | pipeline (p : SPipe)

/-! ## Writing -/

/-- Symbols, words and expressions, as written. -/
inductive PT
  | word (w : Word)
  | expr (src : Str)
  | pipe | remote | run (twice : Bool) | begin_ | end_ | assign | comma | colon
  | gt (var append : Bool)
  | lt (var : Bool)

def PT.text : PT → Str
  | .word w => w.raw
  | .expr src => '(' :: src ++ [')']
  | .pipe => ['|']
  | .remote => ['@']
  | .run true => ['!', '!']
  | .run false => ['!']
  | .begin_ => ['(', '|']
  | .end_ => ['|', ')']
  | .assign => ['=']
  | .comma => [',']
  | .colon => [':']
  | .gt false false => ['>']
  | .gt false true => ['>', '>']
  | .gt true false => ['>', '$']
  | .gt true true => ['>', '>', '$']
  | .lt false => ['<']
  | .lt true => ['<', '$']

/-- Whether the second may follow the first without a blank between them: not two words, say, or an arrow and a word starting with `$`. -/
def Tight : PT → PT → Prop
  | .word _, q => match q with
    | .pipe | .end_ | .begin_ | .assign | .comma | .colon | .gt _ _ | .lt _ => True
    | _ => False
  | .expr _, q => match q with
    | .word _ | .expr _ => False
    | _ => True
  | .gt _ _, q => match q with
    | .word w => w.raw.head? ≠ some '$'
    | .gt _ _ => False
    | _ => True
  | .lt _, q => match q with
    | .word w => w.raw.head? ≠ some '$'
    | _ => True
  | .run _, q => match q with
    | .run _ => False
    | _ => True
  | _, _ => True

/-- Blanks (and tabs, line ends, ...), possibly none. -/
def Blanks (s : Str) : Prop := ∀ c ∈ s, isspace c = true

/-- The end of the text, possibly after blanks; or, after at least one blank, a comment. -/
inductive Ending : Str → Prop
  | blanks (s : Str) : Blanks s → Ending s
  | comment (s cs : Str) : Blanks s → s ≠ [] → Ending (s ++ '#' :: cs)

/-- The text consists of these, with blanks between them, except that blanks may be left out where this is unambiguous; a comment may follow. -/
inductive Written : List PT → Str → Prop
  | last (p : PT) (s : Str) : Ending s → Written [p] (p.text ++ s)
  | cons (p q : PT) (ps : List PT) (s text : Str) : Blanks s → (s = [] → Tight p q) → Written (q :: ps) text → Written (p :: q :: ps) (p.text ++ (s ++ text))

/-- `a , b , c :` -/
def paramToks : List Word → List PT
  | [] => []
  | [w] => [.word w, .colon]
  | w :: ws => .word w :: .comma :: paramToks ws

def inpToks : Option (Bool × Word) → List PT
  | none => []
  | some (v, w) => [.word w, .lt v]

def outToks : Option (Bool × Bool × Word) → List PT
  | none => []
  | some (v, a, w) => [.gt v a, .word w]

mutual
def SArg.toks : SArg → List PT
  | .word w => [.word w]
  | .expr src => [.expr src]
  | .pipe p => .begin_ :: (p.toks ++ [.end_])
def argsToks : List SArg → List PT
  | [] => []
  | a :: as => a.toks ++ argsToks as
def SOp.toks : SOp → List PT
  | .named w args => .word w :: argsToks args
  | .remote args => .remote :: argsToks args
  | .run b args => .run b :: argsToks args
  | .bare src => [.expr src]
/-- Operators are separated by `|`. -/
def opsToks : List SOp → List PT
  | [] => []
  | o :: os => o.toks ++ moreOpsToks os
def moreOpsToks : List SOp → List PT
  | [] => []
  | o :: os => .pipe :: (o.toks ++ moreOpsToks os)
def SPipe.toks : SPipe → List PT
  | .mk params inp ops out => paramToks params ++ (inpToks inp ++ (opsToks ops ++ outToks out))
end

def SCmd.toks : SCmd → List PT
  | .assign w a => .word w :: .assign :: a.toks
  | .pipeline p => p.toks

/-- The text is a way to write the command. -/
def SCmd.WrittenAs (c : SCmd) (text : Str) : Prop := ∃ s t, Blanks s ∧ Written c.toks t ∧ text = s ++ t

/-- The command as text, with one blank after each word, expression and symbol. -/
def SCmd.text (c : SCmd) : Str := c.toks.flatMap fun p => p.text ++ [' ']

/-! ## Meaning -/

/-- The string literal a word denotes (`StrLit.of` is specified by C30). -/
def Word.lit (w : Word) : StrLit :=
  match StrLit.of w.kept with
  | .ok l => l
  | .error _ => ⟨[], none, false, []⟩

def Word.tok (shell : Bool) (w : Word) : Tok := .str shell w.lit w.raw

/-- Reading from a file or variable. -/
def inpOps : Option (Bool × Word) → List POp
  | none => []
  | some (true, w) => [.mk (.made "load".toList) [.tok (w.tok false)]]
  | some (false, w) => [.mk (.made "read".toList) [.tok (w.tok false)]]

/-- Writing to a file or variable, appending or not. -/
def outOps : Option (Bool × Bool × Word) → List POp
  | none => []
  | some (true, false, w) => [.mk (.made "store".toList) [.tok (w.tok false)]]
  | some (true, true, w) => [.mk (.made "store".toList) [.flag "--append".toList, .tok (w.tok false)]]
  | some (false, false, w) => [.mk (.made "write".toList) [.tok (w.tok false)]]
  | some (false, true, w) => [.mk (.made "write".toList) [.flag "--append".toList, .tok (w.tok false)]]

mutual
def SArg.meaning (isShell : Str → Bool) (shell : Bool) : SArg → PArg
  | .word w => .tok (w.tok shell)
  | .expr src => .tok (.expr src)
  | .pipe p => .pipe (p.meaning isShell)
def argsMeaning (isShell : Str → Bool) (shell : Bool) : List SArg → List PArg
  | [] => []
  | a :: as => a.meaning isShell shell :: argsMeaning isShell shell as
def SOp.meaning (isShell : Str → Bool) : SOp → POp
  | .named w args => .mk (.word w.lit w.raw) (argsMeaning isShell (isShell w.kept) args)
  | .remote args => .mk .remote (argsMeaning isShell false args)
  | .run b args => .mk (.run b) (argsMeaning isShell false args)
  | .bare src => .mk (.made "map".toList) [.tok (.expr src)]
def opsMeaning (isShell : Str → Bool) : List SOp → List POp
  | [] => []
  | o :: os => o.meaning isShell :: opsMeaning isShell os
def SPipe.meaning (isShell : Str → Bool) : SPipe → PPipe
  | .mk params inp ops out =>
    .mk (params.map Word.kept) (inpOps inp ++ (opsMeaning isShell ops ++ outOps out))
end

def SCmd.meaning (isShell : Str → Bool) : SCmd → PCmd
  | .assign w a => .assign w.kept (a.meaning isShell false)
  | .pipeline p => .pipeline (p.meaning isShell)

/-! ## Well-formedness -/

/-- A word is written so that it starts like a word (and not like another token), all its pieces are well-formed, and
the literal is complete (does not end in a lone backslash — automatic — and has no missing quote). -/
structure Word.WF (w : Word) : Prop where
  pieces : ∀ p ∈ w, p.WF (wordEnd false)
  start : ∃ c cs, w.raw = c :: cs ∧ isspace c = false ∧ c ∉ ['(', ')', '|', '@', '!', '=', ',', ':', '#', '>', '<']
  lit : ∃ l, StrLit.of w.kept = .ok l ∧ l.missingQuote = none

/-- In an argument of a shell command also `=`, `,` and `:` may occur (not at its beginning). -/
structure Word.ShellWF (w : Word) : Prop where
  pieces : ∀ p ∈ w, p.WF (fun c => wordEnd true c || c == '#')
  start : ∃ c cs, w.raw = c :: cs ∧ isspace c = false ∧ c ∉ ['(', ')', '|', '@', '!', '=', ',', ':', '#', '>', '<']
  lit : ∃ l, StrLit.of w.kept = .ok l ∧ l.missingQuote = none

/-- A word as an argument, of a shell command or another. -/
def Word.ArgWF (shell : Bool) (w : Word) : Prop := if shell then w.ShellWF else w.WF

/-- An expression in parentheses is balanced, and doesn't look like the beginning of a pipeline. -/
structure ExprWF (src : Str) : Prop where
  balanced : Balanced src
  notBegin : src.head? ≠ some '|'

/-- Words and expressions only. -/
def SArg.simple : SArg → Prop
  | .pipe _ => False
  | _ => True

mutual
def SArg.WF (isShell : Str → Bool) (shell : Bool) : SArg → Prop
  | .word w => w.ArgWF shell
  | .expr src => ExprWF src
  | .pipe p => p.WF isShell
def argsWF (isShell : Str → Bool) (shell : Bool) : List SArg → Prop
  | [] => True
  | a :: as => a.WF isShell shell ∧ argsWF isShell shell as
/-- The arguments of a shell command are words and expressions only. -/
def SOp.WF (isShell : Str → Bool) : SOp → Prop
  | .named w args => w.WF ∧ argsWF isShell (isShell w.kept) args ∧ (isShell w.kept = true → ∀ a ∈ args, a.simple)
  | .remote args => argsWF isShell false args
  | .run _ args => argsWF isShell false args
  | .bare src => ExprWF src
def opsWF (isShell : Str → Bool) : List SOp → Prop
  | [] => True
  | o :: os => o.WF isShell ∧ opsWF isShell os
/-- A pipeline has at least one operator or redirection. -/
def SPipe.WF (isShell : Str → Bool) : SPipe → Prop
  | .mk params inp ops out =>
    (∀ w ∈ params, w.WF) ∧ (∀ v w, inp = some (v, w) → w.WF) ∧ opsWF isShell ops ∧
    (∀ v a w, out = some (v, a, w) → w.WF) ∧ (inp.isSome ∨ ops ≠ [] ∨ out.isSome)
end

def SCmd.WF (isShell : Str → Bool) : SCmd → Prop
  | .assign w a => w.WF ∧ a.WF isShell false
  | .pipeline p => p.WF isShell

end Marcel
