import Verif.Model.Lexer

/-! # Model of tab completion

`/repo/marcel/tabcompleter.py`; `unescape` of `/repo/marcel/util.py` 226-244.

Which of the three kinds of completion (operator, flag, argument) applies is determined by the parser and is an argument of the model, and so is the token: what the parser's
`terminal_token_value` (parser.py 1022-1023) gives, i.e. the literal of the last token as written (`StrLit.original`), if the text ends with it, and otherwise the empty string.
`prompt_toolkit` inserts the text of the completion that the user accepts, after having removed as many characters as `start_position` says. -/

namespace Marcel.Tab

/-- `string.whitespace` -/
def whitespace : List Char := [' ', '\t', '\n', '\r', Char.ofNat 11, Char.ofNat 12]

/-- `NEEDS_ESCAPE` tabcompleter.py 33 -/
def needsEscape : List Char :=
  whitespace ++ ['$', '!', '"', '&', '\'', '(', ')', '*', ':', ';', '<', '>', '?', '@', '[', '\\', '`', '{', '|']

/-- `Completion` of prompt_toolkit: the text to be inserted, what is displayed, and how many characters before the cursor are replaced. -/
structure Completion where
  text : Str
  display : Str
  remove : Nat
deriving DecidableEq, Repr

/-- What prompt_toolkit does when a completion is accepted, the cursor being at the end of the line. -/
def Completion.accept (c : Completion) (line : Str) : Str := line.take (line.length - c.remove) ++ c.text

/-! ## Operators and flags -/

/-- `string_completion` 169-173 -/
def stringCompletion (token completion : Str) : Completion := ⟨completion.drop token.length ++ [' '], completion, 0⟩

/-- `pipeline_syntax` 116-123 -/
def pipelineSyntax (token : Str) : Bool := token == ['|'] || token == ['(', '|'] || token.getLast? == some ':'

/-- `complete_op` 115-139. `ops` are the public operators, `exes` the names of executables. -/
def completeOp (ops exes : List Str) (token : Str) : List Completion :=
  let t := if pipelineSyntax token then [] else token
  let found := ops.filter fun op => t.length = 0 || t.isPrefixOf op
  if found.isEmpty then (exes.filter fun e => t.isPrefixOf e).map (stringCompletion t)
  else found.map (stringCompletion t)

/-- Order of strings: by code points. -/
def strLt : Str → Str → Bool
  | [], [] => false
  | [], _ :: _ => true
  | _ :: _, [] => false
  | a :: as, b :: bs => if a = b then strLt as bs else a.toNat < b.toNat

/-- Insertion into a sorted list. -/
def insertStr (x : Str) : List Str → List Str
  | [] => [x]
  | y :: ys => if strLt y x then y :: insertStr x ys else x :: y :: ys

/-- `sorted` -/
def sorted (l : List Str) : List Str := l.foldr insertStr []

/-- `complete_flag` 141-145, `flags` being those of the operator -/
def completeFlag (flags : List Str) (token : Str) : List Completion :=
  ((sorted flags).filter fun f => token.isPrefixOf f).map (stringCompletion token)

/-! ## Arguments -/

/-- `resolve_escapes` 220-234, and `marcel.util.unescape` (util.py 226-244) -/
def resolveEscapes : Str → Str
  | [] => []
  | [c] => if c = '\\' then [] else [c]
  | c :: d :: cs => if c = '\\' then d :: resolveEscapes cs else c :: resolveEscapes (d :: cs)

/-- `Quote.unquote` 51-58 -/
def unquote (x : Str) : Str :=
  match x with
  | [] => []
  | c :: cs =>
    let y := if isQuote c then cs else c :: cs
    match y.getLast? with
    | none => y
    | some d => if isQuote d then y.dropLast else y

/-- `Quote.split_leading_quote` 47-49 -/
def splitLeadingQuote : Str → Option Char × Str
  | [] => (none, [])
  | c :: cs => if isQuote c then (some c, cs) else (none, c :: cs)

/-- `rindex('/')` and the slices before and after it, 299-309 -/
def splitSlash : Str → Option (Str × Str)
  | [] => none
  | c :: cs =>
    match splitSlash cs with
    | some (a, b) => some (c :: a, b)
    | none => if c = '/' then some ([], cs) else none

/-- The state of a `FilenameHandler` 292-315 -/
structure Handler where
  quote : Option Char
  basedir : Option Str
  prefix_ : Str
  replacement : Option Str
deriving DecidableEq, Repr

/-- `compute_token_escaping` 376-382 -/
def tokenEscaping (unquoted : Str) : Option Str :=
  match unquoted.reverse with
  | [] => none
  | c :: ds => if needsEscape.contains c && !(ds.head? == some '\\') then some ['\\', c] else none

/-- `FilenameHandler.__init__` 294-315 -/
def handler (token : Str) : Handler :=
  let (q, u) := splitLeadingQuote token
  let (b, p) := match splitSlash u with
    | some ([], p) => (some ['/'], p)
    | some (b, p) => (some b, p)
    | none => (none, u)
  ⟨q, b, p, tokenEscaping u⟩

/-- What `os.listdir` does. -/
inductive Listing
  | names (l : List Str)
  | notFound
  | error          -- NotADirectoryError, PermissionError
deriving DecidableEq, Repr

/-- The file system: `os.listdir`, `Path.is_dir` by name, `Path.expanduser` on names; `none` is the current directory. -/
structure Files where
  list : Option Str → Listing
  isDir : Option Str → Str → Bool
  expand : Str → Str

/-- 317-325, the directory that is listed: `expanduser` 371-374. An empty name is the current directory. -/
def Handler.dir (h : Handler) (fs : Files) : Option Str :=
  match h.basedir with
  | none => none
  | some b => if resolveEscapes b = [] then none else some (if h.quote = some '"' then resolveEscapes b else fs.expand (resolveEscapes b))

/-- `complete_arg` 317-325, `elements_matching_prefix` 217-218; `none`: the exception escapes. -/
def Handler.completeArg (h : Handler) (fs : Files) : Option (List Str) :=
  match fs.list (h.dir fs) with
  | .names l => some (sorted (l.filter fun f => (resolveEscapes h.prefix_).isPrefixOf f))
  | .notFound => some []
  | .error => none

/-- 353-356: the suffix with escapes -/
def escapeSuffix (s : Str) : Str := s.flatMap fun c => if needsEscape.contains c then ['\\', c] else [c]

/-- `completion_text` 345-369; the directory is named by `basedir` as typed. -/
def Handler.completionText (h : Handler) (fs : Files) (prefix_ suffix : Str) : Str :=
  (match h.quote with
   | none => (h.replacement.getD []) ++ escapeSuffix suffix
   | some _ => suffix) ++
  (if fs.isDir (h.basedir.map fs.expand) (prefix_ ++ suffix) then ['/'] else match h.quote with
    | some q => [q, ' ']
    | none => [' '])

/-- `completion` 327-334; `cursor_adjustment` 313, 352 -/
def Handler.completion (h : Handler) (fs : Files) (arg : Str) : Completion :=
  let n := (resolveEscapes h.prefix_).length
  ⟨h.completionText fs (arg.take n) (arg.drop n), arg, if h.quote.isNone && h.replacement.isSome then 1 else 0⟩

/-- `FilenameHandler` as used in 148-151 -/
def completeFilename (fs : Files) (token : Str) : Option (List Completion) :=
  ((handler token).completeArg fs).map fun l => l.map ((handler token).completion fs)

/-- `HelpTopicHandler` 236-251 -/
def completeTopic (topics : List Str) (token : Str) : List Completion :=
  (topics.filter fun t => (resolveEscapes token).isPrefixOf t).map fun t => ⟨t.drop token.length, t, 0⟩

/-- `UsernameHandler` 264-277 -/
def completeUser (users : List Str) (token : Str) : List Completion :=
  ((sorted users).filter fun u => (resolveEscapes token.tail).isPrefixOf u).map fun u =>
    ⟨u.drop (resolveEscapes token.tail).length ++ ['/'], '~' :: u, 0⟩

/-- `str.strip().startswith('help')`, `help_command` 165-166 -/
def helpCommand (line : Str) : Bool := ['h', 'e', 'l', 'p'].isPrefixOf (skipWs line)

/-- `select` 159-163: user names are completed before the first slash. -/
def userToken (token : Str) : Bool := (unquote token).head? == some '~' && !(unquote token).contains '/'

/-- `complete_arg` 148-151 -/
def completeArgument (fs : Files) (users topics : List Str) (line token : Str) : Option (List Completion) :=
  if helpCommand line then some (completeTopic topics token)
  else if userToken token then some (completeUser users token)
  else completeFilename fs token

end Marcel.Tab
