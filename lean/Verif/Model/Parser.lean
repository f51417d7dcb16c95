import Verif.Model.Lexer

/-! # Model of marcel's parser

`/repo/marcel/parser.py` lines 796-826 (`Tokens`) and 949-1258 (`Parser`).

The lexer is run on demand, and which characters end a string depends on whether the arguments of a shell command are
being parsed (`shell_op`), so the parser is modelled on text, not on a list of tokens. Its state is the text that
remains. `self.token` is passed explicitly where it is used.

Not modelled here: turning the parsed (operator, arguments) pairs into operators (`create_op`, parser.py 1264-1334;
see `Verif.Model.Args` for the argument parsing), the compilation of expressions, the recording of source text, and
the bookkeeping for tab completion (`op_arg_context`, `count_arg`, `pipeline_stack`), none of which influences
parsing — except that `set_op_arg_context` and `PipelineSourceTracker.__exit__` peek at the next token, which can
raise; those peeks are modelled.

Recursion in the model is bounded by `fuel`; `C33_terminates` shows that the bound used by `parse` is never hit. -/

namespace Marcel

/-- The operator position of `op_args` (parser.py 1157, 1172-1177, 1137, 1141): a string token, a string constructed
by the parser, `@`, or `!`/`!!`. -/
inductive OpTok
  | word (lit : StrLit) (raw : Str)
  | made (name : Str)
  | remote
  | run (twice : Bool)
deriving DecidableEq, Repr

mutual
/-- An argument (parser.py 1179-1196, 1139-1141): a token, the string `--append` inserted by a redirection, or a
pipeline. -/
inductive PArg
  | tok (t : Tok)
  | flag (s : Str)
  | pipe (p : PPipe)
/-- parser.py 1119-1133: a pipeline: its parameters and its (operator, arguments) pairs. -/
inductive PPipe
  | mk (params : List Str) (ops : List POp)
/-- parser.py 1153-1170. -/
inductive POp
  | mk (op : OpTok) (args : List PArg)
end

/-- parser.py 1037-1067: a command. -/
inductive PCmd
  | assign (var : Str) (value : PArg)
  | pipeline (p : PPipe)

/-- parser.py 812-822, `Tokens.peek`: the next `n` tokens, or `None` if there are fewer. The lexer is reset
afterwards, so there is no new state to return. -/
def peekN (shell : Bool) : Nat → Str → Except LexErr (Option (List Tok))
  | 0, _ => .ok (some [])
  | n + 1, text => do
    match ← nextToken shell text with
    | none => .ok none
    | some (t, rest) =>
      match ← peekN shell n rest with
      | none => .ok none
      | some ts => .ok (some (t :: ts))

/-- parser.py 1245-1248: are the tokens of the expected types? -/
def typesMatch : List (Tok → Bool) → List Tok → Bool
  | p :: ps, t :: ts => p t && typesMatch ps ts
  | _, _ => true

/-- parser.py 1240-1250, `next_token` with at least one expected type: if the next tokens are of the expected types,
the first of them and the text after it; otherwise `none`. -/
def expect (shell : Bool) (types : List (Tok → Bool)) (text : Str) : Except LexErr (Option (Tok × Str)) := do
  match ← peekN shell types.length text with
  | none => .ok none
  | some ts => if typesMatch types ts then nextToken shell text else .ok none

/-- The text of a string token as a Python string: `token.value()` (parser.py 418-419) is a `StringLiteral`, whose
value as a `str` is the literal as written. -/
def Tok.value : Tok → Str
  | .str _ lit _ => lit.original
  | _ => []

/-- parser.py 1221-1235, `vars`; `tok` is `self.token`. -/
def pVars : Nat → Option Tok → List Str → Str → Except LexErr (List Str × Str)
  | 0, _, _, _ => .error .outOfFuel
  | _ + 1, none, _, _ => .error .attributeError
  | fuel + 1, some t, vars, text =>
    if t.isStr then do
      match ← expect false [Tok.isComma] text with
      | some (_, rest) =>
        match ← expect false [Tok.isStr] rest with
        | some (t', rest') => pVars fuel (some t') (vars ++ [t.value]) rest'
        | none => .error .syntaxError
      | none =>
        match ← nextToken false text with
        | some (t', rest) => pVars fuel (some t') (vars ++ [t.value]) rest
        | none => pVars fuel none (vars ++ [t.value]) text
    else if t.isColon then .ok (vars, text)
    else .error .syntaxError

/-- parser.py 1135-1137 -/
def redirectIn (lt source : Tok) : POp :=
  match lt with
  | .lt true => .mk (.made "load".toList) [.tok source]
  | _ => .mk (.made "read".toList) [.tok source]

/-- parser.py 1139-1141 -/
def redirectOut (gt target : Tok) : POp :=
  match gt with
  | .gt true true => .mk (.made "store".toList) [.flag "--append".toList, .tok target]
  | .gt true false => .mk (.made "store".toList) [.tok target]
  | .gt false true => .mk (.made "write".toList) [.flag "--append".toList, .tok target]
  | _ => .mk (.made "write".toList) [.tok target]

/-- parser.py 1172-1177, `op`. -/
def pOp (text : Str) : Except LexErr (OpTok × Str) := do
  match ← expect false [Tok.isStr] text with
  | some (.str _ lit raw, rest) => .ok (.word lit raw, rest)
  | some _ => .error .syntaxError   -- not reached: the token is a string
  | none =>
    match ← expect false [Tok.isRemote] text with
    | some (_, rest) => .ok (.remote, rest)
    | none =>
      match ← expect false [Tok.isRun] text with
      | some (.run b, rest) => .ok (.run b, rest)
      | _ => .error .syntaxError

/-- parser.py 965-972, `shell_args`: whether the arguments of an operator are parsed as shell arguments. For a word
this depends on the environment (`isShell`); for `@` and `!` it is false, since these are builtin operators and there
is no operator module of that name. -/
def OpTok.shellArgs (isShell : Str → Bool) : OpTok → Bool
  | .word lit _ => isShell lit.original
  | .made _ => false
  | .remote => false
  | .run _ => false

/-- parser.py 1216-1219: a string argument with a missing quote is refused. -/
def checkQuote (t : Tok) : Except LexErr PArg :=
  match t with
  | .str _ lit _ => if lit.missingQuote.isSome then .error .missingQuote else .ok (.tok t)
  | _ => .ok (.tok t)

/-- parser.py 1192-1196, 1217-1219: `shell_arg`. -/
def pShellArg (text : Str) : Except LexErr (Option PArg × Str) := do
  match ← expect true [Tok.isExpr] text with
  | some (t, rest) => .ok (some (.tok t), rest)
  | none =>
    match ← expect true [Tok.isShellStr] text with
    | some (t, rest) => do .ok (some (← checkQuote t), rest)
    | none => .ok (none, text)

/-- parser.py 1109-1115, 1090-1095: an optional `> target` at the end of an operator sequence. -/
def pRedirectOut (ops : List POp) (text : Str) : Except LexErr (List POp × Str) := do
  match ← expect false [Tok.isGt, Tok.isStr] text with
  | some (gt, rest) =>
    match ← expect false [Tok.isStr] rest with
    | some (target, rest') => .ok (ops ++ [redirectOut gt target], rest')
    | none => .error .syntaxError   -- not reached (`assert found_string`)
  | none => .ok (ops, text)

mutual
/-- parser.py 1179-1219, `arg`; `shell` is `self.shell_op`. -/
def pArg (isShell : Str → Bool) : Nat → Bool → Str → Except LexErr (Option PArg × Str)
  | 0, _, _ => .error .outOfFuel
  | fuel + 1, shell, text => do
    let _ ← nextToken shell text   -- 1199: set_op_arg_context peeks
    if shell then pShellArg text
    else
      match ← expect false [Tok.isBegin] text with
      | some (_, rest) => do
        let (p, rest') ← pPipeline isShell fuel rest
        match ← expect false [Tok.isEnd] rest' with
        | some (_, rest'') => .ok (some (.pipe p), rest'')
        | none => .error .syntaxError
      | none =>
        match ← expect false [Tok.isStr] text with
        | some (t, rest) => do .ok (some (← checkQuote t), rest)
        | none =>
          match ← expect false [Tok.isExpr] text with
          | some (t, rest) => .ok (some (.tok t), rest)
          | none => .ok (none, text)
termination_by structural n => n

/-- parser.py 1165-1168: the loop collecting arguments. -/
def pArgs (isShell : Str → Bool) : Nat → Bool → List PArg → Str → Except LexErr (List PArg × Str)
  | 0, _, _, _ => .error .outOfFuel
  | fuel + 1, shell, acc, text => do
    match ← pArg isShell fuel shell text with
    | (some a, rest) => pArgs isShell fuel shell (acc ++ [a]) rest
    | (none, rest) => .ok (acc, rest)
termination_by structural n => n

/-- parser.py 1154-1170, `op_args`. -/
def pOpArgs (isShell : Str → Bool) : Nat → Str → Except LexErr (POp × Str)
  | 0, _ => .error .outOfFuel
  | fuel + 1, text => do
    match ← expect false [Tok.isExpr] text with
    | some (t, rest) => .ok (.mk (.made "map".toList) [.tok t], rest)
    | none => do
      let (op, rest) ← pOp text
      let (args, rest') ← pArgs isShell fuel (op.shellArgs isShell) [] rest
      .ok (.mk op args, rest')
termination_by structural n => n

/-- parser.py 1146-1151, `op_sequence`. -/
def pOpSeq (isShell : Str → Bool) : Nat → Str → Except LexErr (List POp × Str)
  | 0, _ => .error .outOfFuel
  | fuel + 1, text => do
    let (o, rest) ← pOpArgs isShell fuel text
    match ← expect false [Tok.isPipe] rest with
    | some (_, rest') => do
      let (os, rest'') ← pOpSeq isShell fuel rest'
      .ok (o :: os, rest'')
    | none => .ok ([o], rest)
termination_by structural n => n

/-- parser.py 1070-1117 and 1128-1130: the operators of a pipeline, after its parameters. -/
def pPipelineOps (isShell : Str → Bool) : Nat → Str → Except LexErr (List POp × Str)
  | 0, _ => .error .outOfFuel
  | fuel + 1, text => do
    match ← expect false [Tok.isStr, Tok.isLt] text with
    | some (source, rest) =>
      match ← expect false [Tok.isLt] rest with
      | none => .error .syntaxError   -- not reached (`assert found_lt`)
      | some (lt, rest) =>
        match ← expect false [Tok.isGt] rest with
        | some (gt, rest) =>
          match ← expect false [Tok.isStr] rest with
          | some (target, rest) => .ok ([redirectIn lt source, redirectOut gt target], rest)
          | none => .error .syntaxError
        | none =>
          -- 1253-1255: pipeline_end
          match ← nextToken false rest with
          | none => .ok ([redirectIn lt source], rest)
          | some (t, _) =>
            if t.isEnd then .ok ([redirectIn lt source], rest)
            else do
              let (ops, rest) ← pOpSeq isShell fuel rest
              pRedirectOut (redirectIn lt source :: ops) rest
    | none =>
      match ← expect false [Tok.isGt, Tok.isStr] text with
      | some (gt, rest) =>
        match ← expect false [Tok.isStr] rest with
        | some (target, rest) => .ok ([redirectOut gt target], rest)
        | none => .error .syntaxError
      | none => do
        let (ops, rest) ← pOpSeq isShell fuel text
        pRedirectOut ops rest
termination_by structural n => n

/-- parser.py 1069-1133, `pipeline`. -/
def pPipeline (isShell : Str → Bool) : Nat → Str → Except LexErr (PPipe × Str)
  | 0, _ => .error .outOfFuel
  | fuel + 1, text => do
    let first ← (do
      match ← expect false [Tok.isStr, Tok.isComma] text with
      | some r => .ok (some r)
      | none => expect false [Tok.isStr, Tok.isColon] text)
    let (params, rest) ← (match first with
      | some (t, rest) => pVars fuel (some t) [] rest
      | none => .ok ([], text))
    let (ops, rest) ← pPipelineOps isShell fuel rest
    let _ ← nextToken false rest   -- 992: PipelineSourceTracker.__exit__ peeks
    .ok (.mk params ops, rest)
termination_by structural n => n
end

/-- parser.py 1046-1067, `assignment`, `var` being the name assigned to. -/
def pAssignment (isShell : Str → Bool) (fuel : Nat) (var : Str) (text : Str) : Except LexErr (PCmd × Str) := do
  match ← expect false [Tok.isAssign] text with
  | none => .error .syntaxError   -- not reached: the token after the name is an Assign
  | some (_, rest) =>
    match ← pArg isShell fuel false rest with
    | (some a, rest') => .ok (.assign var a, rest')
    | (none, _) => .error .syntaxError

/-- parser.py 1037-1044, `command`. -/
def pCommand (isShell : Str → Bool) (fuel : Nat) (text : Str) : Except LexErr PCmd := do
  let (c, rest) ← (do
    match ← expect false [Tok.isStr, Tok.isAssign] text with
    | some (t, rest) => pAssignment isShell fuel t.value rest
    | none => do
      let (p, rest) ← pPipeline isShell fuel text
      .ok (.pipeline p, rest))
  match ← nextToken false rest with
  | none => .ok c
  | some _ => .error .excessTokens

/-- The recursion bound used. -/
def parseFuel (text : Str) : Nat := 8 * text.length + 16

/-- parser.py 1017-1020, `parse`. -/
def parse (isShell : Str → Bool) (text : Str) : Except LexErr PCmd := do
  match ← nextToken false text with
  | none => .error .emptyCommand
  | some _ => pCommand isShell (parseFuel text) text

end Marcel
