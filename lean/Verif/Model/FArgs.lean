import Verif.Model.Lexer

/-! # Model of the recognition of function parameters

`/repo/marcel/function_args_parser.py` (all of it) and `Expression.value` (`/repo/marcel/parser.py` 349-376).

Python's tokenizer is not modelled: the input is the sequence of the symbols (`Symbol.of`) of the tokens of the
expression's source, without the ENCODING, NEWLINE and ENDMARKER tokens (which `parse` skips, lines 87-89). -/

namespace Marcel

/-- function_args_parser.py 33-48 -/
inductive FSym | lambda | name | comma | star | colon | other
deriving DecidableEq, Repr

/-- function_args_parser.py 21-30 -/
inductive FState | start | arglist | star | arg | end_ | noArgs
deriving DecidableEq, Repr

/-- function_args_parser.py 29-30 -/
def FState.terminal : FState → Bool
  | .end_ => true
  | .noArgs => true
  | _ => false

/-- function_args_parser.py 57-60 -/
structure FParse where
  state : FState := .start
  explicitLambda : Bool := false
  explicitColon : Bool := false
  hasArgs : Bool := false
deriving DecidableEq, Repr

/-- function_args_parser.py 62-73 and 82-84, 98-132: one transition. -/
def FParse.step (p : FParse) (s : FSym) : FParse :=
  match p.state, s with
  | .start, .lambda => { p with explicitLambda := true, state := .arglist }
  | .start, .star => { p with state := .star }
  | .start, .name => { p with hasArgs := true, state := .arg }
  | .start, .colon => { p with explicitColon := true, state := .end_ }
  | .arglist, .name => { p with hasArgs := true, state := .arg }
  | .arglist, .star => { p with state := .star }
  | .arglist, .colon => { p with explicitColon := true, state := .end_ }
  | .star, .name => { p with state := .arg }
  | .arg, .comma => { p with state := .arglist }
  | .arg, .colon => { p with explicitColon := true, state := .end_ }
  | _, _ => { p with state := .noArgs }

/-- function_args_parser.py 86-92: the loop. -/
def FParse.run (p : FParse) : List FSym → FParse
  | [] => p
  | s :: ss =>
    let p' := p.step s
    if p'.state.terminal then p' else p'.run ss

/-- function_args_parser.py 93-96 -/
def FParse.finish (p : FParse) : FParse :=
  if p.state ≠ .end_ then { p with explicitLambda := false, explicitColon := false, hasArgs := false } else p

/-- function_args_parser.py 81-96, `parse` -/
def fparse (ss : List FSym) : FParse := (FParse.run {} ss).finish

/-- What is put in front of the source. -/
inductive FPrefix
  | none            -- ''
  | lambda          -- 'lambda '
  | thunk           -- 'lambda: '
  | thunkLambda     -- 'lambda: lambda '
deriving DecidableEq, Repr

/-- parser.py 361-371 -/
def exprPrefix (forAssignment : Bool) (p : FParse) : FPrefix :=
  if p.explicitLambda then
    if p.hasArgs && forAssignment then .thunk else .none
  else if p.hasArgs then
    if forAssignment then .thunkLambda else .lambda
  else if p.explicitColon then .lambda else .thunk

/-- main.py 262-273, the generator `commands_in_script`, on the lines of the script (`script.split('\n')`);
`command` is the variable of that name. `len(line.strip()) > 0` says that some character of the line is not
whitespace. -/
def scriptCommands (command : Str) : List Str → List Str
  | [] => if command.length > 0 then [command] else []
  | line :: lines =>
    if line.any (fun c => !isspace c) then
      if line.getLast? = some '\\' then scriptCommands (command ++ line.dropLast) lines
      else (command ++ line) :: scriptCommands [] lines
    else scriptCommands command lines

/-- Python's `s.split('\n')`: `cur` is the current piece. -/
def splitLines (cur : Str) : Str → List Str
  | [] => [cur]
  | c :: cs => if c = '\n' then cur :: splitLines [] cs else splitLines (cur ++ [c]) cs

/-- main.py 262-273 -/
def commandsInScript (script : Str) : List Str := scriptCommands [] (splitLines [] script)

end Marcel
