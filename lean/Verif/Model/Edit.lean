import Verif.Model.History
/-! # Model of `edit`

`/repo/marcel/reader.py` 84-131 (`handle_edit_and_run`), 144-152 (the key binding of Enter), `/repo/marcel/runeditor.py` 22-53, `/repo/marcel/op/edit.py` 61-101.

The editor is a function from the text of a file to its text afterwards. The part of `handle_edit_and_run` for `!` and `!!` is `History.recall`.
Simplifications: temporary files can be created, read and removed; what the process that runs the editor reports is ignored, as in the code. -/

namespace Marcel.Edit

open History

/-- Universal newlines, when a file is read in text mode (runeditor.py 47). -/
def universal : Text → Text
  | [] => []
  | '\r' :: '\n' :: r => '\n' :: universal r
  | '\r' :: r => '\n' :: universal r
  | c :: r => c :: universal r

/-- `readlines` (runeditor.py 48): lines with their ends. -/
def readlines : Text → List Text
  | [] => []
  | '\n' :: r => ['\n'] :: readlines r
  | c :: r => match readlines r with
    | [] => [[c]]
    | l :: ls => (c :: l) :: ls

/-- `'\n'.join(...)` (runeditor.py 49) -/
def joinLines : List Text → Text
  | [] => []
  | [l] => l
  | l :: ls => l ++ '\n' :: joinLines ls

/-- `edit_text` 42-51, with the editor `ed`; the text is written in text mode, which on Linux changes nothing. -/
def editText (ed : Text → Text) (t : Text) : Text := joinLines (readlines (universal (ed t)))

/-- What the environment knows of the editor: `EDITOR` as a variable of marcel, and in the environment of the host. The editor is what the
program of that name does to a file. -/
structure Env where
  var : Option Text
  host : Option Text
  program : Text → Text → Text

/-- `find_editor` 22-29 -/
def Env.editor (e : Env) : Option Text := match e.var with
  | some x => some x
  | none => e.host

/-- What happens when Enter is pressed: which text is given to which editor, if any; whether an error is printed; what is run. -/
structure Entered where
  edited : Option (Text × Text)
  error : Bool
  run : Text
deriving DecidableEq, Repr

/-- `if replacement:` 148-151: an empty text does not replace. -/
def replaced (t new : Text) : Text := if new = [] then t else new

/-- `selected_command` 94-100 and 126-127, for `edit`: `none` is the number of the last command, given as an integer. -/
def editCommand (e : Env) (num : Text → Option Int) (h : List Text) (t : Text) (w : Option Text) : Entered :=
  match (match w with | none => some ((h.length : Int) - 1) | some w => num w) with
  | none => ⟨none, true, t⟩
  | some id =>
    match e.editor with
    | none => ⟨none, true, t⟩
    | some ed => ⟨some (ed, commandById h id), decide (id < 0 ∨ (h.length : Int) ≤ id), replaced t (editText (e.program ed) (commandById h id))⟩

/-- Enter is pressed: `handle_edit_and_run` 84-131 and the key binding 144-152. -/
def enter (ws : Char → Bool) (num : Text → Option Int) (e : Env) (h : List Text) (t : Text) : Entered :=
  match lstrip ws t with
  | '!' :: _ => ⟨none, (recall ws num h t).isNone || recall ws num h t = some [], entered ws num h t⟩
  | 'e' :: 'd' :: 'i' :: 't' :: r =>
    match words ws r with
    | [] => editCommand e num h t none
    | w :: _ => if w = "-s".toList ∨ w = "--startup".toList then ⟨none, false, t⟩ else editCommand e num h t (some w)
  | _ => ⟨none, false, t⟩

/-- The arguments of the operator `edit`: `startup` is not given, without a value, or with the name of a workspace; `command` (edit.py 61-68). -/
structure OpArgs where
  startup : Option (Option Text)
  command : Option Int
deriving DecidableEq, Repr

/-- What the operator does. -/
inductive OpResult
  | edits (workspace : Text)
  | kill
  | crash
deriving DecidableEq, Repr

/-- `Edit.setup` 84-86 and `run` 88-96. `current`: the current workspace; `workspaces`: those that exist. -/
def opEdit (e : Env) (current : Text) (workspaces : List Text) (a : OpArgs) : OpResult :=
  match a.command with
  | some _ => .crash
  | none =>
    match a.startup with
    | some (some ws) => if ws ∈ workspaces then (if e.editor.isSome then .edits ws else .kill) else .kill
    | _ => if e.editor.isSome then .edits current else .kill

/-- The API function 52-58: the arguments it passes on. -/
def apiEdit (n : Option Int) (_startup : Bool) : OpArgs := ⟨none, n⟩

end Marcel.Edit
