import Verif.Model.Color

/-! # Model of what is displayed for an item

`/repo/marcel/object/process.py` 60-89, `/repo/marcel/object/historyrecord.py` 44-55, `/repo/marcel/object/error.py` 22-40, `/repo/marcel/op/write.py` 261-286 (`DefaultWriter`), without files
(their rendering: Model/FileObj). Process ids are natural numbers, the locale does not group digits (`n` is `d`). -/

namespace Marcel.Render

open Marcel.Color (Text Color colorize)

/-- The colours of a color scheme that are used here (color.py 62-88). -/
structure Scheme where
  pid : Option Color
  ppid : Option Color
  user : Option Color
  status : Option Color
  command : Option Color
  error : Option Color
  historyId : Option Color
  historyCommand : Option Color

/-- `str` of a number. -/
def dec (n : Nat) : Text := (decimal n).map Char.ofNat

/-- `'{:Nn}'.format` of a number. -/
def rjust (width : Nat) (t : Text) : Text := List.replicate (width - t.length) ' ' ++ t

/-- `'{:Ns}'.format` of a string. -/
def ljust (width : Nat) (t : Text) : Text := t ++ List.replicate (width - t.length) ' '

/-- `'  '.join`, for a separator of any kind. -/
def join (sep : Text) : List Text → Text
  | [] => []
  | [x] => x
  | x :: xs => x ++ sep ++ join sep xs

/-- `Process`: what rendering uses. -/
structure Proc where
  pid : Nat
  ppid : Nat
  user : Text
  status : Text
  cmdline : Option (List Text)

/-- process.py 60-62 -/
def Proc.command (p : Proc) : Text :=
  match p.cmdline with
  | none => []
  | some xs => join [' '] xs

/-- process.py 70-89 `render_full` -/
def Proc.full (s : Option Scheme) (p : Proc) : Text :=
  let pid := rjust 6 (dec p.pid)
  let ppid := rjust 6 (dec p.ppid)
  let user := ljust 8 p.user
  let status := ljust 10 p.status
  match s with
  | none => join [' ', ' '] [pid, ppid, user, status, p.command]
  | some s => join [' ', ' '] [colorize pid s.pid, colorize ppid s.ppid, colorize user s.user, colorize status s.status, colorize p.command s.command]

/-- process.py 67-68 `render_compact` -/
def Proc.compact (p : Proc) : Text := "process(".toList ++ dec p.pid ++ [')']

/-- `HistoryRecord` -/
structure Rec where
  id : Nat
  command : Text

/-- historyrecord.py 53-55 `format` -/
def formatRec (id command : Text) : Text := ' ' :: ' ' :: id ++ [':', ' ', ' '] ++ command

/-- historyrecord.py 49-51 `render_full`; none: an exception (`None` has no `history_id`). -/
def Rec.full (s : Option Scheme) (r : Rec) : Option Text :=
  match s with
  | none => none
  | some s => some (formatRec (colorize (dec r.id) s.historyId) (colorize r.command s.historyCommand))

/-- historyrecord.py 46-47 `render_compact` -/
def Rec.compact (r : Rec) : Text := formatRec (dec r.id) r.command

/-- `Error` -/
structure Err where
  message : Text
  label : Option Text

/-- error.py 32-35 `render_compact` -/
def Err.compact (e : Err) : Text :=
  match e.label with
  | none => "Error: ".toList ++ e.message
  | some l => "Error(".toList ++ l ++ "): ".toList ++ e.message

/-- error.py 37-41 `render_full` -/
def Err.full (s : Option Scheme) (e : Err) : Text :=
  match s with
  | none => e.compact
  | some s => colorize e.compact s.error

/-- An object in an item: one that can be rendered, or another one, given by its `str` and its `repr`. -/
inductive Obj
  | proc (p : Proc)
  | record (r : Rec)
  | error (e : Err)
  | other (str repr : Text)

/-- `render_full`, and `str` for what cannot be rendered (write.py 274-276, 217). -/
def Obj.full (s : Option Scheme) : Obj → Option Text
  | .proc p => some (p.full s)
  | .record r => r.full s
  | .error e => some (e.full s)
  | .other str _ => some str

/-- `repr`: renderable.py 18-19 `render_compact` for what can be rendered. -/
def Obj.compact : Obj → Text
  | .proc p => p.compact
  | .record r => r.compact
  | .error e => e.compact
  | .other _ repr => repr

/-- What the writer receives: None, a list or tuple, an error. -/
inductive Input
  | none_
  | list (xs : List Obj)
  | tuple (xs : List Obj)
  | failure (e : Err)

/-- write.py 267-283 `receive`: what is printed (a line end follows); none: an exception. -/
def printed (s : Option Scheme) : Input → Option Text
  | .none_ => some "None".toList
  | .list [x] => x.full s
  | .tuple [x] => x.full s
  | .list xs => some (['['] ++ join [',', ' '] (xs.map Obj.compact) ++ [']'])
  | .tuple xs => some (['('] ++ join [',', ' '] (xs.map Obj.compact) ++ [')'])
  | .failure e => some (e.full s)

end Marcel.Render
