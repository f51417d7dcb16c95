import Verif.Model.Color

/-! # Model of the display of color schemes, and of the configuration that marcel comes with

`/repo/marcel/object/color.py` 40-47 (`Color.__repr__`) and 121-145 (`ColorScheme.render_full`); `/repo/marcel/persistence/defaultinitialconfig.py`, which is written to
`startup.py` of the default workspace when marcel runs for the first time. Keys are strings. -/

namespace Marcel.SchemeShow

open Marcel.Color

/-- color.py 40-47 `__repr__`, with `bold() != 0` as in 49-53. -/
def reprColor (c : Color) : Text :=
  let style : List Char :=
    if c.bold && c.italic then [',', ' ', 'B', 'O', 'L', 'D', ' ', '|', ' ', 'I', 'T', 'A', 'L', 'I', 'C']
    else if c.bold then [',', ' ', 'B', 'O', 'L', 'D']
    else if c.italic then [',', ' ', 'I', 'T', 'A', 'L', 'I', 'C']
    else []
  ['C', 'o', 'l', 'o', 'r', '('] ++ decInt c.r ++ [',', ' '] ++ decInt c.g ++ [',', ' '] ++ decInt c.b ++ style ++ [')']

/-- `str` of a value that is no dict. -/
def reprOpt : Option Color → Text
  | none => ['N', 'o', 'n', 'e']
  | some c => reprColor c

/-- `sorted` of the keys of a dict: order of texts, by code points. -/
def leText : Text → Text → Bool
  | [], _ => true
  | _ :: _, [] => false
  | a :: s, b :: t => if a = b then leText s t else a.toNat < b.toNat

def insertKey (e : Text × Option Color) : List (Text × Option Color) → List (Text × Option Color)
  | [] => [e]
  | f :: d => if leText e.1 f.1 then e :: f :: d else f :: insertKey e d

/-- The items of a dict in the order of `sorted`. -/
def sortKeys : List (Text × Option Color) → List (Text × Option Color)
  | [] => []
  | e :: d => insertKey e (sortKeys d)

/-- The colour of `color_scheme_key` or `color_scheme_value` in the scheme that is used for display; something other than a colour there makes an exception
(a dict has no attribute `bold`): not modelled, such schemes have none here. -/
structure Looks where
  key : Option Color
  value : Option Color

/-- color.py 131-137: the lines of the entries of a dict; `n` is the number of entries of the dict, `vn` that of those before. -/
def subLines (l : Looks) (n : Nat) : Nat → List (Text × Option Color) → List Text
  | _, [] => []
  | vn, (vk, vv) :: d =>
    let comma : Text := if vn + 1 < n then [','] else []
    ([' ', ' ', ' ', ' ', ' ', ' ', ' ', ' '] ++ colorize vk l.key ++ [':', ' '] ++ colorize (reprOpt vv) l.value ++ comma) :: subLines l n (vn + 1) d

/-- color.py 124-140: the lines of the attributes; `total` is `len(self.__dict__)`, `n` the number of attributes before. -/
def lines (l : Looks) (total : Nat) : Nat → Scheme → List Text
  | _, [] => []
  | n, (k, v) :: s =>
    let comma : Text := if n + 1 < total then [','] else []
    (match v with
     | .dict d =>
       [[' ', ' ', ' ', ' '] ++ colorize k l.key ++ [':', ' ', '{']] ++ subLines l d.length 0 (sortKeys d) ++ [[' ', ' ', ' ', ' ', '}'] ++ comma]
     | .color c => [[' ', ' ', ' ', ' '] ++ colorize k l.key ++ [':', ' '] ++ colorize (reprOpt (some c)) l.value ++ comma]
     | _ => [[' ', ' ', ' ', ' '] ++ colorize k l.key ++ [':', ' '] ++ colorize (reprOpt none) l.value ++ comma]) ++ lines l total (n + 1) s

/-- `'\n'.join` -/
def unlines : List Text → Text
  | [] => []
  | [x] => x
  | x :: xs => x ++ '\n' :: unlines xs

/-- color.py 121-142 `render_full`, for a scheme with all attributes (95-97: they are there, `KEYS` is sorted); `none`: AttributeError (`None` has no `color_scheme_key`). -/
def display (l : Option Looks) (s : Scheme) : Option Text :=
  match l with
  | none => none
  | some l => some (['{', '\n'] ++ unlines (lines l s.length 0 s) ++ ['\n', '}'])

/-! ## The default configuration -/

/-- defaultinitialconfig.py 3-4 -/
def extImage : Color := ⟨3, 0, 2, 1⟩
def extSource : Color := ⟨0, 3, 4, 1⟩

/-- defaultinitialconfig.py 6-39: the assignments to attributes of COLOR_SCHEME, in order. -/
def defaultAssignments : List (String × Val) :=
  [("file_file", .color ⟨5, 5, 5, 1⟩),
   ("file_dir", .color ⟨0, 2, 3, 1⟩),
   ("file_link", .color ⟨4, 2, 0, 1⟩),
   ("file_executable", .color ⟨0, 4, 0, 1⟩),
   ("file_extension", .dict [
     ("jpg".toList, some extImage), ("jpeg".toList, some extImage), ("png".toList, some extImage), ("mov".toList, some extImage), ("avi".toList, some extImage),
     ("gif".toList, some extImage), ("py".toList, some extSource), ("c".toList, some extSource), ("c++".toList, some extSource), ("cpp".toList, some extSource),
     ("cxx".toList, some extSource), ("h".toList, some extSource), ("java".toList, some extSource), ("php".toList, some extSource)]),
   ("error", .color ⟨5, 5, 0, 0⟩),
   ("process_pid", .color ⟨0, 3, 5, 1⟩),
   ("process_ppid", .color ⟨0, 2, 4, 1⟩),
   ("process_status", .color ⟨3, 1, 0, 1⟩),
   ("process_user", .color ⟨0, 2, 2, 1⟩),
   ("process_command", .color ⟨3, 2, 0, 1⟩),
   ("help_reference", .color ⟨5, 3, 0, 0⟩),
   ("help_bold", .color ⟨5, 4, 1, 1⟩),
   ("help_italic", .color ⟨5, 5, 2, 2⟩),
   ("help_name", .color ⟨4, 1, 0, 0⟩),
   ("history_id", .color ⟨0, 3, 5, 1⟩),
   ("history_command", .color ⟨4, 3, 0, 1⟩),
   ("color_scheme_key", .color ⟨2, 4, 0, 0⟩),
   ("color_scheme_value", .color ⟨0, 3, 4, 0⟩)]

/-- Assignments, one after the other; none: a ColorSchemeError. -/
def assign (s : Scheme) : List (String × Val) → Option Scheme
  | [] => some s
  | (k, v) :: as =>
    match s.setattr k.toList v with
    | none => none
    | some s' => assign s' as

/-- The color scheme after the default configuration: COLOR_SCHEME is a new color scheme before. -/
def defaultScheme : Option Scheme := assign Scheme.new defaultAssignments

/-- defaultinitialconfig.py 41-56: the prompt. The functions use variables of the namespace: the name of the workspace (false, i.e. the empty string, in the default
workspace), and the directory, as a text (it may also be a path: C88_false_type). -/
def defaultPrompt (version workspace user host dir : Text) : List Piece :=
  [.color ⟨0, 5, 5, 1⟩, .text ['M', ' '],
   .color ⟨0, 2, 3, 1⟩, .text version, .text [' '],
   .color ⟨0, 4, 4, 1⟩, .fn (.ok (match workspace with | [] => none | w => some (w ++ [' ']))),
   .color ⟨1, 3, 2, 1⟩, .text user, .text ['@'], .text host, .text [' '],
   .color ⟨2, 5, 4, 1⟩, .fn (.ok (match dir with | [] => none | d => some d)), .text ['$', ' ']]

end Marcel.SchemeShow
