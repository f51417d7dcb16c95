import Verif.Model.Gen
/-! # Model of colours, color schemes and the prompt

`/repo/marcel/object/color.py` (without `__repr__`, `render_full`), `/repo/marcel/util.py` `colorize` 140-150, `/repo/marcel/env.py` 293-337
(`EnvironmentInteractive.prompt`, `prompt_string`).

Texts are lists of characters. The components of a colour are integers (the code does not check that they are). -/

namespace Marcel.Color

abbrev Text := List Char

/-- `Color` color.py 24-38: the components given. -/
structure Color where
  r : Int
  g : Int
  b : Int
  style : Int
deriving DecidableEq, Repr

/-- color.py 31: the condition under which `Bad color definition` is printed (nothing else happens). -/
def Color.complains (c : Color) : Bool :=
  min (min c.r c.g) c.b < 0 || max (max c.r c.g) c.b > 5 || c.style < 0 || c.style > 3

/-- color.py 38 -/
def Color.code (c : Color) : Int := 16 + c.r * 36 + c.g * 6 + c.b

/-- color.py 49-50: `style & 1`. -/
def Color.bold (c : Color) : Bool := c.style % 2 = 1

/-- color.py 52-53: `style & 2`. -/
def Color.italic (c : Color) : Bool := c.style / 2 % 2 = 1

/-- The escape character, `\033`. -/
def esc : Char := Char.ofNat 27

/-- `str` of an integer. -/
def decInt (n : Int) : Text := (pyStr n).map Char.ofNat

/-- An escape sequence `\033[` … `m`. -/
def seq (t : Text) : Text := esc :: '[' :: (t ++ ['m'])

/-- util.py 145-148 -/
def styleText (c : Color) : Text :=
  if c.bold && c.italic then seq ['1'] ++ seq ['3']
  else if c.bold then seq ['1']
  else if c.italic then seq ['3']
  else seq ['0']

/-- `colorize` util.py 140-149 -/
def colorize (s : Text) (color : Option Color) : Text :=
  match color with
  | none => s
  | some c => styleText c ++ seq ('3' :: '8' :: ';' :: '5' :: ';' :: decInt c.code) ++ s ++ seq ['0']

/-! ## The prompt -/

/-- A component of `PROMPT`: a colour; a text; a function, by what calling it does: an exception, a value that is false (`None`, `''`, 0, …) or a value
that is true, with what `str` makes of it; anything else. -/
inductive Piece
  | color (c : Color)
  | text (t : Text)
  | fn (r : Except Unit (Option Text))
  | other

/-- How building the prompt ends: with a text, with an `Exception`, or with a `KillShellException` (which is not an `Exception`: exception.py 73). -/
inductive Built
  | text (t : Text)
  | failed
  | kill
deriving DecidableEq

/-- env.py 330-332 -/
def addPiece (buffer : Text) (color : Option Color) (x : Text) : Text := buffer ++ colorize x color

/-- env.py 330: `if x` -/
def addText (buffer : Text) (color : Option Color) : Text → Text
  | [] => buffer
  | x => addPiece buffer color x

/-- The loop env.py 314-332. -/
def build (buffer : Text) (color : Option Color) : List Piece → Built
  | [] => .text buffer
  | .color c :: ps => build buffer (some c) ps
  | .text t :: ps => build (addText buffer color t) color ps
  | .fn (.error _) :: _ => .failed
  | .fn (.ok none) :: ps => build buffer color ps
  | .fn (.ok (some t)) :: ps => build (addPiece buffer color t) color ps
  | .other :: _ => .kill

/-- `prompt_string` env.py 310-337. `none`: the shell is killed. `pieces` is `none` if `PROMPT` cannot be iterated over. -/
def promptString (default_ : Text) (pieces : Option (List Piece)) : Option Text :=
  match pieces with
  | none => some default_
  | some ps =>
    match build [] none ps with
    | .text t => some t
    | .failed => some default_
    | .kill => none

/-- What `PROMPT_DIR` is: a string or a `pathlib.Path`, with its text. -/
inductive DirVal
  | str (t : Text)
  | path (t : Text)
deriving DecidableEq, Repr

def DirVal.shown : DirVal → Text
  | .str t => t
  | .path t => t

/-- `prompt_dir` env.py 296-299, in the default workspace. -/
def promptDirDefault (pwd home : Text) : Text :=
  if home.isPrefixOf pwd then '~' :: pwd.drop home.length else pwd

/-- The text of an absolute path given by its components. -/
def pathText : List Text → Text
  | [] => ['/']
  | p => p.flatMap (fun x => '/' :: x)

/-- `relative_to` with `as_posix`: components separated by slashes. -/
def joined : List Text → Text
  | [] => ['.']
  | [x] => x
  | x :: xs => x ++ '/' :: joined xs

/-- What remains of a path after a prefix. -/
def after : List Text → List Text → Option (List Text)
  | [], q => some q
  | _ :: _, [] => none
  | a :: p, b :: q => if a = b then after p q else none

/-- `prompt_dir` env.py 300-315, in a named workspace. `pwd` and `home` are the components of absolute paths without `~`; `home` is `none` if the workspace has no home
directory. Outside of it a `Path` is returned (`dir` has been replaced, 304). -/
def promptDirNamed (pwd : List Text) (home : Option (List Text)) : DirVal :=
  match home with
  | none => .str (pathText pwd)
  | some h =>
    match after h pwd with
    | some rel => if joined rel = ['.'] then .str [] else .str (joined rel)
    | none => .path (pathText pwd)

/-! ## Color schemes -/

/-- A value assigned to an attribute of a color scheme: `None`, a `Color`, a `dict` (by its entries: `some` for a colour, `none` for anything else), anything else. -/
inductive Val
  | none
  | color (c : Color)
  | dict (d : List (Text × Option Color))
  | other
deriving DecidableEq

/-- `ColorScheme` color.py 63-92: its attributes. -/
abbrev Scheme := List (Text × Val)

def Scheme.get? : Scheme → Text → Option Val
  | [], _ => Option.none
  | (k, v) :: s, x => if k = x then some v else Scheme.get? s x

/-- `KEYS` color.py 65-87 (in alphabetical order). -/
def keys : List Text :=
  ["color_scheme_key", "color_scheme_value", "error", "file_dir", "file_executable", "file_extension", "file_file", "file_link", "file_link_broken",
   "help_bold", "help_italic", "help_name", "help_reference", "history_command", "history_id", "process_command", "process_pid", "process_ppid",
   "process_status", "process_user"].map String.toList

/-- `__init__` color.py 89-91 -/
def Scheme.new : Scheme := keys.map fun k => (k, .none)

/-- color.py 102-110: the checks on the value. -/
def Val.accepted : Val → Bool
  | .none => true
  | .color _ => true
  | .dict d => d.all fun e => e.2.isSome
  | .other => false

def Scheme.put (s : Scheme) (k : Text) (v : Val) : Scheme := s.map fun e => if e.1 = k then (k, v) else e

/-- `__setattr__` color.py 99-111. `none`: `ColorSchemeError`, which kills the shell. -/
def Scheme.setattr (s : Scheme) (k : Text) (v : Val) : Option Scheme :=
  if keys.contains k && v.accepted then some (s.put k v) else Option.none

def setEntry : List (Text × Option Color) → Text → Option Color → List (Text × Option Color)
  | [], k, v => [(k, v)]
  | (k', v') :: d, k, v => if k' = k then (k, v) :: d else (k', v') :: setEntry d k v

/-- `set_extension_color` color.py 117-119: the dict is changed in place, without a check. `none`: an exception (`file_extension` is not a dict). -/
def Scheme.setExtension (s : Scheme) (ext : Text) (v : Option Color) : Option Scheme :=
  match s.get? "file_extension".toList with
  | some (.dict d) => some (s.put "file_extension".toList (.dict (setEntry d ext v)))
  | _ => Option.none

end Marcel.Color
