/-! # Model of the command history

`/repo/marcel/op/history.py` 87-107; `/repo/marcel/reader.py` 62-131 (`history`, `command_by_id`, `handle_edit_and_run` for `!` and `!!`),
144-152.

The history file of prompt_toolkit is a list of commands, newest first. `int` of a word is a parameter (`num`). Not modelled:
the editor started by `edit`. -/

namespace Marcel.History

/-- A command. -/
abbrev Text := List Char

/-- `pattern in command` -/
def hasSub (p : Text) : Text → Bool
  | [] => p.isPrefixOf []
  | c :: cs => p.isPrefixOf (c :: cs) || hasSub p cs

/-- The condition at history.py 100: whether a command is selected. -/
def sel (pattern : Option Text) (c : Text) : Bool := match pattern with | none => true | some p => hasSub p c

/-- The loop history.py 99-104: `i` is the number of commands already looked at, `n` how many may still be selected
(`none`: no limit). -/
def select (total : Nat) (pattern : Option Text) : List Text → Nat → Option Nat → List (Nat × Text)
  | [], _, _ => []
  | c :: cs, i, n =>
    if sel pattern c then
      if n = some 1 then [(total - 1 - i, c)]
      else (total - 1 - i, c) :: select total pattern cs (i + 1) (n.map (· - 1))
    else select total pattern cs (i + 1) n

/-- `History.setup` 87-93 and `run` 95-107. `none`: killed. Arguments: the history (newest first), `-c`, `-a`, and the number. -/
def history (h : List Text) (pattern : Option Text) (all : Bool) (n : Option Int) : Option (List (Nat × Text)) :=
  let n := if !all && n.isNone then some 20 else n
  match n with
  | some k => if k < 1 then none else some (select h.length pattern h 0 (some k.toNat)).reverse
  | none => some (select h.length pattern h 0 none).reverse

/-- `Reader`: the history file, and the list of commands that is kept. reader.py 46-47 -/
structure Reader where
  file : List Text
  cache : List Text

/-- `Reader.history` 63-67: the commands, and the reader afterwards. -/
def Reader.history (r : Reader) : List Text × Reader :=
  if r.cache.length < r.file.length then (r.file, { r with cache := r.file }) else (r.cache, r)

/-- A command is entered: prompt_toolkit adds it to the file, unless it is empty or the same as the last one. -/
def Reader.enter (r : Reader) (c : Text) : Reader :=
  if c = [] ∨ r.file.head? = some c then r else { r with file := c :: r.file }

/-- `command_by_id` 69-82: the empty command if there is an error, which is printed. -/
def commandById (h : List Text) (id : Int) : Text :=
  if id < 0 then [] else if (h.length : Int) ≤ id then [] else (h[h.length - 1 - id.toNat]?).getD []

/-- `str.split()` -/
def words (ws : Char → Bool) : Text → List Text
  | [] => []
  | c :: cs =>
    if ws c then words ws cs
    else match cs with
      | [] => [[c]]
      | d :: _ => if ws d then [c] :: words ws cs else match words ws cs with
        | [] => [[c]]
        | w :: r => (c :: w) :: r

/-- `str.strip()` at the front; `split` makes stripping the end unnecessary. -/
def lstrip (ws : Char → Bool) (t : Text) : Text := t.dropWhile ws

/-- `handle_edit_and_run` 86-131, for `!` and `!!`. The result is the new command; `none` is Python's `None` (the text stays as it is). -/
def recall (ws : Char → Bool) (num : Text → Option Int) (h : List Text) (t : Text) : Option Text :=
  match lstrip ws t with
  | '!' :: '!' :: r => if words ws r = [] then some (commandById h (h.length - 1)) else none
  | '!' :: r => match words ws r with
    | [] => some (commandById h (h.length - 1))
    | [w] => (num w).map (commandById h)
    | _ => none
  | _ => none

/-- What is run when `t` is entered: 144-152. An empty replacement does not replace. -/
def entered (ws : Char → Bool) (num : Text → Option Int) (h : List Text) (t : Text) : Text :=
  match recall ws num h t with
  | some c => if c = [] then t else c
  | none => t

end Marcel.History
