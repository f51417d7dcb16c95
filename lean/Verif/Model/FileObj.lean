import Verif.Model.PyDict
/-! # Model of `File` objects: what `ls` shows

`/repo/marcel/object/file.py` 25-277, `/repo/marcel/op/filenamesop.py` 113-119 (`visit`: the new `File`) and 139-155 (`determine_base`),
`/repo/marcel/util.py` `username`, `groupname` 44-55 and `colorize` 141-151.

A path is absolute and given by its components. Which colour a name gets is a parameter; `time.strftime` is a parameter; numbers are
formatted by a parameter `dec` (`str` of a number). The time of modification is the number it is formatted from. -/

namespace Marcel.FileObj

abbrev Text := List Char

/-- An absolute path: its components, without the leading `/`. -/
abbrev Path := List Text

/-- What `lstat` returns (the parts that are used). -/
structure Stat where
  mode : Nat
  uid : Nat
  gid : Nat
  size : Nat
  mtime : Nat
deriving DecidableEq, Repr

/-- A computer: its files, and its users and groups. -/
structure Host where
  lstat : Path → Option Stat
  readlink : Path → Option Text
  users : Nat → Option Text
  groups : Nat → Option Text

/-- `FileFormatting` 47-67 -/
structure Formatting where
  userWidth : Nat
  groupWidth : Nat
  sizeWidth : Nat
deriving DecidableEq, Repr

/-- `FileFormatting.__init__` 49-52, also `File.default_formatting` 71 -/
def Formatting.new : Formatting := ⟨6, 6, 6⟩

/-- `MetadataCache.id_to_name` 35 -/
abbrev Cache := Dict (Nat × Nat) (Text × Text)

/-- `File` 73-87. `compact_path` and the attributes that exist only while pickled are left out: the first is recomputed. -/
structure File where
  path : Path
  base : Option Path
  cache : Option Cache
  lstat : Option Stat
  formatting : Option Formatting
deriving DecidableEq

/-- `File.__init__` 73-87 -/
def File.new (path : Path) (base : Option Path) (cache : Option Cache) : File := ⟨path, base, cache, none, none⟩

/-- `File._lstat` 213-220: the information that has been kept, or that of the computer; `none`: KillAndResumeException. -/
def File.getStat (h : Host) (f : File) : Option Stat :=
  match f.lstat with
  | some s => some s
  | none => h.lstat f.path

variable (dec : Nat → Text)

/-- util.username 44-48 -/
def username (h : Host) (uid : Nat) : Text := (h.users uid).getD (dec uid)

/-- util.groupname 58-62 -/
def groupname (h : Host) (gid : Nat) : Text := (h.groups gid).getD (dec gid)

/-- `MetadataCache.user_and_group_names` 37-45: the names, and the cache afterwards. -/
def Cache.names (h : Host) (c : Cache) (uid gid : Nat) : (Text × Text) × Cache :=
  match c.get? (uid, gid) with
  | some n => (n, c)
  | none => ((username dec h uid, groupname dec h gid), c.set (uid, gid) (username dec h uid, groupname dec h gid))

/-- `File._user_and_group_names` 222-227 (`if self.metadata_cache`: a `MetadataCache` is true): the names, and the file's cache
afterwards. -/
def File.names (h : Host) (f : File) (uid gid : Nat) : (Text × Text) × Option Cache :=
  match f.cache with
  | some c => ((c.names dec h uid gid).1, some (c.names dec h uid gid).2)
  | none => ((username dec h uid, groupname dec h gid), none)

/-- `File.adjust_formatting` 146-152, on the formatting `w` of the listing. The result is the file and the formatting; the
file refers to the formatting, which may grow later. -/
def File.adjust (h : Host) (f : File) (w : Formatting) : Option (File × Formatting) :=
  match f.getStat h with
  | none => none
  | some s =>
    some (let n := f.names dec h s.uid s.gid
      let w' : Formatting := ⟨max w.userWidth n.1.1.length, max w.groupWidth n.1.2.length, max w.sizeWidth (dec s.size).length⟩
      (⟨f.path, f.base, n.2, some s, some w'⟩, w'))

/-- `f'{x:>{width}}'` for strings, `f'{x:{width}}'` for numbers -/
def rjust (width : Nat) (x : Text) : Text := List.replicate (width - x.length) ' ' ++ x

/-- `format_username` 57-59 -/
def formatUser (w : Formatting) (x : Text) : Text := rjust w.userWidth x

/-- `format_groupname` 61-63: with the width of the user names. -/
def formatGroup (w : Formatting) (x : Text) : Text := rjust w.userWidth x

/-- `format_size` 65-67 -/
def formatSize (w : Formatting) (x : Text) : Text := rjust w.sizeWidth x

/-- `_rwx` 273-277 -/
def rwx (m : Nat) : Text :=
  [if m &&& 4 ≠ 0 then 'r' else '-', if m &&& 2 ≠ 0 then 'w' else '-', if m &&& 1 ≠ 0 then 'x' else '-']

/-- `_mode_string` 234-245; `LINK_MASK` is 0o120000 = 40960, `DIR_MASK` is 0o040000 = 16384 (25-27), 0o700 = 448, 0o70 = 56. -/
def modeString (mode : Nat) : Text :=
  (if mode &&& 40960 = 40960 then 'l' else if mode &&& 16384 = 16384 then 'd' else '-') ::
    (rwx ((mode &&& 448) >>> 6) ++ rwx ((mode &&& 56) >>> 3) ++ rwx (mode &&& 7))

/-- `Path.relative_to`: `none` is the ValueError if the path is not below the other. -/
def relativeTo : Path → Path → Option Path
  | p, [] => some p
  | [], _ :: _ => none
  | x :: p, y :: b => if x = y then relativeTo p b else none

/-- `as_posix` of an absolute path -/
def absText : Path → Text
  | [] => ['/']
  | p => p.flatMap (fun x => '/' :: x)

/-- `'/'.join(...)` -/
def joinSlash : Path → Text
  | [] => []
  | [x] => x
  | x :: p => x ++ '/' :: joinSlash p

/-- `as_posix` of a relative path -/
def relText (p : Path) : Text := if p.isEmpty then ['.'] else joinSlash p

/-- `_compact_path` 229-232 (`if self.base`: a path is true), as text. -/
def File.compact (f : File) : Option Text :=
  match f.base with
  | none => some (absText f.path)
  | some b => (relativeTo f.path b).map relText

/-- A colour: object/color.py 23-60 -/
structure Color where
  bold : Bool
  italic : Bool
  code : Nat
deriving DecidableEq, Repr

/-- The escape character. -/
def esc : Char := Char.ofNat 27

/-- The style in util.colorize 144-149 -/
def style (c : Color) : Text :=
  if c.bold && c.italic then esc :: "[1m".toList ++ esc :: "[3m".toList
  else if c.bold then esc :: "[1m".toList
  else if c.italic then esc :: "[3m".toList
  else esc :: "[0m".toList

/-- util.colorize 141-151 -/
def colorize (s : Text) : Option Color → Text
  | none => s
  | some c => style c ++ esc :: "[38;5;".toList ++ dec c.code ++ 'm' :: s ++ esc :: "[0m".toList

/-- `'  '.join` -/
def join2 : List Text → Text
  | [] => []
  | [x] => x
  | x :: r => x ++ ' ' :: ' ' :: join2 r

/-- `stat.S_ISLNK`: the type of the file (mode & 0o170000) is 0o120000. -/
def isLink (mode : Nat) : Bool := decide (mode &&& 61440 = 40960)

/-- `_formatted_metadata` 197-209: the columns up to the time of modification. -/
def File.columns (mtimeText : Nat → Text) (h : Host) (f : File) (s : Stat) : List Text :=
  let w := f.formatting.getD Formatting.new
  let n := (f.names dec h s.uid s.gid).1
  [modeString s.mode, formatUser w n.1, formatGroup w n.2, formatSize w (dec s.size), mtimeText s.mtime]

/-- `render_full` 128-144: `none` is an exception. `color` is what `_highlight_color` gives for the name, `color'` for the target of the
link. -/
def File.render (mtimeText : Nat → Text) (h : Host) (color color' : Option Color) (f : File) : Option Text :=
  match f.getStat h, f.compact with
  | some s, some p =>
    if isLink s.mode then
      match h.readlink f.path with
      | none => none
      | some t => some (join2 (f.columns dec mtimeText h s ++ [colorize dec p color, ['-', '>'], colorize dec t color']))
    else some (join2 (f.columns dec mtimeText h s ++ [colorize dec p color]))
  | _, _ => none

/-- Pickling and unpickling (`__getstate__` 92-105, `__setstate__` 107-114): `lstat` is called first. -/
def File.transport (h : Host) (f : File) : Option File :=
  match f.getStat h with
  | none => none
  | some s => some ⟨f.path, f.base, f.cache, some s, f.formatting⟩

/-- Pickling the files of a listing to one stream, and unpickling them elsewhere (farcel.py 64-87: one pickler): all of them refer to the same
cache and the same formatting, which are pickled with the first file, as they are then. -/
def transportAll (h : Host) : List File → List File
  | [] => []
  | f :: fs => (f :: fs).filterMap (fun g => ({ g with cache := f.cache, formatting := f.formatting } : File).transport h)

/-- The loop in `determine_base` 139-152: the nearest common ancestor of two paths. -/
def commonAncestor : Path → Path → Path
  | x :: p, y :: q => if x = y then x :: commonAncestor p q else []
  | _, _ => []

/-- `determine_base` 139-155, of at least one root. `isFile`: `is_file` on the computer. -/
def determineBase (isFile : Path → Bool) (root : Path) (roots : List Path) : Path :=
  let nca := roots.foldl commonAncestor root
  if isFile nca then nca.dropLast else nca

/-- A listing: the visited files in order (filenamesop.py 117-119), with one cache and one formatting. For each file, the object as it is
when it is sent, and the formatting then. Files that do not exist any more are left out (126-132). -/
def listing (h : Host) (base : Path) : List Path → Cache → Formatting → List File
  | [], _, _ => []
  | p :: ps, c, w =>
    match (File.new p (some base) (some c)).adjust dec h w with
    | none => listing h base ps c w
    | some (f, w') => f :: listing h base ps (f.cache.getD c) w'

end Marcel.FileObj
