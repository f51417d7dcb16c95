/-! # Model of the directory stack

`/repo/marcel/directorystate.py` 23-112; `/repo/marcel/op/cd.py` 59-81, `pushd.py` 60-87, `popd.py` 50-60, `dirs.py` 54-59, `pwd.py`
49-50; `/repo/marcel/env.py` 226-236 (`go_to_current_dir`).

Directories are absolute path names; the expansion of the argument of `cd` and `pushd` (globs, `~`, relative names:
op/filenames.py) has been done. The file system is seen as it is when a command runs; between commands it may change in any
way. Python's distinction of path names as strings and `Path` objects matters only in directorystate.py 56, whose
condition is always true. Not modelled: changes of the file system during a command, and assignments to `PWD` and `DIRS`
by the user. -/

namespace Marcel.DirStack

variable {D : Type}

/-- The file system at some moment. `access` is the permission to go to a directory (`os.X_OK`), `resolve` follows
symbolic links (`Path.resolve`). -/
structure FS (D : Type) where
  exists_ : D → Bool
  isDir : D → Bool
  access : D → Bool
  resolve : D → D

/-- `DIRS` (the top is the last element), `PWD`, and the current directory of the process. -/
structure State (D : Type) where
  stack : List D
  pwd : D
  cwd : D
deriving DecidableEq, Repr

/-- `_clean_dir_stack` 95-112 -/
def State.clean (fs : FS D) (s : State D) : State D :=
  { s with stack := s.stack.filter fun d => fs.exists_ d && fs.access d }

/-- What a command did: `ok` is false if an exception was raised. -/
structure Result (D : Type) where
  ok : Bool
  state : State D

/-- 43-50: `os.chdir` raises an exception if the argument is not a directory, or not accessible. -/
def chdirTo (fs : FS D) (s : State D) (new : D) : Result D :=
  if fs.isDir new && fs.access new then
    ⟨true, { stack := if s.stack.isEmpty then [new] else s.stack.dropLast ++ [new], pwd := new, cwd := new }⟩
  else ⟨false, s⟩

/-- 52-57 and 59-71: `push_dir(home)`. If there is no home directory, the code calls itself without end (RecursionError). -/
def goHome (fs : FS D) (home : D) (s : State D) : Result D :=
  if fs.exists_ (fs.resolve (fs.resolve home)) then
    if (chdirTo fs s (fs.resolve (fs.resolve home))).ok then
      ⟨true, { (chdirTo fs s (fs.resolve (fs.resolve home))).state with
        stack := (s.clean fs).stack ++ [fs.resolve home] }⟩
    else ⟨false, s⟩
  else ⟨false, s⟩

/-- `change_current_dir` 35-57 -/
def changeDir (fs : FS D) (home : D) (s : State D) (d : D) : Result D :=
  if fs.exists_ (fs.resolve d) then chdirTo fs (s.clean fs) (fs.resolve d)
  else goHome fs home (s.clean fs)

/-- 65-66: the two topmost directories are swapped. -/
def swapTop (l : List D) : List D :=
  match l.reverse with
  | a :: b :: r => r.reverse ++ [a, b]
  | _ => l

/-- 62-69: the new directory stack, a copy. -/
def pushed (fs : FS D) (stack : List D) : Option D → List D
  | none => swapTop stack
  | some d => stack ++ [fs.resolve d]

/-- `push_dir` 59-71. On an empty stack, `dir_stack[-1]` raises an exception. -/
def pushDir (fs : FS D) (home : D) (s : State D) (d : Option D) : Result D :=
  match (pushed fs (s.clean fs).stack d).getLast? with
  | none => ⟨false, s.clean fs⟩
  | some top =>
    if (changeDir fs home (s.clean fs) top).ok then
      ⟨true, { (changeDir fs home (s.clean fs) top).state with stack := pushed fs (s.clean fs).stack d }⟩
    else changeDir fs home (s.clean fs) top

/-- `pop_dir` 73-78 -/
def popDir (fs : FS D) (home : D) (s : State D) : Result D :=
  match (s.clean fs).stack.reverse with
  | _ :: prev :: _ =>
    if (changeDir fs home (s.clean fs) prev).ok then
      ⟨true, { (changeDir fs home (s.clean fs) prev).state with
        stack := (changeDir fs home (s.clean fs) prev).state.stack.dropLast }⟩
    else changeDir fs home (s.clean fs) prev
  | _ => ⟨true, s.clean fs⟩

/-- `reset_dir_stack` 80-83, followed by `dirs()` 85-89, which cleans. -/
def resetDirs (fs : FS D) (s : State D) : State D := { s with stack := [s.pwd] }.clean fs

/-- Commands. `start` is `go_to_current_dir`, run when a shell starts. -/
inductive Cmd (D : Type)
  | cd (d : D)
  | pushd (d : Option D)
  | popd
  | dirs
  | dirsClear
  | pwd
  | start

/-- env.py 226-236 -/
def startDir (fs : FS D) (home : D) (s : State D) : D :=
  if fs.exists_ s.pwd && fs.isDir s.pwd then s.pwd else home

/-- What a command does. The argument of `cd` has to be a directory (cd.py 70-71), that of `pushd` to exist
(pushd.py 71-72, filenames.py 58). -/
def Cmd.run (fs : FS D) (home : D) (s : State D) : Cmd D → Result D
  | .cd d => if fs.isDir d then changeDir fs home s d else ⟨false, s.clean fs⟩
  | .pushd none => pushDir fs home s none
  | .pushd (some d) => if fs.exists_ d then pushDir fs home s (some d) else ⟨false, s.clean fs⟩
  | .popd => popDir fs home s
  | .dirs => ⟨true, s.clean fs⟩
  | .dirsClear => ⟨true, resetDirs fs s⟩
  | .pwd => ⟨true, s.clean fs⟩
  | .start => changeDir fs home s (startDir fs home s)

/-- A history: each command with the file system it finds. -/
def runAll (home : D) (s : State D) (h : List (FS D × Cmd D)) : State D :=
  h.foldl (fun s c => (c.2.run c.1 home s).state) s

/-- What `dirs`, `pushd` and `popd` print: the stack, from the top. directorystate.py 85-89 -/
def printed (s : State D) : List D := s.stack.reverse

/-- A new shell. env.py 142-143 -/
def initial (d : D) : State D := ⟨[d], d, d⟩

end Marcel.DirStack
