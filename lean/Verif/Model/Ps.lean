import Verif.Model.PyDict
/-! # Model of `ps`

`/repo/marcel/op/ps.py` 80-173, `/repo/marcel/util.py` `uid`, `gid` 51-71.

The processes are those of one snapshot (`psutil.process_iter`). The attributes of a process are those that `ps` looks at; `None`: psutil was denied
access. `int` of a text is a parameter. -/

namespace Marcel.Ps

abbrev Text := List Char

/-- A process: `PROC_ATTRS` 30-44 (parts) -/
structure Proc where
  pid : Int
  uids : Option (List Int)
  gids : Option (List Int)
  name : Option Text
  exe : Option Text
  cmdline : Option (List Text)
deriving DecidableEq, Repr

/-- The value of an argument: `None`, `True` (a flag without value), a string, a number, or the default of the API function, `_UNINITIALIZED`. -/
inductive Arg
  | none
  | true
  | text (t : Text)
  | num (n : Int)
  | uninitialized
deriving DecidableEq, Repr

/-- The attributes of the operator: 120-123 -/
structure Args where
  user : Arg
  group : Arg
  pid : Arg
  command : Arg
deriving DecidableEq, Repr

inductive Exn
  | kill
  | crash
deriving DecidableEq, Repr

/-- The users and groups (`pwd.getpwall`, `grp.getgrall`), and the user who runs marcel. -/
structure Sys where
  users : List (Text × Int)
  groups : List (Text × Int)
  myUid : Int
  myGid : Int
  int : Text → Option Int

/-- util.uid 51-55, util.gid 67-71 -/
def lookup : List (Text × Int) → Text → Option Int
  | [], _ => .none
  | (n, i) :: r, t => if n = t then some i else lookup r t

/-- `convert_to_id` 163-173. `int` of an object that is neither a string nor a number is a TypeError, which is not caught. -/
def convertToId (s : Sys) (db : List (Text × Int)) : Arg → Except Exn Int
  | .text t => match lookup db t with
    | some i => .ok i
    | .none => match s.int t with
      | some i => .ok i
      | .none => .error .kill
  | .num n => .ok n
  | _ => .error .crash

/-- The truth value of an argument (141, 147). -/
def truthy : Arg → Bool
  | .none => false
  | .true => Bool.true
  | .text t => !t.isEmpty
  | .num n => n != 0
  | .uninitialized => Bool.true

/-- `sub in text` for strings -/
def isIn (sub : Text) : Text → Bool
  | [] => sub.isEmpty
  | c :: t => sub.isPrefixOf (c :: t) || isIn sub t

/-- The filters: 135-152. -/
inductive Filter
  | all
  | user (id : Int)
  | group (id : Int)
  | pid (n : Int)
  | command (c : Text)
  | bad
deriving DecidableEq, Repr

/-- `setup` 127-152, the part about users 136-138: the filter, and the attribute `user` afterwards. -/
def setupUser (s : Sys) (a : Arg) (f : Filter) : Except Exn (Filter × Arg) :=
  match a with
  | .none => .ok (f, .none)
  | .true => .ok (.user s.myUid, .num s.myUid)
  | a => match convertToId s s.users a with
    | .ok i => .ok (.user i, .num i)
    | .error e => .error e

/-- 139-141 -/
def setupGroup (s : Sys) (a : Arg) (f : Filter) : Except Exn (Filter × Arg) :=
  match a with
  | .none => .ok (f, .none)
  | .true => .ok (.group s.myGid, .num s.myGid)
  | a => match convertToId s s.groups a with
    | .ok i => .ok (.group i, .num i)
    | .error e => .error e

/-- 142-147: `int(True)` is 1. -/
def setupPid (s : Sys) (a : Arg) (f : Filter) : Except Exn (Filter × Arg) :=
  if truthy a then
    match a with
    | .text t => match s.int t with
      | some n => .ok (.pid n, .num n)
      | .none => .error .kill
    | .num n => .ok (.pid n, .num n)
    | .true => .ok (.pid 1, .num 1)
    | _ => .error .crash
  else .ok (f, a)

/-- 148-152. With a command that is not a string, the filter fails. -/
def setupCommand (a : Arg) (f : Filter) : Filter :=
  if truthy a then
    match a with
    | .text t => .command t
    | _ => .bad
  else f

/-- `setup` 127-152: the filter, and the operator afterwards. -/
def setup (s : Sys) (a : Args) : Except Exn (Filter × Args) :=
  match setupUser s a.user .all with
  | .error e => .error e
  | .ok (f1, u) => match setupGroup s a.group f1 with
    | .error e => .error e
    | .ok (f2, g) => match setupPid s a.pid f2 with
      | .error e => .error e
      | .ok (f3, p) => .ok (setupCommand a.command f3, ⟨u, g, p, a.command⟩)

/-- A filter applied to a process; `none`: it raises TypeError. -/
def Filter.test (p : Proc) : Filter → Option Bool
  | .all => some true
  | .user i => p.uids.map (fun l => l.contains i)
  | .group i => p.gids.map (fun l => l.contains i)
  | .pid n => some (n == p.pid)
  | .command c => some (
      (match p.name with | some t => isIn c t | .none => false) ||
      (match p.exe with | some t => isIn c t | .none => false) ||
      (match p.cmdline with | some l => l.any (isIn c) | .none => false))
  | .bad => .none

/-- The loop in `run` 154-158: what is sent, and whether it ended with an exception. -/
def loop (f : Filter) : List Proc → List Proc × Option Exn
  | [] => ([], .none)
  | p :: ps => match f.test p with
    | .none => ([], some .crash)
    | some true => (p :: (loop f ps).1, (loop f ps).2)
    | some false => loop f ps

/-- The command: what is sent, how it ended. -/
def ps (s : Sys) (a : Args) (procs : List Proc) : List Proc × Option Exn :=
  match setup s a with
  | .error e => ([], some e)
  | .ok (f, _) => loop f procs

/-- The API function 87-93: arguments that are not given are `_UNINITIALIZED`. -/
def apiArgs (user group pid command : Option Arg) : Args :=
  ⟨user.getD .uninitialized, group.getD .uninitialized, pid.getD .uninitialized, command.getD .uninitialized⟩

end Marcel.Ps
