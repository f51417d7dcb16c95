/-! # Model of clusters and their hosts

`/repo/marcel/object/cluster.py` (without `__repr__` of a cluster). Not modelled: `==` with something that is no host (an exception). -/

namespace Marcel.Cluster

abbrev Str := List Char

/-- What may be given as a host (or a port): a string, a number, a tuple or a list (which are treated alike but are different values), anything else. -/
inductive Val
  | str (s : Str)
  | int (n : Int)
  | tuple (l : List Val)
  | list (l : List Val)
  | other (n : Nat)

/-- What is in a tuple or list. -/
def Val.items? : Val → Option (List Val)
  | .tuple l => some l
  | .list l => some l
  | _ => none

/-- `type(x) in (tuple, list) and len(x) == 2`, and its two items. cluster.py 64 -/
def Val.pair? (v : Val) : Option (Val × Val) :=
  match v.items? with
  | some [a, b] => some (a, b)
  | _ => none

def Val.str? : Val → Option Str
  | .str s => some s
  | _ => none

/-- `Host` cluster.py 23-30. `port` is `none` for Python's None. -/
structure Host where
  host : Val
  addr : Option Str
  name : Option Str
  port : Option Val

/-- `Host.__init__` -/
def Host.new (v : Val) : Host := ⟨v, none, none, none⟩

/-- How the use of a host may end: properly, with a KillAndResumeException or with a KillShellException. -/
inductive Use
  | ok
  | resume
  | killShell
deriving DecidableEq, Repr

/-- 64-65 -/
def Host.split (h : Host) : Host :=
  match h.host.pair? with
  | some (a, b) => { h with host := a, port := some b }
  | none => h

/-- 69-79: `ip` is `str(ipaddress.ip_address(s))`, if `s` is an address; `dns` the same of the address that is found for a name. -/
def Host.lookUp (ip dns : Str → Option Str) (h : Host) (s : Str) : Host × Use :=
  match ip s with
  | some a => ({ h with addr := some a, name := some a }, .ok)
  | none =>
    match dns s with
    | some a => ({ h with addr := some a, name := some s }, .ok)
    | none => (h, .resume)

/-- 63 ff., if there is no address yet. -/
def Host.initialise (ip dns : Str → Option Str) (h : Host) : Host × Use :=
  match h.split.host.str? with
  | none => (h.split, .killShell)
  | some s => h.split.lookUp ip dns s

/-- `ensure_initialized` 62-79 -/
def Host.use (ip dns : Str → Option Str) (h : Host) : Host × Use :=
  match h.addr with
  | some _ => (h, .ok)
  | none => h.initialise ip dns

/-- A host that has been used repeatedly, with what the name service knew each time. -/
def Host.uses (ip : Str → Option Str) (h : Host) : List (Str → Option Str) → Host
  | [] => h
  | dns :: l => Host.uses ip (h.use ip dns).1 l

/-- `Host.__repr__` 32-34, after the initialisation; `str` of the port is a parameter. -/
def Host.repr (pstr : Val → Str) (h : Host) : Str :=
  match h.port with
  | none => h.name.getD []
  | some p => h.name.getD [] ++ ':' :: pstr p

/-- `__eq__` 39-40 -/
def Host.Eq (h g : Host) : Prop := h.host = g.host

/-- How making a cluster may fail: KillShellException, IndexError. -/
inductive Err
  | killShell
  | indexError
deriving DecidableEq, Repr

/-- 110-114: for a single host (the test for an int is always true, since it is `type(host[1] is int)`). -/
def checkHost (v : Val) : Except Err Unit :=
  match v.items? with
  | none => .ok ()
  | some [] => .error .indexError
  | some (a :: l) =>
    if a.str?.isNone then .error .killShell
    else if l.isEmpty then .error .indexError
    else .ok ()

/-- `Cluster.__init__` 104-126 (user and identity are only kept); the hosts of the cluster. Python's None is `none`. -/
def new (host hosts : Option Val) (identity : Bool) : Except Err (List Host) :=
  match host, hosts with
  | none, none => .error .killShell
  | some _, some _ => .error .killShell
  | some h, none =>
    match checkHost h with
    | .error e => .error e
    | .ok _ => if identity then .ok [Host.new h] else .error .killShell
  | none, some v =>
    match v.items? with
    | none => .error .killShell
    | some l => if identity then .ok (l.map Host.new) else .error .killShell

end Marcel.Cluster
