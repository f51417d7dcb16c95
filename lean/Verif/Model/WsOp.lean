import Verif.Model.Api

/-! # Model of the operator `ws`

`/repo/marcel/op/ws.py` 87-153 (the function of the API, the declarations), 156-211 (`Ws.setup`), 214-440 (what each request checks and does). What happens on disk is in `Model/WsDisk`.

Values given as arguments are strings or something else; `True` and `None` are the ones that matter. -/

namespace Marcel.WsOp

/-- A Python value. -/
inductive Arg
  | str (s : Str)
  | tru
  | none_
  | other (n : Nat)
deriving DecidableEq, Repr

def Arg.str? : Arg → Option Str
  | .str s => some s
  | _ => none

/-- `x is True` -/
def Arg.isTru : Arg → Bool
  | .tru => true
  | _ => false

instance : PyArg Arg where
  str := Arg.str?
  ofStr := .str
  str_ofStr := fun _ => rfl
  tru := .tru
  isTrue := Arg.isTru
  tru_isTrue := rfl

/-- `WsArgsParser` ws.py 134-152 -/
def decl : ArgsDecl Arg where
  flags := [Api.flag0 "list" "-l" (some "--list"),
    Api.flag1 "new" "-n" "--new" "new" some,
    Api.flag1 "open" "-o" "--open" "open" some,
    Api.flag0 "close" "-c" (some "--close"),
    Api.flag1 "delete" "-d" "--delete" "delete" some,
    Api.flag0 "delete_broken" "-b" (some "--delete-broken"),
    Api.flag1 "home" "-h" "--home" "home" some,
    Api.flag1 "rename" "-r" "--rename" "rename" some,
    Api.flag1 "copy" "-2" "--copy" "copy" some,
    Api.flag1 "export" "-e" "--export" "exp" some,
    Api.flag1 "import" "-i" "--import" "imp" some]
  anons := [Api.anonDefault "name" "name" .none_ some]
  anonList := none
  atMostOne := [Api.names ["list", "new", "open", "close", "delete", "delete_broken", "home", "rename", "copy", "export", "import"]]
  exactlyOne := []

/-- An attribute of the operator: `None` (ws.py 158-170) unless the arguments stored a value. -/
def attr (op : Dict Str (ArgValue Arg)) (name : String) : Arg :=
  match op.get? name.toList with
  | some (.one v) => v
  | _ => .none_

/-- `if x:` for the attributes that are switches: `None` or `True`. -/
def given (v : Arg) : Bool := v ≠ .none_

/-- The request: `self.impl`, ws.py 179-205. -/
inductive Request
  | identify
  | list
  | new (n : Arg)
  | open_ (n : Arg)
  | close
  | delete (n : Arg)
  | deleteBroken
  | home (d : Arg)
  | rename
  | copy
  | export_
  | import_
deriving DecidableEq, Repr

/-- ws.py 179-204 -/
def choose (op : Dict Str (ArgValue Arg)) : Request :=
  if given (attr op "list") then .list
  else if given (attr op "new") then .new (attr op "new")
  else if given (attr op "open") then .open_ (attr op "open")
  else if given (attr op "close") then .close
  else if given (attr op "delete") then .delete (attr op "delete")
  else if given (attr op "delete_broken") then .deleteBroken
  else if given (attr op "home") then .home (attr op "home")
  else if given (attr op "rename") then .rename
  else if given (attr op "copy") then .copy
  else if given (attr op "exp") then .export_
  else if given (attr op "imp") then .import_
  else if given (attr op "name") then .open_ (attr op "name")
  else .identify

/-- ws.py 230-236 and the `setup` of each request: whether there must be no NAME, or the argument must be there. -/
def check (name : Arg) : Request → Bool
  | .identify => !given name
  | .list => !given name
  | .new n => given n
  | .open_ n => given n
  | .close => !given name
  | .delete n => given n
  | .deleteBroken => !given name
  | .home d => given d
  | .rename => given name
  | .copy => given name
  | .export_ => given name
  | .import_ => given name

/-- `setup` 178-205. -/
def setup (op : Dict Str (ArgValue Arg)) : Option Request :=
  if check (attr op "name") (choose op) then some (choose op) else none

/-- Parsing and setup. `none`: the command is killed. -/
def request (args : List Arg) : Option Request :=
  match decl.parse args [] with
  | some op => setup op
  | none => none

/-! ## Running -/

/-- How the operator ends: properly, with a `KillCommandException`, or with the request to start again with another workspace (named; the default workspace has the name '', workspace.py 514). -/
inductive End
  | done
  | killed
  | reconfigure (w : Str)
deriving DecidableEq, Repr

/-- What can be observed: the workspaces written to the output, the one created, the home directory set, and the end. -/
structure Outcome where
  sent : List Str
  created : Option Str
  home : Option Str
  fin : End
deriving DecidableEq, Repr

/-- Which workspaces exist, and which is used. -/
structure Situation where
  exist : Str → Bool
  current : Str

/-- `WsNew.run` 279-287 -/
def runNew (s : Situation) (n : Str) : Outcome :=
  if s.exist n then ⟨[], none, none, .killed⟩ else ⟨[n], some n, none, .reconfigure n⟩

/-- `WsOpen.run` 300-310 -/
def runOpen (s : Situation) (n : Str) : Outcome :=
  if s.exist n then
    if s.current ≠ n then ⟨[n], none, none, .reconfigure n⟩ else ⟨[], none, none, .done⟩
  else ⟨[], none, none, .killed⟩

/-- `WsClose.run` 321-325; workspace.py 519-520 -/
def runClose (s : Situation) : Outcome :=
  if s.current ≠ [] then ⟨[[]], none, none, .reconfigure []⟩ else ⟨[], none, none, .done⟩

/-- `WsHome.run` 373-376; workspace.py 283-286, 545-546 -/
def runHome (s : Situation) (d : Str) : Outcome :=
  if s.current = [] then ⟨[], none, none, .killed⟩ else ⟨[s.current], none, some d, .done⟩

/-- The `run` of the requests; 220-221 for those that are not implemented. `none`: not here (`list`, `delete` and `deleteBroken` are in `Model/WsDisk`; arguments that are not strings). -/
def run (s : Situation) : Request → Option Outcome
  | .identify => some ⟨[s.current], none, none, .done⟩
  | .new (.str n) => some (runNew s n)
  | .open_ (.str n) => some (runOpen s n)
  | .close => some (runClose s)
  | .home (.str d) => some (runHome s d)
  | .rename => some ⟨[], none, none, .killed⟩
  | .copy => some ⟨[], none, none, .killed⟩
  | .export_ => some ⟨[], none, none, .killed⟩
  | .import_ => some ⟨[], none, none, .killed⟩
  | _ => none

/-! ## The API -/

/-- The parameters of `ws(…)`, ws.py 87-98; a parameter that is false is `none`. -/
structure Params where
  list : Bool := false
  new : Option Arg := none
  open_ : Option Arg := none
  close : Bool := false
  delete : Option Arg := none
  deleteBroken : Bool := false
  home : Option Arg := none
  rename : Option Arg := none
  copy : Option Arg := none
  exp : Option Arg := none
  imp : Option Arg := none
  name : Option Arg := none

/-- The arguments made of them, ws.py 99-124. -/
def Params.args (p : Params) : List Arg :=
  Api.switch p.list "--list" ++ Api.option p.new "--new" ++ Api.option p.open_ "--open" ++ Api.switch p.close "--close" ++ Api.option p.delete "--delete" ++
  Api.switch p.deleteBroken "--delete-broken" ++ Api.option p.home "--home" ++ Api.option p.rename "--rename" ++ Api.option p.copy "--copy" ++
  Api.option p.exp "--exp" ++ Api.option p.imp "--imp" ++ Api.switch p.name.isSome "name"

end Marcel.WsOp
