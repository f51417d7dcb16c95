/-! # Model of `fork`

`/repo/marcel/op/forkmanager.py` 36-191, `/repo/marcel/op/fork.py` 124-151.

Each worker is a child process running a pipeline, whose output is written to a pipe, one message for each item or error (`SendToParent` 47-54). A pipe
holds `cap` messages; writing to a full pipe blocks. The main thread and the children take turns in any order. A child closes its end of the pipe and exits
(56-58) as one step, after its last message; it may be killed at any time between two messages. A child whose pipeline fails in `setup` writes the exception as its only
message (72); if it fails later, it just ends, because its end of the pipe has been closed before 72. So a failing child is one that writes less. Not modelled: serialization, and file descriptors inherited by other children (with the start method
`spawn`, main.py 367, there are none). -/

namespace Marcel.Fork

/-- What a pipeline emits. -/
inductive Ev (α : Type)
  | item (a : α)
  | error (m : Nat)
deriving DecidableEq, Repr

/-- What is sent to the operator after `fork`: an item, which may be an `Error` object, or an error (`receive_error`). -/
inductive Down (α : Type)
  | item (x : Ev α)
  | error (m : Nat)
deriving DecidableEq, Repr

/-- forkmanager.py 176: `self.op.send(self.env, x)`. -/
def send {α : Type} (x : Ev α) : Down α := .item x

/-- A child: what it has not yet written, what is in its pipe, whether its end of the pipe is open. -/
structure Child (α : Type) where
  todo : List (Ev α)
  pipe : List (Ev α)
  running : Bool
deriving DecidableEq, Repr

/-- The main thread: `out` is what has been sent, with the number of the worker; `w`, `completed`: see `ForkManager.run` 99-110; `joined` counts the
iterations of the loop 111-112. -/
structure St (α : Type) where
  kids : List (Child α)
  out : List (Nat × Down α)
  w : Nat
  completed : Nat
  joined : Nat
deriving DecidableEq, Repr

/-- After 100-104: all children have been started. -/
def start {α : Type} (emits : List (List (Ev α))) : St α where
  kids := emits.map fun l => ⟨l, [], true⟩
  out := []
  w := 0
  completed := 0
  joined := 0

/-- 109 -/
def St.next {α : Type} (s : St α) : Nat := (s.w + 1) % s.kids.length

/-- The loop has not ended (105). -/
def St.looping {α : Type} (s : St α) : Bool := s.completed < s.kids.length

/-- `consume_input` 169-181 for worker `w`, and 106-109: a message is received, or the end of the pipe is found (`EOFError`), or `poll` times out. -/
def consume {α : Type} (s : St α) (k : Child α) : St α :=
  match k.pipe with
  | x :: rest => { s with kids := s.kids.set s.w { k with pipe := rest }, out := s.out ++ [(s.w, send x)], w := s.next }
  | [] => if k.running then { s with w := s.next } else { s with w := s.next, completed := s.completed + 1 }

/-- A step of the main thread. `none`: it is waiting for a child (`close` 183-191), or the end of `run`. -/
def parentStep {α : Type} (s : St α) : Option (St α) :=
  if s.looping then
    match s.kids[s.w]? with
    | some k => some (consume s k)
    | none => none
  else
    match s.kids[s.joined]? with
    | some k => if k.running then none else some { s with joined := s.joined + 1 }
    | none => none

/-- The end of `run`. -/
def St.done {α : Type} (s : St α) : Bool := !s.looping && s.joined == s.kids.length

/-- Who takes a step: child `i` writes a message, closes its pipe and exits, is killed; or the main thread. -/
inductive Label
  | write (i : Nat)
  | exit (i : Nat)
  | die (i : Nat)
  | parent
deriving DecidableEq, Repr

/-- `SendToParent.receive`, `receive_error` 47-54: writing, unless the pipe is full. -/
def Child.write {α : Type} (cap : Nat) (k : Child α) : Option (Child α) :=
  if k.running && k.pipe.length < cap then
    match k.todo with
    | x :: rest => some { k with todo := rest, pipe := k.pipe ++ [x] }
    | [] => none
  else none

/-- `SendToParent.cleanup` 56-58, and the end of the process. -/
def Child.exit {α : Type} (k : Child α) : Option (Child α) :=
  if k.running && k.todo.isEmpty then some { k with running := false } else none

/-- The process is killed. -/
def Child.die {α : Type} (k : Child α) : Option (Child α) :=
  if k.running then some { k with todo := [], running := false } else none

def onChild {α : Type} (s : St α) (i : Nat) (f : Child α → Option (Child α)) : Option (St α) :=
  match s.kids[i]? with
  | some k => (f k).map fun k' => { s with kids := s.kids.set i k' }
  | none => none

def step {α : Type} (cap : Nat) (s : St α) : Label → Option (St α)
  | .write i => onChild s i (·.write cap)
  | .exit i => onChild s i (·.exit)
  | .die i => onChild s i (·.die)
  | .parent => parentStep s

/-- A run: the steps are taken in this order. -/
def run {α : Type} (cap : Nat) : List Label → St α → Option (St α)
  | [], s => some s
  | l :: ls, s => match step cap s l with
    | some s' => run cap ls s'
    | none => none

/-- The `poll` of the main thread will time out (172): nothing in the pipe, and the child is running. -/
def St.timesOut {α : Type} (s : St α) : Bool :=
  s.looping && match s.kids[s.w]? with
    | some k => k.pipe.isEmpty && k.running
    | none => false

/-- The argument of `fork`: a number, a sequence of thread ids (any iterable), something else (fork.py 126-136). -/
inductive ForkGen (V : Type)
  | int (n : Int)
  | iterable (l : List V)
  | other

/-- `Fork.setup` 125-143 and `ForkManager.__init__` 85-86: the thread ids; `ofInt` makes a value from an int; `params` is the number of parameters of the pipeline.
`none`: KillCommandException. -/
def threadIds {V : Type} (ofInt : Nat → V) (params : Nat) (g : ForkGen V) : Option (List V) :=
  match g with
  | .int n => if n > 0 then (if params > 1 then none else some ((List.range n.toNat).map ofInt)) else none
  | .iterable l => if l.isEmpty then none else if params > 1 then none else some l
  | .other => none

/-- What is bound to the parameters of the pipeline in the child with this thread id (forkmanager.py 65-66). -/
def bindings {V : Type} (params : List Nat) (id : V) : List (Nat × V) :=
  match params with
  | [] => []
  | p :: _ => [(p, id)]

end Marcel.Fork
