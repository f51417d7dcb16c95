import Verif.Model.Pickle
/-! # Specification of stored streams -/

namespace Marcel.PickleFile

variable {V : Type}

/-- The value of an object. -/
def Obj.value : Obj V → Val V
  | .lit v => .lit v
  | .str _ v => .lit v
  | .pair _ a b => .pair a.value b.value

/-- The identities of the (memoized) objects an object consists of, with their values. -/
def Obj.parts : Obj V → List (Nat × Val V)
  | .lit _ => []
  | .str i v => [(i, .lit v)]
  | .pair i a b => a.parts ++ b.parts ++ [(i, .pair a.value b.value)]

def parts (xs : List (Obj V)) : List (Nat × Val V) := xs.flatMap Obj.parts

/-- The same object has the same value wherever it occurs in a stream (streams of immutable objects). -/
def Coherent (xs : List (Obj V)) : Prop :=
  ∀ p q, p ∈ parts xs → q ∈ parts xs → p.1 = q.1 → p.2 = q.2

/-- No object occurs twice in a stream. (Equal values may occur any number of times.) -/
def Unshared (xs : List (Obj V)) : Prop := ((parts xs).map (·.1)).Nodup

/-- What is in a variable after some stores (`true`: with append). -/
def contents (h : List (Bool × List (Obj V))) : List (Val V) :=
  h.foldl (fun c r => if r.1 then c ++ r.2.map Obj.value else r.2.map Obj.value) []

/-- Reader number `h` is being used. -/
def PF.activeReader (s : PF V) (h : Nat) : Prop :=
  ∃ x, s.handles[h]? = some x ∧ x.isOpen = true ∧ x.isWriter = false

/-- Writer number `h` is being used. -/
def PF.activeWriter (s : PF V) (h : Nat) : Prop :=
  ∃ x, s.handles[h]? = some x ∧ x.isOpen = true ∧ x.isWriter = true

/-- In the history `evs`, starting from `s`, no reader is opened while another one is being used. -/
def OneReader (s : PF V) (evs : List (Ev V)) : Prop :=
  ∀ pre post, evs = pre ++ .openReader :: post → ∀ h, ¬ (s.run pre).activeReader h

/-- `ws` writes the items `xs`, in order, to the writer `h`; in between, the operating system may be sent data at any
time. -/
inductive Writing (h : Nat) : List (Obj V) → List (Ev V) → Prop
  | nil : Writing h [] []
  | write {x xs ws} : Writing h xs ws → Writing h (x :: xs) (.write h x :: ws)
  | flush {xs ws} : Writing h xs ws → Writing h xs (.flush h :: ws)

/-- State `t` is reached from a variable not stored yet by the stores `runs` (`true`: with append), with loads between
them. -/
inductive Stored : List (Bool × List (Obj V)) → PF V → Prop
  | nil : Stored [] (PF.new none)
  | store {runs t a xs ws} : Stored runs t → Writing t.handles.length xs ws →
      Stored (runs ++ [(a, xs)]) (t.run (storeEvents a t.handles.length ws))
  | load {runs t vs b t'} : Stored runs t → t.load = some (vs, b, t') → Stored runs t'

/-- Within one store, the same object always has the same value; and a store that appends to something does not
contain an object twice. -/
def Clean (runs : List (Bool × List (Obj V))) : Prop :=
  ∀ pre r post, runs = pre ++ r :: post →
    Coherent r.2 ∧ (r.1 = true → contents pre ≠ [] → Unshared r.2)

/-- The process dies while the writer `h` is used: of what has not been flushed, the first `k` instructions have
reached the disk (the file buffer is written out in pieces). -/
def PF.crashAt (s : PF V) (h k : Nat) : PF V :=
  PF.new (s.disk.map (· ++ (((s.handles[h]?).map (·.buf)).getD []).take k))

end Marcel.PickleFile
