/-! # Model of pickle files and of the operators `store` and `load`

`/repo/marcel/picklefile.py` 26-159 (`PickleFile`, `Reader`, `Writer`), `/repo/marcel/reservoir.py`,
`/repo/marcel/op/store.py` 82-130, `/repo/marcel/op/load.py` 70-113.

`picklefile.py` 114 and 145 create one unpickler per reader and one pickler per writer. Python's pickler remembers the
objects it has written (its memo) and writes a reference when the same object is written again, also in a later `dump`;
references are the numbers of the memo entries of the one unpickler which reads the whole file (Python documentation,
`pickle`: calls of `dump` on one pickler have to be matched by the calls of `load` on one unpickler). This part of the
library is modelled here, because the content of a file which was extended (`store --append`) depends on it.

Simplifications: objects are scalars which are not memoized (numbers, `None`), scalars which are (strings), and pairs of
objects; a file is a sequence of pickle instructions instead of bytes; framing is left out. One `PickleFile` is modelled, in one
process. Not modelled: input buffering of a reader, operating system errors other than a missing file. -/

namespace Marcel.PickleFile

variable {V : Type}

/-- A Python object that is written. `str` and `pair` carry the identity of the object. -/
inductive Obj (V : Type)
  | lit (v : V)
  | str (id : Nat) (v : V)
  | pair (id : Nat) (a b : Obj V)

/-- A Python value that has been read. -/
inductive Val (V : Type)
  | lit (v : V)
  | pair (a b : Val V)
deriving DecidableEq, Repr

/-- Pickle instructions: literals, MEMOIZE, BINGET, TUPLE2, STOP. -/
inductive Instr (V : Type)
  | push (v : V)
  | memoize
  | get (i : Nat)
  | tuple2
  | stop
deriving DecidableEq, Repr

/-- `Pickler.save`, with the pickler's memo: the identities of the objects written, in order. -/
def save : Obj V → List Nat → List (Instr V) × List Nat
  | .lit v, m => ([.push v], m)
  | .str i v, m => if i ∈ m then ([.get (m.idxOf i)], m) else ([.push v, .memoize], m ++ [i])
  | .pair i a b, m =>
    if i ∈ m then ([.get (m.idxOf i)], m)
    else
      ((save a m).1 ++ (save b (save a m).2).1 ++ [.tuple2, .memoize], (save b (save a m).2).2 ++ [i])

/-- `Pickler.dump`. -/
def dump (o : Obj V) (m : List Nat) : List (Instr V) × List Nat := ((save o m).1 ++ [.stop], (save o m).2)

/-- The outcome of `Unpickler.load`: a value with the rest of the file and the memo, `EOFError` (nothing left to read), or
another exception. -/
inductive Load (V : Type)
  | ok (v : Val V) (rest : List (Instr V)) (memo : List (Val V))
  | eof
  | err

/-- The instructions of one pickle, on the unpickler's stack. -/
def exec : List (Instr V) → List (Val V) → List (Val V) → Load V
  | [], _, _ => .err
  | .push v :: r, st, m => exec r (.lit v :: st) m
  | .memoize :: r, x :: st, m => exec r (x :: st) (m ++ [x])
  | .memoize :: _, [], _ => .err
  | .get i :: r, st, m => match m[i]? with
    | some x => exec r (x :: st) m
    | none => .err
  | .tuple2 :: r, b :: a :: st, m => exec r (.pair a b :: st) m
  | .tuple2 :: _, _, _ => .err
  | .stop :: r, x :: _, m => .ok x r m
  | .stop :: _, [], _ => .err

/-- `Unpickler.load`. The memo is kept from one call to the next. -/
def load1 : List (Instr V) → List (Val V) → Load V
  | [], _ => .eof
  | c :: r, m => exec (c :: r) [] m

/-- A `Reader` (picklefile.py 109-133) or `Writer` (136-159): `isOpen` is `file is not None`. A reader has a position in the
file and the unpickler's memo, a writer the pickler's memo and what it has written but not yet flushed. -/
structure Handle (V : Type) where
  isWriter : Bool
  isOpen : Bool
  pos : Nat
  rmemo : List (Val V)
  wmemo : List Nat
  buf : List (Instr V)

/-- A `PickleFile` (28-31) and its file on disk. `reader` is `_readers`, a dictionary whose only key is the file's own path (58),
so that it holds at most one reader. `handles` are all readers and writers ever created. -/
structure PF (V : Type) where
  disk : Option (List (Instr V))
  reader : Option Nat
  writer : Option Nat
  handles : List (Handle V)

def PF.setHandle (s : PF V) (h : Nat) (x : Handle V) : PF V := { s with handles := s.handles.set h x }

/-- picklefile.py 55-59, 111-114. `none`: `PickleFileUsageError` or `FileNotFoundError`, and nothing changed. -/
def PF.openReader (s : PF V) : Option (PF V) :=
  if s.writer = none ∧ s.disk ≠ none then
    some { s with
      reader := some s.handles.length
      handles := s.handles ++ [⟨false, true, 0, [], [], []⟩] }
  else none

/-- picklefile.py 61-65, 140-146: opening with `wb` truncates the file. -/
def PF.openWriter (s : PF V) (append : Bool) : Option (PF V) :=
  if s.reader = none ∧ s.writer = none then
    some { s with
      disk := some (if append then s.disk.getD [] else [])
      writer := some s.handles.length
      handles := s.handles ++ [⟨true, true, 0, [], [], []⟩] }
  else none

/-- What a writer has written so far gets to the disk. `file.flush()` 154, also whenever the buffer of the file is full. -/
def PF.flush (s : PF V) (h : Nat) : PF V :=
  match s.handles[h]? with
  | some x =>
    if x.isOpen && x.isWriter then
      { s with disk := s.disk.map (· ++ x.buf), handles := s.handles.set h { x with buf := [] } }
    else s
  | none => s

/-- `Access.close_file` 104-106 -/
def PF.closeFile (s : PF V) (h : Nat) : PF V :=
  match (s.flush h).handles[h]? with
  | some x => (s.flush h).setHandle h { x with isOpen := false }
  | none => s

/-- `PickleFile.close` 74-81; `Access.close` 101-102 of every reader and writer is the same. -/
def PF.close (s : PF V) : PF V :=
  match s.reader with
  | some r => { s with reader := none }.closeFile r
  | none => match s.writer with
    | some w => { s with writer := none }.closeFile w
    | none => s

/-- `ensure_deleted` 67-72 -/
def PF.delete (s : PF V) : Option (PF V) :=
  if s.reader = none ∧ s.writer = none then some { s with disk := none } else none

/-- What `next(reader)` gives: an item, `StopIteration`, or another exception. -/
inductive Next (V : Type)
  | item (v : Val V)
  | stop
  | raised
deriving DecidableEq, Repr

/-- `Reader.__next__` 116-124. Reading from a closed file raises an exception. -/
def PF.next (s : PF V) (h : Nat) : Next V × PF V :=
  match s.handles[h]? with
  | some x =>
    if x.isOpen && !x.isWriter then
      match load1 ((s.disk.getD []).drop x.pos) x.rmemo with
      | .ok v rest m =>
        (.item v, s.setHandle h { x with pos := (s.disk.getD []).length - rest.length, rmemo := m })
      | .eof => (.stop, s.close)
      | .err => (.raised, s.close)
    else (.raised, s.close)
  | none => (.raised, s)

/-- `Writer.write` 148-159, of an object that can be pickled. Writing to a closed writer is an assertion error (149). -/
def PF.write (s : PF V) (h : Nat) (o : Obj V) : PF V :=
  match s.handles[h]? with
  | some x =>
    if x.isOpen && x.isWriter then
      s.setHandle h { x with buf := x.buf ++ (dump o x.wmemo).1, wmemo := (dump o x.wmemo).2 }
    else s
  | none => s

/-- What can happen to a pickle file. `writeFail` is a `write` of an object that cannot be pickled: the writer is closed
(156-158). -/
inductive Ev (V : Type)
  | openReader
  | openWriter (append : Bool)
  | close (h : Nat)
  | next (h : Nat)
  | write (h : Nat) (o : Obj V)
  | writeFail (h : Nat)
  | flush (h : Nat)
  | delete

/-- The state after an event; refused events change nothing. -/
def PF.step (s : PF V) : Ev V → PF V
  | .openReader => s.openReader.getD s
  | .openWriter a => (s.openWriter a).getD s
  | .close _ => s.close
  | .next h => (s.next h).2
  | .write h o => s.write h o
  | .writeFail _ => s.close
  | .flush h => s.flush h
  | .delete => s.delete.getD s

def PF.run (s : PF V) (evs : List (Ev V)) : PF V := evs.foldl PF.step s

/-- A pickle file that nobody uses, with the given file on disk. picklefile.py 28-31 -/
def PF.new (disk : Option (List (Instr V))) : PF V := ⟨disk, none, none, []⟩

/-- The events of a `store` that runs to its end: `setup` opens the writer (store.py 118-121), each item received is written
(123-128), `cleanup` closes (130). `ws` are the writes, with flushes between them. -/
def storeEvents (append : Bool) (h : Nat) (ws : List (Ev V)) : List (Ev V) :=
  [.openWriter append] ++ ws ++ [.close h]

/-- `Load.run` load.py 102-110: items are sent until `StopIteration` or another exception; either way the reader is
closed (once more). `n` bounds the number of items. The result: the items sent, whether it ended without exception, and
the state. -/
def loadLoop : Nat → PF V → Nat → List (Val V) × Bool × PF V
  | 0, s, _ => ([], false, s)
  | n + 1, s, h => match s.next h with
    | (.item v, s') => (v :: (loadLoop n s' h).1, (loadLoop n s' h).2)
    | (.stop, s') => ([], true, s'.close)
    | (.raised, s') => ([], false, s'.close)

/-- `load`: `setup` opens the reader (load.py 100), then `run`. `none`: the reader cannot be opened. There are no more items than
instructions in the file. -/
def PF.load (s : PF V) : Option (List (Val V) × Bool × PF V) :=
  s.openReader.map fun s' => loadLoop ((s.disk.getD []).length + 1) s' s.handles.length

end Marcel.PickleFile
