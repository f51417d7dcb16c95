import Verif.Model.Stream
import Verif.Model.Lexer

/-! # Model of `sql`

`/repo/marcel/op/sql.py`, `/repo/marcel/object/db.py`.

The database is a parameter: what a statement with given values does to the data, which rows it returns, its row count, whether it raises an exception, and whether a commit raises one
(deferred constraints). Simplifications: no other session changes the data while the command runs; `rollback` and `close` raise no exceptions; the connection is made. -/

namespace Marcel.Sql

/-- The database: `D` is the data, `V` the values. -/
structure Driver (D V : Type) where
  /-- `cursor.execute`, then `fetchall` and `rowcount`; `none`: exception -/
  exec : Str → List V → D → Option (D × List (List V) × Int)
  /-- whether a commit of these data succeeds -/
  commitOk : D → Bool
  /-- an update count as a value -/
  int : Int → V

/-- A connection: the data that others see (and that remain if this process ends now), the data in the current transaction, and `committed` after each step so far (the latest first). -/
structure Conn (D : Type) where
  committed : D
  work : D
  hist : List D

variable {D V : Type}

/-- `Connection.query`, `insert`, `execute` db.py 55-71: `cursor.execute`. With autocommit each statement is a transaction. `none`: exception -/
def Conn.execute (drv : Driver D V) (autocommit : Bool) (c : Conn D) (sql : Str) (args : List V) : Conn D × Option (List (List V) × Int) :=
  match drv.exec sql args c.work with
  | none => ({ c with hist := c.committed :: c.hist }, none)
  | some (d, rows, n) =>
    if autocommit then
      if drv.commitOk d then (⟨d, d, d :: c.hist⟩, some (rows, n)) else ({ c with hist := c.committed :: c.hist }, none)
    else (⟨c.committed, d, c.committed :: c.hist⟩, some (rows, n))

/-- `Connection.commit` db.py 73-75. `false`: exception -/
def Conn.commit (drv : Driver D V) (c : Conn D) : Conn D × Bool :=
  if drv.commitOk c.work then (⟨c.work, c.work, c.work :: c.hist⟩, true) else ({ c with hist := c.committed :: c.hist }, false)

/-- `Connection.rollback` db.py 77-79, and `close` 81-83, which does the same to the data -/
def Conn.rollback (c : Conn D) : Conn D := ⟨c.committed, c.committed, c.committed :: c.hist⟩

/-- The fields of `Sql` after `setup` 125-149 (`commit`: 0 without `--commit`) -/
structure Cfg (V : Type) where
  statement : Str
  args : List V
  autocommit : Bool
  updateCounts : Bool
  commit : Nat

inductive Verb
  | select
  | insert
  | other
deriving DecidableEq, Repr

def select : Str := ['s', 'e', 'l', 'e', 'c', 't']
def insert : Str := ['i', 'n', 's', 'e', 'r', 't']

/-- `classify_statement` 179-191. `none`: IndexError. `str.lower` is that of ASCII: only two words matter. -/
def classify (s : Str) : Option Verb :=
  match s.dropWhile isspace with
  | [] => none
  | c :: cs =>
    let verb := ((c :: cs).takeWhile fun x => !isspace x).map Char.toLower
    some (if verb = select then .select else if verb = insert then .insert else .other)

structure St (D : Type) where
  conn : Conn D
  total : Int

/-- `commit_if_necessary` 207-213. `false`: exception -/
def commitIfNecessary (drv : Driver D V) (cfg : Cfg V) (s : St D) (n : Int) : St D × Bool :=
  if !cfg.autocommit && cfg.commit > 0 then
    let total := s.total + n
    if total ≥ cfg.commit then
      let (c, ok) := s.conn.commit drv
      if ok then (⟨c, 0⟩, true) else (⟨c, total⟩, false)
    else (⟨s.conn, total⟩, true)
  else (s, true)

/-- `args = op.args if x is None else x` 223, 235, 249 -/
def arg (cfg : Cfg V) (x : Option (List V)) : List V :=
  match x with
  | none => cfg.args
  | some x => x

/-- `Sql.receive` 154-159, `SqlSelect.receive` 221-225, `SqlInsert.receive` 233-239, `SqlOther.receive` 247-253. `x = none`: called by `run`, 151-152.
That exceptions from the operators that follow lead to a rollback (if they are subclasses of `Exception`) is left out: the connection will be closed, which does the same. -/
def receive (drv : Driver D V) (cfg : Cfg V) (verb : Verb) (s : St D) (x : Option (List V)) : Res (St D) (List V) :=
  match s.conn.execute drv cfg.autocommit cfg.statement (arg cfg x) with
  | (c, none) => ⟨⟨c.rollback, s.total⟩, [], some .kill⟩
  | (c, some (rows, n)) =>
    if verb = .select then ⟨⟨c, s.total⟩, rows.map .item, none⟩
    else
      match commitIfNecessary drv cfg ⟨c, s.total⟩ n with
      | (s, false) => ⟨⟨s.conn.rollback, s.total⟩, [], some .kill⟩
      | (s, true) => ⟨s, if cfg.updateCounts then [.item [drv.int n]] else [], none⟩

/-- `Sql.flush` 161-171, `SqlStatement.flush` 203-205 (which may commit, too: twice is as good as once). The flush is propagated also if the commit fails. -/
def flush (drv : Driver D V) (s : St D) : Res (St D) (List V) :=
  match s.conn.commit drv with
  | (c, true) => ⟨⟨c, s.total⟩, [.flush], none⟩
  | (c, false) => ⟨⟨c.rollback, s.total⟩, [.flush], some .kill⟩

/-- The operator, with a new connection to a database with data `d`. -/
def op (drv : Driver D V) (cfg : Cfg V) (verb : Verb) (d : D) : Op (St D) (Option (List V)) (List V) where
  init := ⟨⟨d, d, [d]⟩, 0⟩
  item := receive drv cfg verb
  flush := flush drv
  no_flush := by
    intro s x
    unfold receive
    split
    · simp
    · split
      · simp only [List.mem_map]; rintro ⟨_, _, h⟩; cases h
      · split
        · simp
        · simp only; try split
          all_goals simp

/-- `Sql.cleanup` 173-174: in the end the connection is closed (pipeline.py 333-335). -/
def closed (s : St D) : D := s.conn.rollback.committed

/-- The checks of `setup` 128-131 on the value of `--commit`; `none`: refused -/
def setupCommit : Option Int → Option Nat
  | none => some 0
  | some n => if n < 0 then none else some n.toNat

end Marcel.Sql
