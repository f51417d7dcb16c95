import Verif.Model.Sql

/-! # Specification of `sql` (for C69)

What it means to execute a statement for one list of values after the other, and when transactions may be committed. -/

namespace Marcel.Sql

variable {D V : Type}

/-- Executing the statement with each of the lists of values in turn leads from the data `d` to the data `d'`, with these update counts and rows. -/
inductive Runs (drv : Driver D V) (stmt : Str) : D → List (List V) → List Int → List (List (List V)) → D → Prop
  | nil {d} : Runs drv stmt d [] [] [] d
  | snoc {d d1 d2 xs ns rss x n rows} : Runs drv stmt d xs ns rss d1 → drv.exec stmt x d1 = some (d2, rows, n) → Runs drv stmt d (xs ++ [x]) (ns ++ [n]) (rss ++ [rows]) d2

/-- The three ways of committing. -/
inductive Mode
  | atEnd
  | every (n : Nat)
  | auto

/-- Update counts (those of all statements but SELECT) are added up for `--commit`. -/
def mode (cfg : Cfg V) (verb : Verb) : Mode :=
  if cfg.autocommit then .auto else if cfg.commit = 0 ∨ verb = .select then .atEnd else .every cfg.commit

/-- Update counts of the statements between two commits: together they equal or exceed `n`, but not before the last one. -/
def Batch (n : Nat) (ns : List Int) : Prop := ns ≠ [] ∧ (n : Int) ≤ ns.sum ∧ ∀ p s, ns = p ++ s → p ≠ [] → s ≠ [] → p.sum < n

/-- `k` statements can be those that have been committed when statements with these update counts have been executed. -/
def Allowed : Mode → List Int → Nat → Prop
  | .atEnd, _, k => k = 0
  | .auto, ns, k => k ≤ ns.length
  | .every n, ns, k => k ≤ ns.length ∧ ∃ bs : List (List Int), ns.take k = bs.flatten ∧ ∀ b ∈ bs, Batch n b

/-- `k` statements are to be committed when statements with these update counts have been executed: a commit that is due has taken place. -/
def Due : Mode → List Int → Nat → Prop
  | .atEnd, _, k => k = 0
  | .auto, ns, k => k = ns.length
  | .every n, ns, k => k ≤ ns.length ∧ (∃ bs : List (List Int), ns.take k = bs.flatten ∧ ∀ b ∈ bs, Batch n b) ∧ ∀ p s, ns.drop k = p ++ s → p ≠ [] → p.sum < n

/-- The values bound to the parameters of the statement, as documented: those of the ARGs, if there are any, else the components of the input. -/
def bound (args : List V) (x : Option (List V)) : List V := if args.isEmpty then x.getD [] else args

/-- What is to be sent when a statement has been executed. -/
def output (drv : Driver D V) (cfg : Cfg V) (verb : Verb) (rows : List (List V)) (n : Int) : List (Ev (List V)) :=
  if verb = .select then rows.map .item else if cfg.updateCounts then [.item [drv.int n]] else []

/-- What is to be sent in all; errors in the input are passed on. -/
def outputs (drv : Driver D V) (cfg : Cfg V) (verb : Verb) : List (Ev (Option (List V))) → List Int → List (List (List V)) → List (Ev (List V))
  | .item _ :: es, n :: ns, rows :: rss => output drv cfg verb rows n ++ outputs drv cfg verb es ns rss
  | .err m :: es, ns, rss => .err m :: outputs drv cfg verb es ns rss
  | _, _, _ => []

end Marcel.Sql
