import Verif.Lemmas.NestOps

/-! # Lemmas for C94: parsing of the arguments of the operators with pipelines -/

namespace Marcel.Exec
open Op
set_option linter.unusedSectionVars false

variable {V : Type} [DecidableEq V]

theorem difference_parse (r : Result V) : NestKind.difference.decl.parse [NArg.pipe r] [] = some [("pipeline".toList, .one (.pipe r))] := by rfl
theorem join_parse (r : Result V) : NestKind.join.decl.parse [NArg.pipe r] [] = some [("pipeline".toList, .one (.pipe r))] := by rfl
theorem join_parse_keep (f : Str) (hf : f = "-k".toList ∨ f = "--keep".toList) (r : Result V) :
    NestKind.join.decl.parse [.str f, NArg.pipe r] [] = some [("keep".toList, .one .true_), ("pipeline".toList, .one (.pipe r))] := by
  rcases hf with rfl | rfl <;> rfl

theorem filter_parse (r : Result V) : NestKind.filter.decl.parse [NArg.pipe r] [] = some [("pipeline".toList, .one (.pipe r))] := by rfl
theorem filter_parse_keep (f : Str) (hf : f = "-k".toList ∨ f = "--keep".toList) (r : Result V) :
    NestKind.filter.decl.parse [.str f, NArg.pipe r] [] = some [("keep".toList, .one .true_), ("pipeline".toList, .one (.pipe r))] := by
  rcases hf with rfl | rfl <;> rfl
theorem filter_parse_discard (f : Str) (hf : f = "-d".toList ∨ f = "--discard".toList) (r : Result V) :
    NestKind.filter.decl.parse [.str f, NArg.pipe r] [] = some [("discard".toList, .one .true_), ("pipeline".toList, .one (.pipe r))] := by
  rcases hf with rfl | rfl <;> rfl
theorem filter_parse_compare (g : Str) (hg : g = "-c".toList ∨ g = "--compare".toList) (h : FnRef) (r : Result V) :
    NestKind.filter.decl.parse [.str g, .fn h, NArg.pipe r] [] = some [("compare".toList, .one (.fn h)), ("pipeline".toList, .one (.pipe r))] := by
  rcases hg with rfl | rfl <;> rfl
theorem filter_parse_keep_compare (f g : Str) (hf : f = "-k".toList ∨ f = "--keep".toList) (hg : g = "-c".toList ∨ g = "--compare".toList) (h : FnRef) (r : Result V) :
    NestKind.filter.decl.parse [.str f, .str g, .fn h, NArg.pipe r] [] = some [("keep".toList, .one .true_), ("compare".toList, .one (.fn h)), ("pipeline".toList, .one (.pipe r))] := by
  rcases hf with rfl | rfl <;> rcases hg with rfl | rfl <;> rfl
theorem filter_parse_discard_compare (f g : Str) (hf : f = "-d".toList ∨ f = "--discard".toList) (hg : g = "-c".toList ∨ g = "--compare".toList) (h : FnRef) (r : Result V) :
    NestKind.filter.decl.parse [.str f, .str g, .fn h, NArg.pipe r] [] = some [("discard".toList, .one .true_), ("compare".toList, .one (.fn h)), ("pipeline".toList, .one (.pipe r))] := by
  rcases hf with rfl | rfl <;> rcases hg with rfl | rfl <;> rfl

/-- A list of pipelines, and nothing else. -/
def listDecl : ArgsDecl (NArg V) := ⟨[], [], Api.anonList "pipelines" "pipelines" checkPipe, [], []⟩

theorem list_extract (rs : List (Result V)) : ∀ (vs : List (NArg V)) (b : Bool), (listDecl (V := V)).extract ⟨[], [], vs, none, b⟩ (rs.map .pipe) =
    some ⟨[], [], vs ++ rs.map .pipe, none, if rs.isEmpty then b else false⟩ := by
  induction rs with
  | nil => intro vs b; simp [ArgsDecl.extract]
  | cons r rs ih =>
    intro vs b
    rw [List.map_cons]
    have h : (listDecl (V := V)).extract ⟨[], [], vs, none, b⟩ (.pipe r :: rs.map .pipe) = (listDecl (V := V)).extract ⟨[], [], vs ++ [.pipe r], none, false⟩ (rs.map .pipe) := by
      rfl
    rw [h, ih]
    simp

theorem list_parse (rs : List (Result V)) : (listDecl (V := V)).parse (rs.map .pipe) [] = some [("pipelines".toList, .list (rs.map .pipe))] := by
  have h := list_extract rs [] (decide ((listDecl (V := V)).flags.length > 0))
  unfold ArgsDecl.parse
  rw [h]
  cases rs <;> rfl

theorem union_parse (rs : List (Result V)) : NestKind.union.decl.parse (rs.map NArg.pipe) [] = some [("pipelines".toList, .list (rs.map .pipe))] := list_parse rs
theorem intersect_parse (rs : List (Result V)) : NestKind.intersect.decl.parse (rs.map NArg.pipe) [] = some [("pipelines".toList, .list (rs.map .pipe))] := list_parse rs
end Marcel.Exec
