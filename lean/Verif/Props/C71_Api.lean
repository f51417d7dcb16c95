import Verif.Lemmas.ApiCalls

/-! # C71: an operator made by a function of the API has exactly the arguments of the call

For every call of a function of the API whose arguments are acceptable: parameters that exclude each other are accepted if and only if at most one (or exactly one) of them is given, and then every field of the operator
holds what was given for it (`Call.fields`), converted; other fields remain as they are.

Full statement: this for all calls. It is wrong for `Call.Regular` false: values that are false in Python are ignored by some functions, `dirs(clear=False)` clears the stack, and a depth other than 0 and 1
is ignored (`C71_…_false`); and arguments of operators with flags must not look like flags (`C71_flaglike_false`). -/

namespace Marcel.Api

open PyArg

variable {V : Type} [PyArg V]

/-- **C71 (part).** -/
theorem C71_partial (py : Py V) (call : Call V) (op : Dict Str (ArgValue V)) (hr : call.Regular py) (hx : call.Exclusive)
    (hacc : ∀ t v, (t, v) ∈ call.fields py → v.Accepted call.hasFlags) :
    ∃ op', call.generate py op = some op' ∧ ∀ t v, (t, v) ∈ call.fields py → v.Holds (op.get? t) (op'.get? t) := by
  obtain ⟨slots, xs, m⟩ := made py call hr
  have hacc' : ∀ p ∈ genericFields (call.decl py) slots xs, p.2.Accepted (!(call.decl py).flags.isEmpty) := by
    intro p hp
    rw [← m.hasFlags]
    exact hacc p.1 p.2 (by rw [m.fields]; exact hp)
  refine ⟨op.update (argStores (call.decl py) (slots.filterMap Slot.use) (anonVals (call.decl py) xs)), ?_, fun t v h => ?_⟩
  · unfold Call.generate
    rw [m.arglist]
    exact (parse_generic (call.decl py) slots xs op m.fits hacc').1 (m.exclusive.1 hx)
  · rw [m.fields] at h
    exact holds_generic (call.decl py) slots xs op m.fits hacc' (t, v) h

/-- Fields that are not mentioned are not changed. -/
theorem C71_others_partial (py : Py V) (call : Call V) (op op' : Dict Str (ArgValue V)) (hr : call.Regular py)
    (hacc : ∀ t v, (t, v) ∈ call.fields py → v.Accepted call.hasFlags) (h : call.generate py op = some op') (t : Str) (ht : t ∉ (call.fields py).map (·.1)) :
    op'.get? t = op.get? t := by
  obtain ⟨slots, xs, m⟩ := made py call hr
  have hacc' : ∀ p ∈ genericFields (call.decl py) slots xs, p.2.Accepted (!(call.decl py).flags.isEmpty) := by
    intro p hp
    rw [← m.hasFlags]
    exact hacc p.1 p.2 (by rw [m.fields]; exact hp)
  obtain ⟨h1, h2⟩ := parse_generic (call.decl py) slots xs op m.fits hacc'
  unfold Call.generate at h
  rw [m.arglist] at h
  rw [m.fields] at ht
  rcases Bool.eq_false_or_eq_true (groupsOK (call.decl py) slots xs) with hg | hg
  · rw [h1 hg] at h
    cases h
    apply get?_update_not
    intro hin
    apply ht
    exact stores_fields (call.decl py) slots xs m.fits t hin
  · rw [h2 hg] at h; cases h

/-- Parameters that exclude each other are refused. -/
theorem C71_exclusive_partial (py : Py V) (call : Call V) (op : Dict Str (ArgValue V)) (hr : call.Regular py) (hx : ¬ call.Exclusive)
    (hacc : ∀ t v, (t, v) ∈ call.fields py → v.Accepted call.hasFlags) : call.generate py op = none := by
  obtain ⟨slots, xs, m⟩ := made py call hr
  have hacc' : ∀ p ∈ genericFields (call.decl py) slots xs, p.2.Accepted (!(call.decl py).flags.isEmpty) := by
    intro p hp
    rw [← m.hasFlags]
    exact hacc p.1 p.2 (by rw [m.fields]; exact hp)
  unfold Call.generate
  rw [m.arglist]
  apply (parse_generic (call.decl py) slots xs op m.fits hacc').2
  cases h : groupsOK (call.decl py) slots xs with
  | false => rfl
  | true => exact absurd (m.exclusive.2 h) hx

/-! ## What is wrong for other calls -/

/-- Values as in the example of C37; `0`, `''` are false. -/
def pyV : Py ArgV where
  strToInt := fun v => match v with | .n _ => some v | _ => none
  toFloat := some
  checkStr := fun v => match v with | .s _ => some v | _ => none
  checkStrOrFile := some
  checkPipeline := some
  function := some
  functionOrPipeline := some
  forkGen := some
  cluster := some
  strOrPipeline := some
  truth := fun v => match v with | .s x => !x.isEmpty | .n k => k != 0 | .t => true
  none_ := .s "None".toList
  zero := .n 0
  rGroup := .s ".".toList

/-- `gen(5, pad=0)` is accepted and not padded, while `gen --pad 0 5` on the command line is refused as too small (gen.py 80-90): the value is dropped. -/
theorem C71_pad_false : ∃ op', (Call.gen (some (.n 5)) none (some (.n 0))).generate pyV [] = some op' ∧ op'.get? "pad_arg".toList = none := by
  exact ⟨_, rfl, by decide +kernel⟩

/-- `dirs(clear=False)` clears the stack. -/
theorem C71_clear_false : ∃ op', (Call.dirs (some false)).generate pyV [] = some op' ∧ op'.get? "clear".toList = some (.one .t) := by
  exact ⟨_, rfl, rfl⟩

/-- `ls(depth=2)` does the same as `ls()`. -/
theorem C71_depth_false : (Call.ls [] (some 2) false false false false).generate pyV [] = (Call.ls [] none false false false false).generate pyV [] := rfl

/-- `write('')` writes to standard output, as if no filename were given. -/
theorem C71_filename_false : (Call.write (some (.s [])) false false false none false).generate pyV [] = (Call.write none false false false none false).generate pyV [] := rfl

/-- `sql` with a statement and the value `-a` for a parameter of the statement is refused; so is every value that is a flag. -/
theorem C71_flaglike_false : (Call.sql (.s "insert into t values (%s)".toList) [.s "-a".toList] none false false none).generate pyV [] = none := by decide +kernel

/-! ## Examples -/

/-- A call with flags and lists. -/
def exampleCall : Call ArgV := .read [.s "a.csv".toList, .s "b.csv".toList] (some 1) false true false true false false false true

example : exampleCall.Regular pyV ∧ exampleCall.Exclusive ∧ ∀ t v, (t, v) ∈ exampleCall.fields pyV → v.Accepted exampleCall.hasFlags := by
  refine ⟨fun n h => by cases h; decide, ⟨by unfold AtMostOne; decide, by unfold AtMostOne; decide, by unfold AtMostOne; decide⟩, ?_⟩
  intro t v h
  simp only [exampleCall, Call.fields, List.mem_cons, List.not_mem_nil, or_false, Prod.mk.injEq] at h
  rcases h with ⟨_, rfl⟩ | ⟨_, rfl⟩ | ⟨_, rfl⟩ | ⟨_, rfl⟩ | ⟨_, rfl⟩ | ⟨_, rfl⟩ | ⟨_, rfl⟩ | ⟨_, rfl⟩ | ⟨_, rfl⟩ | ⟨_, rfl⟩ | ⟨_, rfl⟩ <;> try trivial
  intro x hx
  simp only [List.mem_cons, List.not_mem_nil, or_false] at hx
  rcases hx with rfl | rfl <;> exact ⟨fun _ => (by rintro ⟨c, cs, h⟩; cases h), rfl⟩

example : exampleCall.generate pyV [("tsv".toList, .one (.n 0))] = some [("tsv".toList, .one (.n 0)), ("d1".toList, .one .t), ("csv".toList, .one .t), ("headings".toList, .one .t),
    ("label".toList, .one .t), ("filenames_arg".toList, .list [.s "a.csv".toList, .s "b.csv".toList])] := rfl

/-- Both `csv` and `tsv`: refused. -/
example : (Call.read [.s "a.csv".toList] none false true true false false false false false).generate pyV [] = none := rfl

example : ¬ (Call.read [ArgV.s "a.csv".toList] none false true true false false false false false).Exclusive := by
  rintro ⟨_, h, _⟩; revert h; unfold AtMostOne; decide

end Marcel.Api
