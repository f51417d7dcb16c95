import Verif.Spec.Pickle
/-! # C42: a reservoir is never written while it is being read -/

namespace Marcel.PickleFile

variable {V : Type}

/-- What is open: for each handle, whether it is a writer and whether it is open. -/
def PF.kinds (s : PF V) : List (Bool × Bool) := s.handles.map fun x => (x.isWriter, x.isOpen)

theorem activeReader_iff (s : PF V) (h : Nat) : s.activeReader h ↔ s.kinds[h]? = some (false, true) := by
  unfold PF.activeReader PF.kinds
  rw [List.getElem?_map]
  cases e : s.handles[h]? with
  | none => simp
  | some x => cases x with | mk w o _ _ _ _ => simp [and_comm]

theorem activeWriter_iff (s : PF V) (h : Nat) : s.activeWriter h ↔ s.kinds[h]? = some (true, true) := by
  unfold PF.activeWriter PF.kinds
  rw [List.getElem?_map]
  cases e : s.handles[h]? with
  | none => simp
  | some x => cases x with | mk w o _ _ _ _ => simp [and_comm]

theorem kinds_set (s : PF V) (h : Nat) (x y : Handle V) (e : s.handles[h]? = some x)
    (h1 : y.isWriter = x.isWriter) (h2 : y.isOpen = x.isOpen) : (s.setHandle h y).kinds = s.kinds := by
  unfold PF.kinds PF.setHandle
  simp only
  apply List.ext_getElem?
  intro i
  rw [List.map_set, List.getElem?_set]
  by_cases hi : h = i
  · subst hi
    have : h < s.handles.length := by
      rw [List.getElem?_eq_some_iff] at e; exact e.1
    simp [this, h1, h2]
    exact ⟨by rw [List.getElem?_eq_some_iff] at e; rw [e.2], by rw [List.getElem?_eq_some_iff] at e; rw [e.2]⟩
  · simp [hi]

theorem flush_kinds (s : PF V) (h : Nat) : (s.flush h).kinds = s.kinds := by
  unfold PF.flush
  split
  · rename_i x e
    split
    · exact kinds_set s h x _ e rfl rfl
    · rfl
  · rfl

theorem flush_reader (s : PF V) (h : Nat) : (s.flush h).reader = s.reader := by
  unfold PF.flush; split <;> try split
  all_goals rfl

theorem flush_writer (s : PF V) (h : Nat) : (s.flush h).writer = s.writer := by
  unfold PF.flush; split <;> try split
  all_goals rfl

theorem closeFile_reader (s : PF V) (h : Nat) : (s.closeFile h).reader = s.reader := by
  unfold PF.closeFile; split
  · exact flush_reader s h
  · rfl

theorem closeFile_writer (s : PF V) (h : Nat) : (s.closeFile h).writer = s.writer := by
  unfold PF.closeFile; split
  · exact flush_writer s h
  · rfl

theorem closeFile_kinds (s : PF V) (h : Nat) (w o : Bool) (e : s.kinds[h]? = some (w, o)) (i : Nat) :
    (s.closeFile h).kinds[i]? = if i = h then some (w, false) else s.kinds[i]? := by
  have ek := flush_kinds s h
  rw [← ek] at e ⊢
  unfold PF.kinds at e
  rw [List.getElem?_map] at e
  unfold PF.closeFile
  split
  · rename_i x ex
    rw [ex] at e
    simp only [Option.map_some, Option.some.injEq, Prod.mk.injEq] at e
    unfold PF.kinds PF.setHandle
    simp only
    rw [List.map_set, List.getElem?_set]
    by_cases hi : h = i
    · subst hi
      have : h < (s.flush h).handles.length := by
        rw [List.getElem?_eq_some_iff] at ex; exact ex.1
      simp [this, e.1]
    · have : ¬ i = h := fun c => hi c.symm
      simp [hi, this]
  · rename_i ex
    rw [ex] at e
    simp at e

/-- What holds in every state. -/
structure Inv (s : PF V) : Prop where
  reader : ∀ r, s.reader = some r → s.kinds[r]? = some (false, true)
  writer : ∀ w, s.writer = some w → s.kinds[w]? = some (true, true)
  only : ∀ w, s.kinds[w]? = some (true, true) → s.writer = some w
  excl : s.reader = none ∨ s.writer = none

theorem Inv.of_same {s t : PF V} (h : Inv s) (hk : t.kinds = s.kinds) (hr : t.reader = s.reader)
    (hw : t.writer = s.writer) : Inv t := by
  constructor
  · rw [hk, hr]; exact h.reader
  · rw [hk, hw]; exact h.writer
  · rw [hk, hw]; exact h.only
  · rw [hr, hw]; exact h.excl

theorem Inv.new (d : Option (List (Instr V))) : Inv (PF.new d) := by
  constructor <;> simp [PF.new, PF.kinds]

theorem Inv.close {s : PF V} (h : Inv s) : Inv s.close := by
  unfold PF.close
  split
  · rename_i r er
    have hk : ({ s with reader := none } : PF V).kinds[r]? = some (false, true) := h.reader r er
    have hc := closeFile_kinds { s with reader := none } r false true hk
    have hwn : s.writer = none := by
      cases h.excl with
      | inl c => rw [c] at er; cases er
      | inr c => exact c
    constructor
    · intro q hq; rw [closeFile_reader] at hq; cases hq
    · intro q hq; rw [closeFile_writer] at hq
      simp only [hwn] at hq; cases hq
    · intro q hq
      rw [hc] at hq
      split at hq
      · simp at hq
      · have := h.only q hq
        rw [hwn] at this; cases this
    · left; rw [closeFile_reader]
  · rename_i er
    split
    · rename_i w ew
      have hk : ({ s with writer := none } : PF V).kinds[w]? = some (true, true) := h.writer w ew
      have hc := closeFile_kinds { s with writer := none } w true true hk
      constructor
      · intro q hq; rw [closeFile_reader] at hq; simp only [er] at hq; cases hq
      · intro q hq; rw [closeFile_writer] at hq; cases hq
      · intro q hq
        rw [hc] at hq
        split at hq
        · simp at hq
        · rename_i hne
          have := h.only q hq
          rw [ew] at this; cases this; exact absurd rfl hne
      · left; rw [closeFile_reader]; exact er
    · exact h

theorem kinds_append (s : PF V) (x : Handle V) (i : Nat) :
    ((s.handles ++ [x]).map fun x => (x.isWriter, x.isOpen))[i]? =
      if i = s.handles.length then some (x.isWriter, x.isOpen) else s.kinds[i]? := by
  unfold PF.kinds
  rw [List.map_append, List.getElem?_append]
  simp only [List.length_map, List.map_cons, List.map_nil]
  by_cases h1 : i < s.handles.length
  · have : ¬ i = s.handles.length := by omega
    simp [h1, this]
  · by_cases h2 : i = s.handles.length
    · simp [h2]
    · have h3 : i - s.handles.length ≠ 0 := by omega
      have h4 : s.handles.length ≤ i := by omega
      rw [if_neg h1, if_neg h2, List.getElem?_eq_none, List.getElem?_eq_none] <;> simp <;> omega

theorem Inv.openReader {s t : PF V} (h : Inv s) (e : s.openReader = some t) : Inv t := by
  unfold PF.openReader at e
  split at e
  · rename_i hc
    cases e
    constructor
    · intro r hr
      cases hr
      unfold PF.kinds; simp only; rw [kinds_append]; simp
    · intro w hw; simp only [hc.1] at hw; cases hw
    · intro w hw
      unfold PF.kinds at hw; simp only at hw; rw [kinds_append] at hw
      split at hw
      · simp at hw
      · exact h.only w hw
    · right; exact hc.1
  · cases e

theorem Inv.openWriter {s t : PF V} {a : Bool} (h : Inv s) (e : s.openWriter a = some t) : Inv t := by
  unfold PF.openWriter at e
  split at e
  · rename_i hc
    cases e
    constructor
    · intro r hr; simp only [hc.1] at hr; cases hr
    · intro w hw
      cases hw
      unfold PF.kinds; simp only; rw [kinds_append]; simp
    · intro w hw
      unfold PF.kinds at hw; simp only at hw; rw [kinds_append] at hw
      split at hw
      · rename_i hi; simp [hi]
      · have := h.only w hw
        rw [hc.2] at this; cases this
    · left; exact hc.1
  · cases e

/-- `next` closes the file, or only moves the reader. -/
theorem next_cases (s : PF V) (h : Nat) :
    ((s.next h).2 = s.close) ∨
      ((s.next h).2.kinds = s.kinds ∧ (s.next h).2.reader = s.reader ∧ (s.next h).2.writer = s.writer ∧
        (s.next h).2.disk = s.disk) := by
  unfold PF.next
  split
  · rename_i x e
    split
    · split
      · right
        exact ⟨kinds_set s h x _ e rfl rfl, rfl, rfl, rfl⟩
      · left; rfl
      · left; rfl
    · left; rfl
  · right; exact ⟨rfl, rfl, rfl, rfl⟩

theorem write_same (s : PF V) (h : Nat) (o : Obj V) :
    (s.write h o).kinds = s.kinds ∧ (s.write h o).reader = s.reader ∧ (s.write h o).writer = s.writer ∧
      (s.write h o).disk = s.disk := by
  unfold PF.write
  split
  · rename_i x e
    split
    · exact ⟨kinds_set s h x _ e rfl rfl, rfl, rfl, rfl⟩
    · exact ⟨rfl, rfl, rfl, rfl⟩
  · exact ⟨rfl, rfl, rfl, rfl⟩

theorem Inv.step {s : PF V} (h : Inv s) (ev : Ev V) : Inv (s.step ev) := by
  cases ev with
  | openReader =>
    unfold PF.step
    cases e : s.openReader with
    | none => exact h
    | some t => exact h.openReader e
  | openWriter a =>
    unfold PF.step
    simp only
    cases e : s.openWriter a with
    | none => exact h
    | some t => exact h.openWriter e
  | close i => exact h.close
  | next i =>
    show Inv (s.next i).2
    rcases next_cases s i with c | ⟨c1, c2, c3, _⟩
    · rw [c]; exact h.close
    · exact h.of_same c1 c2 c3
  | write i o =>
    have := write_same s i o
    exact h.of_same this.1 this.2.1 this.2.2.1
  | writeFail i => exact h.close
  | flush i => exact h.of_same (flush_kinds s i) (flush_reader s i) (flush_writer s i)
  | delete =>
    show Inv (s.delete.getD s)
    unfold PF.delete
    split
    · exact h.of_same rfl rfl rfl
    · exact h

theorem Inv.run {s : PF V} (h : Inv s) (evs : List (Ev V)) : Inv (s.run evs) := by
  induction evs generalizing s with
  | nil => exact h
  | cons e es ih => exact ih (h.step e)

/-- Every reader in use is the registered one. -/
def Reg (s : PF V) : Prop := ∀ r, s.kinds[r]? = some (false, true) → s.reader = some r

theorem Reg.close {s : PF V} (h : Reg s) (hi : Inv s) : Reg s.close := by
  unfold PF.close
  split
  · rename_i r er
    have hk : ({ s with reader := none } : PF V).kinds[r]? = some (false, true) := hi.reader r er
    have hc := closeFile_kinds { s with reader := none } r false true hk
    intro q hq
    rw [hc] at hq
    split at hq
    · simp at hq
    · rename_i hne
      have := h q hq
      rw [er] at this; cases this; exact absurd rfl hne
  · rename_i er
    split
    · rename_i w ew
      have hk : ({ s with writer := none } : PF V).kinds[w]? = some (true, true) := hi.writer w ew
      have hc := closeFile_kinds { s with writer := none } w true true hk
      intro q hq
      rw [hc] at hq
      split at hq
      · simp at hq
      · rw [closeFile_reader]; exact h q hq
    · exact h

theorem Reg.step {s : PF V} (h : Reg s) (hi : Inv s) (ev : Ev V)
    (hev : ev = .openReader → ∀ i, ¬ s.activeReader i) : Reg (s.step ev) := by
  cases ev with
  | openReader =>
    show Reg (s.openReader.getD s)
    unfold PF.openReader
    split
    · simp only [Option.getD_some]
      intro q hq
      unfold PF.kinds at hq; simp only at hq; rw [kinds_append] at hq
      split at hq
      · rename_i hq'; simp [hq']
      · exact absurd ((activeReader_iff s q).2 hq) (hev rfl q)
    · exact h
  | openWriter a =>
    show Reg ((s.openWriter a).getD s)
    unfold PF.openWriter
    split
    · simp only [Option.getD_some]
      intro q hq
      unfold PF.kinds at hq; simp only at hq; rw [kinds_append] at hq
      split at hq
      · simp at hq
      · exact h q hq
    · exact h
  | close i => exact h.close hi
  | next i =>
    show Reg (s.next i).2
    rcases next_cases s i with c | ⟨c1, c2, c3, _⟩
    · rw [c]; exact h.close hi
    · intro q hq; rw [c1] at hq; rw [c2]; exact h q hq
  | write i o =>
    have := write_same s i o
    intro q hq
    rw [show s.step (.write i o) = s.write i o from rfl] at hq ⊢
    rw [this.1] at hq; rw [this.2.1]; exact h q hq
  | writeFail i => exact h.close hi
  | flush i =>
    intro q hq
    rw [show s.step (.flush i) = s.flush i from rfl] at hq ⊢
    rw [flush_kinds] at hq; rw [flush_reader]; exact h q hq
  | delete =>
    show Reg (s.delete.getD s)
    unfold PF.delete
    split
    · exact h
    · exact h

theorem run_append (s : PF V) (a b : List (Ev V)) : s.run (a ++ b) = (s.run a).run b := by
  unfold PF.run; rw [List.foldl_append]

theorem Reg.run {s : PF V} (h : Reg s) (hi : Inv s) (evs : List (Ev V)) (h1 : OneReader s evs) :
    Reg (s.run evs) := by
  induction evs generalizing s with
  | nil => exact h
  | cons e es ih =>
    refine ih (h.step hi e ?_) (hi.step e) ?_
    · intro he
      exact h1 [] es (by rw [he]; rfl)
    · intro pre post hp
      exact h1 (e :: pre) post (by rw [hp]; rfl)

/-- **C42** (part). Whatever is done with a storage file, there is never more than one writer. -/
theorem C42_one_writer (disk : Option (List (Instr V))) (evs : List (Ev V)) (v w : Nat)
    (hv : ((PF.new disk).run evs).activeWriter v) (hw : ((PF.new disk).run evs).activeWriter w) : v = w := by
  have hi := (Inv.new disk).run evs
  rw [activeWriter_iff] at hv hw
  have a := hi.only v hv
  have b := hi.only w hw
  rw [a] at b; cases b; rfl

theorem disk_closeFile_reader (s : PF V) (r : Nat) (h : s.kinds[r]? = some (false, true)) :
    (s.closeFile r).disk = s.disk := by
  have hf : s.flush r = s := by
    unfold PF.flush
    rw [PF.kinds, List.getElem?_map] at h
    split
    · rename_i x e
      rw [e] at h
      simp only [Option.map_some, Option.some.injEq, Prod.mk.injEq] at h
      simp [h.1]
    · rfl
  unfold PF.closeFile
  rw [hf]
  split <;> rfl

/-- **C42**, for histories in which no reader is opened while another reader of the same file is in use: while a reader
is in use no writer is, and nothing that happens changes the file under the reader. In general it is false: `C42_false`. -/
theorem C42_partial (disk : Option (List (Instr V))) (evs : List (Ev V))
    (h1 : OneReader (PF.new disk) evs) (r : Nat) (hr : ((PF.new disk).run evs).activeReader r) :
    (∀ w, ¬ ((PF.new disk).run evs).activeWriter w) ∧
    (∀ q, ((PF.new disk).run evs).activeReader q → q = r) ∧
    (∀ ev, (((PF.new disk).run evs).step ev).disk = ((PF.new disk).run evs).disk) := by
  have hi := (Inv.new disk).run evs
  have hg : Reg ((PF.new disk).run evs) :=
    Reg.run (by intro q hq; simp [PF.new, PF.kinds] at hq) (Inv.new disk) evs h1
  generalize (PF.new disk).run evs = s at hi hg hr
  rw [activeReader_iff] at hr
  have er := hg r hr
  have ew : s.writer = none := by
    cases hi.excl with
    | inl c => rw [c] at er; cases er
    | inr c => exact c
  have hclose : s.close.disk = s.disk := by
    unfold PF.close
    rw [er]
    exact disk_closeFile_reader { s with reader := none } r hr
  refine ⟨?_, ?_, ?_⟩
  · intro w hw
    rw [activeWriter_iff] at hw
    rw [hi.only w hw] at ew; cases ew
  · intro q hq
    rw [activeReader_iff] at hq
    have := hg q hq
    rw [er] at this; cases this; rfl
  · intro ev
    cases ev with
    | openReader => show (s.openReader.getD s).disk = _; unfold PF.openReader; split <;> rfl
    | openWriter a => show ((s.openWriter a).getD s).disk = _; unfold PF.openWriter; simp [er]
    | close i => exact hclose
    | next i =>
      show (s.next i).2.disk = _
      rcases next_cases s i with c | ⟨_, _, _, c⟩
      · rw [c]; exact hclose
      · exact c
    | write i o => exact (write_same s i o).2.2.2
    | writeFail i => exact hclose
    | flush i =>
      show (s.flush i).disk = _
      unfold PF.flush
      split
      · rename_i x e
        split
        · rename_i hx
          exfalso
          simp only [Bool.and_eq_true] at hx
          have : s.activeWriter i := ⟨x, e, hx.1, hx.2⟩
          rw [activeWriter_iff] at this
          rw [hi.only i this] at ew; cases ew
        · rfl
      · rfl
    | delete => show (s.delete.getD s).disk = _; unfold PF.delete; simp [er]

/-- Non-vacuity: a reader is in use after a store, and nothing else was. -/
example : OneReader (PF.new (V := Nat) none) [.openWriter false, .write 0 (.lit 5), .close 0, .openReader] ∧
    ((PF.new (V := Nat) none).run [.openWriter false, .write 0 (.lit 5), .close 0, .openReader]).activeReader 1 := by
  constructor
  · intro pre post h i
    have hp : pre = [.openWriter false, .write 0 (.lit 5), .close 0] := by
      rcases pre with _ | ⟨a, _ | ⟨b, _ | ⟨c, _ | ⟨d, pre⟩⟩⟩⟩
      · simp at h
      · simp at h
      · simp at h
      · simp only [List.cons_append, List.nil_append, List.cons.injEq] at h
        rw [← h.1, ← h.2.1, ← h.2.2.1]
      · simp only [List.cons_append, List.nil_append, List.cons.injEq] at h
        have := h.2.2.2.2
        simp at this
    rw [hp]
    rintro ⟨x, hx, _, hw⟩
    rcases i with _ | i
    · have : x.isWriter = true := by cases hx; rfl
      rw [this] at hw; cases hw
    · cases hx
  · exact ⟨_, rfl, rfl, rfl⟩

/-- **C42** is false of the code. Two readers of a file; the one that was opened second is closed (as `load` does at the end
of its file); then a `store` is admitted while the first reader is in use, and empties the file under it: the first
reader finds the end of the file where it should find 7. -/
theorem C42_false :
    ∃ (evs : List (Ev Nat)),
      ((PF.new (some ([.push 7, .stop] : List (Instr Nat)))).run evs).activeReader 0 ∧
      ((PF.new (some ([.push 7, .stop] : List (Instr Nat)))).run evs).activeWriter 2 ∧
      (((PF.new (some ([.push 7, .stop] : List (Instr Nat)))).run evs).next 0).1 = .stop :=
  ⟨[.openReader, .openReader, .close 1, .openWriter false], ⟨_, rfl, rfl, rfl⟩, ⟨_, rfl, rfl, rfl⟩, rfl⟩

/-- Closing a reader closes the reader that was opened last, not itself: the second reader of a file cannot be used any
more after the first one has been closed. -/
theorem C42_false_close :
    ∃ (evs : List (Ev Nat)),
      (((PF.new (some ([.push 7, .stop] : List (Instr Nat)))).run evs).next 1).1 = .item (.lit 7) ∧
      (((PF.new (some ([.push 7, .stop] : List (Instr Nat)))).run (evs ++ [.close 0])).next 1).1 = .raised :=
  ⟨[.openReader, .openReader], rfl, rfl⟩

end Marcel.PickleFile
