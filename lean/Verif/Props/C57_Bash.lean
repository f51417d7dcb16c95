import Verif.Model.Bash
/-! # C57: the output of an external program is passed on line by line -/

namespace Marcel.Bash

open Marcel.Read (Text)

/-! ## Specification -/

/-- The lines of a text; the last one need not have a line end. -/
inductive LinesOf : Text → List Text → Prop
  | nil : LinesOf [] []
  | last (l : Text) : l ≠ [] → '\n' ∉ l → LinesOf l [l]
  | cons (l rest : Text) (ls : List Text) : '\n' ∉ l → LinesOf rest ls → LinesOf (l ++ '\n' :: rest) (l :: ls)

/-- What was sent from standard output, and from standard error. -/
def outs : List Sent → List Text
  | [] => []
  | .out t :: l => t :: outs l
  | .error _ :: l => outs l

def errs : List Sent → List Text
  | [] => []
  | .out _ :: l => errs l
  | .error t :: l => t :: errs l

/-- Nothing becomes readable between a `select` that timed out, and the check whether the program has ended, if it has. -/
def Calm (c : Nat) : List Label → St → Prop
  | [], _ => True
  | l :: ls, s => (∀ b, l = .act b → s.pc = .act false false → s.running = false → s.out.ready s.closed = false ∧ s.err.ready s.closed = false) ∧
      ∀ s', step c s l = some s' → Calm c ls s'

/-! ## Lines -/

def join (ls : List Text) : Text := ls.flatMap fun l => l ++ ['\n']

theorem linesOf_join (ls : List Text) (h : ∀ l ∈ ls, '\n' ∉ l) : LinesOf (join ls) ls := by
  induction ls with
  | nil => exact .nil
  | cons l ls ih =>
    have : join (l :: ls) = l ++ '\n' :: join ls := by simp [join]
    rw [this]
    exact .cons l _ ls (h l (by simp)) (ih fun x hx => h x (by simp [hx]))

theorem linesOf_join_last (ls : List Text) (l : Text) (h : ∀ l ∈ ls, '\n' ∉ l) (hl : '\n' ∉ l) (hne : l ≠ []) : LinesOf (join ls ++ l) (ls ++ [l]) := by
  induction ls with
  | nil => exact .last l hne hl
  | cons k ls ih =>
    have : join (k :: ls) ++ l = k ++ '\n' :: (join ls ++ l) := by simp [join]
    rw [this]
    exact .cons k _ _ (h k (by simp)) (ih fun x hx => h x (by simp [hx]))

theorem splitLine_some {t : Text} {r : Text × Text} (h : splitLine t = some r) : ∃ l, r.1 = l ++ ['\n'] ∧ '\n' ∉ l ∧ t = l ++ '\n' :: r.2 := by
  induction t generalizing r with
  | nil => cases h
  | cons c t ih =>
    unfold splitLine at h
    split at h
    · rename_i hc; cases h; exact ⟨[], by simp [hc], by simp, by simp [hc]⟩
    · rename_i hc
      rw [Option.map_eq_some_iff] at h
      obtain ⟨r', hr', rfl⟩ := h
      obtain ⟨l, h1, h2, h3⟩ := ih hr'
      exact ⟨c :: l, by simp [h1], by simp [h2]; exact fun e => hc e.symm, by simp [h3]⟩

theorem splitLine_none {t : Text} (h : splitLine t = none) : '\n' ∉ t := by
  induction t with
  | nil => simp
  | cons c t ih =>
    unfold splitLine at h
    split at h
    · cases h
    · rename_i hc
      rw [Option.map_eq_none_iff] at h
      simp [ih h]
      exact fun e => hc e.symm

theorem linesOf_exists (t : Text) : ∃ ls, LinesOf t ls := by
  generalize hn : t.length = n
  induction n using Nat.strongRecOn generalizing t with
  | _ n ih =>
    cases h : splitLine t with
    | some r =>
      obtain ⟨l, _, h2, h3⟩ := splitLine_some h
      obtain ⟨ls, hls⟩ := ih r.2.length (by rw [← hn, h3]; simp; omega) r.2 rfl
      exact ⟨l :: ls, h3 ▸ .cons l r.2 ls h2 hls⟩
    | none =>
      cases t with
      | nil => exact ⟨[], .nil⟩
      | cons c t => exact ⟨[c :: t], .last _ (by simp) (splitLine_none h)⟩

theorem linesOf_prefix (ls : List Text) (rest : Text) (h : ∀ l ∈ ls, '\n' ∉ l) : ∃ all, LinesOf (join ls ++ rest) (ls ++ all) := by
  obtain ⟨all, ha⟩ := linesOf_exists rest
  refine ⟨all, ?_⟩
  induction ls with
  | nil => exact ha
  | cons k ls ih =>
    have : join (k :: ls) ++ rest = k ++ '\n' :: (join ls ++ rest) := by simp [join]
    rw [this]
    exact .cons k _ _ (h k (by simp)) (ih fun x hx => h x (by simp [hx]))

theorem normalize_line (l : Text) : normalize (l ++ ['\n']) = l := by simp [normalize]

theorem normalize_frag (l : Text) (h : '\n' ∉ l) : normalize l = l := by
  unfold normalize
  rw [if_neg]
  intro e
  exact h (List.mem_of_getLast? e)

/-- What `readline` returns. -/
theorem readline_spec {c : Nat} {closed : Bool} {n : Nat} {buf fd : Text} {r : Text × Text × Text} (h : readline c closed n buf fd = some r) :
    (∃ l, r.1 = l ++ ['\n'] ∧ '\n' ∉ l ∧ buf ++ fd = l ++ '\n' :: (r.2.1 ++ r.2.2)) ∨
    (closed = true ∧ '\n' ∉ r.1 ∧ r.1 = buf ++ fd ∧ r.2.1 = [] ∧ r.2.2 = []) := by
  induction n generalizing buf fd with
  | zero => cases h
  | succ n ih =>
    unfold readline at h
    split at h
    · rename_i p hp
      cases h
      obtain ⟨l, h1, h2, h3⟩ := splitLine_some hp
      exact .inl ⟨l, h1, h2, by simp [h3]⟩
    · rename_i hp
      split at h
      · rename_i he
        split at h
        · rename_i hc
          cases h
          right
          have : fd = [] := by simpa using he
          exact ⟨hc, splitLine_none hp, by simp [this], rfl, rfl⟩
        · cases h
      · have := ih h
        simpa [List.append_assoc] using this

/-- It does not wait at the end of the pipe. -/
theorem readline_closed (c : Nat) (hc : 0 < c) (n : Nat) (buf fd : Text) (hn : fd.length < n) : ∃ r, readline c true n buf fd = some r := by
  induction n generalizing buf fd with
  | zero => omega
  | succ n ih =>
    unfold readline
    split
    · exact ⟨_, rfl⟩
    · split
      · exact ⟨_, rfl⟩
      · rename_i hf
        have hne : fd ≠ [] := by simpa using hf
        have : 0 < fd.length := List.length_pos_iff.mpr hne
        exact ih _ _ (by simp; omega)

/-! ## One stream -/

/-- What was sent, what is in the buffer and what is in the pipe is what was written. -/
structure SInv (closed : Bool) (wrote : Text) (ls : List Text) (x : Strm) : Prop where
  clean : ∀ l ∈ ls, '\n' ∉ l
  all : wrote = join ls ++ (x.buf ++ x.fd) ∨
    (closed = true ∧ x.buf = [] ∧ x.fd = [] ∧ ∃ ls0 l, ls = ls0 ++ [l] ∧ l ≠ [] ∧ wrote = join ls0 ++ l)
  gone : x.registered = false → closed = true ∧ x.buf = [] ∧ x.fd = []

theorem sinv_readOne {c : Nat} {closed : Bool} {wrote : Text} {ls : List Text} {mk : Text → Sent} {x : Strm} {r : Strm × List Sent}
    (h : readOne c closed mk x = some r) (i : SInv closed wrote ls x) :
    (∃ l, r.2 = [mk l] ∧ SInv closed wrote (ls ++ [l]) r.1) ∨ (r.2 = [] ∧ SInv closed wrote ls r.1) := by
  unfold readOne at h
  split at h
  · rename_i p hp
    rcases readline_spec hp with ⟨l, h1, h2, h3⟩ | ⟨hc, h1, h2, h3, h4⟩
    · have hne : p.1.isEmpty = false := by rw [h1]; cases l <;> rfl
      rw [hne] at h
      cases h
      left
      refine ⟨l, by rw [h1, normalize_line], ?_, ?_, ?_⟩
      · intro y hy
        rcases List.mem_append.mp hy with hy | hy
        · exact i.clean y hy
        · simp at hy; subst hy; exact h2
      · rcases i.all with ha | ⟨_, hb, hf, _⟩
        · left
          rw [ha, h3]
          simp [join]
        · rw [hb, hf] at h3; simp at h3
      · intro hr
        obtain ⟨_, hb, hf⟩ := i.gone hr
        rw [hb, hf] at h3; simp at h3
    · split at h
      · rename_i he
        cases h
        right
        have hp1 : p.1 = [] := by simpa using he
        rw [hp1] at h2
        have h2 := h2.symm
        simp at h2
        refine ⟨rfl, i.clean, ?_, ?_⟩
        · rcases i.all with ha | ⟨_, _, _, hx⟩
          · left; rw [ha, h2.1, h2.2, h3, h4]
          · exact .inr ⟨hc, h3, h4, hx⟩
        · exact fun _ => ⟨hc, h3, h4⟩
      · rename_i he
        cases h
        left
        have hp1 : p.1 ≠ [] := by simpa using he
        refine ⟨p.1, by rw [normalize_frag _ h1], ?_, ?_, ?_⟩
        · intro y hy
          rcases List.mem_append.mp hy with hy | hy
          · exact i.clean y hy
          · simp at hy; subst hy; exact h1
        · right
          refine ⟨hc, h3, h4, ls, p.1, rfl, hp1, ?_⟩
          rcases i.all with ha | ⟨_, hb, hf, _⟩
          · rw [ha, h2]
          · rw [hb, hf] at h2; exact absurd h2 (by simpa using hp1)
        · exact fun _ => ⟨hc, h3, h4⟩
  · cases h

theorem sinv_write {closed : Bool} {wrote t : Text} {ls : List Text} {x : Strm} (hc : closed = false) (i : SInv closed wrote ls x) :
    SInv closed (wrote ++ t) ls { x with fd := x.fd ++ t } := by
  refine ⟨i.clean, ?_, ?_⟩
  · rcases i.all with ha | ⟨h, _⟩
    · left; rw [ha]; simp
    · rw [hc] at h; cases h
  · intro hr
    have := (i.gone hr).1
    rw [hc] at this; cases this

theorem sinv_mono {closed closed' : Bool} {wrote : Text} {ls : List Text} {x : Strm} (hc : closed = true → closed' = true) (i : SInv closed wrote ls x) :
    SInv closed' wrote ls x :=
  ⟨i.clean, i.all.imp id fun ⟨h, r⟩ => ⟨hc h, r⟩, fun hr => ⟨hc (i.gone hr).1, (i.gone hr).2⟩⟩

theorem sinv_prefix {closed : Bool} {wrote : Text} {ls : List Text} {x : Strm} (i : SInv closed wrote ls x) : ∃ all, LinesOf wrote all ∧ ls <+: all := by
  rcases i.all with ha | ⟨_, _, _, ls0, l, rfl, hl, hw⟩
  · obtain ⟨all, h⟩ := linesOf_prefix ls (x.buf ++ x.fd) i.clean
    exact ⟨_, ha ▸ h, List.prefix_append _ _⟩
  · exact ⟨ls0 ++ [l], hw ▸ linesOf_join_last ls0 l (fun y hy => i.clean y (by simp [hy])) (i.clean l (by simp)) hl, List.prefix_rfl⟩

theorem sinv_complete {closed : Bool} {wrote : Text} {ls : List Text} {x : Strm} (i : SInv closed wrote ls x) (hr : x.registered = false) : LinesOf wrote ls := by
  obtain ⟨_, hb, hf⟩ := i.gone hr
  rcases i.all with ha | ⟨_, _, _, ls0, l, rfl, hl, hw⟩
  · rw [ha, hb, hf, List.append_nil, List.append_nil]; exact linesOf_join ls i.clean
  · exact hw ▸ linesOf_join_last ls0 l (fun y hy => i.clean y (by simp [hy])) (i.clean l (by simp)) hl

/-! ## Both streams -/

theorem outs_append (a b : List Sent) : outs (a ++ b) = outs a ++ outs b := by
  induction a with
  | nil => rfl
  | cons x a ih => cases x <;> simp [outs, ih]

theorem errs_append (a b : List Sent) : errs (a ++ b) = errs a ++ errs b := by
  induction a with
  | nil => rfl
  | cons x a ih => cases x <;> simp [errs, ih]

structure Inv (s : St) : Prop where
  out : SInv s.closed s.wroteOut (outs s.sent) s.out
  err : SInv s.closed s.wroteErr (errs s.sent) s.err

theorem inv_start : Inv start :=
  ⟨⟨by simp [start, outs], .inl rfl, by simp [start]⟩, ⟨by simp [start, errs], .inl rfl, by simp [start]⟩⟩

theorem sinv_readIf {c : Nat} {closed : Bool} {wrote : Text} {ls : List Text} {mk : Text → Sent} {ev : Bool} {x : Strm} {r : Strm × List Sent}
    (h : readIf c closed mk ev x = some r) (i : SInv closed wrote ls x) :
    (∃ l, r.2 = [mk l] ∧ SInv closed wrote (ls ++ [l]) r.1) ∨ (r.2 = [] ∧ SInv closed wrote ls r.1) := by
  unfold readIf at h
  split at h
  · exact sinv_readOne h i
  · cases h; exact .inr ⟨rfl, i⟩

theorem inv_step {c : Nat} {s s' : St} {l : Label} (h : step c s l = some s') (i : Inv s) : Inv s' := by
  cases l with
  | writeOut t =>
    unfold step at h
    simp only at h
    split at h
    · cases h
    · rename_i hc
      cases h
      exact ⟨sinv_write (by simpa [St.closed] using hc) i.out, i.err⟩
  | writeErr t =>
    unfold step at h
    simp only at h
    split at h
    · cases h
    · rename_i hc
      cases h
      exact ⟨i.out, sinv_write (by simpa [St.closed] using hc) i.err⟩
  | fork =>
    unfold step at h
    simp only at h
    split at h
    · rename_i hr
      cases h
      have hm : s.closed = true → (St.closed { s with bg := true }) = true := by simp [St.closed, hr]
      exact ⟨sinv_mono hm i.out, sinv_mono hm i.err⟩
    · cases h
  | bgEnd =>
    cases h
    have hm : s.closed = true → (St.closed { s with bg := false }) = true := by simp [St.closed]; exact fun h _ => h
    exact ⟨sinv_mono hm i.out, sinv_mono hm i.err⟩
  | exit =>
    cases h
    have hm : s.closed = true → (St.closed { s with running := false }) = true := by simp [St.closed]
    exact ⟨sinv_mono hm i.out, sinv_mono hm i.err⟩
  | select =>
    unfold step at h
    simp only at h
    split at h
    · cases h; exact ⟨i.out, i.err⟩
    · cases h
  | act errFirst =>
    unfold step at h
    simp only at h
    split at h
    · unfold act at h
      split at h
      · cases h; exact ⟨i.out, i.err⟩
      · split at h
        · rename_i o e ho he
          cases h
          have io := sinv_readIf ho i.out
          have ie := sinv_readIf he i.err
          have hcl : ∀ x y z, (St.closed { s with out := x, err := y, sent := z, pc := .select }) = s.closed := fun _ _ _ => rfl
          constructor
          · have : outs (s.sent ++ (if errFirst then e.2 ++ o.2 else o.2 ++ e.2)) = outs s.sent ++ outs o.2 := by
              have he2 : outs e.2 = [] := by
                rcases ie with ⟨l, hl, _⟩ | ⟨hl, _⟩ <;> rw [hl] <;> rfl
              cases errFirst <;> simp [outs_append, he2]
            simp only [hcl]
            rw [this]
            rcases io with ⟨l, hl, hi⟩ | ⟨hl, hi⟩
            · rw [hl]; exact hi
            · rw [hl]; simpa [outs] using hi
          · have : errs (s.sent ++ (if errFirst then e.2 ++ o.2 else o.2 ++ e.2)) = errs s.sent ++ errs e.2 := by
              have he2 : errs o.2 = [] := by
                rcases io with ⟨l, hl, _⟩ | ⟨hl, _⟩ <;> rw [hl] <;> rfl
              cases errFirst <;> simp [errs_append, he2]
            simp only [hcl]
            rw [this]
            rcases ie with ⟨l, hl, hi⟩ | ⟨hl, hi⟩
            · rw [hl]; exact hi
            · rw [hl]; simpa [errs] using hi
        · cases h
    · cases h

theorem inv_run {c : Nat} {ls : List Label} {s s' : St} (h : run c ls s = some s') (i : Inv s) : Inv s' := by
  induction ls generalizing s with
  | nil => cases h; exact i
  | cons l ls ih =>
    unfold run at h
    split at h
    · rename_i s1 hs; exact ih h (inv_step hs i)
    · cases h

/-- **C57**, for all behaviours of the program and of processes it leaves in the background, for all interleavings: what has been sent are the first lines of what was written, for
standard output and for standard error, in order; nothing is repeated, split or made up. -/
theorem C57_prefix (c : Nat) (ls : List Label) (s : St) (h : run c ls start = some s) :
    (∃ all, LinesOf s.wroteOut all ∧ outs s.sent <+: all) ∧ ∃ all, LinesOf s.wroteErr all ∧ errs s.sent <+: all :=
  ⟨sinv_prefix (inv_run h inv_start).out, sinv_prefix (inv_run h inv_start).err⟩

/-- Lines are unambiguous. -/
theorem C57_lines_unique (t : Text) (a b : List Text) (ha : LinesOf t a) (hb : LinesOf t b) : a = b := by
  induction ha generalizing b with
  | nil =>
    generalize he : ([] : Text) = e at hb
    cases hb with
    | nil => rfl
    | last l h _ => exact absurd he.symm h
    | cons l rest ls _ _ => simp at he
  | last l hne hn =>
    generalize he : l = e at hb
    cases hb with
    | nil => exact absurd he hne
    | last _ _ _ => rfl
    | cons k rest ls _ _ => rw [he] at hn; simp at hn
  | cons l rest ls hn _ ih =>
    generalize he : l ++ '\n' :: rest = e at hb
    cases hb with
    | nil => simp at he
    | last _ _ hk => rw [← he] at hk; simp at hk
    | cons k rest' ls' hk hl =>
      have key : ∀ (a b : Text) (x y : Text), '\n' ∉ a → '\n' ∉ b → a ++ '\n' :: x = b ++ '\n' :: y → a = b ∧ x = y := by
        intro a
        induction a with
        | nil =>
          intro b x y _ hb e
          cases b with
          | nil => simpa using e
          | cons d b => simp at e; rw [← e.1] at hb; simp at hb
        | cons d a ih =>
          intro b x y ha hb e
          cases b with
          | nil => simp at e; rw [e.1] at ha; simp at ha
          | cons d' b =>
            simp at e ha hb
            obtain ⟨h1, h2⟩ := ih b x y ha.2 hb.2 e.2
            exact ⟨by rw [e.1, h1], h2⟩
      obtain ⟨rfl, rfl⟩ := key l k rest rest' hn hk he
      rw [ih ls' hl]

/-! ## The end -/

/-- There is no process in the background, and once the thread has ended both streams are at their end. -/
def Fin (s : St) : Prop := s.bg = false ∧ (s.pc = .done → s.out.registered = false ∧ s.err.registered = false)

theorem fin_step {c : Nat} {s s' : St} {l : Label} (h : step c s l = some s') (hl : l ≠ .fork)
    (hc : ∀ b, l = .act b → s.pc = .act false false → s.running = false → s.out.ready s.closed = false ∧ s.err.ready s.closed = false) (f : Fin s) : Fin s' := by
  cases l with
  | writeOut t =>
    unfold step at h
    simp only at h
    split at h
    · cases h
    · cases h; exact f
  | writeErr t =>
    unfold step at h
    simp only at h
    split at h
    · cases h
    · cases h; exact f
  | fork => exact absurd rfl hl
  | bgEnd => cases h; exact ⟨rfl, f.2⟩
  | exit => cases h; exact f
  | select =>
    unfold step at h
    simp only at h
    split at h
    · cases h; exact ⟨f.1, by simp⟩
    · cases h
  | act b =>
    unfold step at h
    simp only at h
    split at h
    · rename_i o e hpc
      unfold act at h
      split at h
      · rename_i hcond
        cases h
        refine ⟨f.1, fun _ => ?_⟩
        simp only [Bool.and_eq_true, Bool.not_eq_true'] at hcond
        obtain ⟨⟨rfl, rfl⟩, hr⟩ := hcond
        have hready := hc b rfl hpc hr
        have hcl : s.closed = true := by simp [St.closed, hr, f.1]
        rw [hcl] at hready
        simpa [Strm.ready] using hready
      · split at h
        · cases h; exact ⟨f.1, by simp⟩
        · cases h
    · cases h

/-- **C57**, for programs that leave no process in the background, if nothing becomes readable in the moment between `select` and `poll` in which the program ends: when the
command ends, each line written was sent. -/
theorem C57_complete_partial (c : Nat) (ls : List Label) (hf : Label.fork ∉ ls) (hc : Calm c ls start) (s : St) (h : run c ls start = some s) (hd : s.pc = .done) :
    LinesOf s.wroteOut (outs s.sent) ∧ LinesOf s.wroteErr (errs s.sent) := by
  have key : ∀ (ls : List Label) (s0 s : St), Label.fork ∉ ls → Calm c ls s0 → run c ls s0 = some s → Fin s0 → Fin s := by
    intro ls
    induction ls with
    | nil => intro s0 s _ _ h f; cases h; exact f
    | cons l ls ih =>
      intro s0 s hf hc h f
      unfold run at h
      split at h
      · rename_i s1 hs
        unfold Calm at hc
        exact ih s1 s (fun hm => hf (List.mem_cons_of_mem _ hm)) (hc.2 s1 hs) h (fin_step hs (fun e => hf (by simp [e])) hc.1 f)
      · cases h
  have f := key ls start s hf hc h ⟨rfl, by simp [start]⟩
  have i := inv_run h inv_start
  exact ⟨sinv_complete i.out (f.2 hd).1, sinv_complete i.err (f.2 hd).2⟩

/-! ## It ends -/

/-- What the thread has still to do. -/
def Strm.left (x : Strm) : Nat := x.buf.length + x.fd.length + (if x.registered then 1 else 0)

theorem readOne_left (c : Nat) (hc : 0 < c) (mk : Text → Sent) (x : Strm) (hr : x.registered = true) : ∃ r, readOne c true mk x = some r ∧ r.1.left < x.left := by
  obtain ⟨p, hp⟩ := readline_closed c hc (x.fd.length + 1) x.buf x.fd (by omega)
  unfold readOne
  rw [hp]
  simp only
  have hs := readline_spec hp
  by_cases he : p.1.isEmpty
  · rw [if_pos he]
    refine ⟨_, rfl, ?_⟩
    rcases hs with ⟨l, h1, _, _⟩ | ⟨_, _, h2, h3, h4⟩
    · rw [h1] at he; simp at he
    · simp [Strm.left, h3, h4, hr]
  · rw [if_neg he]
    refine ⟨_, rfl, ?_⟩
    rcases hs with ⟨l, h1, _, h3⟩ | ⟨_, _, h2, h3, h4⟩
    · have := congrArg List.length h3
      simp at this
      simp only [Strm.left, hr, ↓reduceIte]
      omega
    · simp only [Strm.left, h3, h4, hr, ↓reduceIte, List.length_nil]
      have hne : p.1 ≠ [] := by simpa using he
      have := List.length_pos_iff.mpr hne
      rw [h2] at this
      simp at this
      omega

theorem readIf_left (c : Nat) (hc : 0 < c) (mk : Text → Sent) (x : Strm) : ∃ r, readIf c true mk (x.ready true) x = some r ∧
    (r.1.left < x.left ∨ (x.ready true = false ∧ r.1 = x)) := by
  unfold readIf
  by_cases hr : x.registered
  · have : x.ready true = true := by simp [Strm.ready, hr]
    rw [if_pos this]
    obtain ⟨r, h1, h2⟩ := readOne_left c hc mk x hr
    exact ⟨r, h1, .inl h2⟩
  · have : x.ready true = false := by simp [Strm.ready, hr]
    rw [if_neg (by simp [this])]
    exact ⟨_, rfl, .inr ⟨this, rfl⟩⟩

/-- Once the program and all processes in the background have ended, the thread ends by itself. -/
theorem C57_ends (c : Nat) (hc : 0 < c) (s : St) (hcl : s.closed = true) (hpc : s.pc = .select) :
    ∃ (ls : List Label) (s' : St), (∀ l ∈ ls, l = .select ∨ l = .act false) ∧ run c ls s = some s' ∧ s'.pc = .done := by
  generalize hn : s.out.left + s.err.left = n
  induction n using Nat.strongRecOn generalizing s with
  | _ n ih =>
    have hrun : s.running = false := by simp [St.closed] at hcl; exact hcl.1
    obtain ⟨o, ho, hol⟩ := readIf_left c hc .out s.out
    obtain ⟨e, he, hel⟩ := readIf_left c hc .error s.err
    have h1 : step c s .select = some { s with pc := .act (s.out.ready true) (s.err.ready true) } := by
      simp only [step, hpc, hcl]
    by_cases hev : (s.out.ready true = false ∧ s.err.ready true = false)
    · refine ⟨[.select, .act false], { s with pc := .done }, by simp, ?_, rfl⟩
      simp only [run, h1]
      have : step c { s with pc := .act (s.out.ready true) (s.err.ready true) } (.act false) = some { s with pc := .done } := by
        simp only [step, act, hev.1, hev.2, hrun]
        rfl
      rw [this]
    · have hlt : o.1.left + e.1.left < n := by
        rcases hol with hol | ⟨ho0, hoe⟩ <;> rcases hel with hel | ⟨he0, hee⟩
        · omega
        · rw [hee]; omega
        · rw [hoe]; omega
        · exact absurd ⟨ho0, he0⟩ hev
      have h2 : step c { s with pc := .act (s.out.ready true) (s.err.ready true) } (.act false) =
          some { s with out := o.1, err := e.1, sent := s.sent ++ (o.2 ++ e.2), pc := .select } := by
        simp only [step, act]
        rw [if_neg]
        · have hcl' : (St.closed { s with pc := .act (s.out.ready true) (s.err.ready true) }) = true := hcl
          rw [hcl', ho, he]
          rfl
        · simp only [Bool.and_eq_true, Bool.not_eq_true']
          exact fun hh => hev hh.1
      obtain ⟨ls, s', hls, hr, hd⟩ := ih _ hlt { s with out := o.1, err := e.1, sent := s.sent ++ (o.2 ++ e.2), pc := .select } hcl rfl rfl
      refine ⟨.select :: .act false :: ls, s', ?_, ?_, hd⟩
      · intro l hl
        simp only [List.mem_cons] at hl
        rcases hl with rfl | rfl | hl
        · exact .inl rfl
        · exact .inr rfl
        · exact hls l hl
      · simp only [run, h1, h2]
        exact hr

/-! ## What fails -/

def calmB (c : Nat) : List Label → St → Bool
  | [], _ => true
  | l :: ls, s => (match l with
      | .act _ => !(s.pc == .act false false && !s.running) || (!s.out.ready s.closed && !s.err.ready s.closed)
      | _ => true) && (match step c s l with | some s' => calmB c ls s' | none => true)

theorem calmB_imp (c : Nat) (ls : List Label) (s : St) (h : calmB c ls s = true) : Calm c ls s := by
  induction ls generalizing s with
  | nil => trivial
  | cons l ls ih =>
    unfold calmB at h
    rw [Bool.and_eq_true] at h
    refine ⟨?_, ?_⟩
    · intro b hb hpc hr
      subst hb
      have h1 := h.1
      simp only [hpc, hr, BEq.rfl, Bool.not_false, Bool.and_self, Bool.not_true, Bool.false_or, Bool.and_eq_true, Bool.not_eq_true'] at h1
      exact h1
    · intro s' hs
      have h2 := h.2
      rw [hs] at h2
      exact ih s' h2

def bgRun : List Label := [.fork, .writeOut "a\nb\nc\n".toList, .exit, .select, .act false, .select, .act false]

/-- **C57 is false** for programs that leave a process in the background: lines that are already in Python's buffer are lost. -/
theorem C57_false_background : ∃ s, run 8192 bgRun start = some s ∧ Calm 8192 bgRun start ∧ s.pc = .done ∧ s.wroteOut = "a\nb\nc\n".toList ∧
    outs s.sent = ["a".toList] := by
  refine ⟨_, rfl, calmB_imp _ _ _ (by decide +kernel), by decide +kernel, by decide +kernel, by decide +kernel⟩

def raceRun : List Label := [.select, .writeOut "a\n".toList, .exit, .act false]

/-- It is also false without a process in the background, if the program writes its output and ends between `select` and `poll`. -/
theorem C57_false_race : ∃ s, run 8192 raceRun start = some s ∧ Label.fork ∉ raceRun ∧ s.pc = .done ∧ s.wroteOut = "a\n".toList ∧ s.sent = [] := by
  refine ⟨_, rfl, by decide +kernel, by decide +kernel, by decide +kernel, by decide +kernel⟩

/-! ## Standard input -/

/-- The text of an item: that of its only component, or of the tuple. -/
def ItemText (tup : List Text → Text) (x : List Text) (t : Text) : Prop := x = [t] ∨ x.length ≠ 1 ∧ t = tup x

/-- The program reads one line for each item, which is the text of the item (if that is a line). -/
theorem C57_input (tup : List Text → Text) (f : List Text → Text) (items : List (List Text)) (hne : items ≠ []) (hf : ∀ x ∈ items, ItemText tup x (f x)) (h : ∀ x ∈ items, '\n' ∉ f x) :
    ∃ t, input tup false items = some t ∧ LinesOf t (items.map f) := by
  have hl : ∀ x ∈ items, inputLine tup x = f x ++ ['\n'] := by
    intro x hx
    rcases hf x hx with hfx | ⟨hn, ht⟩
    · match x, hfx with
      | [a], hfx => have : a = f [a] := by simpa using hfx
                    rw [← this]; rfl
      | a :: b :: l, hfx => simp at hfx
    · rw [ht]
      unfold inputLine
      match x with
      | [] => rfl
      | [a] => exact absurd rfl hn
      | a :: b :: l => rfl
  refine ⟨join (items.map f), ?_, linesOf_join _ (by simpa using h)⟩
  unfold input
  have : items.isEmpty = false := by cases items with | nil => exact absurd rfl hne | cons => rfl
  simp only [this, Bool.false_eq_true, ↓reduceIte, Option.some.injEq, join, List.flatMap_map]
  clear this hne h hf
  induction items with
  | nil => rfl
  | cons x items ih => rw [List.flatMap_cons, List.flatMap_cons, hl x (by simp), ih fun y hy => hl y (by simp [hy])]

/-- A program that is the first of its pipeline reads the end of the file. -/
theorem C57_no_input (tup : List Text → Text) (items : List (List Text)) : input tup true items = some [] := rfl

/-- If the program is not the first of its pipeline, and there are no items, it is not run at all: the command fails. -/
theorem C57_false_no_items (tup : List Text → Text) : input tup false [] = none := rfl

/-! ## The hypotheses can be met -/

def okRun : List Label := [.writeOut "ab".toList, .select, .writeErr "oops\n".toList, .writeOut "\nc".toList, .act false, .select, .exit, .act false,
  .select, .act true, .select, .act true]

example : ∃ s, run 3 okRun start = some s ∧ Label.fork ∉ okRun ∧ Calm 3 okRun start ∧ s.pc = .done ∧
    s.sent = [.out "ab".toList, .out "c".toList, .error "oops".toList] := by
  refine ⟨_, rfl, by decide +kernel, calmB_imp _ _ _ (by decide +kernel), by decide +kernel, by decide +kernel⟩

end Marcel.Bash
