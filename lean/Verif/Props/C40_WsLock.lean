import Verif.Model.WsLock

/-! # C40, C41: workspace locking -/

namespace Marcel.WsLock

/-! ## Specification -/

/-- At most one process has the workspace open. -/
def Exclusive (s : Sys) : Prop := ∀ p q, s.holds p = true → s.holds q = true → p = q

/-- States that can be reached (from a workspace nobody has open), by any schedule and with any crashes, passing only
through states with the property `P`. -/
inductive Reach (parent : Pid → Pid) (P : Sys → Prop) : Sys → Prop
  | init : Reach parent P Sys.init
  | step {s s' : Sys} (e : Ev) : Reach parent P s → P s → s.step parent e = some s' → Reach parent P s'

/-- The process has found that there is no marker, and is going to create one. -/
def PC.creating (c : PC) : Prop := c = .touch ∨ c = .mkdir

/-- The process has found that its parent has the workspace open, and is going to use it too. -/
def sharesWithParent (parent : Pid → Pid) (s : Sys) (p : Pid) : Prop := ∃ g r, s.pc p = .owner g r ∧ r = parent p

/-- Not two processes are creating a marker at the same time, and no process shares its parent's workspace. -/
structure Good (parent : Pid → Pid) (s : Sys) : Prop where
  creating : ∀ p q, (s.pc p).creating → (s.pc q).creating → p = q
  parents : ∀ p, ¬ sharesWithParent parent s p

/-! ## The invariant -/

structure Inv (s : Sys) : Prop where
  one : s.files.length ≤ 1
  holds : ∀ p, s.holds p = true → some p ∈ s.files ∧ s.alive p = true
  creating : ∀ p, (s.pc p).creating → s.files = []
  dead : ∀ p, s.alive p = false → s.pc p = .idle
  mine : ∀ p g, s.pc p = .owner g p → some p ∈ s.files
  unlink : ∀ p k r todo, s.pc p = .unlink k r todo → s.alive r = false
  steal : ∀ p g r, s.pc p = .steal g r → s.alive r = false

theorem upd_same {α : Type} (f : Pid → α) (p : Pid) (v : α) : upd f p v p = v := by simp [upd]
theorem upd_other {α : Type} (f : Pid → α) (p q : Pid) (v : α) (h : q ≠ p) : upd f p v q = f q := by simp [upd, h]

theorem Inv.init : Inv Sys.init where
  one := by simp [Sys.init]
  holds := by simp [Sys.init]
  creating := by simp [Sys.init, PC.creating]
  dead := by simp [Sys.init]
  mine := by simp [Sys.init]
  unlink := by simp [Sys.init]
  steal := by simp [Sys.init]

/-- Changing only the pc of a process. -/
theorem Inv.goto {s : Sys} (h : Inv s) (p : Pid) (c : PC) (ha : s.alive p = true)
    (h1 : c.creating → s.files = []) (h2 : ∀ g, c = .owner g p → some p ∈ s.files)
    (h3 : ∀ k r todo, c = .unlink k r todo → s.alive r = false) (h4 : ∀ g r, c = .steal g r → s.alive r = false) :
    Inv (s.goto p c) where
  one := h.one
  holds := h.holds
  creating q hq := by
    by_cases e : q = p
    · subst e; simp only [Sys.goto, upd_same] at hq; exact h1 hq
    · simp only [Sys.goto, upd_other _ _ _ _ e] at hq; exact h.creating q hq
  dead q hq := by
    by_cases e : q = p
    · subst e; simp only [Sys.goto] at hq; rw [ha] at hq; cases hq
    · simp only [Sys.goto, upd_other _ _ _ _ e]; exact h.dead q hq
  mine q g hq := by
    by_cases e : q = p
    · subst e; simp only [Sys.goto, upd_same] at hq; exact h2 g hq
    · simp only [Sys.goto, upd_other _ _ _ _ e] at hq; exact h.mine q g hq
  unlink q k r todo hq := by
    by_cases e : q = p
    · subst e; simp only [Sys.goto, upd_same] at hq; exact h3 k r todo hq
    · simp only [Sys.goto, upd_other _ _ _ _ e] at hq; exact h.unlink q k r todo hq
  steal q g r hq := by
    by_cases e : q = p
    · subst e; simp only [Sys.goto, upd_same] at hq; exact h4 g r hq
    · simp only [Sys.goto, upd_other _ _ _ _ e] at hq; exact h.steal q g r hq

/-- A pc about which the invariant says nothing. -/
def PC.plain : PC → Bool
  | .owner _ _ | .unlink _ _ _ | .steal _ _ | .touch | .mkdir => false
  | _ => true

theorem Inv.gotoPlain {s : Sys} (h : Inv s) (p : Pid) (c : PC) (ha : s.alive p = true) (hc : c.plain = true) :
    Inv (s.goto p c) :=
  h.goto p c ha (by rintro (rfl | rfl) <;> simp [PC.plain] at hc) (by rintro g rfl; simp [PC.plain] at hc)
    (by rintro k r todo rfl; simp [PC.plain] at hc) (by rintro g r rfl; simp [PC.plain] at hc)

theorem Inv.setHolds {s : Sys} (h : Inv s) (p : Pid) (b : Bool) (hb : b = true → some p ∈ s.files ∧ s.alive p = true) :
    Inv (s.setHolds p b) where
  one := h.one
  holds q hq := by
    by_cases e : q = p
    · subst e; simp only [Sys.setHolds, upd_same] at hq; exact hb hq
    · simp only [Sys.setHolds, upd_other _ _ _ _ e] at hq; exact h.holds q hq
  creating := h.creating
  dead := h.dead
  mine := h.mine
  unlink := h.unlink
  steal := h.steal

theorem Inv.fail {s : Sys} (h : Inv s) (p : Pid) (ha : s.alive p = true) : Inv (s.fail p) :=
  (h.setHolds p false (by simp)).gotoPlain p .idle ha rfl

theorem Inv.locked {s : Sys} (h : Inv s) (p : Pid) (g : Goal) (ha : s.alive p = true) (hm : some p ∈ s.files) :
    Inv (s.locked p g) := by
  cases g with
  | opening => exact (h.setHolds p true (fun _ => ⟨hm, ha⟩)).gotoPlain p .idle ha rfl
  | closing => exact h.gotoPlain p _ ha rfl
  | deleting => exact (h.setHolds p true (fun _ => ⟨hm, ha⟩)).gotoPlain p _ ha rfl
  | unlocking => exact h.fail p ha

theorem Inv.noOwner {s : Sys} (h : Inv s) (p : Pid) (g : Goal) (ha : s.alive p = true) : Inv (s.noOwner p g) := by
  cases g with
  | unlocking => exact h.fail p ha
  | opening => exact h.gotoPlain p _ ha rfl
  | closing => exact h.gotoPlain p _ ha rfl
  | deleting => exact h.gotoPlain p _ ha rfl

theorem Inv.swept {s : Sys} (h : Inv s) (p : Pid) (k : Cont) (ha : s.alive p = true) : Inv (s.swept p k) := by
  cases k with
  | owner g => exact h.gotoPlain p _ ha rfl
  | validate => exact h.gotoPlain p _ ha rfl

theorem Inv.sweepFail {s : Sys} (h : Inv s) (p : Pid) (k : Cont) (ha : s.alive p = true) : Inv (s.sweepFail p k) := by
  cases k with
  | owner g => exact h.fail p ha
  | validate => exact h.gotoPlain p _ ha rfl

theorem singleton_of {α : Type} {xs : List α} {x : α} (h : xs.length ≤ 1) (hx : x ∈ xs) : xs = [x] := by
  match xs, h, hx with
  | [y], _, hx => simp at hx; subst hx; rfl
  | _ :: _ :: _, h, _ => simp at h

/-- Replacing the marker by one of the process's own, where nobody alive has the old one. -/
theorem Inv.takeMarker {s : Sys} (h : Inv s) (p : Pid) (m : Marker) (c : PC) (ha : s.alive p = true) (hc : c.plain = true)
    (hm : m ∈ s.files) (hd : ∀ r, m = some r → s.alive r = false) :
    Inv ((s.setFiles (renameFile s.files m (some p))).goto p c) := by
  have e := singleton_of h.one hm
  have hne : (m == some p) = false := by
    cases hb : (m == some p) with
    | false => rfl
    | true =>
      have := hd p (by simpa using hb)
      rw [ha] at this; cases this
  have hfiles : renameFile s.files m (some p) = [some p] := by
    rw [e]; simp [renameFile]
  have hbase : Inv (s.setFiles [some p]) := {
    one := by simp [Sys.setFiles]
    holds := by
      intro q hq
      obtain ⟨h1, h2⟩ := h.holds q hq
      rw [e] at h1
      simp at h1
      rw [hd q h1.symm] at h2
      cases h2
    creating := by
      intro q hq
      have := h.creating q hq
      rw [e] at this
      cases this
    dead := h.dead
    mine := by
      intro q g hq
      have h1 := h.mine q g hq
      rw [e] at h1
      simp at h1
      have := h.dead q (hd q h1.symm)
      simp only [Sys.setFiles] at hq
      rw [hq] at this
      cases this
    unlink := h.unlink
    steal := h.steal }
  rw [hfiles]
  exact hbase.gotoPlain p c ha hc

/-- Removing a marker that nobody alive (other than the process itself, which gives it up) has. -/
theorem Inv.dropMarker {s : Sys} (h : Inv s) (p : Pid) (fs : List Marker) (hfs : fs = [] ∨ fs = [none])
    (m : Marker) (hm : m ∈ s.files) (hh : ∀ r, m = some r → s.alive r = true → r = p)
    (hp : s.holds p = false) (hpc : ∀ g, s.pc p ≠ .owner g p) : Inv (s.setFiles fs) := by
  have e := singleton_of h.one hm
  exact {
    one := by rcases hfs with rfl | rfl <;> simp [Sys.setFiles]
    holds := by
      intro q hq
      obtain ⟨h1, h2⟩ := h.holds q hq
      rw [e] at h1
      simp at h1
      have := hh q h1.symm h2
      subst this
      simp only [Sys.setFiles] at hq
      rw [hp] at hq
      cases hq
    creating := by
      intro q hq
      have := h.creating q hq
      rw [e] at this
      cases this
    dead := h.dead
    mine := by
      intro q g hq
      have h1 := h.mine q g hq
      rw [e] at h1
      simp at h1
      cases ha : s.alive q with
      | false =>
        have := h.dead q ha
        simp only [Sys.setFiles] at hq
        rw [hq] at this
        cases this
      | true =>
        have := hh q h1.symm ha
        subst this
        exact absurd hq (hpc g)
    unlink := h.unlink
    steal := h.steal }

theorem goto_fail_comm (s : Sys) (p : Pid) (fs : List Marker) : (s.setFiles fs).fail p = (s.fail p).setFiles fs := rfl

theorem Inv.act {parent : Pid → Pid} {s : Sys} (h : Inv s) (hg : Good parent s) (p : Pid) (ha : s.alive p = true) :
    Inv (s.act parent p) := by
  unfold Sys.act
  split
  · exact h
  · rename_i g hpc; split
    · exact h.fail p ha
    · exact h.gotoPlain p _ ha rfl
  · rename_i g hpc; split
    · exact h.noOwner p g ha
    · exact h.gotoPlain p _ ha rfl
  · rename_i g hpc; split
    · exact h.gotoPlain p _ ha rfl
    · exact h.noOwner p g ha
  · rename_i k hpc; split
    · exact h.gotoPlain p _ ha rfl
    · exact h.sweepFail p k ha
  · rename_i k hpc; exact h.swept p k ha
  · rename_i k r todo hpc; split
    · exact h.gotoPlain p _ ha rfl
    · rename_i hr
      refine h.goto p _ ha ?_ ?_ ?_ ?_
      · rintro (e | e) <;> cases e
      · rintro g e; cases e
      · rintro k' r' todo' e
        cases e
        simpa using hr
      · rintro g r' e; cases e
  · rename_i k r todo hpc; split
    · rename_i hr
      have hr : some r ∈ s.files := by simpa using hr
      have hdead := h.unlink p k r todo hpc
      have e := singleton_of h.one hr
      have hfs : s.files.erase (some r) = [] := by rw [e]; simp
      rw [hfs]
      have hb : Inv ((s.setHolds p false).setFiles []) := by
        refine (h.setHolds p false (by simp)).dropMarker p [] (Or.inl rfl) (some r) hr ?_ ?_ ?_
        · rintro r' e1 h1
          cases e1
          simp only [Sys.setHolds] at h1
          rw [hdead] at h1
          cases h1
        · simp [Sys.setHolds, upd]
        · intro g e1
          simp only [Sys.setHolds] at e1
          rw [hpc] at e1
          cases e1
      -- the process itself does not hold the workspace: its marker would be the dead one
      have hp : s.holds p = false := by
        cases hh : s.holds p with
        | false => rfl
        | true =>
          obtain ⟨h1, h2⟩ := h.holds p hh
          rw [e] at h1
          simp at h1
          subst h1
          rw [hdead] at h2
          cases h2
      have hs : s.setHolds p false = s := by
        unfold Sys.setHolds
        congr
        funext q
        by_cases e : q = p
        · subst e; rw [upd_same, hp]
        · rw [upd_other _ _ _ _ e]
      rw [hs] at hb
      exact hb.gotoPlain p _ ha rfl
    · exact h.sweepFail p k ha
  · rename_i g hpc
    split
    · rename_i r hf
      refine h.goto p _ ha ?_ ?_ ?_ ?_
      · rintro (e | e) <;> cases e
      · rintro g' e
        cases e
        rw [hf]
        simp
      · rintro k' r' todo' e; cases e
      · rintro g' r' e; cases e
    · exact h.fail p ha
  · rename_i g r hpc
    split
    · split
      · exact h.gotoPlain p _ ha rfl
      · exact h.fail p ha
    · split
      · rename_i hr
        subst hr
        exact h.locked r g ha (h.mine r g hpc)
      · split
        · rename_i hr
          exact absurd ⟨g, r, hpc, hr⟩ (hg.parents p)
        · split
          · exact h.fail p ha
          · rename_i hr
            refine h.goto p _ ha ?_ ?_ ?_ ?_
            · rintro (e | e) <;> cases e
            · rintro g' e; cases e
            · rintro k' r' todo' e; cases e
            · rintro g' r' e
              cases e
              simpa using hr
  · rename_i g r hpc
    split
    · rename_i hr
      exact h.takeMarker p (some r) _ ha rfl (by simpa using hr) (by rintro r' e; cases e; exact h.steal p g r hpc)
    · exact h.fail p ha
  · rename_i g hpc
    split
    · rename_i hr
      exact h.takeMarker p none _ ha rfl (by simpa using hr) (by rintro r' e; cases e)
    · exact h.fail p ha
  · rename_i g hpc
    split
    · rename_i hr
      exact h.locked p g ha (by simpa using hr)
    · exact h.fail p ha
  · rename_i hpc
    split
    · rename_i hr
      have hr : some p ∈ s.files := by simpa using hr
      have e := singleton_of h.one hr
      have hfs : renameFile s.files (some p) none = [none] := by rw [e]; simp [renameFile]
      rw [hfs, goto_fail_comm]
      refine (h.fail p ha).dropMarker p [none] (Or.inr rfl) (some p) hr ?_ ?_ ?_
      · rintro r e1 _; cases e1; rfl
      · simp [Sys.fail, Sys.goto, Sys.setHolds, upd]
      · intro g e1
        simp [Sys.fail, Sys.goto, upd] at e1
    · exact h.fail p ha
  · rename_i hpc
    split
    · rename_i hr
      have hr : some p ∈ s.files := by simpa using hr
      have e := singleton_of h.one hr
      have hfs : s.files.erase (some p) = [] := by rw [e]; simp
      rw [hfs]
      have hb : Inv ((s.setHolds p false).setFiles []) := by
        refine (h.setHolds p false (by simp)).dropMarker p [] (Or.inl rfl) (some p) hr ?_ ?_ ?_
        · rintro r e1 _; cases e1; rfl
        · simp [Sys.setHolds, upd]
        · intro g e1
          simp only [Sys.setHolds] at e1
          rw [hpc] at e1
          cases e1
      exact hb.gotoPlain p .rmdir ha rfl
    · exact h.fail p ha
  · split
    · have := h.fail p ha
      exact ⟨this.one, this.holds, this.creating, this.dead, this.mine, this.unlink, this.steal⟩
    · exact h.fail p ha
  · split
    · rename_i he
      refine h.goto p _ ha ?_ ?_ ?_ ?_
      · intro _; simpa using he
      · rintro g e; cases e
      · rintro k r todo e; cases e
      · rintro g r e; cases e
    · exact h.gotoPlain p _ ha rfl
  · split
    · rename_i he
      refine h.goto p _ ha ?_ ?_ ?_ ?_
      · intro _; simpa using he
      · rintro g e; cases e
      · rintro k r todo e; cases e
      · rintro g r e; cases e
    · exact h.gotoPlain p _ ha rfl
  · rename_i hpc
    have he : s.files = [] := h.creating p (Or.inr hpc)
    have hb : Inv (s.goto p .touch) := by
      refine h.goto p _ ha ?_ ?_ ?_ ?_
      · intro _; exact he
      · rintro g e; cases e
      · rintro k r todo e; cases e
      · rintro g r e; cases e
    exact ⟨hb.one, hb.holds, hb.creating, hb.dead, hb.mine, hb.unlink, hb.steal⟩
  · rename_i hpc
    split
    · have he : s.files = [] := h.creating p (Or.inl hpc)
      rw [he]
      have hb := h.gotoPlain p .idle ha rfl
      refine ⟨by simp [Sys.goto, Sys.setFiles], ?_, ?_, hb.dead, ?_, hb.unlink, hb.steal⟩
      · intro q hq
        have := (h.holds q hq).1
        rw [he] at this
        simp at this
      · intro q hq
        by_cases e : q = p
        · subst e
          simp [Sys.goto, Sys.setFiles, upd_same, PC.creating] at hq
        · simp only [Sys.goto, Sys.setFiles, upd_other _ _ _ _ e] at hq
          exact absurd (hg.creating q p hq (Or.inl hpc)) e
      · intro q g hq
        have := hb.mine q g hq
        simp only [Sys.goto] at this
        rw [he] at this
        simp at this
    · exact h.gotoPlain p _ ha rfl

theorem Inv.crash {s : Sys} (h : Inv s) (p : Pid) (ha : s.alive p = true) :
    Inv { (s.fail p) with alive := upd s.alive p false } := by
  have hb := h.fail p ha
  refine ⟨hb.one, ?_, hb.creating, ?_, hb.mine, ?_, ?_⟩
  · intro q hq
    have h1 := hb.holds q hq
    refine ⟨h1.1, ?_⟩
    by_cases e : q = p
    · subst e
      simp [Sys.fail, Sys.goto, Sys.setHolds, upd] at hq
    · simp only [upd_other _ _ _ _ e]
      exact h1.2
  · intro q hq
    by_cases e : q = p
    · subst e
      simp [Sys.fail, Sys.goto, upd]
    · simp only [upd_other _ _ _ _ e] at hq
      exact hb.dead q hq
  · intro q k r todo hq
    have := hb.unlink q k r todo hq
    by_cases e : r = p
    · subst e; simp [upd]
    · simp only [upd_other _ _ _ _ e]; exact this
  · intro q g r hq
    have := hb.steal q g r hq
    by_cases e : r = p
    · subst e; simp [upd]
    · simp only [upd_other _ _ _ _ e]; exact this

theorem Inv.step {parent : Pid → Pid} {s s' : Sys} (h : Inv s) (hg : Good parent s) (e : Ev)
    (hs : s.step parent e = some s') : Inv s' := by
  unfold Sys.step at hs
  cases e with
  | crash p =>
    simp only at hs
    split at hs
    · rename_i ha
      cases hs
      exact h.crash p ha
    · cases hs
  | act p =>
    simp only at hs
    split at hs
    · rename_i ha
      cases hs
      exact h.act hg p (by simp at ha; exact ha.1)
    · cases hs
  | open_ p | close p | delete p | create p | validate p =>
    simp only at hs
    split at hs
    · rename_i ha
      cases hs
      refine h.gotoPlain p _ ?_ rfl
      simp at ha
      first | exact ha.1.1 | exact ha.1
    · cases hs

theorem Inv.reach {parent : Pid → Pid} {s : Sys} (h : Reach parent (Good parent) s) : Inv s := by
  induction h with
  | init => exact Inv.init
  | step e _ hg hs ih => exact ih.step hg e hs

/-! ## C40 -/

/-- **C40**, for all schedules of any number of processes and all crash points, in which not two processes are
creating a marker at the same time and no process shares its parent's workspace. Missing: these conditions; without
them the claim is false, see `C40_false_validate` and `C40_false_child`. -/
theorem C40_partial (parent : Pid → Pid) (s : Sys) (h : Reach parent (Good parent) s) : Exclusive s := by
  have hinv : Inv s := Inv.reach h
  intro p q hp hq
  have h1 := (hinv.holds p hp).1
  have h2 := (hinv.holds q hq).1
  rw [singleton_of hinv.one h1] at h2
  simp at h2
  exact h2.symm

/-- **C40** without conditions on the schedule, while no process dies or deletes the workspace. -/
theorem C40_no_crash_partial (parent : Pid → Pid) (s : Sys)
    (h : Reach parent (fun s => (∀ p, s.alive p = true) ∧ (∀ p, s.pc p ≠ .deleteMarker) ∧
      ∀ p, ¬ sharesWithParent parent s p) s) : Exclusive s := by
  have key : ∀ s, Reach parent (fun s => (∀ p, s.alive p = true) ∧ (∀ p, s.pc p ≠ .deleteMarker) ∧
      ∀ p, ¬ sharesWithParent parent s p) s → Reach parent (Good parent) s ∧ s.files ≠ [] := by
    intro s h
    induction h with
    | init => exact ⟨.init, by simp [Sys.init]⟩
    | @step s s' e _ hP hs ih =>
      obtain ⟨hr, hne⟩ := ih
      have hinv : Inv s := Inv.reach hr
      have hgood : Good parent s := ⟨fun p q hp _ => absurd (hinv.creating p hp) hne, hP.2.2⟩
      refine ⟨.step e hr hgood hs, ?_⟩
      unfold Sys.step at hs
      cases e with
      | crash p =>
        simp only at hs
        split at hs
        · cases hs; exact hne
        · cases hs
      | open_ p | close p | delete p | create p | validate p =>
        simp only at hs
        split at hs
        · cases hs; exact hne
        · cases hs
      | act p =>
        simp only at hs
        split at hs
        · cases hs
          unfold Sys.act
          have hfail : (s.fail p).files ≠ [] := hne
          have hlock : ∀ g, (s.locked p g).files ≠ [] := fun g => by cases g <;> exact hne
          have hno : ∀ g, (s.noOwner p g).files ≠ [] := fun g => by cases g <;> exact hne
          have hsw : ∀ k, (s.swept p k).files ≠ [] := fun k => by cases k <;> exact hne
          have hsf : ∀ k, (s.sweepFail p k).files ≠ [] := fun k => by cases k <;> exact hne
          have hgo : ∀ c, (s.goto p c).files ≠ [] := fun c => hne
          split
          · exact hne
          · split <;> simp_all
          · split <;> simp_all
          · split <;> simp_all
          · split <;> simp_all
          · exact hsw _
          · split <;> simp_all
          · rename_i k r todo hpc
            have := hinv.unlink p k r todo hpc
            rw [hP.1 r] at this
            cases this
          · split <;> simp_all
          · split <;> split <;> (try split) <;> (try split) <;> simp_all
          · split
            · simp [Sys.goto, Sys.setFiles, renameFile]
            · exact hfail
          · split
            · simp [Sys.goto, Sys.setFiles, renameFile]
            · exact hfail
          · split
            · exact hlock _
            · exact hfail
          · split
            · simp [Sys.fail, Sys.goto, Sys.setHolds, Sys.setFiles, renameFile]
            · exact hfail
          · rename_i hpc
            exact absurd hpc (hP.2.1 p)
          · split <;> exact hfail
          · split <;> exact hgo _
          · split <;> exact hgo _
          · exact hne
          · split
            · simp only [Sys.goto, Sys.setFiles]
              split <;> simp_all
            · exact hgo _
        · cases hs
  exact C40_partial parent s (key s h).1

/-- The process that an event is about. -/
def Ev.pid : Ev → Pid
  | .open_ p | .close p | .delete p | .create p | .validate p | .act p | .crash p => p

theorem act_alive (parent : Pid → Pid) (s : Sys) (p : Pid) : (s.act parent p).alive = s.alive := by
  have h1 : ∀ g, (s.locked p g).alive = s.alive := fun g => by cases g <;> rfl
  have h2 : ∀ g, (s.noOwner p g).alive = s.alive := fun g => by cases g <;> rfl
  have h3 : ∀ k, (s.swept p k).alive = s.alive := fun k => by cases k <;> rfl
  have h4 : ∀ k, (s.sweepFail p k).alive = s.alive := fun k => by cases k <;> rfl
  unfold Sys.act
  split <;> (try split) <;> (try split) <;> (try split) <;> (try split) <;>
    first | rfl | exact h1 _ | exact h2 _ | exact h3 _ | exact h4 _

theorem act_other (parent : Pid → Pid) (s : Sys) (p q : Pid) (h : q ≠ p) :
    (s.act parent p).pc q = s.pc q ∧ (s.act parent p).holds q = s.holds q := by
  have hg : ∀ (s : Sys) c, (s.goto p c).pc q = s.pc q ∧ (s.goto p c).holds q = s.holds q :=
    fun s c => ⟨upd_other _ _ _ _ h, rfl⟩
  have hf : ∀ s : Sys, (s.fail p).pc q = s.pc q ∧ (s.fail p).holds q = s.holds q :=
    fun s => ⟨upd_other _ _ _ _ h, upd_other _ _ _ _ h⟩
  have h1 : ∀ g, (s.locked p g).pc q = s.pc q ∧ (s.locked p g).holds q = s.holds q := fun g => by
    cases g <;> first | exact hf s | exact hg s _ | exact ⟨upd_other _ _ _ _ h, upd_other _ _ _ _ h⟩
  have h2 : ∀ g, (s.noOwner p g).pc q = s.pc q ∧ (s.noOwner p g).holds q = s.holds q := fun g => by
    cases g <;> first | exact hf s | exact hg s _
  have h3 : ∀ k, (s.swept p k).pc q = s.pc q ∧ (s.swept p k).holds q = s.holds q := fun k => by
    cases k <;> exact hg s _
  have h4 : ∀ k, (s.sweepFail p k).pc q = s.pc q ∧ (s.sweepFail p k).holds q = s.holds q := fun k => by
    cases k <;> first | exact hf s | exact hg s _
  unfold Sys.act
  split <;> (try split) <;> (try split) <;> (try split) <;> (try split) <;>
    first
    | exact ⟨rfl, rfl⟩ | exact hf s | exact hg s _ | exact h1 _ | exact h2 _ | exact h3 _ | exact h4 _
    | exact ⟨upd_other _ _ _ _ h, rfl⟩ | exact ⟨upd_other _ _ _ _ h, upd_other _ _ _ _ h⟩

/-- What is known to be dead stays so. -/
structure DeadInv (s : Sys) : Prop where
  unlink : ∀ p k r todo, s.pc p = .unlink k r todo → s.alive r = false
  steal : ∀ p g r, s.pc p = .steal g r → s.alive r = false

theorem act_pc (parent : Pid → Pid) (s : Sys) (p : Pid) :
    (∀ k r todo, (s.act parent p).pc p = .unlink k r todo → s.alive r = false) ∧
    (∀ g r, (s.act parent p).pc p = .steal g r → s.alive r = false) := by
  -- pcs other than these
  have key : ∀ (c : PC) (s' : Sys), s'.pc p = c → (∀ k r todo, c = .unlink k r todo → s.alive r = false) →
      (∀ g r, c = .steal g r → s.alive r = false) →
      (∀ k r todo, s'.pc p = .unlink k r todo → s.alive r = false) ∧
      (∀ g r, s'.pc p = .steal g r → s.alive r = false) := by
    intro c s' e h1 h2
    subst e
    exact ⟨h1, h2⟩
  have hplain : ∀ (c : PC) (s' : Sys), s'.pc p = c → c.plain = true ∨ c = .touch ∨ c = .mkdir ∨ (∃ g r, c = .owner g r) →
      (∀ k r todo, s'.pc p = .unlink k r todo → s.alive r = false) ∧
      (∀ g r, s'.pc p = .steal g r → s.alive r = false) := by
    intro c s' e hc
    refine key c s' e ?_ ?_
    · rintro k r todo rfl
      rcases hc with hc | hc | hc | ⟨g, r', hc⟩ <;> simp [PC.plain] at hc
    · rintro g r rfl
      rcases hc with hc | hc | hc | ⟨g, r', hc⟩ <;> simp [PC.plain] at hc
  have hgo : ∀ (s : Sys) c, (s.goto p c).pc p = c := fun s c => upd_same _ _ _
  have hfail := hplain .idle (s.fail p) (hgo _ _) (Or.inl rfl)
  have hlock : ∀ g, _ := fun g => hplain _ (s.locked p g) rfl (by cases g <;> exact Or.inl (by simp [Sys.locked, Sys.fail, hgo, PC.plain]))
  have hno : ∀ g, _ := fun g => hplain _ (s.noOwner p g) rfl (by cases g <;> exact Or.inl (by simp [Sys.noOwner, Sys.fail, hgo, PC.plain]))
  have hsw : ∀ k, _ := fun k => hplain _ (s.swept p k) rfl (by cases k <;> exact Or.inl (by simp [Sys.swept, hgo, PC.plain]))
  have hsf : ∀ k, _ := fun k => hplain _ (s.sweepFail p k) rfl (by cases k <;> exact Or.inl (by simp [Sys.sweepFail, Sys.fail, hgo, PC.plain]))
  have hgoto : ∀ (s : Sys) (c : PC), c.plain = true ∨ c = .touch ∨ c = .mkdir ∨ (∃ g r, c = .owner g r) → _ :=
    fun s' c hc => hplain c (s'.goto p c) (hgo s' c) hc
  unfold Sys.act
  split
  · rename_i hpc; exact hplain .idle s hpc (Or.inl rfl)
  · split
    · exact hfail
    · exact hgoto s _ (Or.inl rfl)
  · split
    · exact hno _
    · exact hgoto s _ (Or.inl rfl)
  · split
    · exact hgoto s _ (Or.inl rfl)
    · exact hno _
  · split
    · exact hgoto s _ (Or.inl rfl)
    · exact hsf _
  · exact hsw _
  · split
    · exact hgoto s _ (Or.inl rfl)
    · rename_i r todo hpc hr
      refine key _ _ (hgo _ _) ?_ ?_
      · rintro k' r' todo' e; cases e; simpa using hr
      · rintro g r' e; cases e
  · split
    · exact hgoto _ _ (Or.inl rfl)
    · exact hsf _
  · split
    · exact hgoto s _ (Or.inr (Or.inr (Or.inr ⟨_, _, rfl⟩)))
    · exact hfail
  · split
    · split
      · exact hgoto s _ (Or.inl rfl)
      · exact hfail
    · split
      · exact hlock _
      · split
        · exact hlock _
        · split
          · exact hfail
          · rename_i hr
            refine key _ _ (hgo _ _) ?_ ?_
            · rintro k' r' todo' e; cases e
            · rintro g r' e; cases e; simpa using hr
  · split
    · exact hgoto _ _ (Or.inl rfl)
    · exact hfail
  · split
    · exact hgoto _ _ (Or.inl rfl)
    · exact hfail
  · split
    · exact hlock _
    · exact hfail
  · split
    · exact hplain .idle _ (hgo _ _) (Or.inl rfl)
    · exact hfail
  · split
    · exact hgoto _ _ (Or.inl rfl)
    · exact hfail
  · split
    · exact hplain .idle _ (hgo _ _) (Or.inl rfl)
    · exact hfail
  · split
    · exact hgoto s _ (Or.inr (Or.inl rfl))
    · exact hgoto s _ (Or.inl rfl)
  · split
    · exact hgoto s _ (Or.inr (Or.inr (Or.inl rfl)))
    · exact hgoto s _ (Or.inl rfl)
  · exact hplain .touch _ (hgo _ _) (Or.inr (Or.inl rfl))
  · split
    · exact hgoto _ _ (Or.inl rfl)
    · exact hgoto s _ (Or.inl rfl)

theorem DeadInv.reach {parent : Pid → Pid} {P : Sys → Prop} {s : Sys} (h : Reach parent P s) : DeadInv s := by
  induction h with
  | init => exact ⟨by simp [Sys.init], by simp [Sys.init]⟩
  | @step s s' e _ _ hs ih =>
    unfold Sys.step at hs
    have hgoto : ∀ p c, c.plain = true → DeadInv (s.goto p c) := by
      intro p c hc
      constructor
      · intro q k r todo hq
        by_cases e : q = p
        · subst e
          simp only [Sys.goto, upd_same] at hq
          subst hq
          simp [PC.plain] at hc
        · simp only [Sys.goto, upd_other _ _ _ _ e] at hq
          exact ih.unlink q k r todo hq
      · intro q g r hq
        by_cases e : q = p
        · subst e
          simp only [Sys.goto, upd_same] at hq
          subst hq
          simp [PC.plain] at hc
        · simp only [Sys.goto, upd_other _ _ _ _ e] at hq
          exact ih.steal q g r hq
    cases e with
    | open_ p | close p | delete p | create p | validate p =>
      simp only at hs
      split at hs
      · cases hs
        exact hgoto p _ rfl
      · cases hs
    | crash p =>
      simp only at hs
      split at hs
      · cases hs
        have hb := hgoto p .idle rfl
        constructor
        · intro q k r todo hq
          have := hb.unlink q k r todo hq
          by_cases e : r = p
          · subst e; simp [upd]
          · simp only [upd_other _ _ _ _ e]; exact this
        · intro q g r hq
          have := hb.steal q g r hq
          by_cases e : r = p
          · subst e; simp [upd]
          · simp only [upd_other _ _ _ _ e]; exact this
      · cases hs
    | act p =>
      simp only at hs
      split at hs
      · cases hs
        constructor
        · intro q k r todo hq
          rw [act_alive]
          by_cases e : q = p
          · subst e; exact (act_pc parent s q).1 k r todo hq
          · rw [(act_other parent s p q e).1] at hq
            exact ih.unlink q k r todo hq
        · intro q g r hq
          rw [act_alive]
          by_cases e : q = p
          · subst e; exact (act_pc parent s q).2 g r hq
          · rw [(act_other parent s p q e).1] at hq
            exact ih.steal q g r hq
      · cases hs

theorem mem_renameFile (fs : List Marker) (a b m : Marker) (h1 : m ≠ a) (h2 : m ≠ b) :
    m ∈ renameFile fs a b ↔ m ∈ fs := by
  simp [renameFile, List.mem_erase_of_ne h1, List.mem_erase_of_ne h2, h2]

/-- **C40** (failed attempts, and everything else a process does). Whatever a process does, in any schedule, it does
not change whether another process has the workspace open, nor the marker of another process that is alive. -/
theorem C40_frame (parent : Pid → Pid) (P : Sys → Prop) (s s' : Sys) (h : Reach parent P s) (e : Ev)
    (hs : s.step parent e = some s') (q : Pid) (hq : q ≠ e.pid) (ha : s.alive q = true) :
    s'.holds q = s.holds q ∧ s'.alive q = true ∧ (some q ∈ s'.files ↔ some q ∈ s.files) := by
  have hd := DeadInv.reach h
  unfold Sys.step at hs
  cases e with
  | open_ p | close p | delete p | create p | validate p =>
    simp only at hs
    split at hs
    · cases hs
      exact ⟨rfl, ha, Iff.rfl⟩
    · cases hs
  | crash p =>
    simp only at hs
    split at hs
    · cases hs
      exact ⟨upd_other _ _ _ _ hq, by simpa [upd_other _ _ _ _ (show q ≠ p from hq)] using ha, Iff.rfl⟩
    · cases hs
  | act p =>
    have hq : q ≠ p := hq
    simp only at hs
    split at hs
    · cases hs
      refine ⟨(act_other parent s p q hq).2, by rw [act_alive]; exact ha, ?_⟩
      have hlock : ∀ g, (s.locked p g).files = s.files := fun g => by cases g <;> rfl
      have hno : ∀ g, (s.noOwner p g).files = s.files := fun g => by cases g <;> rfl
      have hsw : ∀ k, (s.swept p k).files = s.files := fun k => by cases k <;> rfl
      have hsf : ∀ k, (s.sweepFail p k).files = s.files := fun k => by cases k <;> rfl
      have hgo : ∀ c, (s.goto p c).files = s.files := fun c => rfl
      have hfail : (s.fail p).files = s.files := rfl
      unfold Sys.act
      split
      · exact Iff.rfl
      · split <;> exact Iff.rfl
      · split
        · rw [hno]
        · exact Iff.rfl
      · split
        · exact Iff.rfl
        · rw [hno]
      · split
        · exact Iff.rfl
        · rw [hsf]
      · rw [hsw]
      · split <;> exact Iff.rfl
      · rename_i k r todo hpc
        split
        · have hne : (some q : Marker) ≠ some r := by
            intro e
            cases e
            rw [hd.unlink p k q todo hpc] at ha
            cases ha
          exact List.mem_erase_of_ne hne
        · rw [hsf]
      · split <;> exact Iff.rfl
      · split <;> split <;> (try split) <;> (try split) <;> first | exact Iff.rfl | rw [hlock]
      · rename_i g r hpc
        split
        · have hne : (some q : Marker) ≠ some r := by
            intro e
            cases e
            rw [hd.steal p g q hpc] at ha
            cases ha
          exact mem_renameFile _ _ _ _ hne (by simpa using hq)
        · exact Iff.rfl
      · split
        · exact mem_renameFile _ _ _ _ (by simp) (by simpa using hq)
        · exact Iff.rfl
      · split
        · rw [hlock]
        · exact Iff.rfl
      · split
        · exact mem_renameFile _ _ _ _ (by simpa using hq) (by simp)
        · exact Iff.rfl
      · split
        · exact List.mem_erase_of_ne (by simpa using hq)
        · exact Iff.rfl
      · split <;> exact Iff.rfl
      · split <;> exact Iff.rfl
      · split <;> exact Iff.rfl
      · exact Iff.rfl
      · split
        · simp only [Sys.goto, Sys.setFiles]
          split
          · exact Iff.rfl
          · simp
        · exact Iff.rfl
    · cases hs

/-! ### Where C40 fails -/

theorem Reach.exec {parent : Pid → Pid} {s : Sys} (h : Reach parent (fun _ => True) s) (es : List Ev) :
    ∀ {s'}, s.exec parent es = some s' → Reach parent (fun _ => True) s' := by
  induction es generalizing s with
  | nil => intro s' e; cases e; exact h
  | cons e es ih =>
    intro s' he
    unfold Sys.exec at he
    cases hs : s.step parent e with
    | none => rw [hs] at he; cases he
    | some s1 => rw [hs] at he; exact ih (h.step e trivial hs) he

/-- Process `p` takes `n` steps. -/
def acts (p : Pid) (n : Nat) : List Ev := List.replicate n (.act p)

/-- Process 1 has the workspace open and dies. Processes 2 and 3 start at the same time; both find no marker and
create one: 2 creates it and opens the workspace, then 3 creates a second one and opens it too. -/
def raceSchedule : List Ev :=
  .open_ 1 :: acts 1 4 ++ [.crash 1] ++
  .validate 2 :: acts 2 5 ++ .validate 3 :: acts 3 3 ++
  acts 2 1 ++ .open_ 2 :: acts 2 4 ++
  acts 3 1 ++ .open_ 3 :: acts 3 4

/-- **C40** A process that has the workspace open does not begin to delete, open or create it: those requests are refused until it has closed it. -/
theorem C40_own (parent : Pid → Pid) (s : Sys) (p : Pid) (h : s.holds p = true) : s.step parent (.delete p) = none ∧ s.step parent (.open_ p) = none ∧ s.step parent (.create p) = none := by
  simp [Sys.step, h]

/-- The whole claim is false. -/
theorem C40_false_validate :
    ∃ s, Reach (fun _ => 0) (fun _ => True) s ∧ s.holds 2 = true ∧ s.holds 3 = true := by
  have : (Sys.init.exec (fun _ => 0) raceSchedule).map (fun s => (s.holds 2, s.holds 3)) = some (true, true) := by
    decide +kernel
  obtain ⟨s, h1, h2⟩ := Option.map_eq_some_iff.mp this
  simp only [Prod.mk.injEq] at h2
  exact ⟨s, Reach.exec .init _ h1, h2⟩

/-- A process whose parent has the workspace open opens it too; both have it open. -/
theorem C40_false_child : ∃ s, Reach (fun p => p - 1) (fun _ => True) s ∧ s.holds 1 = true ∧ s.holds 2 = true := by
  have : (Sys.init.exec (fun p => p - 1) (.open_ 1 :: acts 1 4 ++ .open_ 2 :: acts 2 8)).map
      (fun s => (s.holds 1, s.holds 2)) = some (true, true) := rfl
  obtain ⟨s, h1, h2⟩ := Option.map_eq_some_iff.mp this
  simp only [Prod.mk.injEq] at h2
  exact ⟨s, Reach.exec .init _ h1, h2⟩

/-! ### Non-vacuity -/

/-- A process can open the workspace. -/
example : ∃ s, Reach (fun _ => 0) (Good (fun _ => 0)) s ∧ s.holds 1 = true := by
  have g : ∀ s : Sys, (∀ p, (s.pc p).plain = true) → Good (fun _ => 0) s := by
    intro s h
    constructor
    · rintro p q (e | e) _ <;> (have := h p; rw [e] at this; simp [PC.plain] at this)
    · rintro p ⟨g, r, e, _⟩
      have := h p
      rw [e] at this
      simp [PC.plain] at this
  have hidle : ∀ (s : Sys), (∀ q, q ≠ 1 → s.pc q = .idle) → (s.pc 1).plain = true → ∀ p, (s.pc p).plain = true := by
    intro s h1 h2 p
    by_cases e : p = 1
    · subst e; exact h2
    · rw [h1 p e]; rfl
  have o : ∀ {f : Pid → PC} {c : PC}, (∀ q, q ≠ 1 → f q = .idle) → ∀ q, q ≠ 1 → upd f 1 c q = .idle :=
    fun h q hq => by rw [upd_other _ _ _ _ hq]; exact h q hq
  have i0 : ∀ q, q ≠ 1 → Sys.init.pc q = .idle := fun _ _ => rfl
  refine ⟨_, .step (.act 1) (.step (.act 1) (.step (.act 1) (.step (.act 1) (.step (.open_ 1) .init ?_ rfl) ?_ rfl) ?_ rfl) ?_ rfl) ?_ rfl, rfl⟩
  · exact g _ fun _ => rfl
  · exact g _ (hidle _ (o i0) rfl)
  · exact g _ (hidle _ (o (o i0)) rfl)
  · exact g _ (hidle _ (o (o (o i0))) rfl)
  · exact g _ (hidle _ (o (o (o (o i0)))) rfl)

/-- A second process is refused. -/
example : ((Sys.init.exec (fun _ => 0) (.open_ 1 :: acts 1 4 ++ .open_ 2 :: acts 2 8)).map fun s =>
    (s.holds 1, s.holds 2, s.pc 2, s.files)) = some (true, false, .idle, [some 1]) := rfl

/-- After the first closes it, the second can open it. -/
example : ((Sys.init.exec (fun _ => 0) (.open_ 1 :: acts 1 4 ++ .close 1 :: acts 1 15 ++ .open_ 2 :: acts 2 4)).map fun s =>
    (s.holds 1, s.holds 2, s.files)) = some (false, true, [some 2]) := rfl

/-! ## C41 -/

theorem exec_append (parent : Pid → Pid) (es fs : List Ev) : ∀ s : Sys,
    s.exec parent (es ++ fs) = (s.exec parent es).bind fun s' => s'.exec parent fs := by
  induction es with
  | nil => intro s; rfl
  | cons e es ih =>
    intro s
    simp only [List.cons_append, Sys.exec]
    cases s.step parent e with
    | none => rfl
    | some s' => exact ih s'

/-- No marker exists twice. -/
theorem nodup_reach {parent : Pid → Pid} {P : Sys → Prop} {s : Sys} (h : Reach parent P s) : s.files.Nodup := by
  have hren : ∀ (fs : List Marker) (a b : Marker), fs.Nodup → (renameFile fs a b).Nodup := by
    intro fs a b h
    unfold renameFile
    rw [List.nodup_cons]
    exact ⟨(h.erase a).not_mem_erase, (h.erase a).erase b⟩
  induction h with
  | init => simp [Sys.init]
  | @step s s' e _ _ hs ih =>
    unfold Sys.step at hs
    cases e with
    | open_ p | close p | delete p | create p | validate p | crash p =>
      simp only at hs
      split at hs
      · cases hs; exact ih
      · cases hs
    | act p =>
      simp only at hs
      split at hs
      · cases hs
        have hlock : ∀ g, (s.locked p g).files = s.files := fun g => by cases g <;> rfl
        have hno : ∀ g, (s.noOwner p g).files = s.files := fun g => by cases g <;> rfl
        have hsw : ∀ k, (s.swept p k).files = s.files := fun k => by cases k <;> rfl
        have hsf : ∀ k, (s.sweepFail p k).files = s.files := fun k => by cases k <;> rfl
        unfold Sys.act
        split <;> (try split) <;> (try split) <;> (try split) <;> (try split) <;>
          first
          | exact ih
          | (rw [hlock]; exact ih)
          | (rw [hno]; exact ih)
          | (rw [hsw]; exact ih)
          | (rw [hsf]; exact ih)
          | exact hren _ _ _ ih
          | exact ih.erase _
          | skip
        rename_i hc
        show (none :: s.files).Nodup
        rw [List.nodup_cons]
        exact ⟨by simpa using hc, ih⟩
      · cases hs

/-- The process takes one step. -/
theorem exec_act (parent : Pid → Pid) (s : Sys) (p : Pid) (n : Nat) (ha : s.alive p = true) (hp : s.pc p ≠ .idle) :
    s.exec parent (acts p (n + 1)) = (s.act parent p).exec parent (acts p n) := by
  show Sys.exec parent s (.act p :: acts p n) = _
  simp [Sys.exec, Sys.step, ha, hp]

theorem goto_same (s : Sys) (p : Pid) (c : PC) (h : s.pc p = c) : s.goto p c = s := by
  have : upd s.pc p c = s.pc := by
    funext q
    by_cases e : q = p
    · subst e; rw [upd_same, h]
    · rw [upd_other _ _ _ _ e]
  unfold Sys.goto
  rw [this]

theorem goto_goto (s : Sys) (p : Pid) (c c' : PC) : (s.goto p c).goto p c' = s.goto p c' := by
  have : upd (upd s.pc p c) p c' = upd s.pc p c' := by
    funext q
    by_cases e : q = p
    · subst e; rw [upd_same, upd_same]
    · rw [upd_other _ _ _ _ e, upd_other _ _ _ _ e, upd_other _ _ _ _ e]
  unfold Sys.goto
  simp only [this]

theorem setFiles_goto (s : Sys) (p : Pid) (c : PC) (fs : List Marker) :
    (s.goto p c).setFiles fs = (s.setFiles fs).goto p c := rfl

theorem setFiles_setFiles (s : Sys) (fs fs' : List Marker) : (s.setFiles fs).setFiles fs' = s.setFiles fs' := rfl

/-- The process's own view: where it is, and the markers; nobody else is alive. -/
structure Alone (s : Sys) (p : Pid) : Prop where
  alive : s.alive p = true
  others : ∀ q, q ≠ p → s.alive q = false
  dir : s.dir = true

/-- What is left after the removal of abandoned markers. -/
def survivors (p : Pid) (fs : List Marker) : List Marker := fs.filter fun m => m = none ∨ m = some p

theorem sweep_alone (parent : Pid → Pid) (p : Pid) (k : Cont) (todo : List Pid) : ∀ s : Sys, Alone s p →
    s.pc p = .sweep k todo → todo.Nodup → (∀ r ∈ todo, some r ∈ s.files) → s.files.Nodup →
    (∀ r, some r ∈ s.files → r ≠ p → r ∈ todo) →
    ∃ n, s.exec parent (acts p n) = some ((s.setFiles (survivors p s.files)).goto p (.sweep k [])) := by
  induction todo with
  | nil =>
    intro s ha hpc _ _ _ hall
    refine ⟨0, ?_⟩
    have hf : survivors p s.files = s.files := by
      unfold survivors
      rw [List.filter_eq_self]
      intro m hm
      cases m with
      | none => simp
      | some r =>
        by_cases e : r = p
        · simp [e]
        · have := hall r hm e
          simp at this
    rw [hf, goto_same (s.setFiles s.files) p _ hpc]
    rfl
  | cons r todo ih =>
    intro s ha hpc hn hmem hnf hall
    simp only [List.nodup_cons] at hn
    by_cases e : r = p
    · -- the process's own marker is left alone
      subst e
      have hact : s.act parent r = s.goto r (.sweep k todo) := by simp [Sys.act, hpc, ha.alive]
      obtain ⟨n, h⟩ := ih (s.goto r (.sweep k todo)) ⟨ha.alive, ha.others, ha.dir⟩ (upd_same _ _ _) hn.2
        (fun r' hr' => hmem r' (by simp [hr'])) hnf (fun r' hr' hne => by
          rcases List.mem_cons.mp (hall r' hr' hne) with e | e
          · exact absurd e hne
          · exact e)
      refine ⟨n + 1, ?_⟩
      rw [exec_act parent s r n ha.alive (by rw [hpc]; simp), hact, h]
      rw [setFiles_goto, goto_goto]
      rfl
    · have hdead := ha.others r e
      have hact : s.act parent p = s.goto p (.unlink k r todo) := by simp [Sys.act, hpc, hdead]
      let s1 := s.goto p (.unlink k r todo)
      have hpc1 : s1.pc p = .unlink k r todo := upd_same _ _ _
      let s2 := (s1.setFiles (s.files.erase (some r))).goto p (.sweep k todo)
      have hact1 : s1.act parent p = s2 := by
        have : s1.files.contains (some r) = true := by
          show s.files.contains (some r) = true
          simpa using hmem r (by simp)
        simp only [Sys.act, hpc1, this, if_true]
        rfl
      obtain ⟨n, h⟩ := ih s2 ⟨ha.alive, ha.others, ha.dir⟩ (upd_same _ _ _) hn.2
        (fun r' hr' => by
          have hne : (some r' : Marker) ≠ some r := by
            intro e'; cases e'; exact hn.1 hr'
          exact (List.mem_erase_of_ne hne).mpr (hmem r' (by simp [hr'])))
        (hnf.erase _)
        (fun r' hr' hne => by
          have hr' : some r' ∈ s.files.erase (some r) := hr'
          rcases List.mem_cons.mp (hall r' (List.mem_of_mem_erase hr') hne) with e' | e'
          · subst e'
            exact absurd hr' hnf.not_mem_erase
          · exact e')
      refine ⟨n + 1 + 1, ?_⟩
      rw [exec_act parent s p (n + 1) ha.alive (by rw [hpc]; simp), hact]
      rw [exec_act parent s1 p n ha.alive (by rw [hpc1]; simp), hact1, h]
      have hsurv : survivors p (s.files.erase (some r)) = survivors p s.files := by
        unfold survivors
        rw [hnf.erase_eq_filter, List.filter_filter]
        apply List.filter_congr
        intro m _
        by_cases hm : m = some r
        · subst hm
          simp [e]
        · simp [hm]
      congr 1
      show ((s2.setFiles (survivors p (s.files.erase (some r)))).goto p (.sweep k [])) = _
      rw [hsurv]
      simp only [s2, s1]
      rw [setFiles_goto, setFiles_setFiles, setFiles_goto, goto_goto, goto_goto]

theorem owners_nodup (fs : List Marker) (h : fs.Nodup) : (owners fs).Nodup := by
  unfold owners
  induction fs with
  | nil => simp
  | cons m fs ih =>
    simp only [List.nodup_cons] at h
    cases m with
    | none => simpa using ih h.2
    | some r =>
      simp only [List.filterMap_cons, id]
      rw [List.nodup_cons]
      refine ⟨?_, ih h.2⟩
      intro hm
      obtain ⟨m, hm1, hm2⟩ := List.mem_filterMap.mp hm
      simp at hm2
      subst hm2
      exact h.1 hm1

theorem mem_owners (fs : List Marker) (r : Pid) : r ∈ owners fs ↔ some r ∈ fs := by
  simp [owners, List.mem_filterMap]

theorem survivors_sub (p : Pid) (fs : List Marker) : ∀ m ∈ survivors p fs, m = none ∨ m = some p := by
  intro m hm
  have := (List.mem_filter.mp hm).2
  simpa using this

/-- From `sweepList` to the end of the loop. -/
theorem sweepList_alone (parent : Pid → Pid) (p : Pid) (k : Cont) (s : Sys) (ha : Alone s p) (hpc : s.pc p = .sweepList k)
    (hn : s.files.Nodup) :
    ∃ n, s.exec parent (acts p n) = some ((s.setFiles (survivors p s.files)).goto p (.sweep k [])) := by
  have hact : s.act parent p = s.goto p (.sweep k (owners s.files)) := by simp [Sys.act, hpc, ha.dir]
  obtain ⟨n, h⟩ := sweep_alone parent p k (owners s.files) (s.goto p (.sweep k (owners s.files)))
    ⟨ha.alive, ha.others, ha.dir⟩ (upd_same _ _ _) (owners_nodup _ hn) (fun r hr => (mem_owners _ _).mp hr) hn
    (fun r hr _ => (mem_owners _ _).mpr hr)
  refine ⟨n + 1, ?_⟩
  rw [exec_act parent s p n ha.alive (by rw [hpc]; simp), hact, h]
  rw [setFiles_goto, goto_goto]
  rfl

theorem acts_add (p : Pid) (n m : Nat) : acts p (n + m) = acts p n ++ acts p m := by
  simp [acts, List.replicate_append_replicate]

theorem exec_acts_trans (parent : Pid → Pid) (p : Pid) (s1 s2 s3 : Sys)
    (h1 : ∃ n, s1.exec parent (acts p n) = some s2) (h2 : ∃ n, s2.exec parent (acts p n) = some s3) :
    ∃ n, s1.exec parent (acts p n) = some s3 := by
  obtain ⟨n, h1⟩ := h1
  obtain ⟨m, h2⟩ := h2
  exact ⟨n + m, by rw [acts_add, exec_append, h1]; exact h2⟩

theorem exec_act_one (parent : Pid → Pid) (p : Pid) (s s' : Sys) (ha : s.alive p = true) (hp : s.pc p ≠ .idle)
    (h : s.act parent p = s') : ∃ n, s.exec parent (acts p n) = some s' :=
  ⟨1, by rw [exec_act parent s p 0 ha hp, h]; rfl⟩

/-- `open`, when the only markers are free or the process's own. -/
theorem open_alone (parent : Pid → Pid) (p : Pid) (s : Sys) (ha : Alone s p) (hpc : s.pc p = .exists_ .opening)
    (hn : s.files.Nodup) (hne : s.files ≠ []) (hf : ∀ m ∈ s.files, m = none ∨ m = some p) :
    ∃ n s', s.exec parent (acts p n) = some s' ∧ s'.holds p = true ∧ s'.pc p = .idle := by
  let s1 := s.goto p (.checkUnowned .opening)
  have h1 : ∃ n, s.exec parent (acts p n) = some s1 :=
    exec_act_one parent p s s1 ha.alive (by rw [hpc]; simp) (by
      simp only [Sys.act, hpc]
      rw [if_neg (by simpa using hne)])
  have hpc1 : s1.pc p = .checkUnowned .opening := upd_same _ _ _
  by_cases hfree : none ∈ s.files
  · -- free: take it
    let s2 := s1.goto p (.rename .opening)
    have h2 : ∃ n, s1.exec parent (acts p n) = some s2 :=
      exec_act_one parent p s1 s2 ha.alive (by rw [hpc1]; simp) (by
        have : s1.files.contains none = true := by
          show s.files.contains none = true
          simpa using hfree
        simp only [Sys.act, hpc1, this, if_true]
        rfl)
    have hpc2 : s2.pc p = .rename .opening := upd_same _ _ _
    let s3 := (s2.setFiles (renameFile s.files none (some p))).goto p (.confirm .opening)
    have h3 : ∃ n, s2.exec parent (acts p n) = some s3 :=
      exec_act_one parent p s2 s3 ha.alive (by rw [hpc2]; simp) (by
        have : s2.files.contains none = true := by
          show s.files.contains none = true
          simpa using hfree
        simp only [Sys.act, hpc2, this, if_true]
        rfl)
    have hpc3 : s3.pc p = .confirm .opening := upd_same _ _ _
    let s4 := (s3.setHolds p true).goto p .idle
    have h4 : ∃ n, s3.exec parent (acts p n) = some s4 :=
      exec_act_one parent p s3 s4 ha.alive (by rw [hpc3]; simp) (by
        have : s3.files.contains (some p) = true := by simp [s3, Sys.goto, Sys.setFiles, renameFile]
        simp only [Sys.act, hpc3, this, if_true]
        rfl)
    obtain ⟨n, h⟩ := exec_acts_trans parent p s s1 s4 h1
      (exec_acts_trans parent p s1 s2 s4 h2 (exec_acts_trans parent p s2 s3 s4 h3 h4))
    exact ⟨n, s4, h, upd_same _ _ _, upd_same _ _ _⟩
  · -- its own, left over from before
    have hown : s.files = [some p] := by
      match hs : s.files, hne with
      | [m], _ =>
        rw [hs] at hf hfree
        rcases hf m (by simp) with e | e
        · subst e; simp at hfree
        · rw [e]
      | m :: m' :: ms, _ =>
        rw [hs] at hf hfree hn
        have e1 : m = some p := by
          rcases hf m (by simp) with e | e
          · subst e; simp at hfree
          · exact e
        have e2 : m' = some p := by
          rcases hf m' (by simp) with e | e
          · subst e; simp at hfree
          · exact e
        subst e1
        subst e2
        simp at hn
    let s2 := s1.goto p (.checkDir .opening)
    have h2 : ∃ n, s1.exec parent (acts p n) = some s2 :=
      exec_act_one parent p s1 s2 ha.alive (by rw [hpc1]; simp) (by
        have : s1.files.contains none = false := by
          show s.files.contains none = false
          simpa using hfree
        simp only [Sys.act, hpc1, this]
        rfl)
    have hpc2 : s2.pc p = .checkDir .opening := upd_same _ _ _
    let s3 := s2.goto p (.sweepList (.owner .opening))
    have h3 : ∃ n, s2.exec parent (acts p n) = some s3 :=
      exec_act_one parent p s2 s3 ha.alive (by rw [hpc2]; simp) (by
        have : s2.dir = true := ha.dir
        simp only [Sys.act, hpc2, this, if_true]
        rfl)
    have hpc3 : s3.pc p = .sweepList (.owner .opening) := upd_same _ _ _
    obtain h4 := sweepList_alone parent p (.owner .opening) s3 ⟨ha.alive, ha.others, ha.dir⟩ hpc3 hn
    let s4 := (s3.setFiles (survivors p s3.files)).goto p (.sweep (.owner .opening) [])
    have hf4 : s4.files = [some p] := by
      show survivors p s.files = _
      rw [hown]
      simp [survivors]
    have hpc4 : s4.pc p = .sweep (.owner .opening) [] := upd_same _ _ _
    let s5 := s4.goto p (.list .opening)
    have h5 : ∃ n, s4.exec parent (acts p n) = some s5 :=
      exec_act_one parent p s4 s5 ha.alive (by rw [hpc4]; simp) (by
        simp only [Sys.act, hpc4]
        rfl)
    have hpc5 : s5.pc p = .list .opening := upd_same _ _ _
    have hf5 : s5.files = [some p] := hf4
    let s6 := s5.goto p (.owner .opening p)
    have h6 : ∃ n, s5.exec parent (acts p n) = some s6 :=
      exec_act_one parent p s5 s6 ha.alive (by rw [hpc5]; simp) (by
        simp only [Sys.act, hpc5, hf5]
        rfl)
    have hpc6 : s6.pc p = .owner .opening p := upd_same _ _ _
    let s7 := (s6.setHolds p true).goto p .idle
    have h7 : ∃ n, s6.exec parent (acts p n) = some s7 :=
      exec_act_one parent p s6 s7 ha.alive (by rw [hpc6]; simp) (by
        simp only [Sys.act, hpc6]
        simp
        rfl)
    obtain ⟨n, h⟩ := exec_acts_trans parent p s s1 s7 h1 (exec_acts_trans parent p s1 s2 s7 h2
      (exec_acts_trans parent p s2 s3 s7 h3 (exec_acts_trans parent p s3 s4 s7 h4
      (exec_acts_trans parent p s4 s5 s7 h5 (exec_acts_trans parent p s5 s6 s7 h6 h7)))))
    exact ⟨n, s7, h, upd_same _ _ _, upd_same _ _ _⟩

/-- **C41.** Whatever happened before (any schedule, any crash points, even two owners), once all other processes are
dead, a process can open the workspace, provided that it first validates it (which marcel does when it starts, and
after a failed attempt to open a workspace). Missing: the next attempt should succeed also without that, see
`C41_false`. -/
theorem C41_partial (parent : Pid → Pid) (P : Sys → Prop) (s : Sys) (h : Reach parent P s) (p : Pid)
    (ha : s.alive p = true) (hpc : s.pc p = .idle) (hh : s.holds p = false) (hothers : ∀ q, q ≠ p → s.alive q = false)
    (hdir : s.dir = true) :
    ∃ n m s', s.exec parent ((.validate p :: acts p n) ++ (.open_ p :: acts p m)) = some s' ∧
      s'.holds p = true ∧ s'.pc p = .idle := by
  have hn := nodup_reach h
  let s0 := s.goto p (.sweepList .validate)
  have hs0 : s.step parent (.validate p) = some s0 := by simp [Sys.step, ha, hpc, s0]
  have hpc0 : s0.pc p = .sweepList .validate := upd_same _ _ _
  have h1 := sweepList_alone parent p .validate s0 ⟨ha, hothers, hdir⟩ hpc0 hn
  let s1 := (s0.setFiles (survivors p s.files)).goto p (.sweep .validate [])
  have hpc1 : s1.pc p = .sweep .validate [] := upd_same _ _ _
  let s2 := s1.goto p .validateExists
  have h2 : ∃ n, s1.exec parent (acts p n) = some s2 :=
    exec_act_one parent p s1 s2 ha (by rw [hpc1]; simp) (by simp only [Sys.act, hpc1]; rfl)
  have hpc2 : s2.pc p = .validateExists := upd_same _ _ _
  -- after validation, there is a marker
  obtain ⟨n, s3, h3, hpc3, ha3, hn3, hne3, hf3, hh3⟩ : ∃ n s3, s0.exec parent (acts p n) = some s3 ∧ s3.pc p = .idle ∧
      Alone s3 p ∧ s3.files.Nodup ∧ s3.files ≠ [] ∧ (∀ m ∈ s3.files, m = none ∨ m = some p) ∧ s3.holds p = false := by
    by_cases he : survivors p s.files = []
    · let s3 := s2.goto p .touch
      have h3 : ∃ n, s2.exec parent (acts p n) = some s3 :=
        exec_act_one parent p s2 s3 ha (by rw [hpc2]; simp) (by
          have : s2.files.isEmpty = true := by show (survivors p s.files).isEmpty = true; rw [he]; rfl
          simp only [Sys.act, hpc2, this, if_true]
          rfl)
      have hpc3 : s3.pc p = .touch := upd_same _ _ _
      let s4 := (s3.setFiles [none]).goto p .idle
      have h4 : ∃ n, s3.exec parent (acts p n) = some s4 :=
        exec_act_one parent p s3 s4 ha (by rw [hpc3]; simp) (by
          have hd : s3.dir = true := hdir
          have hfe : s3.files = [] := he
          simp only [Sys.act, hpc3, hd, if_true, hfe]
          rfl)
      obtain ⟨n, h⟩ := exec_acts_trans parent p s0 s1 s4 h1 (exec_acts_trans parent p s1 s2 s4 h2
        (exec_acts_trans parent p s2 s3 s4 h3 h4))
      exact ⟨n, s4, h, upd_same _ _ _, ⟨ha, hothers, hdir⟩, by simp [s4, Sys.goto, Sys.setFiles],
        by simp [s4, Sys.goto, Sys.setFiles], by simp [s4, Sys.goto, Sys.setFiles], hh⟩
    · let s3 := s2.goto p .idle
      have h3 : ∃ n, s2.exec parent (acts p n) = some s3 :=
        exec_act_one parent p s2 s3 ha (by rw [hpc2]; simp) (by
          have : ¬ s2.files.isEmpty = true := by
            show ¬ (survivors p s.files).isEmpty = true
            simpa using he
          simp only [Sys.act, hpc2]
          rw [if_neg this])
      obtain ⟨n, h⟩ := exec_acts_trans parent p s0 s1 s3 h1 (exec_acts_trans parent p s1 s2 s3 h2 h3)
      exact ⟨n, s3, h, upd_same _ _ _, ⟨ha, hothers, hdir⟩, hn.filter _, he, survivors_sub p s.files, hh⟩
  let s4 := s3.goto p (.exists_ .opening)
  have hs4 : s3.step parent (.open_ p) = some s4 := by simp [Sys.step, ha3.alive, hpc3, hh3, s4]
  obtain ⟨m, s5, h5, hr1, hr2⟩ := open_alone parent p s4 ⟨ha3.alive, ha3.others, ha3.dir⟩ (upd_same _ _ _) hn3 hne3 hf3
  refine ⟨n, m, s5, ?_, hr1, hr2⟩
  rw [exec_append]
  have e1 : s.exec parent (.validate p :: acts p n) = some s3 := by
    simp only [Sys.exec, hs0]
    exact h3
  rw [e1]
  simp only [Option.bind_some, Sys.exec, hs4]
  exact h5

/-- The whole claim is false: the owner has died; the next process to open the workspace (without validating it first)
removes the marker of the dead process, but does not get the workspace, and afterwards there is no marker at all. -/
theorem C41_false : ∃ s, Reach (fun _ => 0) (fun _ => True) s ∧ s.holds 2 = false ∧ s.pc 2 = .idle ∧ s.files = [] := by
  have : (Sys.init.exec (fun _ => 0) (.open_ 1 :: acts 1 4 ++ [.crash 1] ++ .open_ 2 :: acts 2 8)).map
      (fun s => (s.holds 2, s.pc 2, s.files)) = some (false, .idle, []) := by decide +kernel
  obtain ⟨s, h1, h2⟩ := Option.map_eq_some_iff.mp this
  simp only [Prod.mk.injEq] at h2
  exact ⟨s, Reach.exec .init _ h1, h2⟩

/-- Non-vacuity: the state before the attempt, after which process 2 is the only one left alive of 1 and 2, ... -/
example : (Sys.init.exec (fun _ => 0) (.open_ 1 :: acts 1 4 ++ [.crash 1] ++ .validate 2 :: acts 2 6 ++ .open_ 2 :: acts 2 4)).map
    (fun s => (s.holds 2, s.pc 2, s.files)) = some (true, .idle, [some 2]) := by decide +kernel

end Marcel.WsLock
