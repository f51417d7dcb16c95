import Verif.Model.Jobs
/-! # C45: job control -/

namespace Marcel.Jobs

/-! ## Lemmas -/

theorem checkAlive_cases (a : Pid → Bool) (j : Job) :
    (checkAlive a j = j ∧ j.proc = true ∧ a j.pid = true) ∨
    (checkAlive a j = { j with state := .dead, proc := false } ∧ (j.proc && a j.pid) = false) := by
  unfold checkAlive
  cases h : (j.proc && a j.pid) with
  | true => left; simp at h; simp [h]
  | false => right; simp

theorem scan_pids (a : Pid → Bool) (js : List Job) : (scan a js).1.map (·.pid) = js.map (·.pid) := by
  induction js with
  | nil => rfl
  | cons j js ih =>
    have hp : (checkAlive a j).pid = j.pid := by
      rcases checkAlive_cases a j with h | h <;> rw [h.1]
    unfold scan
    split
    · simp [hp]
    · simp [hp, ih]

/-- A job after `foreground()` is a job from before, or one found to be dead. -/
theorem mem_scan {a : Pid → Bool} {js : List Job} {j' : Job} (h : j' ∈ (scan a js).1) :
    j' ∈ js ∨ (∃ j ∈ js, j' = { j with state := .dead, proc := false } ∧ (j.proc && a j.pid) = false) := by
  induction js with
  | nil => simp [scan] at h
  | cons j js ih =>
    have hd : j' = checkAlive a j → j' ∈ j :: js ∨
        (∃ k ∈ j :: js, j' = { k with state := .dead, proc := false } ∧ (k.proc && a k.pid) = false) := by
      intro e
      rcases checkAlive_cases a j with c | c
      · left; rw [e, c.1]; simp
      · right; exact ⟨j, by simp, by rw [e, c.1], c.2⟩
    unfold scan at h
    split at h
    · simp only [List.mem_cons] at h
      rcases h with h | h
      · exact hd h
      · left; simp [h]
    · simp only [List.mem_cons] at h
      rcases h with h | h
      · exact hd h
      · rcases ih h with c | ⟨k, hk, c⟩
        · left; simp [c]
        · right; exact ⟨k, by simp [hk], c⟩

theorem scan_none {a : Pid → Bool} {js : List Job} (h : (scan a js).2 = none) :
    (scan a js).1 = js.map (checkAlive a) ∧ ∀ j ∈ (scan a js).1, j.state ≠ .foreground := by
  induction js with
  | nil => simp [scan]
  | cons j js ih =>
    unfold scan at h ⊢
    split
    · rename_i hc; rw [if_pos hc] at h; cases h
    · rename_i hc
      rw [if_neg hc] at h
      have := ih h
      refine ⟨by simp [this.1], ?_⟩
      intro k hk
      simp only [List.mem_cons] at hk
      rcases hk with rfl | hk
      · exact hc
      · exact this.2 k hk

theorem scan_some {a : Pid → Bool} {js : List Job} {p : Pid} (h : (scan a js).2 = some p) :
    ∃ j ∈ (scan a js).1, j.pid = p ∧ j.state = .foreground ∧ a p = true ∧ j ∈ js ∧ j.proc = true := by
  induction js with
  | nil => simp [scan] at h
  | cons j js ih =>
    unfold scan at h ⊢
    split
    · rename_i hc
      rw [if_pos hc] at h
      cases h
      rcases checkAlive_cases a j with c | c
      · exact ⟨checkAlive a j, by simp, by rw [c.1], hc, c.2.2, by rw [c.1]; simp, by rw [c.1]; exact c.2.1⟩
      · rw [c.1] at hc; cases hc
    · rename_i hc
      rw [if_neg hc] at h
      obtain ⟨k, h1, h2, h3, h4, h5, h6⟩ := ih h
      exact ⟨k, by simp [h1], h2, h3, h4, by simp [h5], h6⟩

theorem update_pids (p : Pid) (f : Job → Job) (hf : ∀ j, (f j).pid = j.pid) (js : List Job) :
    (update p f js).map (·.pid) = js.map (·.pid) := by
  unfold update
  induction js with
  | nil => rfl
  | cons j js ih =>
    simp only [List.map_cons, ih]
    split <;> simp [hf]

theorem mem_update {p : Pid} {f : Job → Job} {js : List Job} {j' : Job} (h : j' ∈ update p f js) :
    (j' ∈ js ∧ j'.pid ≠ p) ∨ (∃ j ∈ js, j.pid = p ∧ j' = f j) := by
  unfold update at h
  simp only [List.mem_map] at h
  obtain ⟨j, hj, he⟩ := h
  split at he
  · rename_i hp; right; exact ⟨j, hj, hp, he.symm⟩
  · rename_i hp; left; rw [← he]; exact ⟨hj, hp⟩

theorem killJob_pid (how : Kill) (j : Job) : (killJob how j).pid = j.pid := by unfold killJob; split <;> rfl
theorem pauseJob_pid (j : Job) : (pauseJob j).pid = j.pid := by unfold pauseJob; split <;> rfl
theorem bgJob_pid (j : Job) : (bgJob j).pid = j.pid := by unfold bgJob; split <;> rfl
theorem fgJob_pid (j : Job) : (fgJob j).pid = j.pid := by unfold fgJob; split <;> rfl
theorem killJob_state (how : Kill) (j : Job) : (killJob how j).state = .dead := by
  unfold killJob; split <;> simp_all

theorem pauseJob_state (j : Job) : (pauseJob j).state = .paused ∨ (pauseJob j).state = .dead := by
  unfold pauseJob; split <;> simp_all

theorem bgJob_state (j : Job) : (bgJob j).state = .background ∨ (bgJob j).state = .dead := by
  unfold bgJob; split <;> simp_all

theorem removeCompleted_sub {a : Pid → Bool} {js : List Job} {j : Job} (h : j ∈ removeCompleted a js) :
    j ∈ js ∧ j.proc = true ∧ a j.pid = true := by
  unfold removeCompleted at h
  simp only [List.mem_filter, Bool.and_eq_true] at h
  exact h

theorem removeCompleted_nodup {a : Pid → Bool} {js : List Job} (h : (js.map (·.pid)).Nodup) :
    ((removeCompleted a js).map (·.pid)).Nodup := by
  unfold removeCompleted
  exact List.Sublist.nodup (List.Sublist.map _ List.filter_sublist) h

/-! ## The invariant -/

/-- No job is in the foreground. -/
def NoFg (js : List Job) : Prop := ∀ j ∈ js, j.state ≠ .foreground

structure Inv (s : Sys) : Prop where
  nodup : (s.jobs.map (·.pid)).Nodup
  idle : s.pc ≠ .waiting → NoFg s.jobs
  one : ∀ j ∈ s.jobs, ∀ k ∈ s.jobs, j.state = .foreground → k.state = .foreground → j.pid = k.pid
  spawned : ∀ j, s.pc = .spawned j → j.pid ∉ s.jobs.map (·.pid) ∧ j.state = .foreground

theorem NoFg.one {js : List Job} (h : NoFg js) :
    ∀ j ∈ js, ∀ k ∈ js, j.state = .foreground → k.state = .foreground → j.pid = k.pid :=
  fun j hj _ _ e _ => absurd e (h j hj)

/-- Steps which keep the pids and make no job a foreground job. -/
theorem Inv.keep {s t : Sys} (h : Inv s) (hp : t.jobs.map (·.pid) = s.jobs.map (·.pid)) (hpc : t.pc = s.pc)
    (hf : ∀ j ∈ t.jobs, j.state = .foreground → j ∈ s.jobs) : Inv t := by
  refine ⟨by rw [hp]; exact h.nodup, ?_, ?_, ?_⟩
  · intro hw j hj hs
    rw [hpc] at hw
    exact h.idle hw j (hf j hj hs) hs
  · intro j hj k hk e1 e2
    exact h.one j (hf j hj e1) k (hf k hk e2) e1 e2
  · rw [hpc, hp]; exact h.spawned

theorem scan_fg {a : Pid → Bool} {js : List Job} {j : Job} (h : j ∈ (scan a js).1) (hs : j.state = .foreground) :
    j ∈ js := by
  rcases mem_scan h with c | ⟨k, _, e, _⟩
  · exact c
  · rw [e] at hs; cases hs

theorem Inv.step {s : Sys} (h : Inv s) (e : Ev) : Inv (step s e) := by
  cases e with
  | spawn p =>
    unfold Jobs.step
    simp only
    split
    · rename_i hc
      refine ⟨h.nodup, fun _ => h.idle (by rw [hc.1]; simp), h.one, ?_⟩
      intro j hj
      cases hj
      exact ⟨hc.2, rfl⟩
    · exact h
  | append =>
    unfold Jobs.step
    simp only
    split
    · rename_i j hpc
      have hsp := h.spawned j hpc
      have hno := h.idle (by rw [hpc]; simp)
      refine ⟨?_, by simp, ?_, by simp⟩
      · simp only [List.map_append, List.map_cons, List.map_nil]
        rw [List.nodup_append]
        refine ⟨h.nodup, by simp, ?_⟩
        intro a ha b hb
        simp only [List.mem_singleton] at hb
        rintro rfl
        exact hsp.1 (hb ▸ ha)
      · intro a ha b hb e1 e2
        simp only [List.mem_append, List.mem_singleton] at ha hb
        rcases ha with ha | rfl
        · exact absurd e1 (hno a ha)
        · rcases hb with hb | rfl
          · exact absurd e2 (hno b hb)
          · rfl
    · exact h
  | jobsCmd =>
    unfold Jobs.step
    simp only
    split
    · rename_i hc
      have hno := h.idle (by rw [hc]; simp)
      refine ⟨removeCompleted_nodup h.nodup, by simp, ?_, by simp⟩
      exact NoFg.one fun j hj => hno j (removeCompleted_sub hj).1
    · exact h
  | fg k =>
    unfold Jobs.step
    simp only
    split
    · rename_i hc
      have hno := h.idle (by rw [hc]; simp)
      have hno' : NoFg (removeCompleted s.alive s.jobs) := fun j hj => hno j (removeCompleted_sub hj).1
      unfold jobOp
      split
      · exact ⟨removeCompleted_nodup h.nodup, by simp, hno'.one, by simp⟩
      · rename_i j hj
        refine ⟨?_, by simp, ?_, by simp⟩
        · simp only
          rw [update_pids _ _ fgJob_pid]; exact removeCompleted_nodup h.nodup
        · intro a ha b hb e1 e2
          have key : ∀ a, a ∈ update j.pid fgJob (removeCompleted s.alive s.jobs) → a.state = .foreground →
              a.pid = j.pid := by
            intro a ha e
            rcases mem_update ha with c | ⟨x, _, c1, c2⟩
            · exact absurd e (hno' a c.1)
            · rw [c2, fgJob_pid]; exact c1
          rw [key a ha e1, key b hb e2]
    · exact h
  | bg k =>
    unfold Jobs.step
    simp only
    split
    · rename_i hc
      have hno := h.idle (by rw [hc]; simp)
      have hno' : NoFg (removeCompleted s.alive s.jobs) := fun j hj => hno j (removeCompleted_sub hj).1
      unfold jobOp
      split
      · exact ⟨removeCompleted_nodup h.nodup, by simp, hno'.one, by simp⟩
      · rename_i j hj
        have hno2 : NoFg (update j.pid bgJob (removeCompleted s.alive s.jobs)) := by
          intro a ha e
          rcases mem_update ha with c | ⟨x, _, _, c2⟩
          · exact hno' a c.1 e
          · rw [c2] at e
            rcases bgJob_state x with d | d <;> rw [d] at e <;> cases e
        refine ⟨?_, by simp, hno2.one, by simp⟩
        simp only
        rw [update_pids _ _ bgJob_pid]; exact removeCompleted_nodup h.nodup
    · exact h
  | wait =>
    unfold Jobs.step
    simp only
    split
    · rename_i hc
      refine ⟨by simp only; rw [scan_pids]; exact h.nodup, ?_, ?_, ?_⟩
      · intro hw
        simp only at hw ⊢
        split at hw
        · rename_i hn; exact (scan_none hn).2
        · exact absurd rfl hw
      · intro a ha b hb e1 e2
        exact h.one a (scan_fg ha e1) b (scan_fg hb e2) e1 e2
      · intro j hj
        simp only at hj
        split at hj <;> cases hj
    · exact h
  | exit p => exact h.keep rfl rfl (fun _ hj _ => hj)
  | ctrlC how =>
    show Inv (ctrlC s how)
    unfold ctrlC
    split
    · exact h.keep (scan_pids _ _) rfl (fun j hj e => scan_fg hj e)
    · refine h.keep (by simp only; rw [update_pids _ _ (killJob_pid how), scan_pids]) rfl ?_
      intro j hj e
      rcases mem_update hj with c | ⟨x, _, _, c2⟩
      · exact scan_fg c.1 e
      · rw [c2, killJob_state] at e; cases e
  | ctrlZ =>
    show Inv (ctrlZ s)
    unfold ctrlZ
    split
    · exact h.keep (scan_pids _ _) rfl (fun j hj e => scan_fg hj e)
    · refine h.keep (by simp only; rw [update_pids _ _ pauseJob_pid, scan_pids]) rfl ?_
      intro j hj e
      rcases mem_update hj with c | ⟨x, _, _, c2⟩
      · exact scan_fg c.1 e
      · rw [c2] at e
        rcases pauseJob_state x with d | d <;> rw [d] at e <;> cases e

theorem Inv.init : Inv Jobs.init := by
  constructor <;> simp [Jobs.init, NoFg]

theorem Inv.run (evs : List Ev) : Inv (run Jobs.init evs) := by
  suffices h : ∀ s, Inv s → Inv (Jobs.run s evs) from h _ Inv.init
  induction evs with
  | nil => intro s h; exact h
  | cons e es ih => intro s h; exact ih _ (h.step e)

/-! ## The property -/

/-- **C45**. At every moment at most one job is in the foreground, and none while the shell reads a command. -/
theorem C45_one_foreground (evs : List Ev) (i k : Nat) (j j' : Job)
    (h1 : (run init evs).jobs[i]? = some j) (h2 : (run init evs).jobs[k]? = some j')
    (f1 : j.state = .foreground) (f2 : j'.state = .foreground) :
    i = k ∧ (run init evs).pc = .waiting := by
  have hi := Inv.run evs
  generalize run init evs = s at h1 h2 hi
  have hp := hi.one j (List.mem_of_getElem? h1) j' (List.mem_of_getElem? h2) f1 f2
  refine ⟨?_, ?_⟩
  · have e1 : (s.jobs.map (·.pid))[i]? = some j.pid := by rw [List.getElem?_map, h1]; rfl
    have e2 : (s.jobs.map (·.pid))[k]? = some j.pid := by rw [List.getElem?_map, h2, hp]; rfl
    obtain ⟨l1, e1⟩ := List.getElem?_eq_some_iff.mp e1
    obtain ⟨l2, e2⟩ := List.getElem?_eq_some_iff.mp e2
    have := List.pairwise_iff_getElem.mp hi.nodup
    rcases Nat.lt_trichotomy i k with c | c | c
    · exact absurd (e1.trans e2.symm) (this i k l1 l2 c)
    · exact c
    · exact absurd (e2.trans e1.symm) (this k i l2 l1 c)
  · cases hpc : s.pc with
    | waiting => rfl
    | ready => exact absurd f1 (hi.idle (by rw [hpc]; simp) j (List.mem_of_getElem? h1))
    | spawned x => exact absurd f1 (hi.idle (by rw [hpc]; simp) j (List.mem_of_getElem? h1))

/-- **C45**. A dead job stays dead: whatever happens next, it is dead or not listed any more. -/
theorem C45_dead_stays (evs : List Ev) (e : Ev) (j : Job) (hj : j ∈ (run init evs).jobs) (hd : j.state = .dead)
    (j' : Job) (hj' : j' ∈ (step (run init evs) e).jobs) (hp : j'.pid = j.pid) : j'.state = .dead := by
  have hi := Inv.run evs
  generalize run init evs = s at hj hj' hi
  have huniq : ∀ k ∈ s.jobs, k.pid = j.pid → k = j := by
    intro k hk hkp
    obtain ⟨a, ha⟩ := List.getElem?_of_mem hk
    obtain ⟨b, hb⟩ := List.getElem?_of_mem hj
    have e1 : (s.jobs.map (·.pid))[a]? = some j.pid := by rw [List.getElem?_map, ha, ← hkp]; rfl
    have e2 : (s.jobs.map (·.pid))[b]? = some j.pid := by rw [List.getElem?_map, hb]; rfl
    obtain ⟨l1, e1⟩ := List.getElem?_eq_some_iff.mp e1
    obtain ⟨l2, e2⟩ := List.getElem?_eq_some_iff.mp e2
    have := List.pairwise_iff_getElem.mp hi.nodup
    have hab : a = b := by
      rcases Nat.lt_trichotomy a b with c | c | c
      · exact absurd (e1.trans e2.symm) (this a b l1 l2 c)
      · exact c
      · exact absurd (e2.trans e1.symm) (this b a l2 l1 c)
    rw [hab, hb] at ha; cases ha; rfl
  have base : ∀ k ∈ s.jobs, k.pid = j.pid → k.state = .dead := fun k hk hkp => by rw [huniq k hk hkp]; exact hd
  have hscan : ∀ k ∈ (scan s.alive s.jobs).1, k.pid = j.pid → k.state = .dead := by
    intro k hk hkp
    rcases mem_scan hk with c | ⟨x, _, c, _⟩
    · exact base k c hkp
    · rw [c]
  have hrem : ∀ k ∈ removeCompleted s.alive s.jobs, k.pid = j.pid → k.state = .dead :=
    fun k hk hkp => base k (removeCompleted_sub hk).1 hkp
  have hupd : ∀ (js : List Job) (p : Pid) (f : Job → Job), (∀ x, x.state = .dead → (f x).state = .dead) →
      (∀ x, (f x).pid = x.pid) → (∀ k ∈ js, k.pid = j.pid → k.state = .dead) →
      j' ∈ update p f js → j'.state = .dead := by
    intro js p f hf hfp hjs hm
    rcases mem_update hm with c | ⟨x, hx, _, c⟩
    · exact hjs j' c.1 hp
    · rw [c]; exact hf x (hjs x hx (by rw [← hfp x, ← c]; exact hp))
  have hjobop : ∀ f cont k, (∀ x, x.state = .dead → (f x).state = .dead) → (∀ x, (f x).pid = x.pid) →
      j' ∈ (jobOp s f cont k).jobs → j'.state = .dead := by
    intro f cont k hf hfp hm
    unfold jobOp at hm
    split at hm
    · exact hrem j' hm hp
    · exact hupd _ _ f hf hfp hrem hm
  cases e with
  | spawn p =>
    unfold step at hj'
    simp only at hj'
    split at hj' <;> exact base j' hj' hp
  | append =>
    unfold step at hj'
    simp only at hj'
    split at hj'
    · rename_i x hpc
      simp only [List.mem_append, List.mem_singleton] at hj'
      rcases hj' with c | rfl
      · exact base j' c hp
      · exact absurd (List.mem_map.mpr ⟨j, hj, hp.symm⟩) (hi.spawned j' hpc).1
    · exact base j' hj' hp
  | jobsCmd =>
    unfold step at hj'
    simp only at hj'
    split at hj'
    · exact hrem j' hj' hp
    · exact base j' hj' hp
  | fg k =>
    unfold step at hj'
    simp only at hj'
    split at hj'
    · exact hjobop fgJob _ k (fun x hx => by simp [fgJob, hx]) fgJob_pid hj'
    · exact base j' hj' hp
  | bg k =>
    unfold step at hj'
    simp only at hj'
    split at hj'
    · exact hjobop bgJob _ k (fun x hx => by simp [bgJob, hx]) bgJob_pid hj'
    · exact base j' hj' hp
  | wait =>
    unfold step at hj'
    simp only at hj'
    split at hj'
    · exact hscan j' hj' hp
    · exact base j' hj' hp
  | exit p => exact base j' hj' hp
  | ctrlC how =>
    change j' ∈ (ctrlC s how).jobs at hj'
    unfold ctrlC at hj'
    split at hj'
    · exact hscan j' hj' hp
    · exact hupd _ _ _ (fun x _ => killJob_state how x) (killJob_pid how) hscan hj'
  | ctrlZ =>
    change j' ∈ (ctrlZ s).jobs at hj'
    unfold ctrlZ at hj'
    split at hj'
    · exact hscan j' hj' hp
    · exact hupd _ _ _ (fun x hx => by simp [pauseJob, hx]) pauseJob_pid hscan hj'

/-- **C45**. The commands `jobs`, `fg` and `bg` remove finished and killed jobs from the list: it then consists of exactly the jobs
whose process is running or paused, in the same order. -/
theorem C45_removed (s : Sys) (h : s.pc = .ready) (c : Ev) (hc : c = .jobsCmd ∨ (∃ k, c = .fg k) ∨ ∃ k, c = .bg k) :
    (step s c).jobs.map (·.pid) = (s.jobs.filter fun j => j.proc && s.alive j.pid).map (·.pid) := by
  have hop : ∀ f cont k, (∀ x, (f x).pid = x.pid) → (jobOp s f cont k).jobs.map (·.pid) =
      (s.jobs.filter fun j => j.proc && s.alive j.pid).map (·.pid) := by
    intro f cont k hf
    unfold jobOp
    split
    · rfl
    · simp only; rw [update_pids _ _ hf]; rfl
  rcases hc with rfl | ⟨k, rfl⟩ | ⟨k, rfl⟩
  · simp [step, h, removeCompleted]
  · simp only [step, h, if_true]; exact hop _ _ _ fgJob_pid
  · simp only [step, h, if_true]; exact hop _ _ _ bgJob_pid

/-- The same job, at another place. -/
theorem pid_inj {js : List Job} (h : (js.map (·.pid)).Nodup) {i k : Nat} {a b : Job} (h1 : js[i]? = some a)
    (h2 : js[k]? = some b) (hp : a.pid = b.pid) : i = k := by
  have e1 : (js.map (·.pid))[i]? = some a.pid := by rw [List.getElem?_map, h1]; rfl
  have e2 : (js.map (·.pid))[k]? = some a.pid := by rw [List.getElem?_map, h2, hp]; rfl
  obtain ⟨l1, e1⟩ := List.getElem?_eq_some_iff.mp e1
  obtain ⟨l2, e2⟩ := List.getElem?_eq_some_iff.mp e2
  have := List.pairwise_iff_getElem.mp h
  rcases Nat.lt_trichotomy i k with c | c | c
  · exact absurd (e1.trans e2.symm) (this i k l1 l2 c)
  · exact c
  · exact absurd (e2.trans e1.symm) (this k i l2 l1 c)

theorem getElem?_update {js : List Job} (h : (js.map (·.pid)).Nodup) {k : Nat} {j : Job} (hk : js[k]? = some j)
    (f : Job → Job) (i : Nat) : (update j.pid f js)[i]? = if i = k then some (f j) else js[i]? := by
  unfold update
  rw [List.getElem?_map]
  by_cases hi : i = k
  · subst hi; simp [hk]
  · rw [if_neg hi]
    cases e : js[i]? with
    | none => rfl
    | some a =>
      have : a.pid ≠ j.pid := fun c => hi (pid_inj h e hk c)
      simp [this]

/-- **C45**. `fg k` and `bg k` act on the job with number `k` in the list of the jobs that are still running, and on no other: it
is brought to the foreground (or background) and continued if it was paused. -/
theorem C45_acts_only (evs : List Ev) (k : Nat) (h : (run init evs).pc = .ready) (toFg : Bool) (i : Nat) :
    ((step (run init evs) (if toFg then .fg k else .bg k)).jobs)[i]? =
      (((run init evs).jobs.filter fun j => j.proc && (run init evs).alive j.pid)[i]?).map fun j =>
        if i = k ∧ j.state ≠ .dead then { j with state := if toFg then .foreground else .background } else j := by
  have hi := Inv.run evs
  generalize run init evs = s at h hi
  have hop : ∀ f cont, (jobOp s f cont k).jobs[i]? =
      ((s.jobs.filter fun j => j.proc && s.alive j.pid)[i]?).map fun j => if i = k then f j else j := by
    intro f cont
    unfold jobOp
    split
    · rename_i e
      show (removeCompleted s.alive s.jobs)[i]? = _
      rw [show (s.jobs.filter fun j => j.proc && s.alive j.pid) = removeCompleted s.alive s.jobs from rfl]
      by_cases hik : i = k
      · rw [hik, e]; rfl
      · simp [hik]
    · rename_i j e
      simp only
      rw [getElem?_update (removeCompleted_nodup hi.nodup) e]
      rw [show (s.jobs.filter fun j => j.proc && s.alive j.pid) = removeCompleted s.alive s.jobs from rfl]
      by_cases hik : i = k
      · rw [hik, e]; simp
      · simp [hik]
  cases toFg with
  | true =>
    simp only [if_true, step, h]
    rw [hop]
    congr 1
    funext j
    unfold fgJob
    by_cases h1 : i = k <;> by_cases h2 : j.state = .dead <;> simp [h1, h2]
  | false =>
    simp only [Bool.false_eq_true, if_false, step, h, if_true]
    rw [hop]
    congr 1
    funext j
    unfold bgJob
    by_cases h1 : i = k <;> by_cases h2 : j.state = .dead <;> simp [h1, h2]

/-- **C45**. The shell goes on to read a command exactly when no running job is in the foreground. -/
theorem C45_prompt (s : Sys) (h : s.pc = .waiting) :
    (step s .wait).pc = .ready ↔ ∀ j ∈ s.jobs, j.state = .foreground → (j.proc && s.alive j.pid) = false := by
  have hsc : (scan s.alive s.jobs).2 = none ↔
      ∀ j ∈ s.jobs, j.state = .foreground → (j.proc && s.alive j.pid) = false := by
    generalize s.jobs = js
    induction js with
    | nil => simp [scan]
    | cons j js ih =>
      unfold scan
      rcases checkAlive_cases s.alive j with ⟨c1, c2, c3⟩ | ⟨c1, c2⟩
      · by_cases hf : j.state = .foreground
        · rw [c1, if_pos hf]
          simp [hf, c2, c3]
        · rw [c1, if_neg hf]
          simp only [ih, List.forall_mem_cons, hf, false_implies, true_and]
      · rw [c1, if_neg (by simp)]
        simp only [ih, List.forall_mem_cons, c2, implies_true, true_and]
  simp only [step, h, if_true]
  rw [← hsc]
  constructor
  · intro hx
    split at hx
    · assumption
    · cases hx
  · intro hx; rw [if_pos hx]

/-- **C45**. Ctrl-C kills the foreground job, if there is one, and changes no other job's state (other than noticing that it is
dead). -/
theorem C45_ctrlC (evs : List Ev) (how : Kill) (i : Nat) (j : Job) (hj : (run init evs).jobs[i]? = some j) :
    ∃ j', (step (run init evs) (.ctrlC how)).jobs[i]? = some j' ∧ j'.pid = j.pid ∧
      ((j.state = .foreground → j'.state = .dead) ∧
       (j.state ≠ .foreground → j'.state = j.state ∨
          (j'.state = .dead ∧ (j.proc && (run init evs).alive j.pid) = false))) := by
  have hi := Inv.run evs
  generalize run init evs = s at hj hi
  have hsc : ∃ j1, (scan s.alive s.jobs).1[i]? = some j1 ∧ (j1 = j ∨
      (j1 = { j with state := .dead, proc := false } ∧ (j.proc && s.alive j.pid) = false)) := by
    clear hi
    revert i
    generalize s.jobs = js
    induction js with
    | nil => intro i hj; simp at hj
    | cons x js ih =>
      intro i hj
      cases i with
      | zero =>
        simp only [List.getElem?_cons_zero, Option.some.injEq] at hj
        subst hj
        have hx : checkAlive s.alive x = x ∨ (checkAlive s.alive x = { x with state := .dead, proc := false } ∧
            (x.proc && s.alive x.pid) = false) := by
          rcases checkAlive_cases s.alive x with c | c
          · left; exact c.1
          · right; exact c
        refine ⟨checkAlive s.alive x, ?_, hx⟩
        unfold scan
        split <;> rfl
      | succ i =>
        simp only [List.getElem?_cons_succ] at hj
        unfold scan
        split
        · exact ⟨j, by simpa using hj, Or.inl rfl⟩
        · simpa using ih i hj
  have hnd : ((scan s.alive s.jobs).1.map (·.pid)).Nodup := by rw [scan_pids]; exact hi.nodup
  obtain ⟨j1, h1, h2⟩ := hsc
  have hj1p : j1.pid = j.pid := by rcases h2 with rfl | ⟨rfl, _⟩ <;> rfl
  show ∃ j', (ctrlC s how).jobs[i]? = some j' ∧ _
  unfold ctrlC
  split
  · rename_i hn
    refine ⟨j1, h1, hj1p, ?_, ?_⟩
    · intro hf
      rcases h2 with rfl | ⟨rfl, _⟩
      · exact absurd hf ((scan_none hn).2 _ (List.mem_of_getElem? h1))
      · rfl
    · intro _
      rcases h2 with rfl | ⟨rfl, h⟩
      · left; rfl
      · right; exact ⟨rfl, h⟩
  · rename_i p hp
    obtain ⟨k, hk1, hk2, hk3, _, hk5, _⟩ := scan_some hp
    obtain ⟨m, hm⟩ := List.getElem?_of_mem hk1
    simp only
    rw [← hk2, getElem?_update hnd hm]
    by_cases him : i = m
    · subst him
      rw [h1] at hm; cases hm
      refine ⟨killJob how j1, by simp, by rw [killJob_pid]; exact hj1p, fun _ => killJob_state how j1, ?_⟩
      intro hne
      rcases h2 with rfl | ⟨rfl, h⟩
      · exact absurd hk3 hne
      · cases hk3
    · rw [if_neg him]
      refine ⟨j1, h1, hj1p, ?_, ?_⟩
      · intro hf
        rcases h2 with rfl | ⟨rfl, _⟩
        · have : j1.pid = k.pid := hi.one j1 (List.mem_of_getElem? hj) k hk5 hf hk3
          exact absurd (pid_inj hnd h1 hm this) him
        · rfl
      · intro _
        rcases h2 with rfl | ⟨rfl, h⟩
        · left; rfl
        · right; exact ⟨rfl, h⟩

/-! ## What is shown is what is -/

/-- In the history `evs`, Ctrl-Z is not pressed between the start of a process and its entry into the list of jobs. -/
def NoEarlyCtrlZ (evs : List Ev) : Prop :=
  ∀ pre post, evs = pre ++ .ctrlZ :: post → ∀ j, (run init pre).pc ≠ .spawned j

structure Truth (s : Sys) : Prop where
  jobs : ∀ j ∈ s.jobs, j.state ≠ .dead → s.alive j.pid = true → (s.stopped j.pid = true ↔ j.state = .paused)
  spawned : ∀ j, s.pc = .spawned j → s.alive j.pid = true → s.stopped j.pid = false

theorem set_ne {f : Pid → Bool} {p q : Pid} {b : Bool} (h : q ≠ p) : set f p b q = f q := by
  unfold set; rw [if_neg h]

theorem set_eq {f : Pid → Bool} {p : Pid} {b : Bool} : set f p b p = b := by unfold set; simp

theorem set_false_le {f : Pid → Bool} {p q : Pid} (h : set f p false q = true) : f q = true := by
  unfold set at h; split at h
  · cases h
  · exact h

theorem Truth.step {s : Sys} (ht : Truth s) (hi : Inv s) (e : Ev) (he : e = .ctrlZ → ∀ j, s.pc ≠ .spawned j) :
    Truth (step s e) := by
  have hscan : ∀ j ∈ (scan s.alive s.jobs).1, j.state ≠ .dead → s.alive j.pid = true →
      (s.stopped j.pid = true ↔ j.state = .paused) := by
    intro j hj hd ha
    rcases mem_scan hj with c | ⟨x, _, c, _⟩
    · exact ht.jobs j c hd ha
    · rw [c] at hd; exact absurd rfl hd
  have hrem : ∀ j ∈ removeCompleted s.alive s.jobs, j.state ≠ .dead → s.alive j.pid = true →
      (s.stopped j.pid = true ↔ j.state = .paused) := fun j hj hd ha => ht.jobs j (removeCompleted_sub hj).1 hd ha
  cases e with
  | spawn p =>
    unfold Jobs.step
    simp only
    split
    · rename_i hc
      refine ⟨?_, ?_⟩
      · intro j hj hd ha
        have hne : j.pid ≠ p := fun c => hc.2 (List.mem_map.mpr ⟨j, hj, c⟩)
        simp only at ha ⊢
        rw [set_ne hne] at ha ⊢
        exact ht.jobs j hj hd ha
      · intro j hj _
        cases hj
        exact set_eq
    · exact ht
  | append =>
    unfold Jobs.step
    simp only
    split
    · rename_i j hpc
      refine ⟨?_, by simp⟩
      intro k hk hd ha
      simp only [List.mem_append, List.mem_singleton] at hk
      rcases hk with hk | rfl
      · exact ht.jobs k hk hd ha
      · simp only at ha ⊢
        rw [ht.spawned k hpc ha, (hi.spawned k hpc).2]; simp
    · exact ht
  | jobsCmd =>
    unfold Jobs.step
    simp only
    split
    · exact ⟨hrem, by simp⟩
    · exact ht
  | fg k =>
    unfold Jobs.step
    simp only
    split
    · unfold jobOp
      split
      · exact ⟨hrem, by simp⟩
      · rename_i x hx
        have hxm := List.mem_of_getElem? hx
        refine ⟨?_, by simp⟩
        intro j hj hd ha
        simp only at hj ha ⊢
        rcases mem_update hj with ⟨c1, c2⟩ | ⟨y, hy, c1, c2⟩
        · have : (if fgCont x.state then set s.stopped x.pid false else s.stopped) j.pid = s.stopped j.pid := by
            split
            · exact set_ne c2
            · rfl
          rw [this]; exact hrem j c1 hd ha
        · have hyx : y = x := by
            obtain ⟨m, hm⟩ := List.getElem?_of_mem hy
            have := pid_inj (removeCompleted_nodup hi.nodup) hm hx c1
            rw [this, hx] at hm; cases hm; rfl
          subst hyx
          have hjp : j.pid = y.pid := by rw [c2, fgJob_pid]
          have hyd : y.state ≠ .dead := by intro c; rw [c2] at hd; simp [fgJob, c] at hd
          have hjs : j.state = .foreground := by rw [c2]; simp [fgJob, hyd]
          rw [hjp, hjs]
          rw [hjp] at ha
          by_cases hp : y.state = .paused
          · simp [fgCont, hp, set_eq]
          · have := hrem y hxm hyd ha
            simp [fgCont, hp]
            cases hs : s.stopped y.pid with
            | false => rfl
            | true => exact absurd (this.mp hs) hp
    · exact ht
  | bg k =>
    unfold Jobs.step
    simp only
    split
    · unfold jobOp
      split
      · exact ⟨hrem, by simp⟩
      · rename_i x hx
        refine ⟨?_, by simp⟩
        intro j hj hd ha
        simp only at hj ha ⊢
        rcases mem_update hj with ⟨c1, c2⟩ | ⟨y, hy, c1, c2⟩
        · have : (if bgCont x.state then set s.stopped x.pid false else s.stopped) j.pid = s.stopped j.pid := by
            split
            · exact set_ne c2
            · rfl
          rw [this]; exact hrem j c1 hd ha
        · have hyx : y = x := by
            obtain ⟨m, hm⟩ := List.getElem?_of_mem hy
            have := pid_inj (removeCompleted_nodup hi.nodup) hm hx c1
            rw [this, hx] at hm; cases hm; rfl
          subst hyx
          have hjp : j.pid = y.pid := by rw [c2, bgJob_pid]
          have hyd : y.state ≠ .dead := by intro c; rw [c2] at hd; simp [bgJob, c] at hd
          have hjs : j.state = .background := by rw [c2]; simp [bgJob, hyd]
          rw [hjp, hjs]
          simp [bgCont, hyd, set_eq]
    · exact ht
  | wait =>
    unfold Jobs.step
    simp only
    split
    · refine ⟨hscan, ?_⟩
      intro j hj
      simp only at hj
      split at hj <;> cases hj
    · exact ht
  | exit p =>
    refine ⟨?_, ?_⟩
    · intro j hj hd ha
      exact ht.jobs j hj hd (set_false_le ha)
    · intro j hj ha
      exact ht.spawned j hj (set_false_le ha)
  | ctrlC how =>
    show Truth (ctrlC s how)
    unfold ctrlC
    split
    · exact ⟨hscan, ht.spawned⟩
    · rename_i p _
      have hle : ∀ q, (if how = .unable then s.alive else set s.alive p false) q = true → s.alive q = true := by
        intro q hq
        split at hq
        · exact hq
        · exact set_false_le hq
      refine ⟨?_, fun j hj ha => ht.spawned j hj (hle _ ha)⟩
      intro j hj hd ha
      rcases mem_update hj with ⟨c1, _⟩ | ⟨y, _, _, c2⟩
      · exact hscan j c1 hd (hle _ ha)
      · rw [c2, killJob_state] at hd; exact absurd rfl hd
  | ctrlZ =>
    have hns := he rfl
    show Truth (ctrlZ s)
    -- after the handler, no job is in the foreground and pids are unique
    have key : ∀ js : List Job, (js.map (·.pid)).Nodup → NoFg js →
        ∀ j ∈ js, j.state ≠ .dead → (contBackground js (fun _ => true) j.pid = true ↔ j.state = .paused) := by
      intro js hnd hno j hj hd
      unfold contBackground
      by_cases hb : j.state = .background
      · have : js.any (fun k => k.pid == j.pid && k.state == .background) = true := by
          rw [List.any_eq_true]; exact ⟨j, hj, by simp [hb]⟩
        simp [this, hb]
      · have hp : j.state = .paused := by
          cases hs : j.state with
          | foreground => exact absurd hs (hno j hj)
          | background => exact absurd hs hb
          | paused => rfl
          | dead => exact absurd hs hd
        have : js.any (fun k => k.pid == j.pid && k.state == .background) = false := by
          rw [List.any_eq_false]
          intro k hk
          simp only [Bool.and_eq_true, beq_iff_eq, not_and]
          intro hkp hkb
          obtain ⟨a, ha⟩ := List.getElem?_of_mem hk
          obtain ⟨b, hb'⟩ := List.getElem?_of_mem hj
          have := pid_inj hnd ha hb' hkp
          rw [this, hb'] at ha; cases ha
          exact hb hkb
        rw [this]
        simp [hp]
    unfold ctrlZ
    split
    · rename_i hn
      refine ⟨fun j hj hd _ => key _ (by rw [scan_pids]; exact hi.nodup) (scan_none hn).2 j hj hd,
        fun j hj => absurd hj (hns j)⟩
    · rename_i p hp
      obtain ⟨k, hk1, hk2, hk3, _, hk5, _⟩ := scan_some hp
      refine ⟨fun j hj hd _ => key _ (by rw [update_pids _ _ pauseJob_pid, scan_pids]; exact hi.nodup) ?_ j hj hd,
        fun j hj => absurd hj (hns j)⟩
      intro j hj hf
      rcases mem_update hj with ⟨c1, c2⟩ | ⟨y, _, _, c2⟩
      · have := hi.one j (scan_fg c1 hf) k hk5 hf hk3
        rw [hk2] at this
        exact c2 this
      · rw [c2] at hf
        rcases pauseJob_state y with d | d <;> rw [d] at hf <;> cases hf

/-- **C45**. The state shown for a job is the true one: the process of a job that is listed and running is stopped exactly if the job is
shown as paused. Missing: Ctrl-Z pressed between the start of a process and its entry into the list of jobs (`C45_false_spawn`). -/
theorem C45_state_partial (evs : List Ev) (h : NoEarlyCtrlZ evs) (j : Job) (hj : j ∈ (run init evs).jobs)
    (hd : j.state ≠ .dead) (ha : (run init evs).alive j.pid = true) :
    (run init evs).stopped j.pid = true ↔ j.state = .paused := by
  have hrun : ∀ evs, NoEarlyCtrlZ evs → Truth (run init evs) := by
    intro evs
    suffices hs : ∀ (s : Sys) (done : List Ev), s = run init done → Inv s → Truth s → NoEarlyCtrlZ (done ++ evs) →
        Truth (run s evs) from
      fun h => hs init [] rfl Inv.init ⟨by simp [init], by simp [init]⟩ h
    induction evs with
    | nil => intro s _ _ _ ht _; exact ht
    | cons e es ih =>
      intro s done hs hi ht hn
      refine ih (step s e) (done ++ [e]) ?_ (hi.step e) (ht.step hi e ?_) (by simpa using hn)
      · unfold run; rw [List.foldl_append, hs]; rfl
      · intro he j
        rw [hs]
        exact hn done es (by rw [he]) j
  exact (hrun evs h).jobs j hj hd ha

/-! ### Non-vacuity -/

/-- Two jobs are started and paused; the first continues in the background; Ctrl-Z is pressed again while the second is in
the foreground. -/
def exEvs : List Ev :=
  [.spawn 11, .append, .ctrlZ, .wait, .bg 0, .wait, .spawn 12, .append, .wait, .ctrlZ, .wait]

example : (run init exEvs).jobs = [⟨11, .background, true⟩, ⟨12, .paused, true⟩] ∧ (run init exEvs).pc = .ready ∧
    (run init exEvs).stopped 11 = false ∧ (run init exEvs).stopped 12 = true ∧
    (run init exEvs).alive 11 = true := by decide +kernel

/-- A job in the foreground, killed by Ctrl-C. -/
example : (run init [.spawn 11, .append]).jobs = [⟨11, .foreground, true⟩] ∧
    (run init [.spawn 11, .append, .ctrlC .term]).jobs = [⟨11, .dead, true⟩] ∧
    (run init [.spawn 11, .append, .ctrlC .term, .wait]).jobs = [⟨11, .dead, false⟩] ∧
    (run init [.spawn 11, .append, .ctrlC .term, .wait]).pc = .ready ∧
    (run init [.spawn 11, .append, .ctrlC .term, .wait, .jobsCmd]).jobs = [] := by decide +kernel

theorem noEarly_nil : NoEarlyCtrlZ [.spawn 11, .append, .ctrlZ] := by
  intro pre post h j
  rcases pre with _ | ⟨a, _ | ⟨b, _ | ⟨c, pre⟩⟩⟩
  · simp at h
  · simp at h
  · simp only [List.cons_append, List.nil_append, List.cons.injEq] at h
    rw [← h.1, ← h.2.1]
    have : (run init [.spawn 11, .append]).pc = .waiting := by decide +kernel
    rw [this]; simp
  · simp only [List.cons_append, List.cons.injEq] at h
    have := h.2.2.2
    simp at this

example : NoEarlyCtrlZ [.spawn 11, .append, .ctrlZ] ∧ ⟨11, .paused, true⟩ ∈ (run init [.spawn 11, .append, .ctrlZ]).jobs :=
  ⟨noEarly_nil, by decide +kernel⟩

/-! ### Where it fails -/

/-- **C45** is false of the code. Job 0 of the list that was shown (pid 11) ends before the user brings job 0 to the foreground: another
job is. -/
theorem C45_false_number : ∃ evs : List Ev,
    (run init evs).jobs = [⟨11, .paused, true⟩, ⟨12, .paused, true⟩] ∧ (run init evs).pc = .ready ∧
    (run init (evs ++ [.exit 11, .fg 0])).jobs = [⟨12, .foreground, true⟩] :=
  ⟨[.spawn 11, .append, .ctrlZ, .wait, .spawn 12, .append, .ctrlZ, .wait, .jobsCmd, .wait], by decide +kernel⟩

/-- Ctrl-Z directly after a process has been started: the job is stopped, but shown as running in the foreground, and the shell
waits for it. -/
theorem C45_false_spawn : ∃ evs : List Ev,
    (run init evs).jobs = [⟨11, .foreground, true⟩] ∧ (run init evs).stopped 11 = true ∧
    (run init evs).alive 11 = true ∧ (step (run init evs) .wait).pc = .waiting :=
  ⟨[.spawn 11, .ctrlZ, .append], by decide +kernel⟩

/-- Ctrl-C directly after a process has been started is lost. -/
theorem C45_false_ctrlC : ∃ evs : List Ev,
    (run init evs).jobs = [⟨11, .foreground, true⟩] ∧ (run init evs).alive 11 = true ∧
    evs = [.spawn 11, .ctrlC .term, .append] :=
  ⟨_, by decide +kernel, by decide +kernel, rfl⟩

end Marcel.Jobs
