import Verif.Model.Fork
/-! # C56: `fork` passes on what its workers emit -/

namespace Marcel.Fork

/-! ## Specification -/

/-- What has been sent for worker `i`, in order. -/
def sentFor {α : Type} (i : Nat) (out : List (Nat × Down α)) : List (Down α) := (out.filter fun x => x.1 == i).map (·.2)

/-- No child is killed. -/
def NoKill (ls : List Label) : Prop := ∀ i, Label.die i ∉ ls

/-- No `poll` times out in the run: whenever the main thread looks at a worker, this has written something, or has ended. -/
def Quick {α : Type} (cap : Nat) : List Label → St α → Prop
  | [], _ => True
  | l :: ls, s => (l = .parent → s.timesOut = false) ∧ ∀ s', step cap s l = some s' → Quick cap ls s'

/-- The first message of each worker, the second one of each worker, and so on, for workers emitting `m` messages each. -/
def roundRobin {α : Type} (emits : List (List (Ev α))) (m : Nat) : List (Nat × Down α) :=
  (List.range m).flatMap fun j => (List.range emits.length).filterMap fun i => ((emits[i]?.getD [])[j]?).map fun x => (i, Down.item x)

/-! ## Nothing is made up, changed, repeated, or put in another order -/

/-- What is sent for a worker, what is in its pipe, what it has still to write. -/
def all {α : Type} (s : St α) (i : Nat) : List (Down α) :=
  sentFor i s.out ++ (match s.kids[i]? with | some k => (k.pipe ++ k.todo).map Down.item | none => [])

theorem sentFor_append {α : Type} (i : Nat) (a b : List (Nat × Down α)) : sentFor i (a ++ b) = sentFor i a ++ sentFor i b := by
  simp [sentFor]

theorem sentFor_one {α : Type} (i j : Nat) (x : Down α) : sentFor i [(j, x)] = if j = i then [x] else [] := by
  unfold sentFor
  by_cases h : j = i <;> simp [h]

theorem all_onChild {α : Type} {s s' : St α} {i : Nat} {f : Child α → Option (Child α)} (h : onChild s i f = some s')
    (hf : ∀ k k', f k = some k' → (k'.pipe ++ k'.todo) <+: (k.pipe ++ k.todo)) (j : Nat) : all s' j <+: all s j := by
  unfold onChild at h
  split at h
  · rename_i k hk
    rw [Option.map_eq_some_iff] at h
    obtain ⟨k', hk', rfl⟩ := h
    unfold all
    by_cases hj : j = i
    · subst hj
      have hlt : j < s.kids.length := (List.getElem?_eq_some_iff.mp hk).1
      simp only [List.getElem?_set_self hlt, hk]
      exact (List.prefix_append_right_inj _).mpr ((hf k k' hk').map _)
    · simp only [List.getElem?_set_ne (Ne.symm hj)]
      exact List.prefix_rfl
  · cases h

theorem write_all {α : Type} {cap : Nat} (k k' : Child α) (h : k.write cap = some k') : k'.pipe ++ k'.todo = k.pipe ++ k.todo := by
  unfold Child.write at h
  split at h
  · split at h
    · rename_i e; cases h; simp [e]
    · cases h
  · cases h

theorem exit_all {α : Type} (k k' : Child α) (h : k.exit = some k') : k'.pipe ++ k'.todo = k.pipe ++ k.todo := by
  unfold Child.exit at h
  split at h
  · cases h; rfl
  · cases h

theorem die_all {α : Type} (k k' : Child α) (h : k.die = some k') : (k'.pipe ++ k'.todo) <+: (k.pipe ++ k.todo) := by
  unfold Child.die at h
  split at h
  · cases h; simp
  · cases h

theorem all_consume {α : Type} {s : St α} {k : Child α} (hk : s.kids[s.w]? = some k) (j : Nat) : all (consume s k) j = all s j := by
  unfold consume
  split
  · rename_i x rest e
    unfold all
    simp only [sentFor_append, sentFor_one, send]
    by_cases hj : s.w = j
    · subst hj
      have hlt : s.w < s.kids.length := (List.getElem?_eq_some_iff.mp hk).1
      simp [List.getElem?_set_self hlt, hk, e]
    · simp [List.getElem?_set_ne hj, hj]
  · split <;> rfl

theorem all_parent {α : Type} {s s' : St α} (h : parentStep s = some s') (j : Nat) : all s' j = all s j := by
  unfold parentStep at h
  split at h
  · split at h
    · rename_i k hk; cases h; exact all_consume hk j
    · cases h
  · split at h
    · split at h
      · cases h
      · cases h; rfl
    · cases h

theorem all_step {α : Type} {cap : Nat} {s s' : St α} {l : Label} (h : step cap s l = some s') (j : Nat) : all s' j <+: all s j := by
  cases l with
  | write i => exact all_onChild h (fun k k' hk => by rw [write_all k k' hk]; exact List.prefix_rfl) j
  | exit i => exact all_onChild h (fun k k' hk => by rw [exit_all k k' hk]; exact List.prefix_rfl) j
  | die i => exact all_onChild h die_all j
  | parent => rw [all_parent h j]; exact List.prefix_rfl

theorem all_onChild_eq {α : Type} {s s' : St α} {i : Nat} {f : Child α → Option (Child α)} (h : onChild s i f = some s')
    (hf : ∀ k k', f k = some k' → k'.pipe ++ k'.todo = k.pipe ++ k.todo) (j : Nat) : all s' j = all s j := by
  unfold onChild at h
  split at h
  · rename_i k hk
    rw [Option.map_eq_some_iff] at h
    obtain ⟨k', hk', rfl⟩ := h
    unfold all
    by_cases hj : j = i
    · subst hj
      have hlt : j < s.kids.length := (List.getElem?_eq_some_iff.mp hk).1
      simp only [List.getElem?_set_self hlt, hk, hf k k' hk']
    · simp only [List.getElem?_set_ne (Ne.symm hj)]
  · cases h

theorem all_step_eq {α : Type} {cap : Nat} {s s' : St α} {l : Label} (h : step cap s l = some s') (hl : ∀ i, l ≠ .die i) (j : Nat) : all s' j = all s j := by
  cases l with
  | write i => exact all_onChild_eq h (fun k k' hk => write_all k k' hk) j
  | exit i => exact all_onChild_eq h (fun k k' hk => exit_all k k' hk) j
  | die i => exact absurd rfl (hl i)
  | parent => exact all_parent h j

theorem all_start {α : Type} (emits : List (List (Ev α))) (i : Nat) : all (start emits) i = (emits[i]?.getD []).map Down.item := by
  unfold all start
  simp only [sentFor, List.filter_nil, List.map_nil, List.nil_append, List.getElem?_map]
  cases emits[i]? <;> simp

/-- **C56**, for all schedules, also with children being killed: for each worker, what is sent is, in order, the beginning of what it emits. Nothing is
sent twice, and nothing is sent that is not emitted. -/
theorem C56_prefix {α : Type} (cap : Nat) (emits : List (List (Ev α))) (ls : List Label) (s : St α) (h : run cap ls (start emits) = some s) (i : Nat) :
    sentFor i s.out <+: (emits[i]?.getD []).map Down.item := by
  have key : ∀ (ls : List Label) (s0 s : St α), run cap ls s0 = some s → all s i <+: all s0 i := by
    intro ls
    induction ls with
    | nil => intro s0 s h; cases h; exact List.prefix_rfl
    | cons l ls ih =>
      intro s0 s h
      unfold run at h
      split at h
      · rename_i s1 hs; exact (ih s1 s h).trans (all_step hs i)
      · cases h
  rw [← all_start]
  exact (List.prefix_append _ _).trans (key ls _ s h)

theorem run_all {α : Type} {cap : Nat} {ls : List Label} {s0 s : St α} (hk : NoKill ls) (h : run cap ls s0 = some s) (i : Nat) : all s i = all s0 i := by
  induction ls generalizing s0 with
  | nil => cases h; rfl
  | cons l ls ih =>
    unfold run at h
    split at h
    · rename_i s1 hs
      rw [ih (fun i hi => hk i (List.mem_cons_of_mem _ hi)) h, all_step_eq hs (fun i e => hk i (by simp [e])) i]
    · cases h

/-! ## Each worker's messages are sent for that worker -/

theorem kids_length {α : Type} {cap : Nat} {s s' : St α} {l : Label} (h : step cap s l = some s') : s'.kids.length = s.kids.length := by
  have hc : ∀ {i : Nat} {f : Child α → Option (Child α)}, onChild s i f = some s' → s'.kids.length = s.kids.length := by
    intro i f h
    unfold onChild at h
    split at h
    · rw [Option.map_eq_some_iff] at h
      obtain ⟨k', _, rfl⟩ := h
      simp
    · cases h
  cases l with
  | write i => exact hc h
  | exit i => exact hc h
  | die i => exact hc h
  | parent =>
    have h : parentStep s = some s' := h
    unfold parentStep at h
    split at h
    · split at h
      · cases h
        unfold consume
        split
        · simp
        · split <;> rfl
      · cases h
    · split at h
      · split at h
        · cases h
        · cases h; rfl
      · cases h

/-! ## One worker -/

/-- A finished child has nothing left to write. -/
def Ended {α : Type} (s : St α) : Prop := ∀ k ∈ s.kids, k.running = false → k.todo = []

theorem ended_onChild {α : Type} {s s' : St α} {i : Nat} {f : Child α → Option (Child α)} (h : onChild s i f = some s')
    (hf : ∀ k k', (k.running = false → k.todo = []) → f k = some k' → k'.running = false → k'.todo = []) (he : Ended s) : Ended s' := by
  unfold onChild at h
  split at h
  · rename_i k hk
    rw [Option.map_eq_some_iff] at h
    obtain ⟨k', hk', rfl⟩ := h
    intro c hc hr
    simp only at hc
    rcases List.mem_or_eq_of_mem_set hc with hc | rfl
    · exact he c hc hr
    · exact hf k c (he k (List.mem_of_getElem? hk)) hk' hr
  · cases h

theorem ended_step {α : Type} {cap : Nat} {s s' : St α} {l : Label} (h : step cap s l = some s') (he : Ended s) : Ended s' := by
  cases l with
  | write i =>
    refine ended_onChild h ?_ he
    intro k k' _ hk hr
    unfold Child.write at hk
    split at hk
    · rename_i hc
      split at hk
      · cases hk; simp at hc hr; rw [hc.1] at hr; cases hr
      · cases hk
    · cases hk
  | exit i =>
    refine ended_onChild h ?_ he
    intro k k' _ hk _
    unfold Child.exit at hk
    split at hk
    · rename_i hc; cases hk; simp at hc; simpa using hc.2
    · cases hk
  | die i =>
    refine ended_onChild h ?_ he
    intro k k' _ hk _
    unfold Child.die at hk
    split at hk
    · cases hk; rfl
    · cases hk
  | parent =>
    have h : parentStep s = some s' := h
    unfold parentStep at h
    split at h
    · split at h
      · rename_i k hk
        cases h
        unfold consume
        split
        · intro c hc hr
          simp only at hc
          rcases List.mem_or_eq_of_mem_set hc with hc | rfl
          · exact he c hc hr
          · exact he k (List.mem_of_getElem? hk) hr
        · split <;> exact he
      · cases h
    · split at h
      · split at h
        · cases h
        · cases h; exact he
      · cases h

theorem ended_run {α : Type} {cap : Nat} {ls : List Label} {s s' : St α} (h : run cap ls s = some s') (he : Ended s) : Ended s' := by
  induction ls generalizing s with
  | nil => cases h; exact he
  | cons l ls ih =>
    unfold run at h
    split at h
    · rename_i s1 hs; exact ih h (ended_step hs he)
    · cases h

theorem ended_start {α : Type} (emits : List (List (Ev α))) : Ended (start emits) := by
  intro k hk hr
  simp only [start, List.mem_map] at hk
  obtain ⟨l, _, rfl⟩ := hk
  cases hr

/-- With one worker: once the loop has ended, the pipe is at its end. -/
def OneDone {α : Type} (s : St α) : Prop := s.kids.length = 1 ∧ s.w = 0 ∧ (s.completed = 0 ∨ ∃ k, s.kids = [k] ∧ k.pipe = [] ∧ k.running = false)

theorem oneDone_onChild {α : Type} {s s' : St α} {i : Nat} {f : Child α → Option (Child α)} (h : onChild s i f = some s')
    (hf : ∀ k, k.running = false → f k = none) (ho : OneDone s) : OneDone s' := by
  unfold onChild at h
  split at h
  · rename_i k hk
    rw [Option.map_eq_some_iff] at h
    obtain ⟨k', hk', rfl⟩ := h
    obtain ⟨h1, h2, h3⟩ := ho
    refine ⟨by simpa using h1, h2, ?_⟩
    rcases h3 with h3 | ⟨c, hc, _, hr⟩
    · exact .inl h3
    · rw [hc] at hk
      have : k = c := by
        have := List.mem_of_getElem? hk
        simpa using this
      subst this
      rw [hf k hr] at hk'; cases hk'
  · cases h

theorem oneDone_step {α : Type} {cap : Nat} {s s' : St α} {l : Label} (h : step cap s l = some s') (ho : OneDone s) : OneDone s' := by
  cases l with
  | write i => exact oneDone_onChild h (fun k hr => by simp [Child.write, hr]) ho
  | exit i => exact oneDone_onChild h (fun k hr => by simp [Child.exit, hr]) ho
  | die i => exact oneDone_onChild h (fun k hr => by simp [Child.die, hr]) ho
  | parent =>
    obtain ⟨h1, h2, h3⟩ := ho
    have h : parentStep s = some s' := h
    unfold parentStep at h
    split at h
    · rename_i hl
      split at h
      · rename_i k hk
        cases h
        have hz : s.completed = 0 := by simp [St.looping, h1] at hl; exact hl
        have hn : s.next = 0 := by simp [St.next, h1, Nat.mod_one]
        unfold consume
        split
        · exact ⟨by simpa using h1, hn, .inl hz⟩
        · rename_i hp
          split
          · exact ⟨h1, hn, .inl hz⟩
          · rename_i hr
            refine ⟨h1, hn, .inr ⟨k, ?_, hp, by simpa using hr⟩⟩
            simp only
            match hs : s.kids, h1 with
            | [c], _ => rw [hs, h2] at hk; simpa using hk
      · cases h
    · split at h
      · split at h
        · cases h
        · cases h; exact ⟨h1, h2, h3⟩
      · cases h

/-- **C56** for one worker, for all schedules: when `fork` ends, everything the worker emits has been sent. -/
theorem C56_single_partial {α : Type} (cap : Nat) (emit : List (Ev α)) (ls : List Label) (hk : NoKill ls) (s : St α)
    (h : run cap ls (start [emit]) = some s) (hd : s.done = true) : s.out = emit.map fun x => (0, Down.item x) := by
  have key : ∀ (ls : List Label) (s0 s : St α), run cap ls s0 = some s → OneDone s0 → OneDone s := by
    intro ls
    induction ls with
    | nil => intro s0 s h ho; cases h; exact ho
    | cons l ls ih =>
      intro s0 s h ho
      unfold run at h
      split at h
      · rename_i s1 hs; exact ih s1 s h (oneDone_step hs ho)
      · cases h
  obtain ⟨h1, h2, h3⟩ := key ls _ s h ⟨rfl, rfl, .inl rfl⟩
  have he := ended_run h (ended_start _)
  have ha := run_all hk h 0
  rw [all_start] at ha
  rcases h3 with h3 | ⟨k, hks, hp, hr⟩
  · simp [St.done, St.looping, h1, h3] at hd
  · have ht := he k (by simp [hks]) hr
    unfold all at ha
    rw [hks] at ha
    simp only [List.getElem?_cons_zero, hp, ht, List.append_nil, List.map_nil, Option.getD_some] at ha
    -- everything sent is for worker 0
    have hz : ∀ (ls : List Label) (s0 s : St α), run cap ls s0 = some s → OneDone s0 → (∀ x ∈ s0.out, x.1 = 0) → ∀ x ∈ s.out, x.1 = 0 := by
      intro ls
      induction ls with
      | nil => intro s0 s h _ ho; cases h; exact ho
      | cons l ls ih =>
        intro s0 s h hone ho
        unfold run at h
        split at h
        · rename_i s1 hs
          refine ih s1 s h (oneDone_step hs hone) ?_
          have hcd : ∀ {i : Nat} {f : Child α → Option (Child α)}, onChild s0 i f = some s1 → ∀ x ∈ s1.out, x.1 = 0 := by
            intro i f h
            unfold onChild at h
            split at h
            · rw [Option.map_eq_some_iff] at h
              obtain ⟨k', _, rfl⟩ := h
              exact ho
            · cases h
          cases l with
          | write i => exact hcd hs
          | exit i => exact hcd hs
          | die i => exact hcd hs
          | parent =>
            have hs : parentStep s0 = some s1 := hs
            unfold parentStep at hs
            split at hs
            · split at hs
              · cases hs
                unfold consume
                split
                · intro x hx
                  simp only [List.mem_append, List.mem_singleton] at hx
                  rcases hx with hx | rfl
                  · exact ho x hx
                  · exact hone.2.1
                · split <;> exact ho
              · cases hs
            · split at hs
              · split at hs
                · cases hs
                · cases hs; exact ho
              · cases hs
        · cases h
    have hz := hz ls _ s h ⟨rfl, rfl, .inl rfl⟩ (by simp [start])
    have : ∀ l : List (Nat × Down α), (∀ x ∈ l, x.1 = 0) → l = (sentFor 0 l).map fun x => (0, x) := by
      intro l hl
      induction l with
      | nil => rfl
      | cons x l ih =>
        have h0 := hl x (by simp)
        have := ih (fun y hy => hl y (by simp [hy]))
        obtain ⟨a, b⟩ := x
        simp only at h0
        subst h0
        simp only [sentFor, List.filter_cons, BEq.rfl, ↓reduceIte, List.map_cons, List.cons.injEq, true_and]
        exact this
    rw [this s.out hz, ha]
    simp

/-! ## Workers emitting equally many messages, none of them late -/

def cell {α : Type} (emits : List (List (Ev α))) (j i : Nat) : Option (Nat × Down α) := ((emits[i]?.getD [])[j]?).map fun x => (i, Down.item x)

def part {α : Type} (emits : List (List (Ev α))) (j w : Nat) : List (Nat × Down α) := (List.range w).filterMap (cell emits j)

theorem part_succ {α : Type} (emits : List (List (Ev α))) (j w : Nat) : part emits j (w + 1) = part emits j w ++ (cell emits j w).toList := by
  unfold part
  rw [List.range_succ, List.filterMap_append]
  cases h : cell emits j w <;> simp [h]

theorem roundRobin_succ {α : Type} (emits : List (List (Ev α))) (j : Nat) : roundRobin emits (j + 1) = roundRobin emits j ++ part emits j emits.length := by
  unfold roundRobin
  rw [List.range_succ, List.flatMap_append]
  simp only [List.flatMap_cons, List.flatMap_nil, List.append_nil]
  rfl

/-- The main thread is in round `j`. -/
structure Round {α : Type} (emits : List (List (Ev α))) (m : Nat) (s : St α) (j : Nat) : Prop where
  len : s.kids.length = emits.length
  pos : 0 < emits.length
  w : s.w < emits.length
  out : s.out = roundRobin emits j ++ part emits j s.w
  sent : ∀ i, i < emits.length → (sentFor i s.out).length = if i < s.w then min (j + 1) m else min j m
  completed : s.completed = (if j < m then 0 else (j - m) * emits.length + s.w)
  all : ∀ i, all s i = (emits[i]?.getD []).map Down.item
  ended : Ended s

theorem round_parent {α : Type} {emits : List (List (Ev α))} {m : Nat} (hm : ∀ l ∈ emits, l.length = m) {s s' : St α} {j : Nat} (h : parentStep s = some s')
    (hq : s.timesOut = false) (r : Round emits m s j) : ∃ j', Round emits m s' j' := by
  have hall := fun i => (all_parent h i).trans (r.all i)
  have hend : Ended s' := ended_step (cap := 0) (l := .parent) h r.ended
  unfold parentStep at h
  split at h
  · rename_i hl
    split at h
    · rename_i k hk
      cases h
      have hwlt := r.w
      have hge : emits[s.w]? = some emits[s.w] := List.getElem?_eq_getElem r.w
      have hlen : emits[s.w].length = m := hm _ (List.getElem_mem r.w)
      have haw := r.all s.w
      unfold Fork.all at haw
      rw [hk, hge] at haw
      simp only [Option.getD_some] at haw
      have hsl := r.sent s.w r.w
      rw [if_neg (Nat.lt_irrefl _)] at hsl
      have hjm : j ≤ m := by
        have hc := r.completed
        simp only [St.looping, decide_eq_true_eq] at hl
        rw [hc, r.len] at hl
        split at hl
        · omega
        · rcases Nat.lt_or_ge m j with hlt | hge
          · exfalso
            have : emits.length * 1 ≤ emits.length * (j - m) := Nat.mul_le_mul_left _ (by omega)
            rw [Nat.mul_comm (j - m)] at hl
            omega
          · exact hge
      have hmin : min j m = j := by omega
      rw [hmin] at hsl
      have hnext : s.next = if s.w + 1 = emits.length then 0 else s.w + 1 := by
        unfold St.next
        rw [r.len]
        split
        · rename_i e; rw [e, Nat.mod_self]
        · exact Nat.mod_eq_of_lt (by have := r.w; omega)
      unfold consume at hall hend ⊢
      cases hp : k.pipe with
      | cons x rest =>
        simp only [hp] at hall hend haw ⊢
        have hL := congrArg List.length haw
        simp only [List.length_append, List.length_map, List.length_cons] at hL
        have hj : j < m := by omega
        have hx : emits[s.w][j]? = some x := by
          have := congrArg (fun l => l[j]?) haw
          simp only [List.cons_append, List.map_cons, List.getElem?_map] at this
          rw [List.getElem?_append_right (by omega), hsl] at this
          simp only [Nat.sub_self, List.getElem?_cons_zero] at this
          cases he : emits[s.w][j]? with
          | none => rw [he] at this; cases this
          | some y => rw [he] at this; simp only [Option.map_some, Option.some.injEq, Down.item.injEq] at this; rw [this]
        have hcell : cell emits j s.w = some (s.w, Down.item x) := by
          unfold cell; rw [hge, Option.getD_some, hx]; rfl
        have hsent : ∀ i, i < emits.length → (sentFor i (s.out ++ [(s.w, send x)])).length = if i < s.w + 1 then min (j + 1) m else min j m := by
          intro i hi
          rw [sentFor_append, sentFor_one, List.length_append, r.sent i hi]
          by_cases hiw : i = s.w
          · subst hiw; simp; omega
          · rw [if_neg (Ne.symm hiw)]
            by_cases hlt : i < s.w
            · rw [if_pos hlt, if_pos (by omega)]; simp
            · rw [if_neg hlt, if_neg (by omega)]; simp
        have hcomp := r.completed
        rw [if_pos hj] at hcomp
        by_cases he : s.w + 1 = emits.length
        · rw [if_pos he] at hnext
          refine ⟨j + 1, ⟨by simpa using r.len, r.pos, by simp only [hnext]; exact r.pos, ?_, ?_, ?_, hall, hend⟩⟩
          · simp only [hnext]
            rw [roundRobin_succ, ← he, part_succ, hcell, r.out]
            simp [part, send]
          · intro i hi
            simp only [hnext]
            rw [hsent i hi, if_pos (by omega), if_neg (by omega)]
          · simp only [hnext, hcomp]
            split
            · rfl
            · have : j + 1 - m = 0 := by omega
              rw [this]; simp
        · rw [if_neg he] at hnext
          refine ⟨j, ⟨by simpa using r.len, r.pos, by simp only [hnext]; have := r.w; omega, ?_, ?_, ?_, hall, hend⟩⟩
          · simp only [hnext]
            rw [part_succ, hcell, r.out]
            simp [send]
          · intro i hi
            simp only [hnext]
            exact hsent i hi
          · simp only [hcomp, if_pos hj]
      | nil =>
        have hrun : k.running = false := by
          unfold St.timesOut at hq
          rw [hl, hk] at hq
          simpa [hp] using hq
        simp only [hp, hrun] at hall hend haw ⊢
        have htodo := r.ended k (List.mem_of_getElem? hk) hrun
        rw [htodo] at haw
        have hL := congrArg List.length haw
        simp only [List.length_append, List.length_map, List.length_nil] at hL
        have hj : j = m := by omega
        have hcell : cell emits j s.w = none := by
          unfold cell
          rw [hge, Option.getD_some, List.getElem?_eq_none (by omega)]; rfl
        have hcomp := r.completed
        rw [if_neg (by omega), hj, Nat.sub_self, Nat.zero_mul, Nat.zero_add] at hcomp
        by_cases he : s.w + 1 = emits.length
        · rw [if_pos he] at hnext
          refine ⟨j + 1, ⟨r.len, r.pos, by simp only [Bool.false_eq_true, ↓reduceIte, hnext]; exact r.pos, ?_, ?_, ?_, hall, hend⟩⟩
          · simp only [Bool.false_eq_true, ↓reduceIte, hnext]
            rw [roundRobin_succ, ← he, part_succ, hcell, r.out]
            simp [part]
          · intro i hi
            simp only [Bool.false_eq_true, ↓reduceIte, hnext]
            rw [r.sent i hi]
            split <;> simp <;> omega
          · simp only [Bool.false_eq_true, ↓reduceIte, hnext, hcomp]
            rw [if_neg (by omega), hj]
            have : m + 1 - m = 1 := by omega
            rw [this, he]; simp
        · rw [if_neg he] at hnext
          refine ⟨j, ⟨r.len, r.pos, by simp only [Bool.false_eq_true, ↓reduceIte, hnext]; have := r.w; omega, ?_, ?_, ?_, hall, hend⟩⟩
          · simp only [Bool.false_eq_true, ↓reduceIte, hnext]
            rw [part_succ, hcell, r.out]
            simp
          · intro i hi
            simp only [Bool.false_eq_true, ↓reduceIte, hnext]
            rw [r.sent i hi]
            split <;> split <;> omega
          · simp only [Bool.false_eq_true, ↓reduceIte, hnext, hcomp]
            rw [if_neg (by omega), hj]
            simp
    · cases h
  · split at h
    · split at h
      · cases h
      · cases h
        exact ⟨j, ⟨r.len, r.pos, r.w, r.out, r.sent, r.completed, hall, hend⟩⟩
    · cases h

theorem onChild_same {α : Type} {s s' : St α} {i : Nat} {f : Child α → Option (Child α)} (h : onChild s i f = some s') :
    s'.out = s.out ∧ s'.w = s.w ∧ s'.completed = s.completed ∧ s'.joined = s.joined := by
  unfold onChild at h
  split at h
  · rw [Option.map_eq_some_iff] at h
    obtain ⟨k', _, rfl⟩ := h
    exact ⟨rfl, rfl, rfl, rfl⟩
  · cases h

theorem round_step {α : Type} {cap : Nat} {emits : List (List (Ev α))} {m : Nat} (hm : ∀ l ∈ emits, l.length = m) {s s' : St α} {l : Label} {j : Nat}
    (h : step cap s l = some s') (hk : ∀ i, l ≠ .die i) (hq : l = .parent → s.timesOut = false) (r : Round emits m s j) : ∃ j', Round emits m s' j' := by
  have hc : ∀ {i : Nat} {f : Child α → Option (Child α)}, onChild s i f = some s' → ∃ j', Round emits m s' j' := by
    intro i f hc
    obtain ⟨h1, h2, h3, _⟩ := onChild_same hc
    exact ⟨j, ⟨(kids_length h).trans r.len, r.pos, h2 ▸ r.w, by rw [h1, h2]; exact r.out, by rw [h1, h2]; exact r.sent,
      by rw [h3, h2]; exact r.completed, fun i => (all_step_eq h hk i).trans (r.all i), ended_step h r.ended⟩⟩
  cases l with
  | write i => exact hc h
  | exit i => exact hc h
  | die i => exact absurd rfl (hk i)
  | parent => exact round_parent hm h (hq rfl) r

/-- **C56** for workers that emit equally many messages, if none is killed, and none is late: when `fork` ends, everything has been sent, one message from each
worker in turn. -/
theorem C56_balanced_partial {α : Type} (cap : Nat) (emits : List (List (Ev α))) (m : Nat) (hm : ∀ l ∈ emits, l.length = m) (ls : List Label)
    (hk : NoKill ls) (hq : Quick cap ls (start emits)) (s : St α) (h : run cap ls (start emits) = some s) (hd : s.done = true) :
    s.out = roundRobin emits m ∧ ∀ i, sentFor i s.out = (emits[i]?.getD []).map Down.item := by
  have key : ∀ (ls : List Label) (s0 s : St α) (j : Nat), NoKill ls → Quick cap ls s0 → run cap ls s0 = some s → Round emits m s0 j →
      ∃ j', Round emits m s j' := by
    intro ls
    induction ls with
    | nil => intro s0 s j _ _ h r; cases h; exact ⟨j, r⟩
    | cons l ls ih =>
      intro s0 s j hk hq h r
      unfold run at h
      split at h
      · rename_i s1 hs
        unfold Quick at hq
        obtain ⟨j1, r1⟩ := round_step hm hs (fun i e => hk i (by simp [e])) hq.1 r
        exact ih s1 s j1 (fun i hi => hk i (List.mem_cons_of_mem _ hi)) (hq.2 s1 hs) h r1
      · cases h
  rcases Nat.eq_zero_or_pos emits.length with h0 | hpos
  · have he : emits = [] := List.length_eq_zero_iff.mp h0
    subst he
    have hz := fun i => C56_prefix cap [] ls s h i
    have hs : ∀ i, sentFor i s.out = [] := by
      intro i
      have := hz i
      simpa using this
    have ho : s.out = [] := by
      cases hso : s.out with
      | nil => rfl
      | cons x l =>
        have := hs x.1
        rw [hso] at this
        simp [sentFor] at this
    refine ⟨by rw [ho]; simp [roundRobin], fun i => by rw [hs i]; simp⟩
  · have r0 : Round emits m (start emits) 0 := by
      refine ⟨by simp [start], hpos, hpos, by simp [start, roundRobin, part], ?_, ?_, fun i => all_start emits i, ended_start emits⟩
      · intro i hi; simp [start, sentFor]
      · simp only [start]
        split
        · rfl
        · have : 0 - m = 0 := by omega
          rw [this]; simp
    obtain ⟨j, r⟩ := key ls _ s 0 hk hq h r0
    have hcomp := r.completed
    have hge : emits.length ≤ s.completed := by
      simp only [St.done, St.looping, Bool.and_eq_true, Bool.not_eq_true', decide_eq_false_iff_not] at hd
      have := hd.1
      rw [r.len] at this
      omega
    have hjm : m < j := by
      rcases Nat.lt_or_ge m j with hlt | hle
      · exact hlt
      · exfalso
        have := r.w
        split at hcomp
        · omega
        · have : j - m = 0 := by omega
          rw [this] at hcomp
          omega
    have hlen : ∀ i, i < emits.length → (sentFor i s.out).length = m := by
      intro i hi
      rw [r.sent i hi]
      split <;> omega
    have hrow : ∀ j, m ≤ j → ∀ w, w ≤ emits.length → part emits j w = [] := by
      intro j hj w hw
      unfold part
      rw [List.filterMap_eq_nil_iff]
      intro i hi
      have hi := List.mem_range.mp hi
      unfold cell
      have hlt : i < emits.length := by omega
      rw [List.getElem?_eq_getElem hlt, Option.getD_some, List.getElem?_eq_none]
      · rfl
      · rw [hm _ (List.getElem_mem hlt)]; exact hj
    have hrr : ∀ d, roundRobin emits (m + d) = roundRobin emits m := by
      intro d
      induction d with
      | zero => rfl
      | succ d ih => rw [← Nat.add_assoc, roundRobin_succ, ih, hrow (m + d) (by omega) _ (Nat.le_refl _)]; simp
    constructor
    · rw [r.out, hrow j (by omega) _ (Nat.le_of_lt r.w), List.append_nil]
      have := hrr (j - m)
      rwa [Nat.add_sub_cancel' (by omega)] at this
    · intro i
      have ha := r.all i
      rcases Nat.lt_or_ge i emits.length with hi | hi
      · unfold Fork.all at ha
        have hL := congrArg List.length ha
        have hl := hlen i hi
        rw [List.getElem?_eq_getElem hi, Option.getD_some] at ha hL ⊢
        rw [List.length_append, hl, List.length_map, hm _ (List.getElem_mem hi)] at hL
        have : (match s.kids[i]? with | some k => (k.pipe ++ k.todo).map Down.item | none => []) = [] :=
          List.length_eq_zero_iff.mp (by omega)
        rw [this, List.append_nil] at ha
        exact ha
      · have hp := C56_prefix cap emits ls s h i
        rw [List.getElem?_eq_none hi] at hp ⊢
        simpa using hp

/-! ## What fails -/

/-- Decidable form of `Quick`, for examples. -/
def quickB {α : Type} (cap : Nat) : List Label → St α → Bool
  | [], _ => true
  | l :: ls, s => !(l == .parent && s.timesOut) && (match step cap s l with | some s' => quickB cap ls s' | none => true)

theorem quickB_iff {α : Type} (cap : Nat) (ls : List Label) (s : St α) : quickB cap ls s = true ↔ Quick cap ls s := by
  induction ls generalizing s with
  | nil => simp [quickB, Quick]
  | cons l ls ih =>
    unfold quickB Quick
    rw [Bool.and_eq_true]
    have h1 : (!(l == Label.parent && s.timesOut)) = true ↔ (l = .parent → s.timesOut = false) := by
      by_cases h : l = .parent
      · simp [h]
      · simp [h]
    rw [h1]
    refine and_congr_right fun _ => ?_
    cases hs : step cap s l with
    | none => simp
    | some s1 => simp [ih]

theorem noKill_of {ls : List Label} (h : ls.all (fun l => match l with | .die _ => false | _ => true) = true) : NoKill ls := by
  intro i hi
  have := List.all_eq_true.mp h _ hi
  simp at this

/-- The example of the documentation of `fork` (fork.py 47-62): worker `i` emits `100 .. 100 + i`. No worker is late, none is killed. -/
def docEmits : List (List (Ev Nat)) := [[.item 100], [.item 100, .item 101], [.item 100, .item 101, .item 102]]

def docRun : List Label :=
  [.write 0, .exit 0, .write 1, .write 1, .exit 1, .write 2, .write 2, .write 2, .exit 2] ++ List.replicate 11 .parent

/-- **C56 is false**: when a worker has ended, its end is counted again in each round, so the loop ends before the other workers have ended. The example of
the documentation never shows `(2, 102)`: it is lost. -/
theorem C56_false : ∃ s, run 10 docRun (start docEmits) = some s ∧ NoKill docRun ∧ Quick 10 docRun (start docEmits) ∧ s.done = true ∧
    sentFor 2 s.out = [.item (.item 100), .item (.item 101)] := by
  refine ⟨_, rfl, noKill_of (by decide +kernel), (quickB_iff ..).mp (by decide +kernel), by decide +kernel, by decide +kernel⟩

/-- Two workers emitting one message each; the first one is late. -/
def lateRun : List Label :=
  [.write 1, .exit 1, .parent, .parent, .parent, .parent, .parent, .parent, .write 0, .exit 0, .parent, .parent]

/-- Also with equally many messages: everything a late worker emits is lost, though it ends as it should. -/
theorem C56_false_late : ∃ s, run 10 lateRun (start [[Ev.item 0], [.item 1]]) = some s ∧ NoKill lateRun ∧ s.done = true ∧ s.out = [(1, .item (.item 1))] := by
  refine ⟨_, rfl, noKill_of (by decide +kernel), by decide +kernel, by decide +kernel⟩

/-- The loop has ended, and this child has more to write than its pipe can hold. -/
def Stuck {α : Type} (cap i : Nat) (s : St α) : Prop :=
  s.looping = false ∧ s.joined ≤ i ∧ ∃ k, s.kids[i]? = some k ∧ k.running = true ∧ cap < k.pipe.length + k.todo.length ∧ k.pipe.length ≤ cap

theorem stuck_child {α : Type} {cap i : Nat} {s s' : St α} {j : Nat} {f : Child α → Option (Child α)} (h : onChild s j f = some s')
    (hf : ∀ k k', f k = some k' → k.running = true → cap < k.pipe.length + k.todo.length → k.pipe.length ≤ cap →
      k'.running = true ∧ cap < k'.pipe.length + k'.todo.length ∧ k'.pipe.length ≤ cap) (hs : Stuck cap i s) : Stuck cap i s' := by
  obtain ⟨h1, h2, k, hk, hr, hl, hp⟩ := hs
  obtain ⟨_, _, hc, hj⟩ := onChild_same h
  unfold onChild at h
  split at h
  · rename_i c hcj
    rw [Option.map_eq_some_iff] at h
    obtain ⟨c', hc', rfl⟩ := h
    refine ⟨by simpa [St.looping] using h1, h2, ?_⟩
    by_cases e : j = i
    · subst e
      rw [hk] at hcj
      cases hcj
      have hlt : j < s.kids.length := (List.getElem?_eq_some_iff.mp hk).1
      exact ⟨c', by simp [List.getElem?_set_self hlt], hf _ _ hc' hr hl hp⟩
    · exact ⟨k, by simp only [List.getElem?_set_ne e]; exact hk, hr, hl, hp⟩
  · cases h

theorem stuck_step {α : Type} {cap i : Nat} {s s' : St α} {l : Label} (h : step cap s l = some s') (hl : ∀ i, l ≠ .die i) (hs : Stuck cap i s) :
    Stuck cap i s' := by
  cases l with
  | write j =>
    refine stuck_child h ?_ hs
    intro k k' hk hr hlen hp
    unfold Child.write at hk
    split at hk
    · rename_i hc
      split at hk
      · rename_i e
        cases hk
        simp only [Bool.and_eq_true, decide_eq_true_eq] at hc
        simp only [e, List.length_cons, List.length_append, List.length_nil] at hlen ⊢
        exact ⟨hr, by omega, by omega⟩
      · cases hk
    · cases hk
  | exit j =>
    refine stuck_child h ?_ hs
    intro k k' hk hr hlen hp
    unfold Child.exit at hk
    split at hk
    · rename_i hc
      simp only [Bool.and_eq_true, List.isEmpty_iff] at hc
      rw [hc.2] at hlen
      simp at hlen
      omega
    · cases hk
  | die j => exact absurd rfl (hl j)
  | parent =>
    have h : parentStep s = some s' := h
    obtain ⟨h1, h2, k, hk, hr, hlen, hp⟩ := hs
    unfold parentStep at h
    rw [if_neg (by simp [h1])] at h
    split at h
    · rename_i c hc
      split at h
      · cases h
      · rename_i hcr
        cases h
        refine ⟨h1, ?_, k, hk, hr, hlen, hp⟩
        simp only
        rcases Nat.lt_or_ge s.joined i with hlt | hge
        · exact hlt
        · exfalso
          have : s.joined = i := by omega
          rw [this, hk] at hc
          cases hc
          exact hcr hr
    · cases h

/-- If the loop has ended too early, and a worker has more to write than its pipe holds, then `fork` never ends, whatever happens next, unless the worker is killed. -/
theorem C56_hang {α : Type} (cap i : Nat) (s s' : St α) (hs : Stuck cap i s) (ls : List Label) (hk : NoKill ls) (h : run cap ls s = some s') :
    s'.done = false := by
  have key : Stuck cap i s' := by
    induction ls generalizing s with
    | nil => cases h; exact hs
    | cons l ls ih =>
      unfold run at h
      split at h
      · rename_i s1 hst
        exact ih s1 (stuck_step hst (fun i e => hk i (by simp [e])) hs) (fun i hi => hk i (List.mem_cons_of_mem _ hi)) h
      · cases h
  obtain ⟨_, h2, k, hk, _⟩ := key
  have hlt : i < s'.kids.length := (List.getElem?_eq_some_iff.mp hk).1
  simp only [St.done, Bool.and_eq_false_iff]
  right
  simp only [beq_eq_false_iff_ne]
  omega

def hangRun : List Label := [.exit 0, .parent, .parent, .parent]

/-- Such a state is reachable, without any worker being killed. -/
theorem C56_false_hang : NoKill hangRun ∧ ∃ s, run 1 hangRun (start [[], [Ev.item 1, .item 2]]) = some s ∧ Stuck 1 1 s :=
  ⟨noKill_of (by decide +kernel), _, rfl, by decide +kernel, by decide +kernel, _, rfl, by decide +kernel, by decide +kernel, by decide +kernel⟩

/-- An error of a worker arrives as an item, not as an error, at the operator after `fork`: for every run with one worker. -/
theorem C56_false_error (cap : Nat) (ls : List Label) (hk : NoKill ls) (s : St Nat) (h : run cap ls (start [[.error 7]]) = some s) (hd : s.done = true) :
    s.out = [(0, .item (.error 7))] := C56_single_partial cap _ ls hk s h hd

/-! ## Thread ids -/

/-- `fork n`: thread ids `0 .. n-1`; `fork` of something that can be iterated: its values, in order. -/
theorem C56_thread_ids {V : Type} (ofInt : Nat → V) (params : Nat) (hp : params ≤ 1) :
    (∀ n : Nat, n ≠ 0 → ∃ l, threadIds ofInt params (.int n) = some l ∧ l.length = n ∧ ∀ i, i < n → l[i]? = some (ofInt i)) ∧
    (∀ l : List V, l ≠ [] → threadIds ofInt params (.iterable l) = some l) ∧
    (∀ n : Int, n ≤ 0 → threadIds ofInt params (.int n) = none) ∧ threadIds ofInt params (.iterable []) = none ∧ threadIds ofInt params .other = none := by
  have hp' : ¬ params > 1 := by omega
  refine ⟨?_, ?_, ?_, by simp [threadIds], rfl⟩
  · intro n hn
    refine ⟨(List.range n).map ofInt, ?_, by simp, ?_⟩
    · unfold threadIds
      simp only
      rw [if_pos (by omega), if_neg hp']
      simp
    · intro i hi
      simp [List.getElem?_range hi]
  · intro l hl
    unfold threadIds
    simp [hl, hp']
  · intro n hn
    unfold threadIds
    simp only
    rw [if_neg (by omega)]

/-- A pipeline with more than one parameter is refused. -/
theorem C56_too_many_params {V : Type} (ofInt : Nat → V) (params : Nat) (hp : 1 < params) (g : ForkGen V) : threadIds ofInt params g = none := by
  unfold threadIds
  split
  · split <;> simp
  · split <;> simp
  · rfl

/-- The parameter of the pipeline, if any, is bound to the thread id, and nothing else is bound. -/
theorem C56_binding {V : Type} (p : Nat) (id : V) : bindings [p] id = [(p, id)] ∧ bindings [] id = [] := ⟨rfl, rfl⟩

/-! ## The hypotheses can be met -/

def okRun : List Label := [.write 0, .write 1, .write 0, .parent, .write 1, .exit 1, .parent, .parent, .exit 0, .parent, .parent, .parent, .parent, .parent]

example : ∃ s, run 2 okRun (start [[Ev.item 1, .error 2], [.item 3, .item 4]]) = some s ∧ NoKill okRun ∧
    Quick 2 okRun (start [[Ev.item 1, .error 2], [.item 3, .item 4]]) ∧ s.done = true ∧
    s.out = [(0, .item (.item 1)), (1, .item (.item 3)), (0, .item (.error 2)), (1, .item (.item 4))] := by
  refine ⟨_, rfl, noKill_of (by decide +kernel), (quickB_iff ..).mp (by decide +kernel), by decide +kernel, by decide +kernel⟩

/-- One worker, with a time-out. -/
example : ∃ s, run 1 [.parent, .write 0, .parent, .write 0, .exit 0, .parent, .parent, .parent] (start [[Ev.item 1, .error 2]]) = some s ∧ s.done = true := by
  refine ⟨_, rfl, by decide +kernel⟩

end Marcel.Fork
