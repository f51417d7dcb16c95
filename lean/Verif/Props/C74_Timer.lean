import Verif.Model.Timer

/-! # C74: timer

In every execution, whatever the order in which the two threads take their turns: what `timer` sends are timestamps that its clock took, in their
order, none twice; they are at least the interval apart; the latest one is not lost; and it never stops. -/

namespace Marcel.Timer

/-! ## Specification -/

/-- The command could do something now. -/
def CommandReady (interval : Option Nat) (s : State) : Prop := ∃ s', Step interval s s' ∧ s'.cmd ≠ s.cmd

/-- The metronome could do something now. -/
def MetronomeReady (interval : Option Nat) (s : State) : Prop := ∃ s', Step interval s s' ∧ s'.metro ≠ s.metro

/-- An endless execution, in which both threads get their turns, and time goes on. -/
structure Endless (interval : Option Nat) (e : Nat → State) : Prop where
  init : ∃ c, e 0 = State.init c
  step : ∀ n, Step interval (e n) (e (n + 1))
  command : ∀ n, (∀ k, n ≤ k → ∃ m, k ≤ m ∧ CommandReady interval (e m)) → ∃ m, n ≤ m ∧ (e (m + 1)).cmd ≠ (e m).cmd
  metronome : ∀ n, (∀ k, n ≤ k → ∃ m, k ≤ m ∧ MetronomeReady interval (e m)) → ∃ m, n ≤ m ∧ (e (m + 1)).metro ≠ (e m).metro
  time : ∀ t, ∃ n, t ≤ (e n).clock

/-! ## Invariants -/

def inflight : Cmd → List Nat
  | .release x => [x]
  | .send x => [x]
  | _ => []

structure Inv (s : State) : Prop where
  metro : s.lock = some .metronome ↔ s.metro = .register ∨ s.metro = .notify ∨ s.metro = .release
  command : s.lock = some .command ↔ s.cmd = .check ∨ s.cmd = .read ∨ (∃ x, s.cmd = .clear x) ∨ ∃ x, s.cmd = .release x
  unborn : s.cmd = .start ↔ s.metro = .unborn
  started : s.metro = .unborn → s.now = none ∧ s.ticks = []
  full : ∀ x, s.now = some x → ∃ pre, s.ticks = pre ++ [x] ∧ (s.sent ++ inflight s.cmd).Sublist pre
  empty : s.now = none → (s.sent ++ inflight s.cmd).Sublist s.ticks ∧ (s.sent ++ inflight s.cmd).getLast? = s.ticks.getLast?
  read : s.cmd = .read → ∃ x, s.now = some x
  clear : ∀ x, s.cmd = .clear x → s.now = some x
  released : ∀ x, s.cmd = .release x → s.now = none
  past : ∀ x ∈ s.ticks, x ≤ s.clock
  waits : s.cmd = .waiting → s.now = none ∨ s.metro = .notify

theorem Inv.init (c : Nat) : Inv (State.init c) := by
  constructor <;> simp [State.init, inflight]

theorem Inv.step {i : Option Nat} {s s' : State} (h : Inv s) (st : Step i s s') : Inv s' := by
  obtain ⟨h1, h2, h3, h4, h5, h6, h7, h8, h11, h9, h10⟩ := h
  cases st with
  | time d => exact ⟨h1, h2, h3, h4, h5, h6, h7, h8, h11, fun x hx => Nat.le_trans (h9 x hx) (Nat.le_add_right _ _), h10⟩
  | start c m => constructor <;> simp_all [inflight]
  | acquire c l => constructor <;> simp_all [inflight]
  | checkNone c n => constructor <;> simp_all [inflight]
  | timeout c => constructor <;> simp_all [inflight]
  | again c l => constructor <;> simp_all [inflight]
  | checkSome x c n => constructor <;> simp_all [inflight]
  | read x c n => constructor <;> simp_all [inflight]
  | clear x c =>
    have hn := h8 x c
    obtain ⟨pre, e, su⟩ := h5 x hn
    constructor <;> simp_all [inflight]
  | release x c =>
    constructor <;> simp_all [inflight]
    rw [← h6.2]; rfl
  | send x c =>
    constructor <;> simp_all [inflight]
    intro hn; rw [← (h6 hn).2]; rfl
  | fail x c =>
    constructor <;> simp_all [inflight]
    intro hn; rw [← (h6 hn).2]; rfl
  | tickAcquire m l => constructor <;> simp_all [inflight]
  | register m =>
    have hl : s.lock = some .metronome := h1.mpr (.inl m)
    constructor
    · simp_all
    · simp_all
    · simp_all
    · simp_all
    · intro x hx
      simp only [Option.some.injEq] at hx
      subst hx
      refine ⟨s.ticks, rfl, ?_⟩
      cases hn : s.now with
      | none => exact (h6 hn).1
      | some y =>
        obtain ⟨pre, e, su⟩ := h5 y hn
        rw [e]
        exact su.trans (List.sublist_append_left _ _)
    · simp
    · intro hc; exact ⟨_, rfl⟩
    · intro x hc
      have := h2.mpr (.inr (.inr (.inl ⟨x, hc⟩)))
      rw [hl] at this; cases this
    · intro x hc
      have := h2.mpr (.inr (.inr (.inr ⟨x, hc⟩)))
      rw [hl] at this; cases this
    · intro x hx
      rcases List.mem_append.mp hx with hx | hx
      · exact h9 x hx
      · exact Nat.le_of_eq (List.mem_singleton.mp hx)
    · simp
  | notify m =>
    have hl : s.lock = some .metronome := h1.mpr (.inr (.inl m))
    by_cases hw : s.cmd = .waiting
    · constructor <;> simp_all [inflight]
    · constructor <;> simp_all [inflight]
  | tickRelease d m e =>
    have hl : s.lock = some .metronome := h1.mpr (.inr (.inr m))
    constructor <;> simp_all [inflight]
  | die m e =>
    have hl : s.lock = some .metronome := h1.mpr (.inr (.inr m))
    constructor <;> simp_all [inflight]
  | wake t m l => constructor <;> simp_all [inflight]

theorem Reach.inv {i : Option Nat} {s : State} (h : Reach i s) : Inv s := by
  induction h with
  | init c => exact Inv.init c
  | step _ st ih => exact ih.step st

/-- The timestamps are at least the interval apart, and so are the last one and the next. -/
structure Apart (d : Nat) (s : State) : Prop where
  ticks : s.ticks.Pairwise fun x y => x + d ≤ y
  asleep : ∀ t, s.metro = .sleep t → ∀ x ∈ s.ticks, x + d ≤ t
  awake : s.metro = .acquire ∨ s.metro = .register → ∀ x ∈ s.ticks, x + d ≤ s.clock
  unborn : s.metro = .unborn → s.ticks = []

theorem Apart.step {d : Nat} {s s' : State} (h : Apart d s) (i : Inv s) (st : Step (some d) s s') : Apart d s' := by
  obtain ⟨h1, h2, h3, h4⟩ := h
  cases st with
  | time e => exact ⟨h1, h2, fun hm x hx => Nat.le_trans (h3 hm x hx) (Nat.le_add_right _ _), h4⟩
  | start c m => constructor <;> simp_all
  | tickAcquire m l => constructor <;> simp_all
  | register m =>
    constructor
    · refine List.pairwise_append.mpr ⟨h1, List.pairwise_singleton _ _, ?_⟩
      intro a ha b hb
      rw [List.mem_singleton.mp hb]
      exact h3 (.inr m) a ha
    · simp
    · simp
    · simp
  | notify m => constructor <;> simp_all
  | tickRelease e m he =>
    constructor
    · exact h1
    · intro t ht x hx
      injection he with he
      subst he
      injection ht with ht
      subst ht
      exact Nat.add_le_add_right (i.past x hx) d
    · simp
    · simp
  | die m he => cases he
  | wake t m l =>
    constructor
    · exact h1
    · simp
    · intro _ x hx
      exact Nat.le_trans (h2 t m x hx) l
    · simp
  | _ => exact ⟨h1, h2, h3, h4⟩

theorem Reach.apart {d : Nat} {s : State} (h : Reach (some d) s) : Apart d s := by
  induction h with
  | init c => constructor <;> simp [State.init]
  | step r st ih => exact ih.step r.inv st

/-! ## What is sent -/

/-- **C74, order.** What has been sent are timestamps taken by the metronome, in their order, none of them twice. -/
theorem C74_order {interval : Option Nat} {s : State} (h : Reach interval s) : s.sent.Sublist s.ticks := by
  have hi := h.inv
  have h0 : s.sent.Sublist (s.sent ++ inflight s.cmd) := List.sublist_append_left _ _
  cases hn : s.now with
  | none => exact h0.trans (hi.empty hn).1
  | some x =>
    obtain ⟨pre, e, su⟩ := hi.full x hn
    rw [e]
    exact (h0.trans su).trans (List.sublist_append_left _ _)

/-- **C74, spacing.** Any two of the timestamps sent are at least the interval apart, and none is in the future. -/
theorem C74_spacing {d : Nat} {s : State} (h : Reach (some d) s) :
    s.sent.Pairwise (fun x y => x + d ≤ y) ∧ ∀ x ∈ s.sent, x ≤ s.clock :=
  ⟨h.apart.ticks.sublist (C74_order h), fun x hx => h.inv.past x ((C74_order h).subset hx)⟩

/-- **C74, latest.** While the command takes a timestamp (it has read it, and still has the lock), that is the latest one. -/
theorem C74_latest {interval : Option Nat} {s : State} (h : Reach interval s) (x : Nat) (hc : s.cmd = .clear x ∨ s.cmd = .release x) :
    s.ticks.getLast? = some x := by
  have hi := h.inv
  rcases hc with hc | hc
  · obtain ⟨pre, e, -⟩ := hi.full x (hi.clear x hc)
    rw [e]
    simp
  · rw [← (hi.empty (hi.released x hc)).2, hc]
    simp [inflight]

/-- **C74, none lost.** While the command waits, and the metronome does not have the lock, the latest timestamp has been sent. -/
theorem C74_none_lost {interval : Option Nat} {s : State} (h : Reach interval s) (hc : s.cmd = .waiting) (hl : s.lock = none) :
    s.sent.getLast? = s.ticks.getLast? := by
  have hi := h.inv
  rcases hi.waits hc with hn | hm
  · have := (hi.empty hn).2
    rw [hc] at this
    simpa [inflight] using this
  · have := hi.metro.mpr (.inr (.inl hm))
    rw [hl] at this; cases this

/-! ## It never stops -/

theorem Step.sent {i : Option Nat} {s s' : State} (h : Step i s s') : s.sent.length ≤ s'.sent.length := by
  cases h <;> simp

section
variable {i : Option Nat} {e : Nat → State}

theorem Endless.reach (h : Endless i e) (n : Nat) : Reach i (e n) := by
  induction n with
  | zero => obtain ⟨c, hc⟩ := h.init; rw [hc]; exact .init c
  | succ n ih => exact ih.step (h.step n)

theorem Endless.inv (h : Endless i e) (n : Nat) : Inv (e n) := (h.reach n).inv

/-- The first time that something happens. -/
theorem first_after (P : Nat → Prop) (n : Nat) (h : ∃ m, n ≤ m ∧ P m) : ∃ m, n ≤ m ∧ P m ∧ ∀ k, n ≤ k → k < m → ¬ P k := by
  obtain ⟨m, hm, hp⟩ := h
  obtain ⟨d, rfl⟩ := Nat.exists_eq_add_of_le hm
  induction d using Nat.strongRecOn with
  | _ d ih =>
    by_cases hq : ∃ d', d' < d ∧ P (n + d')
    · obtain ⟨d', hd, hp'⟩ := hq
      exact ih d' hd (Nat.le_add_right _ _) hp'
    · refine ⟨n + d, Nat.le_add_right _ _, hp, fun k hk hk' hpk => hq ⟨k - n, by omega, ?_⟩⟩
      rw [show n + (k - n) = k by omega]
      exact hpk

theorem unchanged_until {α : Type} (f : Nat → α) (n m : Nat) (hm : n ≤ m) (h : ∀ k, n ≤ k → k < m → ¬ f (k + 1) ≠ f k) : f m = f n := by
  obtain ⟨d, rfl⟩ := Nat.exists_eq_add_of_le hm
  induction d with
  | zero => rfl
  | succ d ih =>
    have h1 := ih (Nat.le_add_right _ _) fun k hk hk' => h k hk (by omega)
    have h2 : f (n + d + 1) = f (n + d) := by
      apply Classical.byContradiction
      intro hc
      exact h (n + d) (Nat.le_add_right _ _) (by omega) hc
    rw [show n + (d + 1) = n + d + 1 by omega, h2, h1]

/-- The command leaves the place where it is, if it can do so again and again as long as it is there. -/
theorem Endless.commandLeaves (h : Endless i e) (n : Nat)
    (ready : ∀ k, n ≤ k → (∀ m, n ≤ m → (e m).cmd = (e n).cmd) → ∃ m, k ≤ m ∧ CommandReady i (e m)) :
    ∃ m, n ≤ m ∧ (∀ k, n ≤ k → k ≤ m → (e k).cmd = (e n).cmd) ∧ (e (m + 1)).cmd ≠ (e m).cmd := by
  have hx : ∃ m, n ≤ m ∧ (e (m + 1)).cmd ≠ (e m).cmd := by
    apply Classical.byContradiction
    intro hc
    have hs : ∀ m, n ≤ m → (e m).cmd = (e n).cmd := fun m hm =>
      unchanged_until (fun k => (e k).cmd) n m hm fun k hk _ hne => hc ⟨k, hk, hne⟩
    exact hc (h.command n fun k hk => ready k hk hs)
  obtain ⟨m, hm, hp, hf⟩ := first_after (fun m => (e (m + 1)).cmd ≠ (e m).cmd) n hx
  exact ⟨m, hm, fun k hk hk' => unchanged_until (fun k => (e k).cmd) n k hk fun j hj hj' => hf j hj (by omega), hp⟩

theorem Endless.metronomeLeaves (h : Endless i e) (n : Nat)
    (ready : ∀ k, n ≤ k → (∀ m, n ≤ m → (e m).metro = (e n).metro) → ∃ m, k ≤ m ∧ MetronomeReady i (e m)) :
    ∃ m, n ≤ m ∧ (∀ k, n ≤ k → k ≤ m → (e k).metro = (e n).metro) ∧ (e (m + 1)).metro ≠ (e m).metro := by
  have hx : ∃ m, n ≤ m ∧ (e (m + 1)).metro ≠ (e m).metro := by
    apply Classical.byContradiction
    intro hc
    have hs : ∀ m, n ≤ m → (e m).metro = (e n).metro := fun m hm =>
      unchanged_until (fun k => (e k).metro) n m hm fun k hk _ hne => hc ⟨k, hk, hne⟩
    exact hc (h.metronome n fun k hk => ready k hk hs)
  obtain ⟨m, hm, hp, hf⟩ := first_after (fun m => (e (m + 1)).metro ≠ (e m).metro) n hx
  exact ⟨m, hm, fun k hk hk' => unchanged_until (fun k => (e k).metro) n k hk fun j hj hj' => hf j hj (by omega), hp⟩

theorem Endless.sentMono (h : Endless i e) (n m : Nat) (hm : n ≤ m) : (e n).sent.length ≤ (e m).sent.length := by
  obtain ⟨d, rfl⟩ := Nat.exists_eq_add_of_le hm
  induction d with
  | zero => exact Nat.le_refl _
  | succ d ih => exact Nat.le_trans (ih (Nat.le_add_right _ _)) (h.step (n + d)).sent

/-- Sooner or later the command sends something more. -/
def Sends (e : Nat → State) (n : Nat) : Prop := ∃ m, n ≤ m ∧ (e n).sent.length < (e m).sent.length

theorem Endless.sendsBefore (h : Endless i e) {n m : Nat} (hm : n ≤ m) (hs : Sends e m) : Sends e n := by
  obtain ⟨k, hk, hl⟩ := hs
  exact ⟨k, Nat.le_trans hm hk, Nat.lt_of_le_of_lt (h.sentMono n m hm) hl⟩

theorem Endless.sends_send (h : Endless i e) (n x : Nat) (hc : (e n).cmd = .send x) : Sends e n := by
  obtain ⟨m, hm, hs, hne⟩ := h.commandLeaves n fun k hk hs => ⟨k, Nat.le_refl _, _, .send _ x ((hs k hk).trans hc), by simp [(hs k hk).trans hc]⟩
  refine h.sendsBefore hm ⟨m + 1, Nat.le_succ _, ?_⟩
  have hcm := (hs m hm (Nat.le_refl _)).trans hc
  have st := h.step m
  generalize e (m + 1) = s' at *
  cases st <;> simp_all

theorem Endless.sends_release (h : Endless i e) (n x : Nat) (hc : (e n).cmd = .release x) : Sends e n := by
  obtain ⟨m, hm, hs, hne⟩ := h.commandLeaves n fun k hk hs => ⟨k, Nat.le_refl _, _, .release _ x ((hs k hk).trans hc), by simp [(hs k hk).trans hc]⟩
  have hcm := (hs m hm (Nat.le_refl _)).trans hc
  refine h.sendsBefore (Nat.le_succ_of_le hm) (h.sends_send (m + 1) x ?_)
  have st := h.step m
  generalize e (m + 1) = s' at *
  cases st <;> simp_all

theorem Endless.sends_clear (h : Endless i e) (n x : Nat) (hc : (e n).cmd = .clear x) : Sends e n := by
  obtain ⟨m, hm, hs, hne⟩ := h.commandLeaves n fun k hk hs => ⟨k, Nat.le_refl _, _, .clear _ x ((hs k hk).trans hc), by simp [(hs k hk).trans hc]⟩
  have hcm := (hs m hm (Nat.le_refl _)).trans hc
  refine h.sendsBefore (Nat.le_succ_of_le hm) (h.sends_release (m + 1) x ?_)
  have st := h.step m
  generalize e (m + 1) = s' at *
  cases st <;> simp_all

theorem Endless.sends_read (h : Endless i e) (n : Nat) (hc : (e n).cmd = .read) : Sends e n := by
  obtain ⟨m, hm, hs, hne⟩ := h.commandLeaves n fun k hk hs => by
    obtain ⟨x, hx⟩ := (h.inv k).read ((hs k hk).trans hc)
    exact ⟨k, Nat.le_refl _, _, .read _ x ((hs k hk).trans hc) hx, by simp [(hs k hk).trans hc]⟩
  have hcm := (hs m hm (Nat.le_refl _)).trans hc
  have : ∃ x, (e (m + 1)).cmd = .clear x := by
    have st := h.step m
    generalize e (m + 1) = s' at *
    cases st <;> simp_all
  obtain ⟨x, hx⟩ := this
  exact h.sendsBefore (Nat.le_succ_of_le hm) (h.sends_clear (m + 1) x hx)

/-- A timestamp stays, or is replaced, until the command takes it. -/
theorem Step.nowStays {s s' : State} (st : Step i s s') (hn : s.now ≠ none) (hc : ∀ x, s.cmd ≠ .clear x) : s'.now ≠ none := by
  cases st <;> simp_all

theorem Endless.nowStays (h : Endless i e) (n m : Nat) (hm : n ≤ m) (hn : (e n).now ≠ none) (hc : ∀ k, n ≤ k → k < m → ∀ x, (e k).cmd ≠ .clear x) :
    (e m).now ≠ none := by
  obtain ⟨d, rfl⟩ := Nat.exists_eq_add_of_le hm
  induction d with
  | zero => exact hn
  | succ d ih =>
    exact (h.step (n + d)).nowStays (ih (Nat.le_add_right _ _) fun k hk hk' => hc k hk (by omega)) (hc (n + d) (Nat.le_add_right _ _) (by omega))

theorem Endless.sends_check (h : Endless i e) (n : Nat) (hc : (e n).cmd = .check) (hn : (e n).now ≠ none) : Sends e n := by
  obtain ⟨m, hm, hs, hne⟩ := h.commandLeaves n fun k hk hs => by
    have hk' := (hs k hk).trans hc
    cases hx : (e k).now with
    | none => exact ⟨k, Nat.le_refl _, _, .checkNone _ hk' hx, by simp [hk']⟩
    | some x => exact ⟨k, Nat.le_refl _, _, .checkSome _ x hk' hx, by simp [hk']⟩
  have hcm := (hs m hm (Nat.le_refl _)).trans hc
  have hnm := h.nowStays n m hm hn fun k hk hk' x hx => by
    rw [hs k hk (Nat.le_of_lt hk'), hc] at hx; cases hx
  have : (e (m + 1)).cmd = .read := by
    have st := h.step m
    generalize e (m + 1) = s' at *
    cases st <;> simp_all
  exact h.sendsBefore (Nat.le_succ_of_le hm) (h.sends_read (m + 1) this)

/-! ### The lock is free again and again -/

theorem Endless.metro_release (h : Endless i e) (n : Nat) (hc : (e n).metro = .release) : ∃ m, n ≤ m ∧ (e m).lock = none := by
  obtain ⟨m, hm, hs, hne⟩ := h.metronomeLeaves n fun k hk hs => by
    have hk' := (hs k hk).trans hc
    cases hi : i with
    | none => exact ⟨k, Nat.le_refl _, _, .die _ hk' rfl, by simp [hk']⟩
    | some d => exact ⟨k, Nat.le_refl _, _, .tickRelease _ d hk' rfl, by simp [hk']⟩
  have hcm := (hs m hm (Nat.le_refl _)).trans hc
  refine ⟨m + 1, Nat.le_succ_of_le hm, ?_⟩
  have st := h.step m
  generalize e (m + 1) = s' at *
  cases st <;> simp_all

theorem Endless.metro_notify (h : Endless i e) (n : Nat) (hc : (e n).metro = .notify) : ∃ m, n ≤ m ∧ (e m).metro = .release := by
  obtain ⟨m, hm, hs, hne⟩ := h.metronomeLeaves n fun k hk hs => ⟨k, Nat.le_refl _, _, .notify _ ((hs k hk).trans hc), by simp [(hs k hk).trans hc]⟩
  have hcm := (hs m hm (Nat.le_refl _)).trans hc
  refine ⟨m + 1, Nat.le_succ_of_le hm, ?_⟩
  have st := h.step m
  generalize e (m + 1) = s' at *
  cases st <;> simp_all

theorem Endless.metro_register (h : Endless i e) (n : Nat) (hc : (e n).metro = .register) :
    ∃ m, n ≤ m ∧ (e m).metro = .notify ∧ (e m).now ≠ none := by
  obtain ⟨m, hm, hs, hne⟩ := h.metronomeLeaves n fun k hk hs => ⟨k, Nat.le_refl _, _, .register _ ((hs k hk).trans hc), by simp [(hs k hk).trans hc]⟩
  have hcm := (hs m hm (Nat.le_refl _)).trans hc
  refine ⟨m + 1, Nat.le_succ_of_le hm, ?_⟩
  have st := h.step m
  generalize e (m + 1) = s' at *
  cases st <;> simp_all

theorem Endless.free_send (h : Endless i e) (n x : Nat) (hc : (e n).cmd = .release x) : ∃ m, n ≤ m ∧ (e m).lock = none := by
  obtain ⟨m, hm, hs, hne⟩ := h.commandLeaves n fun k hk hs => ⟨k, Nat.le_refl _, _, .release _ x ((hs k hk).trans hc), by simp [(hs k hk).trans hc]⟩
  have hcm := (hs m hm (Nat.le_refl _)).trans hc
  refine ⟨m + 1, Nat.le_succ_of_le hm, ?_⟩
  have st := h.step m
  generalize e (m + 1) = s' at *
  cases st <;> simp_all

theorem Endless.free_clear (h : Endless i e) (n x : Nat) (hc : (e n).cmd = .clear x) : ∃ m, n ≤ m ∧ (e m).lock = none := by
  obtain ⟨m, hm, hs, hne⟩ := h.commandLeaves n fun k hk hs => ⟨k, Nat.le_refl _, _, .clear _ x ((hs k hk).trans hc), by simp [(hs k hk).trans hc]⟩
  have hcm := (hs m hm (Nat.le_refl _)).trans hc
  have : (e (m + 1)).cmd = .release x := by
    have st := h.step m
    generalize e (m + 1) = s' at *
    cases st <;> simp_all
  obtain ⟨k, hk, hf⟩ := h.free_send (m + 1) x this
  exact ⟨k, by omega, hf⟩

theorem Endless.free_read (h : Endless i e) (n : Nat) (hc : (e n).cmd = .read) : ∃ m, n ≤ m ∧ (e m).lock = none := by
  obtain ⟨m, hm, hs, hne⟩ := h.commandLeaves n fun k hk hs => by
    obtain ⟨x, hx⟩ := (h.inv k).read ((hs k hk).trans hc)
    exact ⟨k, Nat.le_refl _, _, .read _ x ((hs k hk).trans hc) hx, by simp [(hs k hk).trans hc]⟩
  have hcm := (hs m hm (Nat.le_refl _)).trans hc
  have : ∃ x, (e (m + 1)).cmd = .clear x := by
    have st := h.step m
    generalize e (m + 1) = s' at *
    cases st <;> simp_all
  obtain ⟨x, hx⟩ := this
  obtain ⟨k, hk, hf⟩ := h.free_clear (m + 1) x hx
  exact ⟨k, by omega, hf⟩

theorem Endless.free_check (h : Endless i e) (n : Nat) (hc : (e n).cmd = .check) : ∃ m, n ≤ m ∧ (e m).lock = none := by
  obtain ⟨m, hm, hs, hne⟩ := h.commandLeaves n fun k hk hs => by
    have hk' := (hs k hk).trans hc
    cases hx : (e k).now with
    | none => exact ⟨k, Nat.le_refl _, _, .checkNone _ hk' hx, by simp [hk']⟩
    | some x => exact ⟨k, Nat.le_refl _, _, .checkSome _ x hk' hx, by simp [hk']⟩
  have hcm := (hs m hm (Nat.le_refl _)).trans hc
  have : (e (m + 1)).lock = none ∨ (e (m + 1)).cmd = .read := by
    have st := h.step m
    generalize e (m + 1) = s' at *
    cases st <;> simp_all
  rcases this with hf | hr
  · exact ⟨m + 1, by omega, hf⟩
  · obtain ⟨k, hk, hf⟩ := h.free_read (m + 1) hr
    exact ⟨k, by omega, hf⟩

theorem Endless.free (h : Endless i e) (n : Nat) : ∃ m, n ≤ m ∧ (e m).lock = none := by
  cases hl : (e n).lock with
  | none => exact ⟨n, Nat.le_refl _, hl⟩
  | some w =>
    cases w with
    | command =>
      rcases (h.inv n).command.mp hl with hc | hc | ⟨x, hc⟩ | ⟨x, hc⟩
      · exact h.free_check n hc
      · exact h.free_read n hc
      · exact h.free_clear n x hc
      · exact h.free_send n x hc
    | metronome =>
      have key : ∀ n, (e n).metro = .notify → ∃ m, n ≤ m ∧ (e m).lock = none := fun n hn => by
        obtain ⟨m, hm, hr⟩ := h.metro_notify n hn
        obtain ⟨k, hk, hf⟩ := h.metro_release m hr
        exact ⟨k, by omega, hf⟩
      rcases (h.inv n).metro.mp hl with hc | hc | hc
      · obtain ⟨m, hm, hr, -⟩ := h.metro_register n hc
        obtain ⟨k, hk, hf⟩ := key m hr
        exact ⟨k, by omega, hf⟩
      · exact key n hc
      · exact h.metro_release n hc

/-! ### There is a new timestamp again and again -/

theorem Endless.metro_acquire (h : Endless i e) (n : Nat) (hc : (e n).metro = .acquire) : ∃ m, n ≤ m ∧ (e m).metro = .register := by
  obtain ⟨m, hm, hs, hne⟩ := h.metronomeLeaves n fun k hk hs => by
    obtain ⟨j, hj, hf⟩ := h.free k
    have hj' := (hs j (by omega)).trans hc
    exact ⟨j, hj, _, .tickAcquire _ hj' hf, by simp [hj']⟩
  have hcm := (hs m hm (Nat.le_refl _)).trans hc
  refine ⟨m + 1, Nat.le_succ_of_le hm, ?_⟩
  have st := h.step m
  generalize e (m + 1) = s' at *
  cases st <;> simp_all

theorem Step.clockMono {s s' : State} (st : Step i s s') : s.clock ≤ s'.clock := by
  cases st <;> simp

theorem Endless.clockMono (h : Endless i e) (n m : Nat) (hm : n ≤ m) : (e n).clock ≤ (e m).clock := by
  obtain ⟨d, rfl⟩ := Nat.exists_eq_add_of_le hm
  induction d with
  | zero => exact Nat.le_refl _
  | succ d ih => exact Nat.le_trans (ih (Nat.le_add_right _ _)) (h.step (n + d)).clockMono

theorem Endless.metro_sleep (h : Endless i e) (n t : Nat) (hc : (e n).metro = .sleep t) : ∃ m, n ≤ m ∧ (e m).metro = .acquire := by
  obtain ⟨m, hm, hs, hne⟩ := h.metronomeLeaves n fun k hk hs => by
    obtain ⟨j, hj⟩ := h.time t
    have hx := (hs (max j k) (by omega)).trans hc
    exact ⟨max j k, by omega, _, .wake _ t hx (Nat.le_trans hj (h.clockMono _ _ (by omega))), by simp [hx]⟩
  have hcm := (hs m hm (Nat.le_refl _)).trans hc
  refine ⟨m + 1, Nat.le_succ_of_le hm, ?_⟩
  have st := h.step m
  generalize e (m + 1) = s' at *
  cases st <;> simp_all

theorem Endless.metro_unborn (h : Endless i e) (n : Nat) (hc : (e n).metro = .unborn) : ∃ m, n ≤ m ∧ (e m).metro = .acquire := by
  obtain ⟨m, hm, hs, hne⟩ := h.metronomeLeaves n fun k hk hs => by
    have hk' := (hs k hk).trans hc
    exact ⟨k, Nat.le_refl _, _, .start _ ((h.inv k).unborn.mpr hk') hk', by simp [hk']⟩
  have hcm := (hs m hm (Nat.le_refl _)).trans hc
  refine ⟨m + 1, Nat.le_succ_of_le hm, ?_⟩
  have st := h.step m
  generalize e (m + 1) = s' at *
  cases st <;> simp_all

end

theorem Endless.alive {d : Nat} {e : Nat → State} (h : Endless (some d) e) (n : Nat) : (e n).metro ≠ .dead := by
  induction n with
  | zero => obtain ⟨c, hc⟩ := h.init; rw [hc]; simp [State.init]
  | succ n ih =>
    have st := h.step n
    generalize e (n + 1) = s' at *
    cases st <;> simp_all

theorem Endless.ticks {d : Nat} {e : Nat → State} (h : Endless (some d) e) (n : Nat) : ∃ m, n ≤ m ∧ (e m).now ≠ none := by
  have reg : ∀ n, (e n).metro = .register → ∃ m, n ≤ m ∧ (e m).now ≠ none := fun n hn => by
    obtain ⟨m, hm, -, hx⟩ := h.metro_register n hn
    exact ⟨m, hm, hx⟩
  have acq : ∀ n, (e n).metro = .acquire → ∃ m, n ≤ m ∧ (e m).now ≠ none := fun n hn => by
    obtain ⟨m, hm, hx⟩ := h.metro_acquire n hn
    obtain ⟨k, hk, hy⟩ := reg m hx
    exact ⟨k, by omega, hy⟩
  have sl : ∀ n t, (e n).metro = .sleep t → ∃ m, n ≤ m ∧ (e m).now ≠ none := fun n t hn => by
    obtain ⟨m, hm, hx⟩ := h.metro_sleep n t hn
    obtain ⟨k, hk, hy⟩ := acq m hx
    exact ⟨k, by omega, hy⟩
  have rel : ∀ n, (e n).metro = .release → ∃ m, n ≤ m ∧ (e m).now ≠ none := fun n hc => by
    obtain ⟨m, hm, hs, hne⟩ := h.metronomeLeaves n fun k hk hs => ⟨k, Nat.le_refl _, _, .tickRelease _ d ((hs k hk).trans hc) rfl, by simp [(hs k hk).trans hc]⟩
    have hcm := (hs m hm (Nat.le_refl _)).trans hc
    have : ∃ t, (e (m + 1)).metro = .sleep t := by
      have st := h.step m
      generalize e (m + 1) = s' at *
      cases st <;> simp_all
    obtain ⟨t, ht⟩ := this
    obtain ⟨k, hk, hy⟩ := sl (m + 1) t ht
    exact ⟨k, by omega, hy⟩
  cases hm : (e n).metro with
  | unborn =>
    obtain ⟨m, hm, hx⟩ := h.metro_unborn n hm
    obtain ⟨k, hk, hy⟩ := acq m hx
    exact ⟨k, by omega, hy⟩
  | acquire => exact acq n hm
  | register => exact reg n hm
  | notify =>
    obtain ⟨m, hm, hx⟩ := h.metro_notify n hm
    obtain ⟨k, hk, hy⟩ := rel m hx
    exact ⟨k, by omega, hy⟩
  | release => exact rel n hm
  | sleep t => exact sl n t hm
  | dead => exact absurd hm (h.alive n)

theorem Endless.sends_pending {i : Option Nat} {e : Nat → State} (h : Endless i e) (n : Nat) (hn : (e n).now ≠ none) (he : ∀ n, (e n).cmd ≠ .ended) :
    Sends e n := by
  have woken : ∀ n, (e n).now ≠ none → (e n).cmd = .woken ∨ (e n).cmd = .acquire → Sends e n := fun n hn hc => by
    obtain ⟨m, hm, hs, hne⟩ := h.commandLeaves n fun k hk hs => by
      obtain ⟨j, hj, hf⟩ := h.free k
      rcases hc with hc | hc
      · have hj' := (hs j (by omega)).trans hc
        exact ⟨j, hj, _, .again _ hj' hf, by simp [hj']⟩
      · have hj' := (hs j (by omega)).trans hc
        exact ⟨j, hj, _, .acquire _ hj' hf, by simp [hj']⟩
    have hcm := hs m hm (Nat.le_refl _)
    have hnm := h.nowStays n m hm hn fun k hk hk' x hx => by
      rw [hs k hk (Nat.le_of_lt hk')] at hx; rcases hc with hc | hc <;> rw [hc] at hx <;> cases hx
    have : (e (m + 1)).cmd = .check ∧ (e (m + 1)).now ≠ none := by
      have st := h.step m
      generalize e (m + 1) = s' at *
      rcases hc with hc | hc <;> cases st <;> simp_all
    exact h.sendsBefore (Nat.le_succ_of_le hm) (h.sends_check (m + 1) this.1 this.2)
  cases hc : (e n).cmd with
  | start => exact absurd ((h.inv n).started ((h.inv n).unborn.mp hc)).1 hn
  | acquire => exact woken n hn (.inr hc)
  | check => exact h.sends_check n hc hn
  | waiting =>
    obtain ⟨m, hm, hs, hne⟩ := h.commandLeaves n fun k hk hs => ⟨k, Nat.le_refl _, _, .timeout _ ((hs k hk).trans hc), by simp [(hs k hk).trans hc]⟩
    have hcm := (hs m hm (Nat.le_refl _)).trans hc
    have hnm := h.nowStays n m hm hn fun k hk hk' x hx => by
      rw [hs k hk (Nat.le_of_lt hk'), hc] at hx; cases hx
    have : (e (m + 1)).cmd = .woken ∧ (e (m + 1)).now ≠ none := by
      have st := h.step m
      generalize e (m + 1) = s' at *
      cases st <;> simp_all
    exact h.sendsBefore (Nat.le_succ_of_le hm) (woken (m + 1) this.2 (.inl this.1))
  | woken => exact woken n hn (.inl hc)
  | read => exact h.sends_read n hc
  | clear x => exact h.sends_clear n x hc
  | release x => exact h.sends_release n x hc
  | send x => exact h.sends_send n x hc
  | ended => exact absurd hc (he n)

/-- **C74, progress.** As long as both threads get their turns, time goes on, and the rest of the pipeline does not end the command: however many
timestamps are wanted, that many will be sent. -/
theorem C74_progress {d : Nat} {e : Nat → State} (h : Endless (some d) e) (he : ∀ n, (e n).cmd ≠ .ended) (k : Nat) : ∃ n, k ≤ (e n).sent.length := by
  induction k with
  | zero => exact ⟨0, Nat.zero_le _⟩
  | succ k ih =>
    obtain ⟨n, hn⟩ := ih
    obtain ⟨m, hm, hx⟩ := h.ticks n
    obtain ⟨j, hj, hl⟩ := h.sends_pending m hx he
    exact ⟨j, by have := h.sentMono n m hm; omega⟩

/-- **An interval that `sleep` does not accept.** `timer -1` and `timer (1)` are not refused: one timestamp is sent, and then the command
waits for ever. -/
theorem C74_bad_interval {s : State} (h : Reach none s) : s.sent.length ≤ 1 := by
  have key : s.ticks.length ≤ 1 ∧ (s.ticks = [] ∨ s.metro = .notify ∨ s.metro = .release ∨ s.metro = .dead) := by
    induction h with
    | init c => simp [State.init]
    | step r st ih => cases st <;> simp_all
  exact Nat.le_trans (C74_order h).length_le key.1

/-! ## Such executions exist -/

/-- The first timestamp. -/
def opening : Nat → State
  | 0 => State.init 0
  | 1 => ⟨0, none, none, .acquire, .acquire, [], []⟩
  | 2 => ⟨0, none, some .metronome, .register, .acquire, [], []⟩
  | 3 => ⟨0, some 0, some .metronome, .notify, .acquire, [0], []⟩
  | 4 => ⟨0, some 0, some .metronome, .release, .acquire, [0], []⟩
  | 5 => ⟨0, some 0, none, .sleep 1, .acquire, [0], []⟩
  | 6 => ⟨0, some 0, some .command, .sleep 1, .check, [0], []⟩
  | 7 => ⟨0, some 0, some .command, .sleep 1, .read, [0], []⟩
  | 8 => ⟨0, some 0, some .command, .sleep 1, .clear 0, [0], []⟩
  | 9 => ⟨0, none, some .command, .sleep 1, .release 0, [0], []⟩
  | 10 => ⟨0, none, none, .sleep 1, .send 0, [0], []⟩
  | 11 => ⟨0, none, none, .sleep 1, .acquire, [0], [0]⟩
  | _ => ⟨0, none, some .command, .sleep 1, .check, [0], [0]⟩

def upTo (k : Nat) : List Nat := List.range (k + 1)

/-- From one timestamp to the next. -/
def round (k : Nat) : Nat → State
  | 0 => ⟨k, none, none, .sleep (k + 1), .waiting, upTo k, upTo k⟩
  | 1 => ⟨k + 1, none, none, .sleep (k + 1), .waiting, upTo k, upTo k⟩
  | 2 => ⟨k + 1, none, none, .acquire, .waiting, upTo k, upTo k⟩
  | 3 => ⟨k + 1, none, some .metronome, .register, .waiting, upTo k, upTo k⟩
  | 4 => ⟨k + 1, some (k + 1), some .metronome, .notify, .waiting, upTo k ++ [k + 1], upTo k⟩
  | 5 => ⟨k + 1, some (k + 1), some .metronome, .release, .woken, upTo k ++ [k + 1], upTo k⟩
  | 6 => ⟨k + 1, some (k + 1), none, .sleep (k + 1 + 1), .woken, upTo k ++ [k + 1], upTo k⟩
  | 7 => ⟨k + 1, some (k + 1), some .command, .sleep (k + 1 + 1), .check, upTo k ++ [k + 1], upTo k⟩
  | 8 => ⟨k + 1, some (k + 1), some .command, .sleep (k + 1 + 1), .read, upTo k ++ [k + 1], upTo k⟩
  | 9 => ⟨k + 1, some (k + 1), some .command, .sleep (k + 1 + 1), .clear (k + 1), upTo k ++ [k + 1], upTo k⟩
  | 10 => ⟨k + 1, none, some .command, .sleep (k + 1 + 1), .release (k + 1), upTo k ++ [k + 1], upTo k⟩
  | 11 => ⟨k + 1, none, none, .sleep (k + 1 + 1), .send (k + 1), upTo k ++ [k + 1], upTo k⟩
  | 12 => ⟨k + 1, none, none, .sleep (k + 1 + 1), .acquire, upTo k ++ [k + 1], upTo k ++ [k + 1]⟩
  | _ => ⟨k + 1, none, some .command, .sleep (k + 1 + 1), .check, upTo k ++ [k + 1], upTo k ++ [k + 1]⟩

def example_run (n : Nat) : State := if n < 13 then opening n else round ((n - 13) / 14) ((n - 13) % 14)

theorem upTo_succ (k : Nat) : upTo (k + 1) = upTo k ++ [k + 1] := List.range_succ

theorem example_round (q r : Nat) (hr : r < 14) : example_run (13 + 14 * q + r) = round q r := by
  unfold example_run
  rw [if_neg (by omega), show 13 + 14 * q + r - 13 = 14 * q + r by omega, show (14 * q + r) / 14 = q by omega, show (14 * q + r) % 14 = r by omega]

theorem opening_step : ∀ n, n < 12 → Step (some 1) (opening n) (opening (n + 1))
  | 0, _ => .start _ rfl rfl
  | 1, _ => .tickAcquire _ rfl rfl
  | 2, _ => .register _ rfl
  | 3, _ => .notify _ rfl
  | 4, _ => .tickRelease _ 1 rfl rfl
  | 5, _ => .acquire _ rfl rfl
  | 6, _ => .checkSome _ 0 rfl rfl
  | 7, _ => .read _ 0 rfl rfl
  | 8, _ => .clear _ 0 rfl
  | 9, _ => .release _ 0 rfl
  | 10, _ => .send _ 0 rfl
  | 11, _ => .acquire _ rfl rfl
  | n + 12, h => absurd h (by omega)

theorem round_step (k : Nat) : ∀ r, r < 13 → Step (some 1) (round k r) (round k (r + 1))
  | 0, _ => .time _ 1
  | 1, _ => .wake _ (k + 1) rfl (Nat.le_refl _)
  | 2, _ => .tickAcquire _ rfl rfl
  | 3, _ => .register _ rfl
  | 4, _ => .notify _ rfl
  | 5, _ => .tickRelease _ 1 rfl rfl
  | 6, _ => .again _ rfl rfl
  | 7, _ => .checkSome _ (k + 1) rfl rfl
  | 8, _ => .read _ (k + 1) rfl rfl
  | 9, _ => .clear _ (k + 1) rfl
  | 10, _ => .release _ (k + 1) rfl
  | 11, _ => .send _ (k + 1) rfl
  | 12, _ => .acquire _ rfl rfl
  | n + 13, h => absurd h (by omega)

theorem round_next (k : Nat) : Step (some 1) (round k 13) (round (k + 1) 0) := by
  have := Step.checkNone (interval := some 1) (round k 13) rfl rfl
  have e : round (k + 1) 0 = { round k 13 with cmd := .waiting, lock := none } := by
    simp only [round, upTo_succ]
  rw [e]
  exact this

theorem example_step (n : Nat) : Step (some 1) (example_run n) (example_run (n + 1)) := by
  by_cases h : n < 12
  · unfold example_run
    rw [if_pos (by omega), if_pos (by omega)]
    exact opening_step n h
  · by_cases h' : n = 12
    · subst h'
      exact Step.checkNone (interval := some 1) (opening 12) rfl rfl
    · obtain ⟨q, r, hr, rfl⟩ : ∃ q r, r < 14 ∧ n = 13 + 14 * q + r := ⟨(n - 13) / 14, (n - 13) % 14, Nat.mod_lt _ (by omega), by omega⟩
      rw [example_round q r hr]
      by_cases hl : r = 13
      · subst hl
        rw [show 13 + 14 * q + 13 + 1 = 13 + 14 * (q + 1) + 0 by omega, example_round (q + 1) 0 (by omega)]
        exact round_next q
      · rw [show 13 + 14 * q + r + 1 = 13 + 14 * q + (r + 1) by omega, example_round q (r + 1) (by omega)]
        exact round_step q r (by omega)

/-- There is an execution as in `C74_progress`. -/
theorem C74_progress_case : Endless (some 1) example_run ∧ ∀ n, (example_run n).cmd ≠ .ended := by
  refine ⟨⟨⟨0, rfl⟩, example_step, ?_, ?_, ?_⟩, ?_⟩
  · intro n _
    refine ⟨13 + 14 * n + 12, by omega, ?_⟩
    rw [show 13 + 14 * n + 12 + 1 = 13 + 14 * n + 13 by omega, example_round n 12 (by omega), example_round n 13 (by omega)]
    simp [round]
  · intro n _
    refine ⟨13 + 14 * n + 2, by omega, ?_⟩
    rw [show 13 + 14 * n + 2 + 1 = 13 + 14 * n + 3 by omega, example_round n 2 (by omega), example_round n 3 (by omega)]
    simp [round]
  · intro t
    refine ⟨13 + 14 * t + 0, ?_⟩
    rw [example_round t 0 (by omega)]
    exact Nat.le_refl _
  · intro n
    by_cases h : n < 13
    · unfold example_run
      rw [if_pos h]
      match n, h with
      | 0, _ | 1, _ | 2, _ | 3, _ | 4, _ | 5, _ | 6, _ | 7, _ | 8, _ | 9, _ | 10, _ | 11, _ | 12, _ => simp [opening, State.init]
    · obtain ⟨q, r, hr, rfl⟩ : ∃ q r, r < 14 ∧ n = 13 + 14 * q + r := ⟨(n - 13) / 14, (n - 13) % 14, Nat.mod_lt _ (by omega), by omega⟩
      rw [example_round q r hr]
      match r, hr with
      | 0, _ | 1, _ | 2, _ | 3, _ | 4, _ | 5, _ | 6, _ | 7, _ | 8, _ | 9, _ | 10, _ | 11, _ | 12, _ | 13, _ => simp [round]

/-- A state as in `C74_none_lost`, after three timestamps. -/
theorem C74_none_lost_case : Reach (some 1) (round 2 0) ∧ (round 2 0).cmd = .waiting ∧ (round 2 0).lock = none ∧ (round 2 0).sent = [0, 1, 2] := by
  refine ⟨?_, rfl, rfl, rfl⟩
  have := C74_progress_case.1.reach (13 + 14 * 2 + 0)
  rwa [example_round 2 0 (by omega)] at this

/-- A timestamp while the command is busy. -/
theorem tick_while_busy (k : Nat) (n : Option Nat) (p : List Nat) (h : Reach (some 1) ⟨k, n, none, .sleep (k + 1), .send 0, p, []⟩) :
    Reach (some 1) ⟨k + 1, some (k + 1), none, .sleep (k + 1 + 1), .send 0, p ++ [k + 1], []⟩ :=
  .step (.step (.step (.step (.step (.step h (.time _ 1)) (.wake _ (k + 1) rfl (Nat.le_refl _))) (.tickAcquire _ rfl rfl)) (.register _ rfl))
    (.notify _ rfl)) (.tickRelease _ 1 rfl rfl)

/-- A slow pipeline: a timestamp is taken while another one is being sent, and it is replaced by the next one. So not all timestamps are sent. -/
theorem C74_order_case : ∃ s, Reach (some 1) s ∧ s.ticks = [0, 1, 2] ∧ s.sent = [0, 2] := by
  have h0 : Reach (some 1) (opening 10) := C74_progress_case.1.reach 10
  have h2 := tick_while_busy 1 _ _ (tick_while_busy 0 none [0] h0)
  exact ⟨_, .step (.step (.step (.step (.step (.step (.step h2 (.send _ 0 rfl)) (.acquire _ rfl rfl)) (.checkSome _ 2 rfl rfl)) (.read _ 2 rfl rfl))
    (.clear _ 2 rfl)) (.release _ 2 rfl)) (.send _ 2 rfl), rfl, rfl⟩

/-- A state as in `C74_bad_interval`, in which a timestamp has been sent. -/
theorem C74_bad_interval_case : ∃ s, Reach none s ∧ s.sent = [0] ∧ s.metro = .dead :=
  ⟨_, .step (.step (.step (.step (.step (.step (.step (.step (.step (.step (.step (.init 0) (.start _ rfl rfl)) (.tickAcquire _ rfl rfl)) (.register _ rfl)) (.notify _ rfl))
    (.die _ rfl rfl)) (.acquire _ rfl rfl)) (.checkSome _ 0 rfl rfl)) (.read _ 0 rfl rfl)) (.clear _ 0 rfl)) (.release _ 0 rfl)) (.send _ 0 rfl), rfl, rfl⟩

end Marcel.Timer
