import Verif.Lemmas.NestArgs
import Verif.Props.C72_Command

/-! # Lemmas for C94: running pipelines of stages that may have pipelines as arguments -/

namespace Marcel.Exec

open Op

set_option linter.unusedSectionVars false

variable {V : Type} [DecidableEq V]

/-! ## How streams end -/

theorem Follows.how {Ps : List (Can V)} {s : List (Shown V)} {how : End} (h : Follows Ps s how) : how = .finished ∨ ∃ e, how = .stopped e := by
  induction h with
  | done => exact .inl rfl
  | next _ _ _ _ _ _ _ ih => exact ih
  | stop _ _ _ e _ => exact .inr ⟨e, rfl⟩

theorem Unites.how {Ps : List (Can V)} {s t : Stream V} (h : Unites Ps s t) : t.how = s.how ∨ ∃ e, t.how = .stopped e := by
  unfold Unites at h
  by_cases hf : s.how = .finished
  · rw [if_pos hf] at h
    obtain ⟨u, how, h1, rfl⟩ := h
    rw [hf]; exact h1.how
  · rw [if_neg hf] at h; rw [h]; exact .inl rfl

theorem OnFirst.how {β : Type} {G : Except Exn β → Prop} {does : β → V → Except Exn (β × List V) → Prop} {s t : Stream V} (h : OnFirst G does s t) : t.how = s.how ∨ ∃ e, t.how = .stopped e := by
  cases h with
  | noItems _ => exact .inl rfl
  | stopped _ _ _ e _ _ _ => exact .inr ⟨e, rfl⟩
  | works _ _ e _ _ _ => cases e with
    | none => exact .inl rfl
    | some e => exact .inr ⟨e, rfl⟩

theorem ndoes_how (w : World V) (steps : Nat) (st : NStage) (s t : Stream V) (h : st.Does w steps s t) : t.how = s.how ∨ ∃ e, t.how = .stopped e := by
  cases st with
  | plain st => exact does_how w st s t (by simpa only [NStage.Does] using h)
  | union ps => rw [NStage.Does] at h; exact h.how
  | difference p => rw [NStage.Does] at h; exact h.how
  | intersect ps => rw [NStage.Does] at h; exact h.how
  | join keep p => rw [NStage.Does] at h; exact h.how
  | filter d c p => rw [NStage.Does] at h; exact h.how

theorem nruns_how (w : World V) (steps : Nat) (sts : List NStage) : ∀ (s t : Stream V), NRuns w steps sts s t → t.how = s.how ∨ ∃ e, t.how = .stopped e := by
  induction sts with
  | nil => intro s t h; rw [NRuns] at h; rw [h]; exact .inl rfl
  | cons st sts ih =>
    intro s u h
    rw [NRuns] at h
    obtain ⟨t, h1, h2⟩ := h
    rcases ih t u h2 with h | h
    · rw [h]; exact ndoes_how w steps st s t h1
    · exact .inr h

/-! ## Operators for stages -/

def NOp (w : World V) (steps : Nat) (st : NStage) (o : AnyOp V) : Prop :=
  Implements1 o (st.Does w steps) ∧ (¬ st.isUnion → Implements o (st.Does w steps)) ∧ (¬ st.repeatsEnd → SignalsOnce o.2)

inductive NReady (w : World V) (steps : Nat) (st : NStage) : Ready V → Prop
  | source (sent : Nat → List V × Bool) : st.isGen →
      (∃ s xs, st.Starts w steps s ∧ s.sent = xs.map .item ∧ xs = (sent steps).1 ∧ s.how = if (sent steps).2 then .finished else .running) → NReady w steps st (.source sent)
  | needs (o : AnyOp V) : ¬ st.isGen → st.needsInput → NOp w steps st o → NReady w steps st (.stage true o)
  | stage (o : AnyOp V) : ¬ st.isGen → ¬ st.needsInput → NOp w steps st o →
      (∃ es x s, FirstSends w o es x ∧ st.Starts w steps s ∧ s.how ≠ .running ∧ Carries s es x) → NReady w steps st (.stage false o)

theorem plain_op (w : World V) (steps : Nat) (st : Stage) (o : AnyOp V) (h1 : Implements o (st.Does w)) (h2 : (∀ n, st ≠ .tail n) → SignalsOnce o.2) : NOp w steps (.plain st) o := by
  have e : (NStage.plain st).Does w steps = st.Does w := by rw [NStage.Does]
  refine ⟨by rw [e]; exact h1.one, fun _ => by rw [e]; exact h1, fun h => h2 fun n hn => ?_⟩
  subst hn
  exact h True.intro

theorem plain_ready (w : World V) (steps : Nat) (st : Stage) (r : Ready V) (h : ReadyFor w st r) : NReady w steps (.plain st) r := by
  cases h with
  | source sent h1 h2 => exact .source sent h1 (by obtain ⟨s, xs, h⟩ := h2 steps; exact ⟨s, xs, by simpa only [NStage.Starts] using h⟩)
  | needs o h1 h2 h3 h4 => exact .needs o h1 h2 (plain_op w steps st o h3 h4)
  | stage o h1 h2 h3 h4 h5 =>
    refine .stage o h1 h2 (plain_op w steps st o h3 h4) ?_
    obtain ⟨es, x, s, h6, h7, h8⟩ := h5 steps
    exact ⟨es, x, s, h6, by simpa only [NStage.Starts] using h7, starts_running w steps st s h1 h7, h8⟩

/-- The events of a stream that was told once that it has ended. -/
theorem signals_once (o : AnyOp V) (h : SignalsOnce o.2) (s t : Stream V) (es : List (Ev V)) (x : Option Exn) (hc : Carries s es x) (hf : flushes es ≤ 1)
    (ht : Carries t (o.2.obs es).1 ((o.2.obs es).2 <|> x)) : flushes (o.2.obs es).1 ≤ 1 := by
  obtain ⟨k, rfl, hk⟩ := hc
  rw [flushes_evs] at hf
  have hk' : k = 0 ∨ k = 1 := by omega
  have hev : Ev.flush ∉ evs s.sent := by
    intro hm
    obtain ⟨e, _, he⟩ := List.mem_map.mp hm
    cases e <;> cases he
  rcases hk' with rfl | rfl
  · have := o.2.feed_no_flush o.2.init (evs s.sent ++ List.replicate 0 .flush) (by simpa using hev)
    have h0 : flushes (o.2.obs (evs s.sent ++ List.replicate 0 .flush)).1 = 0 := flushes_eq_zero_of_not_mem _ this
    omega
  · cases hx : (o.2.obs (evs s.sent ++ List.replicate 1 .flush)).2 with
    | none =>
      have := feed_endsOnce o.2 h o.2.init (evs s.sent ++ List.replicate 1 Ev.flush) ⟨evs s.sent, rfl, hev⟩ hx
      have h1 : flushes (o.2.obs (evs s.sent ++ List.replicate 1 .flush)).1 = 1 := this.flushes
      omega
    | some e =>
      rw [hx] at ht
      obtain ⟨k', h1, h2⟩ := ht
      rw [h1, flushes_evs]
      cases hh : t.how with
      | finished => rw [hh] at h2; cases h2.2
      | running => rw [hh] at h2; omega
      | stopped e => rw [hh] at h2; omega

inductive AllOps (w : World V) (steps : Nat) : List NStage → List (AnyOp V) → Prop
  | nil : AllOps w steps [] []
  | cons (st : NStage) (sts : List NStage) (o : AnyOp V) (os : List (AnyOp V)) : NOp w steps st o → AllOps w steps sts os → AllOps w steps (st :: sts) (o :: os)

theorem nchain_runs (w : World V) (steps : Nat) (sts : List NStage) (os : List (AnyOp V)) (h : AllOps w steps sts os) : OncePipe sts → ∀ s es x, Carries s es x →
    (flushes es ≤ 1 ∨ ∀ st ∈ sts, ¬ st.isUnion) → ∃ t, NRuns w steps sts s t ∧ Carries t ((chain os).2.obs es).1 (((chain os).2.obs es).2 <|> x) := by
  induction h with
  | nil => intro _ s es x hc _; refine ⟨s, (by rw [NRuns]), ?_⟩; simp only [chain, obs_pass]; simpa using hc
  | cons st sts o os ho _ ih =>
    intro hp s es x hc hf
    rw [OncePipe] at hp
    obtain ⟨h1, h2, h3⟩ := ho
    have step : ∃ t, st.Does w steps s t ∧ Carries t (o.2.obs es).1 ((o.2.obs es).2 <|> x) ∧ (flushes (o.2.obs es).1 ≤ 1 ∨ ∀ st ∈ sts, ¬ st.isUnion) := by
      rcases hf with hf | hf
      · obtain ⟨t, h4, h5⟩ := h1 s es x hc hf
        refine ⟨t, h4, h5, ?_⟩
        by_cases hr : st.repeatsEnd
        · exact .inr (hp.2.1 hr)
        · exact .inl (signals_once o (h3 hr) s t es x hc hf h5)
      · obtain ⟨t, h4, h5⟩ := h2 (hf st List.mem_cons_self) s es x hc
        exact ⟨t, h4, h5, .inr fun st' h => hf st' (List.mem_cons_of_mem _ h)⟩
    obtain ⟨t, h4, h5, h6⟩ := step
    obtain ⟨u, h7, h8⟩ := ih hp.2.2 t _ _ h5 h6
    refine ⟨u, (by rw [NRuns]; exact ⟨t, h4, h7⟩), ?_⟩
    simp only [chain, C01_obs, staged]
    revert h8
    cases ((chain os).2.obs (o.2.obs es).1).2 <;> simp

/-! ## Pipelines -/

def NPrepared (w : World V) (steps : Nat) (st : NStage) (p : Prepared V) : Prop :=
  (p.gen = true ↔ st.isGen) ∧ (st.Bad w ∧ p.setup = .error .kill ∨ ¬ st.Bad w ∧ ∃ r, p.setup = .ok r ∧ NReady w steps st r)

inductive AllPrepared (w : World V) (steps : Nat) : List NStage → List (Prepared V) → Prop
  | nil : AllPrepared w steps [] []
  | cons (st : NStage) (sts : List NStage) (p : Prepared V) (ps : List (Prepared V)) : NPrepared w steps st p → AllPrepared w steps sts ps → AllPrepared w steps (st :: sts) (p :: ps)

inductive AllNReady (w : World V) (steps : Nat) : List NStage → List (Ready V) → Prop
  | nil : AllNReady w steps [] []
  | cons (st : NStage) (sts : List NStage) (r : Ready V) (rs : List (Ready V)) : NReady w steps st r → AllNReady w steps sts rs → AllNReady w steps (st :: sts) (r :: rs)

theorem nsetup_all (w : World V) (steps : Nat) (sts : List NStage) (ps : List (Prepared V)) (h : AllPrepared w steps sts ps) :
    ((∃ st ∈ sts, st.Bad w) ∧ prepareAll ps = .error .kill) ∨ ((∀ st ∈ sts, ¬ st.Bad w) ∧ ∃ rs, prepareAll ps = .ok rs ∧ AllNReady w steps sts rs) := by
  induction h with
  | nil => exact .inr ⟨(by intro st h; cases h), [], rfl, .nil⟩
  | cons st sts p ps h0 _ ih =>
    rcases h0.2 with ⟨h1, h2⟩ | ⟨h1, r, h2, h3⟩
    · exact .inl ⟨⟨st, List.mem_cons_self, h1⟩, by simp only [prepareAll, h2]⟩
    · rcases ih with ⟨⟨st', h5, h6⟩, h7⟩ | ⟨h4, rs, h5, h6⟩
      · exact .inl ⟨⟨st', List.mem_cons_of_mem _ h5, h6⟩, by simp only [prepareAll, h2, h7]⟩
      · refine .inr ⟨?_, r :: rs, by simp only [prepareAll, h2, h5], .cons _ _ _ _ h3 h6⟩
        intro st' hst
        rcases List.mem_cons.mp hst with rfl | hst
        · exact h1
        · exact h4 st' hst

theorem nany_gen (w : World V) (steps : Nat) (sts : List NStage) (ps : List (Prepared V)) (h : AllPrepared w steps sts ps) : ps.any (·.gen) = true ↔ ∃ st ∈ sts, st.isGen := by
  induction h with
  | nil => simp
  | cons st sts p ps h1 _ ih =>
    rw [List.any_cons, Bool.or_eq_true, ih, h1.1]
    simp

theorem nstages_ready (w : World V) (steps : Nat) (sts : List NStage) (rs : List (Ready V)) (h : AllNReady w steps sts rs) (hg : ∀ st ∈ sts, ¬ st.isGen) : AllOps w steps sts (stages rs) := by
  induction h with
  | nil => exact .nil
  | cons st sts r rs h1 _ ih =>
    have ih := ih fun st h => hg st (List.mem_cons_of_mem _ h)
    cases h1 with
    | source sent h => exact absurd h (hg st List.mem_cons_self)
    | needs o _ _ h => exact .cons _ _ _ _ h ih
    | stage o _ _ h _ => exact .cons _ _ _ _ h ih

/-- The exception, if any. -/
def exnOf : End → Option Exn
  | .stopped e => some e
  | _ => none

theorem Carries.exn {t : Stream V} {es : List (Ev V)} {x : Option Exn} (h : Carries t es x) : x = exnOf t.how := by
  obtain ⟨k, _, hk⟩ := h
  cases ht : t.how with
  | finished => rw [ht] at hk; exact hk.2
  | running => rw [ht] at hk; exact hk.2
  | stopped e => rw [ht] at hk; exact hk.2

/-- The result of a run is the stream. -/
def IsResult (t : Stream V) (r : Result V) : Prop := r.how = t.how ∧ Carries t r.sent (exnOf t.how)

theorem first_once (w : World V) (steps : Nat) (st : NStage) (o : AnyOp V) (h : NOp w steps st o) (hr : ¬ st.repeatsEnd) (es : List (Ev V)) (x : Option Exn) (hf : FirstSends w o es x) (s : Stream V) (hc : Carries s es x) : flushes es ≤ 1 := by
  have h0 : flushes (o.2.item o.2.init w.empty).out = 0 := flushes_eq_zero_of_not_mem _ (o.2.no_flush _ _)
  rcases hf with ⟨e, _, rfl, _⟩ | ⟨_, he, hx⟩
  · omega
  · cases hx' : (o.2.flush (o.2.item o.2.init w.empty).st).exn with
    | none =>
      have := (h.2.2 hr _ hx').flushes
      rw [he]
      have : flushes ((o.2.item o.2.init w.empty).out ++ (o.2.flush (o.2.item o.2.init w.empty).st).out) = flushes (o.2.item o.2.init w.empty).out + flushes (o.2.flush (o.2.item o.2.init w.empty).st).out := by
        simp
      omega
    | some e =>
      obtain ⟨k, h1, h2⟩ := hc
      rw [h1, flushes_evs]
      rw [hx'] at hx
      cases hh : s.how with
      | finished => rw [hh, hx] at h2; cases h2.2
      | running => rw [hh] at h2; omega
      | stopped e => rw [hh] at h2; omega

theorem nrun_ready (w : World V) (steps : Nat) (st : NStage) (rest : List NStage) (r : Ready V) (rs : List (Ready V)) (h : AllNReady w steps (st :: rest) (r :: rs)) (hg : ∀ st ∈ rest, ¬ st.isGen)
    (hp : OncePipe (st :: rest)) :
    (st.needsInput ∧ runReady w steps (r :: rs) = ⟨[], .stopped .kill⟩) ∨
    (¬ st.needsInput ∧ ∃ s t, st.Starts w steps s ∧ NRuns w steps rest s t ∧ IsResult t (runReady w steps (r :: rs))) := by
  rw [OncePipe] at hp
  cases h with
  | cons _ _ _ _ h1 h2 =>
    have hi := nstages_ready w steps rest rs h2 hg
    cases h1 with
    | needs o _ h _ => exact .inl ⟨h, rfl⟩
    | source sent hgen hs =>
      have hni : ¬ st.needsInput := by
        cases st with
        | plain st => cases st with | gen => exact fun h => h | _ => exact hgen.elim
        | _ => exact fun h => h
      refine .inr ⟨hni, ?_⟩
      obtain ⟨s, xs, h3, h4, h5, h6⟩ := hs
      subst h5
      simp only [runReady]
      rcases Bool.eq_false_or_eq_true (sent steps).2 with hd | hd
      · rw [hd] at h6
        have hc : Carries s (ofItems (sent steps).1 ++ [.flush]) none := ⟨1, by rw [h4, evs_items]; rfl, by rw [h6]; exact ⟨by decide, rfl⟩⟩
        have hfl : flushes (ofItems (sent steps).1 ++ [.flush] : List (Ev V)) ≤ 1 := by
          rw [← evs_items]
          exact Nat.le_of_eq (flushes_evs _ 1)
        obtain ⟨t, h7, h8⟩ := nchain_runs w steps rest _ hi hp.2.2 s _ none hc (.inl hfl)
        refine ⟨s, t, h3, h7, ?_⟩
        rw [hd]
        simp only [if_true]
        have hr : t.how ≠ .running := by
          rcases nruns_how w steps rest s t h7 with h | ⟨e, h⟩ <;> rw [h]
          · rw [h6]; simp
          · simp
        refine ⟨by simpa using h8.ending hr, ?_⟩
        rw [← h8.exn]; exact h8
      · rw [hd] at h6
        have hc : Carries s (ofItems (sent steps).1) none := ⟨0, by rw [h4, evs_items]; simp, by rw [h6]; exact ⟨rfl, rfl⟩⟩
        have hfl : flushes (ofItems (sent steps).1 : List (Ev V)) ≤ 1 := by
          rw [← evs_items, ← List.append_nil (evs _)]
          exact Nat.le_trans (Nat.le_of_eq (flushes_evs _ 0)) (by decide)
        obtain ⟨t, h7, h8⟩ := nchain_runs w steps rest _ hi hp.2.2 s _ none hc (.inl hfl)
        refine ⟨s, t, h3, h7, ?_⟩
        rw [hd]
        simp only [Bool.false_eq_true, if_false]
        have hr : t.how ≠ .finished := by
          rcases nruns_how w steps rest s t h7 with h | ⟨e, h⟩ <;> rw [h]
          · rw [h6]; simp
          · simp
        refine ⟨by simpa using h8.running hr, ?_⟩
        rw [← h8.exn]; exact h8
    | stage o hng h hop hf =>
      refine .inr ⟨h, ?_⟩
      obtain ⟨es, x, s, h3, h4, hsr, h5⟩ := hf
      have hfl : flushes es ≤ 1 ∨ ∀ st ∈ rest, ¬ st.isUnion := by
        by_cases hr : st.repeatsEnd
        · exact .inr (hp.2.1 hr)
        · exact .inl (first_once w steps st o hop hr es x h3 s h5)
      obtain ⟨t, h7, h8⟩ := nchain_runs w steps rest _ hi hp.2.2 s es x h5 hfl
      refine ⟨s, t, h4, h7, ?_⟩
      rw [run_first w steps o rs es x h3]
      refine ⟨h8.ending ?_, by rw [← h8.exn]; exact h8⟩
      rcases nruns_how w steps rest s t h7 with h | ⟨e, h⟩ <;> rw [h]
      · exact hsr
      · simp

theorem isResult_kill : IsResult (⟨[], .stopped .kill⟩ : Stream V) ⟨[], .stopped .kill⟩ := ⟨rfl, 0, rfl, rfl, rfl⟩

theorem npipeline_executes (w : World V) (steps : Nat) (sts : List NStage) (ps : List (Prepared V)) (hne : sts ≠ []) (h : AllPrepared w steps sts ps) (hp : OncePipe sts) :
    ∃ t, NExecutes w steps sts (t.sent, t.how) ∧ IsResult t (runPrepared w steps ps) := by
  unfold runPrepared
  cases h with
  | nil => exact absurd rfl hne
  | cons st rest p ps h1 h2 =>
    rw [NExecutes]
    by_cases hg : ∃ st ∈ rest, st.isGen
    · rw [if_pos (show (p :: ps).tail.any (·.gen) = true from (nany_gen w steps rest ps h2).mpr hg)]
      exact ⟨⟨[], .stopped .kill⟩, .inl ⟨.inr (.inl hg), rfl⟩, isResult_kill⟩
    · rw [if_neg (show ¬ (p :: ps).tail.any (·.gen) = true from fun h => hg ((nany_gen w steps rest ps h2).mp h))]
      rcases nsetup_all w steps (st :: rest) (p :: ps) (.cons _ _ _ _ h1 h2) with ⟨h6, h7⟩ | ⟨h6, rs, h7, h8⟩
      · rw [h7]
        exact ⟨⟨[], .stopped .kill⟩, .inl ⟨.inl h6, rfl⟩, isResult_kill⟩
      · rw [h7]
        cases h8 with
        | cons _ _ r rs' h9 h10 =>
          have hg' : ∀ st ∈ rest, ¬ st.isGen := fun st h h' => hg ⟨st, h, h'⟩
          rcases nrun_ready w steps st rest r rs' (.cons _ _ _ _ h9 h10) hg' hp with ⟨h11, h12⟩ | ⟨h11, s, t, h12, h13, h14⟩
          · simp only [h12]
            exact ⟨⟨[], .stopped .kill⟩, .inl ⟨.inr (.inr ⟨st, rfl, h11⟩), rfl⟩, isResult_kill⟩
          · refine ⟨t, .inr ⟨?_, s, t, h12, h13, rfl⟩, h14⟩
            rintro (⟨st', h, h'⟩ | ⟨st', h, h'⟩ | ⟨st', h, h'⟩)
            · exact h6 st' h h'
            · exact hg' st' h h'
            · cases h; exact h11 h'

end Marcel.Exec
