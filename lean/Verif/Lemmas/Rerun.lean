import Verif.Spec.Rerun
import Verif.Lemmas.Stream
/-! # Lemmas: series of runs -/

namespace Marcel.Rerun

open Op

variable {ρ α β γ : Type}

/-- The state of the object after a run. -/
def Cls.after (c : Cls ρ α β) (copies : Bool) (s t : c.S) : c.S := if copies then c.back s t else t

theorem runs_cons (c : Cls ρ α β) (copies : Bool) (s : c.S) (r : ρ) (es : List (Ev α)) (rs) :
    c.runs copies s ((r, es) :: rs) =
      ((c.run r s es).out, (c.run r s es).exn) :: c.runs copies (c.after copies s (c.run r s es).st) rs := rfl

theorem Cls.feed_cons (c : Cls ρ α β) (r : ρ) (s : c.S) (e : Ev α) (es : List (Ev α)) :
    c.feed r s (e :: es) =
      if (c.step r s e).exn.isSome then c.step r s e
      else ⟨(c.feed r (c.step r s e).st es).st, (c.step r s e).out ++ (c.feed r (c.step r s e).st es).out,
            (c.feed r (c.step r s e).st es).exn⟩ := rfl

theorem Cls.feed_snoc (c : Cls ρ α β) (r : ρ) (es : List (Ev α)) (e : Ev α) : ∀ (s : c.S),
    (c.feed r s es).exn = none →
    c.feed r s (es ++ [e]) =
      ⟨(c.step r (c.feed r s es).st e).st, (c.feed r s es).out ++ (c.step r (c.feed r s es).st e).out,
        (c.step r (c.feed r s es).st e).exn⟩ := by
  induction es with
  | nil =>
    intro s _
    rw [List.nil_append, feed_cons]
    rcases h : c.step r s e with ⟨t, o, _ | x⟩
    · simp [Cls.feed, h]
    · simp [Cls.feed, h]
  | cons a es ih =>
    intro s h
    rw [List.cons_append, feed_cons, feed_cons] at *
    rcases h1 : c.step r s a with ⟨t, o, _ | x⟩
    · rw [h1] at h
      simp only [Option.isSome_none, Bool.false_eq_true, if_false] at h ⊢
      rw [ih t h]
      simp
    · rw [h1] at h; simp at h

theorem opfeed_snoc {σ : Type} (o : Op σ α β) (s : σ) (es : List (Ev α)) (e : Ev α) (h : (o.feed s es).exn = none) :
    o.feed s (es ++ [e]) =
      ⟨(o.step (o.feed s es).st e).st, (o.feed s es).out ++ (o.step (o.feed s es).st e).out,
        (o.step (o.feed s es).st e).exn⟩ := by
  rw [feed_append, h]
  simp only [Option.isSome_none, Bool.false_eq_true, if_false]
  rw [Op.feed_cons]
  rcases h1 : o.step (o.feed s es).st e with ⟨t, x, _ | y⟩ <;> simp [Op.feed]

theorem Cls.feed_exn_ne_kare (c : Cls ρ α β) (r : ρ) (es : List (Ev α)) (h : Ev.flush ∉ es) : ∀ s : c.S,
    (c.feed r s es).exn ≠ some .kare := by
  induction es with
  | nil => intro s; simp [Cls.feed]
  | cons e es ih =>
    intro s
    rw [List.mem_cons, not_or] at h
    rw [feed_cons]
    split
    · cases e with
      | item x =>
        simp only [Cls.step, catchKare]
        split
        · simp
        · assumption
      | err m => simp [Cls.step]
      | flush => exact absurd rfl h.1
    · exact ih h.2 _

/-- A run, stepwise: `R` relates the states of the object to those of the `Op`, `I` are the states of the object in which another
run may begin. -/
structure StepSim (c : Cls ρ α β) (r : ρ) (P : Ev α → Prop) (J : c.S → Prop) {σ : Type} (o : Op σ α β)
    (R : c.S → σ → Prop) : Prop where
  stop : ∀ t x, R t x → J t
  step : ∀ t x, R t x → ∀ e, P e →
    (c.step r t e).out = (o.step x e).out ∧ (c.step r t e).exn = (o.step x e).exn ∧
    ((o.step x e).exn = none → R (c.step r t e).st (o.step x e).st) ∧ J (c.step r t e).st

/-- The stepwise form of `Repeats`. -/
def Sim (copies : Bool) (P : Ev α → Prop) (c : Cls ρ α β) (sp : Spec ρ α β) : Prop :=
  ∃ I : c.S → Prop, I c.new ∧ ∀ s, I s → ∀ r,
    (∀ e, sp r = .error e → ∃ t, c.setup r s = (t, some e) ∧ I (c.after copies s t)) ∧
    (∀ o, sp r = .ok o → ∃ t R, c.setup r s = (t, none) ∧ R t o.2.init ∧
      StepSim c r P (fun t => I (c.after copies s t)) o.2 R)

theorem StepSim.feed {c : Cls ρ α β} {r : ρ} {P : Ev α → Prop} {J : c.S → Prop} {σ : Type} {o : Op σ α β}
    {R : c.S → σ → Prop} (h : StepSim c r P J o R) (es : List (Ev α)) (hp : ∀ e ∈ es, P e) : ∀ t x, R t x →
    (c.feed r t es).out = (o.feed x es).out ∧ (c.feed r t es).exn = (o.feed x es).exn ∧
    ((o.feed x es).exn = none → R (c.feed r t es).st (o.feed x es).st) ∧ J (c.feed r t es).st := by
  induction es with
  | nil =>
    intro t x hr
    exact ⟨rfl, rfl, fun _ => hr, h.stop t x hr⟩
  | cons e es ih =>
    intro t x hr
    obtain ⟨h1, h2, h3, h4⟩ := h.step t x hr e (hp e (List.mem_cons_self ..))
    rw [Cls.feed_cons, Op.feed_cons, h2]
    rcases Option.eq_none_or_eq_some (o.step x e).exn with hn | ⟨y, hs⟩
    · simp only [hn, Option.isSome_none, Bool.false_eq_true, if_false]
      obtain ⟨g1, g2, g3, g4⟩ := ih (fun e he => hp e (List.mem_cons_of_mem _ he)) _ _ (h3 hn)
      exact ⟨by rw [h1, g1], g2, g3, g4⟩
    · simp only [hs, Option.isSome_some, if_true]
      exact ⟨h1, by rw [h2, hs], fun hh => by simp at hh, h4⟩

theorem Sim.repeats {copies : Bool} {P : Ev α → Prop} {c : Cls ρ α β} {sp : Spec ρ α β} (h : Sim copies P c sp) :
    Repeats copies P c sp := by
  obtain ⟨I, h0, hI⟩ := h
  suffices H : ∀ rs : List (ρ × List (Ev α)), (∀ run ∈ rs, ∀ e ∈ run.2, P e) → ∀ s, I s →
      c.runs copies s rs = rs.map (once sp) from fun rs hp => H rs hp _ h0
  intro rs
  induction rs with
  | nil => intro _ s _; rfl
  | cons run rs ih =>
    intro hp s hs
    obtain ⟨r, es⟩ := run
    have ih := ih (fun run hr => hp run (List.mem_cons_of_mem _ hr))
    have hpe : ∀ e ∈ es, P e := hp (r, es) (List.mem_cons_self ..)
    rw [runs_cons, List.map_cons]
    unfold once
    cases hsp : sp r with
    | error e =>
      obtain ⟨t, ht, hi⟩ := (hI s hs r).1 e hsp
      have : c.run r s es = ⟨t, [], some e⟩ := by unfold Cls.run; rw [ht]
      rw [this]
      rw [ih _ hi]
      rfl
    | ok o =>
      obtain ⟨t, R, ht, hr, hss⟩ := (hI s hs r).2 o hsp
      have : c.run r s es = c.feed r t es := by unfold Cls.run; rw [ht]
      obtain ⟨g1, g2, g3, g4⟩ := hss.feed es hpe t o.2.init hr
      rw [this, ih _ g4, g1, g2]
      rfl

theorem Repeats.sim {copies : Bool} {P : Ev α → Prop} {c : Cls ρ α β} {sp : Spec ρ α β}
    (h : Repeats copies P c sp) : Sim copies P c sp := by
  refine ⟨fun s => ∀ rs : List (ρ × List (Ev α)), (∀ run ∈ rs, ∀ e ∈ run.2, P e) →
    c.runs copies s rs = rs.map (once sp), h, ?_⟩
  intro s hs r
  -- one run, then others
  have key : ∀ es : List (Ev α), (∀ e ∈ es, P e) →
      ((c.run r s es).out, (c.run r s es).exn) = once sp (r, es) ∧
      ∀ rs : List (ρ × List (Ev α)), (∀ run ∈ rs, ∀ e ∈ run.2, P e) →
        c.runs copies (c.after copies s (c.run r s es).st) rs = rs.map (once sp) := by
    intro es hes
    constructor
    · have := hs [(r, es)] (by intro run hr; rw [List.mem_singleton] at hr; subst hr; exact hes)
      rw [runs_cons] at this
      simp only [List.map_cons, List.cons.injEq] at this
      exact this.1
    · intro rs hrs
      have := hs ((r, es) :: rs) (by
        intro run hr
        rcases List.mem_cons.mp hr with rfl | hr
        · exact hes
        · exact hrs run hr)
      rw [runs_cons] at this
      simp only [List.map_cons, List.cons.injEq] at this
      exact this.2
  constructor
  · intro e he
    obtain ⟨k1, k2⟩ := key [] (by simp)
    unfold once at k1
    simp only [he] at k1
    rcases hset : c.setup r s with ⟨t, _ | x⟩
    · have : c.run r s [] = ⟨t, [], none⟩ := by unfold Cls.run; rw [hset]; rfl
      rw [this] at k1
      simp at k1
    · have : c.run r s [] = ⟨t, [], some x⟩ := by unfold Cls.run; rw [hset]
      rw [this] at k1 k2
      simp only [Prod.mk.injEq, Option.some.injEq, true_and] at k1
      subst k1
      exact ⟨t, rfl, k2⟩
  · intro o ho
    have hset : ∃ t, c.setup r s = (t, none) := by
      obtain ⟨k1, _⟩ := key [] (by simp)
      unfold once at k1
      simp only [ho] at k1
      rcases hset : c.setup r s with ⟨t, _ | x⟩
      · exact ⟨t, rfl⟩
      · have : c.run r s [] = ⟨t, [], some x⟩ := by unfold Cls.run; rw [hset]
        rw [this] at k1
        simp [Op.obs, Op.feed] at k1
    obtain ⟨t, ht⟩ := hset
    have hrun : ∀ es, c.run r s es = c.feed r t es := by intro es; unfold Cls.run; rw [ht]
    have key : ∀ es : List (Ev α), (∀ e ∈ es, P e) →
        ((c.feed r t es).out = (o.2.feed o.2.init es).out ∧ (c.feed r t es).exn = (o.2.feed o.2.init es).exn) ∧
        ∀ rs : List (ρ × List (Ev α)), (∀ run ∈ rs, ∀ e ∈ run.2, P e) →
          c.runs copies (c.after copies s (c.feed r t es).st) rs = rs.map (once sp) := by
      intro es hes
      obtain ⟨k1, k2⟩ := key es hes
      rw [hrun] at k1 k2
      refine ⟨?_, k2⟩
      unfold once at k1
      simp only [ho, Op.obs, Prod.mk.injEq] at k1
      exact k1
    refine ⟨t, fun u x => ∃ es, (∀ e ∈ es, P e) ∧ (c.feed r t es).exn = none ∧ u = (c.feed r t es).st ∧
      x = (o.2.feed o.2.init es).st, ht, ⟨[], by simp, rfl, rfl, rfl⟩, ⟨?_, ?_⟩⟩
    · rintro u x ⟨es, hes, _, rfl, rfl⟩
      exact (key es hes).2
    · rintro u x ⟨es, hes, hn, rfl, rfl⟩ e he
      have hes' : ∀ e' ∈ es ++ [e], P e' := by
        intro e' h'
        rcases List.mem_append.mp h' with h' | h'
        · exact hes e' h'
        · rw [List.mem_singleton] at h'; subst h'; exact he
      obtain ⟨⟨k1, k2⟩, k3⟩ := key (es ++ [e]) hes'
      obtain ⟨⟨l1, l2⟩, _⟩ := key es hes
      have hn' : (o.2.feed o.2.init es).exn = none := by rw [← l2]; exact hn
      have f1 := c.feed_snoc r es e t hn
      have f2 := opfeed_snoc o.2 o.2.init es e hn'
      rw [f1, f2] at k1 k2
      simp only [l1, List.append_cancel_left_eq] at k1
      simp only at k2
      rw [f1] at k3
      refine ⟨k1, k2, ?_, k3⟩
      intro hx
      refine ⟨es ++ [e], hes', ?_, ?_, ?_⟩
      · rw [f1]; simp only; rw [k2, hx]
      · rw [f1]
      · rw [f2]

theorem after_comp (p : Cls ρ α β) (q : Cls ρ β γ) (copies : Bool) {s1 t1 : p.S} {s2 t2 : q.S} {I : p.S → Prop}
    {K : q.S → Prop} (h1 : I (p.after copies s1 t1)) (h2 : K (q.after copies s2 t2)) :
    (fun s : p.S × q.S => I s.1 ∧ K s.2) ((p.comp q).after copies (s1, s2) (t1, t2)) := by
  cases copies <;> exact ⟨h1, h2⟩

theorem after_self (p : Cls ρ α β) (copies : Bool) (s : p.S) : p.after copies s s = s := by
  unfold Cls.after
  cases copies
  · rfl
  · exact p.back_self s

theorem step_eq (c : Cls ρ α β) (r : ρ) (t : c.S) (x : α) :
    (c.step r t (.item x)).st = (c.item r t x).st ∧ (c.step r t (.item x)).out = (c.item r t x).out := by
  simp only [Cls.step, catchKare]
  split <;> exact ⟨rfl, rfl⟩

theorem catch_ne {σ : Type} {x : Res σ β} (h : x.exn ≠ some .kare) : catchKare x = x := by
  unfold catchKare
  rw [if_neg h]

theorem Sim.comp {copies : Bool} {P : Ev α → Prop} {p : Cls ρ α β} {q : Cls ρ β γ} {sp : Spec ρ α β}
    {sq : Spec ρ β γ} (hp : Sim copies P p sp) (hq : Sim copies anyInput q sq) :
    Sim copies P (p.comp q) (sp.comp sq) := by
  obtain ⟨I, hI0, hI⟩ := hp
  obtain ⟨K, hK0, hK⟩ := hq
  refine ⟨fun s : p.S × q.S => I s.1 ∧ K s.2, ⟨hI0, hK0⟩, ?_⟩
  rintro ⟨s1, s2⟩ ⟨hs1, hs2⟩ r
  simp only at hs1 hs2
  have hset : (p.comp q).setup r (s1, s2) = (match p.setup r s1 with
          | (a, some e) => ((a, s2), some e)
          | (a, none) => ((a, (q.setup r s2).1), (q.setup r s2).2)) := rfl
  constructor
  · intro e he
    unfold Spec.comp at he
    cases h1 : sp r with
    | error e1 =>
      simp only [h1, Except.error.injEq] at he
      subst he
      obtain ⟨t, ht, hi⟩ := (hI s1 hs1 r).1 e1 h1
      refine ⟨(t, s2), ?_, after_comp p q copies hi ?_⟩
      · rw [hset, ht]
      · rw [after_self]; exact hs2
    | ok o1 =>
      cases h2 : sq r with
      | error e2 =>
        simp only [h1, h2, Except.error.injEq] at he
        subst he
        obtain ⟨t, R, ht, hr, hss⟩ := (hI s1 hs1 r).2 o1 h1
        obtain ⟨u, hu, hk⟩ := (hK s2 hs2 r).1 e2 h2
        refine ⟨(t, u), ?_, after_comp p q copies (hss.stop t _ hr) hk⟩
        rw [hset, ht, hu]
      | ok o2 => simp [h1, h2] at he
  · intro o ho
    unfold Spec.comp at ho
    cases h1 : sp r with
    | error e1 => simp [h1] at ho
    | ok o1 =>
      cases h2 : sq r with
      | error e2 => simp [h1, h2] at ho
      | ok o2 =>
        simp only [h1, h2, Except.ok.injEq] at ho
        subst ho
        obtain ⟨t, R, ht, hr, hss⟩ := (hI s1 hs1 r).2 o1 h1
        obtain ⟨u, T, hu, hv, hst⟩ := (hK s2 hs2 r).2 o2 h2
        refine ⟨(t, u), fun (a : p.S × q.S) (b : o1.1 × o2.1) => R a.1 b.1 ∧ T a.2 b.2, ?_, ⟨hr, hv⟩, ⟨?_, ?_⟩⟩
        · rw [hset, ht, hu]
        · rintro ⟨a1, a2⟩ ⟨b1, b2⟩ ⟨hab1, hab2⟩
          exact after_comp p q copies (hss.stop _ _ hab1) (hst.stop _ _ hab2)
        · rintro ⟨a1, a2⟩ ⟨b1, b2⟩ ⟨hab1, hab2⟩ e he
          simp only at hab1 hab2
          obtain ⟨g1, g2, g3, g4⟩ := hss.step a1 b1 hab1 e he
          cases e with
          | err m =>
            refine ⟨rfl, rfl, fun _ => ⟨hab1, hab2⟩, after_comp p q copies (hss.stop _ _ hab1) (hst.stop _ _ hab2)⟩
          | flush =>
            simp only [Cls.step, Op.step] at g1 g2 g3 g4
            obtain ⟨f1, f2, f3, f4⟩ := hst.feed (p.flush r a1).out (fun _ _ => trivial) a2 b2 hab2
            rw [g1] at f1 f2 f3 f4
            have e1 : (p.comp q).step r (a1, a2) .flush =
              ⟨((p.flush r a1).st, (q.feed r a2 (p.flush r a1).out).st), (q.feed r a2 (p.flush r a1).out).out,
                (q.feed r a2 (p.flush r a1).out).exn <|> (p.flush r a1).exn⟩ := rfl
            have e2 : (o1.2.comp o2.2).step (b1, b2) .flush =
              ⟨((o1.2.flush b1).st, (o2.2.feed b2 (o1.2.flush b1).out).st), (o2.2.feed b2 (o1.2.flush b1).out).out,
                (o2.2.feed b2 (o1.2.flush b1).out).exn <|> (o1.2.flush b1).exn⟩ := rfl
            rw [e1, e2, g1]
            refine ⟨f1, ?_, ?_, after_comp p q copies g4 f4⟩
            · simp only; rw [f2, g2]
            · simp only
              intro hx
              rcases hy : (o2.2.feed b2 (o1.2.flush b1).out).exn with _ | y
              · rw [hy] at hx
                exact ⟨g3 (by simpa using hx), f3 hy⟩
              · rw [hy] at hx; simp at hx
          | item x =>
            have k1 := step_eq p r a1 x
            have k2 : (o1.2.step b1 (.item x)).st = (o1.2.item b1 x).st ∧
                (o1.2.step b1 (.item x)).out = (o1.2.item b1 x).out := by
              simp only [Op.step]; exact ⟨catchKare_st _, catchKare_out _⟩
            rw [k1.1] at g3 g4
            rw [k1.2, k2.2] at g1
            rw [k2.1] at g3
            have hnf : Ev.flush ∉ (o1.2.item b1 x).out := o1.2.no_flush b1 x
            obtain ⟨f1, f2, f3, f4⟩ := hst.feed (p.item r a1 x).out (fun _ _ => trivial) a2 b2 hab2
            rw [g1] at f1 f2 f3 f4
            have e1 : (p.comp q).step r (a1, a2) (.item x) = catchKare
              ⟨((p.item r a1 x).st, (q.feed r a2 (p.item r a1 x).out).st), (q.feed r a2 (p.item r a1 x).out).out,
                (q.feed r a2 (p.item r a1 x).out).exn <|> (p.item r a1 x).exn⟩ := rfl
            have e2 : (o1.2.comp o2.2).step (b1, b2) (.item x) = catchKare
              ⟨((o1.2.item b1 x).st, (o2.2.feed b2 (o1.2.item b1 x).out).st), (o2.2.feed b2 (o1.2.item b1 x).out).out,
                (o2.2.feed b2 (o1.2.item b1 x).out).exn <|> (o1.2.item b1 x).exn⟩ := rfl
            have hk := Op.feed_exn_ne_kare o2.2 b2 _ hnf
            have g2' : (catchKare (p.item r a1 x)).exn = (catchKare (o1.2.item b1 x)).exn := g2
            rw [catchKare_exn, catchKare_exn] at g2'
            rw [e1, e2, g1, catchKare_out, catchKare_out, catchKare_st, catchKare_st, catchKare_exn, catchKare_exn]
            refine ⟨f1, ?_, ?_, after_comp p q copies g4 f4⟩
            · simp only
              rw [f2]
              rcases hy : (o2.2.feed b2 (o1.2.item b1 x).out).exn with _ | y
              · exact g2'
              · rfl
            · simp only
              intro hx
              rcases hy : (o2.2.feed b2 (o1.2.item b1 x).out).exn with _ | y
              · rw [hy] at hx
                refine ⟨g3 ?_, f3 hy⟩
                show (catchKare (o1.2.item b1 x)).exn = none
                rw [catchKare_exn]
                exact hx
              · rw [hy] at hx hk
                have hx' : (if some y = some Exn.kare then none else some y) = none := hx
                rw [if_neg hk] at hx'
                cases hx'

theorem Repeats.comp {copies : Bool} {P : Ev α → Prop} {p : Cls ρ α β} {q : Cls ρ β γ} {sp : Spec ρ α β}
    {sq : Spec ρ β γ} (hp : Repeats copies P p sp) (hq : Repeats copies anyInput q sq) :
    Repeats copies P (p.comp q) (sp.comp sq) :=
  (hp.sim.comp hq.sim).repeats

end Marcel.Rerun
