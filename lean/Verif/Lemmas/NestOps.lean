import Verif.Lemmas.ExecStages
import Verif.Model.ExecNest
import Verif.Spec.ExecNest
import Verif.Props.C15_SetOps
import Verif.Props.C16_Join

/-! # Lemmas for C94: the operators with pipelines as arguments -/

namespace Marcel.Exec

open Op

set_option linter.unusedSectionVars false

variable {V : Type} [DecidableEq V]

/-! ## What is known about one run of an argument pipeline -/

/-- What the run does is something that the pipeline can do. -/
def RunOf (P : Can V) (a : ArgRun V) : Prop := ∃ s how, P (s, how) ∧ how ≠ .running ∧ Carries ⟨s, how⟩ a.out a.exn

inductive AllRun : List (Can V) → List (ArgRun V) → Prop
  | nil : AllRun [] []
  | cons (P : Can V) (Ps : List (Can V)) (a : ArgRun V) (as : List (ArgRun V)) : RunOf P a → AllRun Ps as → AllRun (P :: Ps) (a :: as)

theorem dropFlush_evs (s : List (Shown V)) (k : Nat) : dropFlush (evs s ++ List.replicate k .flush) = evs s := by
  induction s with
  | nil =>
    rw [evs_nil, List.nil_append]
    induction k with
    | zero => rfl
    | succ k ih => rw [List.replicate_succ]; exact ih
  | cons e s ih => cases e with
    | item x => rw [evs_item, List.cons_append]; simp only [dropFlush, ih]
    | error m => rw [evs_error, List.cons_append]; simp only [dropFlush, ih]

theorem items_evs (s : List (Shown V)) (k : Nat) : items (evs s ++ List.replicate k .flush) = itemsOf s := by
  induction s with
  | nil =>
    rw [evs_nil, List.nil_append]
    induction k with
    | zero => rfl
    | succ k ih => rw [List.replicate_succ]; exact ih
  | cons e s ih => cases e with
    | item x => rw [evs_item, List.cons_append, items_item, ih]; rfl
    | error m => rw [evs_error, List.cons_append]; exact ih

theorem items_evMap {A B : Type} (f : A → B) (es : List (Ev A)) : items (es.map (evMap f)) = (items es).map f := by
  induction es with
  | nil => rfl
  | cons e es ih => cases e <;> simp [evMap, ih]

/-! ## union -/

theorem unionFlush_follows (Ps : List (Can V)) (as : List (ArgRun V)) (h : AllRun Ps as) :
    ∃ s how, Follows Ps s how ∧ ((how = .finished ∧ (unionFlush as).exn = none ∧ ∃ k, (unionFlush as).out = evs s ++ List.replicate k .flush) ∨
      (∃ e, how = .stopped e ∧ (unionFlush as).exn = some e ∧ (unionFlush as).out = evs s)) := by
  induction h with
  | nil => exact ⟨[], .finished, .done, .inl ⟨rfl, rfl, 0, rfl⟩⟩
  | cons P Ps a as h1 h2 ih =>
    obtain ⟨s, how, hP, hr, k, ho, hk⟩ := h1
    cases h2 with
    | nil =>
      rw [show unionFlush [a] = a from rfl]
      cases how with
      | running => exact absurd rfl hr
      | finished =>
        refine ⟨s ++ [], .finished, .next P [] s [] _ hP .done, .inl ⟨rfl, hk.2, k, ?_⟩⟩
        rw [List.append_nil]; exact ho
      | stopped e =>
        refine ⟨s, .stopped e, .stop P [] s e hP, .inr ⟨e, rfl, hk.2, ?_⟩⟩
        rw [ho, hk.1]; simp
    | cons Q Qs b bs h3 h4 =>
      obtain ⟨t, how', hF, hE⟩ := ih
      have hd : dropFlush a.out = evs s := by rw [ho]; exact dropFlush_evs _ _
      have e1 : unionFlush (a :: b :: bs) = if a.exn.isSome then ⟨dropFlush a.out, a.exn⟩ else ⟨dropFlush a.out ++ (unionFlush (b :: bs)).out, (unionFlush (b :: bs)).exn⟩ := rfl
      cases how with
      | running => exact absurd rfl hr
      | stopped e =>
        rw [hk.2] at e1
        simp only [Option.isSome_some, if_true] at e1
        exact ⟨s, .stopped e, .stop P _ s e hP, .inr ⟨e, rfl, by rw [e1], by rw [e1]; exact hd⟩⟩
      | finished =>
        rw [hk.2] at e1
        simp only [Option.isSome_none, Bool.false_eq_true, if_false] at e1
        refine ⟨s ++ t, how', .next P _ s t how' hP hF, ?_⟩
        rw [e1, hd]
        rcases hE with ⟨h5, h6, k', h7⟩ | ⟨e, h5, h6, h7⟩
        · exact .inl ⟨h5, h6, k', by simp only [h7, evs_append, List.append_assoc]⟩
        · exact .inr ⟨e, h5, h6, by simp only [h7, evs_append]⟩

theorem union_feed (as : List (ArgRun V)) (s : List (Shown V)) : (unionOp as).feed () (evs s) = ⟨(), evs s, none⟩ := by
  induction s with
  | nil => rfl
  | cons e s ih => cases e with
    | item x => rw [evs_item, feed_item (s' := ()) (out := [.item x]) (e := none) rfl (.inl rfl), ih]; rfl
    | error m => rw [evs_error, feed_err, ih]

/-- What an operator does if it is told at most once that the stream has ended. -/
def Implements1 (o : AnyOp V) (R : Stream V → Stream V → Prop) : Prop :=
  ∀ s es x, Carries s es x → flushes es ≤ 1 → ∃ t, R s t ∧ Carries t (o.2.obs es).1 ((o.2.obs es).2 <|> x)

theorem flushes_evs (s : List (Shown V)) (k : Nat) : flushes (evs s ++ List.replicate k .flush) = k := by
  induction s with
  | nil =>
    rw [evs_nil, List.nil_append]
    induction k with
    | zero => rfl
    | succ k ih => rw [List.replicate_succ]; simp [flushes, ih]
  | cons e s ih => cases e with
    | item x => rw [evs_item, List.cons_append]; exact ih
    | error m => rw [evs_error, List.cons_append]; exact ih

theorem union_does (Ps : List (Can V)) (as : List (ArgRun V)) (h : AllRun Ps as) : Implements1 ⟨_, unionOp as⟩ (Unites Ps) := by
  intro s es x ⟨k, he, hk⟩ hf
  subst he
  rw [flushes_evs] at hf
  simp only [obs]
  show ∃ t, _ ∧ Carries t ((unionOp as).feed () _).out (((unionOp as).feed () _).exn <|> x)
  rw [feed_append, union_feed]
  simp only [Option.isSome_none, Bool.false_eq_true, if_false]
  by_cases hfin : s.how = .finished
  · rw [hfin] at hk
    obtain rfl : k = 1 := by have := hk.1; omega
    obtain ⟨t, how, h1, h2⟩ := unionFlush_follows Ps as h
    refine ⟨⟨s.sent ++ t, how⟩, ?_, ?_⟩
    · unfold Unites; rw [if_pos hfin]; exact ⟨t, how, h1, rfl⟩
    · rw [show List.replicate 1 (Ev.flush : Ev V) = [.flush] from rfl, feed_cons, step_flush, feed_nil]
      have e1 : (unionOp as).flush () = if (unionFlush as).exn.isSome then ⟨(), (unionFlush as).out, (unionFlush as).exn⟩ else ⟨(), (unionFlush as).out ++ [.flush], none⟩ := rfl
      rw [e1]
      rcases h2 with ⟨rfl, h3, k', h4⟩ | ⟨e, rfl, h3, h4⟩
      · rw [h3, h4, hk.2]
        simp only [Option.isSome_none, Bool.false_eq_true, if_false]
        refine ⟨k' + 1, ?_, Nat.succ_pos _, rfl⟩
        simp only [evs_append, List.append_assoc, List.append_nil, List.replicate_succ']
      · rw [h3, h4]
        simp only [Option.isSome_some, if_true]
        refine ⟨0, ?_, rfl, by simp⟩
        simp only [evs_append, List.replicate_zero, List.append_nil]
  · refine ⟨s, ?_, ?_⟩
    · unfold Unites; rw [if_neg hfin]
    · obtain rfl : k = 0 := by
        cases hh : s.how with
        | finished => exact absurd hh hfin
        | running => rw [hh] at hk; exact hk.1
        | stopped e => rw [hh] at hk; exact hk.1
      refine ⟨0, ?_, ?_⟩
      · simp [feed_nil]
      · rw [List.replicate_zero, feed_nil]
        simpa using hk

/-! ## Operators that need something when the first item comes -/

variable {σ β : Type}

theorem steps_feed (o : Op σ V V) (does : β → V → Except Exn (β × List V) → Prop) (Inv : σ → β → Prop)
    (hstep : ∀ s b x, Inv s b → (∃ b' ys, does b x (.ok (b', ys)) ∧ (o.item s x).out = ofItems ys ∧ (o.item s x).exn = none ∧ Inv (o.item s x).st b') ∨
      (∃ e, e ≠ .kare ∧ does b x (.error e) ∧ (o.item s x).out = [] ∧ (o.item s x).exn = some e)) (s : List (Shown V)) :
    ∀ (st : σ) (b : β), Inv st b → ∃ t e, Steps does b s t e ∧ (o.feed st (evs s)).out = evs t ∧ (o.feed st (evs s)).exn = e := by
  induction s with
  | nil => intro st b _; exact ⟨[], none, .nil b, rfl, rfl⟩
  | cons ev s ih =>
    intro st b hi
    cases ev with
    | error m =>
      obtain ⟨t, e, h1, h2, h3⟩ := ih st b hi
      refine ⟨.error m :: t, e, .error b m s t e h1, ?_, ?_⟩
      · rw [evs_error, feed_err]; simp only [h2, evs_error]
      · rw [evs_error, feed_err]; exact h3
    | item x =>
      rcases hstep st b x hi with ⟨b', ys, h1, h2, h3, h4⟩ | ⟨e, he, h1, h2, h3⟩
      · obtain ⟨t, e, h5, h6, h7⟩ := ih _ b' h4
        have hr : o.item st x = ⟨(o.item st x).st, ofItems ys, none⟩ := by rw [← h2, ← h3]
        refine ⟨ys.map .item ++ t, e, .item b b' x ys s t e h1 h5, ?_, ?_⟩
        · rw [evs_item, feed_item hr (.inl rfl)]; simp only [h6, evs_append, evs_items]
        · rw [evs_item, feed_item hr (.inl rfl)]; exact h7
      · refine ⟨[], some e, .stop b x s e h1, ?_, ?_⟩
        · rw [evs_item, feed_cons, step_item]
          simp [catchKare, h3, he, h2, evs_nil]
        · rw [evs_item, feed_cons, step_item]
          simp [catchKare, h3, he]

/-- If no item comes, nothing happens. -/
theorem errors_feed (o : Op σ V V) (st : σ) (s : List (Shown V)) (h : itemsOf s = []) : o.feed st (evs s) = ⟨st, evs s, none⟩ := by
  induction s with
  | nil => rfl
  | cons e s ih => cases e with
    | item x => rw [itemsOf_item] at h; cases h
    | error m => rw [evs_error, feed_err, ih h]

theorem first_item (s : List (Shown V)) (h : itemsOf s ≠ []) : ∃ before x after, s = before ++ .item x :: after ∧ itemsOf before = [] := by
  induction s with
  | nil => exact absurd rfl h
  | cons e s ih => cases e with
    | item x => exact ⟨[], x, s, rfl, rfl⟩
    | error m =>
      obtain ⟨b, x, a, h1, h2⟩ := ih h
      exact ⟨.error m :: b, x, a, by rw [h1]; rfl, h2⟩

/-- The first event with an item is the same for two states. -/
theorem feed_same (o : Op σ V V) (s0 s1 : σ) (h : ∀ x, o.item s0 x = o.item s1 x) (s : List (Shown V)) (hs : itemsOf s ≠ []) : o.feed s0 (evs s) = o.feed s1 (evs s) := by
  induction s with
  | nil => exact absurd rfl hs
  | cons e s ih => cases e with
    | item x => rw [evs_item, feed_cons, feed_cons, step_item, step_item, h]
    | error m => rw [evs_error, feed_err, feed_err, ih hs]

/-- An operator does what the relation says, and isn't told to go on after an exception when the first item comes. -/
def Implements' (o : AnyOp V) (R : Stream V → Stream V → Prop) : Prop := Implements o R ∧ ∀ x, (o.2.item o.2.init x).exn ≠ some .kare

theorem onFirst_does (o : Op σ V V) (G : Except Exn β → Prop) (does : β → V → Except Exn (β × List V) → Prop) (Inv : σ → β → Prop)
    (hf : ∀ s, o.flush s = ⟨s, [.flush], none⟩)
    (hload : (∃ e, e ≠ .kare ∧ G (.error e) ∧ ∀ x, (o.item o.init x).out = [] ∧ (o.item o.init x).exn = some e) ∨
      (∃ b s0, G (.ok b) ∧ Inv s0 b ∧ ∀ x, o.item o.init x = o.item s0 x))
    (hstep : ∀ s b x, Inv s b → (∃ b' ys, does b x (.ok (b', ys)) ∧ (o.item s x).out = ofItems ys ∧ (o.item s x).exn = none ∧ Inv (o.item s x).st b') ∨
      (∃ e, e ≠ .kare ∧ does b x (.error e) ∧ (o.item s x).out = [] ∧ (o.item s x).exn = some e)) :
    Implements' ⟨σ, o⟩ (OnFirst G does) := by
  refine ⟨?_, fun x => ?_⟩
  rotate_left
  · show (o.item o.init x).exn ≠ some .kare
    rcases hload with ⟨e, he, _, hx⟩ | ⟨b, s0, _, hinv, hx⟩
    · rw [(hx x).2]; intro h; exact he (Option.some.inj h)
    · rw [hx x]
      rcases hstep s0 b x hinv with ⟨_, _, _, _, h, _⟩ | ⟨e, he, _, _, h⟩
      · rw [h]; simp
      · rw [h]; intro h; exact he (Option.some.inj h)
  intro s es x ⟨k, he, hk⟩
  subst he
  simp only [obs]
  rw [feed_append]
  by_cases hi : itemsOf s.sent = []
  · refine ⟨s, .noItems hi, k, ?_, ?_⟩
    · rw [errors_feed o _ _ hi]
      simp only [Option.isSome_none, Bool.false_eq_true, if_false, flush_many o hf]
    · rw [errors_feed o _ _ hi]
      simp only [Option.isSome_none, Bool.false_eq_true, if_false, flush_many o hf]
      simpa using hk
  · rcases hload with ⟨e, he, hG, hx⟩ | ⟨b, s0, hG, hinv, hx⟩
    · obtain ⟨before, y, after, h1, h2⟩ := first_item s.sent hi
      refine ⟨_, .stopped before after y e h1 h2 hG, 0, ?_, rfl, ?_⟩
      · rw [h1, evs_append, evs_item, feed_append, errors_feed o _ _ h2, feed_cons, step_item]
        simp [catchKare, (hx y).2, he, (hx y).1]
      · rw [h1, evs_append, evs_item, feed_append, errors_feed o _ _ h2, feed_cons, step_item]
        simp [catchKare, (hx y).2, he]
    · obtain ⟨t, e, h1, h2, h3⟩ := steps_feed o does Inv hstep s.sent s0 b hinv
      rw [feed_same o _ s0 hx s.sent hi]
      refine ⟨_, .works b t e hi hG h1, ?_⟩
      cases e with
      | none =>
        refine ⟨k, ?_, ?_⟩
        · rw [h3]; simp only [Option.isSome_none, Bool.false_eq_true, if_false, flush_many o hf, h2]
        · rw [h3]; simp only [Option.isSome_none, Bool.false_eq_true, if_false, flush_many o hf]
          simpa using hk
      | some e =>
        refine ⟨0, ?_, rfl, ?_⟩
        · rw [h3]; simp [h2]
        · rw [h3]; simp [h3]

/-- Such an operator as the first of a pipeline. -/
theorem first_sends (w : World V) (R : Stream V → Stream V → Prop) (o : AnyOp V) (hq : (o.2.item o.2.init w.empty).exn ≠ some .kare) (h : Implements1 o R) :
    ∃ es x s, FirstSends w o es x ∧ R ⟨[.item w.empty], .finished⟩ s ∧ Carries s es x := by
  obtain ⟨t, h1, h2⟩ := h ⟨[.item w.empty], .finished⟩ [.item w.empty, .flush] none ⟨1, rfl, by decide, rfl⟩ (Nat.le_refl 1)
  cases hx : (o.2.item o.2.init w.empty).exn with
  | none =>
    refine ⟨_, _, t, .inr ⟨hx, rfl, rfl⟩, h1, ?_⟩
    have e : o.2.feed o.2.init [.item w.empty, .flush] =
        ⟨(o.2.flush (o.2.item o.2.init w.empty).st).st, (o.2.item o.2.init w.empty).out ++ (o.2.flush (o.2.item o.2.init w.empty).st).out, (o.2.flush (o.2.item o.2.init w.empty).st).exn⟩ := by
      rw [feed_item (o := o.2) (s := o.2.init) (s' := (o.2.item o.2.init w.empty).st) (x := w.empty) (out := (o.2.item o.2.init w.empty).out) (e := none)
        (by rw [← hx]) (.inl rfl), feed_cons, step_flush]
      cases hx : (o.2.flush (o.2.item o.2.init w.empty).st).exn <;> simp [feed_nil, hx]
    simp only [obs, e] at h2
    simpa using h2
  | some e =>
    refine ⟨_, _, t, .inl ⟨e, hx, rfl, rfl⟩, h1, ?_⟩
    have hne : e ≠ .kare := fun h => hq (by rw [hx, h])
    have e' : o.2.feed o.2.init [.item w.empty, .flush] = o.2.item o.2.init w.empty := by
      rw [feed_cons, step_item]
      simp [catchKare, hx, hne]
    simp only [obs, e', hx] at h2
    simpa using h2

theorem Implements.one {o : AnyOp V} {R : Stream V → Stream V → Prop} (h : Implements o R) : Implements1 o R := fun s es x hc _ => h s es x hc

/-! ## Loading -/

theorem RunOf.cases {P : Can V} {a : ArgRun V} (h : RunOf P a) (hk : a.exn ≠ some .kare) (good : V → Prop) :
    (∃ x ∈ items a.out, ¬ good x ∧ Gathers good P (.error .kill)) ∨
    ((∀ x ∈ items a.out, good x) ∧ ((a.exn = none ∧ Gathers good P (.ok (items a.out))) ∨ ∃ e, e ≠ .kare ∧ a.exn = some e ∧ Gathers good P (.error e))) := by
  obtain ⟨s, how, hP, hr, k, ho, hh⟩ := h
  have hi : items a.out = itemsOf s := by rw [ho]; exact items_evs _ _
  rw [hi]
  by_cases hg : ∀ x ∈ itemsOf s, good x
  · refine .inr ⟨hg, ?_⟩
    cases how with
    | running => exact absurd rfl hr
    | finished => exact .inl ⟨hh.2, .all s hP hg⟩
    | stopped e => exact .inr ⟨e, (fun h => hk (by rw [hh.2, h])), hh.2, .stopped s e hP hg⟩
  · have : ∃ x ∈ itemsOf s, ¬ good x := by
      apply Classical.byContradiction
      intro hc
      exact hg fun x hx => Classical.byContradiction fun h => hc ⟨x, hx, h⟩
    obtain ⟨x, hx, hb⟩ := this
    exact .inl ⟨x, hx, hb, .bad s how x hP hx hb⟩

theorem tuples_cases (w : World V) {P : Can V} {a : ArgRun V} (h : RunOf P a) (hk : a.exn ≠ some .kare) :
    ((∃ x ∈ items (mapRun (starred w) a).out, w.hashable x = false) ∧ Tuples w P (.error .kill)) ∨
    ((∀ x ∈ items (mapRun (starred w) a).out, w.hashable x = true) ∧
      ((a.exn = none ∧ Tuples w P (.ok (items (mapRun (starred w) a).out))) ∨ ∃ e, e ≠ .kare ∧ a.exn = some e ∧ Tuples w P (.error e))) := by
  have hi : items (mapRun (starred w) a).out = (items a.out).map (asTuple w) := items_evMap _ _
  rw [hi]
  rcases h.cases hk (fun x => w.hashable (asTuple w x) = true) with ⟨x, h1, h2, h3⟩ | ⟨h1, ⟨h2, h3⟩ | ⟨e, h2, h3, h4⟩⟩
  · exact .inl ⟨⟨asTuple w x, List.mem_map_of_mem h1, by simpa using h2⟩, _, h3, rfl⟩
  · refine .inr ⟨?_, .inl ⟨h2, _, h3, rfl⟩⟩
    intro y hy
    obtain ⟨x, hx, rfl⟩ := List.mem_map.mp hy
    exact h1 x hx
  · refine .inr ⟨?_, .inr ⟨e, h2, h3, _, h4, rfl⟩⟩
    intro y hy
    obtain ⟨x, hx, rfl⟩ := List.mem_map.mp hy
    exact h1 x hx

theorem countsAre_nil : CountsAre ([] : Dict V Nat) fun _ => 0 := ⟨by simp [Dict.keys], by simp⟩

/-- Counting the items of a pipeline. -/
theorem counts_load (w : World V) {P : Can V} {a : ArgRun V} (h : RunOf P a) (hk : a.exn ≠ some .kare) :
    (∃ d e, loadCounts w.hashable [] (mapRun (starred w) a).out (mapRun (starred w) a).exn = (d, some e) ∧ e ≠ .kare ∧ Tuples w P (.error e)) ∨
    (∃ d b, loadCounts w.hashable [] (mapRun (starred w) a).out (mapRun (starred w) a).exn = (d, none) ∧ Tuples w P (.ok b) ∧ CountsAre d fun v => b.count v) := by
  rcases tuples_cases w h hk with ⟨h1, h2⟩ | ⟨h1, h2⟩
  · have := loadCounts_unhashable w.hashable [] (mapRun (starred w) a).out (mapRun (starred w) a).exn h1
    exact .inl ⟨_, .kill, Prod.ext rfl this, by decide, h2⟩
  · obtain ⟨d, h3, h4⟩ := loadCounts_spec w.hashable [] (mapRun (starred w) a).out (mapRun (starred w) a).exn _ countsAre_nil h1
    have he : (mapRun (starred w) a).exn = a.exn := rfl
    rcases h2 with ⟨h5, h6⟩ | ⟨e, h5, h6, h7⟩
    · refine .inr ⟨d, _, ?_, h6, ?_⟩
      · rw [h3, he, h5]
      · simpa using h4
    · exact .inl ⟨d, e, by rw [h3, he, h6], h5, h7⟩

/-! ## difference -/

theorem count_erase (b : List V) (x v : V) : (b.erase x).count v = if v = x then b.count v - 1 else b.count v := by
  rw [List.count_erase]
  by_cases h : v = x
  · subst h; simp
  · have : (v == x) = false := by simpa using h
    simp [h, Ne.symm h]

theorem diff_item (w : World V) (d : Dict V Nat) (b : List V) (x : V) (hd : CountsAre d fun v => b.count v) :
    (∃ b' ys, TakesAway w b x (.ok (b', ys)) ∧ (diffItem w.hashable d x).out = ofItems ys ∧ (diffItem w.hashable d x).exn = none ∧
      ∃ d', (diffItem w.hashable d x).st = ⟨false, d'⟩ ∧ CountsAre d' fun v => b'.count v) ∨
    (TakesAway w b x (.error .kill) ∧ (diffItem w.hashable d x).out = [] ∧ (diffItem w.hashable d x).exn = some .kill) := by
  rcases Bool.eq_false_or_eq_true (w.hashable x) with hx | hx
  · left
    by_cases hm : x ∈ b
    · have h0 : 0 < b.count x := List.count_pos_iff.mpr hm
      have hg : d.get? x = some (b.count x) := (hd.2 x).trans (if_neg (Nat.pos_iff_ne_zero.mp h0))
      refine ⟨b.erase x, [], .taken hx hm, ?_⟩
      simp only [diffItem, hx, if_true, hg]
      by_cases h1 : b.count x = 1
      · simp only [h1, if_true]
        refine ⟨rfl, trivial, _, rfl, Dict.nodup_keys_erase _ _ hd.1, ?_⟩
        intro v
        show _ = if (b.erase x).count v = 0 then none else some ((b.erase x).count v)
        rw [Dict.get?_erase _ _ _ hd.1, hd.2 v, count_erase]
        by_cases hv : v = x
        · subst hv; simp [h1]
        · simp [hv, Ne.symm hv]
      · simp only [h1, if_false]
        refine ⟨rfl, trivial, _, rfl, Dict.nodup_keys_set _ _ _ hd.1, ?_⟩
        intro v
        show _ = if (b.erase x).count v = 0 then none else some ((b.erase x).count v)
        rw [Dict.get?_set, hd.2 v, count_erase]
        by_cases hv : v = x
        · subst hv
          rw [if_pos rfl, if_pos rfl, if_neg (by omega)]
        · simp [hv, Ne.symm hv]
    · have h0 : b.count x = 0 := List.count_eq_zero.mpr hm
      have hg : d.get? x = none := by rw [hd.2 x, if_pos h0]
      refine ⟨b, [x], .sent hx hm, ?_⟩
      simp only [diffItem, hx, if_true, hg]
      exact ⟨rfl, trivial, d, rfl, hd⟩
  · right
    refine ⟨.kill hx, ?_⟩
    simp only [diffItem, hx, Bool.false_eq_true, if_false]
    exact ⟨trivial, trivial⟩

theorem difference_does (w : World V) (P : Can V) (a : ArgRun V) (h : RunOf P a) (hk : a.exn ≠ some .kare) :
    Implements' ⟨_, diffOp w.hashable (mapRun (starred w) a)⟩ (OnFirst (Tuples w P) (TakesAway w)) := by
  refine onFirst_does _ _ _ (fun s b => s.first = false ∧ CountsAre s.right fun v => b.count v) (fun _ => rfl) ?_ ?_
  · rcases counts_load w h hk with ⟨d, e, h1, h2, h3⟩ | ⟨d, b, h1, h2, h3⟩
    · refine .inl ⟨e, h2, h3, fun x => ?_⟩
      simp only [diffOp, if_true, h1]
      exact ⟨trivial, trivial⟩
    · refine .inr ⟨b, ⟨false, d⟩, h2, ⟨rfl, h3⟩, fun x => ?_⟩
      simp only [diffOp, if_true, h1, Bool.false_eq_true, if_false]
  · rintro ⟨f, d⟩ b x ⟨rfl, hd⟩
    have e : (diffOp w.hashable (mapRun (starred w) a)).item ⟨false, d⟩ x = diffItem w.hashable d x := by
      simp only [diffOp, Bool.false_eq_true, if_false]
    rw [e]
    rcases diff_item w d b x hd with ⟨b', ys, h1, h2, h3, d', h4, h5⟩ | ⟨h1, h2, h3⟩
    · exact .inl ⟨b', ys, h1, h2, h3, by rw [h4], by rw [h4]; exact h5⟩
    · exact .inr ⟨.kill, by decide, h1, h2, h3⟩

/-! ## intersect -/

/-- None of them would be run again. -/
def NoneAgain (as : List (ArgRun V)) : Prop := ∀ a ∈ as, a.exn ≠ some .kare

theorem isect_more (w : World V) (Ps : List (Can V)) (as : List (ArgRun V)) (h : AllRun Ps as) (hk : NoneAgain as) : Ps ≠ [] → ∀ (c : Dict V Nat) (m : V → Nat), CountsAre c m →
    (∃ c' e, intersectLoad w.hashable (some c) (as.map (mapRun (starred w))) = (c', some e) ∧ e ≠ .kare ∧ Common w Ps (.error e)) ∨
    (∃ c' ys, intersectLoad w.hashable (some c) (as.map (mapRun (starred w))) = (some c', none) ∧ Common w Ps (.ok ys) ∧ CountsAre c' fun v => min (m v) (ys.count v)) := by
  induction h with
  | nil => intro h; exact absurd rfl h
  | cons P Ps a as h1 h2 ih =>
    intro _ c m hc
    have ih := ih fun a h => hk a (List.mem_cons_of_mem _ h)
    rw [List.map_cons]
    rcases counts_load w h1 (hk a List.mem_cons_self) with ⟨d, e, h3, h4, h5⟩ | ⟨d, b, h3, h4, h5⟩
    · refine .inl ⟨some c, e, by simp only [intersectLoad, h3], h4, ?_⟩
      cases Ps with
      | nil => exact .one P _ h5
      | cons Q Qs => exact .first P Q Qs e h5
    · have hm := intersectMerge_spec c d _ _ hc h5
      have e1 : intersectLoad w.hashable (some c) (mapRun (starred w) a :: as.map (mapRun (starred w))) = intersectLoad w.hashable (some (intersectMerge c d)) (as.map (mapRun (starred w))) := by
        simp only [intersectLoad, h3]
      rw [e1]
      cases Ps with
      | nil =>
        cases h2
        exact .inr ⟨_, b, rfl, .one P _ h4, hm⟩
      | cons Q Qs =>
        rcases ih (by simp) _ _ hm with ⟨c', e, h6, h7, h8⟩ | ⟨c', ys, h6, h7, h8⟩
        · exact .inl ⟨c', e, h6, h7, .later P Q Qs b e h4 h8⟩
        · have hz : ∀ v, (keepOccurrences (fun v => ys.count v) b).count v = min (b.count v) (ys.count v) := fun v => by rw [count_keepOccurrences]
          refine .inr ⟨c', _, h6, .all P Q Qs b ys _ h4 h7 hz, ?_⟩
          have : (fun v => min (m v) ((keepOccurrences (fun v => ys.count v) b).count v)) = fun v => min (min (m v) (b.count v)) (ys.count v) := by
            funext v; rw [hz v]; omega
          rw [this]; exact h8

theorem isect_load (w : World V) (Ps : List (Can V)) (as : List (ArgRun V)) (h : AllRun Ps as) (hk : NoneAgain as) :
    (∃ c e, intersectLoad w.hashable none (as.map (mapRun (starred w))) = (c, some e) ∧ e ≠ .kare ∧ Common w Ps (.error e)) ∨
    (intersectLoad w.hashable none (as.map (mapRun (starred w))) = (none, none) ∧ Common w Ps (.error .crash)) ∨
    (∃ c b, intersectLoad w.hashable none (as.map (mapRun (starred w))) = (some c, none) ∧ Common w Ps (.ok b) ∧ CountsAre c fun v => b.count v) := by
  cases h with
  | nil => exact .inr (.inl ⟨rfl, .none⟩)
  | cons P Ps a as h1 h2 =>
    rw [List.map_cons]
    rcases counts_load w h1 (hk a List.mem_cons_self) with ⟨d, e, h3, h4, h5⟩ | ⟨d, b, h3, h4, h5⟩
    · refine .inl ⟨none, e, by simp only [intersectLoad, h3], h4, ?_⟩
      cases Ps with
      | nil => exact .one P _ h5
      | cons Q Qs => exact .first P Q Qs e h5
    · have e1 : intersectLoad w.hashable none (mapRun (starred w) a :: as.map (mapRun (starred w))) = intersectLoad w.hashable (some d) (as.map (mapRun (starred w))) := by
        simp only [intersectLoad, h3]
      rw [e1]
      cases Ps with
      | nil =>
        cases h2
        exact .inr (.inr ⟨_, b, rfl, .one P _ h4, h5⟩)
      | cons Q Qs =>
        rcases isect_more w _ _ h2 (fun a h => hk a (List.mem_cons_of_mem _ h)) (by simp) _ _ h5 with ⟨c', e, h6, h7, h8⟩ | ⟨c', ys, h6, h7, h8⟩
        · exact .inl ⟨c', e, h6, h7, .later P Q Qs b e h4 h8⟩
        · have hz : ∀ v, (keepOccurrences (fun v => ys.count v) b).count v = min (b.count v) (ys.count v) := fun v => by rw [count_keepOccurrences]
          refine .inr (.inr ⟨c', _, h6, .all P Q Qs b ys _ h4 h7 hz, ?_⟩)
          have : (fun v => (keepOccurrences (fun v => ys.count v) b).count v) = fun v => min (b.count v) (ys.count v) := by
            funext v; rw [hz v]
          rw [this]; exact h8

theorem intersect_item_some (h : V → Bool) (as : List (ArgRun V)) (c : Dict V Nat) (x : V) : (intersectOp h as).item (some c) x =
    if h x then (if (c.get? x).getD 0 > 0 then ⟨some (c.set x ((c.get? x).getD 0 - 1)), [.item x], none⟩ else ⟨some c, [], none⟩) else ⟨some c, [], some .kill⟩ := rfl

theorem intersect_does (w : World V) (Ps : List (Can V)) (as : List (ArgRun V)) (h : AllRun Ps as) (hk : NoneAgain as) :
    Implements' ⟨_, intersectOp w.hashable (as.map (mapRun (starred w)))⟩ (OnFirst (Common w Ps) (Keeps w)) := by
  refine onFirst_does _ _ _ (fun s b => ∃ c, s = some c ∧ ∀ v, (c.get? v).getD 0 = b.count v) (fun _ => rfl) ?_ ?_
  · rcases isect_load w Ps as h hk with ⟨c, e, h1, h2, h3⟩ | ⟨h1, h2⟩ | ⟨c, b, h1, h2, h3⟩
    · refine .inl ⟨e, h2, h3, fun x => ?_⟩
      simp only [intersectOp, h1]
      exact ⟨trivial, trivial⟩
    · refine .inl ⟨.crash, by decide, h2, fun x => ?_⟩
      simp only [intersectOp, h1]
      exact ⟨trivial, trivial⟩
    · refine .inr ⟨b, some c, h2, ⟨c, rfl, ?_⟩, fun x => ?_⟩
      · intro v
        rw [h3.2 v]
        by_cases h0 : b.count v = 0
        · simp [h0]
        · simp [h0]
      · simp only [intersectOp, h1]
  · rintro s b x ⟨c, rfl, hc⟩
    rw [intersect_item_some]
    rcases Bool.eq_false_or_eq_true (w.hashable x) with hx | hx
    · left
      simp only [hx, if_true, hc x]
      by_cases hm : x ∈ b
      · have h0 : b.count x > 0 := List.count_pos_iff.mpr hm
        simp only [h0, if_true]
        refine ⟨b.erase x, [x], .sent hx hm, rfl, trivial, _, rfl, ?_⟩
        intro v
        rw [Dict.get?_set, count_erase]
        by_cases hv : v = x
        · subst hv; simp
        · simp [hv, Ne.symm hv, hc v]
      · have h0 : ¬ b.count x > 0 := by rw [List.count_eq_zero.mpr hm]; omega
        simp only [h0, if_false]
        exact ⟨b, [], .dropped hx hm, rfl, trivial, c, rfl, hc⟩
    · right
      simp only [hx, Bool.false_eq_true, if_false]
      exact ⟨.kill, by decide, .kill hx, trivial, rfl⟩

/-! ## join -/

theorem ofItems_evMap {A B : Type} (f : A → B) (xs : List A) : (ofItems xs).map (evMap f) = ofItems (xs.map f) := by
  induction xs with
  | nil => rfl
  | cons x xs ih => simp only [ofItems, List.map_cons, List.map_map] at ih ⊢; simp [evMap]

theorem filter_elems (w : World V) (b : List V) (k : V) : (b.map w.elems).filter (hasKey k) = (b.filter fun y => (w.elems y).head? = some k).map w.elems := by
  rw [List.filter_map]
  congr 1
  apply List.filter_congr
  intro y _
  simp only [Function.comp, hasKey]
  by_cases h : (w.elems y).head? = some k <;> simp [h]

theorem via_same {A B : Type} (i : V → A) (j : B → V) (o : Op σ A B) (s0 s1 : σ) (x : V) (h : o.item s0 (i x) = o.item s1 (i x)) : (viaOp i j o).item s0 x = (viaOp i j o).item s1 x := by
  simp only [viaOp, h]

theorem join_does (w : World V) (keep : Bool) (P : Can V) (a : ArgRun V) (h : RunOf P a) (hk : a.exn ≠ some .kare) :
    Implements' ⟨_, viaOp w.elems w.seq (joinOp w.hashable keep (mapRun w.elems a))⟩
      (OnFirst (Gathers (fun x => ∀ k, (w.elems x).head? = some k → w.hashable k = true) P) (JoinsWith w keep)) := by
  have hi : items (mapRun w.elems a).out = (items a.out).map w.elems := items_evMap _ _
  have hinit : ∀ x, (joinOp w.hashable keep (mapRun w.elems a)).item (joinOp w.hashable keep (mapRun w.elems a)).init x =
      match joinLoad w.hashable [] (mapRun w.elems a).out (mapRun w.elems a).exn with
      | (d, some e) => ⟨⟨true, d⟩, [], some e⟩
      | (d, none) => joinItem w.hashable keep d x := fun _ => rfl
  refine onFirst_does _ _ _ (fun s b => s.first = false ∧ ∀ k, s.inner.get? k = toJoinVal ((b.map w.elems).filter (hasKey k))) (fun _ => rfl) ?_ ?_
  · rcases h.cases hk (fun x => ∀ k, (w.elems x).head? = some k → w.hashable k = true) with ⟨x, h1, h2, h3⟩ | ⟨h1, h2⟩
    · have hb : ∃ y ∈ items (mapRun w.elems a).out, ∃ k, y.head? = some k ∧ w.hashable k = false := by
        refine ⟨w.elems x, by rw [hi]; exact List.mem_map_of_mem h1, ?_⟩
        apply Classical.byContradiction
        intro hc
        refine h2 fun k hk => ?_
        rcases Bool.eq_false_or_eq_true (w.hashable k) with h | h
        · exact h
        · exact absurd ⟨k, hk, h⟩ hc
      have hl := joinLoad_exn w.hashable [] (mapRun w.elems a).out (mapRun w.elems a).exn hb
      have hl' : joinLoad w.hashable [] (mapRun w.elems a).out (mapRun w.elems a).exn = ((joinLoad w.hashable [] (mapRun w.elems a).out (mapRun w.elems a).exn).1, some .kill) := Prod.ext rfl hl
      refine .inl ⟨.kill, by decide, h3, fun y => ?_⟩
      have e := hinit (w.elems y)
      rw [hl'] at e
      show ((joinOp w.hashable keep (mapRun w.elems a)).item (joinOp w.hashable keep (mapRun w.elems a)).init (w.elems y)).out.map _ = [] ∧
        ((joinOp w.hashable keep (mapRun w.elems a)).item (joinOp w.hashable keep (mapRun w.elems a)).init (w.elems y)).exn = _
      rw [e]
      exact ⟨rfl, rfl⟩
    · have hg : ∀ y ∈ items (mapRun w.elems a).out, ∀ k, y.head? = some k → w.hashable k = true := by
        intro y hy k hk'
        rw [hi] at hy
        obtain ⟨x, hx, rfl⟩ := List.mem_map.mp hy
        exact h1 x hx k hk'
      obtain ⟨d, h3, h4⟩ := joinLoad_spec w.hashable [] (mapRun w.elems a).out (mapRun w.elems a).exn [] (fun k => rfl) hg
      have he : (mapRun w.elems a).exn = a.exn := rfl
      rcases h2 with ⟨h5, h6⟩ | ⟨e, h5, h6, h7⟩
      · refine .inr ⟨_, ⟨false, d⟩, h6, ⟨rfl, ?_⟩, fun y => ?_⟩
        · intro k; rw [← hi, h4 k, List.nil_append]
        · have e := hinit (w.elems y)
          rw [h3, he, h5] at e
          have e2 : (joinOp w.hashable keep (mapRun w.elems a)).item ⟨false, d⟩ (w.elems y) = joinItem w.hashable keep d (w.elems y) := rfl
          exact via_same _ _ _ _ _ y (e.trans e2.symm)
      · refine .inl ⟨e, h5, h7, fun y => ?_⟩
        have e' := hinit (w.elems y)
        rw [h3, he, h6] at e'
        show ((joinOp w.hashable keep (mapRun w.elems a)).item (joinOp w.hashable keep (mapRun w.elems a)).init (w.elems y)).out.map _ = [] ∧
          ((joinOp w.hashable keep (mapRun w.elems a)).item (joinOp w.hashable keep (mapRun w.elems a)).init (w.elems y)).exn = _
        rw [e']
        exact ⟨rfl, rfl⟩
  · rintro ⟨f, d⟩ b x ⟨rfl, hd⟩
    have e : (viaOp w.elems w.seq (joinOp w.hashable keep (mapRun w.elems a))).item ⟨false, d⟩ x =
        ⟨(joinItem w.hashable keep d (w.elems x)).st, (joinItem w.hashable keep d (w.elems x)).out.map (evMap w.seq), (joinItem w.hashable keep d (w.elems x)).exn⟩ := rfl
    rw [e]
    cases hx : w.elems x with
    | nil => exact .inr ⟨.crash, by decide, .empty hx, rfl, rfl⟩
    | cons k rest =>
      rcases Bool.eq_false_or_eq_true (w.hashable k) with hh | hh
      · left
        rw [joinItem_spec w.hashable keep d _ hd k rest hh]
        simp only [joined, matching_cons, filter_elems, ofItems_evMap]
        by_cases hm : ∃ y ∈ b, (w.elems y).head? = some k
        · have hne : ¬ (b.filter fun y => (w.elems y).head? = some k).map w.elems = [] := by
            obtain ⟨y, hy, hy'⟩ := hm
            intro h0
            have : y ∈ b.filter fun y => (w.elems y).head? = some k := List.mem_filter.mpr ⟨hy, by simpa using hy'⟩
            rw [List.map_eq_nil_iff.mp h0] at this
            cases this
          rw [if_neg hne]
          refine ⟨b, _, .matched k rest hx hh hm, ?_, trivial, trivial, fun k' => by rw [← filter_elems]; exact hd k'⟩
          simp only [List.map_map, hx]
          congr 1
          apply List.map_congr_left
          intro y _
          simp only [Function.comp, List.drop_one]
        · have hno : (b.filter fun y => (w.elems y).head? = some k).map w.elems = [] := by
            rw [List.map_eq_nil_iff, List.filter_eq_nil_iff]
            intro y hy hy'
            exact hm ⟨y, hy, by simpa using hy'⟩
          rw [if_pos hno]
          refine ⟨b, _, .unmatched k rest hx hh hm, ?_, trivial, trivial, fun k' => by rw [← filter_elems]; exact hd k'⟩
          cases keep
          · rfl
          · simp only [if_true, asTuple, hx]; rfl
      · right
        refine ⟨.kill, by decide, .kill k rest hx hh, ?_⟩
        simp only [joinItem, hh, Bool.false_eq_true, if_false]
        exact ⟨rfl, trivial⟩

/-! ## filter -/

theorem filter_item_some (h : V → Bool) (compare : V → Except Msg V) (discard : Bool) (a : ArgRun V) (r : List V) (x : V) : (filterOp h compare discard a).item (some r) x =
    match compare x with
    | .error _ => ⟨some r, [], some .crash⟩
    | .ok c => if h c then (if decide (c ∈ r) = !discard then ⟨some r, [.item x], none⟩ else ⟨some r, [], none⟩) else ⟨some r, [], some .kill⟩ := rfl

theorem filter_does (w : World V) (discard : Bool) (compare : Option Str) (f : V → Except Msg V) (hf : ∀ x, f x = compared w compare x) (P : Can V) (a : ArgRun V) (h : RunOf P a)
    (hk : a.exn ≠ some .kare) : Implements' ⟨_, filterOp w.hashable f discard (mapRun (starred w) a)⟩ (OnFirst (Tuples w P) (FiltersBy w discard compare)) := by
  have hinit : ∀ x, (filterOp w.hashable f discard (mapRun (starred w) a)).item none x =
      match filterLoad w.hashable [] (mapRun (starred w) a).out (mapRun (starred w) a).exn with
      | (r, some e) => ⟨some r, [], some e⟩
      | (r, none) => (filterOp w.hashable f discard (mapRun (starred w) a)).item (some r) x := by
    intro x
    rcases hl : filterLoad w.hashable [] (mapRun (starred w) a).out (mapRun (starred w) a).exn with ⟨r, _ | e⟩ <;> simp only [filterOp, hl]
  refine onFirst_does _ _ _ (fun s b => ∃ r, s = some r ∧ ∀ c, c ∈ r ↔ c ∈ b) (fun _ => rfl) ?_ ?_
  · rcases tuples_cases w h hk with ⟨h1, h2⟩ | ⟨h1, h2⟩
    · have hl := filterLoad_exn w.hashable [] (mapRun (starred w) a).out (mapRun (starred w) a).exn h1
      have hl' : filterLoad w.hashable [] (mapRun (starred w) a).out (mapRun (starred w) a).exn = ((filterLoad w.hashable [] (mapRun (starred w) a).out (mapRun (starred w) a).exn).1, some .kill) := Prod.ext rfl hl
      refine .inl ⟨.kill, by decide, h2, fun y => ?_⟩
      have e := hinit y
      rw [hl'] at e
      show ((filterOp w.hashable f discard (mapRun (starred w) a)).item none y).out = [] ∧ ((filterOp w.hashable f discard (mapRun (starred w) a)).item none y).exn = _
      rw [e]
      exact ⟨rfl, rfl⟩
    · obtain ⟨r, h3, h4⟩ := filterLoad_spec w.hashable [] (mapRun (starred w) a).out (mapRun (starred w) a).exn h1
      have he : (mapRun (starred w) a).exn = a.exn := rfl
      rcases h2 with ⟨h5, h6⟩ | ⟨e, h5, h6, h7⟩
      · refine .inr ⟨_, some r, h6, ⟨r, rfl, fun c => by rw [h4 c]; simp⟩, fun y => ?_⟩
        have e := hinit y
        rw [h3, he, h5] at e
        exact e
      · refine .inl ⟨e, h5, h7, fun y => ?_⟩
        have e' := hinit y
        rw [h3, he, h6] at e'
        show ((filterOp w.hashable f discard (mapRun (starred w) a)).item none y).out = [] ∧ ((filterOp w.hashable f discard (mapRun (starred w) a)).item none y).exn = _
        rw [e']
        exact ⟨rfl, rfl⟩
  · rintro s b x ⟨r, rfl, hr⟩
    rw [filter_item_some, hf x]
    cases hc : compared w compare x with
    | error m => exact .inr ⟨.crash, by decide, .fails m hc, rfl, rfl⟩
    | ok c =>
      simp only
      rcases Bool.eq_false_or_eq_true (w.hashable c) with hh | hh
      · left
        simp only [hh, if_true]
        by_cases hm : c ∈ r
        · have hb := (hr c).mp hm
          cases discard with
          | false => simp only [hm, decide_true, Bool.not_false, if_true]; exact ⟨b, [x], .sent c hc hh (by simp [hb]), rfl, trivial, r, rfl, hr⟩
          | true => simp only [hm, decide_true, Bool.not_true, Bool.true_eq_false, if_false]; exact ⟨b, [], .dropped c hc hh (by simp [hb]), rfl, trivial, r, rfl, hr⟩
        · have hb : c ∉ b := fun h => hm ((hr c).mpr h)
          cases discard with
          | false => simp only [hm, decide_false, Bool.not_false, Bool.false_eq_true, if_false]; exact ⟨b, [], .dropped c hc hh (by simp [hb]), rfl, trivial, r, rfl, hr⟩
          | true => simp only [hm, decide_false, Bool.not_true, if_true]; exact ⟨b, [x], .sent c hc hh (by simp [hb]), rfl, trivial, r, rfl, hr⟩
      · right
        simp only [hh, Bool.false_eq_true, if_false]
        exact ⟨.kill, by decide, .kill c hc hh, trivial, rfl⟩

end Marcel.Exec
