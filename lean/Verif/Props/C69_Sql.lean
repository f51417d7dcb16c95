import Verif.Lemmas.Stream
import Verif.Spec.Sql

/-! # C69: `sql` commits what it is to commit, whenever it ends -/

namespace Marcel.Sql

variable {D V τ γ : Type}

/-! ## Running a statement -/

theorem Runs.length {drv : Driver D V} {stmt : Str} {d d' : D} {xs ns rss} (h : Runs drv stmt d xs ns rss d') : ns.length = xs.length ∧ rss.length = xs.length := by
  induction h with
  | nil => simp
  | snoc _ _ ih => simp [ih.1, ih.2]

/-- Running a statement has one result. -/
theorem Runs.unique {drv : Driver D V} {stmt : Str} {d d1 d2 : D} {xs ns1 ns2 rss1 rss2} (h1 : Runs drv stmt d xs ns1 rss1 d1) (h2 : Runs drv stmt d xs ns2 rss2 d2) :
    ns1 = ns2 ∧ rss1 = rss2 ∧ d1 = d2 := by
  induction h1 generalizing ns2 rss2 d2 with
  | nil =>
    generalize hx : ([] : List (List V)) = xs at h2
    cases h2 with
    | nil => simp
    | snoc => simp at hx
  | @snoc d1 d1' xs ns rss x n rows hr he ih =>
    generalize hx : xs ++ [x] = ys at h2
    cases h2 with
    | nil => simp at hx
    | @snoc e1 _ ys ns2 rss2 y n2 rows2 hr2 he2 =>
      obtain ⟨h1, h2⟩ := List.append_inj' hx rfl
      subst h1
      simp only [List.cons.injEq, and_true] at h2
      subst h2
      obtain ⟨rfl, rfl, rfl⟩ := ih hr2
      rw [he] at he2
      simp only [Option.some.injEq, Prod.mk.injEq] at he2
      obtain ⟨rfl, rfl, rfl⟩ := he2
      simp

theorem Runs.snoc_inv {drv : Driver D V} {stmt : Str} {d d' : D} {xs x ns rss} (h : Runs drv stmt d (xs ++ [x]) ns rss d') :
    ∃ d1 ns1 rss1 n rows, Runs drv stmt d xs ns1 rss1 d1 ∧ drv.exec stmt x d1 = some (d', rows, n) := by
  generalize hy : xs ++ [x] = ys at h
  cases h with
  | nil => simp at hy
  | snoc hr he =>
    obtain ⟨rfl, e2⟩ := List.append_inj' hy rfl
    simp only [List.cons.injEq, and_true] at e2
    subst e2
    exact ⟨_, _, _, _, _, hr, he⟩

theorem sum_snoc (ns : List Int) (n : Int) : (ns ++ [n]).sum = ns.sum + n := by
  rw [List.sum_append]; simp

/-! ## The operator alone -/

/-- What the state is like when statements with values `xs` have been executed. -/
structure Inv (drv : Driver D V) (stmt : Str) (m : Mode) (d : D) (xs : List (List V)) (ns : List Int) (s : St D) : Prop where
  hist : ∀ h ∈ s.conn.hist, ∃ k rss, Allowed m ns k ∧ Runs drv stmt d (xs.take k) (ns.take k) rss h
  now : ∃ k rss, Due m ns k ∧ Runs drv stmt d (xs.take k) (ns.take k) rss s.conn.committed ∧ (∀ n, m = .every n → s.total = (ns.drop k).sum)

/-- The same when the transaction has been rolled back. -/
structure Kept (drv : Driver D V) (stmt : Str) (m : Mode) (d : D) (xs : List (List V)) (ns : List Int) (s : St D) : Prop where
  hist : ∀ h ∈ s.conn.hist, ∃ k rss, Allowed m ns k ∧ Runs drv stmt d (xs.take k) (ns.take k) rss h
  now : ∃ k rss, Due m ns k ∧ Runs drv stmt d (xs.take k) (ns.take k) rss s.conn.committed

theorem Due.allowed {m : Mode} {ns : List Int} {k : Nat} (h : Due m ns k) : Allowed m ns k := by
  cases m with
  | atEnd => exact h
  | auto => exact Nat.le_of_eq h
  | every n => exact ⟨h.1, h.2.1⟩

theorem Allowed.le {m : Mode} {ns : List Int} {k : Nat} (h : Allowed m ns k) : k ≤ ns.length := by
  cases m with
  | atEnd => simp [show k = 0 from h]
  | auto => exact h
  | every n => exact h.1

theorem Allowed.snoc {m : Mode} {ns : List Int} {k : Nat} (h : Allowed m ns k) (n : Int) : Allowed m (ns ++ [n]) k := by
  have hle := h.le
  cases m with
  | atEnd => exact h
  | auto =>
    show k ≤ _
    simp only [List.length_append, List.length_cons, List.length_nil]
    omega
  | every n =>
    obtain ⟨h1, bs, h2, h3⟩ := h
    refine ⟨by simp only [List.length_append, List.length_cons, List.length_nil]; omega, bs, ?_, h3⟩
    rw [List.take_append_of_le_length h1, h2]

theorem Inv.record {drv : Driver D V} {stmt : Str} {m : Mode} {d : D} {xs ns} {s s' : St D} (h : Inv drv stmt m d xs ns s) (h1 : s'.conn.committed = s.conn.committed)
    (h2 : ∀ x ∈ s'.conn.hist, x ∈ s.conn.hist ∨ x = s.conn.committed) : Kept drv stmt m d xs ns s' := by
  refine ⟨fun x hx => ?_, ?_⟩
  · rcases h2 x hx with hx | rfl
    · exact h.hist x hx
    · obtain ⟨k, rss, hk, hr, _⟩ := h.now
      exact ⟨k, rss, hk.allowed, hr⟩
  · obtain ⟨k, rss, hk, hr, _⟩ := h.now
    exact ⟨k, rss, hk, by rw [h1]; exact hr⟩

theorem batch_of_due {n : Nat} {ns : List Int} {k : Nat} {c : Int} (ho : ∀ p s, ns.drop k = p ++ s → p ≠ [] → p.sum < n) (hs : (n : Int) ≤ (ns.drop k).sum + c) :
    Batch n (ns.drop k ++ [c]) := by
  refine ⟨by simp, by rw [sum_snoc]; exact hs, fun p s he hp hs' => ?_⟩
  rcases List.eq_nil_or_concat s with rfl | ⟨s', y, rfl⟩
  · exact absurd rfl hs'
  · rw [List.concat_eq_append, ← List.append_assoc] at he
    exact ho p s' (List.append_inj' he rfl).1 hp

/-- One more statement. -/
theorem receive_spec {drv : Driver D V} {cfg : Cfg V} {verb : Verb} {d : D} {xs ns rss} {s : St D} (hi : Inv drv cfg.statement (mode cfg verb) d xs ns s)
    (hr : Runs drv cfg.statement d xs ns rss s.conn.work) (x : Option (List V)) :
    let r := receive drv cfg verb s x
    (r.exn = some .kill ∧ r.out = [] ∧ Kept drv cfg.statement (mode cfg verb) d xs ns r.st ∧
        (drv.exec cfg.statement (arg cfg x) s.conn.work = none ∨ ∃ d', drv.commitOk d' = false)) ∨
      (r.exn = none ∧ ∃ rows n, r.out = output drv cfg verb rows n ∧ Inv drv cfg.statement (mode cfg verb) d (xs ++ [arg cfg x]) (ns ++ [n]) r.st ∧
        Runs drv cfg.statement d (xs ++ [arg cfg x]) (ns ++ [n]) (rss ++ [rows]) r.st.conn.work) := by
  have hlen := hr.length.1
  simp only [receive]
  cases he : drv.exec cfg.statement (arg cfg x) s.conn.work with
  | none =>
    left
    simp only [Conn.execute, he]
    exact ⟨trivial, trivial, hi.record rfl (fun y hy => by
      simp only [Conn.rollback, List.mem_cons] at hy
      rcases hy with rfl | rfl | hy
      · exact .inr rfl
      · exact .inr rfl
      · exact .inl hy), by simp⟩
  | some res =>
    obtain ⟨d', rows, n⟩ := res
    have hr' := hr.snoc he
    have htk : ∀ k, k ≤ ns.length → (xs ++ [arg cfg x]).take k = xs.take k ∧ (ns ++ [n]).take k = ns.take k := fun k hk =>
      ⟨List.take_append_of_le_length (by omega), List.take_append_of_le_length hk⟩
    have hall : (xs ++ [arg cfg x]).take (ns.length + 1) = xs ++ [arg cfg x] ∧ (ns ++ [n]).take (ns.length + 1) = ns ++ [n] := by
      constructor <;> apply List.take_of_length_le <;> simp [hlen]
    have hold : ∀ h ∈ s.conn.hist, ∃ k rss, Allowed (mode cfg verb) (ns ++ [n]) k ∧ Runs drv cfg.statement d ((xs ++ [arg cfg x]).take k) ((ns ++ [n]).take k) rss h := by
      intro h hh
      obtain ⟨k, rss, hk, hkr⟩ := hi.hist h hh
      refine ⟨k, rss, hk.snoc n, ?_⟩
      rw [(htk k hk.le).1, (htk k hk.le).2]
      exact hkr
    obtain ⟨k, rssk, hk, hkr, htot⟩ := hi.now
    have hkle := hk.allowed.le
    have holdc : ∃ k rss, Allowed (mode cfg verb) (ns ++ [n]) k ∧ Runs drv cfg.statement d ((xs ++ [arg cfg x]).take k) ((ns ++ [n]).take k) rss s.conn.committed := by
      refine ⟨k, rssk, hk.allowed.snoc n, ?_⟩
      rw [(htk k hkle).1, (htk k hkle).2]
      exact hkr
    rcases Bool.eq_false_or_eq_true cfg.autocommit with ha | ha
    · -- autocommit
      have hm : mode cfg verb = .auto := by simp [mode, ha]
      rcases Bool.eq_false_or_eq_true (drv.commitOk d') with hc | hc
      · right
        have hinv : Inv drv cfg.statement (mode cfg verb) d (xs ++ [arg cfg x]) (ns ++ [n]) ⟨⟨d', d', d' :: s.conn.hist⟩, s.total⟩ := by
          rw [hm]
          refine ⟨fun h hh => ?_, ns.length + 1, rss ++ [rows], by simp [Due], ?_, fun _ h => by cases h⟩
          · rcases List.mem_cons.mp hh with rfl | hh
            · refine ⟨ns.length + 1, rss ++ [rows], by simp [Allowed], ?_⟩
              rw [hall.1, hall.2]
              exact hr'
            · rw [← hm]; exact hold h hh
          · rw [hall.1, hall.2]
            exact hr'
        simp only [Conn.execute, he, ha, hc, if_true]
        by_cases hv : verb = .select
        · rw [if_pos hv]
          exact ⟨rfl, rows, n, by simp [output, hv], hinv, hr'⟩
        · rw [if_neg hv]
          simp only [commitIfNecessary, ha, Bool.not_true, Bool.false_and, Bool.false_eq_true, if_false]
          exact ⟨trivial, rows, n, by simp [output, hv], hinv, hr'⟩
      · left
        simp only [Conn.execute, he, ha, hc, if_true, Bool.false_eq_true, if_false]
        exact ⟨trivial, trivial, hi.record rfl (fun y hy => by
          simp only [Conn.rollback, List.mem_cons] at hy
          rcases hy with rfl | rfl | hy
          · exact .inr rfl
          · exact .inr rfl
          · exact .inl hy), .inr ⟨d', hc⟩⟩
    · simp only [Conn.execute, he, ha, Bool.false_eq_true, if_false]
      by_cases hv : verb = .select
      · right
        rw [if_pos hv]
        have hm : mode cfg verb = .atEnd := by simp [mode, ha, hv]
        refine ⟨rfl, rows, n, by simp [output, hv], ⟨fun h hh => ?_, k, rssk, ?_, ?_, ?_⟩, hr'⟩
        · rcases List.mem_cons.mp hh with rfl | hh
          · exact holdc
          · exact hold h hh
        · rw [hm] at hk ⊢; exact hk
        · rw [(htk k hkle).1, (htk k hkle).2]; exact hkr
        · rw [hm]; intro _ h; cases h
      · rw [if_neg hv]
        by_cases h0 : cfg.commit = 0
        · right
          have hm : mode cfg verb = .atEnd := by simp [mode, ha, h0]
          simp only [commitIfNecessary, ha, h0, Bool.not_false, Bool.true_and, Nat.lt_irrefl, gt_iff_lt, decide_false, Bool.false_eq_true, if_false]
          refine ⟨trivial, rows, n, by simp [output, hv], ⟨fun h hh => ?_, k, rssk, ?_, ?_, ?_⟩, hr'⟩
          · rcases List.mem_cons.mp hh with rfl | hh
            · exact holdc
            · exact hold h hh
          · rw [hm] at hk ⊢; exact hk
          · rw [(htk k hkle).1, (htk k hkle).2]; exact hkr
          · rw [hm]; intro _ h; cases h
        · have hm : mode cfg verb = .every cfg.commit := by simp [mode, ha, h0, hv]
          have hpos : cfg.commit > 0 := Nat.pos_of_ne_zero h0
          have htot := htot _ hm
          have hk' := hk
          rw [hm] at hk'
          obtain ⟨_, ⟨bs, hb1, hb2⟩, ho⟩ := hk'
          have hdrop : (ns ++ [n]).drop k = ns.drop k ++ [n] := List.drop_append_of_le_length hkle
          simp only [commitIfNecessary, ha, hpos, Bool.not_false, Bool.true_and, decide_true, if_true]
          by_cases hge : s.total + n ≥ cfg.commit
          · rw [if_pos hge]
            simp only [Conn.commit]
            have hbatch : Batch cfg.commit (ns.drop k ++ [n]) := batch_of_due ho (by rw [← htot]; exact hge)
            have hbs : ∀ j, j = ns.length + 1 → (ns ++ [n]).take j = (bs ++ [ns.drop k ++ [n]]).flatten := by
              rintro j rfl
              rw [hall.2, List.flatten_append, ← hb1]
              simp only [List.flatten_cons, List.flatten_nil, List.append_nil]
              rw [← List.append_assoc, List.take_append_drop]
            have hbs2 : ∀ b ∈ bs ++ [ns.drop k ++ [n]], Batch cfg.commit b := by
              intro b hb
              rcases List.mem_append.mp hb with hb | hb
              · exact hb2 b hb
              · rw [List.mem_singleton] at hb
                rw [hb]; exact hbatch
            rcases Bool.eq_false_or_eq_true (drv.commitOk d') with hc | hc
            · right
              simp only [hc, if_true]
              refine ⟨trivial, rows, n, by simp [output, hv], ⟨fun h hh => ?_, ns.length + 1, rss ++ [rows], ?_, ?_, ?_⟩, hr'⟩
              · rcases List.mem_cons.mp hh with rfl | hh
                · refine ⟨ns.length + 1, rss ++ [rows], ?_, ?_⟩
                  · rw [hm]
                    exact ⟨by simp, _, hbs _ rfl, hbs2⟩
                  · rw [hall.1, hall.2]; exact hr'
                · rcases List.mem_cons.mp hh with rfl | hh
                  · exact holdc
                  · exact hold h hh
              · rw [hm]
                refine ⟨by simp, ⟨_, hbs _ rfl, hbs2⟩, fun p s hp hpne => ?_⟩
                rw [List.drop_of_length_le (by simp)] at hp
                exact absurd (List.append_eq_nil_iff.mp hp.symm).1 hpne
              · rw [hall.1, hall.2]; exact hr'
              · intro _ _
                rw [List.drop_of_length_le (by simp)]
                rfl
            · left
              simp only [hc, Bool.false_eq_true, if_false]
              exact ⟨trivial, trivial, hi.record rfl (fun y hy => by
                simp only [Conn.rollback, List.mem_cons] at hy
                rcases hy with rfl | rfl | rfl | hy
                · exact .inr rfl
                · exact .inr rfl
                · exact .inr rfl
                · exact .inl hy), .inr ⟨d', hc⟩⟩
          · right
            rw [if_neg hge]
            refine ⟨rfl, rows, n, by simp [output, hv], ⟨fun h hh => ?_, k, rssk, ?_, ?_, ?_⟩, hr'⟩
            · rcases List.mem_cons.mp hh with rfl | hh
              · exact holdc
              · exact hold h hh
            · rw [hm]
              refine ⟨by simp only [List.length_append, List.length_cons, List.length_nil]; omega, ⟨bs, by rw [(htk k hkle).2, hb1], hb2⟩, fun p s hp hpne => ?_⟩
              rw [hdrop] at hp
              rcases List.eq_nil_or_concat s with rfl | ⟨s', y, rfl⟩
              · rw [List.append_nil] at hp
                rw [← hp, sum_snoc, ← htot]
                omega
              · rw [List.concat_eq_append, ← List.append_assoc] at hp
                exact ho p s' (List.append_inj' hp rfl).1 hpne
            · rw [(htk k hkle).1, (htk k hkle).2]; exact hkr
            · intro _ _
              rw [hdrop, sum_snoc, htot]

theorem Inv.kept {drv : Driver D V} {stmt : Str} {m : Mode} {d : D} {xs ns} {s : St D} (h : Inv drv stmt m d xs ns s) : Kept drv stmt m d xs ns s :=
  ⟨h.hist, by obtain ⟨k, rss, h1, h2, _⟩ := h.now; exact ⟨k, rss, h1, h2⟩⟩

/-- Any input without end of stream. -/
theorem feed_spec {drv : Driver D V} {cfg : Cfg V} {verb : Verb} {d0 d : D} (es : List (Ev (Option (List V)))) (hf : Ev.flush ∉ es) {xs ns rss} {s : St D}
    (hi : Inv drv cfg.statement (mode cfg verb) d xs ns s) (hr : Runs drv cfg.statement d xs ns rss s.conn.work) :
    let r := (op drv cfg verb d0).feed s es
    ∃ es1 es2 ns' rss' dn, es = es1 ++ es2 ∧ Runs drv cfg.statement d (xs ++ (items es1).map (arg cfg)) (ns ++ ns') (rss ++ rss') dn ∧
      Kept drv cfg.statement (mode cfg verb) d (xs ++ (items es1).map (arg cfg)) (ns ++ ns') r.st ∧ r.out = outputs drv cfg verb es1 ns' rss' ∧
      ((r.exn = none ∧ es2 = [] ∧ dn = r.st.conn.work ∧ Inv drv cfg.statement (mode cfg verb) d (xs ++ (items es1).map (arg cfg)) (ns ++ ns') r.st) ∨
        (r.exn = some .kill ∧ ∃ x es3, es2 = .item x :: es3 ∧ (drv.exec cfg.statement (arg cfg x) dn = none ∨ ∃ d', drv.commitOk d' = false))) := by
  induction es generalizing xs ns rss s with
  | nil =>
    refine ⟨[], [], [], [], s.conn.work, rfl, by simpa using hr, by simpa [Op.feed_nil] using hi.kept, by simp [Op.feed_nil, outputs], .inl ⟨by simp [Op.feed_nil], rfl, rfl, by simpa [Op.feed_nil] using hi⟩⟩
  | cons e es ih =>
    rw [List.mem_cons, not_or] at hf
    simp only
    rw [Op.feed_cons]
    cases e with
    | flush => exact absurd rfl hf.1
    | err m =>
      simp only [Op.step_err, Option.isSome_none, Bool.false_eq_true, if_false]
      obtain ⟨es1, es2, ns', rss', dn, h1, h2, h3, h4, h5⟩ := ih hf.2 hi hr
      refine ⟨.err m :: es1, es2, ns', rss', dn, by rw [h1]; rfl, by simpa using h2, by simpa using h3, by rw [h4]; cases ns' <;> cases rss' <;> rfl, ?_⟩
      rcases h5 with ⟨a, b, c, e⟩ | ⟨a, x, es3, b⟩
      · exact .inl ⟨a, b, c, by simpa using e⟩
      · exact .inr ⟨a, x, es3, b⟩
    | item x =>
      have hstep := receive_spec hi hr x
      have hnk : (receive drv cfg verb s x).exn ≠ some .kare := by
        rcases hstep with ⟨h, _⟩ | ⟨h, _⟩ <;> rw [h] <;> simp
      have hs : (op drv cfg verb d0).step s (.item x) = receive drv cfg verb s x := by
        rw [Op.step_item, Op.catchKare]
        exact if_neg hnk
      rw [hs]
      rcases hstep with ⟨h1, h2, h3, h4⟩ | ⟨h1, rows, n, h2, h3, h4⟩
      · rw [if_pos (by rw [h1]; rfl)]
        refine ⟨[], .item x :: es, [], [], _, rfl, by simpa using hr, by simpa using h3, by simp [h2, outputs], .inr ⟨h1, x, es, rfl, h4⟩⟩
      · rw [if_neg (by rw [h1]; simp)]
        obtain ⟨es1, es2, ns', rss', dn, i1, i2, i3, i4, i5⟩ := ih hf.2 h3 h4
        refine ⟨.item x :: es1, es2, n :: ns', rows :: rss', dn, by rw [i1]; rfl, by simpa using i2, by simpa using i3, ?_, ?_⟩
        · simp only [h2, i4, outputs]
        · rcases i5 with ⟨a, b, c, e⟩ | ⟨a, x, es3, b⟩
          · exact .inl ⟨a, b, c, by simpa using e⟩
          · exact .inr ⟨a, x, es3, b⟩

/-! ## With other operators after it -/

/-- The state of the first operator is that after a part of the input: all of it if there was no exception. -/
theorem comp_feed {σ τ α β γ : Type} (p : Op σ α β) (q : Op τ β γ) (es : List (Ev α)) (s : σ) (t : τ) :
    ∃ es1 es2, es = es1 ++ es2 ∧ ((p.comp q).feed (s, t) es).st.1 = (p.feed s es1).st ∧
      (((p.comp q).feed (s, t) es).exn = none → es2 = [] ∧ (p.feed s es).exn = none) := by
  induction es generalizing s t with
  | nil => exact ⟨[], [], rfl, rfl, fun _ => ⟨rfl, rfl⟩⟩
  | cons e es ih =>
    obtain ⟨h1, h2, h3⟩ := Op.comp_step p q s t e
    rw [Op.feed_cons]
    by_cases hx : ((p.comp q).step (s, t) e).exn.isSome
    · rw [if_pos hx]
      refine ⟨[e], es, rfl, ?_, fun h => ?_⟩
      · rw [h3, Op.feed_cons]
        split <;> rfl
      · rw [h] at hx; cases hx
    · rw [if_neg hx, h3]
      obtain ⟨es1, es2, i1, i2, i3⟩ := ih (p.step s e).st (q.feed t (p.step s e).out).st
      have hp : (p.step s e).exn = none := by
        cases hq : (q.feed t (p.step s e).out).exn <;> rw [hq] at h2 <;> rw [h2] at hx
        · simpa using hx
        · simp at hx
      refine ⟨e :: es1, es2, by rw [i1]; rfl, ?_, fun h => ?_⟩
      · rw [Op.feed_cons, if_neg (by simp [hp])]
        exact i2
      · obtain ⟨j1, j2⟩ := i3 h
        refine ⟨j1, ?_⟩
        rw [Op.feed_cons, if_neg (by simp [hp])]
        exact j2

theorem init_inv (drv : Driver D V) (cfg : Cfg V) (verb : Verb) (d : D) : Inv drv cfg.statement (mode cfg verb) d [] [] (op drv cfg verb d).init := by
  refine ⟨fun h hh => ?_, 0, [], ?_, .nil, fun _ _ => by simp [op]⟩
  · rw [show h = d by simpa [op] using hh]
    refine ⟨0, [], ?_, .nil⟩
    cases mode cfg verb with
    | atEnd => rfl
    | auto => simp [Allowed]
    | every n => exact ⟨by simp, [], by simp, by simp⟩
  · cases mode cfg verb with
    | atEnd => rfl
    | auto => simp [Due]
    | every n =>
      refine ⟨by simp, ⟨[], by simp, by simp⟩, fun p s h hp => ?_⟩
      simp only [List.drop_nil] at h
      exact absurd (List.append_eq_nil_iff.mp h.symm).1 hp

/-! ## The claims -/

/-- The input binds what the documentation says: there are no ARGs, or `sql` is first in its pipeline. -/
def Plain (cfg : Cfg V) (xs : List (Option (List V))) : Prop := cfg.args = [] ∨ ∀ x ∈ xs, x = none

theorem bound_arg {cfg : Cfg V} {xs : List (Option (List V))} (h : Plain cfg xs) : xs.map (arg cfg) = xs.map (bound cfg.args) := by
  refine List.map_congr_left fun x hx => ?_
  rcases h with h | h
  · cases x <;> simp [arg, bound, h]
  · rw [h x hx]
    cases ha : cfg.args <;> simp [arg, bound, ha]

theorem Plain.prefix {cfg : Cfg V} {a b : List (Option (List V))} (h : Plain cfg (a ++ b)) : Plain cfg a := by
  rcases h with h | h
  · exact .inl h
  · exact .inr fun x hx => h x (by simp [hx])

/-- **C69**, before the end of the input: the statements executed so far are those for a first part of the input (all of it if there was no exception), and what is committed, at
any time and if the command ends now for whatever reason (the last part), are the effects of a first part of these, as determined by the flags. -/
theorem C69_running_partial (drv : Driver D V) (cfg : Cfg V) (verb : Verb) (d : D) (q : Op τ (List V) γ) (es : List (Ev (Option (List V)))) (hf : Ev.flush ∉ es) (hp : Plain cfg (items es)) :
    let r := ((op drv cfg verb d).comp q).feed ((op drv cfg verb d).comp q).init es
    let xs := (items es).map (bound cfg.args)
    ∃ n ns rss dn, Runs drv cfg.statement d (xs.take n) ns rss dn ∧ (r.exn = none → n = xs.length) ∧
      (∀ h ∈ r.st.1.conn.hist, ∃ k rss', Allowed (mode cfg verb) ns k ∧ Runs drv cfg.statement d (xs.take k) (ns.take k) rss' h) ∧
      ∃ k rss', Due (mode cfg verb) ns k ∧ Runs drv cfg.statement d (xs.take k) (ns.take k) rss' (closed r.st.1) := by
  obtain ⟨es1, es2, h1, h2, h3⟩ := comp_feed (op drv cfg verb d) q es (op drv cfg verb d).init q.init
  have hf1 : Ev.flush ∉ es1 := fun h => hf (by rw [h1]; simp [h])
  obtain ⟨ea, eb, ns, rss, dn, i1, i2, i3, i4, i5⟩ := feed_spec (d0 := d) es1 hf1 (init_inv drv cfg verb d) .nil
  simp only [List.nil_append] at i2 i3 i4
  have hes : items es = items ea ++ items (eb ++ es2) := by rw [h1, i1, List.append_assoc, items_append]
  have hpa : Plain cfg (items ea) := by rw [hes] at hp; exact hp.prefix
  rw [bound_arg hpa] at i2 i3
  have hlen := i2.length.1
  have htake : ((items es).map (bound cfg.args)).take (items ea).length = (items ea).map (bound cfg.args) := by
    rw [hes, List.map_append, List.take_left' (by simp)]
  have htk : ∀ k, k ≤ ns.length → ((items ea).map (bound cfg.args)).take k = ((items es).map (bound cfg.args)).take k := by
    intro k hk
    rw [← htake, List.take_take, Nat.min_eq_left]
    simpa [hlen] using hk
  refine ⟨(items ea).length, ns, rss, dn, by rw [htake]; exact i2, fun hx => ?_, fun h hh => ?_, ?_⟩
  · obtain ⟨rfl, hx⟩ := h3 hx
    rw [List.append_nil] at h1
    subst h1
    rcases i5 with ⟨_, rfl, _⟩ | ⟨h, _⟩
    · rw [List.append_nil] at i1
      rw [i1]; simp
    · rw [hx] at h; cases h
  · have hh' : h ∈ ((op drv cfg verb d).feed (op drv cfg verb d).init es1).st.conn.hist := by rw [← h2]; exact hh
    obtain ⟨k, rss', hk, hr⟩ := i3.hist h hh'
    exact ⟨k, rss', hk, by rw [← htk k hk.le]; exact hr⟩
  · obtain ⟨k, rss', hk, hr⟩ := i3.now
    refine ⟨k, rss', hk, ?_⟩
    rw [← htk k hk.allowed.le]
    have : closed (((op drv cfg verb d).comp q).feed ((op drv cfg verb d).comp q).init es).st.1 = ((op drv cfg verb d).feed (op drv cfg verb d).init es1).st.conn.committed := by
      rw [← h2]; rfl
    rw [this]
    exact hr

/-- The state after end of stream. -/
theorem comp_feed_flush (drv : Driver D V) (cfg : Cfg V) (verb : Verb) (d : D) (q : Op τ (List V) γ) (es : List (Ev (Option (List V)))) :
    let o := (op drv cfg verb d).comp q
    let r0 := o.feed o.init es
    let r := o.feed o.init (es ++ [.flush])
    (r0.exn ≠ none ∧ r = r0) ∨ (r0.exn = none ∧ r.st.1 = (flush drv r0.st.1).st ∧ (r.exn = none → (flush drv r0.st.1).exn = none)) := by
  simp only
  rw [Op.feed_append]
  by_cases hx : (((op drv cfg verb d).comp q).feed ((op drv cfg verb d).comp q).init es).exn.isSome
  · left
    rw [if_pos hx]
    exact ⟨(fun h => by rw [h] at hx; cases hx), rfl⟩
  · right
    rw [if_neg hx]
    obtain ⟨h1, h2, h3⟩ := Op.comp_step (op drv cfg verb d) q (((op drv cfg verb d).comp q).feed ((op drv cfg verb d).comp q).init es).st.1
      (((op drv cfg verb d).comp q).feed ((op drv cfg verb d).comp q).init es).st.2 .flush
    refine ⟨by simpa using hx, ?_, ?_⟩
    · simp only [Op.feed_cons, Op.feed_nil]
      split
      · rw [h3]; rfl
      · show (((op drv cfg verb d).comp q).step _ _).st.1 = _
        rw [h3]; rfl
    · simp only [Op.feed_cons, Op.feed_nil]
      intro h
      split at h
      · rename_i hh
        rw [h] at hh; cases hh
      · rename_i hh
        rw [h2] at hh
        show ((op drv cfg verb d).step (((op drv cfg verb d).comp q).feed ((op drv cfg verb d).comp q).init es).st.1 .flush).exn = none
        cases hq : (q.feed (((op drv cfg verb d).comp q).feed ((op drv cfg verb d).comp q).init es).st.2
          ((op drv cfg verb d).step (((op drv cfg verb d).comp q).feed ((op drv cfg verb d).comp q).init es).st.1 .flush).out).exn with
        | none => rw [hq] at hh; simpa using hh
        | some y => rw [hq] at hh; simp at hh

/-- **C69**, with the end of the input: if the command ends without exception, everything has been committed; at any time and in any case, it is everything or what has
to be committed before the end. -/
theorem C69_ended_partial (drv : Driver D V) (cfg : Cfg V) (verb : Verb) (d : D) (q : Op τ (List V) γ) (es : List (Ev (Option (List V)))) (hf : Ev.flush ∉ es) (hp : Plain cfg (items es)) :
    let r := ((op drv cfg verb d).comp q).feed ((op drv cfg verb d).comp q).init (es ++ [.flush])
    let xs := (items es).map (bound cfg.args)
    (r.exn = none → ∃ ns rss, Runs drv cfg.statement d xs ns rss (closed r.st.1)) ∧
      (∀ h, h ∈ r.st.1.conn.hist ∨ h = closed r.st.1 → (∃ ns rss, Runs drv cfg.statement d xs ns rss h) ∨
        ∃ n ns rss dn k rss', Runs drv cfg.statement d (xs.take n) ns rss dn ∧ Allowed (mode cfg verb) ns k ∧ Runs drv cfg.statement d (xs.take k) (ns.take k) rss' h) := by
  have hrun := C69_running_partial drv cfg verb d q es hf hp
  have hfl := comp_feed_flush drv cfg verb d q es
  -- the data in the transaction
  have hwork : (((op drv cfg verb d).comp q).feed ((op drv cfg verb d).comp q).init es).exn = none →
      ∃ ns rss, Runs drv cfg.statement d ((items es).map (bound cfg.args)) ns rss (((op drv cfg verb d).comp q).feed ((op drv cfg verb d).comp q).init es).st.1.conn.work := by
    intro hx
    obtain ⟨es1, es2, h1, h2, h3⟩ := comp_feed (op drv cfg verb d) q es (op drv cfg verb d).init q.init
    obtain ⟨rfl, hx'⟩ := h3 hx
    rw [List.append_nil] at h1
    subst h1
    obtain ⟨ea, eb, ns, rss, dn, i1, i2, i3, i4, i5⟩ := feed_spec (d0 := d) es hf (init_inv drv cfg verb d) .nil
    rcases i5 with ⟨_, rfl, i6, _⟩ | ⟨h, _⟩
    · rw [List.append_nil] at i1
      subst i1
      simp only [List.nil_append] at i2
      rw [bound_arg hp, i6, ← h2] at i2
      exact ⟨ns, rss, i2⟩
    · rw [hx'] at h; cases h
  simp only at hrun hfl ⊢
  generalize ((op drv cfg verb d).comp q).feed ((op drv cfg verb d).comp q).init es = r0 at hrun hfl hwork
  generalize ((op drv cfg verb d).comp q).feed ((op drv cfg verb d).comp q).init (es ++ [.flush]) = r at hfl
  obtain ⟨n, ns, rss, dn, h1, h2, h3, k, rss', h4, h5⟩ := hrun
  have hbefore : ∀ h, h ∈ r0.st.1.conn.hist ∨ h = r0.st.1.conn.committed → ∃ n ns rss dn k rss', Runs drv cfg.statement d (((items es).map (bound cfg.args)).take n) ns rss dn ∧ Allowed (mode cfg verb) ns k ∧
      Runs drv cfg.statement d (((items es).map (bound cfg.args)).take k) (ns.take k) rss' h := by
    rintro h (hh | rfl)
    · obtain ⟨k, rss', j1, j2⟩ := h3 h hh
      exact ⟨n, ns, rss, dn, k, rss', h1, j1, j2⟩
    · exact ⟨n, ns, rss, dn, k, rss', h1, h4.allowed, h5⟩
  rcases hfl with ⟨hx, rfl⟩ | ⟨hx, hst, hex⟩
  · exact ⟨fun h => absurd h hx, fun h hh => .inr (hbefore h hh)⟩
  · obtain ⟨ns2, rss2, hw⟩ := hwork hx
    rw [hst]
    unfold flush Conn.commit
    unfold flush Conn.commit at hex
    rcases Bool.eq_false_or_eq_true (drv.commitOk r0.st.1.conn.work) with hc | hc
    · simp only [hc, if_true]
      refine ⟨fun _ => ⟨ns2, rss2, hw⟩, fun h hh => ?_⟩
      simp only [List.mem_cons] at hh
      rcases hh with (rfl | hh) | rfl
      · exact .inl ⟨ns2, rss2, hw⟩
      · exact .inr (hbefore h (.inl hh))
      · exact .inl ⟨ns2, rss2, hw⟩
    · simp only [hc, Bool.false_eq_true, if_false] at hex ⊢
      refine ⟨(fun h => by have := hex h; cases this), fun h hh => .inr (hbefore h ?_)⟩
      simp only [Conn.rollback, List.mem_cons] at hh
      rcases hh with (rfl | rfl | hh) | rfl
      · exact .inr rfl
      · exact .inr rfl
      · exact .inl hh
      · exact .inr rfl

/-- **C69**, without `--commit` and `--autocommit`: all or nothing, at any time; nothing if a statement fails. -/
theorem C69_all_or_nothing_partial (drv : Driver D V) (cfg : Cfg V) (verb : Verb) (d : D) (q : Op τ (List V) γ) (es : List (Ev (Option (List V)))) (hf : Ev.flush ∉ es) (hp : Plain cfg (items es))
    (ha : cfg.autocommit = false) (hc : cfg.commit = 0) :
    let r := ((op drv cfg verb d).comp q).feed ((op drv cfg verb d).comp q).init (es ++ [.flush])
    let xs := (items es).map (bound cfg.args)
    (r.exn = none → ∃ ns rss, Runs drv cfg.statement d xs ns rss (closed r.st.1)) ∧
      (∀ h, h ∈ r.st.1.conn.hist ∨ h = closed r.st.1 → h = d ∨ ∃ ns rss, Runs drv cfg.statement d xs ns rss h) ∧
      ((¬ ∃ ns rss d', Runs drv cfg.statement d xs ns rss d') → r.exn ≠ none ∧ closed r.st.1 = d) := by
  obtain ⟨h1, h2⟩ := C69_ended_partial drv cfg verb d q es hf hp
  have hm : mode cfg verb = .atEnd := by simp [mode, ha, hc]
  have h3 : ∀ h, h ∈ (((op drv cfg verb d).comp q).feed ((op drv cfg verb d).comp q).init (es ++ [.flush])).st.1.conn.hist ∨
      h = closed (((op drv cfg verb d).comp q).feed ((op drv cfg verb d).comp q).init (es ++ [.flush])).st.1 →
      h = d ∨ ∃ ns rss, Runs drv cfg.statement d ((items es).map (bound cfg.args)) ns rss h := by
    intro h hh
    rcases h2 h hh with h' | ⟨n, ns, rss, dn, k, rss', _, hk, hr⟩
    · exact .inr h'
    · rw [hm] at hk
      rw [show k = 0 from hk] at hr
      exact .inl (hr.unique .nil).2.2
  refine ⟨h1, h3, fun hn => ⟨fun hx => ?_, ?_⟩⟩
  · obtain ⟨ns, rss, h⟩ := h1 hx
    exact hn ⟨ns, rss, _, h⟩
  · rcases h3 _ (.inr rfl) with h | ⟨ns, rss, h⟩
    · exact h
    · exact absurd ⟨ns, rss, _, h⟩ hn

/-- **C69**, the output, and that nothing else can go wrong: if the statement can be executed for all of the input and commits succeed, `sql` sends the rows (or the update counts) in order, passes
on errors, and raises no exception. -/
theorem C69_output_partial (drv : Driver D V) (cfg : Cfg V) (verb : Verb) (d : D) (es : List (Ev (Option (List V)))) (hf : Ev.flush ∉ es) (hp : Plain cfg (items es)) {ns rss d'}
    (hr : Runs drv cfg.statement d ((items es).map (bound cfg.args)) ns rss d') (hc : ∀ d, drv.commitOk d = true) :
    (op drv cfg verb d).run es = (outputs drv cfg verb es ns rss ++ [.flush], none) := by
  obtain ⟨ea, eb, ns', rss', dn, i1, i2, i3, i4, i5⟩ := feed_spec (d0 := d) es hf (init_inv drv cfg verb d) .nil
  have hno : ¬∃ d', drv.commitOk d' = false := by rintro ⟨d', h⟩; rw [hc] at h; cases h
  simp only [List.nil_append] at i2
  rw [← bound_arg hp] at hr
  rcases i5 with ⟨hx, rfl, i6, _⟩ | ⟨_, x, es3, rfl, h⟩
  · rw [List.append_nil] at i1
    subst i1
    obtain ⟨rfl, rfl, rfl⟩ := i2.unique hr
    simp only [Op.run, Op.obs, Op.feed_append, hx, Option.isSome_none, Bool.false_eq_true, if_false, Op.feed_cons, Op.feed_nil, Op.step_flush]
    have hfl : ∀ s : St D, (flush (V := V) drv s).out = [.flush] ∧ (flush drv s).exn = none := by
      intro s
      unfold flush Conn.commit
      simp [hc]
    have hfl' := hfl ((op drv cfg verb d).feed (op drv cfg verb d).init es).st
    show (_ ++ (if (flush drv _).exn.isSome = true then flush drv _ else _ : Res (St D) (List V)).out, (if (flush drv _).exn.isSome = true then flush drv _ else _ : Res (St D) (List V)).exn) = _
    rw [hfl'.2]
    simp only [Option.isSome_none, Bool.false_eq_true, if_false]
    rw [i4]
    show (_ ++ ((flush drv _).out ++ []), _) = _
    rw [hfl'.1]
    rfl
  · -- the next statement can be executed, too
    exfalso
    rcases h with h | h
    · have : ∀ {xs ys : List (List V)} {ns rss d1}, Runs drv cfg.statement d (xs ++ ys) ns rss d1 → ∃ ns rss d2, Runs drv cfg.statement d xs ns rss d2 ∧ (ys = [] ∨ ∃ y zs, ys = y :: zs ∧ drv.exec cfg.statement y d2 ≠ none) := by
        intro xs ys
        generalize hz : xs ++ ys = zs
        intro ns rss d1 hr
        induction hr generalizing ys with
        | nil =>
          obtain ⟨rfl, rfl⟩ := List.append_eq_nil_iff.mp hz
          exact ⟨_, _, _, .nil, .inl rfl⟩
        | @snoc d1 d2 zs ns rss z n rows hr he ih =>
          rcases List.eq_nil_or_concat ys with rfl | ⟨ys', y, rfl⟩
          · rw [List.append_nil] at hz
            rw [hz]
            exact ⟨_, _, _, hr.snoc he, .inl rfl⟩
          · rw [List.concat_eq_append, ← List.append_assoc] at hz
            obtain ⟨hz1, hz2⟩ := List.append_inj' hz rfl
            obtain ⟨ns', rss', d3, j1, j2⟩ := ih hz1
            refine ⟨ns', rss', d3, j1, .inr ?_⟩
            rw [List.concat_eq_append]
            rcases j2 with rfl | ⟨y', zs', rfl, j3⟩
            · rw [List.append_nil] at hz1
              subst hz1
              obtain ⟨_, _, rfl⟩ := hr.unique j1
              simp only [List.cons.injEq, and_true] at hz2
              subst hz2
              exact ⟨_, _, rfl, by rw [he]; simp⟩
            · exact ⟨y', _, rfl, j3⟩
      rw [i1, items_append, List.map_append] at hr
      obtain ⟨_, _, d2, j1, j2⟩ := this hr
      obtain ⟨_, _, rfl⟩ := i2.unique j1
      rcases j2 with j2 | ⟨y, zs, j2, j3⟩
      · simp at j2
      · simp only [items_item, List.map_cons, List.cons.injEq] at j2
        rw [← j2.1] at j3
        exact j3 h
    · exact hno h

/-- **C69**, a statement that fails ends the command (operators before it, `es1`, have had their effect on the output), and the statement is not executed again. -/
theorem C69_failure_partial (drv : Driver D V) (cfg : Cfg V) (verb : Verb) (d : D) (es1 es2 : List (Ev (Option (List V)))) (x : Option (List V)) (hf : Ev.flush ∉ es1) (hp : Plain cfg (items (es1 ++ [.item x])))
    {ns rss d'} (hr : Runs drv cfg.statement d ((items es1).map (bound cfg.args)) ns rss d') (hc : ∀ d, drv.commitOk d = true) (hx : drv.exec cfg.statement (bound cfg.args x) d' = none) :
    (op drv cfg verb d).obs (es1 ++ .item x :: es2) = (outputs drv cfg verb es1 ns rss, some .kill) := by
  have hp1 : Plain cfg (items es1) := by rw [items_append] at hp; exact hp.prefix
  have hrun := C69_output_partial drv cfg verb d es1 hf hp1 hr hc
  obtain ⟨ea, eb, ns', rss', dn, i1, i2, i3, i4, i5⟩ := feed_spec (d0 := d) es1 hf (init_inv drv cfg verb d) .nil
  have hex : ((op drv cfg verb d).feed (op drv cfg verb d).init es1).exn = none := by
    cases he : ((op drv cfg verb d).feed (op drv cfg verb d).init es1).exn with
    | none => rfl
    | some y =>
      have h2 : ((op drv cfg verb d).run es1).2 = none := by rw [hrun]
      simp only [Op.run, Op.obs, Op.feed_append, he, Option.isSome_some, if_true] at h2
      exact absurd h2 (by simp)
  rcases i5 with ⟨_, rfl, i6, i7⟩ | ⟨h, _⟩
  · rw [List.append_nil] at i1
    subst i1
    simp only [List.nil_append] at i2 i7
    rw [← bound_arg hp1] at hr
    obtain ⟨rfl, rfl, rfl⟩ := i2.unique hr
    have harg : arg cfg x = bound cfg.args x := by
      have := bound_arg (cfg := cfg) (xs := [x]) (by
        rcases hp with h | h
        · exact .inl h
        · exact .inr fun y hy => h y (by rw [items_append]; simp at hy ⊢; exact .inr hy))
      simpa using this
    have hstep := receive_spec i7 (i6 ▸ i2) x
    rcases hstep with ⟨h1, h2, _, _⟩ | ⟨h1, rows, n, _, _, h3⟩
    · have hs : (op drv cfg verb d).step ((op drv cfg verb d).feed (op drv cfg verb d).init es1).st (.item x) = receive drv cfg verb ((op drv cfg verb d).feed (op drv cfg verb d).init es1).st x := by
        rw [Op.step_item, Op.catchKare]
        exact if_neg (by show (receive drv cfg verb _ x).exn ≠ _; rw [h1]; simp)
      simp only [Op.obs, Op.feed_append, hex, Option.isSome_none, Bool.false_eq_true, if_false, Op.feed_cons, hs, h1, h2, Option.isSome_some, if_true, i4, List.append_nil]
    · exfalso
      obtain ⟨d1, _, _, _, _, hr2, he2⟩ := h3.snoc_inv
      obtain ⟨_, _, rfl⟩ := i2.unique hr2
      rw [harg, hx] at he2
      cases he2
  · rw [hex] at h; cases h

/-- **C69**, `--commit`: a negative value is refused. -/
theorem C69_setup (n : Option Int) : (setupCommit n = none ↔ ∃ k, n = some k ∧ k < 0) ∧ (∀ k : Nat, n = some (k : Int) → setupCommit n = some k) := by
  constructor
  · cases n with
    | none => simp [setupCommit]
    | some k =>
      simp only [setupCommit, Option.some.injEq, exists_eq_left']
      split <;> simp_all
  · rintro k rfl
    simp [setupCommit]

/-- **C69**, a statement is a SELECT if its first word is `select`, however it is written, and an INSERT if it is `insert`. -/
theorem C69_classify (ws word rest : Str) (hws : ∀ c ∈ ws, isspace c = true) (hw : ∀ c ∈ word, isspace c = false) (hne : word ≠ []) (hrest : ∀ c, rest.head? = some c → isspace c = true) :
    ∃ v, classify (ws ++ word ++ rest) = some v ∧ (v = .select ↔ word.map Char.toLower = ['s', 'e', 'l', 'e', 'c', 't']) ∧ (v = .insert ↔ word.map Char.toLower = ['i', 'n', 's', 'e', 'r', 't']) := by
  have hdrop : (ws ++ word ++ rest).dropWhile isspace = word ++ rest := by
    rw [List.append_assoc, List.dropWhile_append_of_pos hws]
    cases word with
    | nil => exact absurd rfl hne
    | cons c cs =>
      rw [List.cons_append, List.dropWhile_cons_of_neg (by rw [hw c (by simp)]; simp)]
  have htake : (word ++ rest).takeWhile (fun x => !isspace x) = word := by
    rw [List.takeWhile_append_of_pos (by intro c hc; simp [hw c hc])]
    cases rest with
    | nil => simp
    | cons c cs => rw [List.takeWhile_cons_of_neg (by simp [hrest c rfl])]; simp
  unfold classify
  rw [hdrop]
  cases hwr : word ++ rest with
  | nil => exact absurd (List.append_eq_nil_iff.mp hwr).1 hne
  | cons c cs =>
    simp only [← hwr, htake]
    refine ⟨_, rfl, ?_⟩
    rw [show ['s', 'e', 'l', 'e', 'c', 't'] = select from rfl, show ['i', 'n', 's', 'e', 'r', 't'] = insert from rfl]
    by_cases h1 : word.map Char.toLower = select
    · have h0 : select ≠ insert := by decide
      simp [h1, h0]
    · rw [if_neg h1]
      by_cases h2 : word.map Char.toLower = insert
      · rw [if_pos h2]; rw [h2] at h1; simp [h1, h2]
      · rw [if_neg h2]; simp [h1, h2]

/-! ## An example -/

/-- One table of numbers. `insert` inserts one number other than 13, `select` returns the numbers. -/
def exDriver : Driver (List Nat) Nat where
  exec := fun stmt args d =>
    if stmt = insert then
      match args with
      | [n] => if n = 13 then none else some (d ++ [n], [], 1)
      | _ => none
    else if args = [] then some (d, d.map fun n => [n], d.length) else none
  commitOk := fun _ => true
  int := Int.toNat

def exCfg : Cfg Nat := ⟨insert, [], false, true, 0⟩

/-- The hypotheses of C69 are met: three rows are inserted. -/
theorem C69_example : Runs exDriver insert [1] [[2], [3], [4]] [1, 1, 1] [[], [], []] [1, 2, 3, 4] ∧ Plain exCfg [some [2], some [3], some [4]] ∧
    (op exDriver exCfg .insert [1]).run [.item (some [2]), .err "e", .item (some [3]), .item (some [4])] = ([.item [1], .err "e", .item [1], .item [1], .flush], none) ∧
    closed ((op exDriver exCfg .insert [1]).feed (op exDriver exCfg .insert [1]).init [.item (some [2]), .err "e", .item (some [3]), .item (some [4]), .flush]).st = [1, 2, 3, 4] := by
  refine ⟨?_, .inl rfl, by decide, by decide⟩
  exact Runs.snoc (xs := [[2], [3]]) (ns := [1, 1]) (rss := [[], []]) (Runs.snoc (xs := [[2]]) (ns := [1]) (rss := [[]]) (Runs.snoc (xs := []) (ns := []) (rss := []) .nil rfl) rfl) rfl

/-- With `--commit 2`, and a failure in the fifth statement: four rows are committed; without: none. -/
theorem C69_example_commit : closed ((op exDriver { exCfg with commit := 2 } .insert []).feed (op exDriver { exCfg with commit := 2 } .insert []).init
      [.item (some [2]), .item (some [3]), .item (some [4]), .item (some [5]), .item (some [6]), .item (some [13]), .item (some [7])]).st = [2, 3, 4, 5] ∧
    closed ((op exDriver exCfg .insert []).feed (op exDriver exCfg .insert []).init
      [.item (some [2]), .item (some [3]), .item (some [4]), .item (some [5]), .item (some [6]), .item (some [13]), .item (some [7])]).st = [] := by decide

/-! ## Where the code differs from the claim -/

/-- "If ARGs are specified, they are bound": not if there is input. -/
theorem C69_false_args : bound [5] (some [7]) = [5] ∧
    closed ((op exDriver { exCfg with args := [5] } .insert []).feed (op exDriver { exCfg with args := [5] } .insert []).init [.item (some [7]), .flush]).st = [7] := by decide

/-- The rows of `select*from t` are not written to the output, because its first word is not `select`. -/
theorem C69_false_select_star : classify ['s', 'e', 'l', 'e', 'c', 't', '*', 'f', 'r', 'o', 'm', ' ', 't'] = some .other ∧
    (op exDriver { exCfg with statement := select, updateCounts := false } .other [1, 2]).run [.item none] = ([.flush], none) ∧
    (op exDriver { exCfg with statement := select, updateCounts := false } .select [1, 2]).run [.item none] = ([.item [1], .item [2], .flush], none) := by
  refine ⟨?_, by decide, by decide⟩
  unfold classify isspace
  decide

/-- A blank statement leads to an internal error. -/
theorem C69_false_blank : classify [' '] = none := by
  unfold classify isspace
  decide

/-- An operator that fails at the end of its input. -/
def failAtEnd : Op Unit (List Nat) (List Nat) where
  init := ()
  item := fun _ _ => ⟨(), [], none⟩
  flush := fun _ => ⟨(), [], some .kill⟩
  no_flush := by simp

/-- "Commit occurs at the end of the entire command": a command that fails in an operator after `sql`, when that has received all of its input, has committed. -/
theorem C69_false_late_failure :
    let r := ((op exDriver exCfg .insert []).comp failAtEnd).feed ((op exDriver exCfg .insert []).comp failAtEnd).init [.item (some [2]), .flush]
    r.exn = some .kill ∧ closed r.st.1 = [2] := by decide

end Marcel.Sql
