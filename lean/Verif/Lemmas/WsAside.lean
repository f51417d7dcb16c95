import Verif.Lemmas.WsStart

/-! # Moving damaged workspaces aside -/

namespace Marcel.WsDisk

/-- `fs'` is `fs` with the workspaces in `D` moved to `broken/<now>`. -/
structure Aside (now : Name) (D : Root → Name → Prop) (fs fs' : FS) : Prop where
  there : ∀ r n, D r n → fs r [.workspace, n] ≠ none
  gone : ∀ r n q, D r n → fs' r (.workspace :: n :: q) = none
  moved : ∀ r n q, D r n → fs' r (.broken :: now :: n :: n :: q) = fs r (.workspace :: n :: q)
  kept : ∀ r n q, ¬ D r n → fs' r (.workspace :: n :: q) = fs r (.workspace :: n :: q)
  slot : ∀ r n q, ¬ D r n → fs' r (.broken :: now :: n :: n :: q) = none
  rest : ∀ r n m q, m ≠ n → fs' r (.broken :: now :: n :: m :: q) = none
  stamp : ∀ r, fs' r [.broken, now] = none ∨ fs' r [.broken, now] = some .dir
  place : ∀ r n, fs' r [.broken, now, n] = none ∨ fs' r [.broken, now, n] = some .dir ∧ fs' r [.broken, now] = some .dir
  target : ∀ r n, D r n → fs' r [.broken, now, n] = some .dir
  other : ∀ r p, (∀ n q, p ≠ .workspace :: n :: q) → (∀ q, p ≠ .broken :: now :: q) → fs' r p = fs r p

theorem Healthy.below {fs : FS} (hh : Healthy fs) {r : Root} {p : Path} (h : fs r p = none) : ∀ q, fs r (p ++ q) = none := by
  suffices ∀ q : Path, fs r (p ++ q.reverse) = none by intro q; have := this q.reverse; rwa [List.reverse_reverse] at this
  intro q
  induction q with
  | nil => simpa using h
  | cons x q ih =>
    rw [List.reverse_cons, ← List.append_assoc]
    refine Classical.byContradiction fun hne => ?_
    have := hh.tree r _ x hne
    rw [ih] at this
    cases this

theorem Aside.refl {now : Name} {fs : FS} (hh : Healthy fs) (hfresh : ∀ r, fs r [.broken, now] = none) : Aside now (fun _ _ => False) fs fs where
  there := fun _ _ h => h.elim
  gone := fun _ _ _ h => h.elim
  moved := fun _ _ _ h => h.elim
  kept := fun _ _ _ _ => rfl
  slot := fun r n q _ => hh.below (hfresh r) (n :: n :: q)
  rest := fun r n m q _ => hh.below (hfresh r) (n :: m :: q)
  stamp := fun r => .inl (hfresh r)
  place := fun r n => .inl (hh.below (hfresh r) [n])
  target := fun _ _ h => h.elim
  other := fun _ _ _ _ => rfl

theorem Aside.mkStamp {now : Name} {D : Root → Name → Prop} {fs fs' : FS} (h : Aside now D fs fs') (r : Root) : Aside now D fs (fs'.set r [.broken, now] (some .dir)) := by
  have hs : ∀ r' p, p ≠ [.broken, now] → fs'.set r [.broken, now] (some .dir) r' p = fs' r' p := fun r' p hp => set_other _ _ _ _ fun hh => hp hh.2
  have hst : ∀ r', fs'.set r [.broken, now] (some .dir) r' [.broken, now] = some .dir ∨ fs'.set r [.broken, now] (some .dir) r' [.broken, now] = fs' r' [.broken, now] := by
    intro r'
    by_cases hr : r' = r
    · subst hr; exact .inl (set_same _ _ _ _)
    · exact .inr (set_other _ _ _ _ fun hh => hr hh.1)
  constructor
  · exact h.there
  · intro r' n q hd; rw [hs _ _ (by simp)]; exact h.gone r' n q hd
  · intro r' n q hd; rw [hs _ _ (by simp)]; exact h.moved r' n q hd
  · intro r' n q hd; rw [hs _ _ (by simp)]; exact h.kept r' n q hd
  · intro r' n q hd; rw [hs _ _ (by simp)]; exact h.slot r' n q hd
  · intro r' n m q hd; rw [hs _ _ (by simp)]; exact h.rest r' n m q hd
  · intro r'
    rcases hst r' with h1 | h1
    · exact .inr h1
    · rw [h1]; exact h.stamp r'
  · intro r' n
    rw [hs _ _ (by simp)]
    rcases h.place r' n with h1 | ⟨h1, h2⟩
    · exact .inl h1
    · rcases hst r' with h3 | h3
      · exact .inr ⟨h1, h3⟩
      · exact .inr ⟨h1, h3.trans h2⟩
  · intro r' n hd; rw [hs _ _ (by simp)]; exact h.target r' n hd
  · intro r' p h1 h2; rw [hs _ _ (h2 [])]; exact h.other r' p h1 h2

theorem Aside.mkPlace {now : Name} {D : Root → Name → Prop} {fs fs' : FS} (h : Aside now D fs fs') (r : Root) (n : Name) (hst : fs' r [.broken, now] = some .dir) :
    Aside now D fs (fs'.set r [.broken, now, n] (some .dir)) := by
  have hs : ∀ r' p, p ≠ [.broken, now, n] → fs'.set r [.broken, now, n] (some .dir) r' p = fs' r' p := fun r' p hp => set_other _ _ _ _ fun hh => hp hh.2
  have hpl : ∀ r' n', (r' = r ∧ n' = n) ∨ fs'.set r [.broken, now, n] (some .dir) r' [.broken, now, n'] = fs' r' [.broken, now, n'] := by
    intro r' n'
    by_cases hr : r' = r ∧ n' = n
    · exact .inl hr
    · exact .inr (set_other _ _ _ _ fun hh => hr ⟨hh.1, by simpa using hh.2⟩)
  constructor
  · exact h.there
  · intro r' n' q hd; rw [hs _ _ (by simp)]; exact h.gone r' n' q hd
  · intro r' n' q hd; rw [hs _ _ (by simp)]; exact h.moved r' n' q hd
  · intro r' n' q hd; rw [hs _ _ (by simp)]; exact h.kept r' n' q hd
  · intro r' n' q hd; rw [hs _ _ (by simp)]; exact h.slot r' n' q hd
  · intro r' n' m q hd; rw [hs _ _ (by simp)]; exact h.rest r' n' m q hd
  · intro r'; rw [hs _ _ (by simp)]; exact h.stamp r'
  · intro r' n'
    rw [hs r' [.broken, now] (by simp)]
    rcases hpl r' n' with ⟨rfl, rfl⟩ | h1
    · exact .inr ⟨set_same _ _ _ _, hst⟩
    · rw [h1]; exact h.place r' n'
  · intro r' n' hd
    rcases hpl r' n' with ⟨rfl, rfl⟩ | h1
    · exact set_same _ _ _ _
    · rw [h1]; exact h.target r' n' hd
  · intro r' p h1 h2; rw [hs _ _ (h2 [n])]; exact h.other r' p h1 h2

theorem Aside.move {now : Name} {D : Root → Name → Prop} {fs fs' : FS} (h : Aside now D fs fs') (r : Root) (n : Name) (hD : ¬ D r n) (hp : fs' r [.workspace, n] ≠ none)
    (ht : fs' r [.broken, now, n] = some .dir) :
    Aside now (fun r' n' => D r' n' ∨ (r' = r ∧ n' = n)) fs (fs'.move r [.workspace, n] ([.broken, now, n] ++ [n])) := by
  have htgt : ∀ q, fs'.move r [.workspace, n] ([.broken, now, n] ++ [n]) r (.broken :: now :: n :: n :: q) = fs' r (.workspace :: n :: q) := fun q => move_target fs' r [.workspace, n] _ q
  have hsrc : ∀ q, fs'.move r [.workspace, n] ([.broken, now, n] ++ [n]) r (.workspace :: n :: q) = none := fun q => move_source fs' r [.workspace, n] _ q (by simp)
  have hoth : ∀ r' p, (r' = r → (∀ q, p ≠ .workspace :: n :: q) ∧ ∀ q, p ≠ .broken :: now :: n :: n :: q) →
      fs'.move r [.workspace, n] ([.broken, now, n] ++ [n]) r' p = fs' r' p := fun r' p hh => move_other fs' r _ _ hh
  have hpn : fs r [.workspace, n] ≠ none := by rw [← h.kept r n [] hD]; exact hp
  constructor
  · rintro r' n' (hd | ⟨rfl, rfl⟩)
    · exact h.there r' n' hd
    · exact hpn
  · intro r' n' q hd
    by_cases hh : r' = r ∧ n' = n
    · obtain ⟨rfl, rfl⟩ := hh; exact hsrc q
    · rw [hoth _ _ (fun hr => ⟨fun q' he => hh ⟨hr, by simp at he; exact he.1⟩, fun q' he => by simp at he⟩)]
      exact h.gone r' n' q (hd.resolve_right hh)
  · intro r' n' q hd
    by_cases hh : r' = r ∧ n' = n
    · obtain ⟨rfl, rfl⟩ := hh; rw [htgt q]; exact h.kept _ _ q hD
    · rw [hoth _ _ (fun hr => ⟨fun q' he => by simp at he, fun q' he => hh ⟨hr, by simp at he; exact he.1⟩⟩)]
      exact h.moved r' n' q (hd.resolve_right hh)
  · intro r' n' q hd
    have hh : ¬ (r' = r ∧ n' = n) := fun hh => hd (.inr hh)
    rw [hoth _ _ (fun hr => ⟨fun q' he => hh ⟨hr, by simp at he; exact he.1⟩, fun q' he => by simp at he⟩)]
    exact h.kept r' n' q fun hx => hd (.inl hx)
  · intro r' n' q hd
    have hh : ¬ (r' = r ∧ n' = n) := fun hh => hd (.inr hh)
    rw [hoth _ _ (fun hr => ⟨fun q' he => by simp at he, fun q' he => hh ⟨hr, by simp at he; exact he.1⟩⟩)]
    exact h.slot r' n' q fun hx => hd (.inl hx)
  · intro r' n' m q hm
    rw [hoth _ _ (fun hr => ⟨fun q' he => by simp at he, fun q' he => hm (by simp at he; rw [he.1, he.2.1])⟩)]
    exact h.rest r' n' m q hm
  · intro r'
    rw [hoth _ _ (fun hr => ⟨fun q' he => by simp at he, fun q' he => by simp at he⟩)]
    exact h.stamp r'
  · intro r' n'
    rw [hoth _ _ (fun hr => ⟨fun q' he => by simp at he, fun q' he => by simp at he⟩), hoth _ _ (fun hr => ⟨fun q' he => by simp at he, fun q' he => by simp at he⟩)]
    exact h.place r' n'
  · intro r' n' hd
    rw [hoth _ _ (fun hr => ⟨fun q' he => by simp at he, fun q' he => by simp at he⟩)]
    rcases hd with hd | ⟨rfl, rfl⟩
    · exact h.target r' n' hd
    · exact ht
  · intro r' p h1 h2
    rw [hoth _ _ (fun hr => ⟨fun q' he => h1 n q' he, fun q' he => h2 (n :: n :: q') he⟩)]
    exact h.other r' p h1 h2

theorem Aside.congr {now : Name} {D D' : Root → Name → Prop} {fs fs' : FS} (h : Aside now D fs fs') (hD : ∀ r n, D r n ↔ D' r n) : Aside now D' fs fs' := by
  have : D = D' := by funext r n; exact propext (hD r n)
  rwa [← this]

theorem ensureDir_triple {fs : FS} {r : Root} {p : Path} {Q : Unit → FS → Prop} {C : FS → Prop} (hC : C fs) (h1 : fs r p = some .dir → Q () fs)
    (h2 : fs r p ≠ some .dir → fs r p = none ∧ fs r p.dropLast = some .dir ∧ Q () (fs.set r p (some .dir))) : Triple fs (ensureDir r p) Q C := by
  unfold ensureDir
  refine .ifThen ?_ ?_
  · intro h
    obtain ⟨g1, g2, g3⟩ := h2 (isDir_false.mp (by simpa using h))
    unfold mkdir
    refine .bind (Q := fun _ fs' => fs' = fs) (.require ?_ rfl) ?_
    · rw [has_false.mpr g1, isDir_iff.mpr g2]; simp
    · intro _ fs' h'
      subst h'
      exact .change hC g3
  · intro h
    exact h1 (isDir_iff.mp (by simpa using h))

theorem asideIn_triple {c : Cfg} {fs fs' : FS} (hh : Healthy fs) {D : Root → Name → Prop} (h : Aside c.now D fs fs') (r : Root) (n : Name) :
    Triple fs' (c.asideIn r (some n)) (fun _ fs2 => Aside c.now (fun r' n' => D r' n' ∨ (r' = r ∧ n' = n ∧ fs r [.workspace, n] ≠ none)) fs fs2) (fun fs2 => Aside c.now D fs fs2) := by
  have hws : ∀ D fs2, Aside c.now D fs fs2 → fs2 r [.workspace] = some .dir ∧ fs2 r [.broken] = some .dir := by
    intro D fs2 h2
    rw [h2.other r _ (by simp) (by simp), h2.other r _ (by simp) (by simp)]
    exact ⟨hh.workspaces r, hh.brokens r⟩
  unfold Cfg.asideIn
  refine .bind (Q := fun _ fs2 => fs2 = fs') (ensureDir_triple h (fun _ => rfl) (fun hn => absurd (hws D fs' h).1 hn)) ?_
  intro _ fs2 he
  subst he
  refine .ifThen ?_ ?_
  · intro hp
    have hp' : fs2 r [.workspace, n] ≠ none := has_iff.mp hp
    have hD : ¬ D r n := fun hd => hp' (h.gone r n [] hd)
    refine .bind (Q := fun _ fs3 => fs3 = fs2) (ensureDir_triple h (fun _ => rfl) (fun hn => absurd (hws D fs2 h).2 hn)) ?_
    intro _ fs3 he
    subst he
    refine .bind (Q := fun _ fs4 => Aside c.now D fs fs4 ∧ fs4 r [.broken, c.now] = some .dir) (ensureDir_triple h (fun hd => ⟨h, hd⟩) (fun hn => ?_)) ?_
    · exact ⟨(h.stamp r).resolve_right hn, (hws D fs3 h).2, h.mkStamp r, set_same _ _ _ _⟩
    rintro _ fs4 ⟨h4, hs4⟩
    refine .bind (Q := fun _ fs5 => Aside c.now D fs fs5 ∧ fs5 r [.broken, c.now, n] = some .dir) (ensureDir_triple h4 (fun hd => ⟨h4, hd⟩) (fun hn => ?_)) ?_
    · exact ⟨(h4.place r n).resolve_right fun hh => hn hh.1, hs4, h4.mkPlace r n hs4, set_same _ _ _ _⟩
    rintro _ fs5 ⟨h5, hs5⟩
    have hp5 : fs5 r [.workspace, n] ≠ none := by rw [h5.kept r n [] hD, ← h.kept r n [] hD]; exact hp'
    unfold moveInto
    refine .bind (Q := fun _ fs6 => fs6 = fs5) (.require ?_ rfl) ?_
    · show (isDir r [.broken, c.now, n] fs5 && !has r [.broken, c.now, n, n] fs5 && has r [.workspace, n] fs5) = true
      rw [isDir_iff.mpr hs5, has_false.mpr (h5.slot r n [] hD), has_iff.mpr hp5]; rfl
    · intro _ fs6 he
      subst he
      refine .change h5 ((h5.move r n hD hp5 hs5).congr ?_)
      intro r' n'
      have hpn : fs r [.workspace, n] ≠ none := by rw [← h5.kept r n [] hD]; exact hp5
      constructor
      · rintro (h1 | ⟨h1, h2⟩)
        · exact .inl h1
        · exact .inr ⟨h1, h2, hpn⟩
      · rintro (h1 | ⟨h1, h2, _⟩)
        · exact .inl h1
        · exact .inr ⟨h1, h2⟩
  · intro hp
    have hp' : fs2 r [.workspace, n] = none := has_false.mp hp
    refine h.congr ?_
    intro r' n'
    constructor
    · exact .inl
    · rintro (h1 | ⟨rfl, rfl, h3⟩)
      · exact h1
      · refine Classical.byContradiction fun hD => h3 ?_
        rw [← h.kept _ _ [] hD]
        exact hp'

theorem markBroken_triple {c : Cfg} {fs fs' : FS} (hh : Healthy fs) {D : Root → Name → Prop} (h : Aside c.now D fs fs') (n : Name) :
    Triple fs' (c.markBroken (some n)) (fun _ fs2 => Aside c.now (fun r' n' => D r' n' ∨ (n' = n ∧ fs r' [.workspace, n] ≠ none)) fs fs2)
      (fun fs2 => ∃ D', (∀ r x, D' r x → D r x ∨ x = n) ∧ Aside c.now D' fs fs2) := by
  unfold Cfg.markBroken
  refine .bind (.mono (asideIn_triple hh h .config n) (fun _ _ h => h) (fun _ h => ⟨D, fun _ _ => .inl, h⟩)) ?_
  intro _ fs2 h2
  refine .mono (asideIn_triple hh h2 .data n) ?_ (fun _ h => ⟨_, fun _ _ h => h.imp id (fun h => h.2.1), h⟩)
  intro _ fs3 h3
  refine h3.congr ?_
  intro r' n'
  cases r' <;> simp

theorem forEach_markBroken {c : Cfg} {fs : FS} (hh : Healthy fs) : ∀ (l : List Name) (D : Root → Name → Prop) (fs' : FS), Aside c.now D fs fs' →
    Triple fs' (forEach c.markBroken (l.map some)) (fun _ fs2 => Aside c.now (fun r n => D r n ∨ (n ∈ l ∧ fs r [.workspace, n] ≠ none)) fs fs2)
      (fun fs2 => ∃ D', (∀ r x, D' r x → D r x ∨ x ∈ l) ∧ Aside c.now D' fs fs2) := by
  intro l
  induction l with
  | nil =>
    intro D fs' h
    exact .pure (h.congr (by simp))
  | cons n l ih =>
    intro D fs' h
    refine .bind (.mono (markBroken_triple hh h n) (fun _ _ h => h) (fun _ ⟨D', h1, h2⟩ => ⟨D', fun r x hx => (h1 r x hx).imp id (fun h => by simp [h]), h2⟩)) ?_
    intro _ fs2 h2
    refine .mono (ih _ fs2 h2) ?_ ?_
    rotate_left
    · rintro fs3 ⟨D', h1, h3⟩
      refine ⟨D', fun r x hx => ?_, h3⟩
      rcases h1 r x hx with (h | h) | h
      · exact .inl h
      · exact .inr (by simp [h.1])
      · exact .inr (by simp [h])
    intro _ fs3 h3
    refine h3.congr ?_
    intro r n'
    constructor
    · rintro ((h1 | ⟨rfl, h1⟩) | ⟨h1, h5⟩)
      · exact .inl h1
      · exact .inr ⟨by simp, h1⟩
      · exact .inr ⟨by simp [h1], h5⟩
    · rintro (h1 | ⟨h1, h5⟩)
      · exact .inl (.inl h1)
      · rcases List.mem_cons.mp h1 with rfl | h1
        · exact .inl (.inr ⟨rfl, h5⟩)
        · exact .inr ⟨h1, h5⟩

/-- Moving workspaces aside leaves a tree. -/
theorem Aside.healthy {now : Name} {D : Root → Name → Prop} {fs fs' : FS} (h : Aside now D fs fs') (hh : Healthy fs) (hdef : ∀ r, ¬ D r .default_) : Healthy fs' where
  tree := by
    intro r p x hp
    have hwsd : fs' r [.workspace] = some .dir := by rw [h.other r _ (by simp) (by simp)]; exact hh.workspaces r
    have hbrd : fs' r [.broken] = some .dir := by rw [h.other r _ (by simp) (by simp)]; exact hh.brokens r
    have hroot : fs' r [] = some .dir := by rw [h.other r _ (by simp) (by simp)]; exact hh.tree r [] .workspace (by rw [show ([] : Path) ++ [.workspace] = [.workspace] from rfl, hh.workspaces r]; simp)
    by_cases hw : ∃ n q, p ++ [x] = .workspace :: n :: q
    · obtain ⟨n, q, he⟩ := hw
      by_cases hD : D r n
      · rw [he, h.gone r n q hD] at hp; exact absurd rfl hp
      · match p, he with
        | [], he => simp at he
        | [a], he => simp at he; rw [he.1]; exact hwsd
        | a :: b :: p', he =>
          simp only [List.cons_append, List.cons.injEq] at he
          obtain ⟨rfl, rfl, he⟩ := he
          rw [h.kept r _ p' hD]
          rw [List.cons_append, List.cons_append, h.kept r _ _ hD] at hp
          exact hh.tree r (.workspace :: _ :: p') x hp
    · by_cases hb : ∃ q, p ++ [x] = .broken :: now :: q
      · obtain ⟨q, he⟩ := hb
        match p, he with
        | [], he => simp at he
        | [a], he => simp at he; rw [he.1]; exact hbrd
        | [a, b], he =>
          simp at he
          obtain ⟨rfl, rfl, rfl⟩ := he
          rcases h.place r x with h1 | ⟨_, h1⟩
          · exact absurd h1 hp
          · exact h1
        | a :: b :: d :: p', he =>
          simp only [List.cons_append, List.cons.injEq] at he
          obtain ⟨rfl, rfl, he⟩ := he
          match p' with
          | [] =>
            by_cases hxd : x = d
            · subst hxd
              by_cases hD : D r x
              · exact h.target r x hD
              · exact absurd (h.slot r x [] hD) hp
            · exact absurd (h.rest r d x [] hxd) hp
          | y :: p'' =>
            by_cases hxd : y = d
            · subst hxd
              by_cases hD : D r y
              · rw [h.moved r y p'' hD]
                have hp2 : fs' r (.broken :: b :: y :: y :: (p'' ++ [x])) ≠ none := hp
                rw [h.moved r y _ hD] at hp2
                exact hh.tree r (.workspace :: y :: p'') x hp2
              · exact absurd (h.slot r y (p'' ++ [x]) hD) hp
            · exact absurd (h.rest r d y (p'' ++ [x]) hxd) hp
      · have hp2 : fs r (p ++ [x]) ≠ none := by
          rw [← h.other r _ (fun n q he => hw ⟨n, q, he⟩) (fun q he => hb ⟨q, he⟩)]; exact hp
        have hd := hh.tree r p x hp2
        rw [h.other r p ?_ ?_]
        · exact hd
        · rintro n q rfl; exact hw ⟨n, q ++ [x], rfl⟩
        · rintro q rfl; exact hb ⟨q ++ [x], rfl⟩
  version := by
    obtain ⟨t, ht⟩ := hh.version
    exact ⟨t, by rw [h.other _ _ (by simp) (by simp), ht]⟩
  workspaces := fun r => by rw [h.other r _ (by simp) (by simp)]; exact hh.workspaces r
  brokens := fun r => by rw [h.other r _ (by simp) (by simp)]; exact hh.brokens r
  both := by
    intro n h1 h2
    have hD1 : ¬ D .config n := fun hd => h1 (h.gone _ n [] hd)
    have hD2 : ¬ D .data n := fun hd => h2 (h.gone _ n [] hd)
    rw [h.kept _ n [] hD1] at h1
    rw [h.kept _ n [] hD2] at h2
    have h3 := hh.both n h1 h2
    rw [h.kept _ n [] hD1, h.kept _ n [] hD2]
    exact ⟨h3.1, h3.2.1, fun k => by rw [h.kept _ n [_] hD1]; exact h3.2.2 k⟩
  markerFiles := by
    intro n p hd
    by_cases hD : D .config n
    · rw [h.gone _ n _ hD] at hd; cases hd
    · rw [h.kept _ n _ hD] at hd; exact hh.markerFiles n p hd
  default_ := by
    have hs : ∀ r q, fs' r (.workspace :: .default_ :: q) = fs r (.workspace :: .default_ :: q) := fun r q => h.kept r _ q (hdef r)
    have hd := hh.default_
    constructor
    · rw [hs]; exact hd.configDir
    · rw [hs]; exact hd.startup
    · intro m; rw [hs]; exact hd.configOnly m
    · rw [hs]; exact hd.dataDir
    · rw [hs]; exact hd.history
    · rw [hs]; exact hd.reservoirs
    · intro m; rw [hs]; exact hd.dataOnly m
    · intro m; rw [hs]; exact hd.pickles m
    · intro m; rw [hs]; exact hd.envFiles m
    · intro m; rw [hs]; exact hd.reservoirFiles m

/-! ## A start -/

/-- What is moved aside: named workspaces that are not sound. -/
def Bad (c : Cfg) (fs : FS) (r : Root) (n : Name) : Prop := n ≠ .default_ ∧ ¬ Sound c n fs ∧ fs r [.workspace, n] ≠ none

/-- The workspaces that are validated. -/
def InBoth (fs : FS) (n : Name) : Prop := fs .config [.workspace, n] ≠ none ∧ fs .data [.workspace, n] ≠ none

theorem start_triple {c : Cfg} {fs : FS} (hh : Healthy fs) (hf : Fits c fs) :
    Triple fs c.start (fun _ fs' => ∃ fs1, Validated c (InBoth fs) fs fs1 ∧ Aside c.now (Bad c fs) fs1 fs' ∧ ((∀ r n, ¬ Bad c fs r n) → fs' = fs1))
      (fun fs' => ∃ fs1 D, Mod fs fs1 ∧ (∀ r n, D r n → Bad c fs r n) ∧ Aside c.now D fs1 fs') := by
  have hroot : ∀ r, fs r [] = some .dir := fun r => hh.tree r [] .workspace (by rw [show ([] : Path) ++ [.workspace] = [.workspace] from rfl, hh.workspaces r]; simp)
  have hc0 : ∃ fs1 D, Mod fs fs1 ∧ (∀ r n, D r n → Bad c fs r n) ∧ Aside c.now D fs1 fs := ⟨fs, _, Mod.refl fs, fun _ _ h => h.elim, Aside.refl hh hf.fresh⟩
  have hcm : ∀ fs1, Mod fs fs1 → ∃ fs2 D, Mod fs fs2 ∧ (∀ r n, D r n → Bad c fs r n) ∧ Aside c.now D fs2 fs1 :=
    fun fs1 hm => ⟨fs1, _, hm, fun _ _ h => h.elim, Aside.refl (hm.healthy hh) (hm.fits hf).fresh⟩
  have hdir : ∀ r p, fs r p = some .dir → ∀ {R : Unit → FS → Prop} {C : FS → Prop}, C fs → R () fs → Triple fs (ensureDir r p) R C :=
    fun r p hp _ _ hC hR => ensureDir_triple hC (fun _ => hR) (fun hn => absurd hp hn)
  unfold Cfg.start
  refine .bind (Q := fun _ fs' => fs' = fs) (hdir _ _ (hroot _) hc0 rfl) ?_
  rintro _ fs rfl
  refine .bind (Q := fun _ fs' => fs' = fs) (.require ?_ rfl) ?_
  · obtain ⟨t, ht⟩ := hh.version
    rw [has_iff.mpr (by rw [ht]; simp), isDir_false.mpr (by rw [ht]; simp)]
    rfl
  rintro _ fs rfl
  refine .bind (Q := fun _ fs' => fs' = fs) (hdir _ _ (hh.workspaces _) hc0 rfl) ?_
  rintro _ fs rfl
  refine .bind (Q := fun _ fs' => fs' = fs) (hdir _ _ (hh.brokens _) hc0 rfl) ?_
  rintro _ fs rfl
  refine .bind (Q := fun _ fs' => fs' = fs) (hdir _ _ (hroot _) hc0 rfl) ?_
  rintro _ fs rfl
  refine .bind (Q := fun _ fs' => fs' = fs) (hdir _ _ (hh.workspaces _) hc0 rfl) ?_
  rintro _ fs rfl
  refine .bind (Q := fun _ fs' => fs' = fs) (hdir _ _ (hh.brokens _) hc0 rfl) ?_
  rintro _ fs rfl
  refine .bind (Q := fun cs fs' => cs = c.children .config [.workspace] fs ∧ fs' = fs) (.get ⟨rfl, rfl⟩) ?_
  rintro cs fs ⟨hcs, rfl⟩
  refine .bind (Q := fun ds fs' => ds = c.children .data [.workspace] fs ∧ fs' = fs) (.get ⟨rfl, rfl⟩) ?_
  rintro ds fs ⟨hds, rfl⟩
  have mcs : ∀ n, n ∈ cs ↔ fs .config [.workspace, n] ≠ none := fun n => by rw [hcs]; exact hf.mem_children
  have mds : ∀ n, n ∈ ds ↔ fs .data [.workspace, n] ≠ none := fun n => by rw [hds]; exact hf.mem_children
  refine .bind (.mono (validateEach_triple (fun n => ds.contains n) cs fs hh hf (by rw [hcs]; exact hf.children_nodup _ _) (fun n hn => (mcs n).mp hn)
    (fun n _ hb => (mds n).mp (by simpa using hb))) (fun _ _ h => h) hcm) ?_
  rintro es fs1 ⟨hv, hes⟩
  have hh1 := hv.mod.healthy hh
  have hf1 := hv.mod.fits hf
  -- the errors are those of named workspaces
  obtain ⟨ns, hns⟩ : ∃ ns : List Name, es = ns.map some := by
    have : ∀ e ∈ es, ∃ n, e = some n := fun e he => by obtain ⟨n, _, _, _, _, h⟩ := (hes e).mp he; exact ⟨n, h⟩
    clear hes
    induction es with
    | nil => exact ⟨[], rfl⟩
    | cons e es ih =>
      obtain ⟨ns, h⟩ := ih fun e' he' => this e' (by simp [he'])
      obtain ⟨n, h1⟩ := this e (by simp)
      exact ⟨n :: ns, by rw [h, h1]; rfl⟩
  have hdef : ∀ r, fs r [.workspace, .default_] ≠ none := by
    intro r
    cases r
    · rw [hh.default_.configDir]; simp
    · rw [hh.default_.dataDir]; simp
  have hbad : ∀ r n, ((n ∈ cs.filter fun n => !ds.contains n) ∨ (n ∈ ds.filter fun n => !cs.contains n) ∨ n ∈ ns) ∧ fs1 r [.workspace, n] ≠ none ↔ Bad c fs r n := by
    intro r n
    rw [hv.mod.same not_transient_dir]
    constructor
    · rintro ⟨h, hp⟩
      have hone : ∀ r1, fs r1 [.workspace, n] = none → Bad c fs r n := by
        intro r1 hn
        refine ⟨?_, fun hs => ?_, hp⟩
        · rintro rfl; exact hdef r1 hn
        · cases r1
          · rw [hs.configDir] at hn; cases hn
          · rw [hs.dataDir] at hn; cases hn
      rcases h with h | h | h
      · have := (List.mem_filter.mp h).2
        refine hone .data (Classical.byContradiction fun hne => ?_)
        have h3 := (mds n).mpr hne
        simp [h3] at this
      · have := (List.mem_filter.mp h).2
        refine hone .config (Classical.byContradiction fun hne => ?_)
        have h3 := (mcs n).mpr hne
        simp [h3] at this
      · obtain ⟨n', _, _, h3, h4, h5⟩ := (hes (some n)).mp (by rw [hns]; simp [h])
        cases h5
        exact ⟨h3, h4, hp⟩
    · rintro ⟨h1, h2, h3⟩
      refine ⟨?_, h3⟩
      by_cases hc : fs .config [.workspace, n] = none
      · have hd : fs .data [.workspace, n] ≠ none := by cases r; exact absurd hc h3; exact h3
        refine .inr (.inl (List.mem_filter.mpr ⟨(mds n).mpr hd, ?_⟩))
        have : n ∉ cs := fun h => (mcs n).mp h hc
        simp [this]
      · by_cases hd : fs .data [.workspace, n] = none
        · refine .inl (List.mem_filter.mpr ⟨(mcs n).mpr hc, ?_⟩)
          have : n ∉ ds := fun h => (mds n).mp h hd
          simp [this]
        · refine .inr (.inr ?_)
          have := (hes (some n)).mpr ⟨n, (mcs n).mpr hc, by simpa using (mds n).mpr hd, h1, h2, rfl⟩
          rw [hns] at this
          simpa using this
  have hfe := forEach_markBroken (c := c) hh1 ((cs.filter fun n => !ds.contains n) ++ (ds.filter fun n => !cs.contains n) ++ ns) _ fs1 (Aside.refl hh1 hf1.fresh)
  rw [List.map_append, List.map_append, ← hns] at hfe
  have hval : Validated c (InBoth fs) fs fs1 := by
    refine ⟨hv.mod, ?_, ?_⟩
    · intro n hn
      refine hv.untouched n ?_
      rintro ⟨h3, h4⟩
      exact hn ⟨(mcs n).mp h3, (mds n).mp (by simpa using h4)⟩
    · rintro n ⟨h3, h4⟩
      exact hv.marks n ⟨(mcs n).mpr h3, by simpa using (mds n).mpr h4⟩
  by_cases hnil : ∀ r n, ¬ Bad c fs r n
  · have hl : ∀ n, ¬ ((n ∈ cs.filter fun n => !ds.contains n) ∨ (n ∈ ds.filter fun n => !cs.contains n) ∨ n ∈ ns) := by
      intro n h
      have : ∃ r, fs1 r [.workspace, n] ≠ none := by
        rcases h with h1 | h1 | h1
        · exact ⟨.config, by rw [hv.mod.same not_transient_dir]; exact (mcs n).mp (List.mem_filter.mp h1).1⟩
        · exact ⟨.data, by rw [hv.mod.same not_transient_dir]; exact (mds n).mp (List.mem_filter.mp h1).1⟩
        · obtain ⟨n', h2, _, _, _, h5⟩ := (hes (some n)).mp (by rw [hns]; simp [h1])
          cases h5
          exact ⟨.config, by rw [hv.mod.same not_transient_dir]; exact (mcs n).mp h2⟩
      obtain ⟨r, hr⟩ := this
      exact hnil r n ((hbad r n).mp ⟨h, hr⟩)
    have hl1 : (cs.filter fun n => !ds.contains n) = [] := List.eq_nil_iff_forall_not_mem.mpr fun n h => hl n (.inl h)
    have hl2 : (ds.filter fun n => !cs.contains n) = [] := List.eq_nil_iff_forall_not_mem.mpr fun n h => hl n (.inr (.inl h))
    have hl3 : ns = [] := List.eq_nil_iff_forall_not_mem.mpr fun n h => hl n (.inr (.inr h))
    rw [hl1, hl2, hns, hl3]
    refine .pure ⟨fs1, hval, (Aside.refl hh1 hf1.fresh).congr ?_, fun _ => rfl⟩
    intro r n
    exact ⟨False.elim, hnil r n⟩
  refine .mono hfe ?_ ?_
  · intro _ fs2 h2
    refine ⟨fs1, hval, h2.congr ?_, fun h => absurd h hnil⟩
    · intro r n
      rw [← hbad r n]
      simp only [List.mem_append, false_or, or_assoc]
  · rintro fs2 ⟨D', h1, h2⟩
    refine ⟨fs1, D', hv.mod, fun r n hD => (hbad r n).mp ⟨?_, h2.there r n hD⟩, h2⟩
    have := (h1 r n hD).resolve_left id
    simpa only [List.mem_append, or_assoc] using this

end Marcel.WsDisk
