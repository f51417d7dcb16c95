import Verif.Spec.Storage

namespace Marcel.Storage

/-! ## Paths -/

theorem strip_eq {a q q' : Path} : strip a q = some q' ↔ q = a ++ q' := by
  induction a generalizing q with
  | nil => simp [strip, eq_comm]
  | cons x a ih =>
    cases q with
    | nil => simp [strip]
    | cons y q =>
      simp only [strip]
      by_cases h : x = y
      · subst h; simp [ih]
      · simp [h]; intro h'; exact absurd h'.symm h

theorem strip_none {a q : Path} : strip a q = none ↔ ∀ q', q ≠ a ++ q' := by
  rw [Option.eq_none_iff_forall_ne_some]; simp [strip_eq]

theorem strip_isSome {a q : Path} : (strip a q).isSome ↔ ∃ q', q = a ++ q' := by
  rw [Option.isSome_iff_exists]; simp [strip_eq]

theorem Tree.prefix {fs : FS} (h : Tree fs) {r : Root} (p q : Path) (hq : q ≠ [])
    (hs : (fs r (p ++ q)).isSome) : fs r p = some .dir := by
  induction q generalizing p with
  | nil => exact absurd rfl hq
  | cons x q ih =>
    by_cases hq : q = []
    · subst hq; exact h r p x hs
    · have := ih (p ++ [x]) hq (by simpa using hs)
      exact h r p x (by simp [this])

theorem dropLast_append_getLast' {p : Path} (h : p ≠ []) : ∃ n, p = p.dropLast ++ [n] :=
  ⟨p.getLast h, (List.dropLast_concat_getLast h).symm⟩

/-! ## Places -/

theorem Later.trans {p q r : Place} (h : Later p q) (h' : Later q r) : Later p r := by
  induction h with
  | refl => exact h'
  | step m _ ih => exact .step m (ih h')

theorem Later.one {p q : Place} (h : Moves p q) : Later p q := .step h (.refl _)

theorem Kept.refl {envs : Nat → Prop} (fs : FS) : Kept envs fs fs :=
  fun r p _ h => ⟨r, p, .refl _, .inr h⟩

theorem Kept.trans {envs : Nat → Prop} {a b c : FS} (h : Kept envs a b) (h' : Kept envs b c) : Kept envs a c := by
  intro r p x hx
  obtain ⟨r', p', hl, hr | hf⟩ := h r p x hx
  · exact ⟨r', p', hl, .inl hr⟩
  · obtain ⟨r'', p'', hl', h''⟩ := h' r' p' x hf
    exact ⟨r'', p'', hl.trans hl', h''⟩

/-! ## Programs -/

/-- What holds at the start of each run, and after it. -/
structure Inv (U : Name → Prop) (fs : FS) : Prop where
  tree : Tree fs
  uses : Uses U fs
  noConflict : NoConflict fs

/-- Whatever happens, files are kept; if the program returns, the postcondition holds. -/
def Safe {α : Type} (U : Name → Prop) (envs : Nat → Prop) (P : FS → Prop) (m : Prog α) (Q : α → FS → Prop) : Prop :=
  ∀ fs k, Inv U fs → P fs →
    (Inv U (m fs k).fs ∧ Kept envs fs (m fs k).fs) ∧ ∀ a fs' k', m fs k = .ok a fs' k' → Q a fs'

variable {U : Name → Prop} {envs : Nat → Prop} {α β : Type}

theorem bind_def (m : Prog α) (f : α → Prog β) (fs : FS) (k : Option Nat) :
    (m >>= f) fs k = match m fs k with
      | .ok a fs' k' => f a fs' k'
      | .raised fs' => .raised fs'
      | .crashed fs' => .crashed fs' := rfl

theorem pure_def (a : α) (fs : FS) (k : Option Nat) : (pure a : Prog α) fs k = .ok a fs k := rfl

theorem get_bind (f : FS → α) (g : α → Prog β) (fs : FS) (k : Option Nat) : (get f >>= g) fs k = g (f fs) fs k := rfl

theorem ite_app (b : Prop) [Decidable b] (m m' : Prog α) (fs : FS) (k : Option Nat) :
    (if b then m else m') fs k = if b then m fs k else m' fs k := by split <;> rfl

theorem Safe.bind {P : FS → Prop} {m : Prog α} {Q : α → FS → Prop} {f : α → Prog β} {S : β → FS → Prop}
    (hm : Safe U envs P m Q) (hf : ∀ a, Safe U envs (Q a) (f a) S) : Safe U envs P (m >>= f) S := by
  intro fs k hi hp
  obtain ⟨⟨h1, h2⟩, h3⟩ := hm fs k hi hp
  rw [bind_def]
  cases hmk : m fs k with
  | ok a fs' k' =>
    simp only [hmk, Res.fs] at h1 h2 ⊢
    obtain ⟨⟨g1, g2⟩, g3⟩ := hf a fs' k' h1 (h3 a fs' k' hmk)
    exact ⟨⟨g1, h2.trans g2⟩, g3⟩
  | raised fs' =>
    simp only [hmk, Res.fs] at h1 h2 ⊢
    exact ⟨⟨h1, h2⟩, fun _ _ _ h => by simp at h⟩
  | crashed fs' =>
    simp only [hmk, Res.fs] at h1 h2 ⊢
    exact ⟨⟨h1, h2⟩, fun _ _ _ h => by simp at h⟩

theorem Safe.pure {P : FS → Prop} {Q : α → FS → Prop} (a : α) (h : ∀ fs, P fs → Q a fs) :
    Safe U envs P (Pure.pure a : Prog α) Q := by
  intro fs k hi hp
  refine ⟨⟨hi, .refl fs⟩, ?_⟩
  intro a' fs' k' he
  simp only [pure_def, Res.ok.injEq] at he
  obtain ⟨rfl, rfl, _⟩ := he
  exact h _ hp

theorem Safe.fail {P : FS → Prop} {Q : α → FS → Prop} : Safe U envs P (fail : Prog α) Q :=
  fun fs _ hi _ => ⟨⟨hi, .refl fs⟩, fun _ _ _ h => by simp [Storage.fail] at h⟩

theorem Safe.get {P : FS → Prop} {g : FS → α} {f : α → Prog β} {S : β → FS → Prop}
    (hf : ∀ a, Safe U envs (fun fs => P fs ∧ g fs = a) (f a) S) : Safe U envs P (get g >>= f) S := by
  intro fs k hi hp
  exact hf (g fs) fs k hi ⟨hp, rfl⟩

theorem Safe.ite {P : FS → Prop} {Q : α → FS → Prop} {b : Prop} [Decidable b] {m m' : Prog α}
    (h : b → Safe U envs P m Q) (h' : ¬b → Safe U envs P m' Q) : Safe U envs P (if b then m else m') Q := by
  split
  · exact h ‹_›
  · exact h' ‹_›

theorem Safe.weaken {P P' : FS → Prop} {m : Prog α} {Q Q' : α → FS → Prop} (h : Safe U envs P m Q)
    (hp : ∀ fs, Inv U fs → P' fs → P fs) (hq : ∀ a fs, Q a fs → Q' a fs) : Safe U envs P' m Q' :=
  fun fs k hi h' => ⟨(h fs k hi (hp fs hi h')).1, fun a fs' k' e => hq _ _ ((h fs k hi (hp fs hi h')).2 a fs' k' e)⟩

theorem Safe.change {P : FS → Prop} {Q : Unit → FS → Prop} {f : FS → FS}
    (h : ∀ fs, Inv U fs → P fs → Inv U (f fs) ∧ Kept envs fs (f fs) ∧ Q () (f fs)) :
    Safe U envs P (change f) Q := by
  intro fs k hi hp
  obtain ⟨h1, h2, h3⟩ := h fs hi hp
  match k with
  | none =>
    refine ⟨⟨h1, h2⟩, ?_⟩
    intro a fs' k' he
    simp only [Storage.change, Res.ok.injEq] at he
    obtain ⟨_, rfl, _⟩ := he
    exact h3
  | some 0 => exact ⟨⟨hi, .refl fs⟩, fun _ _ _ h => by simp [Storage.change] at h⟩
  | some (k + 1) =>
    refine ⟨⟨h1, h2⟩, ?_⟩
    intro a fs' k' he
    simp only [Storage.change, Res.ok.injEq] at he
    obtain ⟨_, rfl, _⟩ := he
    exact h3

/-! ## Single steps -/

theorem set_same (fs : FS) (r : Root) (p : Path) (n : Option Node) : fs.set r p n r p = n := by simp [FS.set]

theorem set_other (fs : FS) {r r' : Root} {p p' : Path} (n : Option Node) (h : ¬(r' = r ∧ p' = p)) : fs.set r p n r' p' = fs r' p' := by
  simp [FS.set, h]

/-- Places that are not involved in conflicts. -/
def Neutral (r : Root) (p : Path) : Prop := r ≠ .home ∧ ¬(r = .config ∧ p = [.startup]) ∧ ¬(r = .data ∧ p = [.history])

/-- Something is put at a place where there is nothing, or a plain file. -/
theorem Inv.set {fs : FS} (hi : Inv U fs) {r : Root} {p : Path} {n : Node} (hn : Neutral r p)
    (hp : p = [] ∨ fs r p.dropLast = some .dir) (hU : ∀ x ∈ p, U x) (hd : fs r p ≠ some .dir ∨ n = .dir) : Inv U (fs.set r p (some n)) := by
  obtain ⟨hr, hc, hda⟩ := hn
  refine ⟨?_, ?_, ?_, ?_⟩
  · intro r' p' n' h
    by_cases h1 : r' = r ∧ p' ++ [n'] = p
    · obtain ⟨rfl, rfl⟩ := h1
      rw [set_other _ _ (by simp)]
      simpa using hp
    · rw [set_other _ _ h1] at h
      have := hi.tree _ _ _ h
      by_cases h2 : r' = r ∧ p' = p
      · obtain ⟨rfl, rfl⟩ := h2
        rw [set_same]
        rcases hd with hd | rfl
        · exact absurd this hd
        · rfl
      · rw [set_other _ _ h2]; exact this
  · intro r' p' n' h
    by_cases h1 : r' = r ∧ p' ++ [n'] = p
    · obtain ⟨rfl, rfl⟩ := h1
      exact hU n' (by simp)
    · rw [set_other _ _ h1] at h
      exact hi.uses _ _ _ h
  · rw [set_other, set_other]
    · exact hi.noConflict.1
    · intro h; exact hc ⟨h.1.symm, h.2.symm⟩
    · intro h; exact hr h.1.symm
  · rw [set_other, set_other]
    · exact hi.noConflict.2
    · intro h; exact hda ⟨h.1.symm, h.2.symm⟩
    · intro h; exact hr h.1.symm

theorem Kept.set {fs : FS} {r : Root} {p : Path} {n : Option Node}
    (h : (∀ c, fs r p ≠ some (.file c)) ∨ Replaced envs (r, p)) : Kept envs fs (fs.set r p n) := by
  intro r' p' c hc
  refine ⟨r', p', .refl _, ?_⟩
  by_cases h1 : r' = r ∧ p' = p
  · obtain ⟨rfl, rfl⟩ := h1
    rcases h with h | h
    · exact absurd hc (h c)
    · exact .inl h
  · rw [set_other _ _ h1]; exact .inr hc

/-- A fact that does not depend on what is at the place. -/
def Stable (P : FS → Prop) (r : Root) (p : Path) : Prop := ∀ fs n, P fs → P (fs.set r p n)

theorem safe_mkdir {P : FS → Prop} {r : Root} {p : Path} (hn : Neutral r p) (hU : ∀ x ∈ p, U x) (hP : Stable P r p) :
    Safe U envs P (mkdir r p) fun _ fs => P fs ∧ fs r p = some .dir := by
  unfold mkdir
  refine Safe.get fun a => Safe.ite (fun _ => Safe.fail) fun ha => ?_
  refine Safe.get fun b => Safe.ite (fun hb => ?_) fun _ => Safe.fail
  refine Safe.change fun fs hi ⟨⟨hp, h1⟩, h2⟩ => ?_
  subst h1 h2
  have hnone : fs r p = none := by simpa [has] using ha
  refine ⟨hi.set hn ?_ hU (.inl (by simp [hnone])), Kept.set (.inl (by simp [hnone])), hP _ _ hp, set_same ..⟩
  simpa [isDir] using hb

theorem safe_ensureDir {P : FS → Prop} {r : Root} {p : Path} (hn : Neutral r p) (hU : ∀ x ∈ p, U x) (hP : Stable P r p) :
    Safe U envs P (ensureDir r p) fun _ fs => P fs ∧ fs r p = some .dir := by
  unfold ensureDir
  refine Safe.get fun a => Safe.ite (fun ha => ?_) fun _ => ?_
  · refine Safe.pure _ fun fs ⟨hp, h⟩ => ⟨hp, ?_⟩
    subst h; simpa [isDir] using ha
  · exact (safe_mkdir hn hU hP).weaken (fun _ _ h => h.1) fun _ _ h => h

theorem safe_ensureDirs {P : FS → Prop} {r : Root} (p q : Path)
    (hn : ∀ q', q' <+: q → Neutral r (p ++ q')) (hU : ∀ x ∈ p ++ q, U x) (hP : ∀ q', q' <+: q → Stable P r (p ++ q')) :
    Safe U envs P (ensureDirs r p q) fun _ fs => P fs ∧ fs r (p ++ q) = some .dir := by
  induction q generalizing p with
  | nil =>
    simp only [ensureDirs, List.append_nil]
    exact safe_ensureDir (by simpa using hn [] (List.nil_prefix)) (by simpa using hU) (by simpa using hP [] (List.nil_prefix))
  | cons n q ih =>
    simp only [ensureDirs]
    refine Safe.bind (Q := fun _ fs => P fs) ?_ fun _ => ?_
    · exact (safe_ensureDir (by simpa using hn [] (List.nil_prefix)) (fun x hx => hU x (by simp [hx]))
        (by simpa using hP [] (List.nil_prefix))).weaken (fun _ _ h => h) fun _ _ h => h.1
    · have := ih (p ++ [n]) (fun q' hq' => by simpa using hn (n :: q') ((List.cons_prefix_cons).2 ⟨rfl, hq'⟩)) (by simpa using hU)
        (fun q' hq' => by simpa using hP (n :: q') ((List.cons_prefix_cons).2 ⟨rfl, hq'⟩))
      simpa using this

theorem safe_createDir {P : FS → Prop} {r : Root} {p : Path}
    (hn : ∀ q', q' <+: p → Neutral r q') (hU : ∀ x ∈ p, U x) (hP : ∀ q', q' <+: p → Stable P r q') :
    Safe U envs P (createDir r p) fun _ fs => P fs := by
  unfold createDir
  refine Safe.get fun a => Safe.ite (fun ha => ?_) fun _ => ?_
  · exact Safe.pure _ fun fs h => h.1
  · exact (safe_ensureDirs [] p (by simpa using hn) (by simpa using hU) (by simpa using hP)).weaken (fun _ _ h => h.1) fun _ _ h => h.1

theorem safe_touch {P : FS → Prop} {r : Root} {p : Path} (hn : Neutral r p) (hU : ∀ x ∈ p, U x) (hP : Stable P r p) :
    Safe U envs P (touch r p) fun _ fs => P fs := by
  unfold touch
  refine Safe.get fun a => Safe.ite (fun _ => Safe.pure _ fun fs h => h.1) fun ha => ?_
  refine Safe.get fun b => Safe.ite (fun hb => ?_) fun _ => Safe.fail
  refine Safe.change fun fs hi ⟨⟨hp, h1⟩, h2⟩ => ?_
  subst h1 h2
  have hnone : fs r p = none := by simpa [has] using ha
  exact ⟨hi.set hn (.inr (by simpa [isDir] using hb)) hU (.inl (by simp [hnone])), Kept.set (.inl (by simp [hnone])), hP _ _ hp⟩

theorem set_set (fs : FS) (r : Root) (p : Path) (n n' : Option Node) : (fs.set r p n).set r p n' = fs.set r p n' := by
  funext r' p'; simp only [FS.set]; split <;> rfl

theorem safe_writeFile {P P' : FS → Prop} {r : Root} {p : Path} {c : Text} (hn : Neutral r p) (hU : ∀ x ∈ p, U x)
    (hPP : ∀ fs, P fs → P' fs) (hP : Stable P' r p)
    (hf : ∀ fs, P fs → (∀ c, fs r p ≠ some (.file c)) ∨ Replaced envs (r, p)) :
    Safe U envs P (writeFile r p c) fun _ fs => P' fs ∧ fs r p = some (.file c) := by
  intro fs k hi hp
  have hset : ∀ c', fs r p ≠ some .dir → fs r p.dropLast = some .dir →
      Inv U (fs.set r p (some (.file c'))) ∧ Kept envs fs (fs.set r p (some (.file c'))) := fun c' h1 h2 =>
    ⟨hi.set hn (.inr h2) hU (.inl h1), Kept.set (hf fs hp)⟩
  unfold writeFile
  rw [get_bind]
  by_cases h1 : isDir r p fs
  · simp only [h1, ↓reduceIte]
    exact ⟨⟨hi, .refl fs⟩, fun _ _ _ h => by simp [Storage.fail] at h⟩
  · simp only [h1, Bool.false_eq_true, ↓reduceIte, get_bind]
    by_cases h2 : isDir r p.dropLast fs
    · simp only [h2, ↓reduceIte]
      have h1' : fs r p ≠ some .dir := by simpa [isDir] using h1
      have h2' : fs r p.dropLast = some .dir := by simpa [isDir] using h2
      match k with
      | none =>
        simp only [bind_def, Storage.change, set_set, Res.fs]
        refine ⟨hset c h1' h2', ?_⟩
        intro a fs' k' he
        simp only [Res.ok.injEq] at he
        rw [← he.2.1, set_same]
        exact ⟨hP _ _ (hPP _ hp), rfl⟩
      | some 0 =>
        simp only [bind_def, Storage.change, Res.fs]
        exact ⟨⟨hi, .refl fs⟩, fun _ _ _ h => by simp at h⟩
      | some 1 =>
        simp only [bind_def, Storage.change, Res.fs]
        exact ⟨hset [] h1' h2', fun _ _ _ h => by simp at h⟩
      | some (k + 2) =>
        simp only [bind_def, Storage.change, set_set, Res.fs]
        refine ⟨hset c h1' h2', ?_⟩
        intro a fs' k' he
        simp only [Res.ok.injEq] at he
        rw [← he.2.1, set_same]
        exact ⟨hP _ _ (hPP _ hp), rfl⟩
    · simp only [h2, Bool.false_eq_true, ↓reduceIte]
      exact ⟨⟨hi, .refl fs⟩, fun _ _ _ h => by simp [Storage.fail] at h⟩

theorem safe_unlink {P : FS → Prop} {r : Root} {p : Path} (hn : Neutral r p) (hP : Stable P r p) (hf : Replaced envs (r, p)) :
    Safe U envs P (unlink r p) fun _ fs => P fs := by
  unfold unlink
  refine Safe.get fun a => Safe.ite (fun ha => ?_) fun _ => Safe.fail
  refine Safe.change fun fs hi ⟨hp, h1⟩ => ?_
  subst h1
  have hnd : fs r p ≠ some .dir := by
    simp only [isDir, Bool.and_eq_true, Bool.not_eq_true', decide_eq_false_iff_not] at ha
    exact ha.2
  obtain ⟨hr, hc, hda⟩ := hn
  refine ⟨⟨?_, ?_, ?_, ?_⟩, Kept.set (.inr hf), hP _ _ hp⟩
  · intro r' p' n' h
    by_cases h1 : r' = r ∧ p' ++ [n'] = p
    · obtain ⟨rfl, rfl⟩ := h1
      simp [set_same] at h
    · rw [set_other _ _ h1] at h
      have := hi.tree _ _ _ h
      by_cases h2 : r' = r ∧ p' = p
      · obtain ⟨rfl, rfl⟩ := h2
        exact absurd this hnd
      · rw [set_other _ _ h2]; exact this
  · intro r' p' n' h
    by_cases h1 : r' = r ∧ p' ++ [n'] = p
    · obtain ⟨rfl, rfl⟩ := h1
      simp [set_same] at h
    · rw [set_other _ _ h1] at h
      exact hi.uses _ _ _ h
  · rw [set_other, set_other]
    · exact hi.noConflict.1
    · intro h; exact hc ⟨h.1.symm, h.2.symm⟩
    · intro h; exact hr h.1.symm
  · rw [set_other, set_other]
    · exact hi.noConflict.2
    · intro h; exact hda ⟨h.1.symm, h.2.symm⟩
    · intro h; exact hr h.1.symm

/-! ## Moving -/

theorem move_target (fs : FS) (ra : Root) (a : Path) (rb : Root) (b q : Path) : fs.move ra a rb b rb (b ++ q) = fs ra (a ++ q) := by
  simp [FS.move, (strip_eq (a := b) (q := b ++ q) (q' := q)).2 rfl]

theorem move_source {fs : FS} {ra : Root} {a : Path} {rb : Root} {b : Path} (q : Path) (h : ¬(ra = rb ∧ ∃ q', a ++ q = b ++ q')) :
    fs.move ra a rb b ra (a ++ q) = none := by
  have h1 : (if ra = rb then strip b (a ++ q) else none) = none := by
    split
    · rw [strip_none]; intro q' e; exact h ⟨‹_›, q', e⟩
    · rfl
  have h2 : (strip a (a ++ q)).isSome := strip_isSome.2 ⟨q, rfl⟩
  simp [FS.move, h1, h2]

theorem move_other {fs : FS} {ra : Root} {a : Path} {rb : Root} {b : Path} {r : Root} {p : Path}
    (h : ¬(r = rb ∧ ∃ q', p = b ++ q')) (h' : ¬(r = ra ∧ ∃ q', p = a ++ q')) : fs.move ra a rb b r p = fs r p := by
  have h1 : (if r = rb then strip b p else none) = none := by
    split
    · rw [strip_none]; intro q' e; exact h ⟨‹_›, q', e⟩
    · rfl
  have h2 : ¬(r = ra ∧ (strip a p).isSome) := by rw [strip_isSome]; exact h'
  simp only [FS.move, h1, h2, ↓reduceIte]

/-- Where a path is after a move. -/
theorem move_cases (fs : FS) (ra : Root) (a : Path) (rb : Root) (b : Path) (r : Root) (p : Path) :
    (∃ q, r = rb ∧ p = b ++ q) ∨
    ((∃ q, r = ra ∧ p = a ++ q) ∧ ¬(r = rb ∧ ∃ q', p = b ++ q') ∧ fs.move ra a rb b r p = none) ∨
    (¬(r = rb ∧ ∃ q', p = b ++ q') ∧ ¬(r = ra ∧ ∃ q', p = a ++ q') ∧ fs.move ra a rb b r p = fs r p) := by
  by_cases h : r = rb ∧ ∃ q', p = b ++ q'
  · exact .inl ⟨h.2.choose, h.1, h.2.choose_spec⟩
  · by_cases h' : r = ra ∧ ∃ q', p = a ++ q'
    · refine .inr (.inl ⟨⟨h'.2.choose, h'.1, h'.2.choose_spec⟩, h, ?_⟩)
      obtain ⟨rfl, q, rfl⟩ := h'
      exact move_source q h
    · exact .inr (.inr ⟨h, h', move_other h h'⟩)

/-- The conditions under which `rename` moves. -/
structure Movable (names : List Name) (fs : FS) (ra : Root) (a : Path) (rb : Root) (b : Path) : Prop where
  source : (fs ra a).isSome
  outside : ¬(ra = rb ∧ ∃ q, b = a ++ q)
  parent : fs rb b.dropLast = some .dir
  target : fs rb b = none ∨ (fs rb b = some .dir ∧ ∀ n ∈ names, fs rb (b ++ [n]) = none) ∨
    (fs ra a ≠ some .dir ∧ fs rb b ≠ some .dir)

theorem movable_iff (names : List Name) (fs : FS) (ra : Root) (a : Path) (rb : Root) (b : Path) :
    (has ra a fs && !(ra = rb && (strip a b).isSome) && isDir rb b.dropLast fs &&
        (!has rb b fs || (isDir ra a fs && emptyDir names rb b fs) || (!isDir ra a fs && !isDir rb b fs))) = true →
      Movable names fs ra a rb b := by
  intro h
  simp only [Bool.and_eq_true, Bool.or_eq_true, Bool.not_eq_true', has, isDir, emptyDir, decide_eq_true_eq, decide_eq_false_iff_not,
    List.all_eq_true, Option.isNone_iff_eq_none, Bool.and_eq_false_imp, Option.isSome_eq_false_iff] at h
  obtain ⟨⟨⟨h1, h2⟩, h3⟩, h4⟩ := h
  refine ⟨h1, ?_, h3, ?_⟩
  · rintro ⟨rfl, hq⟩
    have := h2 rfl
    rw [← strip_isSome] at hq
    simp [this] at hq
  · rcases h4 with (h4 | h4) | h4
    · exact .inl h4
    · exact .inr (.inl h4.2)
    · exact .inr (.inr h4)

/-- There is nothing below the target of a move. -/
theorem Movable.below {names : List Name} {fs : FS} {ra : Root} {a : Path} {rb : Root} {b : Path} (hm : Movable names fs ra a rb b)
    (hi : Inv U fs) (hU : ∀ n, U n → n ∈ names) {q : Path} (hq : q ≠ []) : fs rb (b ++ q) = none := by
  cases h : fs rb (b ++ q) with
  | none => rfl
  | some x =>
    exfalso
    have hd : fs rb b = some .dir := hi.tree.prefix b q hq (by simp [h])
    rcases hm.target with h1 | ⟨_, h1⟩ | ⟨_, h1⟩
    · simp [h1] at hd
    · cases q with
      | nil => exact hq rfl
      | cons n q =>
        have hs : (fs rb (b ++ [n])).isSome := by
          by_cases hq' : q = []
          · subst hq'; simp [h]
          · have := hi.tree.prefix (b ++ [n]) q hq' (r := rb) (by simp [h])
            simp [this]
        rw [h1 n (hU n (hi.uses _ _ _ hs))] at hs
        simp at hs
    · exact h1 hd

theorem Movable.inv {names : List Name} {fs : FS} {ra : Root} {a : Path} {rb : Root} {b : Path} (hm : Movable names fs ra a rb b)
    (hi : Inv U fs) (hb : b ≠ []) (hUb : ∀ n ∈ b, U n)
    (hc : NoConflict (fs.move ra a rb b)) : Inv U (fs.move ra a rb b) := by
  refine ⟨?_, ?_, hc⟩
  · intro r p n h
    rcases move_cases fs ra a rb b r (p ++ [n]) with ⟨q, rfl, e⟩ | ⟨_, _, h1⟩ | ⟨h1, h2, h3⟩
    · rw [e, move_target] at h
      by_cases hq : q = []
      · subst hq
        have hp : p = b.dropLast := by rw [List.append_nil] at e; rw [← e]; simp
        rw [move_other, hp]
        · exact hm.parent
        · rintro ⟨_, q', e'⟩
          have := congrArg List.length e'
          have h2 : b.length ≠ 0 := by simpa using hb
          rw [hp] at this; simp at this; omega
        · rintro ⟨rfl, q', e'⟩
          apply hm.outside
          refine ⟨rfl, q' ++ [n], ?_⟩
          rw [List.append_nil] at e
          rw [← e, e']; simp
      · obtain ⟨m, hm'⟩ := dropLast_append_getLast' hq
        have e2 : p = b ++ q.dropLast ∧ [n] = [m] := by
          rw [hm', ← List.append_assoc] at e
          exact List.append_inj' e rfl
        rw [e2.1, move_target]
        apply hi.tree _ _ m
        rw [List.append_assoc, ← hm']; exact h
    · rw [h1] at h; simp at h
    · rw [h3] at h
      rw [move_other]
      · exact hi.tree _ _ _ h
      · rintro ⟨rfl, q', rfl⟩; exact h1 ⟨rfl, q' ++ [n], by simp⟩
      · rintro ⟨rfl, q', rfl⟩; exact h2 ⟨rfl, q' ++ [n], by simp⟩
  · intro r p n h
    rcases move_cases fs ra a rb b r (p ++ [n]) with ⟨q, rfl, e⟩ | ⟨_, _, h1⟩ | ⟨h1, h2, h3⟩
    · by_cases hq : q = []
      · subst hq
        apply hUb; rw [List.append_nil] at e; rw [← e]; simp
      · rw [e, move_target] at h
        obtain ⟨m, hm'⟩ := dropLast_append_getLast' hq
        have e2 : p = b ++ q.dropLast ∧ [n] = [m] := by
          rw [hm', ← List.append_assoc] at e
          exact List.append_inj' e rfl
        have e3 : n = m := by simpa using e2.2
        subst e3
        rw [hm', ← List.append_assoc] at h
        exact hi.uses _ _ _ h
    · rw [h1] at h; simp at h
    · rw [h3] at h; exact hi.uses _ _ _ h

theorem Movable.kept {names : List Name} {fs : FS} {ra : Root} {a : Path} {rb : Root} {b : Path} (hm : Movable names fs ra a rb b)
    (hi : Inv U fs) (hU : ∀ n, U n → n ∈ names) (hl : ∀ q, Later (ra, a ++ q) (rb, b ++ q))
    (hf : (∀ c, fs rb b ≠ some (.file c)) ∨ Replaced envs (rb, b)) : Kept envs fs (fs.move ra a rb b) := by
  intro r p c hc
  rcases move_cases fs ra a rb b r p with ⟨q, rfl, rfl⟩ | ⟨⟨q, rfl, rfl⟩, h1, _⟩ | ⟨h1, h2, h3⟩
  · by_cases hq : q = []
    · subst hq
      rw [List.append_nil] at hc ⊢
      rcases hf with hf | hf
      · exact absurd hc (hf c)
      · exact ⟨_, _, .refl _, .inl hf⟩
    · rw [hm.below hi hU hq] at hc; simp at hc
  · exact ⟨rb, b ++ q, hl q, .inr (by rw [move_target]; exact hc)⟩
  · exact ⟨r, p, .refl _, .inr (by rw [h3]; exact hc)⟩

/-! ## Concrete file systems -/

/-- Everything is in a directory. -/
def treeCheck (l : List (Root × Path × Node)) : Bool :=
  l.all fun e => e.2.1 = [] || decide (FS.ofList l e.1 e.2.1.dropLast = some .dir)

theorem ofList_mem {l : List (Root × Path × Node)} {r : Root} {p : Path} {n : Node} (h : FS.ofList l r p = some n) : (r, p, n) ∈ l := by
  unfold FS.ofList at h
  simp only [Option.map_eq_some_iff] at h
  obtain ⟨e, he, rfl⟩ := h
  have h1 := List.mem_of_find?_eq_some he
  have h2 := List.find?_some he
  simp only [decide_eq_true_eq] at h2
  obtain ⟨rfl, rfl⟩ := h2
  exact h1

theorem tree_ofList {l : List (Root × Path × Node)} (h : treeCheck l = true) : Tree (FS.ofList l) := by
  intro r p n hs
  obtain ⟨x, hx⟩ := Option.isSome_iff_exists.1 hs
  have hm := ofList_mem hx
  unfold treeCheck at h
  rw [List.all_eq_true] at h
  have := h _ hm
  simpa using this

theorem uses_ofList {l : List (Root × Path × Node)} {U : Name → Prop} (h : ∀ e ∈ l, ∀ n ∈ e.2.1, U n) : Uses U (FS.ofList l) := by
  intro r p n hs
  obtain ⟨x, hx⟩ := Option.isSome_iff_exists.1 hs
  exact h _ (ofList_mem hx) n (by simp)

end Marcel.Storage
