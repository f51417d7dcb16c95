import Verif.Lemmas.WsAside

/-! # Creating and deleting workspaces, step by step -/

namespace Marcel.WsDisk

/-! ## Steps that leave a healthy file system -/

theorem SoundDefault.congr {fs fs' : FS} (h : SoundDefault fs) (hs : ∀ r q, fs' r (.workspace :: .default_ :: q) = fs r (.workspace :: .default_ :: q)) : SoundDefault fs' := by
  constructor
  · rw [hs]; exact h.configDir
  · rw [hs]; exact h.startup
  · intro m; rw [hs]; exact h.configOnly m
  · rw [hs]; exact h.dataDir
  · rw [hs]; exact h.history
  · rw [hs]; exact h.reservoirs
  · intro m; rw [hs]; exact h.dataOnly m
  · intro m; rw [hs]; exact h.pickles m
  · intro m; rw [hs]; exact h.envFiles m
  · intro m; rw [hs]; exact h.reservoirFiles m

/-- Removing something that has nothing below it. -/
theorem Healthy.remove {fs : FS} (hh : Healthy fs) (r : Root) (n : Name) (q : Path) (hn : n ≠ .default_) (hleaf : ∀ m, fs r (.workspace :: n :: (q ++ [m])) = none) :
    Healthy (fs.set r (.workspace :: n :: q) none) := by
  have hne : ∀ r' p, fs.set r (.workspace :: n :: q) none r' p ≠ none → fs.set r (.workspace :: n :: q) none r' p = fs r' p ∧ fs r' p ≠ none := by
    intro r' p h
    by_cases hp : r' = r ∧ p = .workspace :: n :: q
    · obtain ⟨rfl, rfl⟩ := hp; rw [set_same] at h; exact absurd rfl h
    · rw [set_other _ _ _ _ hp] at h ⊢; exact ⟨rfl, h⟩
  have hkeep : ∀ r' p, (∀ q, p ≠ .workspace :: n :: q) → fs.set r (.workspace :: n :: q) none r' p = fs r' p := fun r' p hp => set_other _ _ _ _ fun h => hp q h.2
  constructor
  · intro r' p m h
    have h1 := (hne _ _ h).2
    have h2 := hh.tree r' p m h1
    rw [set_other _ _ _ _ ?_]
    · exact h2
    · rintro ⟨rfl, rfl⟩
      exact h1 (hleaf m)
  · obtain ⟨t, ht⟩ := hh.version
    exact ⟨t, by rw [hkeep _ _ (by simp), ht]⟩
  · intro r'; rw [hkeep _ _ (by simp)]; exact hh.workspaces r'
  · intro r'; rw [hkeep _ _ (by simp)]; exact hh.brokens r'
  · intro n' h1 h2
    obtain ⟨h3, h4⟩ := hne _ _ h1
    obtain ⟨h5, h6⟩ := hne _ _ h2
    have h7 := hh.both n' h4 h6
    rw [h3, h5]
    refine ⟨h7.1, h7.2.1, fun k => Classical.byContradiction fun h => ?_⟩
    exact (hne _ _ h).2 (h7.2.2 k)
  · intro n' p h
    have := hne .config [.workspace, n', .ownedBy p] (by rw [h]; simp)
    rw [this.1] at h
    exact hh.markerFiles n' p h
  · exact hh.default_.congr fun r' q' => hkeep _ _ (by simp; exact fun h => absurd h.symm hn)

/-- Writing a file. -/
theorem Healthy.write {fs : FS} (hh : Healthy fs) (r : Root) (n m : Name) (t : Text) (hn : n ≠ .default_) (hodd : ∀ k, m ≠ .oddMarker k) (hp : fs r [.workspace, n] = some .dir)
    (hf : fs r [.workspace, n, m] ≠ some .dir) : Healthy (fs.set r [.workspace, n, m] (some (.file t))) := by
  have hkeep : ∀ r' p, p ≠ [.workspace, n, m] → fs.set r [.workspace, n, m] (some (.file t)) r' p = fs r' p := fun r' p hp => set_other _ _ _ _ fun h => hp h.2
  have hdir : ∀ r' p, fs r' p = some .dir → fs.set r [.workspace, n, m] (some (.file t)) r' p = some .dir := by
    intro r' p h
    rw [set_other, h]
    rintro ⟨rfl, rfl⟩
    exact hf h
  constructor
  · intro r' p x h
    by_cases hx : r' = r ∧ p ++ [x] = [.workspace, n, m]
    · obtain ⟨rfl, h1⟩ := hx
      have : p = [.workspace, n] := (append_singleton_inj (q := [.workspace, n]) (m' := m) h1).1
      rw [this]
      exact hdir _ _ hp
    · rw [set_other _ _ _ _ hx] at h
      exact hdir _ _ (hh.tree r' p x h)
  · obtain ⟨t, ht⟩ := hh.version
    exact ⟨t, by rw [hkeep _ _ (by simp), ht]⟩
  · intro r'; rw [hkeep _ _ (by simp)]; exact hh.workspaces r'
  · intro r'; rw [hkeep _ _ (by simp)]; exact hh.brokens r'
  · intro n' h1 h2
    rw [hkeep _ _ (by simp)] at h1 h2 ⊢
    rw [hkeep _ _ (by simp)]
    have h7 := hh.both n' h1 h2
    refine ⟨h7.1, h7.2.1, fun k => ?_⟩
    rw [hkeep _ _ (by simp; exact fun _ h => hodd k h.symm)]
    exact h7.2.2 k
  · intro n' p h
    by_cases hx : Root.config = r ∧ [.workspace, n', .ownedBy p] = [.workspace, n, m]
    · obtain ⟨rfl, h1⟩ := hx
      rw [h1, set_same] at h
      cases h
    · rw [set_other _ _ _ _ hx] at h
      exact hh.markerFiles n' p h
  · exact hh.default_.congr fun r' q' => hkeep _ _ (by simp; exact fun h => absurd h.symm hn)

/-- Creating a directory for a workspace, or in it. -/
theorem Healthy.mkdir {fs : FS} (hh : Healthy fs) (r : Root) (n : Name) (q : Path) (hn : n ≠ .default_) (hq : q = [] ∨ q = [.reservoirs])
    (hother : q = [] → ∀ r', fs r' [.workspace, n] = none ∨ fs r' [.workspace, n] = some .dir ∧ ∀ k, fs r' [.workspace, n, .oddMarker k] = none)
    (hp : q = [.reservoirs] → fs r [.workspace, n] = some .dir) (hf : fs r (.workspace :: n :: q) = none) : Healthy (fs.set r (.workspace :: n :: q) (some .dir)) := by
  have hkeep : ∀ r' p, p ≠ .workspace :: n :: q → fs.set r (.workspace :: n :: q) (some .dir) r' p = fs r' p := fun r' p hp => set_other _ _ _ _ fun h => hp h.2
  have hdir : ∀ r' p, fs r' p = some .dir → fs.set r (.workspace :: n :: q) (some .dir) r' p = some .dir := by
    intro r' p h
    by_cases hx : r' = r ∧ p = .workspace :: n :: q
    · obtain ⟨rfl, rfl⟩ := hx; exact set_same _ _ _ _
    · rw [set_other _ _ _ _ hx, h]
  have hmark : ∀ r' n' x, x ≠ .reservoirs → fs.set r (.workspace :: n :: q) (some .dir) r' [.workspace, n', x] = fs r' [.workspace, n', x] := by
    intro r' n' x hx
    refine hkeep _ _ ?_
    rcases hq with rfl | rfl
    · simp
    · simp [hx]
  constructor
  · intro r' p x h
    by_cases hx : r' = r ∧ p ++ [x] = .workspace :: n :: q
    · obtain ⟨rfl, h1⟩ := hx
      rcases hq with rfl | rfl
      · have : p = [.workspace] := (append_singleton_inj (q := [.workspace]) (m' := n) h1).1
        rw [this]
        exact hdir _ _ (hh.workspaces _)
      · have : p = [.workspace, n] := (append_singleton_inj (q := [.workspace, n]) (m' := .reservoirs) h1).1
        rw [this]
        exact hdir _ _ (hp rfl)
    · rw [set_other _ _ _ _ hx] at h
      exact hdir _ _ (hh.tree r' p x h)
  · obtain ⟨t, ht⟩ := hh.version
    exact ⟨t, by rw [hkeep _ _ (by simp), ht]⟩
  · intro r'; rw [hkeep _ _ (by simp)]; exact hh.workspaces r'
  · intro r'; rw [hkeep _ _ (by simp)]; exact hh.brokens r'
  · intro n' h1 h2
    by_cases hx : q = [] ∧ n' = n
    · obtain ⟨rfl, rfl⟩ := hx
      have key : ∀ r', fs.set r [.workspace, n'] (some .dir) r' [.workspace, n'] ≠ none → fs.set r [.workspace, n'] (some .dir) r' [.workspace, n'] = some .dir ∧
          ∀ k, fs r' [.workspace, n', .oddMarker k] = none := by
        intro r' h
        by_cases hr : r' = r
        · subst hr
          exact ⟨set_same _ _ _ _, fun k => hh.below (p := [.workspace, n']) hf [.oddMarker k]⟩
        · rw [set_other _ _ _ _ fun h => hr h.1] at h ⊢
          exact ((hother rfl r').resolve_left h)
      refine ⟨(key _ h1).1, (key _ h2).1, fun k => ?_⟩
      rw [hmark _ _ _ (by simp)]
      exact (key _ h1).2 k
    · have h3 : ∀ r', fs.set r (.workspace :: n :: q) (some .dir) r' [.workspace, n'] = fs r' [.workspace, n'] := by
        intro r'
        refine hkeep _ _ ?_
        intro h
        simp at h
        exact hx ⟨h.2, h.1⟩
      rw [h3] at h1 h2 ⊢
      rw [h3]
      have h7 := hh.both n' h1 h2
      refine ⟨h7.1, h7.2.1, fun k => ?_⟩
      rw [hmark _ _ _ (by simp)]
      exact h7.2.2 k
  · intro n' p h
    rw [hmark _ _ _ (by simp)] at h
    exact hh.markerFiles n' p h
  · exact hh.default_.congr fun r' q' => hkeep _ _ (by simp; exact fun h => absurd h.symm hn)

/-! ## Deletion -/

/-- `fs'` is `fs` without the paths in `P`. -/
structure Rem (P : Root → Path → Prop) (fs fs' : FS) : Prop where
  gone : ∀ r p, P r p → fs' r p = none
  same : ∀ r p, ¬ P r p → fs' r p = fs r p

theorem Rem.step {P : Root → Path → Prop} {fs fs' : FS} (h : Rem P fs fs') (r : Root) (p : Path) : Rem (fun r' p' => P r' p' ∨ (r' = r ∧ p' = p)) fs (fs'.set r p none) := by
  constructor
  · intro r' p' hp
    by_cases hx : r' = r ∧ p' = p
    · obtain ⟨rfl, rfl⟩ := hx; exact set_same _ _ _ _
    · rw [set_other _ _ _ _ hx]; exact h.gone _ _ (hp.resolve_right hx)
  · intro r' p' hp
    rw [set_other _ _ _ _ fun hx => hp (.inr hx)]
    exact h.same _ _ fun hx => hp (.inl hx)

/-- Where marcel may be killed during a deletion: other workspaces are as before, and this one is either as before or without startup script. -/
structure Deleting (n : Name) (fs fs' : FS) : Prop where
  healthy : Healthy fs'
  outside : ∀ r p, ¬ Within n p → fs' r p = fs r p
  kept : fs' .config [.workspace, n, .startup] = none ∨ ∀ r q, ¬ Transient r (.workspace :: n :: q) → fs' r (.workspace :: n :: q) = fs r (.workspace :: n :: q)

theorem file_leaf {fs : FS} (hh : Healthy fs) {r : Root} {p : Path} {t : Text} (h : fs r p = some (.file t)) (m : Name) : fs r (p ++ [m]) = none := by
  refine Classical.byContradiction fun hne => ?_
  have := hh.tree r p m hne
  rw [h] at this
  cases this

theorem owner_free {c : Cfg} {fs : FS} {n : Name} (hm : fs .config [.workspace, n, .marker] ≠ none) {Q : Option Nat → FS → Prop} {C : FS → Prop} (h : Q none fs) : Triple fs (c.owner n) Q C := by
  unfold Cfg.owner
  refine .bind (Q := fun b fs' => b = true ∧ fs' = fs) (.get ⟨has_iff.mpr hm, rfl⟩) ?_
  rintro b fs' ⟨rfl, rfl⟩
  exact .pure h

/-- Locking a workspace that nobody uses. -/
theorem lock_free {c : Cfg} {fs : FS} {n : Name} {t : Text} (hm : fs .config [.workspace, n, .marker] = some (.file t)) (ho : fs .config [.workspace, n, .ownedBy c.pid] ≠ some .dir)
    {Q : Bool → FS → Prop} {C : FS → Prop} (hc : C fs)
    (h : Q true ((fs.set .config [.workspace, n, .ownedBy c.pid] (some (.file t))).set .config [.workspace, n, .marker] none)) : Triple fs (c.lock n) Q C := by
  unfold Cfg.lock
  refine .bind (Q := fun o fs' => o = none ∧ fs' = fs) (owner_free (by rw [hm]; simp) ⟨rfl, rfl⟩) ?_
  rintro o fs' ⟨rfl, rfl⟩
  unfold renameFile
  refine .bind (Q := fun _ fs2 => fs2 = (fs'.set .config [.workspace, n, .ownedBy c.pid] (some (.file t))).set .config [.workspace, n, .marker] none) ?_ ?_
  · refine .bind (Q := fun _ fs2 => fs2 = fs') (.require ?_ rfl) ?_
    · rw [has_iff.mpr (by rw [hm]; simp), isDir_false.mpr ho]; rfl
    · intro _ fs2 h2
      subst h2
      exact .change hc (by rw [hm])
  · intro _ fs2 h2
    refine .get ?_
    have : has .config [.workspace, n, .ownedBy c.pid] fs2 = true := has_iff.mpr (by rw [h2, set_other _ _ _ _ (by simp), set_same]; simp)
    rw [this, h2]
    exact h

theorem unlinkIfThere_triple {fs : FS} {r : Root} {p : Path} {Q : Unit → FS → Prop} {C : FS → Prop} {t : Text} (hp : fs r p = some (.file t)) (hc : C fs) (h : Q () (fs.set r p none)) :
    Triple fs (unlinkIfThere r p) Q C := by
  unfold unlinkIfThere
  refine .ifThen (fun _ => .unlink (by rw [hp]; simp) (by rw [hp]; simp) hc h) ?_
  intro hn
  rw [has_false.mp hn] at hp
  cases hp

theorem rmdir_triple {c : Cfg} {fs : FS} {r : Root} {p : Path} {Q : Unit → FS → Prop} {C : FS → Prop} (hd : fs r p = some .dir) (hl : ∀ m, fs r (p ++ [m]) = none) (hc : C fs)
    (h : Q () (fs.set r p none)) : Triple fs (c.rmdir r p) Q C := by
  unfold Cfg.rmdir
  refine .bind (Q := fun _ fs2 => fs2 = fs) (.require ?_ rfl) ?_
  · have : c.children r p fs = [] := List.eq_nil_iff_forall_not_mem.mpr fun m hm => (mem_children.mp hm).2 (hl m)
    rw [isDir_iff.mpr hd, this]; rfl
  · intro _ fs2 h2
    subst h2
    exact .change hc h

theorem within_set {n : Name} {fs fs' : FS} (h : ∀ r p, ¬ Within n p → fs' r p = fs r p) (r : Root) (q : Path) (x : Option Node) :
    ∀ r' p, ¬ Within n p → fs'.set r (.workspace :: n :: q) x r' p = fs r' p := by
  intro r' p hp
  rw [set_other _ _ _ _ fun hh => hp ⟨q, hh.2⟩]
  exact h r' p hp

theorem delete_triple {c : Cfg} {fs : FS} {n : Name} (current : Option Name) (hh : Healthy fs) (hf : Fits c fs) (hi : Intact n fs) (hn : n ≠ .default_) (hcur : current ≠ some n) :
    Triple fs (c.wsDelete current n) (fun _ fs' => (∀ r q, fs' r (.workspace :: n :: q) = none) ∧ ∀ r p, ¬ Within n p → fs' r p = fs r p) (Deleting n fs) := by
  obtain ⟨ts, hst⟩ := hi.startup
  obtain ⟨tm, hmk⟩ := hi.marker
  obtain ⟨te, hen⟩ := hi.env
  obtain ⟨tp, hpr⟩ := hi.properties
  obtain ⟨th, hhi⟩ := hi.history
  have hownn : fs .config [.workspace, n, .ownedBy c.pid] = none := Classical.byContradiction fun h => by rcases hi.configOnly _ h with h | h <;> cases h
  have hd0 : Deleting n fs fs := ⟨hh, fun _ _ _ => rfl, .inr fun _ _ _ => rfl⟩
  unfold Cfg.wsDelete
  refine .bind (Q := fun _ fs' => fs' = fs) (.require (by simpa using fun h => hcur h.symm) rfl) ?_
  rintro _ fs rfl
  refine .bind (Q := fun _ fs' => fs' = fs) (.require ((markerExists_iff hf (by rw [hi.configDir]; simp)).mpr ⟨.marker, rfl, by rw [hmk]; simp⟩) rfl) ?_
  rintro _ fs rfl
  -- the lock
  refine .bind (Q := fun l fs' => l = true ∧ fs' = (fs.set .config [.workspace, n, .ownedBy c.pid] (some (.file tm))).set .config [.workspace, n, .marker] none)
    (lock_free hmk (by rw [hownn]; simp) hd0 ⟨rfl, rfl⟩) ?_
  rintro l fs1 ⟨rfl, hfs1⟩
  have hh1 : Healthy fs1 := by
    rw [hfs1]
    have h1 := hh.write .config n (.ownedBy c.pid) tm hn (by simp) hi.configDir (by rw [hownn]; simp)
    refine h1.remove .config n [.marker] hn fun m => ?_
    rw [set_other _ _ _ _ (by simp)]
    exact file_leaf hh (p := [.workspace, n, .marker]) hmk m
  have hout1 : ∀ r p, ¬ Within n p → fs1 r p = fs r p := by
    rw [hfs1]
    exact within_set (within_set (fun _ _ _ => rfl) _ _ _) _ _ _
  have hown1 : fs1 .config [.workspace, n, .ownedBy c.pid] = some (.file tm) := by rw [hfs1, set_other _ _ _ _ (by simp), set_same]
  have hdel1 : Deleting n fs fs1 := by
    refine ⟨hh1, hout1, .inr fun r q ht => ?_⟩
    rw [hfs1, set_other, set_other]
    · rintro ⟨rfl, h⟩
      exact ht (.inl ⟨rfl, n, .ownedBy c.pid, .inr ⟨_, rfl⟩, h⟩)
    · rintro ⟨rfl, h⟩
      exact ht (.inl ⟨rfl, n, .marker, .inl rfl, h⟩)
  refine .bind (Q := fun _ fs' => fs' = fs1) (.require rfl rfl) ?_
  rintro _ fs1 rfl
  refine .bind (Q := fun _ fs' => fs' = fs1.set .config [.workspace, n, .ownedBy c.pid] none) (.unlink (by rw [hown1]; simp) (by rw [hown1]; simp) hdel1 rfl) ?_
  intro _ fs2 hfs2
  have hrem2 : Rem (fun r p => (r, p) ∈ [(Root.config, [.workspace, n, .marker])]) fs fs2 := by
    constructor
    · intro r p h
      simp at h
      rw [hfs2, h.1, h.2, set_other _ _ _ _ (by simp), hfs1, set_same]
    · intro r p h
      rw [hfs2]
      by_cases hx : r = .config ∧ p = [.workspace, n, .ownedBy c.pid]
      · rw [hx.1, hx.2, set_same, hownn]
      · rw [set_other _ _ _ _ hx, hfs1, set_other, set_other _ _ _ _ hx]
        simpa using h
  have hh2 : Healthy fs2 := by
    rw [hfs2]
    exact hh1.remove .config n [.ownedBy c.pid] hn fun m => file_leaf hh1 (p := [.workspace, n, .ownedBy c.pid]) hown1 m
  have hdel2 : Deleting n fs fs2 := by
    refine ⟨hh2, by rw [hfs2]; exact within_set hout1 _ _ _, .inr fun r q ht => ?_⟩
    refine hrem2.same _ _ ?_
    simp only [List.mem_singleton, Prod.mk.injEq]
    rintro ⟨rfl, h⟩
    exact ht (.inl ⟨rfl, n, .marker, .inl rfl, h⟩)
  clear hfs2 hfs1 hdel1 hh1 hown1 hout1
  -- the startup script
  have hst2 : fs2 .config [.workspace, n, .startup] = some (.file ts) := by rw [hrem2.same _ _ (by simp), hst]
  refine .bind (Q := fun _ fs' => fs' = fs2.set .config [.workspace, n, .startup] none) (unlinkIfThere_triple hst2 hdel2 rfl) ?_
  intro _ fs3 hfs3
  have hrem3 := hrem2.step .config [.workspace, n, .startup]
  have hh3 : Healthy fs3 := by rw [hfs3]; exact hh2.remove .config n [.startup] hn fun m => file_leaf hh2 (p := [.workspace, n, .startup]) hst2 m
  have hout3 : ∀ r p, ¬ Within n p → fs3 r p = fs r p := by rw [hfs3]; exact within_set hdel2.outside _ _ _
  have hno3 : fs3 .config [.workspace, n, .startup] = none := by rw [hfs3, set_same]
  rw [← hfs3] at hrem3
  clear hrem2 hdel2 hst2 hfs3
  -- from here on the workspace has no startup script
  have next : ∀ (fs' : FS), Healthy fs' → (∀ r p, ¬ Within n p → fs' r p = fs r p) → fs' .config [.workspace, n, .startup] = none → ∀ (r : Root) (q : Path),
      (∀ m, fs' r (.workspace :: n :: (q ++ [m])) = none) → Healthy (fs'.set r (.workspace :: n :: q) none) ∧
      (∀ r' p, ¬ Within n p → fs'.set r (.workspace :: n :: q) none r' p = fs r' p) ∧ fs'.set r (.workspace :: n :: q) none .config [.workspace, n, .startup] = none := by
    intro fs' h1 h2 h3 r q h4
    refine ⟨h1.remove r n q hn h4, within_set h2 _ _ _, ?_⟩
    by_cases hx : Root.config = r ∧ [.workspace, n, .startup] = .workspace :: n :: q
    · rw [hx.1, hx.2, set_same]
    · rw [set_other _ _ _ _ hx]; exact h3
  have del : ∀ fs', (Healthy fs' ∧ (∀ r p, ¬ Within n p → fs' r p = fs r p) ∧ fs' .config [.workspace, n, .startup] = none) → Deleting n fs fs' := fun fs' h => ⟨h.1, h.2.1, .inl h.2.2⟩
  have hI3 := And.intro hh3 (And.intro hout3 hno3)
  -- the configuration directory
  have hempty3 : ∀ m, fs3 .config ([.workspace, n] ++ [m]) = none := by
    intro m
    refine Classical.byContradiction fun h => ?_
    by_cases hP : ((Root.config, [.workspace, n] ++ [m]) ∈ [(Root.config, [.workspace, n, .marker])]) ∨ (Root.config = .config ∧ [.workspace, n] ++ [m] = [.workspace, n, .startup])
    · exact h (hrem3.gone _ _ hP)
    · rw [hrem3.same _ _ hP] at h
      rcases hi.configOnly m h with rfl | rfl
      · exact hP (.inr ⟨rfl, rfl⟩)
      · exact hP (.inl (by simp))
  refine .bind (Q := fun _ fs' => fs' = fs3.set .config [.workspace, n] none) (rmdir_triple (by rw [hrem3.same _ _ (by simp), hi.configDir]) hempty3 (del _ hI3) rfl) ?_
  intro _ fs4 hfs4
  have hI4 := next fs3 hI3.1 hI3.2.1 hI3.2.2 .config [] hempty3
  have hrem4 := hrem3.step .config [.workspace, n]
  rw [← hfs4] at hrem4 hI4
  clear hrem3 hI3 hempty3 hfs4 hh3 hout3 hno3
  -- the history
  have hf4 : fs4 .data [.workspace, n, .history] = some (.file th) := by rw [hrem4.same _ _ (by simp), hhi]
  refine .bind (Q := fun _ fs' => fs' = fs4.set .data [.workspace, n, .history] none) (unlinkIfThere_triple hf4 (del _ hI4) rfl) ?_
  intro _ fs5 hfs5
  have hI5 := next fs4 hI4.1 hI4.2.1 hI4.2.2 .data [.history] fun m => file_leaf hI4.1 (p := [.workspace, n, .history]) hf4 m
  have hrem5 := hrem4.step .data [.workspace, n, .history]
  rw [← hfs5] at hrem5 hI5
  clear hrem4 hI4 hfs5 hf4
  -- the properties
  have hf5 : fs5 .data [.workspace, n, .properties] = some (.file tp) := by rw [hrem5.same _ _ (by simp), hpr]
  refine .bind (Q := fun _ fs' => fs' = fs5.set .data [.workspace, n, .properties] none) (unlinkIfThere_triple hf5 (del _ hI5) rfl) ?_
  intro _ fs6 hfs6
  have hI6 := next fs5 hI5.1 hI5.2.1 hI5.2.2 .data [.properties] fun m => file_leaf hI5.1 (p := [.workspace, n, .properties]) hf5 m
  have hrem6 := hrem5.step .data [.workspace, n, .properties]
  rw [← hfs6] at hrem6 hI6
  clear hrem5 hI5 hfs6 hf5
  -- the environment
  have hf6 : fs6 .data [.workspace, n, .env] = some (.file te) := by rw [hrem6.same _ _ (by simp), hen]
  refine .bind (Q := fun _ fs' => fs' = fs6.set .data [.workspace, n, .env] none) (unlinkIfThere_triple hf6 (del _ hI6) rfl) ?_
  intro _ fs7 hfs7
  have hI7 := next fs6 hI6.1 hI6.2.1 hI6.2.2 .data [.env] fun m => file_leaf hI6.1 (p := [.workspace, n, .env]) hf6 m
  have hrem7 := hrem6.step .data [.workspace, n, .env]
  rw [← hfs7] at hrem7 hI7
  clear hrem6 hI6 hfs7 hf6
  -- the reservoirs
  have hrd7 : fs7 .data [.workspace, n, .reservoirs] = some .dir := by rw [hrem7.same _ _ (by simp), hi.reservoirs]
  have hrf7 : ∀ m, fs7 .data ([.workspace, n, .reservoirs] ++ [m]) = fs .data [.workspace, n, .reservoirs, m] := fun m => hrem7.same _ _ (by simp)
  have hresempty : ∀ fs', Healthy fs' → (∀ m, fs' .data [.workspace, n, .reservoirs, m] = fs .data [.workspace, n, .reservoirs, m] ∨ fs' .data [.workspace, n, .reservoirs, m] = none) →
      ∀ m m', fs' .data ([.workspace, n, .reservoirs, m] ++ [m']) = none := by
    intro fs' h1 h2 m m'
    refine Classical.byContradiction fun h => ?_
    have h3 := h1.tree _ _ _ h
    rcases h2 m with h4 | h4
    · rw [h4] at h3; exact hi.reservoirFiles m h3
    · rw [h4] at h3; cases h3
  refine .bind (Q := fun l fs' => fs' = fs7 ∧ l = c.children .data [.workspace, n, .reservoirs] fs7) (iterdir_triple hrd7 ⟨rfl, rfl⟩) ?_
  rintro l fs7 ⟨rfl, hl⟩
  have hml : ∀ m, m ∈ l ↔ fs .data [.workspace, n, .reservoirs, m] ≠ none := by
    intro m
    rw [hl, mem_children, hrf7 m]
    exact ⟨fun h => h.2, fun h => ⟨hf.covers .data [.workspace, n, .reservoirs] m h, h⟩⟩
  have hwI : ∀ (S : Name → Prop) fs', Without .data [.workspace, n, .reservoirs] S fs7 fs' → (∀ m, S m → m ∈ l) →
      Healthy fs' ∧ (∀ r p, ¬ Within n p → fs' r p = fs r p) ∧ fs' .config [.workspace, n, .startup] = none := by
    intro S fs' hw hS
    have hsame : ∀ r p, (∀ m, p ≠ [.workspace, n, .reservoirs, m]) → fs' r p = fs7 r p := fun r p hp => hw.same r p fun m _ h => hp m h.2
    have hcase : ∀ r p, fs' r p = fs7 r p ∨ fs' r p = none := by
      intro r p
      by_cases hx : ∃ m, S m ∧ r = .data ∧ p = [.workspace, n, .reservoirs] ++ [m]
      · obtain ⟨m, h1, rfl, rfl⟩ := hx
        exact .inr (hw.gone m h1)
      · exact .inl (hw.same r p fun m hm h => hx ⟨m, hm, h⟩)
    refine ⟨?_, ?_, ?_⟩
    · have h7 := hI7.1
      constructor
      · intro r p m h
        have h1 : fs7 r (p ++ [m]) ≠ none := by
          rcases hcase r (p ++ [m]) with h2 | h2
          · rw [← h2]; exact h
          · exact absurd h2 h
        have h2 := h7.tree r p m h1
        rcases hcase r p with h3 | h3
        · rw [h3, h2]
        · by_cases hx : ∃ x, r = .data ∧ p = [.workspace, n, .reservoirs, x]
          · obtain ⟨x, rfl, rfl⟩ := hx
            rw [show ([.workspace, n, .reservoirs, x] : Path) = [.workspace, n, .reservoirs] ++ [x] from rfl, hrf7 x] at h2
            exact absurd h2 (hi.reservoirFiles x)
          · rw [hw.same r p fun x _ hh => hx ⟨x, hh⟩, h2]
      · obtain ⟨t, ht⟩ := h7.version
        exact ⟨t, by rw [hsame _ _ (by simp), ht]⟩
      · intro r; rw [hsame _ _ (by simp)]; exact h7.workspaces r
      · intro r; rw [hsame _ _ (by simp)]; exact h7.brokens r
      · intro n' h1 h2
        rw [hsame _ _ (by simp)] at h1 h2 ⊢
        rw [hsame _ _ (by simp)]
        have h3 := h7.both n' h1 h2
        exact ⟨h3.1, h3.2.1, fun k => by rw [hsame _ _ (by simp)]; exact h3.2.2 k⟩
      · intro n' p; rw [hsame _ _ (by simp)]; exact h7.markerFiles n' p
      · exact h7.default_.congr fun r q => hsame _ _ (by simp; exact fun m h => absurd h.symm hn)
    · intro r p hp
      rw [hsame r p fun m h => hp ⟨_, h⟩]
      exact hI7.2.1 r p hp
    · rw [hsame _ _ (by simp)]; exact hI7.2.2
  refine .bind (.mono (.unlinkLoop .data [.workspace, n, .reservoirs] (fun _ => True) (fun f => unlink .data [.workspace, n, .reservoirs, f]) l fs7 ?_ ?_ ?_ ?_)
    (fun _ _ h => h) (fun fs' ⟨S, h1, h2⟩ => del _ (hwI S fs' h2 fun m hm => (h1 m hm).1))) ?_
  · rw [hl]; exact hf.nodup.filter _
  · intro m _ h; exact absurd trivial h
  · intro m _ _; rfl
  · intro m hm _
    rw [hrf7 m]
    exact ⟨(hml m).mp hm, hi.reservoirFiles m⟩
  intro _ fs8 hw
  have hI8 := hwI _ fs8 hw fun m h => h.1
  have hempty8 : ∀ m, fs8 .data ([.workspace, n, .reservoirs] ++ [m]) = none := by
    intro m
    by_cases h : m ∈ l
    · exact hw.gone m ⟨h, trivial⟩
    · rw [hw.same _ _ fun x hx hh => h (by rw [(append_singleton_inj hh.2).2]; exact hx.1), hrf7 m]
      exact Classical.byContradiction fun hh => h ((hml m).mpr hh)
  have hsame8 : ∀ r p, (∀ m, p ≠ [.workspace, n, .reservoirs, m]) → fs8 r p = fs7 r p := fun r p hp => hw.same r p fun m _ h => hp m h.2
  refine .bind (Q := fun _ fs' => fs' = fs8.set .data [.workspace, n, .reservoirs] none) (rmdir_triple (by rw [hsame8 _ _ (by simp), hrd7]) hempty8 (del _ hI8) rfl) ?_
  intro _ fs9 hfs9
  have hI9 := next fs8 hI8.1 hI8.2.1 hI8.2.2 .data [.reservoirs] hempty8
  rw [← hfs9] at hI9
  -- the data directory
  have hempty9 : ∀ m, fs9 .data ([.workspace, n] ++ [m]) = none := by
    intro m
    refine Classical.byContradiction fun h => ?_
    by_cases hr : m = .reservoirs
    · subst hr
      rw [hfs9] at h
      exact h (set_same _ _ _ _)
    · rw [hfs9, set_other _ _ _ _ (by simp [hr]), hsame8 _ _ (by simp)] at h
      by_cases he : m = .env ∨ m = .properties ∨ m = .history
      · refine h (hrem7.gone _ _ ?_)
        rcases he with rfl | rfl | rfl <;> simp
      · have h2 : fs .data [.workspace, n, m] ≠ none := by
          intro h0
          refine h ?_
          rw [hrem7.same _ _ ?_]
          · exact h0
          · rintro (((((h1 | h1) | h1) | h1) | h1) | h1)
            · simp at h1
            · cases h1.1
            · cases h1.1
            · exact he (.inr (.inr (append_singleton_inj (q := [.workspace, n]) h1.2).2))
            · exact he (.inr (.inl (append_singleton_inj (q := [.workspace, n]) h1.2).2))
            · exact he (.inl (append_singleton_inj (q := [.workspace, n]) h1.2).2)
        rcases hi.dataOnly m h2 with h3 | h3 | h3 | h3
        · exact he (.inl h3)
        · exact he (.inr (.inl h3))
        · exact he (.inr (.inr h3))
        · exact hr h3
  have hd9 : fs9 .data [.workspace, n] = some .dir := by rw [hfs9, set_other _ _ _ _ (by simp), hsame8 _ _ (by simp), hrem7.same _ _ (by simp), hi.dataDir]
  refine rmdir_triple hd9 hempty9 (del _ hI9) ?_
  have hI10 := next fs9 hI9.1 hI9.2.1 hI9.2.2 .data [] hempty9
  refine ⟨fun r q => ?_, hI10.2.1⟩
  refine hI10.1.below (p := [.workspace, n]) ?_ q
  cases r
  · rw [set_other _ _ _ _ (by simp), hfs9, set_other _ _ _ _ (by simp), hsame8 _ _ (by simp)]
    exact hrem7.gone _ _ (by simp)
  · exact set_same _ _ _ _

/-! ## Creation -/

theorem createDir_triple {fs : FS} {r : Root} {p : Path} {Q : Unit → FS → Prop} {C : FS → Prop} (hn : fs r p = none) (hd : fs r p.dropLast = some .dir) (hc : C fs)
    (h : Q () (fs.set r p (some .dir))) : Triple fs (createDir r p) Q C := by
  unfold createDir
  refine .ifThen ?_ ?_
  · intro _
    unfold mkdir
    refine .bind (Q := fun _ fs' => fs' = fs) (.require ?_ rfl) ?_
    · rw [has_false.mpr hn, isDir_iff.mpr hd]; simp
    · intro _ fs' h'
      subst h'
      exact .change hc h
  · intro hh
    rw [has_false.mpr hn] at hh
    cases hh

theorem writeFile_triple {fs : FS} {r : Root} {p : Path} {t : Text} {Q : Unit → FS → Prop} {C : FS → Prop} (hn : fs r p ≠ some .dir) (hd : fs r p.dropLast = some .dir) (hc : C fs)
    (hc' : C (fs.set r p (some (.file [])))) (h : Q () (fs.set r p (some (.file t)))) : Triple fs (writeFile r p t) Q C := by
  unfold writeFile
  refine .bind (Q := fun _ fs' => fs' = fs) (.require ?_ rfl) ?_
  · rw [isDir_false.mpr hn, isDir_iff.mpr hd]; rfl
  · intro _ fs' h'
    subst h'
    refine .bind (Q := fun _ fs2 => fs2 = fs'.set r p (some (.file []))) (.change hc rfl) ?_
    intro _ fs2 h2
    subst h2
    refine .change hc' ?_
    have : (fs'.set r p (some (.file []))).set r p (some (.file t)) = fs'.set r p (some (.file t)) := by
      funext r' p'
      unfold FS.set
      split <;> simp_all
    rw [this]
    exact h

/-- Where marcel may be killed during a creation: other workspaces are as before, and this one has no history. -/
structure Creating (n : Name) (fs fs' : FS) : Prop where
  healthy : Healthy fs'
  outside : ∀ r p, ¬ Within n p → fs' r p = fs r p
  incomplete : fs' .data [.workspace, n, .history] = none

theorem new_triple {c : Cfg} {fs : FS} {n : Name} {t : Text} (hh : Healthy fs) (hfree : ∀ r, fs r [.workspace, n] = none) (hst : fs .config [.workspace, .default_, .startup] = some (.file t)) :
    Triple fs (c.wsNew n) (fun _ fs' => (∀ r q, fs' r (.workspace :: n :: q) = newWorkspace c t r q) ∧ (∀ r p, ¬ Within n p → fs' r p = fs r p) ∧ Healthy fs') (Creating n fs) := by
  have hn : n ≠ .default_ := by
    rintro rfl
    have := hh.default_.configDir
    rw [hfree] at this
    cases this
  have hnone : ∀ r q, fs r (.workspace :: n :: q) = none := fun r q => hh.below (p := [.workspace, n]) (hfree r) q
  unfold Cfg.wsNew
  refine .bind (Q := fun _ fs' => fs' = fs) (.require ?_ rfl) ?_
  · unfold Cfg.markerExists
    rw [has_false.mpr (hfree _)]
    rfl
  rintro _ fs rfl
  refine .bind (Q := fun x fs' => x = t ∧ fs' = fs) (.readFile hst ⟨rfl, rfl⟩) ?_
  rintro x fs ⟨rfl, rfl⟩
  unfold Cfg.createOnDisk
  have hC : ∀ fs', Healthy fs' → (∀ r p, ¬ Within n p → fs' r p = fs r p) → fs' .data [.workspace, n, .history] = none → Creating n fs fs' := fun fs' h1 h2 h3 => ⟨h1, h2, h3⟩
  have hws : ∀ fs', Healthy fs' → ∀ r, fs' r (List.dropLast [.workspace, n]) = some .dir := fun fs' h r => h.workspaces r
  -- the configuration directory
  have hh1 := hh.mkdir .config n [] hn (.inl rfl) (fun _ r => .inl (hfree r)) (by simp) (hfree _)
  have ho1 := within_set (n := n) (fun r p _ => rfl : ∀ r p, ¬ Within n p → fs r p = fs r p) .config [] (some .dir)
  refine .bind (Q := fun _ fs' => fs' = fs.set .config [.workspace, n] (some .dir)) (createDir_triple (hfree _) (hws _ hh _) (hC _ hh (fun _ _ _ => rfl) (hnone _ _)) rfl) ?_
  intro _ fs1 hfs1
  rw [← hfs1] at hh1 ho1
  have hd1 : fs1 .config [.workspace, n] = some .dir := by rw [hfs1, set_same]
  have hx1 : ∀ r q, (r = .config → q ≠ []) → fs1 r (.workspace :: n :: q) = none := by
    intro r q h
    rw [hfs1, set_other _ _ _ _ ?_, hnone]
    rintro ⟨rfl, h'⟩
    simp at h'
    exact h rfl h'
  -- the startup script
  have hh2 : ∀ y, Healthy (fs1.set .config [.workspace, n, .startup] (some (.file y))) := fun y => hh1.write .config n .startup y hn (by simp) hd1 (by rw [hx1 _ _ (by simp)]; simp)
  have ho2 : ∀ y, ∀ r p, ¬ Within n p → fs1.set .config [.workspace, n, .startup] (some (.file y)) r p = fs r p := fun y => within_set ho1 _ _ _
  refine .bind (Q := fun _ fs' => fs' = fs1.set .config [.workspace, n, .startup] (some (.file x))) (writeFile_triple (by rw [hx1 _ _ (by simp)]; simp) hd1
    (hC _ hh1 ho1 (hx1 _ _ (by simp))) (hC _ (hh2 []) (ho2 []) (by rw [set_other _ _ _ _ (by simp)]; exact hx1 _ _ (by simp))) rfl) ?_
  intro _ fs2 hfs2
  have hh2 := hh2 x
  have ho2 := ho2 x
  rw [← hfs2] at hh2 ho2
  -- the marker
  have hm2 : fs2 .config [.workspace, n, .marker] = none := by rw [hfs2, set_other _ _ _ _ (by simp)]; exact hx1 _ _ (by simp)
  have hd2 : fs2 .config [.workspace, n] = some .dir := by rw [hfs2, set_other _ _ _ _ (by simp)]; exact hd1
  have hx2 : ∀ q, fs2 .data (.workspace :: n :: q) = none := fun q => by rw [hfs2, set_other _ _ _ _ (by simp)]; exact hx1 _ _ (by simp)
  refine .bind (Q := fun _ fs' => fs' = fs2.set .config [.workspace, n, .marker] (some (.file []))) (touch_triple hd2 (hC _ hh2 ho2 (hx2 _)) (fun h => absurd hm2 h) (fun _ => rfl)) ?_
  intro _ fs3 hfs3
  have hh3 := hh2.write .config n .marker [] hn (by simp) hd2 (by rw [hm2]; simp)
  have ho3 := within_set ho2 .config [.marker] (some (.file []))
  rw [← hfs3] at hh3 ho3
  have hx3 : ∀ q, fs3 .data (.workspace :: n :: q) = none := fun q => by rw [hfs3, set_other _ _ _ _ (by simp)]; exact hx2 q
  have hd3 : fs3 .config [.workspace, n] = some .dir := by rw [hfs3, set_other _ _ _ _ (by simp)]; exact hd2
  have hodd3 : ∀ k, fs3 .config [.workspace, n, .oddMarker k] = none := by
    intro k
    rw [hfs3, set_other _ _ _ _ (by simp), hfs2, set_other _ _ _ _ (by simp)]
    exact hx1 _ _ (by simp)
  -- the data directory
  have hh4 := hh3.mkdir .data n [] hn (.inl rfl) (fun _ r => by cases r; exact .inr ⟨hd3, hodd3⟩; exact .inl (hx3 [])) (by simp) (hx3 [])
  have ho4 := within_set ho3 .data [] (some .dir)
  refine .bind (Q := fun _ fs' => fs' = fs3.set .data [.workspace, n] (some .dir)) (createDir_triple (hx3 []) (hws _ hh3 _) (hC _ hh3 ho3 (hx3 _)) rfl) ?_
  intro _ fs4 hfs4
  rw [← hfs4] at hh4 ho4
  have hd4 : fs4 .data [.workspace, n] = some .dir := by rw [hfs4, set_same]
  have hx4 : ∀ q, q ≠ [] → fs4 .data (.workspace :: n :: q) = none := fun q hq => by rw [hfs4, set_other _ _ _ _ (by simp [hq])]; exact hx3 q
  -- the reservoirs
  have hh5 := hh4.mkdir .data n [.reservoirs] hn (.inr rfl) (by simp) (fun _ => hd4) (hx4 _ (by simp))
  have ho5 := within_set ho4 .data [.reservoirs] (some .dir)
  refine .bind (Q := fun _ fs' => fs' = fs4.set .data [.workspace, n, .reservoirs] (some .dir)) (createDir_triple (hx4 _ (by simp)) hd4 (hC _ hh4 ho4 (hx4 _ (by simp))) rfl) ?_
  intro _ fs5 hfs5
  rw [← hfs5] at hh5 ho5
  have hd5 : fs5 .data [.workspace, n] = some .dir := by rw [hfs5, set_other _ _ _ _ (by simp)]; exact hd4
  have hx5 : ∀ q, q ≠ [] → q ≠ [.reservoirs] → fs5 .data (.workspace :: n :: q) = none := fun q hq hq' => by rw [hfs5, set_other _ _ _ _ (by simp [hq'])]; exact hx4 q hq
  -- the environment
  have hh6 : ∀ y, Healthy (fs5.set .data [.workspace, n, .env] (some (.file y))) := fun y => hh5.write .data n .env y hn (by simp) hd5 (by rw [hx5 _ (by simp) (by simp)]; simp)
  have ho6 : ∀ y, ∀ r p, ¬ Within n p → fs5.set .data [.workspace, n, .env] (some (.file y)) r p = fs r p := fun y => within_set ho5 _ _ _
  refine .bind (Q := fun _ fs' => fs' = fs5.set .data [.workspace, n, .env] (some (.file c.emptyEnv))) (writeFile_triple (by rw [hx5 _ (by simp) (by simp)]; simp) hd5
    (hC _ hh5 ho5 (hx5 _ (by simp) (by simp))) (hC _ (hh6 []) (ho6 []) (by rw [set_other _ _ _ _ (by simp)]; exact hx5 _ (by simp) (by simp))) rfl) ?_
  intro _ fs6 hfs6
  have hh6 := hh6 c.emptyEnv
  have ho6 := ho6 c.emptyEnv
  rw [← hfs6] at hh6 ho6
  have hd6 : fs6 .data [.workspace, n] = some .dir := by rw [hfs6, set_other _ _ _ _ (by simp)]; exact hd5
  have hx6 : ∀ m, m ≠ .env → m ≠ .reservoirs → fs6 .data [.workspace, n, m] = none := fun m h h' => by rw [hfs6, set_other _ _ _ _ (by simp [h])]; exact hx5 _ (by simp) (by simp [h'])
  -- the properties
  have hh7 : ∀ y, Healthy (fs6.set .data [.workspace, n, .properties] (some (.file y))) := fun y => hh6.write .data n .properties y hn (by simp) hd6 (by rw [hx6 _ (by simp) (by simp)]; simp)
  have ho7 : ∀ y, ∀ r p, ¬ Within n p → fs6.set .data [.workspace, n, .properties] (some (.file y)) r p = fs r p := fun y => within_set ho6 _ _ _
  refine .bind (Q := fun _ fs' => fs' = fs6.set .data [.workspace, n, .properties] (some (.file c.newProps))) (writeFile_triple (by rw [hx6 _ (by simp) (by simp)]; simp) hd6
    (hC _ hh6 ho6 (hx6 _ (by simp) (by simp))) (hC _ (hh7 []) (ho7 []) (by rw [set_other _ _ _ _ (by simp)]; exact hx6 _ (by simp) (by simp))) rfl) ?_
  intro _ fs7 hfs7
  have hh7 := hh7 c.newProps
  have ho7 := ho7 c.newProps
  rw [← hfs7] at hh7 ho7
  have hd7 : fs7 .data [.workspace, n] = some .dir := by rw [hfs7, set_other _ _ _ _ (by simp)]; exact hd6
  have hx7 : fs7 .data [.workspace, n, .history] = none := by rw [hfs7, set_other _ _ _ _ (by simp)]; exact hx6 _ (by simp) (by simp)
  -- the history
  refine touch_triple hd7 (hC _ hh7 ho7 hx7) (fun h => absurd hx7 h) (fun _ => ⟨?_, within_set ho7 .data [.history] _, hh7.write .data n .history [] hn (by simp) hd7 (by rw [hx7]; simp)⟩)
  have hchain : fs7 = ((((((fs.set .config [.workspace, n] (some .dir)).set .config [.workspace, n, .startup] (some (.file x))).set .config [.workspace, n, .marker] (some (.file []))).set
      .data [.workspace, n] (some .dir)).set .data [.workspace, n, .reservoirs] (some .dir)).set .data [.workspace, n, .env] (some (.file c.emptyEnv))).set
      .data [.workspace, n, .properties] (some (.file c.newProps)) := by rw [hfs7, hfs6, hfs5, hfs4, hfs3, hfs2, hfs1]
  intro r q
  rw [hchain]
  match r, q with
  | .config, [] => simp [FS.set, newWorkspace]
  | .config, [m] => cases m <;> simp [FS.set, newWorkspace, hnone]
  | .config, m :: m' :: q => simp [FS.set, newWorkspace, hnone]
  | .data, [] => simp [FS.set, newWorkspace]
  | .data, [m] => cases m <;> simp [FS.set, newWorkspace, hnone]
  | .data, m :: m' :: q => simp [FS.set, newWorkspace, hnone]

end Marcel.WsDisk
