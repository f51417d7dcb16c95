import Verif.Props.C65_NewDelete

/-! # C66: what a workspace holds when it is closed is what the next process that opens it gets -/

namespace Marcel.WsDisk

/-- A workspace that process `p` uses, with all its files and nothing else. -/
structure InUse (n : Name) (p : Nat) (fs : FS) : Prop where
  configDir : fs .config [.workspace, n] = some .dir
  startup : ∃ t, fs .config [.workspace, n, .startup] = some (.file t)
  marker : ∃ t, fs .config [.workspace, n, .ownedBy p] = some (.file t)
  configOnly : ∀ m, fs .config [.workspace, n, m] ≠ none → m = .startup ∨ m = .ownedBy p
  dataDir : fs .data [.workspace, n] = some .dir
  env : ∃ t, fs .data [.workspace, n, .env] = some (.file t)
  properties : ∃ t, fs .data [.workspace, n, .properties] = some (.file t)
  history : ∃ t, fs .data [.workspace, n, .history] = some (.file t)
  reservoirs : fs .data [.workspace, n, .reservoirs] = some .dir
  dataOnly : ∀ m, fs .data [.workspace, n, m] ≠ none → m = .env ∨ m = .properties ∨ m = .history ∨ m = .reservoirs
  reservoirFiles : ∀ m, fs .data [.workspace, n, .reservoirs, m] ≠ some .dir

/-- Everything but the properties, the environment and the markers of the workspace is as before. -/
def OnlySaved (n : Name) (fs fs' : FS) : Prop :=
  ∀ r p, ¬ (r = .data ∧ (p = [.workspace, n, .properties] ∨ p = [.workspace, n, .env])) → ¬ (r = .config ∧ ∃ m, isMarker m = true ∧ p = [.workspace, n, m]) → fs' r p = fs r p

theorem owner_self {c : Cfg} {fs : FS} (hc : Fits c fs) {n : Name} {p : Nat} (hu : fs .config [.workspace, n] = some .dir) (hal : c.alive p = true)
    (hm : fs .config [.workspace, n, .ownedBy p] ≠ none) (honly : ∀ m, fs .config [.workspace, n, m] ≠ none → m = .startup ∨ m = .ownedBy p) {Q : Option Nat → FS → Prop} {C : FS → Prop}
    (h : Q (some p) fs) : Triple fs (c.owner n) Q C := by
  intro k
  rw [owner_used hc hu hal hm ?_ k]
  · exact ⟨h, id⟩
  · intro m h1 h2
    rcases honly m h2 with rfl | h3
    · cases h1
    · exact h3

theorem Fits.write {c : Cfg} {fs : FS} (hf : Fits c fs) (r : Root) (p : Path) (t : Text) (hp : fs r p ≠ none) (hnow : p ≠ [.broken, c.now]) : Fits c (fs.set r p (some (.file t))) where
  covers := by
    intro r' p' m h
    refine hf.covers r' p' m ?_
    by_cases hx : r' = r ∧ p' ++ [m] = p
    · rw [hx.1, hx.2]; exact hp
    · rwa [set_other _ _ _ _ hx] at h
  marker := hf.marker
  nodup := hf.nodup
  fresh := fun r' => by rw [set_other _ _ _ _ fun h => hnow h.2.symm]; exact hf.fresh r'

theorem close_triple {c : Cfg} {fs : FS} {n : Name} (props env : Text) (hf : Fits c fs) (hu : InUse n c.pid fs) (hal : c.alive c.pid = true) :
    Triple fs (c.wsClose n props env) (fun _ fs' => Intact n fs' ∧ fs' .data [.workspace, n, .properties] = some (.file props) ∧ fs' .data [.workspace, n, .env] = some (.file env) ∧ OnlySaved n fs fs')
      (fun fs' => OnlySaved n fs fs' ∧
        (fs' .data [.workspace, n, .properties] = fs .data [.workspace, n, .properties] ∧ fs' .data [.workspace, n, .env] = fs .data [.workspace, n, .env] ∨
         fs' .data [.workspace, n, .properties] = some (.file []) ∧ fs' .data [.workspace, n, .env] = fs .data [.workspace, n, .env] ∨
         fs' .data [.workspace, n, .properties] = some (.file props) ∧ fs' .data [.workspace, n, .env] = fs .data [.workspace, n, .env] ∨
         fs' .data [.workspace, n, .properties] = some (.file props) ∧ fs' .data [.workspace, n, .env] = some (.file []) ∨
         fs' .data [.workspace, n, .properties] = some (.file props) ∧ fs' .data [.workspace, n, .env] = some (.file env)) ∧
        ∀ m, fs' .config [.workspace, n, m] = fs .config [.workspace, n, m]) := by
  obtain ⟨tm, hmk⟩ := hu.marker
  obtain ⟨te, hen⟩ := hu.env
  obtain ⟨tp, hpr⟩ := hu.properties
  unfold Cfg.wsClose
  refine .bind (Q := fun l fs' => l = true ∧ fs' = fs) ?_ ?_
  · unfold Cfg.lock
    refine .bind (Q := fun o fs' => o = some c.pid ∧ fs' = fs) (owner_self hf hu.configDir hal (by rw [hmk]; simp) hu.configOnly ⟨rfl, rfl⟩) ?_
    rintro o fs' ⟨rfl, rfl⟩
    simp only [if_true]
    exact .pure ⟨rfl, rfl⟩
  rintro l fs ⟨rfl, rfl⟩
  refine .bind (Q := fun _ fs' => fs' = fs) (.require rfl rfl) ?_
  rintro _ fs rfl
  have ho : ∀ t, OnlySaved n fs (fs.set .data [.workspace, n, .properties] (some (.file t))) := fun t r p h1 h2 => set_other _ _ _ _ fun h => h1 ⟨h.1, .inl h.2⟩
  have ho2 : ∀ t t', OnlySaved n fs ((fs.set .data [.workspace, n, .properties] (some (.file t))).set .data [.workspace, n, .env] (some (.file t'))) := by
    intro t t' r p h1 h2
    rw [set_other _ _ _ _ fun h => h1 ⟨h.1, .inr h.2⟩]
    exact ho t r p h1 h2
  -- the properties
  refine .bind (Q := fun _ fs' => fs' = fs.set .data [.workspace, n, .properties] (some (.file props))) (writeFile_triple (by rw [hpr]; simp) hu.dataDir
    ⟨fun _ _ _ _ => rfl, .inl ⟨rfl, rfl⟩, fun _ => rfl⟩
    ⟨ho [], .inr (.inl ⟨set_same _ _ _ _, set_other _ _ _ _ (by simp)⟩), fun m => set_other _ _ _ _ (by simp)⟩ rfl) ?_
  intro _ fs1 hfs1
  -- the environment
  have hd1 : fs1 .data [.workspace, n] = some .dir := by rw [hfs1, set_other _ _ _ _ (by simp)]; exact hu.dataDir
  have he1 : fs1 .data [.workspace, n, .env] = some (.file te) := by rw [hfs1, set_other _ _ _ _ (by simp)]; exact hen
  have hp1 : ∀ t, fs1.set .data [.workspace, n, .env] (some (.file t)) .data [.workspace, n, .properties] = some (.file props) := fun t => by rw [set_other _ _ _ _ (by simp), hfs1, set_same]
  have hc1 : ∀ t m, fs1.set .data [.workspace, n, .env] (some (.file t)) .config [.workspace, n, m] = fs .config [.workspace, n, m] := by
    intro t m
    rw [set_other _ _ _ _ (by simp), hfs1, set_other _ _ _ _ (by simp)]
  refine .bind (Q := fun _ fs' => fs' = fs1.set .data [.workspace, n, .env] (some (.file env))) (writeFile_triple (by rw [he1]; simp) hd1
    ⟨by rw [hfs1]; exact ho props, .inr (.inr (.inl ⟨by rw [hfs1, set_same], by rw [he1, hen]⟩)), fun m => by rw [hfs1]; exact set_other _ _ _ _ (by simp)⟩
    ⟨by rw [hfs1]; exact ho2 props [], .inr (.inr (.inr (.inl ⟨hp1 [], set_same _ _ _ _⟩))), hc1 []⟩ rfl) ?_
  intro _ fs2 hfs2
  -- the lock is given up
  have hf2 : Fits c fs2 := by
    rw [hfs2, hfs1]
    exact (hf.write _ _ props (by rw [hpr]; simp) (by simp)).write _ _ env (by rw [← hfs1, he1]; simp) (by simp)
  have hcfg : ∀ q, fs2 .config q = fs .config q := fun q => by rw [hfs2, set_other _ _ _ _ (by simp), hfs1, set_other _ _ _ _ (by simp)]
  have hnm : fs .config [.workspace, n, .marker] = none := Classical.byContradiction fun h => by rcases hu.configOnly _ h with h | h <;> cases h
  unfold Cfg.unlock
  refine .bind (Q := fun o fs' => o = some c.pid ∧ fs' = fs2) (owner_self hf2 (by rw [hcfg]; exact hu.configDir) hal (by rw [hcfg, hmk]; simp) (fun m h => hu.configOnly m (by rw [← hcfg]; exact h)) ⟨rfl, rfl⟩) ?_
  rintro o fs3 ⟨rfl, rfl⟩
  simp only [if_true]
  unfold renameFile
  refine .bind (Q := fun _ fs' => fs' = fs3) (.require ?_ rfl) ?_
  · rw [has_iff.mpr (by rw [hcfg, hmk]; simp), isDir_false.mpr (by rw [hcfg, hnm]; simp)]; rfl
  rintro _ fs4 rfl
  have hp4 : fs4 .data [.workspace, n, .properties] = some (.file props) := by rw [hfs2]; exact hp1 env
  have he4 : fs4 .data [.workspace, n, .env] = some (.file env) := by rw [hfs2, set_same]
  have ho4 : OnlySaved n fs fs4 := by rw [hfs2, hfs1]; exact ho2 props env
  refine .change ⟨ho4, .inr (.inr (.inr (.inr ⟨hp4, he4⟩))), fun m => hcfg _⟩ ?_
  have hkm : fs4 .config [.workspace, n, .ownedBy c.pid] = some (.file tm) := by rw [hcfg, hmk]
  rw [hkm]
  have hdat : ∀ q, ((fs4.set .config [.workspace, n, .marker] (some (.file tm))).set .config [.workspace, n, .ownedBy c.pid] none) .data q = fs4 .data q := fun q => by
    rw [set_other _ _ _ _ (by simp), set_other _ _ _ _ (by simp)]
  have hcf : ∀ q, q ≠ [.workspace, n, .marker] → q ≠ [.workspace, n, .ownedBy c.pid] →
      ((fs4.set .config [.workspace, n, .marker] (some (.file tm))).set .config [.workspace, n, .ownedBy c.pid] none) .config q = fs .config q := fun q h h' => by
    rw [set_other _ _ _ _ (by simp [h']), set_other _ _ _ _ (by simp [h]), hcfg]
  have hdata : ∀ m, m ≠ .properties → m ≠ .env → fs4 .data [.workspace, n, m] = fs .data [.workspace, n, m] := fun m h h' => ho4 _ _ (by simp [h, h']) (by simp)
  refine ⟨?_, by rw [hdat]; exact hp4, by rw [hdat]; exact he4, ?_⟩
  · constructor
    · rw [hcf _ (by simp) (by simp)]; exact hu.configDir
    · rw [hcf _ (by simp) (by simp)]; exact hu.startup
    · exact ⟨tm, by rw [set_other _ _ _ _ (by simp), set_same]⟩
    · intro m h
      by_cases h1 : m = .marker
      · exact .inr h1
      · by_cases h2 : m = .ownedBy c.pid
        · subst h2; exact absurd (set_same _ _ _ _) h
        · rw [hcf _ (by simp [h1]) (by simp [h2])] at h
          exact .inl ((hu.configOnly m h).resolve_right h2)
    · rw [hdat, ho4 _ _ (by simp) (by simp)]; exact hu.dataDir
    · exact ⟨env, by rw [hdat]; exact he4⟩
    · exact ⟨props, by rw [hdat]; exact hp4⟩
    · rw [hdat, hdata _ (by simp) (by simp)]; exact hu.history
    · rw [hdat, hdata _ (by simp) (by simp)]; exact hu.reservoirs
    · intro m h
      rw [hdat] at h
      by_cases h1 : m = .properties
      · exact .inr (.inl h1)
      · by_cases h2 : m = .env
        · exact .inl h2
        · rw [hdata m h1 h2] at h
          exact hu.dataOnly m h
    · intro m
      rw [hdat, ho4 _ _ (by simp) (by simp)]
      exact hu.reservoirFiles m
  · intro r p h1 h2
    rw [set_other _ _ _ _ fun h => h2 ⟨h.1, _, rfl, h.2⟩, set_other _ _ _ _ fun h => h2 ⟨h.1, _, rfl, h.2⟩]
    exact ho4 r p h1 h2

theorem open_triple {c : Cfg} {fs : FS} {n : Name} {p s e : Text} (hf : Fits c fs) (hi : Intact n fs) (hp : fs .data [.workspace, n, .properties] = some (.file p))
    (hs : fs .config [.workspace, n, .startup] = some (.file s)) (he : fs .data [.workspace, n, .env] = some (.file e)) (hpn : p ≠ []) (hen : e ≠ []) :
    Triple fs (c.wsOpen n) (fun x fs' => x = (p, s, e) ∧ InUse n c.pid fs' ∧ OnlySaved n fs fs' ∧ fs' .data [.workspace, n, .properties] = some (.file p) ∧
      fs' .data [.workspace, n, .env] = some (.file e)) (fun fs' => fs' = fs ∨ InUse n c.pid fs' ∧ ∀ q, fs' .data q = fs .data q) := by
  obtain ⟨tm, hmk⟩ := hi.marker
  have hownn : fs .config [.workspace, n, .ownedBy c.pid] = none := Classical.byContradiction fun h => by rcases hi.configOnly _ h with h | h <;> cases h
  unfold Cfg.wsOpen
  refine .bind (Q := fun _ fs' => fs' = fs) (.require ((markerExists_iff hf (by rw [hi.configDir]; simp)).mpr ⟨.marker, rfl, by rw [hmk]; simp⟩) rfl) ?_
  rintro _ fs rfl
  refine .bind (Q := fun l fs' => l = true ∧ fs' = (fs.set .config [.workspace, n, .ownedBy c.pid] (some (.file tm))).set .config [.workspace, n, .marker] none)
    (lock_free hmk (by rw [hownn]; simp) (.inl rfl) ⟨rfl, rfl⟩) ?_
  rintro l fs1 ⟨rfl, hfs1⟩
  have hdat : ∀ q, fs1 .data q = fs .data q := fun q => by rw [hfs1, set_other _ _ _ _ (by simp), set_other _ _ _ _ (by simp)]
  have hcf : ∀ q, q ≠ [.workspace, n, .marker] → q ≠ [.workspace, n, .ownedBy c.pid] → fs1 .config q = fs .config q := fun q h h' => by
    rw [hfs1, set_other _ _ _ _ (by simp [h]), set_other _ _ _ _ (by simp [h'])]
  refine .bind (Q := fun _ fs' => fs' = fs1) (.require rfl rfl) ?_
  rintro _ fs2 rfl
  have hread : ∀ q t, fs2 .data q = some (.file t) → t ≠ [] → ∀ {C : FS → Prop}, Triple fs2 (readPickle .data q) (fun x fs' => x = t ∧ fs' = fs2) C := by
    intro q t h ht C
    unfold readPickle
    refine .bind (Q := fun x fs' => x = t ∧ fs' = fs2) (.readFile h ⟨rfl, rfl⟩) ?_
    rintro x fs2 ⟨rfl, rfl⟩
    refine .bind (Q := fun _ fs' => fs' = fs2) (.require (by simpa using ht) rfl) ?_
    rintro _ fs3 rfl
    exact .pure ⟨rfl, rfl⟩
  refine .bind (hread _ p (by rw [hdat]; exact hp) hpn) ?_
  rintro x fs3 ⟨rfl, rfl⟩
  refine .bind (Q := fun y fs' => y = s ∧ fs' = fs3) (.readFile (by rw [hcf _ (by simp) (by simp)]; exact hs) ⟨rfl, rfl⟩) ?_
  rintro y fs4 ⟨rfl, rfl⟩
  refine .bind (hread _ e (by rw [hdat]; exact he) hen) ?_
  rintro z fs5 ⟨rfl, rfl⟩
  refine .pure ⟨rfl, ?_, ?_, by rw [hdat]; exact hp, by rw [hdat]; exact he⟩
  · constructor
    · rw [hcf _ (by simp) (by simp)]; exact hi.configDir
    · rw [hcf _ (by simp) (by simp)]; exact hi.startup
    · exact ⟨tm, by rw [hfs1, set_other _ _ _ _ (by simp), set_same]⟩
    · intro m h
      by_cases h1 : m = .marker
      · subst h1; rw [hfs1] at h; exact absurd (set_same _ _ _ _) h
      · by_cases h2 : m = .ownedBy c.pid
        · exact .inr h2
        · rw [hcf _ (by simp [h1]) (by simp [h2])] at h
          exact .inl ((hi.configOnly m h).resolve_right h1)
    · rw [hdat]; exact hi.dataDir
    · rw [hdat]; exact hi.env
    · rw [hdat]; exact hi.properties
    · rw [hdat]; exact hi.history
    · rw [hdat]; exact hi.reservoirs
    · intro m; rw [hdat]; exact hi.dataOnly m
    · intro m; rw [hdat]; exact hi.reservoirFiles m
  · intro r q h1 h2
    rw [hfs1, set_other _ _ _ _ fun h => h2 ⟨h.1, _, rfl, h.2⟩, set_other _ _ _ _ fun h => h2 ⟨h.1, _, rfl, h.2⟩]

/-- **C66** What was saved when a workspace was closed is what the next process that opens it reads, and nothing else has changed in between. -/
theorem C66_reopen {c c' : Cfg} {fs fs' : FS} {n : Name} {props env : Text} (hf : Fits c fs) (hu : InUse n c.pid fs) (hal : c.alive c.pid = true) (hp : props ≠ []) (he : env ≠ [])
    (hc : c.wsClose n props env fs none = .ok () fs' none) (hf' : Fits c' fs') :
    ∃ s fs'', fs .config [.workspace, n, .startup] = some (.file s) ∧ c'.wsOpen n fs' none = .ok (props, s, env) fs'' none ∧ InUse n c'.pid fs'' ∧ OnlySaved n fs fs'' := by
  obtain ⟨s, hs⟩ := hu.startup
  obtain ⟨_, fs1, h1, h2, h3, h4, h5⟩ := (close_triple props env hf hu hal).returns
  have : fs1 = fs' := by rw [hc] at h1; cases h1; rfl
  subst this
  have hs' : fs1 .config [.workspace, n, .startup] = some (.file s) := by rw [h5 _ _ (by simp) (by simp [isMarker])]; exact hs
  obtain ⟨x, fs2, h6, h7, h8, h9, _⟩ := (open_triple hf' h2 h3 hs' h4 hp he).returns
  subst h7
  exact ⟨s, fs2, hs, h6, h8, fun r p h h' => (h9 r p h h').trans (h5 r p h h')⟩

/-- **C66** A close always succeeds for the process that has the workspace open, and the workspace is free and complete afterwards. -/
theorem C66_close {c : Cfg} {fs : FS} {n : Name} (props env : Text) (hf : Fits c fs) (hu : InUse n c.pid fs) (hal : c.alive c.pid = true) :
    ∃ fs', c.wsClose n props env fs none = .ok () fs' none ∧ Intact n fs' ∧ fs' .data [.workspace, n, .properties] = some (.file props) ∧ fs' .data [.workspace, n, .env] = some (.file env) ∧
      OnlySaved n fs fs' := by
  obtain ⟨_, fs', h1, h2⟩ := (close_triple props env hf hu hal).returns
  exact ⟨fs', h1, h2⟩

/-- **C66, what holds of an interrupted close**: the properties and the environment are each the old ones, the new ones, or empty; at most one of them is empty; everything else is as
before, and so the workspace is one that a start leaves alone. That an empty one can be left is the defect, see `C66_false_torn`. -/
theorem C66_interrupted_partial {c : Cfg} {fs : FS} {n : Name} (props env : Text) (hf : Fits c fs) (hu : InUse n c.pid fs) (hal : c.alive c.pid = true) (k : Option Nat) :
    OnlySaved n fs (c.wsClose n props env fs k).fs ∧
    (∃ x ∈ [fs .data [.workspace, n, .properties], some (.file []), some (.file props)], (c.wsClose n props env fs k).fs .data [.workspace, n, .properties] = x) ∧
    (∃ x ∈ [fs .data [.workspace, n, .env], some (.file []), some (.file env)], (c.wsClose n props env fs k).fs .data [.workspace, n, .env] = x) ∧
    ((c.wsClose n props env fs k).fs .data [.workspace, n, .env] = fs .data [.workspace, n, .env] ∨ (c.wsClose n props env fs k).fs .data [.workspace, n, .properties] = some (.file props)) := by
  rcases (close_triple props env hf hu hal).anyway k with ⟨h1, h2, _⟩ | ⟨_, _, h2, h3, h1⟩
  · refine ⟨h1, ?_⟩
    rcases h2 with ⟨h2, h3⟩ | ⟨h2, h3⟩ | ⟨h2, h3⟩ | ⟨h2, h3⟩ | ⟨h2, h3⟩
    · exact ⟨⟨_, by simp, h2⟩, ⟨_, by simp, h3⟩, .inl h3⟩
    · exact ⟨⟨_, by simp, h2⟩, ⟨_, by simp, h3⟩, .inl h3⟩
    · exact ⟨⟨_, by simp, h2⟩, ⟨_, by simp, h3⟩, .inl h3⟩
    · exact ⟨⟨_, by simp, h2⟩, ⟨_, by simp, h3⟩, .inr h2⟩
    · exact ⟨⟨_, by simp, h2⟩, ⟨_, by simp, h3⟩, .inr h2⟩
  · exact ⟨h1, ⟨_, by simp, h2⟩, ⟨_, by simp, h3⟩, .inr h2⟩

/-- **C66** `ws --open` is refused, and changes nothing, if another process uses the workspace. -/
theorem C66_open_in_use {c : Cfg} {fs : FS} (hf : Fits c fs) {n : Name} {p : Nat} (hu : InUse n p fs) (hal : c.alive p = true) (h1 : p ≠ c.pid) (h2 : p ≠ c.ppid) (k : Option Nat) :
    c.wsOpen n fs k = .raised fs := by
  obtain ⟨tm, hmk⟩ := hu.marker
  have hm : fs .config [.workspace, n, .ownedBy p] ≠ none := by rw [hmk]; simp
  have hlock : c.lock n fs k = .ok false fs k := by
    refine (bind_ok (owner_used hf hu.configDir hal hm ?_ k)).trans ?_
    · intro m h3 h4
      rcases hu.configOnly m h4 with rfl | h5
      · cases h3
      · exact h5
    · simp only [h1, h2, hal, if_false, if_true]
      rfl
  exact (bind_ok (require_ok ((markerExists_iff hf (by rw [hu.configDir]; simp)).mpr ⟨_, rfl, hm⟩))).trans ((bind_ok hlock).trans (bind_raised (require_raised rfl)))

/-- **C66** ... or if it has the markers of several live processes. -/
theorem C66_open_several {c : Cfg} {fs : FS} (hf : Fits c fs) {n : Name} {p q : Nat} (hd : fs .config [.workspace, n] = some .dir) (hpq : p ≠ q)
    (hp : fs .config [.workspace, n, .ownedBy p] ≠ none) (hq : fs .config [.workspace, n, .ownedBy q] ≠ none)
    (hall : ∀ m, isMarker m = true → fs .config [.workspace, n, m] ≠ none → ∃ o, m = .ownedBy o ∧ c.alive o = true) (k : Option Nat) :
    c.wsOpen n fs k = .raised fs :=
  (bind_ok (require_ok ((markerExists_iff hf (by rw [hd]; simp)).mpr ⟨_, rfl, hp⟩))).trans (bind_raised (bind_raised (owner_several hf hd hpq hp hq hall k)))

/-- **C66** `ws --list` gives the named workspaces that exist, each once, and changes nothing, if the properties of each can be read. -/
theorem C66_list {c : Cfg} {fs : FS} (hh : Healthy fs) (hf : Fits c fs)
    (hp : ∀ n, n ≠ .default_ → (∃ m, isMarker m = true ∧ fs .config [.workspace, n, m] ≠ none) → ∃ t, t ≠ [] ∧ fs .data [.workspace, n, .properties] = some (.file t)) :
    ∃ l, c.wsList fs none = .ok l fs none ∧ l.Nodup ∧ ∀ n, n ∈ l ↔ n ≠ .default_ ∧ ∃ m, isMarker m = true ∧ fs .config [.workspace, n, m] ≠ none := by
  have hsel : ∀ n, (isDir .config [.workspace, n] fs && !(decide (n = .default_)) && c.markerExists n fs) = true ↔ n ≠ .default_ ∧ ∃ m, isMarker m = true ∧ fs .config [.workspace, n, m] ≠ none := by
    intro n
    constructor
    · intro h
      simp only [Bool.and_eq_true, isDir_iff, Bool.not_eq_true', decide_eq_false_iff_not] at h
      exact ⟨h.1.2, (markerExists_iff hf (by rw [h.1.1]; simp)).mp h.2⟩
    · rintro ⟨h1, m, h2, h3⟩
      have hd : fs .config [.workspace, n] = some .dir := hh.tree .config [.workspace, n] m h3
      simp only [Bool.and_eq_true, isDir_iff, Bool.not_eq_true', decide_eq_false_iff_not]
      exact ⟨⟨hd, h1⟩, (markerExists_iff hf (by rw [hd]; simp)).mpr ⟨m, h2, h3⟩⟩
  have hloop : ∀ l : List Name, forEach c.listEach l fs none = .ok () fs none := by
    intro l
    induction l with
    | nil => rfl
    | cons n l ih =>
      refine (bind_ok (k' := none) (a := ()) (fs' := fs) ?_).trans ih
      show (if (isDir .config [.workspace, n] fs && !(decide (n = .default_)) && c.markerExists n fs) then _ else _) = _
      split
      · rename_i hs
        obtain ⟨h1, h2⟩ := (hsel n).mp hs
        obtain ⟨t, ht, hpt⟩ := hp n h1 h2
        have hr : readPickle .data [.workspace, n, .properties] fs none = .ok t fs none := by
          refine (bind_ok (a := t) (fs' := fs) (k' := none) ?_).trans ((bind_ok (require_ok ?_)).trans rfl)
          · show (match fs .data [.workspace, n, .properties] with | some (.file c) => _ | _ => _) = _
            rw [hpt]
          · simpa using ht
        exact (bind_ok hr).trans rfl
      · rfl
  refine ⟨_, (bind_ok (k' := none) (a := c.children .config [.workspace] fs) (fs' := fs) ((bind_ok (require_ok (isDir_iff.mpr (hh.workspaces _)))).trans rfl)).trans ((bind_ok (hloop _)).trans rfl),
    (hf.children_nodup _ _).filter _, fun n => ?_⟩
  rw [List.mem_filter, hsel n]
  constructor
  · exact fun h => h.2
  · rintro ⟨h1, m, h2, h3⟩
    refine ⟨hf.mem_children.mpr ?_, h1, m, h2, h3⟩
    have hd : fs .config [.workspace, n] = some .dir := hh.tree .config [.workspace, n] m h3
    show fs .config [.workspace, n] ≠ none
    rw [hd]
    simp

/-! ## Examples -/

/-- The workspace in use by process 5. -/
def exInUse : List (Root × Path × Node) :=
  [(.config, [.workspace, .user 1], .dir), (.config, [.workspace, .user 1, .startup], .file ['s']), (.config, [.workspace, .user 1, .ownedBy 5], .file []), (.data, [.workspace, .user 1], .dir),
   (.data, [.workspace, .user 1, .env], .file ['v']), (.data, [.workspace, .user 1, .properties], .file ['p']), (.data, [.workspace, .user 1, .history], .file ['h']),
   (.data, [.workspace, .user 1, .reservoirs], .dir), (.data, [.workspace, .user 1, .reservoirs, .pickle 1], .file ['x'])]

def exFS3 : FS := FS.of (exBase ++ exInUse)

theorem exFS3_fits : Fits exCfg exFS3 where
  covers := of_covers (by decide +kernel)
  marker := by decide
  nodup := by decide +kernel
  fresh := fun r => by cases r <;> rfl

theorem exFS3_inUse : InUse (.user 1) 5 exFS3 := by
  have hm : ∀ {r q}, exFS3 r (.workspace :: .user 1 :: q) ≠ none → ∃ x, (r, .workspace :: .user 1 :: q, x) ∈ exBase ++ exInUse := fun h => of_mem h
  constructor
  · rfl
  · exact ⟨['s'], rfl⟩
  · exact ⟨[], rfl⟩
  · intro m h
    obtain ⟨x, hx⟩ := hm h
    simp [exBase, exInUse] at hx
    rcases hx with h | h
    · exact .inl h.1
    · exact .inr h.1
  · rfl
  · exact ⟨['v'], rfl⟩
  · exact ⟨['p'], rfl⟩
  · exact ⟨['h'], rfl⟩
  · rfl
  · intro m h
    obtain ⟨x, hx⟩ := hm h
    simp [exBase, exInUse] at hx
    rcases hx with h | h | h | h <;> simp [h]
  · intro m h
    obtain ⟨x, hx⟩ := hm (by rw [h]; simp)
    simp [exBase, exInUse] at hx
    rw [hx.1] at h
    cases h

/-- The hypotheses of C66 and of C65_delete_in_use are met. -/
theorem C66_example : Fits exCfg exFS3 ∧ InUse (.user 1) exCfg.pid exFS3 ∧ exCfg.alive exCfg.pid = true ∧
    (exCfg.wsClose (.user 1) ['q'] ['w'] exFS3 none).fs .data [.workspace, .user 1, .env] = some (.file ['w']) ∧
    (exCfg.wsClose (.user 1) ['q'] ['w'] exFS3 none).fs .config [.workspace, .user 1, .marker] = some (.file []) ∧
    didRaise ({ exCfg with pid := 7 }.wsDelete none (.user 1) exFS3 none) = true :=
  ⟨exFS3_fits, exFS3_inUse, rfl, by decide +kernel, by decide +kernel, by decide +kernel⟩

/-- The workspace with the markers of processes 5 and 9. -/
def exFS4 : FS := FS.of (exBase ++ (.config, [.workspace, .user 1, .ownedBy 9], .file []) :: exInUse)

/-- The hypotheses of C66_open_several and C65_delete_several are met, if both processes are alive. -/
theorem C66_example_several : Fits { exCfg with alive := fun _ => true } exFS4 ∧ exFS4 .config [.workspace, .user 1] = some .dir ∧ exFS4 .config [.workspace, .user 1, .ownedBy 5] ≠ none ∧
    exFS4 .config [.workspace, .user 1, .ownedBy 9] ≠ none ∧
    (∀ m, isMarker m = true → exFS4 .config [.workspace, .user 1, m] ≠ none → ∃ o, m = .ownedBy o ∧ { exCfg with alive := fun _ => true }.alive o = true) := by
  refine ⟨⟨of_covers (by decide +kernel), by decide, by decide +kernel, fun r => by cases r <;> rfl⟩, rfl, by decide, by decide, fun m hm h => ?_⟩
  obtain ⟨x, hx⟩ := of_mem h
  simp [exBase, exInUse] at hx
  rcases hx with h | h | h
  · exact ⟨9, h.1, rfl⟩
  · rw [h.1] at hm; cases hm
  · exact ⟨5, h.1, rfl⟩

/-! ## Where it is wrong -/

/-- **C66 is false if the close is interrupted**: the variables of the workspace are lost. The next start sees nothing wrong, and the workspace cannot be opened. -/
theorem C66_false_torn : InUse (.user 1) exCfg.pid exFS3 ∧ (exCfg.wsClose (.user 1) ['q'] ['w'] exFS3 (some 3)).fs .data [.workspace, .user 1, .env] = some (.file []) ∧
    ({ exCfg with pid := 6, alive := fun p => p = 6 }.start (exCfg.wsClose (.user 1) ['q'] ['w'] exFS3 (some 3)).fs none).fs .data [.workspace, .user 1, .env] = some (.file []) ∧
    didRaise ({ exCfg with pid := 6, alive := fun p => p = 6 }.wsOpen (.user 1)
      ({ exCfg with pid := 6, alive := fun p => p = 6 }.start (exCfg.wsClose (.user 1) ['q'] ['w'] exFS3 (some 3)).fs none).fs none) = true :=
  ⟨exFS3_inUse, by decide +kernel, by decide +kernel, by decide +kernel⟩

/-- If it is the properties that were being written, `ws --list` no longer works, for any workspace. -/
theorem C66_false_list : (exCfg.wsClose (.user 1) ['q'] ['w'] exFS3 (some 1)).fs .data [.workspace, .user 1, .properties] = some (.file []) ∧
    didRaise ({ exCfg with pid := 6, alive := fun p => p = 6 }.wsList
      ({ exCfg with pid := 6, alive := fun p => p = 6 }.start (exCfg.wsClose (.user 1) ['q'] ['w'] exFS3 (some 1)).fs none).fs none) = true :=
  ⟨by decide +kernel, by decide +kernel⟩

end Marcel.WsDisk
