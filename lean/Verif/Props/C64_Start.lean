import Verif.Lemmas.WsAside

/-! # C64: a start of marcel puts the damaged workspaces aside, and only them -/

namespace Marcel.WsDisk

/-- A sound workspace has one marker after its validation. -/
theorem one_marker {c : Cfg} {n : Name} {fs fs' : FS} (hs : Sound c n fs) (hm : Mod fs fs') (hk : Marks c n fs fs') :
    ∃ m, Live c m ∧ (∀ m', fs' .config [.workspace, n, m'] ≠ none ↔ m' = .startup ∨ m' = m) ∧ ∀ m', Live c m' → fs .config [.workspace, n, m'] ≠ none → m' = m := by
  have hst : fs' .config [.workspace, n, .startup] ≠ none := by rw [hm.same (not_transient_config (by simp) (by simp))]; exact hs.startup
  have honly : ∀ m', fs' .config [.workspace, n, m'] ≠ none → m' = .startup ∨ m' = .marker ∨ ∃ p, m' = .ownedBy p ∧ c.alive p = true ∧ fs .config [.workspace, n, m'] ≠ none := by
    intro m' h
    have : m' = .startup ∨ m' = .marker ∨ ∃ p, m' = .ownedBy p := by
      rcases hm.present h with h1 | ⟨n', _, h1, _⟩
      · exact hs.configOnly m' h1
      · simp at h1; exact .inr (.inl h1.2)
    rcases this with h1 | h1 | ⟨p, rfl⟩
    · exact .inl h1
    · exact .inr (.inl h1)
    · rcases Bool.eq_false_or_eq_true (c.alive p) with hp | hp
      · exact .inr (.inr ⟨p, rfl, hp, by rw [← hk.live p hp]; exact h⟩)
      · exact absurd (hk.dead p hp) h
  by_cases h1 : fs .config [.workspace, n, .marker] = none
  · by_cases h2 : ∃ p, c.alive p = true ∧ fs .config [.workspace, n, .ownedBy p] ≠ none
    · obtain ⟨p, hp, hp'⟩ := h2
      have hl : Live c (.ownedBy p) := .inr ⟨p, rfl, hp⟩
      refine ⟨.ownedBy p, hl, fun m' => ⟨fun h => ?_, ?_⟩, fun m' h h' => hs.oneMarker m' _ h hl h' hp'⟩
      · rcases honly m' h with h3 | rfl | ⟨p', rfl, h3, h4⟩
        · exact .inl h3
        · exact absurd (hk.used h1 ⟨p, hp, hp'⟩) h
        · exact .inr (hs.oneMarker _ _ (.inr ⟨p', rfl, h3⟩) hl h4 hp')
      · rintro (rfl | rfl)
        · exact hst
        · rw [hk.live p hp]; exact hp'
    · have h3 : ∀ p, c.alive p = true → fs .config [.workspace, n, .ownedBy p] = none := fun p hp => Classical.byContradiction fun h => h2 ⟨p, hp, h⟩
      refine ⟨.marker, .inl rfl, fun m' => ⟨fun h => ?_, ?_⟩, ?_⟩
      · rcases honly m' h with h4 | h4 | ⟨p', rfl, h4, h5⟩
        · exact .inl h4
        · exact .inr h4
        · exact absurd (h3 p' h4) h5
      · rintro (rfl | rfl)
        · exact hst
        · rw [hk.made h1 h3]; simp
      · rintro m' (rfl | ⟨p, rfl, hp⟩) h
        · rfl
        · exact absurd (h3 p hp) h
  · refine ⟨.marker, .inl rfl, fun m' => ⟨fun h => ?_, ?_⟩, fun m' h h' => hs.oneMarker m' _ h (.inl rfl) h' h1⟩
    · rcases honly m' h with h4 | h4 | ⟨p', rfl, h4, h5⟩
      · exact .inl h4
      · exact .inr h4
      · exact .inr (hs.oneMarker _ _ (.inr ⟨p', rfl, h4⟩) (.inl rfl) h5 h1)
    · rintro (rfl | rfl)
      · exact hst
      · rw [hk.kept h1]; exact h1

/-- A workspace with one marker is sound, whichever processes are alive. -/
theorem sound_again {c c' : Cfg} {n : Name} {fs fs' : FS} (hs : Sound c n fs) (hsame : ∀ r q, ¬ Transient r (.workspace :: n :: q) → fs' r (.workspace :: n :: q) = fs r (.workspace :: n :: q))
    (hn : n ≠ .default_) (hm : ∃ m, Live c m ∧ (∀ m', fs' .config [.workspace, n, m'] ≠ none ↔ m' = .startup ∨ m' = m)) : Sound c' n fs' := by
  obtain ⟨m, hl, hm⟩ := hm
  have hd : ∀ q, fs' .data (.workspace :: n :: q) = fs .data (.workspace :: n :: q) := fun q => hsame _ _ (not_transient_data hn)
  constructor
  · rw [hsame _ _ not_transient_dir]; exact hs.configDir
  · exact (hm _).mpr (.inl rfl)
  · intro m' h
    rcases (hm m').mp h with h | rfl
    · exact .inl h
    · rcases hl with h | ⟨p, h, _⟩
      · exact .inr (.inl h)
      · exact .inr (.inr ⟨p, h⟩)
  · intro m1 m2 h1 h2 h3 h4
    have : ∀ m', Live c' m' → fs' .config [.workspace, n, m'] ≠ none → m' = m := by
      intro m' h5 h6
      rcases (hm m').mp h6 with rfl | h
      · rcases h5 with h | ⟨p, h, _⟩ <;> cases h
      · exact h
    rw [this m1 h1 h3, this m2 h2 h4]
  · rw [hd]; exact hs.dataDir
  · rw [hd]; exact hs.env
  · rw [hd]; exact hs.properties
  · rw [hd]; exact hs.history
  · rw [hd]; exact hs.reservoirs
  · intro m'; rw [hd]; exact hs.dataOnly m'

theorem not_transient_broken {r : Root} {q : Path} : ¬ Transient r (.broken :: q) := by
  rintro (⟨_, n', m, _, h⟩ | ⟨_, m, _, h | h⟩) <;> simp at h

theorem not_transient_rest {r : Root} {p : Path} (h : ∀ q, p ≠ .workspace :: q) : ¬ Transient r p := by
  rintro (⟨_, n', m, _, h'⟩ | ⟨_, m, _, h' | h'⟩)
  · exact h _ h'
  · exact h _ h'
  · exact h _ h'

theorem started {c : Cfg} {fs fs1 fs' : FS} (hh : Healthy fs) (hv : Validated c (InBoth fs) fs fs1) (ha : Aside c.now (Bad c fs) fs1 fs') : Started c fs fs' := by
  have hh1 := hv.mod.healthy hh
  have hgood : ∀ n, n = .default_ ∨ Sound c n fs → ∀ r, ¬ Bad c fs r n := by
    rintro n (h | h) r ⟨h1, h2, _⟩
    · exact h1 h
    · exact h2 h
  have hkept : ∀ n, n = .default_ ∨ Sound c n fs → ∀ r q, ¬ Transient r (.workspace :: n :: q) → fs' r (.workspace :: n :: q) = fs r (.workspace :: n :: q) := by
    intro n hn r q ht
    rw [ha.kept r n q (hgood n hn r), hv.mod.same ht]
  have hone : ∀ n, Sound c n fs → ∃ m, Live c m ∧ (∀ m', fs' .config [.workspace, n, m'] ≠ none ↔ m' = .startup ∨ m' = m) ∧
      ∀ m', Live c m' → fs .config [.workspace, n, m'] ≠ none → m' = m := by
    intro n hs
    obtain ⟨m, h1, h2, h3⟩ := one_marker hs hv.mod (hv.marks n ⟨by rw [hs.configDir]; simp, by rw [hs.dataDir]; simp⟩)
    refine ⟨m, h1, fun m' => ?_, h3⟩
    rw [ha.kept .config n [m'] (hgood n (.inr hs) _)]
    exact h2 m'
  have habsent : ∀ n, n ≠ .default_ → ¬ Sound c n fs → ∀ r, ¬ Bad c fs r n → ∀ q, fs1 r (.workspace :: n :: q) = none := by
    intro n h1 h2 r h3 q
    have : fs r [.workspace, n] = none := Classical.byContradiction fun h => h3 ⟨h1, h2, h⟩
    exact hh1.below (p := [.workspace, n]) (by rw [hv.mod.same not_transient_dir]; exact this) q
  have hgone : ∀ n, n ≠ .default_ → ¬ Sound c n fs → ∀ r q, fs' r (.workspace :: n :: q) = none := by
    intro n h1 h2 r q
    by_cases hb : Bad c fs r n
    · exact ha.gone r n q hb
    · rw [ha.kept r n q hb]
      exact habsent n h1 h2 r hb q
  refine ⟨hkept, hone, hgone, ?_, ?_, ?_, ?_, ?_⟩
  · intro n h1 h2 r q ht
    rw [← hv.mod.same ht]
    by_cases hb : Bad c fs r n
    · exact ha.moved r n q hb
    · rw [ha.slot r n q hb, habsent n h1 h2 r hb q]
  · intro r t q ht
    rw [ha.other r _ (by simp) (by simpa using ht), hv.mod.same not_transient_broken]
  · intro r p h1 h2
    rw [ha.other r p (fun n q => h1 (n :: q)) (fun q => h2 (c.now :: q)), hv.mod.same (not_transient_rest h1)]
  · intro r n hn hp
    have hs : Sound c n fs := Classical.byContradiction fun h => hp (hgone n hn h r [])
    obtain ⟨m, h1, h2, _⟩ := hone n hs
    exact sound_again hs (hkept n (.inr hs)) hn ⟨m, h1, h2⟩
  · exact (ha.healthy hh1 fun r h => h.1 rfl).default_

/-- **C64** A start puts aside exactly the damaged workspaces. -/
theorem C64_start {c : Cfg} {fs : FS} (hh : Healthy fs) (hf : Fits c fs) : ∃ fs', c.start fs none = .ok () fs' none ∧ Started c fs fs' ∧ Healthy fs' := by
  obtain ⟨_, fs', h1, fs1, h2, h3, _⟩ := (start_triple hh hf).returns
  exact ⟨fs', h1, started hh h2 h3, h3.healthy (h2.mod.healthy hh) fun r h => h.1 rfl⟩

/-- **C64** There is nothing left for the next start to put aside, whichever processes are alive then. -/
theorem C64_again {c c' : Cfg} {fs fs' : FS} (hh : Healthy fs) (hf : Fits c fs) (hs : c.start fs none = .ok () fs' none) (hf' : Fits c' fs') :
    ∃ fs'', c'.start fs' none = .ok () fs'' none ∧ (∀ r p, ¬ Transient r p → fs'' r p = fs' r p) ∧ ∀ n, n ≠ .default_ → Sound c n fs → Sound c' n fs'' := by
  obtain ⟨fs1, h1, h2, hh'⟩ := C64_start hh hf
  have he : fs1 = fs' := by rw [hs] at h1; cases h1; rfl
  subst he
  have hsound : ∀ n, n ≠ .default_ → Sound c n fs → Sound c' n fs1 := by
    intro n hn hs
    obtain ⟨m, h3, h4, _⟩ := h2.oneMarker n hs
    exact sound_again hs (h2.kept n (.inr hs)) hn ⟨m, h3, h4⟩
  have hbad : ∀ r n, ¬ Bad c' fs1 r n := by
    rintro r n ⟨hn, h3, hp⟩
    exact h3 (hsound n hn (Classical.byContradiction fun h => hp (h2.gone n hn h r [])))
  obtain ⟨_, fs2, h3, fs3, hv, ha, heq⟩ := (start_triple hh' hf').returns
  have h4 := started hh' hv ha
  refine ⟨fs2, h3, ?_, ?_⟩
  · intro r p ht
    rw [heq hbad, hv.mod.same ht]
  · intro n hn hs
    refine h4.allSound .config n hn ?_
    rw [heq hbad, hv.mod.same not_transient_dir, (hsound n hn hs).configDir]
    simp

/-- **C64** A start never fails; wherever it is interrupted, the sound workspaces are as before, everything in the damaged ones is where it was or below `broken`, all else is as
before; and the next start works. -/
theorem C64_interrupted {c : Cfg} {fs : FS} (hh : Healthy fs) (hf : Fits c fs) (k : Option Nat) :
    (∀ fs', c.start fs k ≠ .raised fs') ∧ Healthy (c.start fs k).fs ∧
    (∀ n, n = .default_ ∨ Sound c n fs → ∀ r q, ¬ Transient r (.workspace :: n :: q) → (c.start fs k).fs r (.workspace :: n :: q) = fs r (.workspace :: n :: q)) ∧
    ∀ r p, ¬ Transient r p → fs r p ≠ none → (c.start fs k).fs r p = fs r p ∨
      ∃ n q, p = .workspace :: n :: q ∧ n ≠ .default_ ∧ ¬ Sound c n fs ∧ (c.start fs k).fs r (.broken :: c.now :: n :: n :: q) = fs r p := by
  have ht := start_triple hh hf
  have hex : ∃ fs1 D, Mod fs fs1 ∧ (∀ r n, D r n → Bad c fs r n) ∧ Aside c.now D fs1 (c.start fs k).fs := by
    rcases ht.anyway k with h | ⟨_, fs1, hv, ha, _⟩
    · exact h
    · exact ⟨fs1, _, hv.mod, fun _ _ h => h, ha⟩
  obtain ⟨fs1, D, hm, hD, ha⟩ := hex
  have hh1 := hm.healthy hh
  refine ⟨?_, ha.healthy hh1 fun r h => (hD r _ h).1 rfl, ?_, ?_⟩
  · intro fs' h
    have := ht k
    rw [h] at this
    exact this
  · intro n hn r q hp
    rw [ha.kept r n q (fun h => hn.elim (fun h' => (hD r n h).1 h') fun h' => (hD r n h).2.1 h'), hm.same hp]
  · intro r p hp hne
    by_cases hw : ∃ n q, p = .workspace :: n :: q
    · obtain ⟨n, q, rfl⟩ := hw
      by_cases hb : D r n
      · refine .inr ⟨n, q, rfl, (hD r n hb).1, (hD r n hb).2.1, ?_⟩
        rw [ha.moved r n q hb, hm.same hp]
      · left
        rw [ha.kept r n q hb, hm.same hp]
    · left
      rw [ha.other r p (fun n q h => hw ⟨n, q, h⟩), hm.same hp]
      rintro q rfl
      have := hh.below (r := r) (hf.fresh r) q
      exact hne this

/-- **C64** Nothing is lost, however often marcel is started and wherever each start is interrupted: every file is where it was, or below `broken`. -/
theorem C64_no_loss {fs fs' : FS} (hh : Healthy fs) (hs : Starts fs fs') : Healthy fs' ∧ ∀ r p, ¬ Transient r p → fs r p ≠ none → fs' r p = fs r p ∨
    ∃ t n q, p = .workspace :: n :: q ∧ n ≠ .default_ ∧ fs' r (.broken :: t :: n :: n :: q) = fs r p := by
  induction hs with
  | none => exact ⟨hh, fun _ _ _ _ => .inl rfl⟩
  | more h c hf k ih =>
    obtain ⟨h1, h2⟩ := ih
    obtain ⟨_, h3, _, h4⟩ := C64_interrupted h1 hf k
    refine ⟨h3, fun r p ht hne => ?_⟩
    rcases h2 r p ht hne with h5 | ⟨t, n, q, rfl, hn, h5⟩
    · rcases h4 r p ht (by rw [h5]; exact hne) with h6 | ⟨n, q, rfl, hn, _, h6⟩
      · exact .inl (h6.trans h5)
      · exact .inr ⟨c.now, n, q, rfl, hn, h6.trans h5⟩
    · rcases h4 r (.broken :: t :: n :: n :: q) not_transient_broken (by rw [h5]; exact hne) with h6 | ⟨n', q', h6, _⟩
      · exact .inr ⟨t, n, q, rfl, hn, h6.trans h5⟩
      · simp at h6

/-! ## Examples -/

theorem of_mem {l : List (Root × Path × Node)} {r : Root} {p : Path} (h : FS.of l r p ≠ none) : ∃ x, (r, p, x) ∈ l := by
  induction l with
  | nil => exact absurd rfl h
  | cons e l ih =>
    obtain ⟨r', p', n⟩ := e
    by_cases hh : r = r' ∧ p = p'
    · obtain ⟨rfl, rfl⟩ := hh
      exact ⟨n, by simp⟩
    · have : FS.of ((r', p', n) :: l) r p = FS.of l r p := set_other _ _ _ _ hh
      rw [this] at h
      obtain ⟨x, hx⟩ := ih h
      exact ⟨x, by simp [hx]⟩

theorem of_tree {l : List (Root × Path × Node)} (h : ∀ e ∈ l, e.2.1 = [] ∨ FS.of l e.1 e.2.1.dropLast = some .dir) : ∀ r p n, FS.of l r (p ++ [n]) ≠ none → FS.of l r p = some .dir := by
  intro r p n hp
  obtain ⟨x, hx⟩ := of_mem hp
  rcases h _ hx with h1 | h1
  · simp at h1
  · simpa using h1

theorem of_covers {l : List (Root × Path × Node)} {names : List Name} (h : ∀ e ∈ l, ∀ n, e.2.1.getLast? = some n → n ∈ names) : ∀ r p n, FS.of l r (p ++ [n]) ≠ none → n ∈ names := by
  intro r p n hp
  obtain ⟨x, hx⟩ := of_mem hp
  exact h _ hx n (by simp)

/-- The default workspace, with one process using it, and what is around it. -/
def exBase : List (Root × Path × Node) :=
  [(.config, [], .dir), (.config, [.version], .file ['1']), (.config, [.workspace], .dir), (.config, [.broken], .dir), (.data, [], .dir), (.data, [.workspace], .dir), (.data, [.broken], .dir),
   (.config, [.workspace, .default_], .dir), (.config, [.workspace, .default_, .startup], .file ['d']), (.config, [.workspace, .default_, .marker], .file []),
   (.data, [.workspace, .default_], .dir), (.data, [.workspace, .default_, .history], .file []), (.data, [.workspace, .default_, .reservoirs], .dir),
   (.data, [.workspace, .default_, .envOf 7], .file ['e']), (.data, [.workspace, .default_, .reservoirs, .pickleOf 8 0], .file ['r'])]

/-- A sound workspace, with the marker of process 9. -/
def exSound : List (Root × Path × Node) :=
  [(.config, [.workspace, .user 1], .dir), (.config, [.workspace, .user 1, .startup], .file ['s']), (.config, [.workspace, .user 1, .ownedBy 9], .file []), (.data, [.workspace, .user 1], .dir),
   (.data, [.workspace, .user 1, .env], .file ['v']), (.data, [.workspace, .user 1, .properties], .file ['p']), (.data, [.workspace, .user 1, .history], .file ['h']),
   (.data, [.workspace, .user 1, .reservoirs], .dir), (.data, [.workspace, .user 1, .reservoirs, .pickle 1], .file ['x'])]

/-- A workspace without `env.pickle` and one that is only in one of the trees. -/
def exDamaged : List (Root × Path × Node) :=
  [(.config, [.workspace, .user 2], .dir), (.config, [.workspace, .user 2, .startup], .file ['t']), (.data, [.workspace, .user 2], .dir), (.data, [.workspace, .user 2, .history], .file ['k']),
   (.data, [.workspace, .user 3], .dir), (.data, [.workspace, .user 3, .history], .file ['l'])]

def exFS : FS := FS.of (exBase ++ exSound ++ exDamaged)

/-- Process 7 is alive, processes 8 and 9 are not. -/
def exCfg : Cfg where
  names := [.version, .workspace, .broken, .default_, .startup, .marker, .ownedBy 5, .ownedBy 9, .env, .envOf 7, .properties, .history, .reservoirs, .pickleOf 8 0, .pickle 1, .user 1, .user 2, .user 3,
    .user 4, .user 50, .oddMarker 0]
  pid := 5
  ppid := 4
  alive := fun p => p = 7 || p = 5
  emptyEnv := ['E']
  newProps := ['P']
  now := .user 100

theorem exFS_base_default {l : List (Root × Path × Node)} (hl : ∀ e ∈ l, ∃ n q, e.2.1 = .workspace :: n :: q ∧ n ≠ .default_) : SoundDefault (FS.of (exBase ++ l)) := by
  have hm : ∀ {r q}, FS.of (exBase ++ l) r (.workspace :: .default_ :: q) ≠ none → ∃ x, (r, .workspace :: .default_ :: q, x) ∈ exBase := by
    intro r q h
    obtain ⟨x, hx⟩ := of_mem h
    rcases List.mem_append.mp hx with h | h
    · exact ⟨x, h⟩
    · obtain ⟨n, q', h1, h2⟩ := hl _ h
      simp at h1
      exact absurd h1.1.symm h2
  constructor
  · rfl
  · simp [exBase, FS.of, FS.set]
  · intro m h
    obtain ⟨x, h⟩ := hm h
    simp [exBase] at h
    rcases h with h | h
    · exact .inl h.1
    · exact .inr h.1
  · rfl
  · simp [exBase, FS.of, FS.set]
  · rfl
  · intro m h
    obtain ⟨x, h⟩ := hm h
    simp [exBase] at h
    rcases h with h | h | h
    · rw [h.1]; exact ⟨.inr (.inl rfl), by simp⟩
    · rw [h.1]; exact ⟨.inr (.inr (.inl rfl)), by simp⟩
    · rw [h.1]; exact ⟨.inr (.inr (.inr (.inr (.inl ⟨7, rfl⟩)))), by simp⟩
  · intro m h
    obtain ⟨x, h⟩ := hm h
    simp [exBase] at h
    rw [h.1]
    exact .inl (.inr (.inl ⟨8, 0, rfl⟩))
  · intro p h
    obtain ⟨x, h1⟩ := hm (by rw [h]; simp)
    simp [exBase] at h1
    rw [h1.1] at h
    simp [exBase, FS.of, FS.set] at h
  · intro m h
    obtain ⟨x, h1⟩ := hm (by rw [h]; simp)
    simp [exBase] at h1
    rw [h1.1] at h
    simp [exBase, FS.of, FS.set] at h

theorem exFS_healthy : Healthy exFS where
  tree := of_tree (by decide +kernel)
  version := ⟨['1'], rfl⟩
  workspaces := fun r => by cases r <;> rfl
  brokens := fun r => by cases r <;> rfl
  both := by
    intro n h1 h2
    obtain ⟨x, hx⟩ := of_mem h1
    obtain ⟨y, hy⟩ := of_mem h2
    simp [exBase, exSound, exDamaged] at hx hy
    rcases hx with ⟨rfl, _⟩ | ⟨rfl, _⟩ | ⟨rfl, _⟩
    · exact ⟨rfl, rfl, fun k => Classical.byContradiction fun h => by obtain ⟨z, hz⟩ := of_mem h; simp [exBase, exSound, exDamaged] at hz⟩
    · exact ⟨rfl, rfl, fun k => Classical.byContradiction fun h => by obtain ⟨z, hz⟩ := of_mem h; simp [exBase, exSound, exDamaged] at hz⟩
    · exact ⟨rfl, rfl, fun k => Classical.byContradiction fun h => by obtain ⟨z, hz⟩ := of_mem h; simp [exBase, exSound, exDamaged] at hz⟩
  markerFiles := by
    intro n p h
    obtain ⟨x, hx⟩ := of_mem (by rw [show FS.of (exBase ++ exSound ++ exDamaged) = exFS from rfl, h]; simp)
    simp [exBase, exSound, exDamaged] at hx
    obtain ⟨⟨rfl, rfl⟩, rfl⟩ := hx
    cases h
  default_ := by
    unfold exFS
    rw [List.append_assoc]
    exact exFS_base_default (by simp [exSound, exDamaged])

theorem exFS_fits : Fits exCfg exFS where
  covers := of_covers (by decide +kernel)
  marker := by decide
  nodup := by decide +kernel
  fresh := fun r => by cases r <;> rfl

theorem of_append_left {l l' : List (Root × Path × Node)} {r : Root} {p : Path} (h : ∀ e ∈ l, e.2.1 ≠ p) : FS.of (l ++ l') r p = FS.of l' r p := by
  induction l with
  | nil => rfl
  | cons e l ih =>
    obtain ⟨r', p', n⟩ := e
    show FS.set (FS.of (l ++ l')) r' p' (some n) r p = _
    rw [set_other _ _ _ _ fun hh => h _ List.mem_cons_self hh.2.symm]
    exact ih fun e he => h e (by simp [he])

theorem of_append_right {l l' : List (Root × Path × Node)} {r : Root} {p : Path} (h : ∀ e ∈ l', e.2.1 ≠ p) : FS.of (l ++ l') r p = FS.of l r p := by
  induction l with
  | nil =>
    refine Classical.byContradiction fun hh => ?_
    obtain ⟨x, hx⟩ := of_mem (l := l') (r := r) (p := p) (fun h => hh (by rw [List.nil_append, h]; rfl))
    exact h _ hx rfl
  | cons e l ih =>
    obtain ⟨r', p', n⟩ := e
    show FS.set (FS.of (l ++ l')) r' p' (some n) r p = FS.set (FS.of l) r' p' (some n) r p
    unfold FS.set
    rw [ih]

theorem sound_of_exSound {fs : FS} (h : ∀ r q, fs r (.workspace :: .user 1 :: q) = FS.of exSound r (.workspace :: .user 1 :: q)) : Sound exCfg (.user 1) fs := by
  have hm : ∀ {r q}, fs r (.workspace :: .user 1 :: q) ≠ none → ∃ x, (r, .workspace :: .user 1 :: q, x) ∈ exSound := by
    intro r q h'
    rw [h] at h'
    exact of_mem h'
  constructor
  · rw [h]; rfl
  · rw [h]; simp [exSound, FS.of, FS.set]
  · intro m h'
    obtain ⟨x, hx⟩ := hm h'
    simp [exSound] at hx
    rcases hx with h | h
    · exact .inl h.1
    · exact .inr (.inr ⟨9, h.1⟩)
  · intro m m' h1 h2 h3 h4
    have : ∀ m, Live exCfg m → fs .config [.workspace, .user 1, m] ≠ none → False := by
      intro m h1 h3
      obtain ⟨x, hx⟩ := hm h3
      simp [exSound] at hx
      rcases hx with ⟨rfl, _⟩ | ⟨rfl, _⟩
      · rcases h1 with h | ⟨p, h, _⟩ <;> cases h
      · rcases h1 with h | ⟨p, h, h'⟩
        · cases h
        · cases h; simp [exCfg] at h'
    exact (this m h1 h3).elim
  · rw [h]; rfl
  · rw [h]; simp [exSound, FS.of, FS.set]
  · rw [h]; simp [exSound, FS.of, FS.set]
  · rw [h]; simp [exSound, FS.of, FS.set]
  · rw [h]; rfl
  · intro m h'
    obtain ⟨x, hx⟩ := hm h'
    simp [exSound] at hx
    rcases hx with ⟨rfl, _⟩ | ⟨rfl, _⟩ | ⟨rfl, _⟩ | ⟨rfl, _⟩
    · exact .inr (.inr (.inr (.inl rfl)))
    · exact .inl rfl
    · exact .inr (.inl rfl)
    · exact .inr (.inr (.inl rfl))

theorem exSound_within {l : List (Root × Path × Node)} (hl : ∀ e ∈ l, ∀ q, e.2.1 ≠ .workspace :: .user 1 :: q) (r : Root) (q : Path) :
    FS.of (exBase ++ exSound ++ l) r (.workspace :: .user 1 :: q) = FS.of exSound r (.workspace :: .user 1 :: q) := by
  rw [of_append_right (fun e he => hl e he q), of_append_left]
  intro e he
  have : e.2.1.drop 1 |>.head? |> (· ≠ some (.user 1)) := by revert e; decide +kernel
  intro h
  rw [h] at this
  exact this rfl

theorem exFS_sound : Sound exCfg (.user 1) exFS := sound_of_exSound (exSound_within (by simp [exDamaged]))

theorem exFS_damaged : ¬ Sound exCfg (.user 2) exFS := fun h => h.env (by decide +kernel)

/-- The hypotheses of C64 are met by a file system with a sound workspace, one that lacks a file, and one that is only in one of the trees. -/
theorem C64_example : Healthy exFS ∧ Fits exCfg exFS ∧ Sound exCfg (.user 1) exFS ∧ ¬ Sound exCfg (.user 2) exFS ∧
    (exCfg.start exFS none).fs .data [.workspace, .user 1, .env] = some (.file ['v']) ∧
    (exCfg.start exFS none).fs .config [.workspace, .user 1, .marker] = some (.file []) ∧ (exCfg.start exFS none).fs .config [.workspace, .user 1, .ownedBy 9] = none ∧
    (exCfg.start exFS none).fs .data [.workspace, .user 2] = none ∧ (exCfg.start exFS none).fs .data [.broken, .user 100, .user 2, .user 2, .history] = some (.file ['k']) ∧
    (exCfg.start exFS none).fs .config [.broken, .user 100, .user 2, .user 2, .startup] = some (.file ['t']) ∧
    (exCfg.start exFS none).fs .data [.broken, .user 100, .user 3, .user 3, .history] = some (.file ['l']) :=
  ⟨exFS_healthy, exFS_fits, exFS_sound, exFS_damaged, by decide +kernel, by decide +kernel, by decide +kernel, by decide +kernel, by decide +kernel, by decide +kernel, by decide +kernel⟩

/-! ## Where it is wrong -/

def didRaise {α : Type} : Res α → Bool
  | .raised _ => true
  | _ => false

/-- **C64 is false of the default workspace.** An editor's backup file beside the startup script of the default workspace, and all workspaces, sound or not, are moved aside. -/
theorem C64_false_default : ∃ fs : FS, Sound exCfg (.user 1) fs ∧ fs .config [.workspace, .default_, .user 50] = some (.file []) ∧
    (exCfg.start fs none).fs .config [.workspace, .user 1] = none ∧ (exCfg.start fs none).fs .config [.broken, .user 100, .workspace, .user 1, .startup] = some (.file ['s']) :=
  ⟨FS.of (exBase ++ exSound ++ [(.config, [.workspace, .default_, .user 50], .file [])]), sound_of_exSound (exSound_within (by simp)), by decide +kernel, by decide +kernel, by decide +kernel⟩

/-- With two errors in the default workspace the start fails. -/
theorem C64_false_default_two : ∃ fs : FS, Sound exCfg (.user 1) fs ∧ (exCfg.start fs none).fs .data [.workspace, .user 1] = none ∧ didRaise (exCfg.start fs none) = true :=
  ⟨FS.of (exBase ++ exSound ++ [(.data, [.workspace, .default_, .user 50], .file []), (.data, [.workspace, .default_, .user 4], .file [])]), sound_of_exSound (exSound_within (by simp)),
    by decide +kernel, by decide +kernel⟩

/-- **C64 is false of files beside the workspaces.** A file of the same name in both trees makes each start fail. -/
theorem C64_false_file : ∃ fs : FS, Sound exCfg (.user 1) fs ∧ SoundDefault fs ∧ fs .config [.workspace, .user 50] = some (.file []) ∧ didRaise (exCfg.start fs none) = true := by
  refine ⟨FS.of (exBase ++ (exSound ++ [(.config, [.workspace, .user 50], .file []), (.data, [.workspace, .user 50], .file [])])), ?_, exFS_base_default ?_, by decide +kernel, by decide +kernel⟩
  · rw [← List.append_assoc]
    exact sound_of_exSound (exSound_within (by simp))
  · simp [exSound]

/-- **C64 is false of markers without a number.** A file `.WORKSPACE.swp` in one workspace makes each start fail. -/
theorem C64_false_marker : ∃ fs : FS, Sound exCfg (.user 1) fs ∧ SoundDefault fs ∧ fs .config [.workspace, .user 2, .oddMarker 0] = some (.file []) ∧ didRaise (exCfg.start fs none) = true := by
  refine ⟨FS.of (exBase ++ (exSound ++ (exDamaged ++ [(.config, [.workspace, .user 2, .oddMarker 0], .file [])]))), ?_, exFS_base_default ?_, by decide +kernel, by decide +kernel⟩
  · rw [← List.append_assoc]
    exact sound_of_exSound (exSound_within (by simp [exDamaged]))
  · simp [exSound, exDamaged]

/-- **C64 is false of pickles without a number.** A file such as `env.pickle` or `x.pickle` among the reservoirs of the default workspace, without the pid of a process in front, has all the
workspaces put aside, the sound ones with it. -/
theorem C64_false_stray : ∀ m ∈ [Name.env, .properties, .dotEnv 0, .oddEnv none 0, .pickle 0], ∃ fs : FS, Sound exCfg (.user 1) fs ∧
    fs .data [.workspace, .default_, .reservoirs, m] = some (.file []) ∧ (Cfg.start { exCfg with names := m :: exCfg.names } fs none).fs .config [.workspace, .user 1] = none := by
  intro m hm
  refine ⟨FS.of (exBase ++ exSound ++ [(.data, [.workspace, .default_, .reservoirs, m], .file [])]), sound_of_exSound (exSound_within (by simp)), ?_, ?_⟩
  · revert m; decide +kernel
  · revert m; decide +kernel

end Marcel.WsDisk
