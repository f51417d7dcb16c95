import Verif.Lemmas.WsNewDelete
import Verif.Props.C64_Start

/-! # C65: `ws --new` and `ws --delete` do all or nothing, and concern one workspace only -/

namespace Marcel.WsDisk

theorem Intact.sound {n : Name} {fs : FS} (h : Intact n fs) (c : Cfg) : Sound c n fs := by
  obtain ⟨ts, hst⟩ := h.startup
  obtain ⟨te, hen⟩ := h.env
  obtain ⟨tp, hpr⟩ := h.properties
  obtain ⟨th, hhi⟩ := h.history
  refine ⟨h.configDir, by rw [hst]; simp, ?_, ?_, h.dataDir, by rw [hen]; simp, by rw [hpr]; simp, by rw [hhi]; simp, h.reservoirs, ?_⟩
  · intro m hm
    rcases h.configOnly m hm with h | h
    · exact .inl h
    · exact .inr (.inl h)
  · intro m m' hl hl' hm hm'
    have h1 : m ≠ .startup := by rcases hl with rfl | ⟨p, rfl, _⟩ <;> simp
    have h2 : m' ≠ .startup := by rcases hl' with rfl | ⟨p, rfl, _⟩ <;> simp
    rw [(h.configOnly m hm).resolve_left h1, (h.configOnly m' hm').resolve_left h2]
  · intro m hm
    rcases h.dataOnly m hm with h | h | h | h
    · exact .inr (.inr (.inr (.inl h)))
    · exact .inl h
    · exact .inr (.inl h)
    · exact .inr (.inr (.inl h))

theorem newWorkspace_intact {c : Cfg} {n : Name} {t : Text} {fs : FS} (h : ∀ r q, fs r (.workspace :: n :: q) = newWorkspace c t r q) : Intact n fs := by
  constructor
  · rw [h]; rfl
  · exact ⟨t, by rw [h]; rfl⟩
  · exact ⟨[], by rw [h]; rfl⟩
  · intro m hm; rw [h] at hm; cases m <;> simp [newWorkspace] at hm <;> simp
  · rw [h]; rfl
  · exact ⟨c.emptyEnv, by rw [h]; rfl⟩
  · exact ⟨c.newProps, by rw [h]; rfl⟩
  · exact ⟨[], by rw [h]; rfl⟩
  · rw [h]; rfl
  · intro m hm; rw [h] at hm; cases m <;> simp [newWorkspace] at hm <;> simp
  · intro m; rw [h]; simp [newWorkspace]

/-- **C65** `ws --new NAME`: a workspace with the startup script of the default workspace, an empty environment, an empty history and no reservoirs; nothing else changes. -/
theorem C65_new {c : Cfg} {fs : FS} {n : Name} {t : Text} (hh : Healthy fs) (hfree : ∀ r, fs r [.workspace, n] = none) (hst : fs .config [.workspace, .default_, .startup] = some (.file t)) :
    ∃ fs', c.wsNew n fs none = .ok () fs' none ∧ (∀ r q, fs' r (.workspace :: n :: q) = newWorkspace c t r q) ∧ (∀ r p, ¬ Within n p → fs' r p = fs r p) ∧ Healthy fs' := by
  obtain ⟨_, fs', h1, h2⟩ := (new_triple (c := c) hh hfree hst).returns
  exact ⟨fs', h1, h2⟩

/-- **C65** `ws --new NAME` is refused, and changes nothing, if there is such a workspace, used or not. -/
theorem C65_new_refused {c : Cfg} {fs : FS} (hf : Fits c fs) {n m : Name} (hh : Healthy fs) (hm : isMarker m = true) (hp : fs .config [.workspace, n, m] ≠ none) (k : Option Nat) :
    c.wsNew n fs k = .raised fs := by
  have hd : fs .config [.workspace, n] = some .dir := hh.tree .config [.workspace, n] m hp
  have hme := (markerExists_iff hf (n := n) (by rw [hd]; simp)).mpr ⟨m, hm, hp⟩
  exact bind_raised (require_raised (by rw [hme]; rfl))

/-- **C65** `ws --delete NAME`: nothing of the workspace is left, and nothing else changes. -/
theorem C65_delete {c : Cfg} {fs : FS} {n : Name} (current : Option Name) (hh : Healthy fs) (hf : Fits c fs) (hi : Intact n fs) (hn : n ≠ .default_) (hcur : current ≠ some n) :
    ∃ fs', c.wsDelete current n fs none = .ok () fs' none ∧ (∀ r q, fs' r (.workspace :: n :: q) = none) ∧ ∀ r p, ¬ Within n p → fs' r p = fs r p := by
  obtain ⟨_, fs', h1, h2⟩ := (delete_triple current hh hf hi hn hcur).returns
  exact ⟨fs', h1, h2⟩

/-- **C65** `ws --delete NAME` is refused, and changes nothing, if it is the current workspace. -/
theorem C65_delete_current (c : Cfg) (fs : FS) (n : Name) (k : Option Nat) : c.wsDelete (some n) n fs k = .raised fs := by
  exact bind_raised (require_raised (by simp))

/-- **C65** ... or if there is no workspace of this name. -/
theorem C65_delete_missing {c : Cfg} {fs : FS} {n : Name} (current : Option Name) (hno : ∀ m, isMarker m = true → fs .config [.workspace, n, m] = none) (k : Option Nat) :
    c.wsDelete current n fs k = .raised fs := by
  have hme : c.markerExists n fs = false := by
    unfold Cfg.markerExists
    rw [Bool.and_eq_false_iff]
    right
    rw [List.any_eq_false]
    intro m hm hmm
    exact (mem_children.mp hm).2 (hno m hmm)
  rcases Bool.eq_false_or_eq_true (!(decide (some n = current))) with h | h
  · exact (bind_ok (require_ok h)).trans (bind_raised (require_raised hme))
  · exact bind_raised (require_raised h)

theorem singleton_of_mem {α : Type} {l : List α} {a : α} (hn : l.Nodup) (h : ∀ x, x ∈ l ↔ x = a) : l = [a] := by
  cases l with
  | nil => exact absurd ((h a).mpr rfl) (by simp)
  | cons x l =>
    have hx : x = a := (h x).mp (by simp)
    subst hx
    cases l with
    | nil => rfl
    | cons y l =>
      have hy : y = x := (h y).mp (by simp)
      subst hy
      simp at hn

/-- The owner of a workspace whose only marker is that of a live process. -/
theorem owner_used {c : Cfg} {fs : FS} (hf : Fits c fs) {n : Name} {p : Nat} (hd : fs .config [.workspace, n] = some .dir) (hal : c.alive p = true)
    (hm : fs .config [.workspace, n, .ownedBy p] ≠ none) (honly : ∀ m, isMarker m = true → fs .config [.workspace, n, m] ≠ none → m = .ownedBy p) (k : Option Nat) :
    c.owner n fs k = .ok (some p) fs k := by
  have hnm : has .config [.workspace, n, .marker] fs = false := has_false.mpr (Classical.byContradiction fun h => by cases honly _ rfl h)
  have hsweep : ∀ l : List Name, (∀ x ∈ l, fs .config [.workspace, n, x] ≠ none) → forEach (c.sweepOne n) l fs k = .ok () fs k := by
    intro l
    induction l with
    | nil => intro _; rfl
    | cons x l ih =>
      intro hl
      have hx : c.sweepOne n x fs k = .ok () fs k := by
        have hpx := hl x (by simp)
        cases x with
        | ownedBy q =>
          have := honly (.ownedBy q) rfl hpx
          cases this
          simp only [Cfg.sweepOne, hal, if_true]
          rfl
        | oddMarker q => cases honly (.oddMarker q) rfl hpx
        | _ => rfl
      show Prog.bind (c.sweepOne n x) (fun _ => forEach (c.sweepOne n) l) fs k = _
      unfold Prog.bind
      rw [hx]
      exact ih fun y hy => hl y (by simp [hy])
  have hiter : c.iterdir .config [.workspace, n] fs k = .ok (c.children .config [.workspace, n] fs) fs k := by
    show Prog.bind (require (isDir .config [.workspace, n])) _ fs k = _
    unfold Prog.bind require
    rw [isDir_iff.mpr hd]
    rfl
  have hmarks : (c.children .config [.workspace, n] fs).filter isMarker = [.ownedBy p] := by
    refine singleton_of_mem ((hf.children_nodup _ _).filter _) fun x => ?_
    rw [List.mem_filter]
    constructor
    · rintro ⟨h1, h2⟩
      exact honly x h2 (hf.mem_children.mp h1)
    · rintro rfl
      exact ⟨hf.mem_children.mpr hm, rfl⟩
  unfold Cfg.owner
  show Prog.bind (get (has .config [.workspace, n, .marker])) _ fs k = _
  unfold Prog.bind get
  simp only [hnm, Bool.false_eq_true, if_false]
  show Prog.bind (get fun fs => !has .config [.workspace, n] fs) _ fs k = _
  unfold Prog.bind get
  simp only [has_iff.mpr (show fs .config [.workspace, n] ≠ none by rw [hd]; simp), Bool.not_true, Bool.false_eq_true, if_false]
  show Prog.bind (Prog.bind (c.iterdir .config [.workspace, n]) fun l => forEach (c.sweepOne n) l) _ fs k = _
  unfold Prog.bind
  rw [hiter]
  simp only []
  rw [hsweep _ fun x hx => hf.mem_children.mp hx]
  simp only []
  show Prog.bind (c.iterdir .config [.workspace, n]) _ fs k = _
  unfold Prog.bind
  rw [hiter]
  simp only [hmarks]
  rfl

/-- **C65** ... or if another process uses it. -/
theorem C65_delete_in_use {c : Cfg} {fs : FS} (hf : Fits c fs) {n : Name} {p : Nat} (current : Option Name) (hd : fs .config [.workspace, n] = some .dir) (hal : c.alive p = true) (h1 : p ≠ c.pid)
    (h2 : p ≠ c.ppid) (hm : fs .config [.workspace, n, .ownedBy p] ≠ none) (honly : ∀ m, isMarker m = true → fs .config [.workspace, n, m] ≠ none → m = .ownedBy p) (k : Option Nat) :
    c.wsDelete current n fs k = .raised fs := by
  have hme := (markerExists_iff hf (n := n) (by rw [hd]; simp)).mpr ⟨_, rfl, hm⟩
  have hlock : c.lock n fs k = .ok false fs k := by
    show Prog.bind (c.owner n) _ fs k = _
    unfold Prog.bind
    rw [owner_used hf hd hal hm honly k]
    simp only [h1, h2, hal, if_false, if_true]
    rfl
  rcases Bool.eq_false_or_eq_true (!(decide (some n = current))) with h | h
  · exact (bind_ok (require_ok h)).trans ((bind_ok (require_ok hme)).trans ((bind_ok hlock).trans (bind_raised (require_raised rfl))))
  · exact bind_raised (require_raised h)

/-- A workspace with the markers of several live processes has no owner: the attempt to find it out fails and changes nothing. -/
theorem owner_several {c : Cfg} {fs : FS} (hf : Fits c fs) {n : Name} {p q : Nat} (hd : fs .config [.workspace, n] = some .dir) (hpq : p ≠ q)
    (hp : fs .config [.workspace, n, .ownedBy p] ≠ none) (hq : fs .config [.workspace, n, .ownedBy q] ≠ none)
    (hall : ∀ m, isMarker m = true → fs .config [.workspace, n, m] ≠ none → ∃ o, m = .ownedBy o ∧ c.alive o = true) (k : Option Nat) :
    c.owner n fs k = .raised fs := by
  have hnm : has .config [.workspace, n, .marker] fs = false := has_false.mpr (Classical.byContradiction fun h => by obtain ⟨o, h, _⟩ := hall _ rfl h; cases h)
  have hsweep : ∀ l : List Name, (∀ x ∈ l, fs .config [.workspace, n, x] ≠ none) → forEach (c.sweepOne n) l fs k = .ok () fs k := by
    intro l
    induction l with
    | nil => intro _; rfl
    | cons x l ih =>
      intro hl
      have hx : c.sweepOne n x fs k = .ok () fs k := by
        have hpx := hl x (by simp)
        cases x with
        | ownedBy q =>
          obtain ⟨o, h, hal⟩ := hall (.ownedBy q) rfl hpx
          cases h
          simp only [Cfg.sweepOne, hal, if_true]
          rfl
        | oddMarker q => obtain ⟨o, h, _⟩ := hall (.oddMarker q) rfl hpx; cases h
        | _ => rfl
      show Prog.bind (c.sweepOne n x) (fun _ => forEach (c.sweepOne n) l) fs k = _
      unfold Prog.bind
      rw [hx]
      exact ih fun y hy => hl y (by simp [hy])
  have hiter : c.iterdir .config [.workspace, n] fs k = .ok (c.children .config [.workspace, n] fs) fs k := by
    show Prog.bind (require (isDir .config [.workspace, n])) _ fs k = _
    unfold Prog.bind require
    rw [isDir_iff.mpr hd]
    rfl
  have hmem : ∀ o, fs .config [.workspace, n, .ownedBy o] ≠ none → Name.ownedBy o ∈ (c.children .config [.workspace, n] fs).filter isMarker := fun o ho =>
    List.mem_filter.mpr ⟨hf.mem_children.mpr ho, rfl⟩
  unfold Cfg.owner
  show Prog.bind (get (has .config [.workspace, n, .marker])) _ fs k = _
  unfold Prog.bind get
  simp only [hnm, Bool.false_eq_true, if_false]
  show Prog.bind (get fun fs => !has .config [.workspace, n] fs) _ fs k = _
  unfold Prog.bind get
  simp only [has_iff.mpr (show fs .config [.workspace, n] ≠ none by rw [hd]; simp), Bool.not_true, Bool.false_eq_true, if_false]
  show Prog.bind (Prog.bind (c.iterdir .config [.workspace, n]) fun l => forEach (c.sweepOne n) l) _ fs k = _
  unfold Prog.bind
  rw [hiter]
  simp only []
  rw [hsweep _ fun x hx => hf.mem_children.mp hx]
  simp only []
  show Prog.bind (c.iterdir .config [.workspace, n]) _ fs k = _
  unfold Prog.bind
  rw [hiter]
  simp only []
  have h1 := hmem p hp
  have h2 := hmem q hq
  generalize (c.children .config [.workspace, n] fs).filter isMarker = l at h1 h2
  cases l with
  | nil => simp at h1
  | cons x l =>
    cases l with
    | nil =>
      rw [List.mem_singleton] at h1 h2
      rw [← h1] at h2
      injection h2 with h2
      exact absurd h2.symm hpq
    | cons y l => cases x <;> rfl

/-- **C65** ... or if it has the markers of several live processes. -/
theorem C65_delete_several {c : Cfg} {fs : FS} (hf : Fits c fs) {n : Name} {p q : Nat} (current : Option Name) (hd : fs .config [.workspace, n] = some .dir) (hpq : p ≠ q)
    (hp : fs .config [.workspace, n, .ownedBy p] ≠ none) (hq : fs .config [.workspace, n, .ownedBy q] ≠ none)
    (hall : ∀ m, isMarker m = true → fs .config [.workspace, n, m] ≠ none → ∃ o, m = .ownedBy o ∧ c.alive o = true) (k : Option Nat) :
    c.wsDelete current n fs k = .raised fs := by
  have hme := (markerExists_iff hf (n := n) (by rw [hd]; simp)).mpr ⟨_, rfl, hp⟩
  have hlock : c.lock n fs k = .raised fs := bind_raised (owner_several hf hd hpq hp hq hall k)
  rcases Bool.eq_false_or_eq_true (!(decide (some n = current))) with h | h
  · exact (bind_ok (require_ok h)).trans ((bind_ok (require_ok hme)).trans (bind_raised hlock))
  · exact bind_raised (require_raised h)

/-! ## Interrupted, and then the next start -/

/-- What a start leaves of a workspace that has been left alone. -/
theorem start_other {c : Cfg} {fs fs1 fs2 : FS} {n m : Name} (hout : ∀ r p, ¬ Within n p → fs1 r p = fs r p) (hm : m ≠ n) (hs : m = .default_ ∨ Sound c m fs) (h : Started c fs1 fs2)
    (r : Root) (q : Path) (ht : ¬ Transient r (.workspace :: m :: q)) : fs2 r (.workspace :: m :: q) = fs r (.workspace :: m :: q) := by
  have hsame : ∀ r q, fs1 r (.workspace :: m :: q) = fs r (.workspace :: m :: q) := fun r q => hout r _ (by rintro ⟨q', h⟩; simp at h; exact hm h.1)
  rw [h.kept m (hs.imp id fun hs => hs.of_same hsame) r q ht, hsame]

/-- **C65** If `ws --new NAME` is interrupted at any point, the next start finds the whole workspace as it was to be, or leaves no workspace of that name. The other sound workspaces
are as before. -/
theorem C65_new_interrupted {c c' : Cfg} {fs : FS} {n : Name} {t : Text} (hh : Healthy fs) (hfree : ∀ r, fs r [.workspace, n] = none)
    (hst : fs .config [.workspace, .default_, .startup] = some (.file t)) (k : Option Nat) (hf : Fits c' (c.wsNew n fs k).fs) :
    ∃ fs', c'.start (c.wsNew n fs k).fs none = .ok () fs' none ∧
      ((∀ r q, fs' r (.workspace :: n :: q) = none) ∨
        (∀ r q, ¬ Transient r (.workspace :: n :: q) → fs' r (.workspace :: n :: q) = newWorkspace c t r q) ∧ Sound c' n fs') ∧
      ∀ m, m ≠ n → m = .default_ ∨ Sound c' m fs → ∀ r q, ¬ Transient r (.workspace :: m :: q) → fs' r (.workspace :: m :: q) = fs r (.workspace :: m :: q) := by
  have hn : n ≠ .default_ := by
    rintro rfl
    have := hh.default_.configDir
    rw [hfree] at this
    cases this
  rcases (new_triple (c := c) hh hfree hst).anyway k with hc | ⟨_, h1, h2, h3⟩
  · obtain ⟨fs', h4, h5, _⟩ := C64_start hc.healthy hf
    refine ⟨fs', h4, .inl ?_, fun m hm hs r q ht => start_other hc.outside hm hs h5 r q ht⟩
    exact h5.gone n hn fun hs => hs.history hc.incomplete
  · obtain ⟨fs', h4, h5, _⟩ := C64_start h3 hf
    have hs := (newWorkspace_intact h1).sound c'
    refine ⟨fs', h4, .inr ⟨?_, ?_⟩, fun m hm hs r q ht => start_other h2 hm hs h5 r q ht⟩
    · intro r q ht
      rw [h5.kept n (.inr hs) r q ht, h1]
    · refine h5.allSound .config n hn ?_
      rw [h5.kept n (.inr hs) .config [] not_transient_dir, hs.configDir]
      simp

/-- **C65** If `ws --delete NAME` is interrupted at any point, the next start finds the whole workspace as it was, or leaves no workspace of that name. The other sound workspaces
are as before. -/
theorem C65_delete_interrupted {c c' : Cfg} {fs : FS} {n : Name} (current : Option Name) (hh : Healthy fs) (hf : Fits c fs) (hi : Intact n fs) (hn : n ≠ .default_) (hcur : current ≠ some n)
    (k : Option Nat) (hf' : Fits c' (c.wsDelete current n fs k).fs) :
    ∃ fs', c'.start (c.wsDelete current n fs k).fs none = .ok () fs' none ∧
      ((∀ r q, fs' r (.workspace :: n :: q) = none) ∨ ∀ r q, ¬ Transient r (.workspace :: n :: q) → fs' r (.workspace :: n :: q) = fs r (.workspace :: n :: q)) ∧
      ∀ m, m ≠ n → m = .default_ ∨ Sound c' m fs → ∀ r q, ¬ Transient r (.workspace :: m :: q) → fs' r (.workspace :: m :: q) = fs r (.workspace :: m :: q) := by
  have hcase : Deleting n fs (c.wsDelete current n fs k).fs := by
    rcases (delete_triple current hh hf hi hn hcur).anyway k with hc | ⟨_, h1, h2⟩
    · exact hc
    · refine ⟨?_, h2, .inl (h1 _ _)⟩
      -- a file system without one of the workspaces
      have hne : ∀ r p, (c.wsDelete current n fs k).fs r p ≠ none → (c.wsDelete current n fs k).fs r p = fs r p := by
        intro r p hp
        refine h2 r p ?_
        rintro ⟨q, rfl⟩
        exact hp (h1 r q)
      have hw : ∀ r p, ¬ Within n p → (c.wsDelete current n fs k).fs r p = fs r p := h2
      constructor
      · intro r p m hp
        have h3 := hh.tree r p m (by rw [← hne r _ hp]; exact hp)
        rw [hw r p, h3]
        rintro ⟨q, rfl⟩
        exact hp (h1 r (q ++ [m]))
      · obtain ⟨t, ht⟩ := hh.version
        exact ⟨t, by rw [hw _ _ (by rintro ⟨q, h⟩; simp at h), ht]⟩
      · intro r; rw [hw _ _ (by rintro ⟨q, h⟩; simp at h)]; exact hh.workspaces r
      · intro r; rw [hw _ _ (by rintro ⟨q, h⟩; simp at h)]; exact hh.brokens r
      · intro n' h3 h4
        have h5 := hne _ _ h3
        have h6 := hne _ _ h4
        rw [h5] at h3 ⊢
        rw [h6] at h4 ⊢
        have h7 := hh.both n' h3 h4
        refine ⟨h7.1, h7.2.1, fun j => Classical.byContradiction fun h8 => ?_⟩
        rw [hne _ _ h8] at h8
        exact h8 (h7.2.2 j)
      · intro n' p h3
        rw [hne _ _ (by rw [h3]; simp)] at h3
        exact hh.markerFiles n' p h3
      · exact hh.default_.congr fun r q => hw r _ (by rintro ⟨q', h⟩; simp at h; exact hn h.1.symm)
  obtain ⟨fs', h4, h5, _⟩ := C64_start hcase.healthy hf'
  refine ⟨fs', h4, ?_, fun m hm hs r q ht => start_other hcase.outside hm hs h5 r q ht⟩
  rcases hcase.kept with h6 | h6
  · exact .inl (h5.gone n hn fun hs => hs.startup h6)
  · by_cases hs : Sound c' n (c.wsDelete current n fs k).fs
    · right
      intro r q ht
      rw [h5.kept n (.inr hs) r q ht, h6 r q ht]
    · exact .inl (h5.gone n hn hs)

/-! ## Examples -/

/-- A file system with an intact workspace. -/
def exIntact : List (Root × Path × Node) :=
  [(.config, [.workspace, .user 1], .dir), (.config, [.workspace, .user 1, .startup], .file ['s']), (.config, [.workspace, .user 1, .marker], .file []), (.data, [.workspace, .user 1], .dir),
   (.data, [.workspace, .user 1, .env], .file ['v']), (.data, [.workspace, .user 1, .properties], .file ['p']), (.data, [.workspace, .user 1, .history], .file ['h']),
   (.data, [.workspace, .user 1, .reservoirs], .dir), (.data, [.workspace, .user 1, .reservoirs, .pickle 1], .file ['x'])]

def exFS2 : FS := FS.of (exBase ++ exIntact)

theorem exFS2_healthy : Healthy exFS2 where
  tree := of_tree (by decide +kernel)
  version := ⟨['1'], rfl⟩
  workspaces := fun r => by cases r <;> rfl
  brokens := fun r => by cases r <;> rfl
  both := by
    intro n h1 h2
    obtain ⟨x, hx⟩ := of_mem h1
    simp [exBase, exIntact] at hx
    rcases hx with ⟨rfl, _⟩ | ⟨rfl, _⟩
    · exact ⟨rfl, rfl, fun k => Classical.byContradiction fun h => by obtain ⟨z, hz⟩ := of_mem h; simp [exBase, exIntact] at hz⟩
    · exact ⟨rfl, rfl, fun k => Classical.byContradiction fun h => by obtain ⟨z, hz⟩ := of_mem h; simp [exBase, exIntact] at hz⟩
  markerFiles := by
    intro n p h
    obtain ⟨x, hx⟩ := of_mem (by rw [show FS.of (exBase ++ exIntact) = exFS2 from rfl, h]; simp)
    simp [exBase, exIntact] at hx
  default_ := exFS_base_default (by simp [exIntact])

theorem exFS2_fits : Fits exCfg exFS2 where
  covers := of_covers (by decide +kernel)
  marker := by decide
  nodup := by decide +kernel
  fresh := fun r => by cases r <;> rfl

theorem exFS2_intact : Intact (.user 1) exFS2 := by
  have hm : ∀ {r q}, exFS2 r (.workspace :: .user 1 :: q) ≠ none → ∃ x, (r, .workspace :: .user 1 :: q, x) ∈ exBase ++ exIntact := fun h => of_mem h
  constructor
  · rfl
  · exact ⟨['s'], rfl⟩
  · exact ⟨[], rfl⟩
  · intro m h
    obtain ⟨x, hx⟩ := hm h
    simp [exBase, exIntact] at hx
    rcases hx with h | h
    · exact .inl h.1
    · exact .inr h.1
  · rfl
  · exact ⟨['v'], rfl⟩
  · exact ⟨['p'], rfl⟩
  · exact ⟨['h'], rfl⟩
  · rfl
  · intro m h
    obtain ⟨x, hx⟩ := hm h
    simp [exBase, exIntact] at hx
    rcases hx with h | h | h | h <;> simp [h]
  · intro m h
    obtain ⟨x, hx⟩ := hm (by rw [h]; simp)
    simp [exBase, exIntact] at hx
    rw [hx.1] at h
    cases h

/-- The hypotheses of C65 are met. -/
theorem C65_example : Healthy exFS2 ∧ Fits exCfg exFS2 ∧ Intact (.user 1) exFS2 ∧ (∀ r, exFS2 r [.workspace, .user 2] = none) ∧ exFS2 .config [.workspace, .default_, .startup] = some (.file ['d']) ∧
    (exCfg.wsNew (.user 2) exFS2 none).fs .config [.workspace, .user 2, .startup] = some (.file ['d']) ∧ (exCfg.wsDelete none (.user 1) exFS2 none).fs .data [.workspace, .user 1] = none ∧
    -- killed before the last step of the creation, and after the second of the deletion
    (exCfg.wsNew (.user 2) exFS2 (some 10)).fs .data [.workspace, .user 2, .properties] = some (.file ['P']) ∧
    (exCfg.wsDelete none (.user 1) exFS2 (some 2)).fs .config [.workspace, .user 1, .startup] = some (.file ['s']) ∧
    (exCfg.wsDelete none (.user 1) exFS2 (some 3)).fs .config [.workspace, .user 1, .startup] = none :=
  ⟨exFS2_healthy, exFS2_fits, exFS2_intact, fun r => by cases r <;> decide +kernel, by decide +kernel, by decide +kernel, by decide +kernel, by decide +kernel, by decide +kernel, by decide +kernel⟩

/-! ## Where it is wrong -/

/-- **C65 is false of the default workspace**: `ws --delete __DEFAULT__` is not refused. Its startup script is deleted, and so are the reservoirs of all processes. -/
theorem C65_false_default : Healthy exFS2 ∧ (exCfg.wsDelete none .default_ exFS2 none).fs .config [.workspace, .default_] = none ∧
    (exCfg.wsDelete none .default_ exFS2 none).fs .data [.workspace, .default_, .reservoirs, .pickleOf 8 0] = none ∧
    didRaise (exCfg.wsNew (.user 2) (exCfg.wsDelete none .default_ exFS2 none).fs none) = true :=
  ⟨exFS2_healthy, by decide +kernel, by decide +kernel, by decide +kernel⟩

/-- **C65 is false of what is left of a workspace.** With an editor's backup file beside the startup script, `ws --delete` fails half-way: the workspace no longer exists as far as marcel
is concerned, but the data are still there, and a new workspace of the same name has the history and the reservoirs of the old one. -/
theorem C65_false_leftover : ∃ fs : FS, didRaise (exCfg.wsDelete none (.user 1) fs none) = true ∧ exCfg.markerExists (.user 1) (exCfg.wsDelete none (.user 1) fs none).fs = false ∧
    didRaise (exCfg.wsNew (.user 1) (exCfg.wsDelete none (.user 1) fs none).fs none) = false ∧
    (exCfg.wsNew (.user 1) (exCfg.wsDelete none (.user 1) fs none).fs none).fs .data [.workspace, .user 1, .history] = some (.file ['h']) ∧
    (exCfg.wsNew (.user 1) (exCfg.wsDelete none (.user 1) fs none).fs none).fs .data [.workspace, .user 1, .reservoirs, .pickle 1] = some (.file ['x']) :=
  ⟨FS.of (exBase ++ exIntact ++ [(.config, [.workspace, .user 1, .user 50], .file [])]), by decide +kernel, by decide +kernel, by decide +kernel, by decide +kernel, by decide +kernel⟩

end Marcel.WsDisk
