import Verif.Lemmas.WsDisk
import Verif.Spec.WsDisk

/-! # What the validation at a start does -/

namespace Marcel.WsDisk

/-- `fs'` differs from `fs` only in transient files: some are missing, and markers may have been created. -/
def Mod (fs fs' : FS) : Prop := ∀ r p, fs' r p = fs r p ∨
  (Transient r p ∧ fs r p ≠ some .dir ∧ (fs' r p = none ∨ (fs' r p = some (.file []) ∧ ∃ n, r = .config ∧ p = [.workspace, n, .marker] ∧ fs .config [.workspace, n] = some .dir)))

theorem Mod.refl (fs : FS) : Mod fs fs := fun _ _ => .inl rfl

theorem Mod.dir {fs fs' : FS} (h : Mod fs fs') {r : Root} {p : Path} (hd : fs r p = some .dir) : fs' r p = some .dir := by
  rcases h r p with h | ⟨_, h, _⟩
  · rw [h, hd]
  · exact absurd hd h

theorem Mod.dir' {fs fs' : FS} (h : Mod fs fs') {r : Root} {p : Path} (hd : fs' r p = some .dir) : fs r p = some .dir := by
  rcases h r p with h | ⟨_, _, h | ⟨h, _⟩⟩
  · rw [← h, hd]
  · rw [h] at hd; cases hd
  · rw [h] at hd; cases hd

theorem Mod.trans {a b d : FS} (h1 : Mod a b) (h2 : Mod b d) : Mod a d := by
  intro r p
  rcases h2 r p with h | ⟨ht, hd, h⟩
  · rw [h]; exact h1 r p
  · refine .inr ⟨ht, fun hh => hd (h1.dir hh), ?_⟩
    rcases h with h | ⟨h, n, h3, h4, h5⟩
    · exact .inl h
    · exact .inr ⟨h, n, h3, h4, h1.dir' h5⟩

theorem Mod.same {fs fs' : FS} (h : Mod fs fs') {r : Root} {p : Path} (hp : ¬ Transient r p) : fs' r p = fs r p := by
  rcases h r p with h | ⟨h, _⟩
  · exact h
  · exact absurd h hp

/-- Anything in the new file system is in the old one, or a marker. -/
theorem Mod.present {fs fs' : FS} (h : Mod fs fs') {r : Root} {p : Path} (hp : fs' r p ≠ none) :
    fs r p ≠ none ∨ (∃ n, r = .config ∧ p = [.workspace, n, .marker] ∧ fs .config [.workspace, n] = some .dir) := by
  rcases h r p with h | ⟨_, _, h | ⟨_, h⟩⟩
  · left; rw [← h]; exact hp
  · exact absurd h hp
  · exact .inr h

theorem not_transient_dir {r : Root} {n : Name} : ¬ Transient r [.workspace, n] := by
  rintro (⟨_, n', m, _, h⟩ | ⟨_, m, _, h | h⟩) <;> simp at h

theorem not_transient_config {n m : Name} (h : m ≠ .marker) (h' : ∀ p, m ≠ .ownedBy p) : ¬ Transient .config [.workspace, n, m] := by
  rintro (⟨_, n', m', hm, h2⟩ | ⟨h2, _⟩)
  · simp at h2
    rcases hm with hm | ⟨p, hm⟩
    · exact h (h2.2.trans hm)
    · exact h' p (h2.2.trans hm)
  · cases h2

theorem not_transient_data {n : Name} {q : Path} (h : n ≠ .default_) : ¬ Transient .data (.workspace :: n :: q) := by
  rintro (⟨h2, _⟩ | ⟨_, m, _, h2 | h2⟩)
  · cases h2
  · simp at h2; exact h h2.1
  · simp at h2; exact h h2.1

theorem Mod.healthy {fs fs' : FS} (h : Mod fs fs') (hh : Healthy fs) : Healthy fs' where
  tree := by
    intro r p n hp
    rcases h.present hp with h1 | ⟨n', h1, h2, h3⟩
    · exact h.dir (hh.tree r p n h1)
    · subst h1
      have h4 : p ++ [n] = [.workspace, n'] ++ [.marker] := h2
      rw [(append_singleton_inj h4).1]
      exact h.dir h3
  version := by
    obtain ⟨t, ht⟩ := hh.version
    refine ⟨t, ?_⟩
    rw [h.same ?_, ht]
    rintro (⟨_, n', m, _, h⟩ | ⟨_, m, _, h | h⟩) <;> simp at h
  workspaces := fun r => h.dir (hh.workspaces r)
  brokens := fun r => h.dir (hh.brokens r)
  both := by
    intro n h1 h2
    rw [h.same not_transient_dir] at h1 h2 ⊢
    have h3 := hh.both n h1 h2
    refine ⟨h3.1, ?_, fun k => ?_⟩
    · rw [h.same not_transient_dir]; exact h3.2.1
    · rw [h.same (not_transient_config (by simp) (by simp))]; exact h3.2.2 k
  markerFiles := fun n p hd => hh.markerFiles n p (h.dir' hd)
  default_ := by
    have hd := hh.default_
    constructor
    · exact h.dir hd.configDir
    · rw [h.same (not_transient_config (by simp) (by simp))]; exact hd.startup
    · intro m hm
      rcases h.present hm with h1 | ⟨n', h1, h2, h3⟩
      · exact hd.configOnly m h1
      · simp at h2; exact .inr h2.2
    · exact h.dir hd.dataDir
    · rw [h.same ?_]; exact hd.history
      rintro (⟨h2, _⟩ | ⟨_, m, hm, h2 | h2⟩)
      · cases h2
      · simp at h2; subst h2; rcases hm with ⟨_, h⟩ | ⟨_, _, h⟩ | ⟨_, _, h⟩ <;> cases h
      · simp at h2
    · exact h.dir hd.reservoirs
    · intro m hm
      rcases h.present hm with h1 | ⟨n', h1, h2, h3⟩
      · exact hd.dataOnly m h1
      · cases h1
    · intro m hm
      rcases h.present hm with h1 | ⟨n', h1, h2, h3⟩
      · exact hd.pickles m h1
      · cases h1
    · exact fun p hd' => hd.envFiles p (h.dir' hd')
    · exact fun m hd' => hd.reservoirFiles m (h.dir' hd')

theorem Mod.fits {fs fs' : FS} (h : Mod fs fs') {c : Cfg} (hf : Fits c fs) : Fits c fs' where
  covers := by
    intro r p n hp
    rcases h.present hp with h1 | ⟨n', h1, h2, h3⟩
    · exact hf.covers r p n h1
    · have h4 : p ++ [n] = [.workspace, n'] ++ [.marker] := h2
      rw [(append_singleton_inj h4).2]
      exact hf.marker
  marker := hf.marker
  nodup := hf.nodup
  fresh := by
    intro r
    rw [h.same ?_]
    · exact hf.fresh r
    · rintro (⟨_, n', m, _, h⟩ | ⟨_, m, _, h | h⟩) <;> simp at h

theorem Fits.mem_children {c : Cfg} {fs : FS} (hf : Fits c fs) {r : Root} {p : Path} {n : Name} : n ∈ c.children r p fs ↔ fs r (p ++ [n]) ≠ none :=
  WsDisk.mem_children.trans ⟨fun h => h.2, fun h => ⟨hf.covers r p n h, h⟩⟩

theorem Fits.children_nodup {c : Cfg} {fs : FS} (hf : Fits c fs) (r : Root) (p : Path) : (c.children r p fs).Nodup := hf.nodup.filter _

/-! ## Markers -/

/-- The markers of a workspace after its validation. -/
structure Marks (c : Cfg) (n : Name) (fs fs' : FS) : Prop where
  dead : ∀ p, c.alive p = false → fs' .config [.workspace, n, .ownedBy p] = none
  live : ∀ p, c.alive p = true → fs' .config [.workspace, n, .ownedBy p] = fs .config [.workspace, n, .ownedBy p]
  kept : fs .config [.workspace, n, .marker] ≠ none → fs' .config [.workspace, n, .marker] = fs .config [.workspace, n, .marker]
  used : fs .config [.workspace, n, .marker] = none → (∃ p, c.alive p = true ∧ fs .config [.workspace, n, .ownedBy p] ≠ none) → fs' .config [.workspace, n, .marker] = none
  made : fs .config [.workspace, n, .marker] = none → (∀ p, c.alive p = true → fs .config [.workspace, n, .ownedBy p] = none) →
    fs' .config [.workspace, n, .marker] = some (.file [])

theorem without_mod {n : Name} {fs fs' : FS} (hh : Healthy fs) {S : Name → Prop} (hS : ∀ m, S m → ∃ p, m = .ownedBy p) (hw : Without .config [.workspace, n] S fs fs') : Mod fs fs' := by
  intro r p
  by_cases h : ∃ m, S m ∧ r = .config ∧ p = [.workspace, n] ++ [m]
  · obtain ⟨m, h1, rfl, rfl⟩ := h
    obtain ⟨pid, rfl⟩ := hS m h1
    exact .inr ⟨.inl ⟨rfl, n, _, .inr ⟨pid, rfl⟩, rfl⟩, hh.markerFiles n pid, .inl (hw.gone _ h1)⟩
  · exact .inl (hw.same r p fun m hm hh => h ⟨m, hm, hh⟩)

theorem iterdir_triple {c : Cfg} {fs : FS} {r : Root} {p : Path} {Q : List Name → FS → Prop} {C : FS → Prop} (hd : fs r p = some .dir) (h : Q (c.children r p fs) fs) :
    Triple fs (c.iterdir r p) Q C := by
  unfold Cfg.iterdir
  refine .bind (Q := fun _ fs' => fs' = fs) (.require (isDir_iff.mpr hd) rfl) ?_
  intro _ fs' h'
  subst h'
  exact .get h

theorem sweep_triple {c : Cfg} {fs : FS} (hh : Healthy fs) (hf : Fits c fs) {n : Name} (hd : fs .config [.workspace, n] = some .dir)
    (hodd : ∀ k, fs .config [.workspace, n, .oddMarker k] = none) :
    Triple fs (c.sweep n) (fun _ fs' => Without .config [.workspace, n] (fun m => ∃ p, m = .ownedBy p ∧ c.alive p = false ∧ fs .config [.workspace, n, m] ≠ none) fs fs')
      (fun fs' => Mod fs fs') := by
  unfold Cfg.sweep
  refine .bind (Q := fun l fs' => fs' = fs ∧ l = c.children .config [.workspace, n] fs) (iterdir_triple hd ⟨rfl, rfl⟩) ?_
  rintro l fs' ⟨rfl, rfl⟩
  refine .mono (.unlinkLoop .config [.workspace, n] (fun m => ∃ p, m = .ownedBy p ∧ c.alive p = false) (c.sweepOne n) _ fs' (hf.children_nodup _ _) ?_ ?_ ?_) ?_ ?_
  · intro m hm hdead fs2 Q C hQ
    cases m with
    | ownedBy p =>
      have hal : c.alive p = true := by
        rcases Bool.eq_false_or_eq_true (c.alive p) with h | h
        · exact h
        · exact absurd ⟨p, rfl, h⟩ hdead
      simp only [Cfg.sweepOne, hal, if_true]
      exact .pure hQ
    | oddMarker k => exact absurd (hodd k) (hf.mem_children.mp hm)
    | _ => exact .pure hQ
  · rintro m hm ⟨p, rfl, hp⟩
    simp only [Cfg.sweepOne, hp, Bool.false_eq_true, if_false]
    rfl
  · rintro m hm ⟨p, rfl, hp⟩
    exact ⟨hf.mem_children.mp hm, hh.markerFiles n p⟩
  · intro _ fs2 hw
    constructor
    · rintro m ⟨p, rfl, hp, hm⟩
      exact hw.gone _ ⟨hf.mem_children.mpr hm, p, rfl, hp⟩
    · intro r' p hp
      refine hw.same r' p ?_
      rintro m ⟨h1, pid, rfl, h2⟩
      exact hp _ ⟨pid, rfl, h2, hf.mem_children.mp h1⟩
  · rintro fs2 ⟨S, hS, hw⟩
    refine without_mod (n := n) hh ?_ hw
    intro m hm
    obtain ⟨_, p, h, _⟩ := hS m hm
    exact ⟨p, h⟩

theorem isMarker_iff {m : Name} : isMarker m = true ↔ m = .marker ∨ (∃ p, m = .ownedBy p) ∨ ∃ k, m = .oddMarker k := by
  cases m <;> simp [isMarker]

theorem markerExists_iff {c : Cfg} {fs : FS} (hf : Fits c fs) {n : Name} (hd : fs .config [.workspace, n] ≠ none) :
    c.markerExists n fs = true ↔ ∃ m, isMarker m = true ∧ fs .config [.workspace, n, m] ≠ none := by
  unfold Cfg.markerExists
  rw [has_iff.mpr hd, Bool.true_and, List.any_eq_true]
  constructor
  · rintro ⟨m, h1, h2⟩
    exact ⟨m, h2, hf.mem_children.mp h1⟩
  · rintro ⟨m, h1, h2⟩
    exact ⟨m, hf.mem_children.mpr h2, h1⟩

theorem touch_triple {fs : FS} {r : Root} {p : Path} {Q : Unit → FS → Prop} {C : FS → Prop} (hd : fs r p.dropLast = some .dir) (hc : C fs)
    (h1 : fs r p ≠ none → Q () fs) (h2 : fs r p = none → Q () (fs.set r p (some (.file [])))) : Triple fs (touch r p) Q C := by
  unfold touch
  refine .ifThen ?_ ?_
  · intro h
    refine .bind (Q := fun _ fs' => fs' = fs) (.require (isDir_iff.mpr hd) rfl) ?_
    intro _ fs' h'
    subst h'
    refine .change hc (h2 ?_)
    simpa using has_false.mp (by simpa using h)
  · intro h
    exact h1 (has_iff.mp (by simpa using h))

/-- The validation of the markers. -/
theorem marks_triple {c : Cfg} {fs : FS} (hh : Healthy fs) (hf : Fits c fs) {n : Name} (hd : fs .config [.workspace, n] = some .dir)
    (hodd : ∀ k, fs .config [.workspace, n, .oddMarker k] = none) :
    Triple fs (do c.sweep n; ifThen (fun fs => !c.markerExists n fs) (touch .config [.workspace, n, .marker]))
      (fun _ fs' => Mod fs fs' ∧ Marks c n fs fs' ∧ ∀ r p, (∀ m, ¬ (r = .config ∧ p = [.workspace, n, m])) → fs' r p = fs r p) (fun fs' => Mod fs fs') := by
  refine .bind (sweep_triple hh hf hd hodd) ?_
  intro _ fs1 hw
  have hm : Mod fs fs1 := without_mod (n := n) hh (by rintro m ⟨p, h, _⟩; exact ⟨p, h⟩) hw
  have hf1 := hm.fits hf
  have hd1 := hm.dir hd
  have hown : ∀ p, c.alive p = true → fs1 .config [.workspace, n, .ownedBy p] = fs .config [.workspace, n, .ownedBy p] := by
    intro p hp
    refine hw.same _ _ ?_
    rintro m ⟨p', rfl, h2, _⟩ ⟨_, h3⟩
    simp at h3
    subst h3
    rw [hp] at h2
    cases h2
  have hdead : ∀ p, c.alive p = false → fs1 .config [.workspace, n, .ownedBy p] = none := by
    intro p hp
    by_cases h : fs .config [.workspace, n, .ownedBy p] = none
    · rw [← h]
      refine hw.same _ _ ?_
      rintro m ⟨p', rfl, h2, h4⟩ ⟨_, h3⟩
      simp at h3
      subst h3
      exact h4 h
    · exact hw.gone _ ⟨p, rfl, hp, h⟩
  have hmk : fs1 .config [.workspace, n, .marker] = fs .config [.workspace, n, .marker] := by
    refine hw.same _ _ ?_
    rintro m ⟨p', rfl, h2, h4⟩ ⟨_, h3⟩
    simp at h3
  have hoth : ∀ r p, (∀ m, ¬ (r = .config ∧ p = [.workspace, n, m])) → fs1 r p = fs r p := by
    intro r p hp
    refine hw.same _ _ ?_
    intro m _ h3
    exact hp m h3
  have hex : c.markerExists n fs1 = true ↔ fs .config [.workspace, n, .marker] ≠ none ∨ ∃ p, c.alive p = true ∧ fs .config [.workspace, n, .ownedBy p] ≠ none := by
    rw [markerExists_iff hf1 (by rw [hd1]; simp)]
    constructor
    · rintro ⟨m, h1, h2⟩
      rcases isMarker_iff.mp h1 with rfl | ⟨p, rfl⟩ | ⟨k, rfl⟩
      · left; rw [← hmk]; exact h2
      · right
        rcases Bool.eq_false_or_eq_true (c.alive p) with h | h
        · exact ⟨p, h, by rw [← hown p h]; exact h2⟩
        · exact absurd (hdead p h) h2
      · rcases hm.present h2 with h3 | ⟨n', _, h3, _⟩
        · exact absurd (hodd k) h3
        · simp at h3
    · rintro (h | ⟨p, h1, h2⟩)
      · exact ⟨_, rfl, by rw [hmk]; exact h⟩
      · exact ⟨_, rfl, by rw [hown p h1]; exact h2⟩
  refine .ifThen ?_ ?_
  · intro h
    have hno : ¬ (fs .config [.workspace, n, .marker] ≠ none ∨ ∃ p, c.alive p = true ∧ fs .config [.workspace, n, .ownedBy p] ≠ none) := by
      rw [← hex]
      simp at h
      simp [h]
    have h1 : fs .config [.workspace, n, .marker] = none := Classical.not_not.mp fun hh => hno (.inl hh)
    have h2 : ∀ p, c.alive p = true → fs .config [.workspace, n, .ownedBy p] = none := fun p hp => Classical.not_not.mp fun hh => hno (.inr ⟨p, hp, hh⟩)
    refine touch_triple hd1 hm ?_ ?_
    · intro h3; exact absurd (hmk.trans h1) h3
    · intro h3
      have hset : ∀ r p, ¬ (r = .config ∧ p = [.workspace, n, .marker]) → fs1.set .config [.workspace, n, .marker] (some (.file [])) r p = fs1 r p := fun r p h => set_other _ _ _ _ h
      refine ⟨hm.trans ?_, ⟨?_, ?_, ?_, ?_, ?_⟩, ?_⟩
      · intro r p
        by_cases hp : r = .config ∧ p = [.workspace, n, .marker]
        · obtain ⟨rfl, rfl⟩ := hp
          exact .inr ⟨.inl ⟨rfl, n, _, .inl rfl, rfl⟩, by rw [h3]; simp, .inr ⟨set_same _ _ _ _, n, rfl, rfl, hd1⟩⟩
        · exact .inl (hset r p hp)
      · intro p hp; rw [hset _ _ (by simp)]; exact hdead p hp
      · intro p hp; rw [hset _ _ (by simp)]; exact hown p hp
      · intro hh; exact absurd h1 hh
      · intro _ ⟨p, hp, hh⟩; exact absurd (h2 p hp) hh
      · intro _ _; exact set_same _ _ _ _
      · intro r p hp; rw [hset _ _ (hp _)]; exact hoth r p hp
  · intro h
    have hyes : fs .config [.workspace, n, .marker] ≠ none ∨ ∃ p, c.alive p = true ∧ fs .config [.workspace, n, .ownedBy p] ≠ none := by
      rw [← hex]
      simpa using h
    refine ⟨hm, ⟨hdead, hown, fun _ => hmk, fun hh _ => hmk.trans hh, ?_⟩, hoth⟩
    intro h1 h2
    rcases hyes with h3 | ⟨p, h3, h4⟩
    · exact absurd h1 h3
    · exact absurd (h2 p h3) h4

/-! ## Errors -/

theorem length_two {l : List Name} (hnd : l.Nodup) {a b : Name} (ha : a ∈ l) (hb : b ∈ l) (hab : a ≠ b) : l.length ≤ 2 ↔ ∀ x ∈ l, x = a ∨ x = b := by
  match l with
  | [] => simp at ha
  | [x] => simp at ha hb; exact absurd (ha.trans hb.symm) hab
  | [x, y] =>
    simp only [List.length_cons, List.length_nil, Nat.zero_add, Nat.reduceAdd, Nat.le_refl, true_iff]
    intro z hz
    simp only [List.mem_cons, List.not_mem_nil, or_false] at ha hb hz
    rcases ha with rfl | rfl <;> rcases hb with rfl | rfl <;> rcases hz with rfl | rfl <;> simp_all
  | x :: y :: z :: t =>
    simp only [List.length_cons]
    constructor
    · intro h; omega
    · intro h
      exfalso
      have hx := h x (by simp)
      have hy := h y (by simp)
      have hz := h z (by simp)
      simp only [List.nodup_cons, List.mem_cons, not_or] at hnd
      obtain ⟨⟨h1, h2, _⟩, ⟨h3, _⟩, _⟩ := hnd
      rcases hx with rfl | rfl <;> rcases hy with rfl | rfl <;> rcases hz with rfl | rfl <;> simp_all

theorem mem_ite {α : Type} {p : Prop} [Decidable p] {a b : α} {l l' : List α} (h : b ∈ if p then l else l') (h1 : b ∈ l → b = a) (h2 : b ∈ l' → b = a) : b = a := by
  split at h
  · exact h1 h
  · exact h2 h

theorem errorsOf_mem {c : Cfg} {d : Bool} {n : Name} {e e' : Option Name} {fs : FS} (h : e' ∈ c.errorsOf d n e fs) : e' = e := by
  have h0 : ∀ {a : Option Name}, a ∈ ([] : List (Option Name)) → a = e := by simp
  have h1 : ∀ {a : Option Name}, a ∈ [e] → a = e := by simp
  unfold Cfg.errorsOf at h
  rcases List.mem_append.mp h with h | h
  · rcases List.mem_append.mp h with h | h
    · exact mem_ite h h0 h1
    · exact mem_ite h h1 h0
  · refine mem_ite h ?_ h1
    intro h
    rcases List.mem_append.mp h with h | h
    · rcases List.mem_append.mp h with h | h
      · rcases List.mem_append.mp h with h | h
        · rcases List.mem_append.mp h with h | h
          · exact mem_ite h h0 h1
          · exact mem_ite h h0 h1
        · exact mem_ite h h0 h1
      · exact mem_ite h h0 h1
    · obtain ⟨_, _, h⟩ := List.mem_map.mp h
      exact h.symm

theorem dataName_iff {m : Name} : dataName m = true ↔ DataFile m := by
  cases m <;> simp [dataName, DataFile, EnvPickle]

/-- The live marker after the validation. -/
theorem Marks.exists {c : Cfg} {n : Name} {fs fs' : FS} (h : Marks c n fs fs') : ∃ m, Live c m ∧ fs' .config [.workspace, n, m] ≠ none := by
  by_cases h1 : fs .config [.workspace, n, .marker] = none
  · by_cases h2 : ∃ p, c.alive p = true ∧ fs .config [.workspace, n, .ownedBy p] ≠ none
    · obtain ⟨p, h3, h4⟩ := h2
      exact ⟨_, .inr ⟨p, rfl, h3⟩, by rw [h.live p h3]; exact h4⟩
    · refine ⟨_, .inl rfl, ?_⟩
      rw [h.made h1 fun p hp => Classical.not_not.mp fun hh => h2 ⟨p, hp, hh⟩]
      simp
  · exact ⟨_, .inl rfl, by rw [h.kept h1]; exact h1⟩

theorem Marks.old_live {c : Cfg} {n : Name} {fs fs' : FS} (h : Marks c n fs fs') {m : Name} (hm : Live c m) (hp : fs .config [.workspace, n, m] ≠ none) :
    fs' .config [.workspace, n, m] ≠ none := by
  rcases hm with rfl | ⟨p, rfl, h2⟩
  · rw [h.kept hp]; exact hp
  · rw [h.live p h2]; exact hp

theorem Marks.not_dead {c : Cfg} {n : Name} {fs fs' : FS} (h : Marks c n fs fs') {p : Nat} (hp : fs' .config [.workspace, n, .ownedBy p] ≠ none) : c.alive p = true := by
  rcases Bool.eq_false_or_eq_true (c.alive p) with h1 | h1
  · exact h1
  · exact absurd (h.dead p h1) hp

/-- If there was a live marker, all markers are old. -/
theorem Marks.new_live {c : Cfg} {n : Name} {fs fs' : FS} (h : Marks c n fs fs') {m : Name} (hm : Live c m) (hp : fs' .config [.workspace, n, m] ≠ none)
    {m' : Name} (hm' : Live c m') (hp' : fs .config [.workspace, n, m'] ≠ none) : fs .config [.workspace, n, m] ≠ none := by
  rcases hm with rfl | ⟨p, rfl, h2⟩
  · by_cases h1 : fs .config [.workspace, n, .marker] = none
    · exfalso
      rcases hm' with rfl | ⟨p, rfl, h2⟩
      · exact hp' h1
      · exact hp (h.used h1 ⟨p, h2, hp'⟩)
    · exact h1
  · rw [← h.live p h2]; exact hp

/-- The configuration directory after validation has just the startup script and a marker. -/
theorem config_count {c : Cfg} {n : Name} {fs fs' : FS} (hmod : Mod fs fs') (hk : Marks c n fs fs') (hf : Fits c fs')
    (hs : fs .config [.workspace, n, .startup] ≠ none) :
    (c.children .config [.workspace, n] fs').length ≤ 2 ↔
      (∀ m, fs .config [.workspace, n, m] ≠ none → m = .startup ∨ m = .marker ∨ ∃ p, m = .ownedBy p) ∧
      (∀ m m', Live c m → Live c m' → fs .config [.workspace, n, m] ≠ none → fs .config [.workspace, n, m'] ≠ none → m = m') := by
  obtain ⟨m0, hm0, hp0⟩ := hk.exists
  have hs' : fs' .config [.workspace, n, .startup] ≠ none := by rw [hmod.same (not_transient_config (by simp) (by simp))]; exact hs
  have hne : Name.startup ≠ m0 := by rcases hm0 with rfl | ⟨p, rfl, _⟩ <;> simp
  rw [length_two (hf.children_nodup _ _) (hf.mem_children.mpr hs') (hf.mem_children.mpr hp0) hne]
  constructor
  · intro h
    have hall : ∀ m, fs' .config [.workspace, n, m] ≠ none → m = .startup ∨ m = m0 := fun m hm => h m (hf.mem_children.mpr hm)
    constructor
    · intro m hm
      by_cases h1 : m = .marker ∨ ∃ p, m = .ownedBy p
      · exact .inr h1
      · have h2 : ¬ Transient .config [.workspace, n, m] := not_transient_config (fun hh => h1 (.inl hh)) (fun p hh => h1 (.inr ⟨p, hh⟩))
        have h3 := hall m (by rw [hmod.same h2]; exact hm)
        rcases h3 with h3 | h3
        · exact .inl h3
        · exfalso
          subst h3
          rcases hm0 with hm0 | ⟨p, hm0, _⟩
          · exact h1 (.inl hm0)
          · exact h1 (.inr ⟨p, hm0⟩)
    · intro m m' hl hl' hm hm'
      have h1 := hall m (hk.old_live hl hm)
      have h2 := hall m' (hk.old_live hl' hm')
      have h3 : m ≠ .startup := by rcases hl with rfl | ⟨p, rfl, _⟩ <;> simp
      have h4 : m' ≠ .startup := by rcases hl' with rfl | ⟨p, rfl, _⟩ <;> simp
      rw [h1.resolve_left h3, h2.resolve_left h4]
  · rintro ⟨h1, h2⟩ m hm
    have hm' := hf.mem_children.mp hm
    have hm' : fs' .config [.workspace, n, m] ≠ none := hm'
    by_cases hst : m = .startup
    · exact .inl hst
    right
    -- it is a live marker
    have hlive : Live c m := by
      by_cases h3 : fs .config [.workspace, n, m] = none
      · rcases hmod.present hm' with h4 | ⟨n', _, h4, _⟩
        · exact absurd h3 h4
        · simp at h4; exact .inl h4.2
      · rcases (h1 m h3).resolve_left hst with rfl | ⟨p, rfl⟩
        · exact .inl rfl
        · exact .inr ⟨p, rfl, hk.not_dead hm'⟩
    by_cases hany : ∃ m1, Live c m1 ∧ fs .config [.workspace, n, m1] ≠ none
    · obtain ⟨m1, h5, h6⟩ := hany
      exact h2 m m0 hlive hm0 (hk.new_live hlive hm' h5 h6) (hk.new_live hm0 hp0 h5 h6)
    · -- both are the new marker
      have hnew : ∀ x, Live c x → fs' .config [.workspace, n, x] ≠ none → x = .marker := by
        intro x hx hx'
        rcases hx with rfl | ⟨p, rfl, hp⟩
        · rfl
        · exfalso
          rw [hk.live p hp] at hx'
          exact hany ⟨_, .inr ⟨p, rfl, hp⟩, hx'⟩
      rw [hnew m hlive hm', hnew m0 hm0 hp0]

theorem ite_nil {α : Type} {p : Prop} [Decidable p] {a : α} : (if p then [] else [a]) = ([] : List α) ↔ p := by
  split <;> simp_all

theorem ite_nil' {α : Type} {p : Prop} [Decidable p] {a : α} : (if p then [a] else []) = ([] : List α) ↔ ¬ p := by
  split <;> simp_all

/-- There are no errors iff the workspace was sound. -/
theorem errors_sound {c : Cfg} {n : Name} {fs fs' : FS} {e : Option Name} (hmod : Mod fs fs') (hk : Marks c n fs fs') (hf : Fits c fs') (hn : n ≠ .default_)
    (hc : fs .config [.workspace, n] = some .dir) (hd : fs .data [.workspace, n] = some .dir) :
    c.errorsOf false n e fs' = [] ↔ Sound c n fs := by
  have hdata : ∀ q, fs' .data (.workspace :: n :: q) = fs .data (.workspace :: n :: q) := fun q => hmod.same (not_transient_data hn)
  have hst : fs' .config [.workspace, n, .startup] = fs .config [.workspace, n, .startup] := hmod.same (not_transient_config (by simp) (by simp))
  have hd' : has .data [.workspace, n] fs' = true := has_iff.mpr (by rw [hdata [], hd]; simp)
  unfold Cfg.errorsOf
  rw [hd']
  simp only [if_true, List.append_eq_nil_iff, ite_nil, ite_nil', Bool.false_or, has_iff, isDir_iff, List.map_eq_nil_iff, List.filter_eq_nil_iff, Nat.not_lt, hst,
    hdata [.env], hdata [.properties], hdata [.history], hdata [.reservoirs]]
  constructor
  · rintro ⟨⟨h1, h2⟩, ⟨⟨⟨h3, h4⟩, h5⟩, h6⟩, h7⟩
    have h2' := (config_count hmod hk hf h1).mp h2
    refine ⟨hc, h1, h2'.1, h2'.2, hd, h3, h4, h5, h6, ?_⟩
    intro m hm
    have h8 := h7 m (hf.mem_children.mpr (by rw [show ([.workspace, n] : Path) ++ [m] = .workspace :: n :: [m] from rfl, hdata [m]]; exact hm))
    exact dataName_iff.mp (by simpa using h8)
  · intro h
    refine ⟨⟨h.startup, (config_count hmod hk hf h.startup).mpr ⟨h.configOnly, h.oneMarker⟩⟩, ⟨⟨⟨h.env, h.properties⟩, h.history⟩, h.reservoirs⟩, ?_⟩
    intro m hm
    have h8 := hf.mem_children.mp hm
    rw [show ([.workspace, n] : Path) ++ [m] = .workspace :: n :: [m] from rfl, hdata [m]] at h8
    simp [dataName_iff.mpr (h.dataOnly m h8)]

/-! ## Validating all workspaces -/

/-- What validating the workspaces in `V` does. -/
structure Validated (c : Cfg) (V : Name → Prop) (fs fs' : FS) : Prop where
  mod : Mod fs fs'
  untouched : ∀ n, ¬ V n → ∀ r q, fs' r (.workspace :: n :: q) = fs r (.workspace :: n :: q)
  marks : ∀ n, V n → Marks c n fs fs'

theorem Marks.of_same {c : Cfg} {n : Name} {fs fs' fs2 fs2' : FS} (h : Marks c n fs fs') (h1 : ∀ q, fs2 .config (.workspace :: n :: q) = fs .config (.workspace :: n :: q))
    (h2 : ∀ q, fs2' .config (.workspace :: n :: q) = fs' .config (.workspace :: n :: q)) : Marks c n fs2 fs2' := by
  constructor
  · intro p hp; rw [h2]; exact h.dead p hp
  · intro p hp; rw [h1, h2]; exact h.live p hp
  · intro hp; rw [h1] at hp ⊢; rw [h2]; exact h.kept hp
  · intro hp ⟨p, h3, h4⟩; rw [h1] at hp h4; rw [h2]; exact h.used hp ⟨p, h3, h4⟩
  · intro hp h3
    rw [h1] at hp
    rw [h2]
    exact h.made hp fun p h4 => by rw [← h1]; exact h3 p h4

theorem Validated.comp {c : Cfg} {V V' : Name → Prop} {a b d : FS} (h1 : Validated c V a b) (h2 : Validated c V' b d) (hdis : ∀ n, V n → ¬ V' n) :
    Validated c (fun n => V n ∨ V' n) a d where
  mod := h1.mod.trans h2.mod
  untouched := by
    intro n hn r q
    rw [h2.untouched n (fun h => hn (.inr h)), h1.untouched n (fun h => hn (.inl h))]
  marks := by
    rintro n (h | h)
    · exact (h1.marks n h).of_same (fun _ => rfl) (h2.untouched n (hdis n h) _)
    · exact (h2.marks n h).of_same (fun q => (h1.untouched n (fun hh => hdis n hh h) _ q).symm) (fun _ => rfl)

/-- Validating the markers and looking for errors. -/
theorem validateWs_triple {c : Cfg} {fs : FS} (hh : Healthy fs) (hf : Fits c fs) {n : Name} (d : Bool) (e : Option Name) (hc : fs .config [.workspace, n] ≠ none)
    (hd : fs .data [.workspace, n] ≠ none) :
    Triple fs (c.validateWs d n e) (fun es fs' => Validated c (fun x => x = n) fs fs' ∧ es = c.errorsOf d n e fs') (fun fs' => Mod fs fs') := by
  obtain ⟨h1, h2, h3⟩ := hh.both n hc hd
  unfold Cfg.validateWs
  have hm := marks_triple hh hf h1 h3
  have key : Triple fs (do
      (do c.sweep n; ifThen (fun fs => !c.markerExists n fs) (touch .config [.workspace, n, .marker]))
      require fun fs => isDir .config [.workspace, n] fs && (!has .data [.workspace, n] fs || isDir .data [.workspace, n] fs)
      get (c.errorsOf d n e)) (fun es fs' => Validated c (fun x => x = n) fs fs' ∧ es = c.errorsOf d n e fs') (fun fs' => Mod fs fs') := by
    refine .bind hm ?_
    rintro _ fs1 ⟨g1, g2, g3⟩
    refine .bind (Q := fun _ fs' => fs' = fs1) (.require ?_ rfl) ?_
    · rw [isDir_iff.mpr (g1.dir h1), isDir_iff.mpr (g1.dir h2)]
      simp
    · intro _ fs' h
      subst h
      refine .get ⟨⟨g1, ?_, ?_⟩, rfl⟩
      · intro x hx r q
        refine g3 r _ ?_
        rintro m ⟨_, h⟩
        simp at h
        exact hx h.1
      · rintro x rfl
        exact g2
  intro k
  have hk := key k
  have hassoc : ∀ (a : Prog Unit) (b : Prog Unit) (f : Prog (List (Option Name))), (do (do a; b); f) = (do a; b; f : Prog (List (Option Name))) := by
    intro a b f
    funext fs k
    show Prog.bind (Prog.bind a fun _ => b) (fun _ => f) fs k = Prog.bind a (fun _ => Prog.bind b fun _ => f) fs k
    unfold Prog.bind
    cases a fs k <;> rfl
  rw [hassoc] at hk
  exact hk

theorem abandon_triple {c : Cfg} {fs : FS} (hf : Fits c fs) (kind : Name → Option (Option Nat)) (dir : Path) (hdir : dir = [.workspace, .default_] ∨ dir = [.workspace, .default_, .reservoirs])
    (hd : fs .data dir = some .dir) (hall : ∀ m, fs .data (dir ++ [m]) ≠ none → kind m ≠ some none)
    (hfile : ∀ m p, fs .data (dir ++ [m]) ≠ none → kind m = some (some p) → fs .data (dir ++ [m]) ≠ some .dir ∧ OfProcess m) :
    Triple fs (c.abandon kind dir) (fun es fs' => es = [] ∧ Mod fs fs' ∧ (∀ p, fs' .config p = fs .config p) ∧
      ∀ n, n ≠ .default_ → ∀ r q, fs' r (.workspace :: n :: q) = fs r (.workspace :: n :: q)) (fun fs' => Mod fs fs') := by
  have hmod : ∀ S : Name → Prop, (∀ m, S m → m ∈ c.children .data dir fs ∧ ∃ p, kind m = some (some p) ∧ c.alive p = false) → ∀ fs', Without .data dir S fs fs' → Mod fs fs' := by
    intro S hS fs' hw r p
    by_cases h : ∃ m, S m ∧ r = .data ∧ p = dir ++ [m]
    · obtain ⟨m, h1, rfl, rfl⟩ := h
      obtain ⟨h2, pid, h3, _⟩ := hS m h1
      have h4 := hfile m pid (hf.mem_children.mp h2) h3
      refine .inr ⟨.inr ⟨rfl, m, h4.2, ?_⟩, h4.1, .inl (hw.gone _ h1)⟩
      rcases hdir with rfl | rfl
      · exact .inl rfl
      · exact .inr rfl
    · exact .inl (hw.same r p fun m hm hh => h ⟨m, hm, hh⟩)
  unfold Cfg.abandon
  refine .bind (Q := fun l fs' => fs' = fs ∧ l = c.children .data dir fs) (iterdir_triple hd ⟨rfl, rfl⟩) ?_
  rintro l fs1 ⟨rfl, rfl⟩
  refine .bind (.mono (.unlinkLoop .data dir (fun m => ∃ p, kind m = some (some p) ∧ c.alive p = false) (c.abandonOne kind dir) _ fs1 (hf.children_nodup _ _) ?_ ?_ ?_) (fun _ _ h => h) ?_) ?_
  · intro m hm hdead fs2 Q C hQ
    unfold Cfg.abandonOne
    split
    · rename_i p hp
      split
      · exact .pure hQ
      · rename_i hal
        exact absurd ⟨p, hp, by simpa using hal⟩ hdead
    · exact .pure hQ
  · rintro m hm ⟨p, h1, h2⟩
    simp only [Cfg.abandonOne, h1, h2, Bool.false_eq_true, if_false]
  · rintro m hm ⟨p, h1, h2⟩
    exact ⟨hf.mem_children.mp hm, (hfile m p (hf.mem_children.mp hm) h1).1⟩
  · rintro fs2 ⟨S, hS, hw⟩
    exact hmod S hS fs2 hw
  · intro _ fs2 hw
    refine .pure ⟨?_, hmod _ (fun m h => h) fs2 hw, ?_, ?_⟩
    · rw [List.map_eq_nil_iff, List.filter_eq_nil_iff]
      intro m hm
      have := hall m (hf.mem_children.mp hm)
      simpa using this
    · intro p
      exact hw.same _ _ fun m _ h => by simp at h
    · intro n hn r q
      refine hw.same _ _ ?_
      rintro m _ ⟨_, h⟩
      rcases hdir with rfl | rfl <;> simp at h <;> exact hn h.1

theorem dotEnv_kind {m : Name} : (∀ k, m ≠ .dotEnv k) → dotEnvName m ≠ some none := by
  intro h
  cases m <;> simp [dotEnvName]
  exact h _ rfl

theorem dotEnv_process {m : Name} {p : Nat} (h : dotEnvName m = some (some p)) : m = .envOf p := by
  cases m <;> simp [dotEnvName] at h
  rw [h]

theorem dotPickle_process {m : Name} {p : Nat} (h : dotPickleName m = some (some p)) : OfProcess m := by
  cases m <;> simp [dotPickleName] at h <;> simp [OfProcess, h]

theorem dotPickle_kind {m : Name} (h : OfProcess m ∨ dotPickleName m = none) : dotPickleName m ≠ some none := by
  rcases h with (⟨p, rfl⟩ | ⟨p, k, rfl⟩ | ⟨p, k, rfl⟩) | h
  · simp [dotPickleName]
  · simp [dotPickleName]
  · simp [dotPickleName]
  · rw [h]; simp

theorem validateDefault_triple {c : Cfg} {fs : FS} (hh : Healthy fs) (hf : Fits c fs) :
    Triple fs c.validateDefault (fun es fs' => Validated c (fun x => x = .default_) fs fs' ∧ es = []) (fun fs' => Mod fs fs') := by
  unfold Cfg.validateDefault
  have hd := hh.default_
  refine .bind (abandon_triple hf dotEnvName [.workspace, .default_] (.inl rfl) hd.dataDir ?_ ?_) ?_
  · intro m hm; exact dotEnv_kind (hd.dataOnly m hm).2
  · intro m p hm hk
    rw [dotEnv_process hk]
    exact ⟨hd.envFiles p, .inl ⟨p, rfl⟩⟩
  rintro e1 fs1 ⟨rfl, m1, c1, u1⟩
  have hh1 := m1.healthy hh
  have hf1 := m1.fits hf
  have hd1 := hh1.default_
  refine .bind (.mono (abandon_triple hf1 dotPickleName [.workspace, .default_, .reservoirs] (.inr rfl) hd1.reservoirs ?_ ?_) (fun _ _ h => h) (fun fs' h => m1.trans h)) ?_
  · intro m hm; exact dotPickle_kind (hd1.pickles m hm)
  · intro m p hm hk
    exact ⟨hd1.reservoirFiles m, dotPickle_process hk⟩
  rintro e2 fs2 ⟨rfl, m2, c2, u2⟩
  have hh2 := m2.healthy hh1
  have hf2 := m2.fits hf1
  have hd2 := hh2.default_
  refine .bind (.mono (validateWs_triple hh2 hf2 true none (by rw [hd2.configDir]; simp) (by rw [hd2.dataDir]; simp)) (fun _ _ h => h) (fun fs' h => m1.trans (m2.trans h))) ?_
  rintro e3 fs3 ⟨hv, rfl⟩
  refine .pure ⟨⟨m1.trans (m2.trans hv.mod), ?_, ?_⟩, ?_⟩
  · intro n hn r q
    rw [hv.untouched n hn, u2 n hn, u1 n hn]
  · rintro n rfl
    refine (hv.marks .default_ rfl).of_same (fun q => ?_) (fun q => rfl)
    rw [← c1, ← c2]
  · have hh3 := hv.mod.healthy hh2
    have hd3 := hh3.default_
    have hcnt := (config_count hv.mod (hv.marks .default_ rfl) (hv.mod.fits hf2) hd2.startup).mpr ⟨?_, ?_⟩
    · simp only [List.nil_append]
      unfold Cfg.errorsOf
      rw [if_pos (has_iff.mpr hd3.startup), if_neg (by omega), if_pos (has_iff.mpr (by rw [hd3.dataDir]; simp)), if_pos (by simp), if_pos (by simp), if_pos (has_iff.mpr hd3.history),
        if_pos (isDir_iff.mpr hd3.reservoirs)]
      simp only [List.nil_append, List.map_eq_nil_iff, List.filter_eq_nil_iff]
      intro m hm
      have h8 := (hv.mod.fits hf2).mem_children.mp hm
      simp [dataName_iff.mpr (hd3.dataOnly m h8).1]
    · intro m hm
      rcases hd2.configOnly m hm with h | h
      · exact .inl h
      · exact .inr (.inl h)
    · intro m m' hl hl' hm hm'
      have h1 : m ≠ .startup := by rcases hl with rfl | ⟨p, rfl, _⟩ <;> simp
      have h2 : m' ≠ .startup := by rcases hl' with rfl | ⟨p, rfl, _⟩ <;> simp
      rw [(hd2.configOnly m hm).resolve_left h1, (hd2.configOnly m' hm').resolve_left h2]

theorem Sound.of_same {c : Cfg} {n : Name} {fs fs' : FS} (h : ∀ r q, fs' r (.workspace :: n :: q) = fs r (.workspace :: n :: q)) (hs : Sound c n fs) : Sound c n fs' := by
  constructor
  · rw [h]; exact hs.configDir
  · rw [h]; exact hs.startup
  · intro m; rw [h]; exact hs.configOnly m
  · intro m m'; rw [h, h]; exact hs.oneMarker m m'
  · rw [h]; exact hs.dataDir
  · rw [h]; exact hs.env
  · rw [h]; exact hs.properties
  · rw [h]; exact hs.history
  · rw [h]; exact hs.reservoirs
  · intro m; rw [h]; exact hs.dataOnly m

theorem validateEach_triple {c : Cfg} (both : Name → Bool) : ∀ (cs : List Name) (fs : FS), Healthy fs → Fits c fs → cs.Nodup →
    (∀ n ∈ cs, fs .config [.workspace, n] ≠ none) → (∀ n ∈ cs, both n = true → fs .data [.workspace, n] ≠ none) →
    Triple fs (c.validateEach both cs) (fun es fs' => Validated c (fun n => n ∈ cs ∧ both n = true) fs fs' ∧
      ∀ e, e ∈ es ↔ ∃ n, n ∈ cs ∧ both n = true ∧ n ≠ .default_ ∧ ¬ Sound c n fs ∧ e = some n) (fun fs' => Mod fs fs') := by
  intro cs
  induction cs with
  | nil =>
    intro fs hh hf _ _ _
    refine .pure ⟨⟨Mod.refl fs, fun _ _ _ _ => rfl, fun n h => by simp at h⟩, by simp⟩
  | cons n cs ih =>
    intro fs hh hf hnd hc hb
    have hnd' := List.nodup_cons.mp hnd
    unfold Cfg.validateEach
    refine .bind (Q := fun (e : List (Option Name)) fs1 => Validated c (fun x => x = n ∧ both n = true) fs fs1 ∧ ∀ e', e' ∈ e ↔ both n = true ∧ n ≠ .default_ ∧ ¬ Sound c n fs ∧ e' = some n) ?_ ?_
    · unfold Cfg.validateIf
      rcases Bool.eq_false_or_eq_true (both n) with hbn | hbn
      · simp only [hbn, if_true]
        unfold Cfg.validate
        by_cases hn : n = .default_
        · subst hn
          simp only [if_true]
          refine .mono (validateDefault_triple hh hf) ?_ (fun _ h => h)
          rintro es fs1 ⟨h1, rfl⟩
          refine ⟨⟨h1.mod, fun x hx => h1.untouched x (fun h => hx ⟨h, trivial⟩), fun x hx => h1.marks x hx.1⟩, by simp⟩
        · simp only [hn, if_false]
          obtain ⟨g1, g2, g3⟩ := hh.both n (hc n (by simp)) (hb n (by simp) hbn)
          refine .mono (validateWs_triple hh hf false (some n) (hc n (by simp)) (hb n (by simp) hbn)) ?_ (fun _ h => h)
          rintro es fs1 ⟨h1, rfl⟩
          refine ⟨⟨h1.mod, fun x hx => h1.untouched x (fun h => hx ⟨h, trivial⟩), fun x hx => h1.marks x hx.1⟩, ?_⟩
          have hes := errors_sound (e := some n) h1.mod (h1.marks n rfl) (h1.mod.fits hf) hn g1 g2
          intro e'
          constructor
          · intro he
            refine ⟨trivial, by simpa using hn, ?_, errorsOf_mem he⟩
            intro hs
            rw [hes.mpr hs] at he
            simp at he
          · rintro ⟨_, _, hs, rfl⟩
            cases hl : c.errorsOf false n (some n) fs1 with
            | nil => exact absurd (hes.mp hl) hs
            | cons a as =>
              have ha := errorsOf_mem (hl ▸ List.mem_cons_self : a ∈ c.errorsOf false n (some n) fs1)
              rw [ha]
              simp
      · simp only [hbn, Bool.false_eq_true, if_false]
        exact .pure ⟨⟨Mod.refl fs, fun _ _ _ _ => rfl, fun _ h => by simp at h⟩, by simp⟩
    · rintro e fs1 ⟨hv, he⟩
      refine .bind (.mono (ih fs1 (hv.mod.healthy hh) (hv.mod.fits hf) hnd'.2 ?_ ?_) (fun _ _ h => h) (fun fs' h => hv.mod.trans h)) ?_
      · intro x hx; rw [hv.mod.same not_transient_dir]; exact hc x (by simp [hx])
      · intro x hx hbx; rw [hv.mod.same not_transient_dir]; exact hb x (by simp [hx]) hbx
      · rintro es fs2 ⟨hv2, hes⟩
        have hcomp := hv.comp hv2 (by rintro x ⟨rfl, _⟩ ⟨h, _⟩; exact hnd'.1 h)
        refine .pure ⟨⟨hcomp.mod, ?_, ?_⟩, ?_⟩
        · intro x hx
          refine hcomp.untouched x ?_
          rintro (⟨rfl, h⟩ | ⟨h1, h2⟩)
          · exact hx ⟨by simp, h⟩
          · exact hx ⟨by simp [h1], h2⟩
        · rintro x ⟨h1, h2⟩
          rcases List.mem_cons.mp h1 with rfl | h1
          · exact hcomp.marks x (.inl ⟨rfl, h2⟩)
          · exact hcomp.marks x (.inr ⟨h1, h2⟩)
        · intro e'
          have hsame : ∀ x ∈ cs, ∀ r q, fs1 r (.workspace :: x :: q) = fs r (.workspace :: x :: q) := by
            intro x hx
            refine hv.untouched x ?_
            rintro ⟨rfl, _⟩
            exact hnd'.1 hx
          rw [List.mem_append, he e', hes e']
          constructor
          · rintro (⟨h1, h2, h3, h4⟩ | ⟨x, h1, h2, h3, h4, h5⟩)
            · exact ⟨n, by simp, h1, h2, h3, h4⟩
            · exact ⟨x, by simp [h1], h2, h3, fun hs => h4 (hs.of_same (hsame x h1)), h5⟩
          · rintro ⟨x, h1, h2, h3, h4, h5⟩
            rcases List.mem_cons.mp h1 with rfl | h1
            · exact .inl ⟨h2, h3, h4, h5⟩
            · exact .inr ⟨x, h1, h2, h3, fun hs => h4 (hs.of_same fun r q => (hsame x h1 r q).symm), h5⟩

end Marcel.WsDisk
