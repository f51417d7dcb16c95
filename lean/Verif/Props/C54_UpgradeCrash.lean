import Verif.Lemmas.Storage

/-! # C54: an interrupted upgrade loses nothing -/

namespace Marcel.Storage

variable {U : Name → Prop} {envs : Nat → Prop}

theorem safe_rename {P Q : FS → Prop} {names : List Name} {ra rb : Root} {a b : Path} (hU : ∀ n, U n → n ∈ names) (hb : b ≠ [])
    (hUb : ∀ n ∈ b, U n)
    (H : ∀ fs, Inv U fs → P fs → Movable names fs ra a rb b →
      NoConflict (fs.move ra a rb b) ∧ (∀ q, Later (ra, a ++ q) (rb, b ++ q)) ∧
        ((∀ c, fs rb b ≠ some (.file c)) ∨ Replaced envs (rb, b)) ∧ Q (fs.move ra a rb b)) :
    Safe U envs P (rename names ra a rb b) fun _ => Q := by
  unfold rename
  refine Safe.get fun x => Safe.ite (fun hx => ?_) fun _ => Safe.fail
  refine Safe.change fun fs hi ⟨hp, h1⟩ => ?_
  rw [← h1] at hx
  have hm := movable_iff _ _ _ _ _ _ hx
  obtain ⟨h1, h2, h3, h4⟩ := H fs hi hp hm
  exact ⟨hm.inv hi hb hUb h1, hm.kept hi hU h2 h3, h4⟩

theorem noConflict_move {fs : FS} (h : NoConflict fs) (ra : Root) (a : Path) (rb : Root) (b : Path) (hb : 2 ≤ b.length) :
    NoConflict (fs.move ra a rb b) := by
  have key : ∀ r n, (fs.move ra a rb b r [n]).isSome → (fs r [n]).isSome := by
    intro r n hs
    rcases move_cases fs ra a rb b r [n] with ⟨q, _, e⟩ | ⟨_, _, h1⟩ | ⟨_, _, h3⟩
    · have := congrArg List.length e
      simp at this; omega
    · rw [h1] at hs; simp at hs
    · rwa [h3] at hs
  exact ⟨fun hh => h.1 ⟨key _ _ hh.1, key _ _ hh.2⟩, fun hh => h.2 ⟨key _ _ hh.1, key _ _ hh.2⟩⟩

/-- Moving something into a directory. -/
theorem safe_moveInto {names : List Name} {r : Root} {n d : Name} (hU : ∀ n, U n → n ∈ names) (hn : U n) (hd : U d)
    (hl : ∀ q, Moves (r, n :: q) (r, d :: n :: q)) (hnd : n ≠ d) :
    Safe U envs (fun fs => fs r [d] = some .dir) (shMove names r [n] r [d]) fun _ fs => fs r [d] = some .dir := by
  unfold shMove
  refine Safe.get fun x => Safe.ite (fun hx => ?_) fun hx => ?_
  · refine Safe.get fun y => Safe.ite (fun _ => Safe.fail) fun hy => ?_
    refine safe_rename hU (by simp) (by simp [hn, hd]) fun fs hi hp hm => ⟨noConflict_move hi.noConflict _ _ _ _ (by simp), ?_, .inl ?_, ?_⟩
    · intro q; simpa using Later.one (hl q)
    · obtain ⟨_, h1⟩ := hp
      subst h1
      have : fs r ([d] ++ [n].getLast?.toList) = none := by simpa [has] using hy
      rw [this]; simp
    · rw [move_other]
      · exact hp.1.1
      · simp
      · simp; intro h; exact absurd h.symm hnd
  · intro fs k _ ⟨hp, h1⟩
    exfalso
    apply hx; rw [← h1]; simp [isDir, hp]

theorem stable_true (r : Root) (p : Path) : Stable (fun _ => True) r p := fun _ _ _ => trivial

theorem safe_expect {P : FS → Prop} (l : Layout) : Safe U envs P (expect l) fun _ fs => P fs := by
  unfold expect
  exact Safe.get fun _ => Safe.ite (fun _ => Safe.pure _ fun _ h => h.1) fun _ => Safe.fail

theorem safe_original {names : List Name} (hU : ∀ n, U n → n ∈ names) (hc : Closed U) :
    Safe U envs (fun _ => True) (migrateOriginal names) fun _ _ => True := by
  have lit : ∀ n : Name, (∀ k, n ≠ .user k) → U n := hc
  unfold migrateOriginal
  refine Safe.bind (Q := fun _ _ => True) ?_ fun _ => ?_
  · exact (safe_ensureDir (by simp [Neutral]) (by simp) (stable_true _ _)).weaken (fun _ _ _ => trivial) fun _ _ _ => trivial
  refine Safe.bind (Q := fun _ _ => True) ?_ fun _ => ?_
  · exact (safe_ensureDir (by simp [Neutral]) (by simp) (stable_true _ _)).weaken (fun _ _ _ => trivial) fun _ _ _ => trivial
  refine Safe.bind (Q := fun _ _ => True) ?_ fun _ => ?_
  · unfold shMove
    refine Safe.get fun x => Safe.ite (fun hx => ?_) fun hx => ?_
    · refine Safe.get fun y => Safe.ite (fun _ => Safe.fail) fun hy => ?_
      refine safe_rename hU (by simp) (by simp; exact ⟨lit _ (by simp), lit _ (by simp)⟩) fun fs hi hp hm => ?_
      exfalso
      obtain ⟨⟨_, h1⟩, _⟩ := hp
      rw [← h1] at hx
      exact hi.noConflict.1 ⟨hm.source, by simp [isDir] at hx; simp [hx]⟩
    · refine safe_rename hU (by simp) (by simp; exact lit _ (by simp)) fun fs hi hp hm => ⟨⟨?_, ?_⟩, ?_, .inl ?_, trivial⟩
      · rintro ⟨h, _⟩
        have := move_source (fs := fs) (ra := .home) (a := [.dotMarcel]) (rb := .config) (b := [.startup]) [] (by simp)
        rw [List.append_nil] at this
        rw [this] at h; simp at h
      · rw [move_other (by simp) (by simp), move_other (by simp) (by simp)]
        exact hi.noConflict.2
      · intro q; exact Later.one (.startup q)
      · intro c e
        exact hi.noConflict.1 ⟨hm.source, by simp [e]⟩
  refine Safe.bind (Q := fun _ _ => True) ?_ fun _ => ?_
  · unfold shMove
    refine Safe.get fun x => Safe.ite (fun hx => ?_) fun hx => ?_
    · refine Safe.get fun y => Safe.ite (fun _ => Safe.fail) fun hy => ?_
      refine safe_rename hU (by simp) (by simp; exact ⟨lit _ (by simp), lit _ (by simp)⟩) fun fs hi hp hm => ?_
      exfalso
      obtain ⟨⟨_, h1⟩, _⟩ := hp
      rw [← h1] at hx
      exact hi.noConflict.2 ⟨hm.source, by simp [isDir] at hx; simp [hx]⟩
    · refine safe_rename hU (by simp) (by simp; exact lit _ (by simp)) fun fs hi hp hm => ⟨⟨?_, ?_⟩, ?_, .inl ?_, trivial⟩
      · rw [move_other (by simp) (by simp), move_other (by simp) (by simp)]
        exact hi.noConflict.1
      · rintro ⟨h, _⟩
        have := move_source (fs := fs) (ra := .home) (a := [.dotHistory]) (rb := .data) (b := [.history]) [] (by simp)
        rw [List.append_nil] at this
        rw [this] at h; simp at h
      · intro q; exact Later.one (.history q)
      · intro c e
        exact hi.noConflict.2 ⟨hm.source, by simp [e]⟩
  exact safe_expect _

theorem safe_xdg (hc : Closed U) : Safe U envs (fun _ => True) migrateXdg fun _ _ => True := by
  unfold migrateXdg
  refine Safe.bind (safe_touch (by simp [Neutral]) (by simp; exact hc _ (by simp)) (stable_true _ _)) fun _ => ?_
  refine Safe.bind (Q := fun _ _ => True) ?_ fun _ => safe_expect _
  exact (safe_ensureDir (by simp [Neutral]) (by simp; exact hc _ (by simp)) (stable_true _ _)).weaken (fun _ _ _ => trivial) fun _ _ _ => trivial

theorem safe_forM {α : Type} {P : FS → Prop} {f : α → Prog Unit} (l : List α) (h : ∀ x ∈ l, Safe U envs P (f x) fun _ => P) :
    Safe U envs P (l.forM f) fun _ => P := by
  induction l with
  | nil => exact Safe.pure _ fun _ h => h
  | cons x l ih =>
    refine Safe.bind (Q := fun _ => P) (h x (by simp)) fun _ => ih fun y hy => h y (by simp [hy])

theorem safe_fixDefault {names files : List Name} {r : Root} (hU : ∀ n, U n → n ∈ names) (hc : Closed U) (hr : r ≠ .home)
    (hf : ∀ n ∈ files, U n ∧ n ≠ .oldDefault ∧ ∀ q, Moves (r, n :: q) (r, .oldDefault :: n :: q)) :
    Safe U envs (fun _ => True) (fixDefault names r files) fun _ _ => True := by
  have hd : U .oldDefault := hc _ (by simp)
  unfold fixDefault
  refine Safe.bind (Q := fun _ fs => fs r [.oldDefault] = some .dir) ?_ fun _ => ?_
  · refine (safe_ensureDirs [] [.oldDefault] ?_ (by simpa using hd) fun _ _ => stable_true _ _).weaken (fun _ _ h => h)
      fun _ _ h => h.2
    intro q hq
    have : q = [] ∨ q = [.oldDefault] := by
      cases q with
      | nil => exact .inl rfl
      | cons x q =>
        rw [List.cons_prefix_cons] at hq
        obtain ⟨rfl, hq⟩ := hq
        right; simp at hq; simp [hq]
    rcases this with rfl | rfl <;> simp [Neutral, hr]
  · exact (safe_forM files fun n hn => safe_moveInto hU (hf n hn).1 hd (hf n hn).2.2 (hf n hn).2.1).weaken (fun _ _ h => h)
      fun _ _ _ => trivial

theorem safe_ws1 {names : List Name} (hU : ∀ n, U n → n ∈ names) (hc : Closed U) :
    Safe U envs (fun _ => True) (migrateWs1 names) fun _ _ => True := by
  unfold migrateWs1
  refine Safe.bind (safe_fixDefault hU hc (by simp) ?_) fun _ => ?_
  · intro n hn
    simp only [List.mem_cons, List.not_mem_nil, or_false] at hn
    rcases hn with rfl | rfl
    · exact ⟨hc _ (by simp), by simp, fun q => .defaultConfig _ _ (.inl rfl)⟩
    · exact ⟨hc _ (by simp), by simp, fun q => .defaultConfig _ _ (.inr rfl)⟩
  refine Safe.bind (safe_fixDefault hU hc (by simp) ?_) fun _ => safe_expect _
  intro n hn
  simp only [List.mem_cons, List.not_mem_nil, or_false] at hn
  rcases hn with rfl | rfl
  · exact ⟨hc _ (by simp), by simp, fun q => .defaultData _ _ (.inl rfl)⟩
  · exact ⟨hc _ (by simp), by simp, fun q => .defaultData _ _ (.inr rfl)⟩

theorem safe_subdirs {names : List Name} {r : Root} {p : Path} {P : FS → Prop} :
    Safe U envs P (subdirs names r p) fun l fs => P fs ∧ ∀ n ∈ l, U n := by
  unfold subdirs
  refine Safe.get fun x => Safe.ite (fun _ => ?_) fun _ => Safe.fail
  intro fs k hi hp
  refine ⟨⟨hi, .refl fs⟩, ?_⟩
  intro a fs' k' h
  simp only [Storage.get, Res.ok.injEq] at h
  obtain ⟨rfl, rfl, _⟩ := h
  refine ⟨hp.1, fun n hn => ?_⟩
  simp only [List.mem_filter, isDir, decide_eq_true_eq] at hn
  exact hi.uses r p n (by simp [hn.2])

theorem safe_moveWorkspace {names : List Name} {r : Root} {n : Name} (hU : ∀ n, U n → n ∈ names) (hc : Closed U) (hr : r ≠ .home) (hn : U n) :
    Safe U envs (fun fs => fs r [.workspace] = some .dir) (moveWorkspace names r n) fun _ fs => fs r [.workspace] = some .dir := by
  unfold moveWorkspace
  refine Safe.ite (fun _ => Safe.pure _ fun _ h => h) fun h => ?_
  refine Safe.bind (safe_moveInto hU hn (hc _ (by simp)) (fun q => .workspace r n q hr h) h) fun _ => ?_
  exact Safe.get fun x => Safe.ite (fun _ => Safe.pure _ fun _ h => h.1) fun _ => Safe.fail

theorem safe_fixDirs {names : List Name} {r : Root} (hU : ∀ n, U n → n ∈ names) (hc : Closed U) (hr : r ≠ .home) :
    Safe U envs (fun _ => True) (fixDirs names r) fun _ _ => True := by
  have hw : U .workspace := hc _ (by simp)
  unfold fixDirs
  refine Safe.bind (Q := fun _ fs => fs r [.workspace] = some .dir) ?_ fun _ => ?_
  · refine (safe_ensureDirs [] [.workspace] ?_ (by simpa using hw) fun _ _ => stable_true _ _).weaken (fun _ _ h => h)
      fun _ _ h => h.2
    intro q hq
    have : q = [] ∨ q = [.workspace] := by
      cases q with
      | nil => exact .inl rfl
      | cons x q =>
        rw [List.cons_prefix_cons] at hq
        obtain ⟨rfl, hq⟩ := hq
        right; simp at hq; simp [hq]
    rcases this with rfl | rfl <;> simp [Neutral, hr]
  refine Safe.bind safe_subdirs fun l => ?_
  refine Safe.bind (Q := fun _ fs => fs r [.workspace] = some .dir) ?_ fun _ => ?_
  · intro fs k hi ⟨hp, hl⟩
    exact safe_forM l (fun n hn => safe_moveWorkspace hU hc hr (hl n hn)) fs k hi hp
  refine Safe.bind (Q := fun _ _ => True) ?_ fun _ => ?_
  · refine safe_rename hU (by simp) (by simp; exact ⟨hw, hc _ (by simp)⟩) fun fs hi hp hm => ?_
    exact ⟨noConflict_move hi.noConflict _ _ _ _ (by simp), fun q => Later.one (.default_ r q hr), .inr (.notDir r hr), trivial⟩
  exact (safe_mkdir (by simp [Neutral, hr]) (by simp; exact hc _ (by simp)) (stable_true _ _)).weaken (fun _ _ h => h) fun _ _ _ => trivial

theorem safe_ws2 {names : List Name} (hU : ∀ n, U n → n ∈ names) (hc : Closed U) :
    Safe U envs (fun _ => True) (migrateWs2 names) fun _ _ => True := by
  unfold migrateWs2
  exact Safe.bind (safe_fixDirs hU hc (by simp)) fun _ => Safe.bind (safe_fixDirs hU hc (by simp)) fun _ => safe_expect _

theorem safe_resetHistory {now text : Text} {n : Name} (hc : Closed U) (hn : U n) :
    Safe U envs (fun _ => True) (resetHistory now text n) fun _ _ => True := by
  unfold resetHistory
  refine Safe.bind (safe_unlink (by simp [Neutral]) (stable_true _ _) (.history n)) fun _ => ?_
  refine (safe_writeFile (by simp [Neutral]) ?_ (fun _ h => h) (stable_true _ _) fun _ _ => .inr (.history n)).weaken (fun _ _ h => h) fun _ _ _ => trivial
  simp; exact ⟨hc _ (by simp), hn, hc _ (by simp)⟩

theorem safe_ws3 {names : List Name} {now text : Text} (hc : Closed U) :
    Safe U envs (fun _ => True) (migrateWs3 names now text) fun _ _ => True := by
  unfold migrateWs3
  refine Safe.bind safe_subdirs fun l => ?_
  refine Safe.bind (Q := fun _ _ => True) ?_ fun _ => safe_expect _
  intro fs k hi ⟨hp, hl⟩
  exact safe_forM l (fun n hn => safe_resetHistory hc (hl n hn)) fs k hi hp

theorem safe_migrateFrom {c : Cfg} (hU : ∀ n, U n → n ∈ c.names) (hc : Closed U) (l : Layout) :
    Safe U envs (fun _ => True) (migrateFrom c l) fun _ _ => True := by
  have h3 : Safe U envs (fun _ => True) (fromWs3 c.names c.now c.text) fun _ _ => True := safe_ws3 hc
  have h2 : Safe U envs (fun _ => True) (fromWs2 c.names c.now c.text) fun _ _ => True := Safe.bind (safe_ws2 hU hc) fun _ => h3
  have h1 : Safe U envs (fun _ => True) (fromWs1 c.names c.now c.text) fun _ _ => True := Safe.bind (safe_ws1 hU hc) fun _ => h2
  have hx : Safe U envs (fun _ => True) (fromXdg c.names c.now c.text) fun _ _ => True := Safe.bind (safe_xdg hc) fun _ => h1
  cases l with
  | pt => exact Safe.pure _ fun _ h => h
  | ws3 => exact h3
  | ws2 => exact h2
  | ws1 => exact h1
  | xdg => exact hx
  | original => exact Safe.bind (safe_original hU hc) fun _ => hx

/-- There is no startup script of the default workspace yet. -/
def Fresh (fs : FS) : Prop := fs .config [.workspace, .default_, .startup] = none

theorem stable_fresh {r : Root} {p : Path} (h : ¬(r = .config ∧ p = [.workspace, .default_, .startup])) : Stable Fresh r p := by
  intro fs n hf
  unfold Fresh at *
  rw [set_other]
  · exact hf
  · rintro ⟨rfl, rfl⟩; exact h ⟨rfl, rfl⟩

theorem prefix_cases {q : Path} (p : Path) (h : q <+: p) : ∃ k, q = p.take k := ⟨q.length, by
  rw [List.prefix_iff_eq_take] at h; exact h⟩

theorem safe_writeVersion {P : FS → Prop} {c : Cfg} (hc : Closed U) (h1 : Stable P .config []) (h2 : Stable P .config [.version]) :
    Safe U envs P (writeVersion c) fun _ fs => P fs := by
  have hv : ∀ x ∈ [Name.version], U x := by simp; exact hc _ (by simp)
  unfold writeVersion
  refine Safe.bind (Q := fun _ => P) ?_ fun _ => ?_
  · exact (safe_ensureDir (by simp [Neutral]) (by simp) h1).weaken (fun _ _ h => h) fun _ _ h => h.1
  refine Safe.bind (safe_touch (by simp [Neutral]) hv h2) fun _ => ?_
  exact (safe_writeFile (by simp [Neutral]) hv (fun _ h => h) h2 fun _ _ => .inr .version).weaken (fun _ _ h => h) fun _ _ h => h.1

theorem safe_dirs {P : FS → Prop} {r : Root} {p : Path} (hn : ∀ k, Neutral r (p.take k)) (hU : ∀ x ∈ p, U x) (hP : ∀ k, Stable P r (p.take k)) :
    Safe U envs P (ensureDirs r [] p) fun _ => P := by
  refine (safe_ensureDirs [] p (fun q hq => ?_) (by simpa using hU) fun q hq => ?_).weaken (fun _ _ h => h) fun _ _ h => h.1
  · obtain ⟨k, rfl⟩ := prefix_cases p hq; exact hn k
  · obtain ⟨k, rfl⟩ := prefix_cases p hq; exact hP k

theorem safe_create {P : FS → Prop} {r : Root} {p : Path} (hn : ∀ k, Neutral r (p.take k)) (hU : ∀ x ∈ p, U x) (hP : ∀ k, Stable P r (p.take k)) :
    Safe U envs P (createDir r p) fun _ => P := by
  refine safe_createDir (fun q hq => ?_) hU fun q hq => ?_
  · obtain ⟨k, rfl⟩ := prefix_cases p hq; exact hn k
  · obtain ⟨k, rfl⟩ := prefix_cases p hq; exact hP k

theorem neutral_of {r : Root} {p : Path} (hr : r ≠ .home) (h1 : p ≠ [.startup]) (h2 : p ≠ [.history]) : Neutral r p :=
  ⟨hr, fun h => h1 h.2, fun h => h2 h.2⟩

theorem take_ne {p : Path} {n : Name} (h : p.head? ≠ some n) (k : Nat) : p.take k ≠ [n] := by
  intro e
  have := congrArg List.head? e
  rw [List.head?_take] at this
  split at this
  · simp at this
  · exact h (by simpa using this)

theorem neutral_take {r : Root} {p : Path} (hr : r ≠ .home) (h1 : p.head? ≠ some .startup) (h2 : p.head? ≠ some .history) (k : Nat) :
    Neutral r (p.take k) := neutral_of hr (take_ne h1 k) (take_ne h2 k)

theorem fresh_take {r : Root} {p : Path} (h : p.length < 3 ∨ r = .data) (k : Nat) : Stable Fresh r (p.take k) := by
  refine stable_fresh ?_
  rintro ⟨rfl, e⟩
  rcases h with h | h
  · have := congrArg List.length e
    simp at this; omega
  · cases h

theorem safe_initLayout {c : Cfg} (hc : Closed U) (he : envs c.envName) (hen : U (.user c.envName)) :
    Safe U envs Fresh (initLayout c) fun _ _ => True := by
  have lit : ∀ n : Name, (∀ k, n ≠ .user k) → U n := hc
  have hw : U .workspace := lit _ (by simp)
  have hb : U .broken := lit _ (by simp)
  have hd : U .default_ := lit _ (by simp)
  have hs : U .startup := lit _ (by simp)
  have hm : U .marker := lit _ (by simp)
  have hh : U .history := lit _ (by simp)
  have hr : U .reservoirs := lit _ (by simp)
  unfold initLayout
  refine Safe.bind (Q := fun _ => Fresh) ?_ fun _ => ?_
  · exact (safe_ensureDir (by simp [Neutral]) (by simp) (stable_fresh (by simp))).weaken (fun _ _ h => h) fun _ _ h => h.1
  refine Safe.bind (safe_dirs (neutral_take (by simp) (by simp) (by simp)) (by simpa using hw) (fresh_take (by simp))) fun _ => ?_
  refine Safe.bind (safe_dirs (neutral_take (by simp) (by simp) (by simp)) (by simpa using hb) (fresh_take (by simp))) fun _ => ?_
  refine Safe.bind (Q := fun _ => Fresh) ?_ fun _ => ?_
  · exact (safe_ensureDir (by simp [Neutral]) (by simp) (stable_fresh (by simp))).weaken (fun _ _ h => h) fun _ _ h => h.1
  refine Safe.bind (safe_dirs (neutral_take (by simp) (by simp) (by simp)) (by simpa using hw) (fresh_take (by simp))) fun _ => ?_
  refine Safe.bind (safe_dirs (neutral_take (by simp) (by simp) (by simp)) (by simpa using hb) (fresh_take (by simp))) fun _ => ?_
  refine Safe.bind (safe_writeVersion hc (stable_fresh (by simp)) (stable_fresh (by simp))) fun _ => ?_
  refine Safe.bind (safe_create (neutral_take (by simp) (by simp) (by simp)) (by simp [hw, hd]) (fresh_take (by simp))) fun _ => ?_
  refine Safe.bind (Q := fun _ _ => True) ?_ fun _ => ?_
  · refine (safe_writeFile (P := Fresh) (P' := fun _ => True) (by simp [Neutral]) (by simp [hw, hd, hs]) (fun _ _ => trivial)
      (stable_true _ _) fun fs h => .inl ?_).weaken (fun _ _ h => h) fun _ _ _ => trivial
    unfold Fresh at h; simp [h]
  refine Safe.bind (safe_touch (by simp [Neutral]) (by simp [hw, hd, hm]) (stable_true _ _)) fun _ => ?_
  refine Safe.bind (safe_create (neutral_take (by simp) (by simp) (by simp)) (by simp [hw, hd]) fun _ => stable_true _ _) fun _ => ?_
  refine Safe.bind (safe_create (neutral_take (by simp) (by simp) (by simp)) (by simp [hw, hd, hr]) fun _ => stable_true _ _) fun _ => ?_
  refine Safe.bind (Q := fun _ _ => True) ?_ fun _ => ?_
  · exact (safe_writeFile (by simp [Neutral]) (by simp [hw, hd, hen]) (fun _ h => h) (stable_true _ _) fun _ _ => .inr (.env _ he)).weaken
      (fun _ _ h => h) fun _ _ _ => trivial
  exact safe_touch (by simp [Neutral]) (by simp [hw, hd, hh]) (stable_true _ _)

/-- If no layout is recognized, there is no startup script of the default workspace. -/
theorem fresh_of_noLayout {fs : FS} (ht : Tree fs) (h : layoutOf fs = some none) : Fresh fs := by
  unfold Fresh
  cases hs : fs .config [.workspace, .default_, .startup] with
  | none => rfl
  | some x =>
    exfalso
    have h2 : fs .config [.workspace, .default_] = some .dir := ht.prefix [.workspace, .default_] [.startup] (by simp) (by simp [hs])
    have h1 : fs .config [.workspace] = some .dir := ht.prefix [.workspace] [.default_] (by simp) (by simp [h2])
    have h0 : fs .config [] = some .dir := ht.prefix [] [.workspace] (by simp) (by simp [h1])
    have hw : matchWs3 fs = true := by simp [matchWs3, has, h0, h1, h2]
    unfold layoutOf at h
    split at h
    · simp at h
    · simp at h
    · simp [hw] at h

theorem safe_ensureCurrent {c : Cfg} (hc : Closed U) (h : StartOk U envs c) :
    Safe U envs (fun _ => True) (ensureCurrent c) fun _ _ => True := by
  unfold ensureCurrent
  have tail : Safe U envs (fun _ => True) (do
      ensureDir .config []
      if ← get (outdated c) then writeVersion c else pure ()) fun _ _ => True := by
    refine Safe.bind (Q := fun _ _ => True) ?_ fun _ => ?_
    · exact (safe_ensureDir (by simp [Neutral]) (by simp) (stable_true _ _)).weaken (fun _ _ h => h) fun _ _ _ => trivial
    exact Safe.get fun x => Safe.ite (fun _ => (safe_writeVersion hc (stable_true _ _) (stable_true _ _)).weaken (fun _ _ h => h.1) fun _ _ h => h)
      fun _ => Safe.pure _ fun _ h => h.1
  refine Safe.get fun x => ?_
  match x with
  | none => exact Safe.bind (Q := fun _ _ => True) Safe.fail fun _ => tail
  | some none =>
    refine Safe.bind (Q := fun _ _ => True) ?_ fun _ => tail
    exact (safe_initLayout hc h.env h.envName).weaken (fun fs hi hp => fresh_of_noLayout hi.tree hp.2) fun _ _ _ => trivial
  | some (some l) =>
    refine Safe.bind (Q := fun _ _ => True) ?_ fun _ => tail
    exact (safe_migrateFrom h.names hc l).weaken (fun _ _ _ => trivial) fun _ _ _ => trivial

/-- **C54.** However often marcel is started, and at whatever points these starts are interrupted: every file is still there, with the same contents,
at its old place or where the upgrade puts it; except for files whose contents are replaced by intention. -/
theorem C54_no_loss (hc : Closed U) (fs : FS) (ht : Tree fs) (hu : Uses U fs) (hn : NoConflict fs) (runs : List (Cfg × Option Nat))
    (hr : ∀ x ∈ runs, StartOk U envs x.1) : Kept envs fs (starts fs runs) := by
  suffices h : ∀ fs, Inv U fs → Kept envs fs (starts fs runs) from h fs ⟨ht, hu, hn⟩
  clear ht hu hn fs
  induction runs with
  | nil => intro fs _; exact .refl fs
  | cons x runs ih =>
    intro fs hi
    obtain ⟨⟨h1, h2⟩, _⟩ := safe_ensureCurrent hc (hr x (by simp)) fs x.2 hi trivial
    exact h2.trans (ih (fun y hy => hr y (by simp [hy])) _ h1)

/-- Files in the directories of workspaces stay where they are. -/
theorem later_workspace {r : Root} {n : Name} {q : Path} (hn : n ≠ .oldDefault) (hr : r ≠ .home) {p' : Place}
    (h : Later (r, .workspace :: n :: q) p') : p' = (r, .workspace :: n :: q) := by
  cases h with
  | refl => rfl
  | step m _ =>
    cases m with
    | defaultConfig _ _ h => simp at h
    | defaultData _ _ h => simp at h
    | workspace _ _ _ _ h => exact absurd rfl h
    | default_ => exact absurd rfl hn

/-- **C54**, for the files of workspaces in the current layout, except histories and the environment of the default workspace: they stay as they are, in the same place. -/
theorem C54_workspaces (hc : Closed U) (fs : FS) (ht : Tree fs) (hu : Uses U fs) (hn : NoConflict fs) (runs : List (Cfg × Option Nat))
    (hr : ∀ x ∈ runs, StartOk U envs x.1) (r : Root) (hr' : r ≠ .home) (n : Name) (hno : n ≠ .oldDefault) (q : Path) (hq : q ≠ [])
    (hh : q ≠ [.history]) (hen : ∀ k, envs k → q ≠ [.user k]) (c : Text) (hf : fs r (.workspace :: n :: q) = some (.file c)) :
    starts fs runs r (.workspace :: n :: q) = some (.file c) := by
  obtain ⟨r', p', hl, h⟩ := C54_no_loss (envs := envs) hc fs ht hu hn runs hr r _ c hf
  have e := later_workspace hno hr' hl
  rw [Prod.mk.injEq] at e
  obtain ⟨rfl, rfl⟩ := e
  rcases h with h | h
  · exfalso
    generalize hp : (r', Name.workspace :: n :: q) = P at h
    cases h with
    | version => simp at hp
    | history => simp at hp; exact hh hp.2.2
    | env k hk => simp at hp; exact hen k hk hp.2.2
    | notDir => simp at hp; exact hq hp.2.2
  · exact h

/-- **C54**, for the oldest layout: the startup script is in one of the five places it goes through. -/
theorem C54_startup (hc : Closed U) (fs : FS) (ht : Tree fs) (hu : Uses U fs) (hn : NoConflict fs) (runs : List (Cfg × Option Nat))
    (hr : ∀ x ∈ runs, StartOk U envs x.1) (c : Text) (hf : fs .home [.dotMarcel] = some (.file c)) :
    ∃ x ∈ ([(.home, [.dotMarcel]), (.config, [.startup]), (.config, [.oldDefault, .startup]), (.config, [.workspace, .startup]),
      (.config, [.workspace, .oldDefault, .startup]), (.config, [.workspace, .default_, .startup])] : List Place),
      starts fs runs x.1 x.2 = some (.file c) := by
  obtain ⟨r', p', hl, h⟩ := C54_no_loss (envs := envs) hc fs ht hu hn runs hr _ _ c hf
  have key : ∀ x y : Place, Later x y →
      x ∈ ([(.home, [.dotMarcel]), (.config, [.startup]), (.config, [.oldDefault, .startup]), (.config, [.workspace, .startup]),
      (.config, [.workspace, .oldDefault, .startup]), (.config, [.workspace, .default_, .startup])] : List Place) →
      y ∈ ([(.home, [.dotMarcel]), (.config, [.startup]), (.config, [.oldDefault, .startup]), (.config, [.workspace, .startup]),
      (.config, [.workspace, .oldDefault, .startup]), (.config, [.workspace, .default_, .startup])] : List Place) := by
    intro x y hl
    induction hl with
    | refl => exact id
    | step m _ ih =>
      intro hx
      apply ih
      simp only [List.mem_cons, List.not_mem_nil, or_false] at hx
      rcases hx with rfl | rfl | rfl | rfl | rfl | rfl <;> cases m <;> simp_all
  have hm := key _ _ hl (by simp)
  refine ⟨_, hm, ?_⟩
  rcases h with h | h
  · exfalso
    cases h <;> simp at hm
  · exact h

/-! ## Without the hypothesis -/

/-- A run of marcel: names 0 and 1 are workspaces. -/
def exampleCfg : Cfg where
  names := [.startup, .marker, .history, .reservoirs, .oldDefault, .default_, .workspace, .broken, .version, .user 0, .user 1, .user 7,
    .dotMarcel, .dotHistory]
  now := "2025-04-02 16:54:22.895547".toList
  text := "+x\n".toList
  version := "0.34".toList
  older := fun v => v != "0.34".toList
  initial := "initial".toList
  envName := 7
  env := "env".toList

/-- A startup script in the old place and another one in the new one. -/
def conflictFS : FS := .ofList [
  (.home, [], .dir), (.home, [.dotMarcel], .file "old".toList), (.home, [.dotHistory], .file "ls\n".toList),
  (.config, [], .dir), (.config, [.startup], .file "new".toList)]

/-- **C54 fails if there is a startup script in two places**: the one in the configuration directory is overwritten. -/
theorem C54_false_conflict :
    conflictFS .config [.startup] = some (.file "new".toList) ∧
    (ensureCurrent exampleCfg conflictFS (some 3)).fs .config [.startup] = some (.file "old".toList) := by
  decide +kernel

/-! ## The hypotheses are met -/

/-- The oldest layout. -/
def originalFS : FS := .ofList [
  (.home, [], .dir), (.home, [.dotMarcel], .file "x = 1".toList), (.home, [.dotHistory], .file "ls\n".toList)]

example : Tree originalFS ∧ NoConflict originalFS ∧ Uses (fun n => n ∈ exampleCfg.names) originalFS :=
  ⟨tree_ofList (by decide +kernel), by unfold NoConflict; decide +kernel, uses_ofList (by decide +kernel)⟩

example : Closed (fun n => n ∈ exampleCfg.names) ∧ StartOk (fun n => n ∈ exampleCfg.names) (fun k => k = 7) exampleCfg := by
  refine ⟨?_, ⟨fun _ h => h, rfl, by decide +kernel⟩⟩
  intro n hn
  cases n <;> first | (simp [exampleCfg]; done) | exact absurd rfl (hn _)

/-- Interrupted after 7 steps, the startup script is on its way. -/
example : starts originalFS [(exampleCfg, some 7)] .config [.startup] = some (.file "x = 1".toList) ∧
    starts originalFS [(exampleCfg, some 11)] .config [.oldDefault, .startup] = some (.file "x = 1".toList) := by decide +kernel

end Marcel.Storage
