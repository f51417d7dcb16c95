import Verif.Lemmas.StorageRun

/-! # C53: an upgrade keeps everything, and puts it where marcel looks for it -/

namespace Marcel.Storage

theorem Tree.dir {fs : FS} (h : Tree fs) {r : Root} (p : Path) (n : Name) (q : Path) (hs : (fs r (p ++ n :: q)).isSome) : fs r p = some .dir :=
  h.prefix p (n :: q) (by simp) hs

theorem Tree.none_below {fs : FS} (h : Tree fs) {r : Root} {p : Path} (hp : fs r p ≠ some .dir) (n : Name) (q : Path) : fs r (p ++ n :: q) = none := by
  cases hs : fs r (p ++ n :: q) with
  | none => rfl
  | some x => exact absurd (h.dir p n q (by simp [hs])) hp

/-! ## Which layout it is -/

theorem layout_pt {fs : FS} (h : IsPt fs) : layoutOf fs = some (some .pt) := by
  obtain ⟨c, hc, hl⟩ := h.history
  have h1 := h.tree.dir (r := .config) [.workspace] .default_ [] (by simp [h.config])
  have h0 := h.tree.dir (r := .config) [] .workspace [] (by simp [h1])
  simp [layoutOf, matchPt, has, h0, h1, h.config, hc, hl]

theorem layout_ws3 {fs : FS} (h : IsWs3 fs) : layoutOf fs = some (some .ws3) := by
  obtain ⟨c, hc, hl⟩ := h.history
  have h1 := h.tree.dir (r := .config) [.workspace] .default_ [] (by simp [h.config])
  have h0 := h.tree.dir (r := .config) [] .workspace [] (by simp [h1])
  simp [layoutOf, matchPt, matchWs3, has, h0, h1, h.config, hc, hl]

theorem layout_ws2 {fs : FS} (h : IsWs2 fs) : layoutOf fs = some (some .ws2) := by
  have hw := h.workspace .config (by simp)
  have hd := h.oldDefault .config (by simp)
  simp [layoutOf, matchPt, matchWs3, matchWs2, has, hw, hd, h.config]

theorem layout_ws1 {fs : FS} (h : IsWs1 fs) : layoutOf fs = some (some .ws1) := by
  have hw := h.workspace .config (by simp)
  have hd := h.oldDefault .config (by simp)
  simp [layoutOf, matchPt, matchWs3, matchWs2, matchWs1, has, hw, hd, h.config, h.marker]

theorem layout_xdg {fs : FS} (h : IsXdg fs) : layoutOf fs = some (some .xdg) := by
  have hw := h.workspace .config (by simp)
  have hd := h.oldDefault .config (by simp)
  simp [layoutOf, matchPt, matchWs3, matchWs2, matchWs1, matchXdg, has, hw, hd, h.config, h.marker, h.data]

theorem layout_original {fs : FS} (h : IsOriginal fs) : layoutOf fs = some (some .original) := by
  have hw := h.config [.workspace] (by simp)
  have hd := h.config [.oldDefault] (by simp)
  have hm := h.config [.marker] (by simp)
  obtain ⟨c, hc, _⟩ := h.history
  have hs := h.startup
  rcases h.roots with ⟨h1, _⟩ | ⟨h1, h2⟩
  · simp [layoutOf, matchPt, matchWs3, matchWs2, matchWs1, matchXdg, matchOriginal, has, hw, hd, hm, h1, hs, hc]
  · simp [layoutOf, matchPt, matchWs3, matchWs2, matchWs1, matchXdg, matchOriginal, has, hw, hd, hm, h1, h2, hs, hc]

/-! ## Histories -/

theorem resetHistory_ok {now text : Text} {n : Name} {fs : FS} {c : Text} (h : fs .data [.workspace, n, .history] = some (.file c))
    (hd : fs .data [.workspace, n] = some .dir) :
    resetHistory now text n fs none = .ok () (fs.set .data [.workspace, n, .history] (some (.file (newHistory now text)))) none := by
  unfold resetHistory
  rw [bind_ok (unlink_ok h), writeFile_ok, set_set]
  · rw [set_same]; simp
  · rw [set_other _ _ (by simp)]; exact hd

/-- The histories of some workspaces have been replaced. -/
def resetSome (new : Text) (l : List Name) (fs : FS) : FS := fun r p =>
  match r, p with
  | .data, [.workspace, n, .history] => if n ∈ l then some (.file new) else fs .data [.workspace, n, .history]
  | r, p => fs r p

theorem resetSome_cons (new : Text) (n : Name) (l : List Name) (fs : FS) :
    resetSome new l (fs.set .data [.workspace, n, .history] (some (.file new))) = resetSome new (n :: l) fs := by
  funext r p
  unfold resetSome
  split
  · rename_i m
    by_cases h : m ∈ l
    · simp [h]
    · by_cases h' : m = n
      · subst h'; simp [h, set_same]
      · simp [h, h', FS.set]
  · rename_i h
    rw [set_other]
    rintro ⟨rfl, rfl⟩
    exact h n rfl rfl

theorem forM_resetHistory {now text : Text} (l : List Name) (fs : FS) (hl : l.Nodup)
    (h : ∀ n ∈ l, fs .data [.workspace, n] = some .dir ∧ ∃ c, fs .data [.workspace, n, .history] = some (.file c)) :
    l.forM (resetHistory now text) fs none = .ok () (resetSome (newHistory now text) l fs) none := by
  induction l generalizing fs with
  | nil =>
    show Res.ok () fs none = _
    congr 1
    funext r p
    unfold resetSome
    split <;> simp
  | cons n l ih =>
    obtain ⟨hd, c, hc⟩ := h n (by simp)
    rw [List.nodup_cons] at hl
    show (resetHistory now text n >>= fun _ => l.forM (resetHistory now text)) fs none = _
    rw [bind_ok (resetHistory_ok hc hd), ih _ hl.2, resetSome_cons]
    intro m hm
    have hne : m ≠ n := fun e => hl.1 (e ▸ hm)
    rw [set_other _ _ (by simp), set_other _ _ (by simp [hne])]
    exact h m (by simp [hm])

theorem resetSome_all {new : Text} {names : List Name} {fs : FS} (h : IsWs3 fs) (hn : Lists names fs) :
    resetSome new (names.filter fun n => isDir .data ([.workspace] ++ [n]) fs) fs = ws3ToPt new fs := by
  funext r p
  unfold resetSome ws3ToPt
  split
  · rename_i n
    simp only [List.mem_filter, isDir, List.cons_append, List.nil_append, decide_eq_true_eq]
    by_cases hd : fs .data [.workspace, n] = some .dir
    · have : n ∈ names := hn.all .data [.workspace] n (by simp [hd])
      simp [hd, this]
    · have : fs .data [.workspace, n, .history] = none := h.tree.none_below (p := [.workspace, n]) hd .history []
      simp [hd, this]
  · rename_i hne
    split
    · rename_i n; exact absurd rfl (hne n rfl)
    · rfl

theorem ws3ToPt_isPt {now text : Text} (ht : IsTime now) {fs : FS} (h : IsWs3 fs) : IsPt (ws3ToPt (newHistory now text) fs) := by
  refine ⟨?_, ?_, ?_, ?_⟩
  · intro r p n hs
    have hsome : (fs r (p ++ [n])).isSome := by
      unfold ws3ToPt at hs
      split at hs
      · rename_i m e
        have : p = [.workspace, m] ∧ [n] = [.history] := List.append_inj' (t₁ := [n]) (s₂ := [.workspace, m]) (t₂ := [.history]) e rfl
        obtain ⟨rfl, e2⟩ := this
        simp at e2; subst e2
        split at hs
        · rename_i hd
          obtain ⟨c, hc⟩ := h.histories m hd
          simpa using hc ▸ (by simp : (some (Node.file c)).isSome = true)
        · simp at hs
      · exact hs
    have hd := h.tree _ _ _ hsome
    unfold ws3ToPt
    split
    · rename_i m
      have hdd := h.tree.dir (r := .data) [.workspace, m] .history [] (by simp [hd])
      obtain ⟨c, hc⟩ := h.histories m hdd
      rw [hc] at hd; simp at hd
    · exact hd
  · exact h.config
  · refine ⟨newHistory now text, ?_, looksPt_new text ht⟩
    simp [ws3ToPt, h.data]
  · exact h.version

theorem migrateWs3_ok {names : List Name} {now text : Text} (ht : IsTime now) {fs : FS} (h : IsWs3 fs) (hn : Lists names fs) :
    migrateWs3 names now text fs none = .ok () (ws3ToPt (newHistory now text) fs) none := by
  have hw := h.tree.dir [.workspace] .default_ [] (r := .data) (by simp [h.data])
  unfold migrateWs3
  rw [bind_ok (subdirs_ok hw), bind_ok (forM_resetHistory _ _ _ _), resetSome_all h hn]
  · exact expect_ok (layout_pt (ws3ToPt_isPt ht h))
  · exact hn.nodup.filter _
  · intro n hn'
    simp only [List.mem_filter, isDir, List.cons_append, List.nil_append, decide_eq_true_eq] at hn'
    exact ⟨hn'.2, h.histories n hn'.2⟩

/-! ## Workspaces -/

/-- Some directories have been moved to the directory `workspace`. -/
def moved (r : Root) (l : List Name) (fs : FS) : FS := fun r' p =>
  if r' = r then
    match p with
    | [] => fs r []
    | [.workspace] => fs r [.workspace]
    | .workspace :: n :: q => if n ∈ l then fs r (n :: q) else fs r (.workspace :: n :: q)
    | n :: q => if n ∈ l then none else fs r (n :: q)
  else fs r' p

theorem move_ws {r : Root} {n : Name} (hn : n ≠ .workspace) (fs : FS) :
    fs.move r [n] r [.workspace, n] = moved r [n] fs := by
  funext r' p
  by_cases hr : r' = r
  · subst hr
    cases p with
    | nil => simp [moved, FS.move, strip]
    | cons a p =>
      by_cases ha : a = .workspace
      · subst ha
        cases p with
        | nil => simp [moved, FS.move, strip, hn]
        | cons b q =>
          by_cases hb : b = n
          · subst hb; simp [moved, FS.move, strip]
          · simp [moved, FS.move, strip, hb, Ne.symm hb, hn]
      · by_cases hb : a = n
        · subst hb; simp [moved, FS.move, strip, ha, Ne.symm ha]
        · cases a <;> simp_all [moved, FS.move, strip, Ne.symm hb]
  · simp [moved, FS.move, hr]

theorem moved_moved {r : Root} {n : Name} {l : List Name} (hn : n ≠ .workspace) (hw : Name.workspace ∉ l) (hnl : n ∉ l) (fs : FS) :
    moved r l (moved r [n] fs) = moved r (n :: l) fs := by
  funext r' p
  by_cases hr : r' = r
  · subst hr
    cases p with
    | nil => simp [moved]
    | cons a p =>
      by_cases ha : a = .workspace
      · subst ha
        cases p with
        | nil => simp [moved]
        | cons b q =>
          by_cases hb : b = n
          · subst hb; simp [moved, hnl]
          · by_cases hbl : b ∈ l
            · have hbw : b ≠ .workspace := fun e => hw (e ▸ hbl)
              cases b <;> simp_all [moved]
            · simp [moved, hb, hbl]
      · by_cases hb : a = n
        · subst hb; cases a <;> simp_all [moved]
        · cases a <;> simp_all [moved]
  · simp [moved, hr]

theorem moveWorkspace_ok {names : List Name} {r : Root} {n : Name} {fs : FS} (hn : n ≠ .workspace) (h1 : (fs r [n]).isSome)
    (h2 : fs r [.workspace] = some .dir) (h3 : fs r [.workspace, n] = none) :
    moveWorkspace names r n fs none = .ok () (moved r [n] fs) none := by
  unfold moveWorkspace
  rw [if_neg hn, bind_ok (shMove_into hn h1 h2 h3), move_ws hn, get_bind]
  have e1 : moved r [n] fs r [.workspace, n] = fs r [n] := by simp [moved]
  have e2 : moved r [n] fs r [n] = none := by cases n <;> simp_all [moved]
  simp only [has, e1, h1, e2]; rfl

theorem forM_moveWorkspace {names : List Name} {r : Root} (l : List Name) (fs : FS) (hl : l.Nodup)
    (h : ∀ n ∈ l, n ≠ .workspace → (fs r [n]).isSome ∧ fs r [.workspace, n] = none) (hw : fs r [.workspace] = some .dir) :
    l.forM (moveWorkspace names r) fs none = .ok () (moved r (l.filter (· ≠ .workspace)) fs) none := by
  induction l generalizing fs with
  | nil =>
    show Res.ok () fs none = _
    congr 1
    funext r' p
    unfold moved
    split
    · rename_i e; subst e; split <;> simp
    · rfl
  | cons n l ih =>
    rw [List.nodup_cons] at hl
    show (moveWorkspace names r n >>= fun _ => l.forM (moveWorkspace names r)) fs none = _
    by_cases hn : n = .workspace
    · have : moveWorkspace names r n fs none = .ok () fs none := by simp [moveWorkspace, hn, pure_def]
      rw [bind_ok this, ih fs hl.2 (fun m hm => h m (by simp [hm])) hw]
      simp [hn]
    · obtain ⟨h1, h2⟩ := h n (by simp) hn
      rw [bind_ok (moveWorkspace_ok hn h1 hw h2), ih _ hl.2]
      · rw [moved_moved hn (by simp) (fun hm => hl.1 (List.mem_filter.1 hm).1)]
        simp [hn]
      · intro m hm hmw
        have hmn : m ≠ n := fun e => hl.1 (e ▸ hm)
        obtain ⟨g1, g2⟩ := h m (by simp [hm]) hmw
        constructor
        · have : moved r [n] fs r [m] = fs r [m] := by cases m <;> simp_all [moved]
          rw [this]; exact g1
        · simp [moved, hmn, g2]
      · simp [moved, hw]

/-- The upgrade of one of the two directories. -/
def fixedDirs (r : Root) (fs : FS) : FS := fun r' p => if r' = r then ws2ToWs3 fs r p else fs r' p

/-- What `fix_dirs` needs. -/
structure Fixable (names : List Name) (r : Root) (fs : FS) : Prop where
  tree : Tree fs
  lists : Lists names fs
  root : fs r [] = some .dir
  workspace : fs r [.workspace] = none
  default_ : fs r [.default_] ≠ some .dir
  broken : ∀ c, fs r [.broken] ≠ some (.file c)
  oldDefault : fs r [.oldDefault] = some .dir

theorem fixDirs_ok {names : List Name} {r : Root} (hr : r ≠ .home) {fs : FS} (h : Fixable names r fs) :
    fixDirs names r fs none = .ok () (fixedDirs r fs) none := by
  have hbelow : ∀ n q, fs r (.workspace :: n :: q) = none := fun n q =>
    h.tree.none_below (p := [.workspace]) (by simp [h.workspace]) n q
  unfold fixDirs
  rw [bind_ok (ensureDirs_one h.root (.inl h.workspace))]
  have e0 : (fs.set r [.workspace] (some .dir)) r [] = some .dir := by rw [set_other _ _ (by simp)]; exact h.root
  rw [bind_ok (subdirs_ok e0)]
  generalize hL : (names.filter fun n => isDir r ([] ++ [n]) (fs.set r [.workspace] (some .dir))) = L
  have memL : ∀ n, n ≠ .workspace → (n ∈ L ↔ fs r [n] = some .dir) := by
    intro n hn
    rw [← hL, List.mem_filter]
    simp only [isDir, List.nil_append, decide_eq_true_eq]
    rw [set_other _ _ (by simp [hn])]
    exact ⟨fun h => h.2, fun hd => ⟨h.lists.all r [] n (by simp [hd]), hd⟩⟩
  have ndL : L.Nodup := hL ▸ h.lists.nodup.filter _
  rw [bind_ok (forM_moveWorkspace L _ ndL _ (set_same ..))]
  rotate_left
  · intro n hn hnw
    rw [set_other _ _ (by simp [hnw]), set_other _ _ (by simp)]
    exact ⟨by rw [(memL n hnw).1 hn]; rfl, hbelow n []⟩
  generalize hM : L.filter (fun n => decide (n ≠ .workspace)) = M
  have memM : ∀ n, n ∈ M ↔ n ≠ .workspace ∧ fs r [n] = some .dir := by
    intro n
    rw [← hM, List.mem_filter]
    by_cases hn : n = .workspace
    · simp [hn]
    · simp [hn, memL n hn]
  have hwM : Name.workspace ∉ M := by simp [memM]
  have hdM : Name.default_ ∉ M := by simp [memM, h.default_]
  have hoM : Name.oldDefault ∈ M := by simp [memM, h.oldDefault]
  have e1 : moved r M (fs.set r [.workspace] (some .dir)) r [.workspace, .oldDefault] = some .dir := by
    simp [moved, hoM, FS.set, h.oldDefault]
  have e2 : moved r M (fs.set r [.workspace] (some .dir)) r [.workspace, .default_] = none := by
    simp [moved, hdM, FS.set, hbelow]
  have e3 : moved r M (fs.set r [.workspace] (some .dir)) r [.workspace] = some .dir := by
    simp [moved, FS.set]
  rw [bind_ok (rename_ok (by simp [e1]) (by simp) e3 e2), mkdir_ok]
  · congr 1
    funext r' p
    by_cases hr' : r' = r
    · subst hr'
      rw [fixedDirs, if_pos rfl]
      cases p with
      | nil => cases r' <;> simp_all [FS.set, FS.move, strip, moved, ws2ToWs3]
      | cons a p =>
        by_cases ha : a = .workspace
        · subst ha
          cases p with
          | nil => cases r' <;> simp_all [FS.set, FS.move, strip, moved, ws2ToWs3]
          | cons b q =>
            by_cases hb1 : b = .default_
            · subst hb1
              cases r' <;> simp_all [FS.set, FS.move, strip, moved, ws2ToWs3]
            · by_cases hb2 : b = .oldDefault
              · subst hb2
                cases r' <;> simp_all [FS.set, FS.move, strip, moved, ws2ToWs3]
              · have hl : (ws2ToWs3 fs r' (.workspace :: b :: q)) = if fs r' [b] = some .dir then fs r' (b :: q) else none := by
                  cases r' <;> cases b <;> simp_all [ws2ToWs3]
                rw [hl]
                have hs : ∀ x y : Name, x = .default_ ∨ x = .oldDefault → x ≠ b := by
                  intro x _ hx e; subst e; rcases hx with rfl | rfl <;> simp_all
                have hmv : ∀ g : FS, g.move r' [.workspace, .oldDefault] r' [.workspace, .default_] r' (.workspace :: b :: q) = g r' (.workspace :: b :: q) := by
                  intro g
                  apply move_other
                  · rintro ⟨_, q', e⟩; simp at e; exact hb1 e.1
                  · rintro ⟨_, q', e⟩; simp at e; exact hb2 e.1
                rw [set_other _ _ (by simp), hmv]
                by_cases hbw : b = .workspace
                · subst hbw
                  simp [moved, hwM, FS.set, hbelow, h.workspace]
                · simp only [moved, ↓reduceIte, memM, ne_eq, hbw, not_false_eq_true, true_and]
                  by_cases hd : fs r' [b] = some .dir
                  · simp [hd, FS.set, hbw]
                  · simp [hd, FS.set, hbelow]
        · have hmv : ∀ g : FS, g.move r' [.workspace, .oldDefault] r' [.workspace, .default_] r' (a :: p) = g r' (a :: p) := by
            intro g
            apply move_other
            · rintro ⟨_, q', e⟩; simp at e; exact ha e.1
            · rintro ⟨_, q', e⟩; simp at e; exact ha e.1
          by_cases hbr : a = .broken ∧ p = []
          · obtain ⟨rfl, rfl⟩ := hbr
            cases r' <;> simp_all [FS.set, ws2ToWs3]
          · have hl : (ws2ToWs3 fs r' (a :: p)) = if fs r' [a] = some .dir then none else fs r' (a :: p) := by
              cases r' <;> cases a <;> cases p <;> simp_all [ws2ToWs3]
            rw [hl, set_other _ _ (by simpa using hbr), hmv]
            have hmo : moved r' M (fs.set r' [.workspace] (some .dir)) r' (a :: p) = if a ∈ M then none else fs r' (a :: p) := by
              cases a <;> simp_all [moved, FS.set]
            rw [hmo]
            simp [memM, ha]
    · rw [fixedDirs, if_neg hr', set_other _ _ (by simp [hr']), move_other (by simp [hr']) (by simp [hr'])]
      simp [moved, hr', FS.set]
  · rw [move_other (by simp) (by simp)]
    simp only [moved, ↓reduceIte, memM, ne_eq, reduceCtorEq, not_false_eq_true, true_and]
    split
    · rfl
    · rename_i hd
      rw [set_other _ _ (by simp)]
      cases hb : fs r [.broken] with
      | none => rfl
      | some x =>
        cases x with
        | dir => exact absurd hb hd
        | file c => exact absurd hb (h.broken c)
  · right
    rw [move_other (by simp) (by simp)]
    simp [moved, FS.set, h.root]

/-- `ws2ToWs3` at a place outside the directory `workspace`. -/
theorem ws2ToWs3_outside {fs : FS} {r : Root} (hr : r ≠ .home) {a : Name} {p : Path} (ha : a ≠ .workspace) (hb : ¬(a = .broken ∧ p = [])) :
    ws2ToWs3 fs r (a :: p) = if fs r [a] = some .dir then none else fs r (a :: p) := by
  cases r <;> cases a <;> cases p <;> simp_all [ws2ToWs3]

/-- `ws2ToWs3` at a place in the directory of a named workspace. -/
theorem ws2ToWs3_inside {fs : FS} {r : Root} (hr : r ≠ .home) {b : Name} {q : Path} (h1 : b ≠ .default_) (h2 : b ≠ .oldDefault) :
    ws2ToWs3 fs r (.workspace :: b :: q) = if fs r [b] = some .dir then fs r (b :: q) else none := by
  cases r <;> cases b <;> simp_all [ws2ToWs3]

theorem ws2ToWs3_default {fs : FS} {r : Root} (hr : r ≠ .home) (q : Path) :
    ws2ToWs3 fs r (.workspace :: .default_ :: q) = fs r (.oldDefault :: q) := by
  cases r <;> simp_all [ws2ToWs3]

theorem ws2ToWs3_old {fs : FS} {r : Root} (hr : r ≠ .home) (q : Path) : ws2ToWs3 fs r (.workspace :: .oldDefault :: q) = none := by
  cases r <;> simp_all [ws2ToWs3]

theorem ws2ToWs3_ws {fs : FS} {r : Root} (hr : r ≠ .home) : ws2ToWs3 fs r [.workspace] = some .dir := by
  cases r <;> simp_all [ws2ToWs3]

theorem ws2ToWs3_broken {fs : FS} {r : Root} (hr : r ≠ .home) : ws2ToWs3 fs r [.broken] = some .dir := by
  cases r <;> simp_all [ws2ToWs3]

theorem ws2ToWs3_root {fs : FS} {r : Root} : ws2ToWs3 fs r [] = fs r [] := by
  cases r <;> simp [ws2ToWs3]

theorem ws2ToWs3_tree {fs : FS} {r : Root} (ht : Tree fs) (hroot : fs r [] = some .dir) (hr : r ≠ .home) (p : Path) (n : Name)
    (h : (ws2ToWs3 fs r (p ++ [n])).isSome) : ws2ToWs3 fs r p = some .dir := by
  cases p with
  | nil => rw [ws2ToWs3_root]; exact hroot
  | cons a p =>
    by_cases ha : a = .workspace
    · subst ha
      cases p with
      | nil => exact ws2ToWs3_ws hr
      | cons b q =>
        simp only [List.cons_append] at h
        by_cases h1 : b = .default_
        · subst h1
          rw [ws2ToWs3_default hr] at h ⊢
          exact ht r (.oldDefault :: q) n h
        · by_cases h2 : b = .oldDefault
          · subst h2; rw [ws2ToWs3_old hr] at h; simp at h
          · rw [ws2ToWs3_inside hr h1 h2] at h ⊢
            split at h
            · rename_i hd
              rw [if_pos hd]
              exact ht r (b :: q) n h
            · simp at h
    · simp only [List.cons_append] at h
      rw [ws2ToWs3_outside hr ha (by simp)] at h
      split at h
      · simp at h
      · rename_i hd
        cases p with
        | nil => exact absurd (ht.dir [a] n [] (r := r) (by simpa using h)) hd
        | cons b p => exact absurd (ht.dir [a] b (p ++ [n]) (r := r) (by simpa using h)) hd

theorem ws2ToWs3_lists {names : List Name} {fs : FS} {r : Root} (hl : Lists names fs) (hr : r ≠ .home) (p : Path) (n : Name)
    (h : (ws2ToWs3 fs r (p ++ [n])).isSome) : n ∈ names := by
  by_cases hlit : ∀ k, n ≠ .user k
  · exact hl.own n hlit
  · have hu : ∃ k, n = .user k := by
      cases n <;> simp_all
    obtain ⟨k, rfl⟩ := hu
    cases p with
    | nil =>
      simp only [List.nil_append] at h
      rw [ws2ToWs3_outside hr (by simp) (by simp)] at h
      split at h
      · simp at h
      · exact hl.all r [] _ h
    | cons a p =>
      by_cases ha : a = .workspace
      · subst ha
        cases p with
        | nil =>
          simp only [List.cons_append, List.nil_append] at h
          rw [ws2ToWs3_inside hr (by simp) (by simp)] at h
          split at h
          · exact hl.all r [] _ h
          · simp at h
        | cons b q =>
          simp only [List.cons_append] at h
          by_cases h1 : b = .default_
          · subst h1
            rw [ws2ToWs3_default hr] at h
            exact hl.all r (.oldDefault :: q) _ h
          · by_cases h2 : b = .oldDefault
            · subst h2; rw [ws2ToWs3_old hr] at h; simp at h
            · rw [ws2ToWs3_inside hr h1 h2] at h
              split at h
              · exact hl.all r (b :: q) _ h
              · simp at h
      · simp only [List.cons_append] at h
        rw [ws2ToWs3_outside hr ha (by simp)] at h
        split at h
        · simp at h
        · exact hl.all r (a :: p) _ h

theorem fixedDirs_tree {names : List Name} {fs : FS} {r : Root} (h : Fixable names r fs) (hr : r ≠ .home) : Tree (fixedDirs r fs) := by
  intro r' p n hs
  unfold fixedDirs at hs ⊢
  split
  · rename_i e
    subst e
    exact ws2ToWs3_tree h.tree h.root hr p n (by simpa using hs)
  · rename_i e
    simp only [e, ↓reduceIte] at hs
    exact h.tree r' p n hs

theorem fixedDirs_lists {names : List Name} {fs : FS} {r : Root} (h : Fixable names r fs) (hr : r ≠ .home) : Lists names (fixedDirs r fs) := by
  refine ⟨h.lists.own, ?_, h.lists.nodup⟩
  intro r' p n hs
  unfold fixedDirs at hs
  split at hs
  · exact ws2ToWs3_lists h.lists hr p n hs
  · exact h.lists.all r' p n hs

theorem IsWs2.fixable {names : List Name} {fs : FS} (h : IsWs2 fs) (hl : Lists names fs) (r : Root) (hr : r ≠ .home) : Fixable names r fs := by
  refine ⟨h.tree, hl, ?_, h.workspace r hr, h.default_ r hr, h.broken r hr, h.oldDefault r hr⟩
  cases r
  · exact absurd rfl hr
  · exact h.config
  · exact h.data

theorem fixedDirs_both (fs : FS) : fixedDirs .data (fixedDirs .config fs) = ws2ToWs3 fs := by
  funext r p
  have hd : ∀ g : FS, (∀ p, g .data p = fs .data p) → ∀ p, ws2ToWs3 g .data p = ws2ToWs3 fs .data p := by
    intro g hg p
    cases p with
    | nil => rw [ws2ToWs3_root, ws2ToWs3_root, hg]
    | cons a p =>
      by_cases ha : a = .workspace
      · subst ha
        cases p with
        | nil => rw [ws2ToWs3_ws (by simp), ws2ToWs3_ws (by simp)]
        | cons b q =>
          by_cases h1 : b = .default_
          · subst h1; rw [ws2ToWs3_default (by simp), ws2ToWs3_default (by simp), hg]
          · by_cases h2 : b = .oldDefault
            · subst h2; rw [ws2ToWs3_old (by simp), ws2ToWs3_old (by simp)]
            · rw [ws2ToWs3_inside (by simp) h1 h2, ws2ToWs3_inside (by simp) h1 h2, hg, hg]
      · by_cases hb : a = .broken ∧ p = []
        · obtain ⟨rfl, rfl⟩ := hb
          rw [ws2ToWs3_broken (by simp), ws2ToWs3_broken (by simp)]
        · rw [ws2ToWs3_outside (by simp) ha hb, ws2ToWs3_outside (by simp) ha hb, hg, hg]
  cases r with
  | home => simp [fixedDirs, ws2ToWs3]
  | config => simp [fixedDirs]
  | data =>
    rw [fixedDirs, if_pos rfl]
    exact hd _ (by simp [fixedDirs]) p

theorem ws2ToWs3_isWs3 {fs : FS} (h : IsWs2 fs) : IsWs3 (ws2ToWs3 fs) := by
  have hhome : ∀ p, ws2ToWs3 fs .home p = fs .home p := fun p => by simp [ws2ToWs3]
  refine ⟨?_, ?_, ?_, ?_, ?_, ?_⟩
  · intro r p n hs
    cases r with
    | home => rw [hhome] at hs ⊢; exact h.tree _ _ _ hs
    | config => exact ws2ToWs3_tree h.tree h.config (by simp) p n hs
    | data => exact ws2ToWs3_tree h.tree h.data (by simp) p n hs
  · rw [ws2ToWs3_default (by simp)]; exact h.oldDefault _ (by simp)
  · rw [ws2ToWs3_default (by simp)]; exact h.oldDefault _ (by simp)
  · rw [ws2ToWs3_default (by simp)]; exact h.history
  · intro n hd
    by_cases h1 : n = .default_
    · subst h1
      rw [ws2ToWs3_default (by simp)] at hd ⊢
      exact h.histories _ hd
    · by_cases h2 : n = .oldDefault
      · subst h2; rw [ws2ToWs3_old (by simp)] at hd; simp at hd
      · rw [ws2ToWs3_inside (by simp) h1 h2] at hd ⊢
        split at hd
        · rename_i hdd
          rw [if_pos hdd]
          exact h.histories n hdd
        · simp at hd
  · rw [ws2ToWs3_outside (by simp) (by simp) (by simp), if_neg h.version]; exact h.version

theorem migrateWs2_ok {names : List Name} {fs : FS} (h : IsWs2 fs) (hl : Lists names fs) :
    migrateWs2 names fs none = .ok () (ws2ToWs3 fs) none := by
  have hf := h.fixable hl .config (by simp)
  have hd := h.fixable hl .data (by simp)
  have hf' : Fixable names .data (fixedDirs .config fs) := by
    refine ⟨fixedDirs_tree hf (by simp), fixedDirs_lists hf (by simp), ?_, ?_, ?_, ?_, ?_⟩ <;> simp only [fixedDirs]
    · exact hd.root
    · exact hd.workspace
    · exact hd.default_
    · exact hd.broken
    · exact hd.oldDefault
  unfold migrateWs2
  rw [bind_ok (fixDirs_ok (by simp) hf), bind_ok (fixDirs_ok (by simp) hf'), fixedDirs_both]
  exact expect_ok (layout_ws3 (ws2ToWs3_isWs3 h))

/-! ## The default workspace -/

/-- Some files have been moved to the directory of the default workspace. -/
def intoDefault (r : Root) (l : List Name) (fs : FS) : FS := fun r' p =>
  if r' = r then
    match p with
    | [] => fs r []
    | [.oldDefault] => fs r [.oldDefault]
    | .oldDefault :: n :: q => if n ∈ l then fs r (n :: q) else fs r (.oldDefault :: n :: q)
    | n :: q => if n ∈ l then none else fs r (n :: q)
  else fs r' p

theorem move_default {r : Root} {n : Name} (hn : n ≠ .oldDefault) (fs : FS) :
    fs.move r [n] r [.oldDefault, n] = intoDefault r [n] fs := by
  funext r' p
  by_cases hr : r' = r
  · subst hr
    cases p with
    | nil => simp [intoDefault, FS.move, strip]
    | cons a p =>
      by_cases ha : a = .oldDefault
      · subst ha
        cases p with
        | nil => simp [intoDefault, FS.move, strip, hn]
        | cons b q =>
          by_cases hb : b = n
          · subst hb; simp [intoDefault, FS.move, strip]
          · simp [intoDefault, FS.move, strip, hb, Ne.symm hb, hn]
      · by_cases hb : a = n
        · subst hb; simp [intoDefault, FS.move, strip, ha, Ne.symm ha]
        · cases a <;> simp_all [intoDefault, FS.move, strip, Ne.symm hb]
  · simp [intoDefault, FS.move, hr]

theorem intoDefault_two {r : Root} {n m : Name} (hn : n ≠ .oldDefault) (hm : m ≠ .oldDefault) (hnm : n ≠ m) (fs : FS) :
    intoDefault r [m] (intoDefault r [n] fs) = intoDefault r [n, m] fs := by
  funext r' p
  by_cases hr : r' = r
  · subst hr
    cases p with
    | nil => simp [intoDefault]
    | cons a p =>
      by_cases ha : a = .oldDefault
      · subst ha
        cases p with
        | nil => simp [intoDefault]
        | cons b q =>
          by_cases hb : b = n
          · subst hb; simp [intoDefault, hnm]
          · by_cases hbl : b = m
            · subst hbl
              cases b <;> simp_all [intoDefault]
            · simp [intoDefault, hb, hbl]
      · by_cases hb : a = n
        · subst hb; cases a <;> simp_all [intoDefault]
        · cases a <;> simp_all [intoDefault]
  · simp [intoDefault, hr]

theorem fixDefault_ok {names : List Name} {r : Root} {n m : Name} (hn : n ≠ .oldDefault) (hm : m ≠ .oldDefault) (hnm : n ≠ m) {fs : FS}
    (ht : Tree fs) (h0 : fs r [] = some .dir) (hd : fs r [.oldDefault] = none) (h1 : (fs r [n]).isSome) (h2 : (fs r [m]).isSome) :
    fixDefault names r [n, m] fs none = .ok () (intoDefault r [n, m] (fs.set r [.oldDefault] (some .dir))) none := by
  have hb : ∀ x q, fs r (.oldDefault :: x :: q) = none := fun x q => ht.none_below (p := [.oldDefault]) (by simp [hd]) x q
  unfold fixDefault
  rw [bind_ok (ensureDirs_one h0 (.inl hd))]
  show (shMove names r [n] r [.oldDefault] >>= fun _ => shMove names r [m] r [.oldDefault] >>= fun _ => pure ()) _ none = _
  rw [bind_ok (shMove_into hn _ (set_same ..) _), move_default hn, bind_ok (shMove_into hm _ _ _), move_default hm, intoDefault_two hn hm hnm]
  · rfl
  · have : intoDefault r [n] (fs.set r [.oldDefault] (some .dir)) r [m] = fs r [m] := by
      cases m <;> simp_all [intoDefault, FS.set, Ne.symm hnm]
    rw [this]; exact h2
  · simp [intoDefault, FS.set]
  · simp [intoDefault, FS.set, hb, Ne.symm hnm]
  · rw [set_other _ _ (by simp [hn])]; exact h1
  · rw [set_other _ _ (by simp)]; exact hb _ _

theorem ws1ToWs2_eq {fs : FS} (h : IsWs1 fs) :
    intoDefault .data [.history, .reservoirs] ((intoDefault .config [.marker, .startup] (fs.set .config [.oldDefault] (some .dir))).set
      .data [.oldDefault] (some .dir)) = ws1ToWs2 fs := by
  have hb : ∀ r, r ≠ .home → ∀ x q, fs r (.oldDefault :: x :: q) = none := fun r hr x q =>
    h.tree.none_below (p := [.oldDefault]) (by simp [h.oldDefault r hr]) x q
  have hc := hb .config (by simp)
  have hd := hb .data (by simp)
  funext r p
  cases r with
  | home => simp [intoDefault, FS.set, ws1ToWs2]
  | config =>
    cases p with
    | nil => simp [intoDefault, FS.set, ws1ToWs2]
    | cons a p =>
      by_cases ha : a = .oldDefault
      · subst ha
        cases p with
        | nil => simp [intoDefault, FS.set, ws1ToWs2]
        | cons b q =>
          by_cases hb1 : b = .marker ∨ b = .startup
          · rcases hb1 with rfl | rfl <;> simp [intoDefault, FS.set, ws1ToWs2]
          · simp [intoDefault, FS.set, ws1ToWs2, hb1, hc]
      · cases a <;> cases p <;> simp_all [intoDefault, FS.set, ws1ToWs2]
  | data =>
    cases p with
    | nil => simp [intoDefault, FS.set, ws1ToWs2]
    | cons a p =>
      by_cases ha : a = .oldDefault
      · subst ha
        cases p with
        | nil => simp [intoDefault, FS.set, ws1ToWs2]
        | cons b q =>
          by_cases hb1 : b = .history ∨ b = .reservoirs
          · rcases hb1 with rfl | rfl <;> simp [intoDefault, FS.set, ws1ToWs2]
          · simp [intoDefault, FS.set, ws1ToWs2, hb1, hd]
      · cases a <;> cases p <;> simp_all [intoDefault, FS.set, ws1ToWs2]

end Marcel.Storage
