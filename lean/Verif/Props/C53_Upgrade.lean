import Verif.Lemmas.StorageUp
import Verif.Props.C54_UpgradeCrash

/-! # C53: an upgrade keeps everything, and puts it where marcel looks for it -/

namespace Marcel.Storage

/-! ## Which histories are in the present format -/

theorem mem_dropWhile {t : Text} {c : Char} (hc : c ∈ t) (hw : c.isWhitespace = false) : c ∈ t.dropWhile fun c => c.isWhitespace := by
  induction t with
  | nil => cases hc
  | cons d t ih =>
    rw [List.dropWhile_cons]
    split
    · rename_i hd
      rcases List.mem_cons.mp hc with rfl | hc
      · rw [hw] at hd; cases hd
      · exact ih hc
    · exact hc

theorem stripText_ne {t : Text} {c : Char} (hc : c ∈ t) (hw : c.isWhitespace = false) : stripText t ≠ [] := by
  intro h
  have : c ∈ stripText t := by
    unfold stripText
    exact List.mem_reverse.mpr (mem_dropWhile (List.mem_reverse.mpr (mem_dropWhile hc hw)) hw)
  rw [h] at this; cases this

theorem line_self {a : Text} (h : ∀ c ∈ a, c ≠ '\n') : line a = a := by
  unfold line
  induction a with
  | nil => rfl
  | cons c a ih =>
    have hc : c ≠ '\n' := h c (by simp)
    simp only [List.takeWhile_cons, ne_eq, hc, not_false_eq_true, decide_true, ↓reduceIte, List.cons.injEq, true_and]
    exact ih fun d hd => h d (by simp [hd])

/-- **C53**, histories in the present format are recognized: a blank line, then `# ` and a time, then anything. -/
theorem C53_recognized (now : Text) (ht : IsTime now) (rest : Text) : looksPt ('\n' :: '#' :: ' ' :: (now ++ '\n' :: rest)) = some true :=
  looksPt_new rest ht

/-- **C53**, histories in the old format (one command in each line) are recognized, whatever their first command is. -/
theorem C53_old_format (first : Text) (c : Char) (hc : c ∈ first) (hw : c.isWhitespace = false) (hn : '\n' ∉ first) (rest : Text) :
    looksPt first = some false ∧ looksPt (first ++ '\n' :: rest) = some false := by
  have hn' : ∀ x ∈ first, x ≠ '\n' := fun x hx e => hn (e ▸ hx)
  have e1 : line first = first := line_self hn'
  have e2 : line (first ++ '\n' :: rest) = first := takeWhile_line hn'
  have hl : (stripText first).length ≠ 0 := by
    intro h; exact stripText_ne hc hw (List.length_eq_zero_iff.mp h)
  unfold looksPt
  rw [e1, e2]
  simp [hl]

example : ∃ c ∈ "ls -l".toList, c.isWhitespace = false ∧ '\n' ∉ "ls -l".toList := ⟨'l', by decide +kernel⟩

/-- **C53 is false** for a history whose second line is a comment cut off after its fourth character or sooner, as a full disk may leave it: deciding
which layout is installed raises an exception, whatever else there is, so the shell does not start. -/
theorem C53_false_cut (c : Cfg) (fs : FS) (rest : Text) (hl : rest.length ≤ 1) (hr : ∀ x ∈ rest, x ≠ '\n' ∧ x.isWhitespace = false)
    (h1 : has .config [] fs = true) (h2 : has .config [.workspace] fs = true) (h3 : has .config [.workspace, .default_] fs = true)
    (hh : fs .data [.workspace, .default_, .history] = some (.file ('\n' :: '#' :: ' ' :: '2' :: rest))) :
    layoutOf fs = none ∧ ∃ fs', ensureCurrent c fs none = .raised fs' := by
  have hp : looksPt ('\n' :: '#' :: ' ' :: '2' :: rest) = none := by
    match rest, hl, hr with
    | [], _, _ => decide +kernel
    | [x], _, hr =>
      obtain ⟨a, b⟩ := hr x (by simp)
      simp [looksPt, line, afterLine, stripText, checkAt, a, b, List.takeWhile, List.dropWhile]
  have hlay : layoutOf fs = none := by
    simp [layoutOf, matchPt, h1, h2, h3, hh, hp]
  refine ⟨hlay, ?_⟩
  refine ⟨fs, ?_⟩
  unfold ensureCurrent
  rw [bind_ok (show get layoutOf fs none = .ok none fs none by simp [get, hlay])]
  rfl

/-! ## The default workspace -/

/-- The files of the default workspace in the first layout with workspaces. -/
def Own (r : Root) (n : Name) : Prop :=
  match r with
  | .home => False
  | .config => n = .marker ∨ n = .startup
  | .data => n = .history ∨ n = .reservoirs

instance (r : Root) (n : Name) : Decidable (Own r n) := by
  cases r <;> unfold Own <;> infer_instance

theorem ws1ToWs2_dir {fs : FS} {r : Root} (hr : r ≠ .home) : ws1ToWs2 fs r [.oldDefault] = some .dir := by
  cases r <;> simp_all [ws1ToWs2]

theorem ws1ToWs2_inside {fs : FS} {r : Root} (hr : r ≠ .home) (n : Name) (q : Path) :
    ws1ToWs2 fs r (.oldDefault :: n :: q) = if Own r n then fs r (n :: q) else none := by
  cases r <;> simp_all [ws1ToWs2, Own]

theorem ws1ToWs2_outside {fs : FS} {r : Root} {a : Name} {p : Path} (ha : r = .home ∨ a ≠ .oldDefault) :
    ws1ToWs2 fs r (a :: p) = if Own r a then none else fs r (a :: p) := by
  cases r <;> cases a <;> simp_all [ws1ToWs2, Own]

theorem ws1ToWs2_root {fs : FS} {r : Root} : ws1ToWs2 fs r [] = fs r [] := by
  cases r <;> simp [ws1ToWs2]

theorem root_dir {fs : FS} (h : IsOld fs) {r : Root} (hr : r ≠ .home) : fs r [] = some .dir := by
  cases r
  · exact absurd rfl hr
  · exact h.config
  · exact h.data

theorem ws1ToWs2_tree {fs : FS} (h : IsOld fs) : Tree (ws1ToWs2 fs) := by
  intro r p n hs
  cases p with
  | nil =>
    rw [ws1ToWs2_root]
    by_cases hr : r = .home
    · subst hr
      simp only [List.nil_append] at hs
      rw [ws1ToWs2_outside (.inl rfl), if_neg (by simp [Own])] at hs
      exact h.tree _ [] n hs
    · exact root_dir h hr
  | cons a p =>
    simp only [List.cons_append] at hs
    by_cases ho : r = .home ∨ a ≠ .oldDefault
    · rw [ws1ToWs2_outside ho] at hs ⊢
      split at hs
      · simp at hs
      · rename_i hno
        rw [if_neg hno]
        exact h.tree r (a :: p) n hs
    · have hr : r ≠ .home := fun e => ho (.inl e)
      have ha : a = .oldDefault := Decidable.byContradiction fun e => ho (.inr e)
      subst ha
      cases p with
      | nil => exact ws1ToWs2_dir hr
      | cons b q =>
        simp only [List.cons_append] at hs
        rw [ws1ToWs2_inside hr] at hs ⊢
        split at hs
        · rename_i hb
          rw [if_pos hb]
          exact h.tree r (b :: q) n hs
        · simp at hs

theorem ws1ToWs2_lists {names : List Name} {fs : FS} (h : Lists names fs) : Lists names (ws1ToWs2 fs) := by
  refine ⟨h.own, ?_, h.nodup⟩
  intro r p n hs
  cases p with
  | nil =>
    simp only [List.nil_append] at hs
    by_cases ho : r = .home ∨ n ≠ .oldDefault
    · rw [ws1ToWs2_outside ho] at hs
      split at hs
      · simp at hs
      · exact h.all r [] n hs
    · have ha : n = .oldDefault := Decidable.byContradiction fun e => ho (.inr e)
      subst ha
      exact h.own _ (by simp)
  | cons a p =>
    simp only [List.cons_append] at hs
    by_cases ho : r = .home ∨ a ≠ .oldDefault
    · rw [ws1ToWs2_outside ho] at hs
      split at hs
      · simp at hs
      · exact h.all r (a :: p) n hs
    · have hr : r ≠ .home := fun e => ho (.inl e)
      have ha : a = .oldDefault := Decidable.byContradiction fun e => ho (.inr e)
      subst ha
      cases p with
      | nil =>
        simp only [List.nil_append] at hs
        rw [ws1ToWs2_inside hr] at hs
        split at hs
        · exact h.all r [] n hs
        · simp at hs
      | cons b q =>
        simp only [List.cons_append] at hs
        rw [ws1ToWs2_inside hr] at hs
        split at hs
        · exact h.all r (b :: q) n hs
        · simp at hs

theorem ws1ToWs2_isWs2 {fs : FS} (h : IsWs1 fs) : IsWs2 (ws1ToWs2 fs) := by
  have hout : ∀ r a p, a ≠ .oldDefault → ¬Own r a → ws1ToWs2 fs r (a :: p) = fs r (a :: p) := by
    intro r a p ha ho
    rw [ws1ToWs2_outside (.inr ha), if_neg ho]
  have hno : ∀ (r : Root) (a : Name), a ≠ .marker → a ≠ .startup → a ≠ .history → a ≠ .reservoirs → ¬Own r a := by
    intro r a h1 h2 h3 h4
    cases r <;> simp [Own, h1, h2, h3, h4]
  refine ⟨⟨ws1ToWs2_tree h.toIsOld, ?_, ?_, ?_, ?_, ?_, ?_⟩, ?_, ?_, ?_⟩
  · rw [ws1ToWs2_root]; exact h.config
  · rw [ws1ToWs2_root]; exact h.data
  · intro r hr; rw [hout _ _ _ (by simp) (hno _ _ (by simp) (by simp) (by simp) (by simp))]; exact h.workspace r hr
  · intro r hr; rw [hout _ _ _ (by simp) (hno _ _ (by simp) (by simp) (by simp) (by simp))]; exact h.default_ r hr
  · intro r hr; rw [hout _ _ _ (by simp) (hno _ _ (by simp) (by simp) (by simp) (by simp))]; exact h.broken r hr
  · rw [hout _ _ _ (by simp) (hno _ _ (by simp) (by simp) (by simp) (by simp))]; exact h.version
  · intro r hr; exact ws1ToWs2_dir hr
  · obtain ⟨c, hc, hl⟩ := h.history
    exact ⟨c, by rw [ws1ToWs2_inside (by simp), if_pos (by simp [Own])]; exact hc, hl⟩
  · intro n hd
    by_cases hn : n = .oldDefault
    · subst hn
      obtain ⟨c, hc, hl⟩ := h.history
      exact ⟨c, by rw [ws1ToWs2_inside (by simp), if_pos (by simp [Own])]; exact hc⟩
    · rw [ws1ToWs2_outside (.inr hn)] at hd ⊢
      split at hd
      · simp at hd
      · rename_i ho
        rw [if_neg ho]
        exact h.histories n (fun e => ho (.inr e)) hd

theorem migrateWs1_ok {names : List Name} {fs : FS} (h : IsWs1 fs) : migrateWs1 names fs none = .ok () (ws1ToWs2 fs) none := by
  obtain ⟨c, hc, _⟩ := h.history
  unfold migrateWs1
  rw [bind_ok (fixDefault_ok (by simp) (by simp) (by simp) h.tree h.config (h.oldDefault _ (by simp)) h.marker h.startup)]
  have hdata : ∀ p, intoDefault .config [.marker, .startup] (fs.set .config [.oldDefault] (some .dir)) .data p = fs .data p := by
    intro p; simp [intoDefault, FS.set]
  have ht : Tree (intoDefault .config [.marker, .startup] (fs.set .config [.oldDefault] (some .dir))) := by
    intro r p n hs
    cases r with
    | data => rw [hdata] at hs ⊢; exact h.tree _ _ _ hs
    | home =>
      have hh : ∀ p, intoDefault .config [.marker, .startup] (fs.set .config [.oldDefault] (some .dir)) .home p = fs .home p := by
        intro p; simp [intoDefault, FS.set]
      rw [hh] at hs ⊢; exact h.tree _ _ _ hs
    | config =>
      have e : ∀ p, intoDefault .config [.marker, .startup] (fs.set .config [.oldDefault] (some .dir)) .config p = ws1ToWs2 fs .config p := by
        intro p
        rw [← ws1ToWs2_eq h]
        simp [intoDefault, FS.set]
      rw [e] at hs ⊢
      exact ws1ToWs2_tree h.toIsOld _ _ _ hs
  rw [bind_ok (fixDefault_ok (by simp) (by simp) (by simp) ht (by rw [hdata]; exact h.data) (by rw [hdata]; exact h.oldDefault _ (by simp))
    (by rw [hdata, hc]; rfl) (by rw [hdata, h.reservoirs]; rfl)), ws1ToWs2_eq h]
  exact expect_ok (layout_ws2 (ws1ToWs2_isWs2 h))

/-! ## The first workspaces -/

theorem xdgToWs1_eq (fs : FS) : (fs.set .config [.marker] (some (.file []))).set .data [.reservoirs] (some .dir) = xdgToWs1 fs := by
  funext r p
  unfold xdgToWs1
  split
  · simp [FS.set]
  · simp [FS.set]
  · rename_i h1 h2
    rw [set_other _ _ (fun e => h2 e.1 e.2), set_other _ _ (fun e => h1 e.1 e.2)]

theorem xdgToWs1_other {fs : FS} {r : Root} {p : Path} (h1 : ¬(r = .config ∧ p = [.marker])) (h2 : ¬(r = .data ∧ p = [.reservoirs])) :
    xdgToWs1 fs r p = fs r p := by
  rw [← xdgToWs1_eq, set_other _ _ h2, set_other _ _ h1]

theorem xdgToWs1_tree {fs : FS} (h : IsXdg fs) : Tree (xdgToWs1 fs) := by
  intro r p n hs
  have hno : fs r p = some .dir → xdgToWs1 fs r p = some .dir := by
    intro hd
    by_cases h1 : r = .config ∧ p = [.marker]
    · obtain ⟨rfl, rfl⟩ := h1; rw [h.marker] at hd; simp at hd
    · by_cases h2 : r = .data ∧ p = [.reservoirs]
      · obtain ⟨rfl, rfl⟩ := h2; rfl
      · rw [xdgToWs1_other h1 h2]; exact hd
  apply hno
  by_cases h1 : r = .config ∧ p ++ [n] = [.marker]
  · obtain ⟨rfl, e⟩ := h1
    have : p = [] := (List.append_inj' (s₂ := []) (t₂ := [Name.marker]) e rfl).1
    subst this; exact h.config
  · by_cases h2 : r = .data ∧ p ++ [n] = [.reservoirs]
    · obtain ⟨rfl, e⟩ := h2
      have : p = [] := (List.append_inj' (s₂ := []) (t₂ := [Name.reservoirs]) e rfl).1
      subst this; exact h.data
    · rw [xdgToWs1_other h1 h2] at hs
      exact h.tree r p n hs

theorem xdgToWs1_lists {names : List Name} {fs : FS} (h : Lists names fs) : Lists names (xdgToWs1 fs) := by
  refine ⟨h.own, ?_, h.nodup⟩
  intro r p n hs
  by_cases hu : ∀ k, n ≠ .user k
  · exact h.own n hu
  · rw [xdgToWs1_other] at hs
    · exact h.all r p n hs
    · rintro ⟨_, e⟩
      have := (List.append_inj' (s₂ := []) (t₂ := [Name.marker]) e rfl).2
      simp at this; subst this; simp at hu
    · rintro ⟨_, e⟩
      have := (List.append_inj' (s₂ := []) (t₂ := [Name.reservoirs]) e rfl).2
      simp at this; subst this; simp at hu

theorem xdgToWs1_isWs1 {fs : FS} (h : IsXdg fs) : IsWs1 (xdgToWs1 fs) := by
  have e : ∀ {r p}, ¬(r = .config ∧ p = [.marker]) → ¬(r = .data ∧ p = [.reservoirs]) → xdgToWs1 fs r p = fs r p := xdgToWs1_other
  refine ⟨⟨xdgToWs1_tree h, ?_, ?_, ?_, ?_, ?_, ?_⟩, ?_, ?_, ?_, ?_, ?_, ?_⟩
  · rw [e (by simp) (by simp)]; exact h.config
  · rw [e (by simp) (by simp)]; exact h.data
  · intro r hr; rw [e (by simp) (by simp)]; exact h.workspace r hr
  · intro r hr; rw [e (by simp) (by simp)]; exact h.default_ r hr
  · intro r hr; rw [e (by simp) (by simp)]; exact h.broken r hr
  · rw [e (by simp) (by simp)]; exact h.version
  · rfl
  · rw [e (by simp) (by simp)]; exact h.startup
  · rw [e (by simp) (by simp)]; exact h.history
  · rfl
  · intro r hr; rw [e (by simp) (by simp)]; exact h.oldDefault r hr
  · intro n hn hd
    rw [e (by simp) (by simp [hn])] at hd
    rw [e (by simp) (by simp)]
    exact h.histories n hn hd

theorem migrateXdg_ok {fs : FS} (h : IsXdg fs) : migrateXdg fs none = .ok () (xdgToWs1 fs) none := by
  unfold migrateXdg
  rw [bind_ok (touch_new h.marker h.config), bind_ok (ensureDir_ok _ _), xdgToWs1_eq]
  · exact expect_ok (layout_ws1 (xdgToWs1_isWs1 h))
  · rw [set_other _ _ (by simp)]; exact h.reservoirs
  · right; rw [set_other _ _ (by simp)]; exact h.data

/-! ## The oldest layout -/

theorem originalToXdg_eq {fs : FS} (h : IsOriginal fs) :
    (((fs.set .config [] (some .dir)).set .data [] (some .dir)).move .home [.dotMarcel] .config [.startup]).move .home [.dotHistory] .data [.history] =
      originalToXdg fs := by
  have hc := h.config
  have hd := h.data
  funext r p
  cases r with
  | home =>
    cases p with
    | nil => simp [FS.move, FS.set, strip, originalToXdg]
    | cons a p => cases a <;> simp [FS.move, FS.set, strip, originalToXdg]
  | config =>
    cases p with
    | nil => simp [FS.move, FS.set, strip, originalToXdg]
    | cons a p => cases a <;> simp [FS.move, FS.set, strip, originalToXdg]
  | data =>
    cases p with
    | nil => simp [FS.move, FS.set, strip, originalToXdg]
    | cons a p => cases a <;> simp [FS.move, FS.set, strip, originalToXdg]

theorem originalToXdg_config {fs : FS} (h : IsOriginal fs) {a : Name} (p : Path) (ha : a ≠ .startup) : originalToXdg fs .config (a :: p) = none := by
  have := h.config (a :: p) (by simp)
  cases a <;> simp_all [originalToXdg]

theorem originalToXdg_data {fs : FS} (h : IsOriginal fs) {a : Name} (p : Path) (ha : a ≠ .history) : originalToXdg fs .data (a :: p) = none := by
  have := h.data (a :: p) (by simp)
  cases a <;> simp_all [originalToXdg]

theorem originalToXdg_tree {fs : FS} (h : IsOriginal fs) : Tree (originalToXdg fs) := by
  intro r p n hs
  cases r with
  | home =>
    cases p with
    | nil =>
      refine h.tree .home [] n ?_
      cases n <;> simp_all [originalToXdg]
    | cons a p =>
      have e : ∀ q, originalToXdg fs .home (a :: q) = if a = .dotMarcel ∨ a = .dotHistory then none else fs .home (a :: q) := by
        intro q; cases a <;> simp [originalToXdg]
      simp only [List.cons_append] at hs
      rw [e] at hs ⊢
      split at hs
      · simp at hs
      · rename_i hn; rw [if_neg hn]; exact h.tree .home (a :: p) n hs
  | config =>
    cases p with
    | nil => rfl
    | cons a p =>
      simp only [List.cons_append] at hs
      by_cases ha : a = .startup
      · subst ha; exact h.tree .home (.dotMarcel :: p) n hs
      · rw [originalToXdg_config h _ ha] at hs; simp at hs
  | data =>
    cases p with
    | nil => rfl
    | cons a p =>
      simp only [List.cons_append] at hs
      by_cases ha : a = .history
      · subst ha; exact h.tree .home (.dotHistory :: p) n hs
      · rw [originalToXdg_data h _ ha] at hs; simp at hs

theorem originalToXdg_lists {names : List Name} {fs : FS} (h : IsOriginal fs) (hl : Lists names fs) : Lists names (originalToXdg fs) := by
  refine ⟨hl.own, ?_, hl.nodup⟩
  intro r p n hs
  by_cases hu : ∀ k, n ≠ .user k
  · exact hl.own n hu
  cases r with
  | home =>
    apply hl.all .home p n
    revert hs
    cases p with
    | nil => cases n <;> simp [originalToXdg]
    | cons a p => cases a <;> simp [originalToXdg]
  | config =>
    cases p with
    | nil =>
      simp only [List.nil_append] at hs
      rw [originalToXdg_config h] at hs
      · simp at hs
      · rintro rfl; simp at hu
    | cons a p =>
      simp only [List.cons_append] at hs
      by_cases ha : a = .startup
      · subst ha; exact hl.all .home (.dotMarcel :: p) n hs
      · rw [originalToXdg_config h _ ha] at hs; simp at hs
  | data =>
    cases p with
    | nil =>
      simp only [List.nil_append] at hs
      rw [originalToXdg_data h] at hs
      · simp at hs
      · rintro rfl; simp at hu
    | cons a p =>
      simp only [List.cons_append] at hs
      by_cases ha : a = .history
      · subst ha; exact hl.all .home (.dotHistory :: p) n hs
      · rw [originalToXdg_data h _ ha] at hs; simp at hs

theorem originalToXdg_isXdg {fs : FS} (h : IsOriginal fs) : IsXdg (originalToXdg fs) := by
  have hc : ∀ {a : Name} {p : Path}, a ≠ .startup → originalToXdg fs .config (a :: p) = none := fun ha => originalToXdg_config h _ ha
  have hd : ∀ {a : Name} {p : Path}, a ≠ .history → originalToXdg fs .data (a :: p) = none := fun ha => originalToXdg_data h _ ha
  have both : ∀ r, r ≠ .home → ∀ {a : Name} {p : Path}, a ≠ .startup → a ≠ .history → originalToXdg fs r (a :: p) = none := by
    intro r hr a p h1 h2
    cases r
    · exact absurd rfl hr
    · exact hc h1
    · exact hd h2
  refine ⟨⟨originalToXdg_tree h, rfl, rfl, ?_, ?_, ?_, ?_⟩, ?_, ?_, ?_, ?_, ?_, ?_⟩
  · intro r hr; exact both r hr (by simp) (by simp)
  · intro r hr; rw [both r hr (by simp) (by simp)]; simp
  · intro r hr; rw [both r hr (by simp) (by simp)]; simp
  · rw [hc (by simp)]; simp
  · exact hc (by simp)
  · exact h.startup
  · exact h.history
  · left; exact hd (by simp)
  · intro r hr; exact both r hr (by simp) (by simp)
  · intro n hn hdir
    by_cases e : n = .history
    · subst e
      obtain ⟨c, hc, _⟩ := h.history
      have : originalToXdg fs .data [.history] = fs .home [.dotHistory] := rfl
      rw [this, hc] at hdir; simp at hdir
    · rw [hd e] at hdir; simp at hdir

theorem migrateOriginal_ok {names : List Name} {fs : FS} (h : IsOriginal fs) : migrateOriginal names fs none = .ok () (originalToXdg fs) none := by
  obtain ⟨c, hc, _⟩ := h.history
  have r1 : fs .config [] = none ∨ fs .config [] = some .dir := by
    rcases h.roots with h | h
    · exact .inl h.1
    · exact .inr h.2
  have r2 : fs .data [] = none ∨ fs .data [] = some .dir := by
    rcases h.roots with h | h
    · exact h.2
    · exact .inl h.1
  unfold migrateOriginal
  rw [bind_ok (ensureDir_ok r1 (.inl rfl)), bind_ok (ensureDir_ok (by rw [set_other _ _ (by simp)]; exact r2) (.inl rfl)),
    bind_ok (shMove_to _ _ _ _), bind_ok (shMove_to _ _ _ _), originalToXdg_eq h]
  · exact expect_ok (layout_xdg (originalToXdg_isXdg h))
  · rw [move_other (by simp) (by simp), set_other _ _ (by simp), set_other _ _ (by simp), hc]; rfl
  · simp
  · rw [move_other (by simp) (by simp)]; exact set_same ..
  · rw [move_other (by simp) (by simp), set_other _ _ (by simp), set_other _ _ (by simp)]; exact h.data _ (by simp)
  · rw [set_other _ _ (by simp), set_other _ _ (by simp)]; exact h.startup
  · simp
  · rw [set_other _ _ (by simp)]; exact set_same ..
  · rw [set_other _ _ (by simp), set_other _ _ (by simp)]; exact h.config _ (by simp)

/-! ## The start of marcel -/

theorem ws2ToWs3_listsAll {names : List Name} {fs : FS} (h : Lists names fs) : Lists names (ws2ToWs3 fs) := by
  refine ⟨h.own, ?_, h.nodup⟩
  intro r p n hs
  by_cases hr : r = .home
  · subst hr
    have : ws2ToWs3 fs .home (p ++ [n]) = fs .home (p ++ [n]) := by simp [ws2ToWs3]
    rw [this] at hs
    exact h.all _ _ _ hs
  · exact ws2ToWs3_lists h hr p n hs

theorem fromWs3_ok {c : Cfg} (ht : IsTime c.now) {fs : FS} (h : IsWs3 fs) (hl : Lists c.names fs) :
    migrateFrom c .ws3 fs none = .ok () (ws3ToPt (newHistory c.now c.text) fs) none := migrateWs3_ok ht h hl

theorem fromWs2_ok {c : Cfg} (ht : IsTime c.now) {fs : FS} (h : IsWs2 fs) (hl : Lists c.names fs) :
    migrateFrom c .ws2 fs none = .ok () (ws3ToPt (newHistory c.now c.text) (ws2ToWs3 fs)) none := by
  show (migrateWs2 c.names >>= fun _ => migrateFrom c .ws3) fs none = _
  rw [bind_ok (migrateWs2_ok h hl)]
  exact fromWs3_ok ht (ws2ToWs3_isWs3 h) (ws2ToWs3_listsAll hl)

theorem fromWs1_ok {c : Cfg} (ht : IsTime c.now) {fs : FS} (h : IsWs1 fs) (hl : Lists c.names fs) :
    migrateFrom c .ws1 fs none = .ok () (ws3ToPt (newHistory c.now c.text) (ws2ToWs3 (ws1ToWs2 fs))) none := by
  show (migrateWs1 c.names >>= fun _ => migrateFrom c .ws2) fs none = _
  rw [bind_ok (migrateWs1_ok h)]
  exact fromWs2_ok ht (ws1ToWs2_isWs2 h) (ws1ToWs2_lists hl)

theorem fromXdg_ok {c : Cfg} (ht : IsTime c.now) {fs : FS} (h : IsXdg fs) (hl : Lists c.names fs) :
    migrateFrom c .xdg fs none = .ok () (ws3ToPt (newHistory c.now c.text) (ws2ToWs3 (ws1ToWs2 (xdgToWs1 fs)))) none := by
  show (migrateXdg >>= fun _ => migrateFrom c .ws1) fs none = _
  rw [bind_ok (migrateXdg_ok h)]
  exact fromWs1_ok ht (xdgToWs1_isWs1 h) (xdgToWs1_lists hl)

theorem fromOriginal_ok {c : Cfg} (ht : IsTime c.now) {fs : FS} (h : IsOriginal fs) (hl : Lists c.names fs) :
    migrateFrom c .original fs none = .ok () (ws3ToPt (newHistory c.now c.text) (ws2ToWs3 (ws1ToWs2 (xdgToWs1 (originalToXdg fs))))) none := by
  show (migrateOriginal c.names >>= fun _ => migrateFrom c .xdg) fs none = _
  rw [bind_ok (migrateOriginal_ok h)]
  exact fromXdg_ok ht (originalToXdg_isXdg h) (originalToXdg_lists h hl)

theorem writeVersion_ok {c : Cfg} {fs : FS} (h0 : fs .config [] = some .dir) (hv : fs .config [.version] ≠ some .dir) :
    writeVersion c fs none = .ok () (fs.set .config [.version] (some (.file c.version))) none := by
  unfold writeVersion
  rw [bind_ok (ensureDir_old h0)]
  cases h : fs .config [.version] with
  | none =>
    rw [bind_ok (touch_new h h0), writeFile_ok, set_set]
    · rw [set_same]; simp
    · rw [set_other _ _ (by simp)]; exact h0
  | some x => rw [bind_ok (touch_old (by rw [h]; rfl)), writeFile_ok hv h0]

/-- What happens after the migration. -/
theorem finish_ok {c : Cfg} {fs : FS} (h0 : fs .config [] = some .dir) (hv : fs .config [.version] ≠ some .dir) :
    (do
      ensureDir .config []
      if ← get (outdated c) then writeVersion c else pure () : Prog Unit) fs none = .ok () (withVersion c fs) none := by
  rw [bind_ok (ensureDir_old h0), get_bind]
  unfold withVersion
  by_cases h : outdated c fs
  · simp only [h, ↓reduceIte]; exact writeVersion_ok h0 hv
  · simp only [h]; rfl

theorem start_ok {c : Cfg} {fs fs' : FS} {l : Layout} (hl : layoutOf fs = some (some l)) (hm : migrateFrom c l fs none = .ok () fs' none) (h : IsPt fs') :
    ensureCurrent c fs none = .ok () (withVersion c fs') none := by
  unfold ensureCurrent
  rw [get_bind, hl]
  show (migrateFrom c l >>= fun _ => _) fs none = _
  rw [bind_ok hm]
  have h1 := h.tree.dir (r := .config) [.workspace] .default_ [] (by simp [h.config])
  exact finish_ok (h.tree.dir (r := .config) [] .workspace [] (by simp [h1])) h.version

theorem withVersion_isPt {c : Cfg} {fs : FS} (h : IsPt fs) : IsPt (withVersion c fs) := by
  unfold withVersion
  split
  · refine ⟨?_, ?_, ?_, ?_⟩
    · intro r p n hs
      have hp : ¬(r = .config ∧ p = [.version]) := by
        rintro ⟨rfl, rfl⟩
        rw [set_other _ _ (by simp)] at hs
        exact h.version (h.tree _ _ _ hs)
      rw [set_other _ _ hp]
      by_cases e : r = .config ∧ p ++ [n] = [.version]
      · obtain ⟨rfl, e⟩ := e
        have : p = [] := (List.append_inj' (s₂ := []) (t₂ := [Name.version]) e rfl).1
        subst this
        have h1 := h.tree.dir (r := .config) [.workspace] .default_ [] (by simp [h.config])
        exact h.tree.dir (r := .config) [] .workspace [] (by simp [h1])
      · rw [set_other _ _ e] at hs; exact h.tree _ _ _ hs
    · rw [set_other _ _ (by simp)]; exact h.config
    · rw [set_other _ _ (by simp)]; exact h.history
    · rw [set_same]; simp
  · exact h

/-- **C53.** Marcel upgrades each of the old layouts, completely and without an exception; where everything is afterwards is given by the specifications
of the single steps. -/
theorem C53_original (c : Cfg) (ht : IsTime c.now) (fs : FS) (h : IsOriginal fs) (hl : Lists c.names fs) :
    ensureCurrent c fs none =
      .ok () (withVersion c (ws3ToPt (newHistory c.now c.text) (ws2ToWs3 (ws1ToWs2 (xdgToWs1 (originalToXdg fs)))))) none :=
  start_ok (layout_original h) (fromOriginal_ok ht h hl)
    (ws3ToPt_isPt ht (ws2ToWs3_isWs3 (ws1ToWs2_isWs2 (xdgToWs1_isWs1 (originalToXdg_isXdg h)))))

theorem C53_xdg (c : Cfg) (ht : IsTime c.now) (fs : FS) (h : IsXdg fs) (hl : Lists c.names fs) :
    ensureCurrent c fs none = .ok () (withVersion c (ws3ToPt (newHistory c.now c.text) (ws2ToWs3 (ws1ToWs2 (xdgToWs1 fs))))) none :=
  start_ok (layout_xdg h) (fromXdg_ok ht h hl) (ws3ToPt_isPt ht (ws2ToWs3_isWs3 (ws1ToWs2_isWs2 (xdgToWs1_isWs1 h))))

theorem C53_ws1 (c : Cfg) (ht : IsTime c.now) (fs : FS) (h : IsWs1 fs) (hl : Lists c.names fs) :
    ensureCurrent c fs none = .ok () (withVersion c (ws3ToPt (newHistory c.now c.text) (ws2ToWs3 (ws1ToWs2 fs)))) none :=
  start_ok (layout_ws1 h) (fromWs1_ok ht h hl) (ws3ToPt_isPt ht (ws2ToWs3_isWs3 (ws1ToWs2_isWs2 h)))

theorem C53_ws2 (c : Cfg) (ht : IsTime c.now) (fs : FS) (h : IsWs2 fs) (hl : Lists c.names fs) :
    ensureCurrent c fs none = .ok () (withVersion c (ws3ToPt (newHistory c.now c.text) (ws2ToWs3 fs))) none :=
  start_ok (layout_ws2 h) (fromWs2_ok ht h hl) (ws3ToPt_isPt ht (ws2ToWs3_isWs3 h))

theorem C53_ws3 (c : Cfg) (ht : IsTime c.now) (fs : FS) (h : IsWs3 fs) (hl : Lists c.names fs) :
    ensureCurrent c fs none = .ok () (withVersion c (ws3ToPt (newHistory c.now c.text) fs)) none :=
  start_ok (layout_ws3 h) (fromWs3_ok ht h hl) (ws3ToPt_isPt ht h)

/-- In the present layout nothing changes, except for the version. -/
theorem C53_current (c : Cfg) (fs : FS) (h : IsPt fs) : ensureCurrent c fs none = .ok () (withVersion c fs) none :=
  start_ok (layout_pt h) rfl h

/-- One of the layouts that marcel has had. -/
def Old (fs : FS) : Prop := IsOriginal fs ∨ IsXdg fs ∨ IsWs1 fs ∨ IsWs2 fs ∨ IsWs3 fs ∨ IsPt fs

/-- After the start of marcel, the layout is the present one. -/
theorem C53_upgraded (c : Cfg) (ht : IsTime c.now) (fs : FS) (h : Old fs) (hl : Lists c.names fs) :
    ∃ fs', ensureCurrent c fs none = .ok () fs' none ∧ IsPt fs' := by
  rcases h with h | h | h | h | h | h
  · exact ⟨_, C53_original c ht fs h hl, withVersion_isPt (ws3ToPt_isPt ht (ws2ToWs3_isWs3 (ws1ToWs2_isWs2 (xdgToWs1_isWs1 (originalToXdg_isXdg h)))))⟩
  · exact ⟨_, C53_xdg c ht fs h hl, withVersion_isPt (ws3ToPt_isPt ht (ws2ToWs3_isWs3 (ws1ToWs2_isWs2 (xdgToWs1_isWs1 h))))⟩
  · exact ⟨_, C53_ws1 c ht fs h hl, withVersion_isPt (ws3ToPt_isPt ht (ws2ToWs3_isWs3 (ws1ToWs2_isWs2 h)))⟩
  · exact ⟨_, C53_ws2 c ht fs h hl, withVersion_isPt (ws3ToPt_isPt ht (ws2ToWs3_isWs3 h))⟩
  · exact ⟨_, C53_ws3 c ht fs h hl, withVersion_isPt (ws3ToPt_isPt ht h)⟩
  · exact ⟨_, C53_current c fs h, withVersion_isPt h⟩

theorem withVersion_current {c : Cfg} (hv : c.older c.version = false) (fs : FS) : outdated c (withVersion c fs) = false := by
  unfold withVersion
  split
  · simp [outdated, set_same, hv]
  · rename_i h; simpa using h

/-- **C53**: the next start changes nothing. -/
theorem C53_again (c : Cfg) (ht : IsTime c.now) (hv : c.older c.version = false) (fs : FS) (h : Old fs) (hl : Lists c.names fs) (c' : Cfg)
    (hc : c'.older = c.older) :
    ∃ fs', ensureCurrent c fs none = .ok () fs' none ∧ ensureCurrent c' fs' none = .ok () fs' none := by
  have key : ∀ g : FS, IsPt g → ensureCurrent c' (withVersion c g) none = .ok () (withVersion c g) none := by
    intro g hg
    rw [C53_current c' _ (withVersion_isPt hg)]
    have hv' : outdated c' (withVersion c g) = false := by
      have := withVersion_current hv g
      unfold outdated at this ⊢
      rw [hc]; exact this
    have e : withVersion c' (withVersion c g) = withVersion c g := by
      rw [withVersion, hv']; rfl
    rw [e]
  rcases h with h | h | h | h | h | h
  · exact ⟨_, C53_original c ht fs h hl, key _ (ws3ToPt_isPt ht (ws2ToWs3_isWs3 (ws1ToWs2_isWs2 (xdgToWs1_isWs1 (originalToXdg_isXdg h)))))⟩
  · exact ⟨_, C53_xdg c ht fs h hl, key _ (ws3ToPt_isPt ht (ws2ToWs3_isWs3 (ws1ToWs2_isWs2 (xdgToWs1_isWs1 h))))⟩
  · exact ⟨_, C53_ws1 c ht fs h hl, key _ (ws3ToPt_isPt ht (ws2ToWs3_isWs3 (ws1ToWs2_isWs2 h)))⟩
  · exact ⟨_, C53_ws2 c ht fs h hl, key _ (ws3ToPt_isPt ht (ws2ToWs3_isWs3 h))⟩
  · exact ⟨_, C53_ws3 c ht fs h hl, key _ (ws3ToPt_isPt ht h)⟩
  · exact ⟨_, C53_current c fs h, key _ h⟩

/-! ## In terms of the files of the user -/

theorem withVersion_other {c : Cfg} {fs : FS} {r : Root} {p : Path} (h : ¬(r = .config ∧ p = [.version])) : withVersion c fs r p = fs r p := by
  unfold withVersion
  split
  · exact set_other _ _ h
  · rfl

theorem ws3ToPt_other {new : Text} {fs : FS} {r : Root} {p : Path} (h : ∀ n, ¬(r = .data ∧ p = [.workspace, n, .history])) : ws3ToPt new fs r p = fs r p := by
  unfold ws3ToPt
  split
  · rename_i n; exact absurd ⟨rfl, rfl⟩ (h n)
  · rfl

theorem res_ok_inj {fs fs' : FS} (h : (Res.ok () fs none : Res Unit) = .ok () fs' none) : fs = fs' := by
  cases h; rfl

/-- **C53**, the startup script of the oldest layout is the startup script of the default workspace, and the old files are gone. -/
theorem C53_original_startup (c : Cfg) (ht : IsTime c.now) (fs fs' : FS) (h : IsOriginal fs) (hl : Lists c.names fs)
    (he : ensureCurrent c fs none = .ok () fs' none) :
    fs' .config [.workspace, .default_, .startup] = fs .home [.dotMarcel] ∧ fs' .home [.dotMarcel] = none ∧ fs' .home [.dotHistory] = none := by
  rw [C53_original c ht fs h hl] at he
  rw [← res_ok_inj he]
  refine ⟨?_, ?_, ?_⟩
  · rw [withVersion_other (by simp), ws3ToPt_other (by simp), ws2ToWs3_default (by simp), ws1ToWs2_inside (by simp), if_pos (by simp [Own]),
      xdgToWs1_other (by simp) (by simp)]; rfl
  · rw [withVersion_other (by simp), ws3ToPt_other (by simp)]; rfl
  · rw [withVersion_other (by simp), ws3ToPt_other (by simp)]; rfl

/-- **C53**, the files of the default workspace before it had a directory. -/
theorem C53_default_ws1 (c : Cfg) (ht : IsTime c.now) (fs fs' : FS) (h : IsWs1 fs) (hl : Lists c.names fs)
    (he : ensureCurrent c fs none = .ok () fs' none) :
    fs' .config [.workspace, .default_, .startup] = fs .config [.startup] ∧
    (∀ q, fs' .data (.workspace :: .default_ :: .reservoirs :: q) = fs .data (.reservoirs :: q)) ∧
    ∀ r n q, r ≠ .home → Own r n → fs' r (n :: q) = none := by
  rw [C53_ws1 c ht fs h hl] at he
  rw [← res_ok_inj he]
  refine ⟨?_, ?_, ?_⟩
  · rw [withVersion_other (by simp), ws3ToPt_other (by simp), ws2ToWs3_default (by simp), ws1ToWs2_inside (by simp), if_pos (by simp [Own])]
  · intro q
    rw [withVersion_other (by simp), ws3ToPt_other (by simp), ws2ToWs3_default (by simp), ws1ToWs2_inside (by simp), if_pos (by simp [Own])]
  · intro r n q hr ho
    have h1 : n ≠ .workspace ∧ n ≠ .broken ∧ n ≠ .oldDefault ∧ n ≠ .version := by
      cases r
      · exact absurd rfl hr
      · rcases ho with rfl | rfl <;> simp
      · rcases ho with rfl | rfl <;> simp
    rw [withVersion_other (by simp [h1]), ws3ToPt_other (by simp [h1]), ws2ToWs3_outside hr h1.1 (by simp [h1]), ws1ToWs2_outside (.inr h1.2.2.1),
      ws1ToWs2_outside (.inr h1.2.2.1), if_pos ho]
    simp [ho]

/-- **C53**, the files of a named workspace, from the first layout with workspaces: they are in the directory of the workspace, in the directory `workspace`,
with the same contents, except for the history. The old directory is gone. -/
theorem C53_named_ws1 (c : Cfg) (ht : IsTime c.now) (fs fs' : FS) (h : IsWs1 fs) (hl : Lists c.names fs)
    (he : ensureCurrent c fs none = .ok () fs' none) (r : Root) (hr : r ≠ .home) (k : Nat) (hd : fs r [.user k] = some .dir) (q : Path) :
    (¬(r = .data ∧ q = [.history]) → fs' r (.workspace :: .user k :: q) = fs r (.user k :: q)) ∧ fs' r (.user k :: q) = none := by
  rw [C53_ws1 c ht fs h hl] at he
  rw [← res_ok_inj he]
  have ho : ¬Own r (.user k) := by cases r <;> simp [Own]
  have e : ∀ q, ws1ToWs2 fs r (.user k :: q) = fs r (.user k :: q) := by
    intro q; rw [ws1ToWs2_outside (.inr (by simp)), if_neg ho]
  refine ⟨?_, ?_⟩
  · intro hq
    rw [withVersion_other (by simp), ws3ToPt_other (by rintro n ⟨rfl, e'⟩; simp at e'; exact hq ⟨rfl, e'.2⟩), ws2ToWs3_inside hr (by simp) (by simp), e, e,
      if_pos hd]
  · rw [withVersion_other (by simp), ws3ToPt_other (by simp), ws2ToWs3_outside hr (by simp) (by simp), e, e, if_pos hd]

/-- **C53**, the same from the next layout. -/
theorem C53_named_ws2 (c : Cfg) (ht : IsTime c.now) (fs fs' : FS) (h : IsWs2 fs) (hl : Lists c.names fs)
    (he : ensureCurrent c fs none = .ok () fs' none) (r : Root) (hr : r ≠ .home) (k : Nat) (hd : fs r [.user k] = some .dir) (q : Path) :
    (¬(r = .data ∧ q = [.history]) → fs' r (.workspace :: .user k :: q) = fs r (.user k :: q)) ∧ fs' r (.user k :: q) = none := by
  rw [C53_ws2 c ht fs h hl] at he
  rw [← res_ok_inj he]
  refine ⟨?_, ?_⟩
  · intro hq
    rw [withVersion_other (by simp), ws3ToPt_other (by rintro n ⟨rfl, e⟩; simp at e; exact hq ⟨rfl, e.2⟩), ws2ToWs3_inside hr (by simp) (by simp),
      if_pos hd]
  · rw [withVersion_other (by simp), ws3ToPt_other (by simp), ws2ToWs3_outside hr (by simp) (by simp), if_pos hd]

/-- **C53**, the files of the default workspace from the layout in which its directory had another name. -/
theorem C53_default_ws2 (c : Cfg) (ht : IsTime c.now) (fs fs' : FS) (h : IsWs2 fs) (hl : Lists c.names fs)
    (he : ensureCurrent c fs none = .ok () fs' none) (r : Root) (hr : r ≠ .home) (q : Path) :
    (¬(r = .data ∧ q = [.history]) → fs' r (.workspace :: .default_ :: q) = fs r (.oldDefault :: q)) ∧ fs' r (.oldDefault :: q) = none := by
  rw [C53_ws2 c ht fs h hl] at he
  rw [← res_ok_inj he]
  refine ⟨?_, ?_⟩
  · intro hq
    rw [withVersion_other (by simp), ws3ToPt_other (by rintro n ⟨rfl, e⟩; simp at e; exact hq ⟨rfl, e.2⟩), ws2ToWs3_default hr]
  · rw [withVersion_other (by simp), ws3ToPt_other (by simp), ws2ToWs3_outside hr (by simp) (by simp), if_pos (h.oldDefault r hr)]

/-- **C53**: from the last layout before the present one, only histories and the version file change. -/
theorem C53_only_histories (c : Cfg) (ht : IsTime c.now) (fs fs' : FS) (h : IsWs3 fs) (hl : Lists c.names fs)
    (he : ensureCurrent c fs none = .ok () fs' none) (r : Root) (p : Path) (hv : ¬(r = .config ∧ p = [.version]))
    (hh : ∀ n, ¬(r = .data ∧ p = [.workspace, n, .history])) : fs' r p = fs r p := by
  rw [C53_ws3 c ht fs h hl] at he
  rw [← res_ok_inj he, withVersion_other hv, ws3ToPt_other hh]

/-- **C53**: the history of every workspace is one that marcel can read. -/
theorem C53_histories (c : Cfg) (ht : IsTime c.now) (fs fs' : FS) (h : IsWs3 fs) (hl : Lists c.names fs)
    (he : ensureCurrent c fs none = .ok () fs' none) (n : Name) (hd : fs' .data [.workspace, n] = some .dir) :
    fs' .data [.workspace, n, .history] = some (.file (newHistory c.now c.text)) := by
  rw [C53_ws3 c ht fs h hl] at he
  rw [← res_ok_inj he] at hd ⊢
  rw [withVersion_other (by simp)] at hd ⊢
  rw [ws3ToPt_other (by simp)] at hd
  simp [ws3ToPt, hd]

/-- **C53**: the version file has the running version. -/
theorem C53_version (c : Cfg) (ht : IsTime c.now) (fs fs' : FS) (h : Old fs) (hl : Lists c.names fs)
    (he : ensureCurrent c fs none = .ok () fs' none) (hv : ∀ v, c.older v = false ↔ v = c.version) (hz : c.version ≠ "0.0.0".toList) :
    fs' .config [.version] = some (.file c.version) := by
  have key : ∀ g : FS, withVersion c g .config [.version] = some (.file c.version) := by
    intro g
    unfold withVersion
    split
    · exact set_same ..
    · rename_i ho
      unfold outdated at ho
      split at ho
      · rename_i v e
        rw [(hv v).1 (by simpa using ho)] at e; exact e
      · exact absurd ((hv _).1 (by simpa using ho)).symm hz
  rcases h with h | h | h | h | h | h
  · rw [C53_original c ht fs h hl] at he; rw [← res_ok_inj he]; exact key _
  · rw [C53_xdg c ht fs h hl] at he; rw [← res_ok_inj he]; exact key _
  · rw [C53_ws1 c ht fs h hl] at he; rw [← res_ok_inj he]; exact key _
  · rw [C53_ws2 c ht fs h hl] at he; rw [← res_ok_inj he]; exact key _
  · rw [C53_ws3 c ht fs h hl] at he; rw [← res_ok_inj he]; exact key _
  · rw [C53_current c fs h] at he; rw [← res_ok_inj he]; exact key _

/-! ## A new installation -/

/-- What a new installation looks like: the directories, the version, and the default workspace with its startup script, marker, reservoirs, saved environment
and an empty history. -/
def fresh (c : Cfg) (fs : FS) : FS
  | .home, p => fs .home p
  | .config, [] => some .dir
  | .config, [.workspace] => some .dir
  | .config, [.broken] => some .dir
  | .config, [.version] => some (.file c.version)
  | .config, [.workspace, .default_] => some .dir
  | .config, [.workspace, .default_, .startup] => some (.file c.initial)
  | .config, [.workspace, .default_, .marker] => some (.file [])
  | .config, _ => none
  | .data, [] => some .dir
  | .data, [.workspace] => some .dir
  | .data, [.broken] => some .dir
  | .data, [.workspace, .default_] => some .dir
  | .data, [.workspace, .default_, .reservoirs] => some .dir
  | .data, [.workspace, .default_, .history] => some (.file [])
  | .data, [.workspace, .default_, n] => if n = .user c.envName then some (.file c.env) else none
  | .data, _ => none

/-- Nothing of marcel's is there. -/
structure Nothing (fs : FS) : Prop where
  tree : Tree fs
  home : fs .home [.dotMarcel] = none ∨ fs .home [.dotHistory] = none
  config : ∀ p, fs .config p = none
  data : ∀ p, fs .data p = none

theorem createDir_ok2 {r : Root} {a b : Name} {fs : FS} (h0 : fs r [] = some .dir) (h1 : fs r [a] = some .dir) (h2 : fs r [a, b] = none) :
    createDir r [a, b] fs none = .ok () (fs.set r [a, b] (some .dir)) none := by
  unfold createDir
  rw [get_bind]
  simp only [has, h2, Option.isSome_none, Bool.false_eq_true, ↓reduceIte, ensureDirs, List.nil_append, List.cons_append]
  rw [bind_ok (ensureDir_old h0), bind_ok (ensureDir_old h1)]
  exact ensureDir_new h2 (.inr h1)

theorem createDir_ok3 {r : Root} {a b d : Name} {fs : FS} (h0 : fs r [] = some .dir) (h1 : fs r [a] = some .dir) (h2 : fs r [a, b] = some .dir)
    (h3 : fs r [a, b, d] = none) :
    createDir r [a, b, d] fs none = .ok () (fs.set r [a, b, d] (some .dir)) none := by
  unfold createDir
  rw [get_bind]
  simp only [has, h3, Option.isSome_none, Bool.false_eq_true, ↓reduceIte, ensureDirs, List.nil_append, List.cons_append]
  rw [bind_ok (ensureDir_old h0), bind_ok (ensureDir_old h1), bind_ok (ensureDir_old h2)]
  exact ensureDir_new h3 (.inr h2)

theorem initLayout_ok {c : Cfg} {fs : FS} (h : Nothing fs) : initLayout c fs none = .ok () (fresh c fs) none := by
  have hc := h.config
  have hd := h.data
  unfold initLayout
  rw [bind_ok (ensureDir_new (hc _) (.inl rfl))]
  rw [bind_ok (ensureDirs_one (by simp [FS.set]) (by simp [FS.set, hc]))]
  rw [bind_ok (ensureDirs_one (by simp [FS.set]) (by simp [FS.set, hc]))]
  rw [bind_ok (ensureDir_new (by simp [FS.set, hd]) (.inl rfl))]
  rw [bind_ok (ensureDirs_one (by simp [FS.set]) (by simp [FS.set, hd]))]
  rw [bind_ok (ensureDirs_one (by simp [FS.set]) (by simp [FS.set, hd]))]
  rw [bind_ok (writeVersion_ok (by simp [FS.set]) (by simp [FS.set, hc]))]
  rw [bind_ok (createDir_ok2 (by simp [FS.set]) (by simp [FS.set]) (by simp [FS.set, hc]))]
  rw [bind_ok (writeFile_ok (by simp [FS.set, hc]) (by simp [FS.set]))]
  rw [bind_ok (touch_new (by simp [FS.set, hc]) (by simp [FS.set]))]
  rw [bind_ok (createDir_ok2 (by simp [FS.set]) (by simp [FS.set]) (by simp [FS.set, hd]))]
  rw [bind_ok (createDir_ok3 (by simp [FS.set]) (by simp [FS.set]) (by simp [FS.set]) (by simp [FS.set, hd]))]
  rw [bind_ok (writeFile_ok (by simp [FS.set, hd]) (by simp [FS.set]))]
  rw [touch_new (by simp [FS.set, hd]) (by simp [FS.set])]
  congr 1
  funext r p
  unfold fresh
  split <;> try (simp [FS.set]; done)
  · rename_i h1 h2 h3 h4 h5 h6 h7
    simp_all [FS.set]
  · rename_i n h1 h2
    simp_all [FS.set]
  · rename_i h1 h2 h3 h4 h5 h6 h7
    simp_all [FS.set]

theorem fresh_tree {c : Cfg} {fs : FS} (h : Nothing fs) : Tree (fresh c fs) := by
  intro r p n hs
  cases r with
  | home => exact h.tree .home p n hs
  | config =>
    match p with
    | [] => rfl
    | [a] =>
      cases a <;> first | rfl | (cases n <;> simp [fresh] at hs)
    | [a, b] =>
      cases a <;> cases b <;> first | rfl | (cases n <;> simp [fresh] at hs)
    | a :: b :: d :: p =>
      exfalso
      cases p <;> simp [fresh] at hs
  | data =>
    match p with
    | [] => rfl
    | [a] =>
      cases a <;> first | rfl | (cases n <;> simp [fresh] at hs)
    | [a, b] =>
      cases a <;> cases b <;> first | rfl | (cases n <;> simp [fresh] at hs)
    | a :: b :: d :: p =>
      exfalso
      cases p <;> simp [fresh] at hs

/-- **C53**, a new installation: the first start creates the default workspace. -/
theorem C53_fresh (c : Cfg) (hv : c.older c.version = false) (fs : FS) (h : Nothing fs) :
    ensureCurrent c fs none = .ok () (fresh c fs) none := by
  have hl : layoutOf fs = some none := by
    have hh : matchOriginal fs = false := by
      rcases h.home with e | e <;> simp [matchOriginal, has, e]
    simp [layoutOf, matchPt, matchWs3, matchWs2, matchWs1, matchXdg, has, h.config, hh]
  unfold ensureCurrent
  rw [get_bind, hl]
  show (initLayout c >>= fun _ => _) fs none = _
  rw [bind_ok (initLayout_ok h), finish_ok rfl (by simp [fresh])]
  have : outdated c (fresh c fs) = false := by simp [outdated, fresh, hv]
  rw [withVersion, this]; rfl

/-- **C53**: the second start replaces the empty history of the new installation, and nothing else; then the layout is the present one. -/
theorem C53_fresh_again (c : Cfg) (ht : IsTime c.now) (hv : c.older c.version = false) (fs : FS) (h : Nothing fs) (hl : Lists c.names (fresh c fs)) :
    ∃ fs', ensureCurrent c (fresh c fs) none = .ok () fs' none ∧ IsPt fs' ∧
      ∀ r p, ¬(r = .data ∧ p = [.workspace, .default_, .history]) → fs' r p = fresh c fs r p := by
  have hw : IsWs3 (fresh c fs) := by
    refine ⟨fresh_tree h, rfl, rfl, ⟨[], rfl, by decide +kernel⟩, ?_, by simp [fresh]⟩
    intro n hd
    have : n = .default_ := by
      cases n <;> first | rfl | simp [fresh] at hd
    subst this
    exact ⟨[], rfl⟩
  refine ⟨_, C53_ws3 c ht _ hw hl, withVersion_isPt (ws3ToPt_isPt ht hw), ?_⟩
  intro r p hp
  have ho : outdated c (ws3ToPt (newHistory c.now c.text) (fresh c fs)) = false := by
    simp [outdated, ws3ToPt, fresh, hv]
  rw [withVersion, ho]
  show ws3ToPt _ _ r p = _
  unfold ws3ToPt
  split
  · rename_i n
    by_cases e : n = .default_
    · subst e; exact absurd ⟨rfl, rfl⟩ hp
    · rw [if_neg]
      · cases n <;> first | rfl | exact absurd rfl e
      · cases n <;> first | exact absurd rfl e | simp [fresh]
  · rfl

/-! ## The hypotheses are met -/

theorem nodup_of {l : List Name} (h : decide l.Nodup = true) : l.Nodup := by simpa using h

theorem exampleTime : IsTime exampleCfg.now :=
  ⟨'0', '2', '5', '0', '4', '0', '2', '1', '6', '5', '4', '2', '2', '7', "89554".toList, by decide +kernel, by decide +kernel⟩

theorem lists_ofList {l : List (Root × Path × Node)} {names : List Name} (h1 : ∀ n, (∀ k, n ≠ .user k) → n ∈ names)
    (h2 : l.all (fun e => e.2.1.all fun n => decide (n ∈ names)) = true) (h3 : names.Nodup) : Lists names (FS.ofList l) := by
  refine ⟨h1, ?_, h3⟩
  intro r p n hs
  unfold FS.ofList at hs
  rw [Option.isSome_map] at hs
  cases hf : l.find? fun e => decide (e.1 = r ∧ e.2.1 = p ++ [n]) with
  | none => rw [hf] at hs; simp at hs
  | some e =>
    have hm := List.mem_of_find?_eq_some hf
    have he := List.find?_some hf
    simp only [decide_eq_true_eq] at he
    rw [List.all_eq_true] at h2
    have := h2 e hm
    rw [he.2, List.all_eq_true] at this
    simpa using this n (by simp)

theorem exampleNames : ∀ n, (∀ k, n ≠ .user k) → n ∈ exampleCfg.names := by
  intro n hn
  cases n <;> first | (simp [exampleCfg]; done) | exact absurd rfl (hn _)

/-- The oldest layout meets the hypotheses. -/
theorem originalFS_ok : IsOriginal originalFS ∧ Lists exampleCfg.names originalFS := by
  refine ⟨⟨tree_ofList (by decide +kernel), by decide +kernel, ⟨"ls\n".toList, by decide +kernel, by decide +kernel⟩, ?_, ?_,
    .inl ⟨by decide +kernel, .inl (by decide +kernel)⟩⟩, lists_ofList exampleNames (by decide +kernel) (by decide +kernel)⟩
  · intro p _; simp [originalFS, FS.ofList]
  · intro p _; simp [originalFS, FS.ofList]

/-- The second layout with workspaces, with a named workspace. -/
def ws2FS : FS := .ofList [
  (.home, [], .dir), (.config, [], .dir), (.data, [], .dir),
  (.config, [.oldDefault], .dir), (.config, [.oldDefault, .startup], .file "a = 1".toList), (.config, [.oldDefault, .marker], .file []),
  (.data, [.oldDefault], .dir), (.data, [.oldDefault, .history], .file "ls\n".toList), (.data, [.oldDefault, .reservoirs], .dir),
  (.config, [.user 0], .dir), (.config, [.user 0, .startup], .file "b = 2".toList), (.config, [.user 0, .marker], .file []),
  (.data, [.user 0], .dir), (.data, [.user 0, .history], .file "pwd\n".toList), (.data, [.user 0, .reservoirs], .dir),
  (.data, [.user 0, .reservoirs, .user 1], .file "contents".toList)]

theorem ws2FS_ok : IsWs2 ws2FS := by
  refine ⟨⟨tree_ofList (by decide +kernel), by decide +kernel, by decide +kernel, ?_, ?_, ?_, by decide +kernel⟩, ?_,
    ⟨"ls\n".toList, by decide +kernel, by decide +kernel⟩, ?_⟩
  · intro r hr; cases r <;> decide +kernel
  · intro r hr; cases r <;> decide +kernel
  · intro r hr c hc
    have := ofList_mem hc
    simp at this
  · intro r hr; cases r
    · exact absurd rfl hr
    · decide +kernel
    · decide +kernel
  · intro n hd
    have := ofList_mem hd
    simp at this
    rcases this with rfl | rfl
    · exact ⟨"ls\n".toList, by decide +kernel⟩
    · exact ⟨"pwd\n".toList, by decide +kernel⟩

example : Lists exampleCfg.names ws2FS := lists_ofList exampleNames (by decide +kernel) (by decide +kernel)

/-- What the theorems say about it. -/
example : ∃ fs', ensureCurrent exampleCfg ws2FS none = .ok () fs' none ∧
    fs' .config [.workspace, .user 0, .startup] = some (.file "b = 2".toList) ∧
    fs' .config [.workspace, .default_, .startup] = some (.file "a = 1".toList) ∧
    fs' .data [.workspace, .user 0, .reservoirs, .user 1] = some (.file "contents".toList) ∧
    fs' .config [.user 0] = none := by
  refine ⟨(ensureCurrent exampleCfg ws2FS none).fs, ?_, by decide +kernel, by decide +kernel, by decide +kernel, by decide +kernel⟩
  rw [C53_ws2 _ exampleTime _ ws2FS_ok (lists_ofList exampleNames (by decide +kernel) (by decide +kernel))]; rfl

/-- The first layout with workspaces, with a named workspace. -/
def ws1FS : FS := .ofList [
  (.home, [], .dir), (.config, [], .dir), (.data, [], .dir),
  (.config, [.startup], .file "a = 1".toList), (.config, [.marker], .file []),
  (.data, [.history], .file "ls\n".toList), (.data, [.reservoirs], .dir), (.data, [.reservoirs, .user 1], .file "r".toList),
  (.config, [.user 0], .dir), (.config, [.user 0, .startup], .file "b = 2".toList), (.config, [.user 0, .marker], .file []),
  (.data, [.user 0], .dir), (.data, [.user 0, .history], .file "pwd\n".toList), (.data, [.user 0, .reservoirs], .dir)]

theorem ws1FS_ok : IsWs1 ws1FS := by
  refine ⟨⟨tree_ofList (by decide +kernel), by decide +kernel, by decide +kernel, ?_, ?_, ?_, by decide +kernel⟩, by decide +kernel, by decide +kernel,
    ⟨"ls\n".toList, by decide +kernel, by decide +kernel⟩, by decide +kernel, ?_, ?_⟩
  · intro r hr; cases r <;> decide +kernel
  · intro r hr; cases r <;> decide +kernel
  · intro r hr c hc
    have := ofList_mem hc
    simp at this
  · intro r hr; cases r <;> decide +kernel
  · intro n hn hd
    have := ofList_mem hd
    simp at this
    rcases this with rfl | rfl
    · exact absurd rfl hn
    · exact ⟨"pwd\n".toList, by decide +kernel⟩

example : Lists exampleCfg.names ws1FS ∧ ws1FS .data [.user 0] = some .dir :=
  ⟨lists_ofList exampleNames (by decide +kernel) (by decide +kernel), by decide +kernel⟩

/-- The other layouts, from these. -/
example : IsXdg (originalToXdg originalFS) ∧ IsWs3 (ws2ToWs3 ws2FS) ∧ IsPt (ws3ToPt (newHistory exampleCfg.now exampleCfg.text) (ws2ToWs3 ws2FS)) :=
  ⟨originalToXdg_isXdg originalFS_ok.1, ws2ToWs3_isWs3 ws2FS_ok, ws3ToPt_isPt exampleTime (ws2ToWs3_isWs3 ws2FS_ok)⟩

example : Lists exampleCfg.names (fresh exampleCfg (FS.ofList [(.home, [], .dir)])) := by
  refine ⟨exampleNames, ?_, by decide +kernel⟩
  intro r p n hs
  cases n with
  | user k =>
    have hk : k = 7 := by
      cases r with
      | home =>
        cases h : fresh exampleCfg (FS.ofList [(.home, [], .dir)]) .home (p ++ [.user k]) with
        | none => rw [h] at hs; simp at hs
        | some x =>
          have h' : FS.ofList [(.home, [], .dir)] .home (p ++ [.user k]) = some x := h
          have := ofList_mem h'
          simp at this
      | config =>
        exfalso
        match p with
        | [] => simp [fresh] at hs
        | [a] => cases a <;> simp [fresh] at hs
        | [a, b] => cases a <;> cases b <;> simp [fresh] at hs
        | a :: b :: d :: p => cases p <;> simp [fresh] at hs
      | data =>
        match p with
        | [] => simp [fresh] at hs
        | [a] => cases a <;> simp [fresh] at hs
        | [a, b] =>
          cases a <;> cases b <;> simp [fresh] at hs
          exact hs
        | a :: b :: d :: p => cases p <;> simp [fresh] at hs
    subst hk
    decide +kernel
  | _ => exact exampleNames _ (by simp)

example : Nothing (FS.ofList [(.home, [], .dir)]) :=
  ⟨tree_ofList (by decide +kernel), .inl (by decide +kernel), fun p => by simp [FS.ofList], fun p => by simp [FS.ofList]⟩

example : exampleCfg.older exampleCfg.version = false := by decide +kernel

end Marcel.Storage
