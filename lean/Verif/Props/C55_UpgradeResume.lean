import Verif.Props.C53_Upgrade

/-! # C55: an interrupted upgrade is completed by the next start

This is false for most points of an interruption; it is proved for the last upgrade, in which only histories are replaced, and for starts in the present layout. -/

namespace Marcel.Storage

/-! ## Starts in the present layout -/

theorem writeVersion_crash {c : Cfg} {fs : FS} (h0 : fs .config [] = some .dir) (hv : fs .config [.version] ≠ some .dir) (k : Option Nat) :
    (writeVersion c fs k).fs = fs ∨ (writeVersion c fs k).fs = fs.set .config [.version] (some (.file [])) ∨
      (writeVersion c fs k).fs = fs.set .config [.version] (some (.file c.version)) := by
  have e1 : isDir .config [] fs = true := by simp [isDir, h0]
  unfold writeVersion ensureDir
  rw [bind_def, get_bind]
  simp only [e1, ↓reduceIte, pure_def]
  have w : ∀ (g : FS) k, g .config [] = some .dir → g .config [.version] ≠ some .dir → (writeFile .config [.version] c.version g k).fs = g ∨
      (writeFile .config [.version] c.version g k).fs = g.set .config [.version] (some (.file [])) ∨
      (writeFile .config [.version] c.version g k).fs = g.set .config [.version] (some (.file c.version)) := by
    intro g k hg0 hgv
    unfold writeFile
    simp only [get_bind, isDir, hgv, decide_false, Bool.false_eq_true, ↓reduceIte, List.dropLast_singleton, hg0, decide_true]
    rw [bind_def]
    match k with
    | none => right; right; simp [change, Res.fs, set_set]
    | some 0 => left; simp [change, Res.fs]
    | some 1 => right; left; simp [change, Res.fs]
    | some (k + 2) => right; right; simp [change, Res.fs, set_set]
  unfold touch
  rw [bind_def, get_bind]
  by_cases hh : has .config [.version] fs = true
  · simp only [hh, ↓reduceIte, pure_def]
    exact w fs k h0 hv
  · simp only [hh, Bool.false_eq_true, ↓reduceIte, get_bind]
    simp only [isDir, List.dropLast_singleton, h0, decide_true, ↓reduceIte]
    match k with
    | none =>
      simp only [change]
      rcases w (fs.set .config [.version] (some (.file []))) none (by rw [set_other _ _ (by simp)]; exact h0) (by rw [set_same]; simp) with h | h | h
      · exact .inr (.inl h)
      · rw [set_set] at h; exact .inr (.inl h)
      · rw [set_set] at h; exact .inr (.inr h)
    | some 0 => left; simp [change, Res.fs]
    | some (k + 1) =>
      simp only [change]
      rcases w (fs.set .config [.version] (some (.file []))) (some k) (by rw [set_other _ _ (by simp)]; exact h0) (by rw [set_same]; simp) with h | h | h
      · exact .inr (.inl h)
      · rw [set_set] at h; exact .inr (.inl h)
      · rw [set_set] at h; exact .inr (.inr h)

theorem isPt_root {fs : FS} (h : IsPt fs) : fs .config [] = some .dir := by
  have h1 := h.tree.dir (r := .config) [.workspace] .default_ [] (by simp [h.config])
  exact h.tree.dir (r := .config) [] .workspace [] (by simp [h1])

theorem start_pt {c : Cfg} {fs : FS} (h : IsPt fs) (k : Option Nat) :
    ensureCurrent c fs k = if outdated c fs then writeVersion c fs k else .ok () fs k := by
  unfold ensureCurrent
  rw [get_bind, layout_pt h]
  show ((pure () : Prog Unit) >>= fun _ => _) fs k = _
  rw [bind_def]
  simp only [pure_def]
  rw [bind_def, ensureDir, get_bind]
  simp only [isDir, isPt_root h, decide_true, ↓reduceIte, pure_def, get_bind]
  split
  · rename_i ho; rfl
  · rfl

/-- **C55** for starts in the present layout: wherever such a start is interrupted, after the next one everything is as if there had been no interruption.
(An empty version file, which an interruption may leave, counts as an old version: the empty string is less than any other.) -/
theorem C55_current (c : Cfg) (he : c.older [] = true) (fs : FS) (h : IsPt fs) (k : Option Nat) :
    ensureCurrent c (ensureCurrent c fs k).fs none = ensureCurrent c fs none := by
  rw [C53_current c fs h]
  rw [start_pt h k]
  by_cases ho : outdated c fs
  · rw [if_pos ho]
    have hw : withVersion c fs = fs.set .config [.version] (some (.file c.version)) := by simp [withVersion, ho]
    have hset : ∀ t, IsPt (fs.set .config [.version] (some (.file t))) := by
      intro t
      have := withVersion_isPt (c := { c with version := t }) h
      have e : withVersion { c with version := t } fs = fs.set .config [.version] (some (.file t)) := by
        have : outdated { c with version := t } fs = outdated c fs := rfl
        simp [withVersion, this, ho]
      rw [e] at this; exact this
    rcases writeVersion_crash (c := c) (isPt_root h) h.version k with e | e | e
    · rw [e]; exact C53_current c fs h
    · rw [e, C53_current c _ (hset [])]
      congr 1
      rw [withVersion, hw]
      simp [outdated, set_same, he, set_set]
    · rw [e, C53_current c _ (hset _)]
      congr 1
      rw [withVersion, hw]
      split <;> simp [set_set]
  · rw [if_neg ho]
    exact C53_current c fs h

/-! ## The last upgrade -/

/-- The history of one workspace has been removed, or is empty. -/
theorem resetHistory_crash {now text : Text} {n : Name} {fs : FS} {t : Text} (h : fs .data [.workspace, n, .history] = some (.file t))
    (hd : fs .data [.workspace, n] = some .dir) (k : Nat) :
    (∃ k', resetHistory now text n fs (some k) = .ok () (fs.set .data [.workspace, n, .history] (some (.file (newHistory now text)))) (some k')) ∨
    resetHistory now text n fs (some k) = .crashed fs ∨
    resetHistory now text n fs (some k) = .crashed (fs.set .data [.workspace, n, .history] none) ∨
    resetHistory now text n fs (some k) = .crashed (fs.set .data [.workspace, n, .history] (some (.file []))) := by
  unfold resetHistory unlink
  rw [bind_def, get_bind]
  simp only [has, isDir, h, Option.isSome_some, Bool.true_and]
  have hx : (!decide (some (Node.file t) = some Node.dir)) = true := by simp
  simp only [hx, ↓reduceIte]
  match k with
  | 0 => right; left; simp [change]
  | k + 1 =>
    simp only [change]
    unfold writeFile
    have h1 : (fs.set .data [.workspace, n, .history] none) .data [.workspace, n, .history] = none := set_same ..
    have h2 : (fs.set .data [.workspace, n, .history] none) .data [.workspace, n] = some .dir := by rw [set_other _ _ (by simp)]; exact hd
    simp only [get_bind, isDir, h1, List.dropLast, h2, decide_true, ↓reduceIte, reduceCtorEq, decide_false, Bool.false_eq_true]
    rw [bind_def]
    match k with
    | 0 => right; right; left; simp [change]
    | 1 => right; right; right; simp [change, set_set]
    | k + 2 => left; exact ⟨k, by simp [change, set_set]⟩

/-- What an interruption of the loop leaves. -/
theorem forM_crash {now text : Text} (l : List Name) (fs : FS) (hl : l.Nodup)
    (h : ∀ n ∈ l, fs .data [.workspace, n] = some .dir ∧ ∃ t, fs .data [.workspace, n, .history] = some (.file t)) (k : Nat) :
    (∃ k', l.forM (resetHistory now text) fs (some k) = .ok () (resetSome (newHistory now text) l fs) (some k')) ∨
    ∃ l1 n l2 x, l = l1 ++ n :: l2 ∧ (x = fs .data [.workspace, n, .history] ∨ x = none ∨ x = some (.file [])) ∧
      l.forM (resetHistory now text) fs (some k) = .crashed ((resetSome (newHistory now text) l1 fs).set .data [.workspace, n, .history] x) := by
  induction l generalizing fs k with
  | nil =>
    left
    refine ⟨k, ?_⟩
    show Res.ok () fs (some k) = _
    congr 1
    funext r p
    unfold resetSome
    split <;> simp
  | cons n l ih =>
    obtain ⟨hd, t, ht⟩ := h n (by simp)
    rw [List.nodup_cons] at hl
    have e0 : resetSome (newHistory now text) [] fs = fs := by
      funext r p
      unfold resetSome
      split <;> simp
    have step : (n :: l).forM (resetHistory now text) fs (some k) = (resetHistory now text n >>= fun _ => l.forM (resetHistory now text)) fs (some k) := rfl
    rw [step, bind_def]
    rcases resetHistory_crash (now := now) (text := text) ht hd k with ⟨k', e⟩ | e | e | e
    · rw [e]
      simp only
      have hnext : ∀ m ∈ l, (fs.set .data [.workspace, n, .history] (some (.file (newHistory now text)))) .data [.workspace, m] = some .dir ∧
          ∃ t, (fs.set .data [.workspace, n, .history] (some (.file (newHistory now text)))) .data [.workspace, m, .history] = some (.file t) := by
        intro m hm
        have hne : m ≠ n := fun e => hl.1 (e ▸ hm)
        rw [set_other _ _ (by simp), set_other _ _ (by simp [hne])]
        exact h m (by simp [hm])
      rcases ih _ hl.2 hnext k' with ⟨k2, e2⟩ | ⟨l1, m, l2, x, rfl, hx, e2⟩
      · left; exact ⟨k2, by rw [e2, resetSome_cons]⟩
      · right
        refine ⟨n :: l1, m, l2, x, rfl, ?_, by rw [e2, resetSome_cons]⟩
        have hne : m ≠ n := fun e => hl.1 (e ▸ by simp)
        rw [set_other _ _ (by simp [hne])] at hx
        exact hx
    · right; exact ⟨[], n, l, _, rfl, .inl rfl, by rw [e, e0]; simp only; rw [set_id rfl]⟩
    · right; exact ⟨[], n, l, none, rfl, .inr (.inl rfl), by rw [e, e0]⟩
    · right; exact ⟨[], n, l, _, rfl, .inr (.inr rfl), by rw [e, e0]⟩

theorem resetSome_at {new : Text} {l : List Name} {fs : FS} (r : Root) (p : Path) (h : ∀ n ∈ l, ¬(r = .data ∧ p = [.workspace, n, .history])) :
    resetSome new l fs r p = fs r p := by
  unfold resetSome
  split
  · rename_i n
    rw [if_neg]
    exact fun hn => h n hn ⟨rfl, rfl⟩
  · rfl

/-- Replacing histories again. -/
theorem ws3ToPt_absorb {new : Text} {fs g : FS} (h : ∀ r p, (∀ n, ¬(r = .data ∧ p = [.workspace, n, .history])) → g r p = fs r p) :
    ws3ToPt new g = ws3ToPt new fs := by
  funext r p
  unfold ws3ToPt
  split
  · rename_i n
    rw [h _ _ (by simp)]
  · rename_i hne
    exact h r p fun n hn => hne n hn.1 hn.2

/-- **C55**, for the last upgrade (from the layout with histories in another format): if the default workspace is the last one listed, and the interruption
has not left a workspace without a history, the next start completes the upgrade: the result is the same as without an interruption. -/
theorem C55_ws3_partial (c : Cfg) (ht : IsTime c.now) (he : c.older [] = true) (fs : FS) (h : IsWs3 fs) (hl : Lists c.names fs)
    (before : List Name) (hlast : (c.names.filter fun n => isDir .data [.workspace, n] fs) = before ++ [.default_]) (k : Nat)
    (hk : ∀ n, fs .data [.workspace, n] = some .dir → (ensureCurrent c fs (some k)).fs .data [.workspace, n, .history] ≠ none) :
    ensureCurrent c (ensureCurrent c fs (some k)).fs none = ensureCurrent c fs none := by
  have hw := h.tree.dir [.workspace] .default_ [] (r := .data) (by simp [h.data])
  have hnd : (before ++ [Name.default_]).Nodup := by rw [← hlast]; exact hl.nodup.filter _
  have hmem : ∀ n ∈ before ++ [Name.default_], fs .data [.workspace, n] = some .dir ∧ ∃ t, fs .data [.workspace, n, .history] = some (.file t) := by
    intro n hn
    rw [← hlast] at hn
    simp only [List.mem_filter, isDir, decide_eq_true_eq] at hn
    exact ⟨hn.2, h.histories n hn.2⟩
  have hall : resetSome (newHistory c.now c.text) (before ++ [.default_]) fs = ws3ToPt (newHistory c.now c.text) fs := by
    rw [← hlast]; exact resetSome_all h hl
  have hdef : Name.default_ ∉ before := by
    intro hb
    rw [List.nodup_append] at hnd
    exact hnd.2.2 _ hb _ (by simp) rfl
  rw [C53_ws3 c ht fs h hl]
  have run : ensureCurrent c fs (some k) = (do
      (before ++ [Name.default_]).forM (resetHistory c.now c.text)
      expect .pt
      ensureDir .config []
      if ← get (outdated c) then writeVersion c else pure () : Prog Unit) fs (some k) := by
    unfold ensureCurrent
    rw [get_bind, layout_ws3 h]
    show ((subdirs c.names .data [.workspace] >>= fun l => l.forM (resetHistory c.now c.text) >>= fun _ => expect .pt) >>= fun _ => _) fs (some k) = _
    unfold subdirs
    rw [bind_def, bind_def, get_bind]
    have hd : isDir .data [.workspace] fs = true := by simp [isDir, hw]
    simp only [hd, ↓reduceIte, Storage.get, List.cons_append, List.nil_append, hlast, bind_def]
    generalize hg : List.forM (before ++ [Name.default_]) (resetHistory c.now c.text) fs (some k) = res
    cases res <;> rfl
  rw [run] at hk ⊢
  rw [bind_def] at hk ⊢
  rcases forM_crash (now := c.now) (text := c.text) _ fs hnd hmem k with ⟨k', e⟩ | ⟨l1, n, l2, x, hsplit, hx, e⟩
  · -- all histories were replaced
    rw [e, hall]
    simp only
    have hpt : IsPt (ws3ToPt (newHistory c.now c.text) fs) := ws3ToPt_isPt ht h
    have e2 : (do
      expect .pt
      ensureDir .config []
      if ← get (outdated c) then writeVersion c else pure () : Prog Unit) (ws3ToPt (newHistory c.now c.text) fs) (some k') =
        ensureCurrent c (ws3ToPt (newHistory c.now c.text) fs) (some k') := by
      unfold ensureCurrent expect
      simp [bind_def, get_bind, layout_pt hpt, Storage.get, pure_def, migrateFrom]
    rw [e2]
    rw [C55_current c he _ hpt (some k'), C53_current c _ hpt]
  · rw [e] at hk ⊢
    simp only [Res.fs] at hk ⊢
    -- the history of `n` is not missing
    have hn : n ∈ before ++ [Name.default_] := by rw [hsplit]; simp
    have hxs : x ≠ none := by
      have := hk n (hmem n hn).1
      rw [set_same] at this
      exact this
    obtain ⟨t, hxt⟩ : ∃ t, x = some (.file t) := by
      rcases hx with rfl | rfl | rfl
      · exact (hmem n hn).2
      · exact absurd rfl hxs
      · exact ⟨[], rfl⟩
    have hd1 : Name.default_ ∉ l1 := by
      intro hm
      have e1 : (l1 ++ n :: l2).Nodup := hsplit ▸ hnd
      -- the default workspace is the last one
      have : (l1 ++ n :: l2).getLast? = some .default_ := by rw [← hsplit]; simp
      rw [List.getLast?_append, List.getLast?_cons] at this
      simp only [Option.some_or] at this
      have hin : Name.default_ ∈ n :: l2 := by
        have h2 : (n :: l2).getLast? = some Name.default_ := by rw [List.getLast?_cons]; simpa using this
        exact List.mem_of_getLast? h2
      rw [List.nodup_append] at e1
      exact e1.2.2 _ hm _ hin rfl
    have hsame : ∀ r p, (∀ m, ¬(r = .data ∧ p = [.workspace, m, .history])) →
        ((resetSome (newHistory c.now c.text) l1 fs).set .data [.workspace, n, .history] x) r p = fs r p := by
      intro r p hp
      rw [set_other _ _ (hp n), resetSome_at r p fun m _ => hp m]
    have hist : ∀ m, fs .data [.workspace, m] = some .dir →
        ∃ u, ((resetSome (newHistory c.now c.text) l1 fs).set .data [.workspace, n, .history] x) .data [.workspace, m, .history] = some (.file u) := by
      intro m hm
      by_cases hmn : m = n
      · subst hmn; exact ⟨t, by rw [set_same, hxt]⟩
      · rw [set_other _ _ (by simp [hmn])]
        unfold resetSome
        by_cases hml : m ∈ l1
        · exact ⟨_, by simp [hml]; rfl⟩
        · simp only [hml, ↓reduceIte]; exact h.histories m hm
    have hws : IsWs3 ((resetSome (newHistory c.now c.text) l1 fs).set .data [.workspace, n, .history] x) := by
      refine ⟨?_, ?_, ?_, ?_, ?_, ?_⟩
      · intro r p m hs
        have hsome : (fs r (p ++ [m])).isSome := by
          by_cases hp : ∃ q, r = .data ∧ p ++ [m] = [.workspace, q, .history]
          · obtain ⟨q, rfl, e⟩ := hp
            have : p = [.workspace, q] ∧ [m] = [.history] := List.append_inj' (t₁ := [m]) (s₂ := [.workspace, q]) (t₂ := [.history]) e rfl
            obtain ⟨rfl, e2⟩ := this
            simp at e2; subst e2
            by_cases hq : q ∈ l1 ∨ q = n
            · have hq' : q ∈ before ++ [Name.default_] := by
                rw [hsplit]
                rcases hq with hq | rfl
                · simp [hq]
                · simp
              obtain ⟨u, hu⟩ := (hmem q hq').2
              show (fs .data [.workspace, q, .history]).isSome
              rw [hu]; rfl
            · have hqn : q ≠ n := fun e => hq (.inr e)
              have hql : q ∉ l1 := fun e => hq (.inl e)
              simp only [List.cons_append, List.nil_append] at hs ⊢
              rw [set_other _ _ (by simp [hqn])] at hs
              simpa [resetSome, hql] using hs
          · rw [hsame r _ fun q hq => hp ⟨q, hq⟩] at hs; exact hs
        have hdir := h.tree _ _ _ hsome
        rw [hsame]
        · exact hdir
        · rintro q ⟨rfl, rfl⟩
          have hdd := h.tree.dir (r := .data) [.workspace, q] .history [] (by simp [hdir])
          obtain ⟨u, hu⟩ := h.histories q hdd
          rw [hu] at hdir; simp at hdir
      · rw [hsame _ _ (by simp)]; exact h.config
      · rw [hsame _ _ (by simp)]; exact h.data
      · obtain ⟨u, hu, hlu⟩ := h.history
        by_cases hnd' : n = .default_
        · subst hnd'
          rcases hx with rfl | rfl | rfl
          · exact ⟨u, by rw [set_same]; exact hu, hlu⟩
          · exact absurd rfl hxs
          · exact ⟨[], set_same .., by decide +kernel⟩
        · refine ⟨u, ?_, hlu⟩
          rw [set_other _ _ (by simp [Ne.symm hnd'])]
          simp [resetSome, hd1, hu]
      · intro m hm
        rw [hsame _ _ (by simp)] at hm
        exact hist m hm
      · rw [hsame _ _ (by simp)]; exact h.version
    have hll : Lists c.names ((resetSome (newHistory c.now c.text) l1 fs).set .data [.workspace, n, .history] x) := by
      refine ⟨hl.own, ?_, hl.nodup⟩
      intro r p m hs
      by_cases hu : ∀ k, m ≠ .user k
      · exact hl.own m hu
      · rw [hsame] at hs
        · exact hl.all r p m hs
        · rintro q ⟨rfl, e⟩
          have := (List.append_inj' (t₁ := [m]) (s₂ := [.workspace, q]) (t₂ := [.history]) e rfl).2
          simp at this; subst this
          exact hu (by simp)
    rw [C53_ws3 c ht _ hws hll, ws3ToPt_absorb hsame]

/-! ## Interruptions after which marcel does not start any more -/

/-- If there is a configuration, but no workspace in the data directory, each start fails and changes nothing. -/
theorem C55_stuck (c : Cfg) (fs : FS) (h : layoutOf fs = some (some .ws3)) (hn : ∀ n ∈ c.names, fs .data [.workspace, n] ≠ some .dir) (k : Option Nat) :
    ensureCurrent c fs k = .raised fs := by
  unfold ensureCurrent
  rw [get_bind, h]
  show ((subdirs c.names .data [.workspace] >>= fun l => l.forM (resetHistory c.now c.text) >>= fun _ => expect .pt) >>= fun _ => _) fs k = _
  rw [bind_def, bind_def, subdirs, get_bind]
  by_cases hd : isDir .data [.workspace] fs = true
  · have hf : (c.names.filter fun n => isDir .data ([.workspace] ++ [n]) fs) = [] := by
      rw [List.filter_eq_nil_iff]
      intro n hm
      simpa [isDir] using hn n hm
    simp only [hd, ↓reduceIte, Storage.get, hf, bind_def]
    have e0 : List.forM ([] : List Name) (resetHistory c.now c.text) fs k = .ok () fs k := rfl
    have : expect .pt fs k = .raised fs := by
      unfold expect
      simp [get_bind, h, fail]
    simp only [e0, this]
  · simp only [hd, Bool.false_eq_true, ↓reduceIte, fail]

/-- Nothing of marcel's. -/
def nothingFS : FS := .ofList [(.home, [], .dir)]

/-- **C55 is false for the first start**: interrupted after 10 steps (the directory of the default workspace exists in the configuration directory, but not in the data directory),
every later start fails, whatever the version. -/
theorem C55_false_fresh (c : Cfg) (hc : c.names = exampleCfg.names) (k : Option Nat) :
    ensureCurrent c (ensureCurrent exampleCfg nothingFS (some 10)).fs k = .raised (ensureCurrent exampleCfg nothingFS (some 10)).fs :=
  C55_stuck c _ (by decide +kernel) (by rw [hc]; decide +kernel) k

/-- **C55 is false for the oldest layout**: interrupted between the moves of the startup script and the history, the next starts fail. -/
theorem C55_false_original :
    (ensureCurrent exampleCfg (ensureCurrent exampleCfg originalFS (some 3)).fs none).isOk = false ∧
    ∀ n ∈ [2, 3, 4], (ensureCurrent exampleCfg (starts originalFS ((exampleCfg, some 3) :: List.replicate n (exampleCfg, none))) none).isOk = false := by
  decide +kernel

/-- **C55 is false for each of the other upgrades** as well: from XDG directories (the marker exists, the directory of reservoirs does not), from the first layout with workspaces
(only the configuration has been moved), from the second (only the configuration has been moved). -/
theorem C55_false_others :
    (ensureCurrent exampleCfg (ensureCurrent exampleCfg (originalToXdg originalFS) (some 1)).fs none).isOk = false ∧
    (ensureCurrent exampleCfg (ensureCurrent exampleCfg ws1FS (some 3)).fs none).isOk = false ∧
    (ensureCurrent exampleCfg (ensureCurrent exampleCfg ws2FS (some 5)).fs none).isOk = false := by
  decide +kernel

/-- **C55 is false for the last upgrade**, if it is interrupted between the removal of a history and the creation of the new one: the next start fails. -/
theorem C55_false_history : (ensureCurrent exampleCfg (ensureCurrent exampleCfg (ws2ToWs3 ws2FS) (some 1)).fs none).isOk = false := by
  decide +kernel

/-- **C55 is false for the last upgrade**, if the default workspace is listed first: the history of another workspace stays in the old format, and no later start
replaces it. -/
theorem C55_false_skipped :
    (ensureCurrent exampleCfg (ensureCurrent exampleCfg (ws2ToWs3 ws2FS) (some 3)).fs none).isOk = true ∧
    starts (ws2ToWs3 ws2FS) [(exampleCfg, some 3), (exampleCfg, none)] .data [.workspace, .user 0, .history] = some (.file "pwd\n".toList) ∧
    starts (ws2ToWs3 ws2FS) [(exampleCfg, none)] .data [.workspace, .user 0, .history] ≠ some (.file "pwd\n".toList) := by
  decide +kernel

/-! ## Cases in which an upgrade without an interruption goes wrong -/

/-- The present layout, with an empty history of the default workspace. -/
def clearedFS : FS := .ofList [
  (.home, [], .dir), (.config, [], .dir), (.config, [.version], .file "0.34".toList), (.config, [.workspace], .dir), (.config, [.workspace, .default_], .dir),
  (.config, [.workspace, .user 0], .dir), (.data, [], .dir), (.data, [.workspace], .dir),
  (.data, [.workspace, .default_], .dir), (.data, [.workspace, .default_, .history], .file []),
  (.data, [.workspace, .user 0], .dir), (.data, [.workspace, .user 0, .history], .file "\n# 2025-04-03 10:00:00.000000\n+ls\n".toList)]

/-- **C53 is false if the history of the default workspace is empty**: the layout is taken for an older one, and the histories of all workspaces are replaced. -/
theorem C53_false_cleared :
    (ensureCurrent exampleCfg clearedFS none).isOk = true ∧
    (ensureCurrent exampleCfg clearedFS none).fs .data [.workspace, .user 0, .history] = some (.file (newHistory exampleCfg.now exampleCfg.text)) := by
  decide +kernel

/-- The second layout with workspaces, with a workspace called `workspace`. -/
def workspaceFS : FS := .ofList [
  (.home, [], .dir), (.config, [], .dir), (.data, [], .dir),
  (.config, [.oldDefault], .dir), (.config, [.oldDefault, .startup], .file "a = 1".toList),
  (.data, [.oldDefault], .dir), (.data, [.oldDefault, .history], .file "ls\n".toList),
  (.config, [.workspace], .dir), (.config, [.workspace, .startup], .file "b = 2".toList),
  (.data, [.workspace], .dir), (.data, [.workspace, .history], .file "pwd\n".toList)]

/-- **C53 is false for a workspace called `workspace`**: there is no workspace of this name afterwards. Its files are now in the directory of all workspaces. -/
theorem C53_false_workspace :
    (ensureCurrent exampleCfg workspaceFS none).isOk = true ∧
    (ensureCurrent exampleCfg workspaceFS none).fs .config [.workspace, .workspace] = none ∧
    (ensureCurrent exampleCfg workspaceFS none).fs .config [.workspace, .startup] = some (.file "b = 2".toList) := by
  decide +kernel

/-! ## The hypotheses are met -/

/-- The directory is listed in another order. -/
def lastCfg : Cfg := { exampleCfg with
  names := [.startup, .marker, .history, .reservoirs, .oldDefault, .workspace, .broken, .version, .user 0, .user 1, .user 7, .dotMarcel, .dotHistory, .default_] }

theorem lastLists : Lists lastCfg.names (ws2ToWs3 ws2FS) := by
  have h := ws2ToWs3_listsAll (lists_ofList exampleNames (by decide +kernel) (by decide +kernel) : Lists exampleCfg.names ws2FS)
  refine ⟨?_, ?_, by decide +kernel⟩
  · intro n hn
    cases n <;> first | (simp [lastCfg]; done) | exact absurd rfl (hn _)
  · intro r p n hs
    have : ∀ m ∈ exampleCfg.names, m ∈ lastCfg.names := by decide +kernel
    exact this n (h.all r p n hs)

/-- Interrupted after 4 steps: the history of workspace 0 has been replaced, that of the default workspace removed (excluded by the last hypothesis);
after 5 steps it is empty, and the theorem applies. -/
example : ensureCurrent lastCfg (ensureCurrent lastCfg (ws2ToWs3 ws2FS) (some 5)).fs none = ensureCurrent lastCfg (ws2ToWs3 ws2FS) none :=
  C55_ws3_partial lastCfg exampleTime (by decide +kernel) _ (ws2ToWs3_isWs3 ws2FS_ok) lastLists [.user 0] (by decide +kernel) 5 (by
    intro n hd
    have hn : n ∈ lastCfg.names := lastLists.all .data [.workspace] n (by show (ws2ToWs3 ws2FS .data [.workspace, n]).isSome; rw [hd]; rfl)
    revert hd
    revert n
    decide +kernel)

end Marcel.Storage
