import Verif.Spec.Scopes
import Verif.Lemmas.Dict

/-! Lemmas for C25, C26. -/

namespace Marcel

variable {ν V : Type} [DecidableEq ν]

/-! ### The relation between the code's namespace and the specification -/

/-- A scope holds exactly the frame. -/
def RScope (sc : Scope ν V) (f : ν → Option V) : Prop :=
  sc.vals.keys.Nodup ∧ (∀ x, sc.vals.get? x = f x) ∧ ∀ x, x ∈ sc.params ↔ (f x).isSome = true

/-- The scopes hold exactly the frames. -/
def RScopes : List (Scope ν V) → List (ν → Option V) → Prop
  | [], [] => True
  | sc :: r, f :: fs => RScope sc f ∧ RScopes r fs
  | _, _ => False

/-- The namespace agrees with the specification: expressions see what they should. -/
structure Agree (s : NS ν V) (σ : SEnv ν V) : Prop where
  nodup : s.dict.keys.Nodup
  see : ∀ x, s.dict.get? x = σ.visible x
  scopes : RScopes s.inner σ.frames

/-- No name is both a global variable and a parameter. -/
structure Apart (G : ν → Prop) (σ : SEnv ν V) : Prop where
  global : ∀ x, (σ.global x).isSome = true → G x
  frames : ∀ f ∈ σ.frames, ∀ x, (f x).isSome = true → ¬ G x

theorem RScopes.length {r : List (Scope ν V)} {fs : List (ν → Option V)} (h : RScopes r fs) :
    r.length = fs.length := by
  induction r generalizing fs with
  | nil => cases fs <;> simp_all [RScopes]
  | cons sc r ih =>
    cases fs with
    | nil => simp [RScopes] at h
    | cons f fs => simp [ih h.2]

theorem look_setVisible (g : ν → Option V) (x : ν) (v : V) (fs : List (ν → Option V)) (y : ν) :
    SEnv.look (SEnv.setVisible g x (some v) fs).1 (SEnv.setVisible g x (some v) fs).2 y =
      if x = y then some v else SEnv.look g fs y := by
  induction fs with
  | nil => simp [SEnv.setVisible, SEnv.look, SEnv.upd]
  | cons f fs ih =>
    simp only [SEnv.setVisible]
    cases hx : f x with
    | some w =>
      simp only [SEnv.look, SEnv.upd]
      by_cases h : x = y
      · simp [h]
      · simp [h]
    | none =>
      simp only [SEnv.look, ih]
      by_cases h : x = y
      · subst h; simp [hx]
      · simp [h]

theorem look_setVisible_none (g : ν → Option V) (x : ν) (fs : List (ν → Option V)) (hfs : ∀ f ∈ fs, f x = none)
    (y : ν) :
    SEnv.look (SEnv.setVisible g x none fs).1 (SEnv.setVisible g x none fs).2 y =
      if x = y then none else SEnv.look g fs y := by
  induction fs with
  | nil => simp [SEnv.setVisible, SEnv.look, SEnv.upd]
  | cons f fs ih =>
    have hx := hfs f (by simp)
    simp only [SEnv.setVisible, hx, SEnv.look, ih (fun f' hf' => hfs f' (by simp [hf']))]
    by_cases h : x = y
    · subst h; simp [hx]
    · simp [h]

theorem setVisible_frames (g : ν → Option V) (x : ν) (v : Option V) (fs : List (ν → Option V))
    (hfs : ∀ f ∈ fs, f x = none) : SEnv.setVisible g x v fs = (SEnv.upd g x v, fs) := by
  induction fs with
  | nil => rfl
  | cons f fs ih =>
    have hx := hfs f (by simp)
    simp only [SEnv.setVisible, hx, ih (fun f' hf' => hfs f' (by simp [hf']))]

theorem rscopes_storeItem (x : ν) (v : V) (r : List (Scope ν V)) (top : Dict ν V) (g : ν → Option V)
    (fs : List (ν → Option V)) (h : RScopes r fs) :
    RScopes (NS.storeItem x v r top).1 (SEnv.setVisible g x (some v) fs).2 := by
  induction r generalizing fs with
  | nil =>
    cases fs with
    | nil => simp [NS.storeItem, SEnv.setVisible, RScopes]
    | cons => simp [RScopes] at h
  | cons sc r ih =>
    cases fs with
    | nil => simp [RScopes] at h
    | cons f fs =>
      obtain ⟨⟨hn, hg, hp⟩, hr⟩ := h
      simp only [NS.storeItem, SEnv.setVisible]
      cases hx : f x with
      | some w =>
        have : x ∈ sc.params := (hp x).2 (by simp [hx])
        simp only [this, if_true]
        refine ⟨⟨Dict.nodup_keys_set _ _ _ hn, ?_, ?_⟩, hr⟩
        · intro y; simp only [Dict.get?_set, SEnv.upd, hg]
        · intro y
          rw [hp y]
          simp only [SEnv.upd]
          by_cases h : x = y
          · subst h; simp [hx]
          · simp [h]
      | none =>
        have : x ∉ sc.params := fun hc => by have := (hp x).1 hc; simp [hx] at this
        simp only [this, if_false]
        exact ⟨⟨hn, hg, hp⟩, ih fs hr⟩

theorem Agree.assign {s : NS ν V} {σ : SEnv ν V} (h : Agree s σ) (x : ν) (v : V) :
    Agree (s.assign x v) (σ.change x (some v)) := by
  refine ⟨Dict.nodup_keys_set _ _ _ h.nodup, ?_, rscopes_storeItem x v _ _ _ _ h.scopes⟩
  intro y
  simp only [NS.assign, Dict.get?_set, SEnv.visible, SEnv.change, look_setVisible]
  rw [h.see]; rfl

theorem Agree.perm {s : NS ν V} {σ : SEnv ν V} (h : Agree s σ) (x : ν) (v : V)
    (hx : ∀ f ∈ σ.frames, f x = none) : Agree (s.assignPermanent x v) (σ.change x (some v)) := by
  refine ⟨Dict.nodup_keys_set _ _ _ h.nodup, ?_, ?_⟩
  · intro y
    simp only [NS.assignPermanent, Dict.get?_set, SEnv.visible, SEnv.change, look_setVisible]
    rw [h.see]; rfl
  · simp only [SEnv.change, setVisible_frames _ _ _ _ hx]; exact h.scopes

theorem Agree.del {s : NS ν V} {σ : SEnv ν V} (h : Agree s σ) (x : ν)
    (hx : ∀ f ∈ σ.frames, f x = none) : Agree { s with dict := s.dict.erase x } (σ.change x none) := by
  refine ⟨Dict.nodup_keys_erase _ _ h.nodup, ?_, ?_⟩
  · intro y
    simp only [Dict.get?_erase _ _ _ h.nodup, SEnv.visible, SEnv.change, look_setVisible_none _ _ _ hx]
    rw [h.see]; rfl
  · simp only [SEnv.change, setVisible_frames _ _ _ _ hx]; exact h.scopes

/-! ### push -/

theorem get?_evalArgs (bs : List (ν × (Env ν V → V))) (env : Env ν V) (d : Dict ν V) (x : ν) :
    (bs.foldl (fun d be => d.set be.1 (be.2 env)) d).get? x =
      match argFrame env bs x with
      | some v => some v
      | none => d.get? x := by
  induction bs generalizing d with
  | nil => rfl
  | cons b bs ih =>
    obtain ⟨y, e⟩ := b
    rw [List.foldl_cons, ih]
    simp only [argFrame]
    cases argFrame env bs x with
    | some v => rfl
    | none =>
      simp only [Dict.get?_set]
      by_cases h : y = x <;> simp [h]

theorem nodup_evalArgs (bs : List (ν × (Env ν V → V))) (env : Env ν V) (d : Dict ν V) (h : d.keys.Nodup) :
    (bs.foldl (fun d be => d.set be.1 (be.2 env)) d).keys.Nodup := by
  induction bs generalizing d with
  | nil => exact h
  | cons b bs ih => exact ih _ (Dict.nodup_keys_set _ _ _ h)

theorem argFrame_isSome (env : Env ν V) (bs : List (ν × (Env ν V → V))) (x : ν) :
    (argFrame env bs x).isSome = true ↔ x ∈ bs.map (·.1) := by
  induction bs with
  | nil => simp [argFrame]
  | cons b bs ih =>
    obtain ⟨y, e⟩ := b
    simp only [argFrame, List.map_cons, List.mem_cons]
    cases h : argFrame env bs x with
    | some v =>
      have : x ∈ bs.map (·.1) := ih.1 (by simp [h])
      simp [this]
    | none =>
      have : x ∉ bs.map (·.1) := fun hc => by have := ih.2 hc; simp [h] at this
      by_cases hy : y = x
      · subst hy; simp
      · simp [hy, this]; exact fun hc => hy hc.symm

theorem evalArgs_wrappable (wrappable : V → Bool) (bs : List (ν × (Env ν V → V))) (env : Env ν V)
    (hb : ∀ b ∈ bs, wrappable (b.2 env) = true) (d : Dict ν V) (hd : ∀ b ∈ d, wrappable b.2 = true) :
    ∀ b ∈ bs.foldl (fun d be => d.set be.1 (be.2 env)) d, wrappable b.2 = true := by
  induction bs generalizing d with
  | nil => exact hd
  | cons b bs ih =>
    refine ih (fun b' hb' => hb b' (by simp [hb'])) _ ?_
    have hv := hb b (by simp)
    clear ih hb
    induction d with
    | nil => intro c hc; simp [Dict.set] at hc; rw [hc]; exact hv
    | cons a d ih =>
      intro c hc
      simp only [Dict.set] at hc
      split at hc
      · rcases List.mem_cons.1 hc with rfl | hc
        · exact hv
        · exact hd c (by simp [hc])
      · rcases List.mem_cons.1 hc with rfl | hc
        · exact hd _ (by simp)
        · exact ih (fun b hb => hd b (by simp [hb])) c hc

/-- The state of the innermost scope during the loop of `push_scope`. -/
theorem pushLoop_spec (wrappable : V → Bool) (bs : List (ν × V)) (s : NS ν V) (sc : Scope ν V)
    (r : List (Scope ν V)) (hi : s.inner = sc :: r) (hp : ∀ b ∈ bs, b.1 ∈ sc.params)
    (hw : ∀ b ∈ bs, wrappable b.2 = true) :
    ∃ s', NS.pushLoop wrappable bs s = (s', none) ∧
      s'.inner = ⟨sc.params, bs.foldl (fun d kv => d.set kv.1 kv.2) sc.vals⟩ :: r ∧
      s'.dict = bs.foldl (fun d kv => d.set kv.1 kv.2) s.dict ∧ s'.top = s.top := by
  induction bs generalizing s sc with
  | nil => exact ⟨s, rfl, by simp [hi], rfl, rfl⟩
  | cons b bs ih =>
    obtain ⟨x, v⟩ := b
    have hx := hp (x, v) (by simp)
    have h1 : (s.assign x v).inner = ⟨sc.params, sc.vals.set x v⟩ :: r := by
      simp only [NS.assign, hi, NS.storeItem]
      rw [if_pos hx]
    have h2 : (s.assign x v).top = s.top := by
      simp only [NS.assign, hi, NS.storeItem]
      rw [if_pos hx]
    obtain ⟨s', e1, e2, e3, e4⟩ := ih (s.assign x v) ⟨sc.params, sc.vals.set x v⟩ h1
      (fun b hb => hp b (by simp [hb])) (fun b hb => hw b (by simp [hb]))
    refine ⟨s', ?_, e2, e3, e4.trans h2⟩
    simp only [NS.pushLoop, hw (x, v) (by simp), if_true, e1]

theorem get?_foldl_set (bs : List (ν × V)) (d : Dict ν V) (x : ν) (hn : (bs.map (·.1)).Nodup) :
    (bs.foldl (fun d kv => d.set kv.1 kv.2) d).get? x =
      match Dict.get? bs x with
      | some v => some v
      | none => d.get? x := by
  induction bs generalizing d with
  | nil => rfl
  | cons b bs ih =>
    obtain ⟨y, v⟩ := b
    rw [List.map_cons, List.nodup_cons] at hn
    rw [List.foldl_cons, ih _ hn.2, Dict.get?_cons]
    by_cases h : y = x
    · subst h
      have : Dict.get? bs y = none := (Dict.get?_eq_none_iff _ _).2 hn.1
      simp [this, Dict.get?_set]
    · simp [h, Dict.get?_set]

theorem nodup_foldl_set (bs : List (ν × V)) (d : Dict ν V) (h : d.keys.Nodup) :
    (bs.foldl (fun d kv => d.set kv.1 kv.2) d).keys.Nodup := by
  induction bs generalizing d with
  | nil => exact h
  | cons b bs ih => exact ih _ (Dict.nodup_keys_set _ _ _ h)

theorem keys_map_pair (ks : List ν) (v : V) : Dict.keys (ks.map fun k => (k, v)) = ks := by
  induction ks with
  | nil => rfl
  | cons k ks ih => exact congrArg (k :: ·) ih

theorem Agree.push {s : NS ν V} {σ : SEnv ν V} (h : Agree s σ) (wrappable : V → Bool) (none0 : V)
    (bs : Dict ν V) (hn : bs.keys.Nodup) (hw : ∀ b ∈ bs, wrappable b.2 = true) :
    ∃ s', s.push wrappable none0 bs = (s', none) ∧ Agree s' ⟨σ.global, bs.get? :: σ.frames⟩ ∧
      s'.inner.length = s.inner.length + 1 := by
  obtain ⟨s', e1, e2, e3, e4⟩ := pushLoop_spec wrappable bs
    { s with inner := ⟨bs.keys, bs.keys.map fun k => (k, none0)⟩ :: s.inner } _ _ rfl
    (fun b hb => List.mem_map.2 ⟨b, hb, rfl⟩) hw
  refine ⟨s', e1, ⟨?_, ?_, ?_⟩, by rw [e2]; rfl⟩
  · rw [e3]; exact nodup_foldl_set _ _ h.nodup
  · intro x
    rw [e3, get?_foldl_set _ _ _ hn]
    simp only [SEnv.visible, SEnv.look]
    rw [h.see]; rfl
  · rw [e2]
    refine ⟨⟨?_, ?_, ?_⟩, h.scopes⟩
    · refine nodup_foldl_set _ _ ?_
      rw [keys_map_pair]; exact hn
    · intro x
      rw [get?_foldl_set _ _ _ hn]
      cases hx : bs.get? x with
      | some v => rfl
      | none =>
        simp only
        rw [Dict.get?_eq_none_iff, keys_map_pair]
        exact (Dict.get?_eq_none_iff _ _).1 hx
    · intro x; exact (Dict.get?_isSome_iff bs x).symm

/-! ### pop -/

theorem delKeys_spec (ks : List ν) (d : Dict ν V) (hn : ks.Nodup) (hd : d.keys.Nodup)
    (hk : ∀ k ∈ ks, (d.get? k).isSome = true) :
    ∃ d', NS.delKeys ks d = (d', none) ∧ d'.keys.Nodup ∧
      ∀ x, d'.get? x = if x ∈ ks then none else d.get? x := by
  induction ks generalizing d with
  | nil => exact ⟨d, rfl, hd, by simp⟩
  | cons k ks ih =>
    rw [List.nodup_cons] at hn
    have hk0 := hk k (by simp)
    obtain ⟨d', e1, e2, e3⟩ := ih (d.erase k) hn.2 (Dict.nodup_keys_erase _ _ hd) (by
      intro k' hk'
      have hne : k ≠ k' := fun hc => hn.1 (hc ▸ hk')
      rw [Dict.get?_erase _ _ _ hd, if_neg hne]
      exact hk k' (by simp [hk']))
    refine ⟨d', ?_, e2, ?_⟩
    · simp only [NS.delKeys]
      cases hv : d.get? k with
      | none => simp [hv] at hk0
      | some v => exact e1
    · intro x
      rw [e3, Dict.get?_erase _ _ _ hd]
      by_cases hx : x ∈ ks
      · simp [hx]
      · by_cases hkx : k = x
        · subst hkx; simp
        · have : x ≠ k := fun hc => hkx hc.symm
          simp [hx, hkx, this]

theorem get?_restore (r : List (Scope ν V)) (fs : List (ν → Option V)) (h : RScopes r fs) (d : Dict ν V) (x : ν) :
    (NS.restore r d).get? x = SEnv.look d.get? fs x := by
  induction r generalizing fs with
  | nil => cases fs with
    | nil => rfl
    | cons => simp [RScopes] at h
  | cons sc r ih =>
    cases fs with
    | nil => simp [RScopes] at h
    | cons f fs =>
      obtain ⟨⟨hn, hg, hp⟩, hr⟩ := h
      simp only [NS.restore, NS.setAll]
      rw [get?_foldl_set _ _ _ hn, hg, SEnv.look, ih fs hr]
      cases f x <;> rfl

theorem nodup_restore (r : List (Scope ν V)) (d : Dict ν V) (h : d.keys.Nodup) : (NS.restore r d).keys.Nodup := by
  induction r with
  | nil => exact h
  | cons sc r ih => exact nodup_foldl_set _ _ ih

theorem look_or (g : ν → Option V) (fs : List (ν → Option V)) (x : ν) :
    SEnv.look g fs x = match SEnv.look (fun _ => none) fs x with
      | some v => some v
      | none => g x := by
  induction fs with
  | nil => rfl
  | cons f fs ih =>
    simp only [SEnv.look]
    cases f x with
    | some v => rfl
    | none => exact ih

theorem Agree.pop {s : NS ν V} {g : ν → Option V} {f : ν → Option V} {fs : List (ν → Option V)}
    (h : Agree s ⟨g, f :: fs⟩) (hs : ∀ x, (f x).isSome = true → g x = none) :
    ∃ s', s.pop = (s', none) ∧ Agree s' ⟨g, fs⟩ ∧ s'.inner.length + 1 = s.inner.length := by
  obtain ⟨hd, hsee, hsc⟩ := h
  cases hi : s.inner with
  | nil => rw [hi] at hsc; simp [RScopes] at hsc
  | cons sc r =>
    rw [hi] at hsc
    obtain ⟨⟨hn, hg, hp⟩, hr⟩ := hsc
    obtain ⟨d', e1, e2, e3⟩ := delKeys_spec sc.vals.keys s.dict hn hd (by
      intro k hk
      rw [hsee]
      have : (f k).isSome = true := by rw [← hg]; exact (Dict.get?_isSome_iff _ _).2 hk
      simp only [SEnv.visible, SEnv.look]
      cases hf : f k with
      | none => simp [hf] at this
      | some v => simp)
    refine ⟨⟨NS.restore r d', s.top, r⟩, ?_, ⟨nodup_restore _ _ e2, ?_, hr⟩, by simp⟩
    · simp only [NS.pop, hi, e1]
    · intro x
      simp only [get?_restore r fs hr, SEnv.visible]
      rw [look_or d'.get?, look_or g]
      cases hl : SEnv.look (fun _ => none) fs x with
      | some v => rfl
      | none =>
        simp only
        rw [e3, hsee]
        have hmem : x ∈ sc.vals.keys ↔ (f x).isSome = true := by
          rw [← hg]; exact (Dict.get?_isSome_iff _ _).symm
        cases hf : f x with
        | some v =>
          have : x ∈ sc.vals.keys := hmem.2 (by simp [hf])
          simp only [this, if_true]
          exact (hs x (by simp [hf])).symm
        | none =>
          have : x ∉ sc.vals.keys := fun hc => by have := hmem.1 hc; simp [hf] at this
          simp only [this, if_false, SEnv.visible, SEnv.look, hf]
          rw [look_or g, hl]

/-! ### Specification facts -/

/-- Bookkeeping: the frames keep their names. -/
def SameNames : List (ν → Option V) → List (ν → Option V) → Prop
  | [], [] => True
  | f :: fs, f' :: fs' => (∀ x, (f x).isSome = (f' x).isSome) ∧ SameNames fs fs'
  | _, _ => False

theorem SameNames.refl (fs : List (ν → Option V)) : SameNames fs fs := by
  induction fs with
  | nil => trivial
  | cons f fs ih => exact ⟨fun _ => rfl, ih⟩

theorem SameNames.trans {a b c : List (ν → Option V)} (h1 : SameNames a b) (h2 : SameNames b c) :
    SameNames a c := by
  induction a generalizing b c with
  | nil => cases b <;> cases c <;> simp_all [SameNames]
  | cons f a ih =>
    cases b with
    | nil => simp [SameNames] at h1
    | cons f2 b =>
      cases c with
      | nil => simp [SameNames] at h2
      | cons f3 c => exact ⟨fun x => (h1.1 x).trans (h2.1 x), ih h1.2 h2.2⟩

theorem SameNames.mem {a b : List (ν → Option V)} (h : SameNames a b) {f' : ν → Option V} (hf : f' ∈ b) (x : ν)
    (hx : (f' x).isSome = true) : ∃ f ∈ a, (f x).isSome = true := by
  induction a generalizing b with
  | nil => cases b <;> simp_all [SameNames]
  | cons f a ih =>
    cases b with
    | nil => simp at hf
    | cons f2 b =>
      rcases List.mem_cons.1 hf with rfl | hf
      · exact ⟨f, by simp, by rw [h.1]; exact hx⟩
      · obtain ⟨f0, h0, h1⟩ := ih h.2 hf
        exact ⟨f0, by simp [h0], h1⟩

theorem SameNames.symm {a b : List (ν → Option V)} (h : SameNames a b) : SameNames b a := by
  induction a generalizing b with
  | nil => cases b <;> simp_all [SameNames]
  | cons f a ih => cases b with
    | nil => simp [SameNames] at h
    | cons f2 b => exact ⟨fun x => (h.1 x).symm, ih h.2⟩

theorem SameNames.length_eq {a b : List (ν → Option V)} (h : SameNames a b) : a.length = b.length := by
  induction a generalizing b with
  | nil => cases b <;> simp_all [SameNames]
  | cons f a ih => cases b with
    | nil => simp [SameNames] at h
    | cons f2 b => simp [ih h.2]

theorem setVisible_sameNames (g : ν → Option V) (x : ν) (v : V) (fs : List (ν → Option V)) :
    SameNames fs (SEnv.setVisible g x (some v) fs).2 := by
  induction fs with
  | nil => trivial
  | cons f fs ih =>
    simp only [SEnv.setVisible]
    cases hx : f x with
    | some w =>
      refine ⟨fun y => ?_, SameNames.refl _⟩
      simp only [SEnv.upd]
      by_cases h : x = y
      · subst h; simp [hx]
      · simp [h]
    | none => exact ⟨fun _ => rfl, ih⟩

theorem setVisible_global (g : ν → Option V) (x : ν) (v : V) (fs : List (ν → Option V)) (y : ν)
    (hy : ((SEnv.setVisible g x (some v) fs).1 y).isSome = true) :
    (g y).isSome = true ∨ (y = x ∧ ∀ f ∈ fs, f x = none) := by
  induction fs with
  | nil =>
    simp only [SEnv.setVisible, SEnv.upd] at hy
    by_cases h : x = y
    · exact Or.inr ⟨h.symm, by simp⟩
    · simp [h] at hy; exact Or.inl hy
  | cons f fs ih =>
    simp only [SEnv.setVisible] at hy
    cases hx : f x with
    | some w => simp only [hx] at hy; exact Or.inl hy
    | none =>
      simp only [hx] at hy
      rcases ih hy with h | ⟨h1, h2⟩
      · exact Or.inl h
      · refine Or.inr ⟨h1, ?_⟩
        intro f' hf'
        rcases List.mem_cons.1 hf' with rfl | hf'
        · exact hx
        · exact h2 f' hf'

theorem Apart.noFrame {G : ν → Prop} {σ : SEnv ν V} (h : Apart G σ) {x : ν} (hx : G x) :
    ∀ f ∈ σ.frames, f x = none := by
  intro f hf
  cases hfx : f x with
  | none => rfl
  | some v => exact absurd hx (h.frames f hf x (by simp [hfx]))

/-- The specification keeps parameters and globals apart. -/
theorem spec_apart (wrappable : V → Bool) (G : ν → Prop) :
    ∀ (p : Prog ν V) (ps : List ν) (σ : SEnv ν V), p.Disciplined wrappable G ps → Apart G σ →
      (∀ x ∈ ps, ∃ f ∈ σ.frames, (f x).isSome = true) → Apart G (p.spec σ).1 ∧
        SameNames σ.frames (p.spec σ).1.frames := by
  intro p
  induction p with
  | skip => intro ps σ _ h _; exact ⟨h, SameNames.refl _⟩
  | raise e => intro ps σ _ h _; exact ⟨h, SameNames.refl _⟩
  | assign x e =>
    intro ps σ hd hG hps
    refine ⟨⟨?_, ?_⟩, setVisible_sameNames _ _ _ _⟩
    · intro y hy
      rcases setVisible_global _ _ _ _ _ hy with h | ⟨rfl, h⟩
      · exact hG.global y h
      · rcases hd with hd | hd
        · obtain ⟨f, hf, hfx⟩ := hps _ hd
          simp [h f hf] at hfx
        · exact hd
    · intro f hf y hy
      obtain ⟨f0, h0, h1⟩ := (setVisible_sameNames σ.global x (e σ.visible) σ.frames).mem hf y hy
      exact hG.frames f0 h0 y h1
  | perm x e =>
    intro ps σ hd hG hps
    have hx := hG.noFrame hd
    refine ⟨?_, setVisible_sameNames _ _ _ _⟩
    simp only [Prog.spec, SEnv.change, setVisible_frames _ _ _ _ hx]
    refine ⟨?_, hG.frames⟩
    intro y hy
    simp only [SEnv.upd] at hy
    by_cases h : x = y
    · subst h; exact hd
    · simp [h] at hy; exact hG.global y hy
  | del x =>
    intro ps σ hd hG hps
    simp only [Prog.spec]
    cases σ.visible x with
    | none => exact ⟨hG, SameNames.refl _⟩
    | some v =>
      have hx := hG.noFrame hd
      simp only [SEnv.change, setVisible_frames _ _ _ _ hx]
      refine ⟨⟨?_, hG.frames⟩, SameNames.refl _⟩
      intro y hy
      simp only [SEnv.upd] at hy
      by_cases h : x = y
      · simp [h] at hy
      · simp [h] at hy; exact hG.global y hy
  | ite c p q ihp ihq =>
    intro ps σ hd hG hps
    simp only [Prog.spec]
    cases c σ.visible with
    | true => exact ihp ps σ hd.1 hG hps
    | false => exact ihq ps σ hd.2 hG hps
  | seq p q ihp ihq =>
    intro ps σ hd hG hps
    obtain ⟨a1, n1⟩ := ihp ps σ hd.1 hG hps
    simp only [Prog.spec]
    rcases hr : p.spec σ with ⟨σ1, _ | e⟩
    · rw [hr] at a1 n1
      have hps' : ∀ x ∈ ps, ∃ f ∈ σ1.frames, (f x).isSome = true := by
        intro x hx
        obtain ⟨f, hf, hfx⟩ := hps x hx
        exact n1.symm.mem hf x hfx
      obtain ⟨a2, n2⟩ := ihq ps σ1 hd.2 a1 hps'
      exact ⟨a2, n1.trans n2⟩
    · rw [hr] at a1 n1; exact ⟨a1, n1⟩
  | guard p ih =>
    intro ps σ hd hG hps
    obtain ⟨a1, n1⟩ := ih ps σ hd hG hps
    simp only [Prog.spec]
    rcases hr : p.spec σ with ⟨σ1, _ | ⟨_ | _ | _⟩⟩ <;> rw [hr] at a1 n1 <;> exact ⟨a1, n1⟩
  | call bs p ih =>
    intro ps σ hd hG hps
    obtain ⟨a1, n1⟩ := ih (bs.map (·.1) ++ ps) ⟨σ.global, argFrame σ.visible bs :: σ.frames⟩ hd.2
      ⟨hG.global, by
        intro f hf x hx
        rcases List.mem_cons.1 hf with rfl | hf
        · obtain ⟨b, hb, rfl⟩ := List.mem_map.1 ((argFrame_isSome _ _ _).1 hx)
          exact (hd.1 b hb).1
        · exact hG.frames f hf x hx⟩
      (by
        intro x hx
        rcases List.mem_append.1 hx with hx | hx
        · exact ⟨argFrame σ.visible bs, by simp, (argFrame_isSome _ _ _).2 hx⟩
        · obtain ⟨f, hf, hfx⟩ := hps x hx
          exact ⟨f, by simp [hf], hfx⟩)
    simp only [Prog.spec]
    rcases hr : p.spec ⟨σ.global, argFrame σ.visible bs :: σ.frames⟩ with ⟨⟨g2, _ | ⟨f2, fs2⟩⟩, y2⟩
    · rw [hr] at n1; simp [SameNames] at n1
    · rw [hr] at a1 n1
      exact ⟨⟨a1.global, fun f hf => a1.frames f (List.mem_cons_of_mem _ hf)⟩, n1.2⟩

/-- Along a disciplined program, started in agreement, the code and the specification do the same:
same exception, and afterwards every expression sees what the specification says. As programs may record and
test what they see at any point, this covers every moment in between. -/
theorem exec_refines_spec (wrappable : V → Bool) (none0 : V) (G : ν → Prop) (p : Prog ν V) (ps : List ν) (s : NS ν V)
    (σ : SEnv ν V) (hd : p.Disciplined wrappable G ps) (ha : Agree s σ) (hG : Apart G σ)
    (hps : ∀ x ∈ ps, ∃ f ∈ σ.frames, (f x).isSome = true) :
    Agree (p.exec wrappable none0 s).1 (p.spec σ).1 ∧
    (p.exec wrappable none0 s).2 = (p.spec σ).2 ∧
    Apart G (p.spec σ).1 ∧ SameNames σ.frames (p.spec σ).1.frames ∧
    (p.exec wrappable none0 s).1.inner.length = s.inner.length := by
  induction p generalizing ps s σ with
  | skip => exact ⟨ha, rfl, hG, SameNames.refl _, rfl⟩
  | raise e => exact ⟨ha, rfl, hG, SameNames.refl _, rfl⟩
  | assign x e =>
    have hsee : s.dict.get? = σ.visible := funext ha.see
    simp only [Prog.exec, Prog.spec, hsee]
    have ha' := ha.assign x (e σ.visible)
    refine ⟨ha', trivial, ⟨?_, ?_⟩, setVisible_sameNames _ _ _ _, ?_⟩
    · intro y hy
      rcases setVisible_global _ _ _ _ _ hy with h | ⟨rfl, h⟩
      · exact hG.global y h
      · rcases hd with hd | hd
        · obtain ⟨f, hf, hfx⟩ := hps _ hd
          simp [h f hf] at hfx
        · exact hd
    · intro f hf y hy
      obtain ⟨f0, h0, h1⟩ := (setVisible_sameNames σ.global x (e σ.visible) σ.frames).mem hf y hy
      exact hG.frames f0 h0 y h1
    · have h1 := ha.scopes.length
      have h2 := ha'.scopes.length
      rw [h2, h1]
      exact (setVisible_sameNames σ.global x (e σ.visible) σ.frames).length_eq.symm
  | perm x e =>
    have hsee : s.dict.get? = σ.visible := funext ha.see
    simp only [Prog.exec, Prog.spec, hsee]
    have hx := hG.noFrame hd
    refine ⟨ha.perm x (e σ.visible) hx, trivial, ?_, setVisible_sameNames _ _ _ _, rfl⟩
    simp only [SEnv.change, setVisible_frames _ _ _ _ hx]
    refine ⟨?_, hG.frames⟩
    intro y hy
    simp only [SEnv.upd] at hy
    by_cases h : x = y
    · subst h; exact hd
    · simp [h] at hy; exact hG.global y hy
  | del x =>
    simp only [Prog.exec, Prog.spec, ha.see]
    cases hv : σ.visible x with
    | none => exact ⟨ha, rfl, hG, SameNames.refl _, rfl⟩
    | some v =>
      have hx := hG.noFrame hd
      refine ⟨ha.del x hx, rfl, ?_, ?_, rfl⟩
      · simp only [SEnv.change, setVisible_frames _ _ _ _ hx]
        refine ⟨?_, hG.frames⟩
        intro y hy
        simp only [SEnv.upd] at hy
        by_cases h : x = y
        · simp [h] at hy
        · simp [h] at hy; exact hG.global y hy
      · simp only [SEnv.change, setVisible_frames _ _ _ _ hx]; exact SameNames.refl _
  | ite c p q ihp ihq =>
    have hsee : s.dict.get? = σ.visible := funext ha.see
    simp only [Prog.exec, Prog.spec, hsee]
    cases c σ.visible with
    | true => exact ihp ps s σ hd.1 ha hG hps
    | false => exact ihq ps s σ hd.2 ha hG hps
  | seq p q ihp ihq =>
    obtain ⟨h1, h2, h3, h4, h5⟩ := ihp ps s σ hd.1 ha hG hps
    simp only [Prog.exec, Prog.spec]
    rcases hp : p.exec wrappable none0 s with ⟨s1, x1⟩
    rcases hq : p.spec σ with ⟨σ1, y1⟩
    rw [hp, hq] at h1 h2
    rw [hq] at h3 h4
    rw [hp] at h5
    simp only at h1 h2 h3 h4 h5
    subst h2
    cases x1 with
    | some e => exact ⟨h1, rfl, h3, h4, h5⟩
    | none =>
      have hps' : ∀ x ∈ ps, ∃ f ∈ σ1.frames, (f x).isSome = true := by
        intro x hx
        obtain ⟨f, hf, hfx⟩ := hps x hx
        exact h4.symm.mem hf x hfx
      obtain ⟨k1, k2, k3, k4, k5⟩ := ihq ps s1 σ1 hd.2 h1 h3 hps'
      exact ⟨k1, k2, k3, h4.trans k4, k5.trans h5⟩
  | guard p ih =>
    obtain ⟨h1, h2, h3, h4, h5⟩ := ih ps s σ hd ha hG hps
    simp only [Prog.exec, Prog.spec]
    rcases hp : p.exec wrappable none0 s with ⟨s1, x1⟩
    rcases hq : p.spec σ with ⟨σ1, y1⟩
    rw [hp, hq] at h1 h2
    rw [hq] at h3 h4
    rw [hp] at h5
    simp only at h1 h2 h3 h4 h5
    subst h2
    rcases x1 with _ | ⟨_ | _ | _⟩ <;> exact ⟨h1, rfl, h3, h4, h5⟩
  | call bs p ih =>
    have hsee : s.dict.get? = σ.visible := funext ha.see
    simp only [Prog.exec, Prog.spec, hsee]
    have hfr : (Prog.evalArgs bs σ.visible).get? = argFrame σ.visible bs := by
      funext x
      rw [Prog.evalArgs, get?_evalArgs]
      cases argFrame σ.visible bs x <;> rfl
    obtain ⟨s1, e1, a1, l1⟩ := ha.push wrappable none0 (Prog.evalArgs bs σ.visible)
      (nodup_evalArgs _ _ _ (by simp [Dict.keys]))
      (evalArgs_wrappable wrappable bs _ (fun b hb => (hd.1 b hb).2 _) [] (by simp))
    rw [hfr] at a1
    rw [e1]
    simp only
    have hG1 : Apart G ⟨σ.global, argFrame σ.visible bs :: σ.frames⟩ := by
      refine ⟨hG.global, ?_⟩
      intro f hf x hx
      rcases List.mem_cons.1 hf with rfl | hf
      · obtain ⟨b, hb, rfl⟩ := List.mem_map.1 ((argFrame_isSome _ _ _).1 hx)
        exact (hd.1 b hb).1
      · exact hG.frames f hf x hx
    obtain ⟨h1, h2, h3, h4, h5⟩ := ih (bs.map (·.1) ++ ps) s1 _ hd.2 a1 hG1 (by
      intro x hx
      rcases List.mem_append.1 hx with hx | hx
      · exact ⟨argFrame σ.visible bs, by simp, (argFrame_isSome _ _ _).2 hx⟩
      · obtain ⟨f, hf, hfx⟩ := hps x hx
        exact ⟨f, by simp [hf], hfx⟩)
    rcases hp : p.exec wrappable none0 s1 with ⟨s2, x2⟩
    rcases hq : p.spec ⟨σ.global, argFrame σ.visible bs :: σ.frames⟩ with ⟨⟨g2, fs2⟩, y2⟩
    rw [hp, hq] at h1 h2
    rw [hq] at h3 h4
    rw [hp] at h5
    simp only at h1 h2 h3 h4 h5
    subst h2
    cases fs2 with
    | nil => simp [SameNames] at h4
    | cons f2 fs2 =>
      obtain ⟨s4, e4, a4, l4⟩ := h1.pop (by
        intro x hx
        cases hg : g2 x with
        | none => rfl
        | some v => exact absurd (h3.global x (by simp [hg])) (h3.frames f2 (by simp) x hx))
      simp only [NS.nScopes, h5, if_true, e4, List.tail_cons]
      refine ⟨a4, trivial, ⟨h3.global, fun f hf => h3.frames f (by simp [hf])⟩, h4.2, by omega⟩

/-! ### Which variables change -/

/-- Specification-level: two environments agree outside of `w`; a frame hides its own names from the levels
below it. -/
def SameBut (g g' : ν → Option V) : (ν → Prop) → List (ν → Option V) → List (ν → Option V) → Prop
  | w, [], [] => ∀ x, ¬ w x → g x = g' x
  | w, f :: fs, f' :: fs' => (∀ x, (f x).isSome = (f' x).isSome ∧ (¬ w x → f x = f' x)) ∧
      SameBut g g' (fun x => w x ∧ f x = none) fs fs'
  | _, _, _ => False

theorem SameBut.refl (g : ν → Option V) (w : ν → Prop) (fs : List (ν → Option V)) : SameBut g g w fs fs := by
  induction fs generalizing w with
  | nil => exact fun _ _ => rfl
  | cons f fs ih => exact ⟨fun _ => ⟨rfl, fun _ => rfl⟩, ih _⟩

theorem SameBut.mono {g g' : ν → Option V} {w w' : ν → Prop} {fs fs' : List (ν → Option V)}
    (h : SameBut g g' w fs fs') (hw : ∀ x, w x → w' x) : SameBut g g' w' fs fs' := by
  induction fs generalizing w w' fs' with
  | nil =>
    cases fs' with
    | nil => exact fun x hx => h x (fun hc => hx (hw x hc))
    | cons => simp [SameBut] at h
  | cons f fs ih =>
    cases fs' with
    | nil => simp [SameBut] at h
    | cons f' fs' =>
      exact ⟨fun x => ⟨(h.1 x).1, fun hx => (h.1 x).2 (fun hc => hx (hw x hc))⟩,
        ih h.2 (fun x hx => ⟨hw x hx.1, hx.2⟩)⟩

theorem SameBut.trans {g1 g2 g3 : ν → Option V} {w : ν → Prop} {a b c : List (ν → Option V)}
    (h1 : SameBut g1 g2 w a b) (h2 : SameBut g2 g3 w b c) : SameBut g1 g3 w a c := by
  induction a generalizing w b c with
  | nil =>
    cases b with
    | nil =>
      cases c with
      | nil => exact fun x hx => (h1 x hx).trans (h2 x hx)
      | cons => simp [SameBut] at h2
    | cons => simp [SameBut] at h1
  | cons f a ih =>
    cases b with
    | nil => simp [SameBut] at h1
    | cons f2 b =>
      cases c with
      | nil => simp [SameBut] at h2
      | cons f3 c =>
        refine ⟨fun x => ⟨((h1.1 x).1).trans (h2.1 x).1, fun hx => ((h1.1 x).2 hx).trans ((h2.1 x).2 hx)⟩, ?_⟩
        refine ih h1.2 (h2.2.mono fun x hx => ⟨hx.1, ?_⟩)
        have := (h1.1 x).1
        rw [hx.2] at this
        cases hf : f x with
        | none => rfl
        | some v => simp [hf] at this

theorem SameBut.look {g g' : ν → Option V} {w : ν → Prop} {fs fs' : List (ν → Option V)}
    (h : SameBut g g' w fs fs') (x : ν) (hx : ¬ w x) : SEnv.look g fs x = SEnv.look g' fs' x := by
  induction fs generalizing w fs' with
  | nil =>
    cases fs' with
    | nil => exact h x hx
    | cons => simp [SameBut] at h
  | cons f fs ih =>
    cases fs' with
    | nil => simp [SameBut] at h
    | cons f' fs' =>
      simp only [SEnv.look, ← (h.1 x).2 hx]
      cases f x with
      | some v => rfl
      | none => exact ih h.2 (fun hc => hx hc.1)

theorem setVisible_sameBut (g : ν → Option V) (x : ν) (v : Option V) (fs : List (ν → Option V))
    (hv : v.isSome = true ∨ ∀ f ∈ fs, f x = none) (w : ν → Prop) (hw : w x) :
    SameBut g (SEnv.setVisible g x v fs).1 w fs (SEnv.setVisible g x v fs).2 := by
  induction fs generalizing w with
  | nil =>
    intro y hy
    have : x ≠ y := fun hc => hy (hc ▸ hw)
    simp [SEnv.setVisible, SEnv.upd, this]
  | cons f fs ih =>
    simp only [SEnv.setVisible]
    cases hx : f x with
    | some u =>
      have hv' : v.isSome = true := by
        rcases hv with h | h
        · exact h
        · simp [h f (by simp)] at hx
      refine ⟨fun y => ⟨?_, fun hy => ?_⟩, SameBut.refl _ _ _⟩
      · simp only [SEnv.upd]
        by_cases h : x = y
        · subst h; simp [hx, hv']
        · simp [h]
      · have : x ≠ y := fun hc => hy (hc ▸ hw)
        simp [SEnv.upd, this]
    | none =>
      refine ⟨fun y => ⟨rfl, fun _ => rfl⟩, ih (hv.imp id fun h f' hf' => h f' (by simp [hf'])) _ ⟨hw, hx⟩⟩

/-- A program changes nothing but what it writes. -/
theorem spec_sameBut (wrappable : V → Bool) (G : ν → Prop) (p : Prog ν V) (ps : List ν) (σ : SEnv ν V)
    (hd : p.Disciplined wrappable G ps) (hG : Apart G σ)
    (hps : ∀ x ∈ ps, ∃ f ∈ σ.frames, (f x).isSome = true) :
    SameBut σ.global (p.spec σ).1.global p.writes σ.frames (p.spec σ).1.frames := by
  induction p generalizing ps σ with
  | skip => exact SameBut.refl _ _ _
  | raise e => exact SameBut.refl _ _ _
  | assign x e => exact setVisible_sameBut _ _ _ _ (Or.inl rfl) _ rfl
  | perm x e => exact setVisible_sameBut _ _ _ _ (Or.inl rfl) _ rfl
  | del x =>
    simp only [Prog.spec]
    cases σ.visible x with
    | none => exact SameBut.refl _ _ _
    | some v => exact setVisible_sameBut _ _ _ _ (Or.inr (hG.noFrame hd)) _ rfl
  | ite c p q ihp ihq =>
    simp only [Prog.spec]
    cases c σ.visible with
    | true => exact (ihp ps σ hd.1 hG hps).mono fun _ h => Or.inl h
    | false => exact (ihq ps σ hd.2 hG hps).mono fun _ h => Or.inr h
  | seq p q ihp ihq =>
    have hp := ihp ps σ hd.1 hG hps
    simp only [Prog.spec]
    rcases hr : p.spec σ with ⟨σ1, _ | e⟩
    · rw [hr] at hp
      simp only at hp ⊢
      have hsim := spec_apart wrappable G p ps σ hd.1 hG hps
      rw [hr] at hsim
      have hps' : ∀ x ∈ ps, ∃ f ∈ σ1.frames, (f x).isSome = true := by
        intro x hx
        obtain ⟨f, hf, hfx⟩ := hps x hx
        exact hsim.2.symm.mem hf x hfx
      exact (hp.mono fun _ h => Or.inl h).trans ((ihq ps σ1 hd.2 hsim.1 hps').mono fun _ h => Or.inr h)
    · rw [hr] at hp
      exact hp.mono fun _ h => Or.inl h
  | guard p ih =>
    have hp := ih ps σ hd hG hps
    simp only [Prog.spec]
    rcases hr : p.spec σ with ⟨σ1, _ | ⟨_ | _ | _⟩⟩ <;> rw [hr] at hp <;> exact hp
  | call bs p ih =>
    have hG1 : Apart G ⟨σ.global, argFrame σ.visible bs :: σ.frames⟩ := by
      refine ⟨hG.global, ?_⟩
      intro f hf x hx
      rcases List.mem_cons.1 hf with rfl | hf
      · obtain ⟨b, hb, rfl⟩ := List.mem_map.1 ((argFrame_isSome _ _ _).1 hx)
        exact (hd.1 b hb).1
      · exact hG.frames f hf x hx
    have h := ih (bs.map (·.1) ++ ps) _ hd.2 hG1 (by
      intro x hx
      rcases List.mem_append.1 hx with hx | hx
      · exact ⟨argFrame σ.visible bs, by simp, (argFrame_isSome _ _ _).2 hx⟩
      · obtain ⟨f, hf, hfx⟩ := hps x hx
        exact ⟨f, by simp [hf], hfx⟩)
    simp only [Prog.spec]
    rcases hr : p.spec ⟨σ.global, argFrame σ.visible bs :: σ.frames⟩ with ⟨⟨g2, _ | ⟨f2, fs2⟩⟩, y2⟩
    · rw [hr] at h; simp [SameBut] at h
    · rw [hr] at h
      refine h.2.mono fun x hx => ⟨fun hc => ?_, hx.1⟩
      have := (argFrame_isSome σ.visible bs x).2 hc
      simp [hx.2] at this

end Marcel
