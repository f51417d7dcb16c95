import Verif.Model.WsDisk

/-! # Reasoning about programs that may be killed -/

namespace Marcel.WsDisk

/-- How a program ends: it does not raise an exception; `Q` holds if it returns, `C` if it is killed. -/
def Outcome {α : Type} (k : Option Nat) (Q : α → FS → Prop) (C : FS → Prop) : Res α → Prop
  | .ok a fs k' => Q a fs ∧ (k = none → k' = none)
  | .raised _ => False
  | .crashed fs => k ≠ none ∧ C fs

def Triple {α : Type} (fs : FS) (m : Prog α) (Q : α → FS → Prop) (C : FS → Prop) : Prop := ∀ k, Outcome k Q C (m fs k)

theorem Triple.pure {α : Type} {fs : FS} {a : α} {Q : α → FS → Prop} {C : FS → Prop} (h : Q a fs) : Triple fs (pure a : Prog α) Q C :=
  fun _ => ⟨h, id⟩

theorem Triple.bind {α β : Type} {fs : FS} {m : Prog α} {f : α → Prog β} {Q : α → FS → Prop} {R : β → FS → Prop} {C : FS → Prop}
    (h : Triple fs m Q C) (h' : ∀ a fs', Q a fs' → Triple fs' (f a) R C) : Triple fs (m >>= f) R C := by
  intro k
  have hk := h k
  show Outcome k R C (Prog.bind m f fs k)
  unfold Prog.bind
  cases hm : m fs k with
  | ok a fs' k' =>
    rw [hm] at hk
    have h1 := h' a fs' hk.1 k'
    show Outcome k R C (f a fs' k')
    cases hf : f a fs' k' with
    | ok b fs2 k2 => rw [hf] at h1; exact ⟨h1.1, fun hn => h1.2 (hk.2 hn)⟩
    | raised fs2 => rw [hf] at h1; exact h1
    | crashed fs2 => rw [hf] at h1; exact ⟨fun hn => h1.1 (hk.2 hn), h1.2⟩
  | raised fs' => rw [hm] at hk; exact hk
  | crashed fs' => rw [hm] at hk; exact hk

theorem Triple.mono {α : Type} {fs : FS} {m : Prog α} {Q Q' : α → FS → Prop} {C C' : FS → Prop} (h : Triple fs m Q C)
    (hq : ∀ a fs', Q a fs' → Q' a fs') (hc : ∀ fs', C fs' → C' fs') : Triple fs m Q' C' := by
  intro k
  have hk := h k
  cases hm : m fs k with
  | ok a fs' k' => rw [hm] at hk; exact ⟨hq _ _ hk.1, hk.2⟩
  | raised fs' => rw [hm] at hk; exact hk
  | crashed fs' => rw [hm] at hk; exact ⟨hk.1, hc _ hk.2⟩

theorem Triple.get {α : Type} {fs : FS} {f : FS → α} {Q : α → FS → Prop} {C : FS → Prop} (h : Q (f fs) fs) : Triple fs (get f) Q C :=
  fun _ => ⟨h, id⟩

theorem Triple.require {fs : FS} {f : FS → Bool} {Q : Unit → FS → Prop} {C : FS → Prop} (hf : f fs = true) (h : Q () fs) : Triple fs (require f) Q C := by
  intro k
  show Outcome k Q C (if f fs then _ else _)
  rw [if_pos hf]
  exact ⟨h, id⟩

theorem Triple.change {fs : FS} {f : FS → FS} {Q : Unit → FS → Prop} {C : FS → Prop} (hc : C fs) (h : Q () (f fs)) : Triple fs (change f) Q C := by
  intro k
  match k with
  | none => exact ⟨h, id⟩
  | some 0 => exact ⟨by simp, hc⟩
  | some (k + 1) => exact ⟨h, by simp⟩

theorem Triple.ifThen {fs : FS} {c : FS → Bool} {m : Prog Unit} {Q : Unit → FS → Prop} {C : FS → Prop} (h1 : c fs = true → Triple fs m Q C) (h2 : c fs = false → Q () fs) :
    Triple fs (ifThen c m) Q C := by
  intro k
  show Outcome k Q C (if c fs then _ else _)
  rcases Bool.eq_false_or_eq_true (c fs) with h | h
  · rw [if_pos h]; exact h1 h k
  · rw [if_neg (by simp [h])]; exact ⟨h2 h, id⟩

theorem Triple.readFile {fs : FS} {r : Root} {p : Path} {c : Text} {Q : Text → FS → Prop} {C : FS → Prop} (hf : fs r p = some (.file c)) (h : Q c fs) :
    Triple fs (readFile r p) Q C := by
  intro k
  show Outcome k Q C (match fs r p with | some (.file c) => _ | _ => _)
  rw [hf]
  exact ⟨h, id⟩

/-- A program that returns, with the file system it leaves. -/
theorem Triple.returns {α : Type} {fs : FS} {m : Prog α} {Q : α → FS → Prop} {C : FS → Prop} (h : Triple fs m Q C) : ∃ a fs', m fs none = .ok a fs' none ∧ Q a fs' := by
  have hk := h none
  cases hm : m fs none with
  | ok a fs' k' => rw [hm] at hk; obtain ⟨h1, h2⟩ := hk; rw [h2 rfl]; exact ⟨a, fs', rfl, h1⟩
  | raised fs' => rw [hm] at hk; exact hk.elim
  | crashed fs' => rw [hm] at hk; exact absurd rfl hk.1

/-- Killed or not, ... -/
theorem Triple.anyway {α : Type} {fs : FS} {m : Prog α} {Q : α → FS → Prop} {C : FS → Prop} (h : Triple fs m Q C) (k : Option Nat) :
    C (m fs k).fs ∨ ∃ a, Q a (m fs k).fs := by
  have hk := h k
  cases hm : m fs k with
  | ok a fs' k' => rw [hm] at hk; exact .inr ⟨a, hk.1⟩
  | raised fs' => rw [hm] at hk; exact hk.elim
  | crashed fs' => rw [hm] at hk; exact .inl hk.2

theorem bind_ok {α β : Type} {m : Prog α} {f : α → Prog β} {fs fs' : FS} {k k' : Option Nat} {a : α} (h : m fs k = .ok a fs' k') : (m >>= f) fs k = f a fs' k' := by
  show Prog.bind m f fs k = _
  unfold Prog.bind
  rw [h]

theorem bind_raised {α β : Type} {m : Prog α} {f : α → Prog β} {fs fs' : FS} {k : Option Nat} (h : m fs k = .raised fs') : (m >>= f) fs k = .raised fs' := by
  show Prog.bind m f fs k = _
  unfold Prog.bind
  rw [h]

theorem require_ok {f : FS → Bool} {fs : FS} {k : Option Nat} (h : f fs = true) : require f fs k = .ok () fs k := if_pos h

theorem require_raised {f : FS → Bool} {fs : FS} {k : Option Nat} (h : f fs = false) : require f fs k = .raised fs := if_neg (by simp [h])

/-! ## Files -/

theorem set_same (fs : FS) (r : Root) (p : Path) (n : Option Node) : fs.set r p n r p = n := by simp [FS.set]

theorem set_other (fs : FS) (r : Root) (p : Path) (n : Option Node) {r' : Root} {p' : Path} (h : ¬ (r' = r ∧ p' = p)) : fs.set r p n r' p' = fs r' p' := by
  simp only [FS.set, if_neg h]

theorem has_iff {r : Root} {p : Path} {fs : FS} : has r p fs = true ↔ fs r p ≠ none := by
  unfold has
  cases fs r p <;> simp

theorem has_false {r : Root} {p : Path} {fs : FS} : has r p fs = false ↔ fs r p = none := by
  unfold has
  cases fs r p <;> simp

theorem isDir_iff {r : Root} {p : Path} {fs : FS} : isDir r p fs = true ↔ fs r p = some .dir := by simp [isDir]

theorem isDir_false {r : Root} {p : Path} {fs : FS} : isDir r p fs = false ↔ fs r p ≠ some .dir := by simp [isDir]

theorem strip_append (p q : Path) : strip p (p ++ q) = some q := by
  induction p with
  | nil => rfl
  | cons a p ih => simp only [List.cons_append, strip, if_true, ih]

theorem strip_eq {p q q' : Path} (h : strip p q = some q') : q = p ++ q' := by
  induction p generalizing q with
  | nil => cases h; rfl
  | cons a p ih =>
    cases q with
    | nil => cases h
    | cons b q =>
      rw [strip] at h
      split at h
      · rename_i hab; rw [ih h, hab]; rfl
      · cases h

theorem strip_none {p q : Path} (h : ∀ q', q ≠ p ++ q') : strip p q = none := by
  cases hs : strip p q with
  | none => rfl
  | some q' => exact absurd (strip_eq hs) (h q')

theorem move_target (fs : FS) (r : Root) (a b q : Path) : fs.move r a b r (b ++ q) = fs r (a ++ q) := by
  simp only [FS.move, if_true, strip_append]

theorem move_source (fs : FS) (r : Root) (a b q : Path) (h : ∀ q', a ++ q ≠ b ++ q') : fs.move r a b r (a ++ q) = none := by
  simp only [FS.move, if_true, strip_none h, strip_append, Option.isSome_some]

theorem move_other (fs : FS) (r : Root) (a b : Path) {r' : Root} {p : Path} (h : r' = r → (∀ q, p ≠ a ++ q) ∧ ∀ q, p ≠ b ++ q) : fs.move r a b r' p = fs r' p := by
  unfold FS.move
  split
  · rename_i hr
    have h' := h hr
    rw [strip_none h'.2, strip_none h'.1]
    subst hr
    rfl
  · rfl

theorem mem_children {c : Cfg} {r : Root} {p : Path} {fs : FS} {n : Name} : n ∈ c.children r p fs ↔ n ∈ c.names ∧ fs r (p ++ [n]) ≠ none := by
  simp [Cfg.children, has_iff]

/-! ## Deleting some of the files in a directory -/

/-- `fs'` is `fs` without the files in the directory whose names are in `S`. -/
structure Without (r : Root) (dir : Path) (S : Name → Prop) (fs fs' : FS) : Prop where
  gone : ∀ m, S m → fs' r (dir ++ [m]) = none
  same : ∀ r' p, (∀ m, S m → ¬ (r' = r ∧ p = dir ++ [m])) → fs' r' p = fs r' p

theorem Without.refl (r : Root) (dir : Path) (fs : FS) : Without r dir (fun _ => False) fs fs := ⟨fun _ h => h.elim, fun _ _ _ => rfl⟩

theorem append_singleton_inj {p q : Path} {m m' : Name} (h : p ++ [m] = q ++ [m']) : p = q ∧ m = m' := by
  have h1 := congrArg List.reverse h
  simp at h1
  exact ⟨h1.2, h1.1⟩

theorem Triple.unlink {fs : FS} {r : Root} {p : Path} {Q : Unit → FS → Prop} {C : FS → Prop} (h1 : fs r p ≠ none) (h2 : fs r p ≠ some .dir) (hc : C fs) (hq : Q () (fs.set r p none)) :
    Triple fs (unlink r p) Q C := by
  unfold WsDisk.unlink
  refine .bind (Q := fun _ fs' => fs' = fs) (.require (by rw [has_iff.mpr h1, isDir_false.mpr h2]; rfl) rfl) ?_
  intro _ fs' h
  subst h
  exact .change hc hq

/-- The loops that delete files. -/
theorem Triple.unlinkLoop (r : Root) (dir : Path) (dead : Name → Prop) (f : Name → Prog Unit) (l : List Name) : ∀ (fs : FS), l.Nodup →
    (∀ m ∈ l, ¬ dead m → ∀ fs' Q C, Q () fs' → Triple fs' (f m) Q C) → (∀ m ∈ l, dead m → f m = WsDisk.unlink r (dir ++ [m])) →
    (∀ m ∈ l, dead m → fs r (dir ++ [m]) ≠ none ∧ fs r (dir ++ [m]) ≠ some .dir) →
    Triple fs (forEach f l) (fun _ fs' => Without r dir (fun m => m ∈ l ∧ dead m) fs fs') (fun fs' => ∃ S, (∀ m, S m → m ∈ l ∧ dead m) ∧ Without r dir S fs fs') := by
  induction l with
  | nil =>
    intro fs _ _ _ _
    exact .pure ⟨fun m h => by simp at h, fun _ _ _ => rfl⟩
  | cons m l ih =>
    intro fs hnd hf hu hd
    have hnd' := List.nodup_cons.mp hnd
    unfold forEach
    by_cases hm : dead m
    · rw [hu m (by simp) hm]
      refine .bind (Q := fun _ fs' => fs' = fs.set r (dir ++ [m]) none) (.unlink (hd m (by simp) hm).1 (hd m (by simp) hm).2 ⟨fun _ => False, fun _ h => h.elim, Without.refl r dir fs⟩ rfl) ?_
      intro _ fs' h
      subst h
      have key : ∀ S : Name → Prop, (∀ x, S x → x ∈ l) → ∀ fs', Without r dir S (fs.set r (dir ++ [m]) none) fs' → Without r dir (fun x => x = m ∨ S x) fs fs' := by
        intro S hS fs' hw
        constructor
        · intro x hx
          rcases hx with rfl | hx
          · rw [hw.same r (dir ++ [x]) ?_, set_same]
            rintro y hy ⟨_, h⟩
            have := (append_singleton_inj h).2
            subst this
            exact hnd'.1 (hS _ hy)
          · exact hw.gone x hx
        · intro r' p hp
          rw [hw.same r' p (fun x hx => hp x (.inr hx)), set_other _ _ _ _ (hp m (.inl rfl))]
      refine .mono (ih (fs.set r (dir ++ [m]) none) hnd'.2 (fun x hx => hf x (by simp [hx])) (fun x hx => hu x (by simp [hx])) ?_) ?_ ?_
      · intro x hx hdx
        rw [set_other]
        · exact hd x (by simp [hx]) hdx
        · rintro ⟨_, h⟩
          have := (append_singleton_inj h).2
          subst this
          exact hnd'.1 hx
      · intro _ fs' hw
        have := key _ (fun x hx => hx.1) fs' hw
        constructor
        · intro x hx
          rcases List.mem_cons.mp hx.1 with rfl | h1
          · exact this.gone _ (.inl rfl)
          · exact this.gone _ (.inr ⟨h1, hx.2⟩)
        · intro r' p hp
          refine this.same r' p ?_
          intro x hx
          rcases hx with rfl | hx
          · exact hp _ ⟨by simp, hm⟩
          · exact hp _ ⟨by simp [hx.1], hx.2⟩
      · rintro fs' ⟨S, hS, hw⟩
        refine ⟨fun x => x = m ∨ S x, ?_, key S (fun x hx => (hS x hx).1) fs' hw⟩
        rintro x (rfl | hx)
        · exact ⟨by simp, hm⟩
        · exact ⟨by simp [(hS x hx).1], (hS x hx).2⟩
    · refine .bind (Q := fun _ fs' => fs' = fs) (hf m (by simp) hm fs _ _ rfl) ?_
      intro _ fs' h
      subst h
      refine .mono (ih fs' hnd'.2 (fun x hx => hf x (by simp [hx])) (fun x hx => hu x (by simp [hx])) (fun x hx => hd x (by simp [hx]))) ?_ ?_
      · intro _ fs2 hw
        constructor
        · intro x hx
          rcases List.mem_cons.mp hx.1 with rfl | h1
          · exact absurd hx.2 hm
          · exact hw.gone _ ⟨h1, hx.2⟩
        · intro r' p hp
          exact hw.same r' p (fun x hx => hp x ⟨by simp [hx.1], hx.2⟩)
      · rintro fs2 ⟨S, hS, hw⟩
        exact ⟨S, fun x hx => ⟨by simp [(hS x hx).1], (hS x hx).2⟩, hw⟩

end Marcel.WsDisk
