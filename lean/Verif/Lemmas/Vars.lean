import Verif.Model.Vars
import Verif.Lemmas.Scopes

/-! What commands do to a variable that is not a parameter of any pipeline. -/

namespace Marcel

variable {ν V W : Type} [DecidableEq ν] [DecidableEq V]

theorem Dict.get?_erase_ne (d : Dict ν V) (k k' : ν) (h : k ≠ k') : (d.erase k).get? k' = d.get? k' := by
  induction d with
  | nil => rfl
  | cons a d ih =>
    obtain ⟨y, v⟩ := a
    simp only [Dict.erase]
    by_cases hy : y = k
    · subst hy; simp [Dict.get?_cons, h]
    · simp [hy, Dict.get?_cons, ih]

/-- `x` is not a parameter of a running pipeline. -/
def NS.Clear (x : ν) (s : NS ν V) : Prop := ∀ sc ∈ s.inner, x ∉ sc.params ∧ x ∉ sc.vals.keys

/-- The variable `x` is as it was. -/
def NS.Keep (x : ν) (s s' : NS ν V) : Prop := s'.dict.get? x = s.dict.get? x ∧ s'.top.get? x = s.top.get? x

theorem NS.Keep.refl (x : ν) (s : NS ν V) : NS.Keep x s s := ⟨rfl, rfl⟩
theorem NS.Keep.trans {x : ν} {s s' s'' : NS ν V} (h : NS.Keep x s s') (h' : NS.Keep x s' s'') : NS.Keep x s s'' :=
  ⟨h'.1.trans h.1, h'.2.trans h.2⟩

theorem storeItem_ne (x y : ν) (v : V) (h : y ≠ x) (r : List (Scope ν V)) (top : Dict ν V)
    (hr : ∀ sc ∈ r, x ∉ sc.params ∧ x ∉ sc.vals.keys) :
    (NS.storeItem y v r top).2.get? x = top.get? x ∧
    ∀ sc ∈ (NS.storeItem y v r top).1, x ∉ sc.params ∧ x ∉ sc.vals.keys := by
  induction r with
  | nil => simp [NS.storeItem, Dict.get?_set, h]
  | cons sc r ih =>
    have h1 := hr sc (by simp)
    have h2 := fun sc' hs => hr sc' (List.mem_cons_of_mem _ hs)
    simp only [NS.storeItem]
    split
    · refine ⟨rfl, ?_⟩
      intro sc' hs
      rcases List.mem_cons.1 hs with rfl | hs
      · refine ⟨h1.1, ?_⟩
        simp only [Dict.keys_set]
        split
        · exact h1.2
        · simp only [List.mem_append, List.mem_singleton, not_or]
          exact ⟨h1.2, fun hc => h hc.symm⟩
      · exact h2 _ hs
    · obtain ⟨a, b⟩ := ih h2
      refine ⟨a, ?_⟩
      intro sc' hs
      rcases List.mem_cons.1 hs with rfl | hs
      · exact h1
      · exact b _ hs

theorem storeItem_eq (x : ν) (v : V) (r : List (Scope ν V)) (top : Dict ν V)
    (hr : ∀ sc ∈ r, x ∉ sc.params ∧ x ∉ sc.vals.keys) : NS.storeItem x v r top = (r, top.set x v) := by
  induction r with
  | nil => rfl
  | cons sc r ih =>
    have h1 := hr sc (by simp)
    simp only [NS.storeItem, h1.1, if_false, ih (fun sc' hs => hr sc' (by simp [hs]))]

theorem NS.assign_ne (x y : ν) (v : V) (h : y ≠ x) (s : NS ν V) (hc : s.Clear x) :
    NS.Keep x s (s.assign y v) ∧ (s.assign y v).Clear x := by
  obtain ⟨a, b⟩ := storeItem_ne x y v h s.inner s.top hc
  exact ⟨⟨by simp [NS.assign, Dict.get?_set, h], a⟩, b⟩

theorem NS.assign_eq (x : ν) (v : V) (s : NS ν V) (hc : s.Clear x) :
    (s.assign x v).dict.get? x = some v ∧ (s.assign x v).top.get? x = some v ∧ (s.assign x v).Clear x := by
  have := storeItem_eq x v s.inner s.top hc
  refine ⟨by simp [NS.assign, Dict.get?_set], by simp [NS.assign, this, Dict.get?_set], ?_⟩
  simp only [NS.assign, this, NS.Clear]
  exact hc

theorem pushLoop_clear (wr : V → Bool) (x : ν) (bs : List (ν × V)) (hx : x ∉ bs.map (·.1)) (s : NS ν V)
    (hc : s.Clear x) : NS.Keep x s (NS.pushLoop wr bs s).1 ∧ (NS.pushLoop wr bs s).1.Clear x := by
  induction bs generalizing s with
  | nil => exact ⟨.refl _ _, hc⟩
  | cons b bs ih =>
    obtain ⟨y, v⟩ := b
    simp only [List.map_cons, List.mem_cons, not_or] at hx
    have hy : y ≠ x := fun h => hx.1 h.symm
    simp only [NS.pushLoop]
    split
    · obtain ⟨a, b⟩ := NS.assign_ne x y v hy s hc
      obtain ⟨a', b'⟩ := ih hx.2 _ b
      exact ⟨a.trans a', b'⟩
    · exact ⟨⟨by simp [Dict.get?_set, hy], rfl⟩, hc⟩

theorem push_clear (wr : V → Bool) (n0 : V) (x : ν) (bs : Dict ν V) (hx : x ∉ bs.keys) (s : NS ν V) (hc : s.Clear x) :
    NS.Keep x s (s.push wr n0 bs).1 ∧ (s.push wr n0 bs).1.Clear x := by
  have := pushLoop_clear wr x bs hx { s with inner := ⟨bs.keys, bs.keys.map fun k => (k, n0)⟩ :: s.inner } (by
    intro sc hs
    rcases List.mem_cons.1 hs with rfl | hs
    · exact ⟨hx, by rw [keys_map_pair]; exact hx⟩
    · exact hc _ hs)
  exact ⟨this.1, this.2⟩

theorem delKeys_clear (x : ν) (ks : List ν) (hx : x ∉ ks) (d : Dict ν V) : (NS.delKeys ks d).1.get? x = d.get? x := by
  induction ks generalizing d with
  | nil => rfl
  | cons k ks ih =>
    simp only [List.mem_cons, not_or] at hx
    simp only [NS.delKeys]
    split
    · rfl
    · rw [ih hx.2, Dict.get?_erase_ne _ _ _ (fun h => hx.1 h.symm)]

theorem setAll_clear (x : ν) (vs d : Dict ν V) (hx : x ∉ vs.keys) : (NS.setAll vs d).get? x = d.get? x := by
  unfold NS.setAll
  induction vs generalizing d with
  | nil => rfl
  | cons b vs ih =>
    simp only [Dict.keys, List.map_cons, List.mem_cons, not_or] at hx
    rw [List.foldl_cons, ih _ hx.2, Dict.get?_set, if_neg (fun h => hx.1 h.symm)]

theorem restore_clear (x : ν) (r : List (Scope ν V)) (hr : ∀ sc ∈ r, x ∉ sc.params ∧ x ∉ sc.vals.keys) (d : Dict ν V) :
    (NS.restore r d).get? x = d.get? x := by
  induction r with
  | nil => rfl
  | cons sc r ih =>
    rw [NS.restore, setAll_clear _ _ _ (hr sc (by simp)).2, ih (fun sc' hs => hr sc' (by simp [hs]))]

theorem pop_clear (x : ν) (s : NS ν V) (hc : s.Clear x) : NS.Keep x s s.pop.1 ∧ s.pop.1.Clear x := by
  simp only [NS.pop]
  split
  · exact ⟨.refl _ _, hc⟩
  · next sc r hi =>
    have h1 := hc sc (by simp [hi])
    have h2 : ∀ sc' ∈ r, x ∉ sc'.params ∧ x ∉ sc'.vals.keys := fun sc' hs => hc sc' (by simp [hi, hs])
    have h3 := delKeys_clear x sc.vals.keys h1.2 s.dict
    rcases hd : NS.delKeys sc.vals.keys s.dict with ⟨d, _ | e⟩
    · rw [hd] at h3
      exact ⟨⟨by rw [← h3]; exact restore_clear x r h2 d, rfl⟩, h2⟩
    · rw [hd] at h3
      exact ⟨⟨h3, rfl⟩, h2⟩

theorem keys_evalArgs (bs : List (ν × (Env ν V → V))) (env : Env ν V) (x : ν) (hx : x ∉ bs.map (·.1)) :
    x ∉ (Prog.evalArgs bs env).keys := by
  rw [← Dict.get?_eq_none_iff, Prog.evalArgs, get?_evalArgs]
  have : argFrame env bs x = none := by
    cases h : argFrame env bs x with
    | none => rfl
    | some v => exact absurd ((argFrame_isSome env bs x).1 (by simp [h])) hx
  rw [this]; rfl

/-- The command does not use `x` as a parameter, does not delete it, does not set it as cd does; and imports it only
if `I`. It may assign it. -/
def VProg.Avoids (I : Prop) (x : ν) : VProg ν V → Prop
  | .perm y _ => y ≠ x
  | .del y => y ≠ x
  | .imp y _ => y = x → I
  | .ite _ p q => p.Avoids I x ∧ q.Avoids I x
  | .seq p q => p.Avoids I x ∧ q.Avoids I x
  | .guard p => p.Avoids I x
  | .call bs p => x ∉ bs.map (·.1) ∧ p.Avoids I x
  | _ => True

/-- What may have happened to `x`: nothing, or it was assigned (in the namespace and in the topmost scope). -/
structure Tr (I : Prop) (x : ν) (s s' : VH ν V) : Prop where
  clear : s'.ns.Clear x
  imm : s'.imm = s.imm
  enforce : s'.enforce = s.enforce
  change : (NS.Keep x s.ns s'.ns ∧ (x ∈ s'.written ↔ x ∈ s.written)) ∨
    (∃ v, s'.ns.dict.get? x = some v ∧ s'.ns.top.get? x = some v ∧ (x ∈ s'.written ∨ I))

theorem Tr.refl {I : Prop} {x : ν} {s : VH ν V} (hc : s.ns.Clear x) : Tr I x s s :=
  ⟨hc, rfl, rfl, .inl ⟨.refl _ _, Iff.rfl⟩⟩

theorem Tr.trans {I : Prop} {x : ν} {s s' s'' : VH ν V} (h : Tr I x s s') (h' : Tr I x s' s'') : Tr I x s s'' := by
  refine ⟨h'.clear, h'.imm.trans h.imm, h'.enforce.trans h.enforce, ?_⟩
  rcases h'.change with ⟨k', w'⟩ | c'
  · rcases h.change with ⟨k, w⟩ | ⟨v, a, b, c⟩
    · exact .inl ⟨k.trans k', w'.trans w⟩
    · exact .inr ⟨v, k'.1.trans a, k'.2.trans b, c.imp w'.2 id⟩
  · exact .inr c'

/-- Changing the namespace only, `x` excepted. -/
theorem Tr.ofNs {I : Prop} {x : ν} {s : VH ν V} {n : NS ν V} (hk : NS.Keep x s.ns n) (hc : n.Clear x) :
    Tr I x s { s with ns := n } := ⟨hc, rfl, rfl, .inl ⟨hk, Iff.rfl⟩⟩

theorem mem_addWritten (s : VH ν V) (x y : ν) : x ∈ s.addWritten y ↔ x = y ∨ x ∈ s.written := by
  unfold VH.addWritten
  split
  · next h =>
    have : y ∈ s.written := by simpa using h
    constructor
    · exact .inr
    · rintro (rfl | h) <;> assumption
  · simp

theorem setvar_tr (I : Prop) (vals : Vals V) (x y : ν) (v : V) (s : VH ν V) (hc : s.ns.Clear x) :
    Tr I x s (s.setvar vals y v).1 := by
  simp only [VH.setvar]
  split
  · exact .refl hc
  · by_cases h : y = x
    · subst h
      obtain ⟨a, b, c⟩ := NS.assign_eq y v s.ns hc
      exact ⟨c, rfl, rfl, .inr ⟨v, a, b, .inl ((mem_addWritten _ _ _).2 (.inl rfl))⟩⟩
    · obtain ⟨a, b⟩ := NS.assign_ne x y v h s.ns hc
      refine ⟨b, rfl, rfl, .inl ⟨a, ?_⟩⟩
      rw [mem_addWritten]
      exact ⟨fun hh => hh.resolve_left (fun e => h e.symm), .inr⟩

theorem exec_tr (I : Prop) (vals : Vals V) (x : ν) (p : VProg ν V) (hp : p.Avoids I x) (s : VH ν V)
    (hc : s.ns.Clear x) : Tr I x s (p.exec vals s).1 := by
  induction p generalizing s with
  | skip => exact .refl hc
  | raise e => exact .refl hc
  | set y e => exact setvar_tr I vals x y _ s hc
  | imp y e =>
    simp only [VProg.exec, VH.setvarImport]
    split
    · exact .refl hc
    · by_cases h : y = x
      · subst h
        obtain ⟨a, b, c⟩ := NS.assign_eq y (e s.ns.dict.get?) s.ns hc
        exact ⟨c, rfl, rfl, .inr ⟨_, a, b, .inr (hp rfl)⟩⟩
      · obtain ⟨a, b⟩ := NS.assign_ne x y (e s.ns.dict.get?) h s.ns hc
        exact .ofNs a b
  | perm y e =>
    refine .ofNs ⟨?_, rfl⟩ hc
    simp [NS.assignPermanent, Dict.get?_set, show ¬ y = x from hp]
  | del y =>
    simp only [VProg.exec, VH.delvar]
    split
    · exact .refl hc
    · split
      · exact .refl hc
      · refine ⟨hc, rfl, rfl, .inl ⟨⟨Dict.get?_erase_ne _ _ _ hp, rfl⟩, ?_⟩⟩
        simp only [List.mem_filter, bne_iff_ne, ne_eq, and_iff_left_iff_imp]
        exact fun _ h => hp h.symm
  | ite c p q ihp ihq =>
    simp only [VProg.exec]
    split
    · exact ihp hp.1 s hc
    · exact ihq hp.2 s hc
  | seq p q ihp ihq =>
    have h := ihp hp.1 s hc
    simp only [VProg.exec]
    rcases hr : p.exec vals s with ⟨s1, _ | e⟩
    · rw [hr] at h; exact h.trans (ihq hp.2 s1 h.clear)
    · rw [hr] at h; exact h
  | guard p ih =>
    have h := ih hp s hc
    simp only [VProg.exec]
    rcases hr : p.exec vals s with ⟨s1, _ | ⟨_ | _ | _⟩⟩ <;> (rw [hr] at h; exact h)
  | call bs p ih =>
    simp only [VProg.exec]
    obtain ⟨a, b⟩ := push_clear vals.wrappable vals.none0 x (Prog.evalArgs bs s.ns.dict.get?)
      (keys_evalArgs bs _ x hp.1) s.ns hc
    rcases hpush : s.ns.push vals.wrappable vals.none0 (Prog.evalArgs bs s.ns.dict.get?) with ⟨n1, _ | e⟩
    · rw [hpush] at a b
      have h1 : Tr I x s { s with ns := n1 } := .ofNs a b
      have h2 := h1.trans (ih hp.2 { s with ns := n1 } b)
      simp only
      rcases hr : p.exec vals { s with ns := n1 } with ⟨s2, e2⟩
      rw [hr] at h2
      obtain ⟨c, d⟩ := pop_clear x s2.ns h2.clear
      simp only
      rcases hq : s2.ns.pop with ⟨n4, _ | e4⟩ <;> (rw [hq] at c d; exact h2.trans (.ofNs c d))
    · rw [hpush] at a b; exact .ofNs a b

theorem runCommands_tr (I : Prop) (vals : Vals V) (x : ν) (ps : List (VProg ν V)) (hp : ∀ p ∈ ps, p.Avoids I x)
    (s : VH ν V) (hc : s.ns.Clear x) : Tr I x s (runCommands vals ps s) := by
  induction ps generalizing s with
  | nil => exact .refl hc
  | cons p ps ih =>
    have h := exec_tr I vals x p (hp p (by simp)) s hc
    exact h.trans (ih (fun q hq => hp q (by simp [hq])) _ h.clear)

/-! ### Saving and opening -/

theorem restore_inner (pk : Pickle V W) (saved : Dict ν W) (s : NS ν V) : (Ws.restore pk saved s).inner = s.inner := by
  unfold Ws.restore
  induction saved generalizing s with
  | nil => rfl
  | cons a d ih => rw [List.foldl_cons, ih]

theorem restore_get (pk : Pickle V W) (saved : Dict ν W) (hn : saved.keys.Nodup) (s : NS ν V) (x : ν) :
    (Ws.restore pk saved s).dict.get? x = ((saved.get? x).map pk.load <|> s.dict.get? x) ∧
    (Ws.restore pk saved s).top.get? x = ((saved.get? x).map pk.load <|> s.top.get? x) := by
  unfold Ws.restore
  induction saved generalizing s with
  | nil => simp
  | cons a d ih =>
    obtain ⟨y, w⟩ := a
    simp only [Dict.keys, List.map_cons, List.nodup_cons] at hn
    rw [List.foldl_cons]
    obtain ⟨i1, i2⟩ := ih hn.2 ⟨s.dict.set y (pk.load w), s.top.set y (pk.load w), s.inner⟩
    rw [i1, i2, Dict.get?_cons]
    by_cases h : y = x
    · subst h
      have : Dict.get? d y = none := (Dict.get?_eq_none_iff _ _).2 hn.1
      simp [this, Dict.get?_set]
    · simp [h, Dict.get?_set]

theorem get?_map_val (f : V → W) (d : Dict ν V) (x : ν) :
    Dict.get? (d.map fun kv => (kv.1, f kv.2)) x = (d.get? x).map f := by
  induction d with
  | nil => rfl
  | cons a d ih =>
    obtain ⟨y, v⟩ := a
    simp only [List.map_cons, Dict.get?_cons, ih]
    split <;> simp

theorem keys_map_val (f : V → W) (d : Dict ν V) : Dict.keys (d.map fun kv => (kv.1, f kv.2)) = d.keys := by
  simp [Dict.keys]

/-! ### The topmost scope is a dict: no key twice -/

theorem storeItem_nodup (y : ν) (v : V) (r : List (Scope ν V)) (top : Dict ν V) (h : top.keys.Nodup) :
    (NS.storeItem y v r top).2.keys.Nodup := by
  induction r with
  | nil => exact Dict.nodup_keys_set _ _ _ h
  | cons sc r ih => simp only [NS.storeItem]; split <;> assumption

theorem pushLoop_nodup (wr : V → Bool) (bs : List (ν × V)) (s : NS ν V) (h : s.top.keys.Nodup) :
    (NS.pushLoop wr bs s).1.top.keys.Nodup := by
  induction bs generalizing s with
  | nil => exact h
  | cons b bs ih =>
    simp only [NS.pushLoop]
    split
    · exact ih _ (storeItem_nodup _ _ _ _ h)
    · exact h

theorem pop_top (s : NS ν V) : s.pop.1.top = s.top := by
  simp only [NS.pop]
  split
  · rfl
  · next sc r _ => rcases NS.delKeys sc.vals.keys s.dict with ⟨d, _ | e⟩ <;> rfl

theorem exec_nodup (vals : Vals V) (p : VProg ν V) (s : VH ν V) (h : s.ns.top.keys.Nodup) :
    (p.exec vals s).1.ns.top.keys.Nodup := by
  induction p generalizing s with
  | skip => exact h
  | raise e => exact h
  | set y e =>
    simp only [VProg.exec, VH.setvar]; split
    · exact h
    · exact storeItem_nodup _ _ _ _ h
  | imp y e =>
    simp only [VProg.exec, VH.setvarImport]; split
    · exact h
    · exact storeItem_nodup _ _ _ _ h
  | perm y e => exact h
  | del y =>
    simp only [VProg.exec, VH.delvar]
    split
    · exact h
    · split <;> exact h
  | ite c p q ihp ihq => simp only [VProg.exec]; split <;> simp_all
  | seq p q ihp ihq =>
    have h1 := ihp s h
    simp only [VProg.exec]
    rcases hr : p.exec vals s with ⟨s1, _ | e⟩
    · rw [hr] at h1; exact ihq s1 h1
    · rw [hr] at h1; exact h1
  | guard p ih =>
    have h1 := ih s h
    simp only [VProg.exec]
    rcases hr : p.exec vals s with ⟨s1, _ | ⟨_ | _ | _⟩⟩ <;> (rw [hr] at h1; exact h1)
  | call bs p ih =>
    simp only [VProg.exec]
    have a : (s.ns.push vals.wrappable vals.none0 (Prog.evalArgs bs s.ns.dict.get?)).1.top.keys.Nodup :=
      pushLoop_nodup _ _ _ h
    rcases hpush : s.ns.push vals.wrappable vals.none0 (Prog.evalArgs bs s.ns.dict.get?) with ⟨n1, _ | e⟩
    · rw [hpush] at a
      have h2 := ih { s with ns := n1 } a
      simp only
      rcases hr : p.exec vals { s with ns := n1 } with ⟨s2, e2⟩
      rw [hr] at h2
      have c := pop_top s2.ns
      simp only
      rcases hq : s2.ns.pop with ⟨n4, _ | e4⟩ <;> (rw [hq] at c; simp only at c ⊢; rw [c]; exact h2)
    · rw [hpush] at a; exact a

theorem runCommands_nodup (vals : Vals V) (ps : List (VProg ν V)) (s : VH ν V) (h : s.ns.top.keys.Nodup) :
    (runCommands vals ps s).ns.top.keys.Nodup := by
  induction ps generalizing s with
  | nil => exact h
  | cons p ps ih => exact ih _ (exec_nodup vals p s h)

theorem restore_nodup (pk : Pickle V W) (saved : Dict ν W) (s : NS ν V) (h : s.top.keys.Nodup) :
    (Ws.restore pk saved s).top.keys.Nodup := by
  unfold Ws.restore
  induction saved generalizing s with
  | nil => exact h
  | cons a d ih => exact ih _ (Dict.nodup_keys_set _ _ _ h)

end Marcel
