import Verif.Lemmas.Vars

/-!
# C51: the file behind a stored stream lives as long as the variable holding it

`store x` (`>$ x`) makes `x` a reservoir: a value that stands for a file. `VH.gone` of the model are the reservoirs whose file
has been deleted. The property is false when a reservoir is held by two names, of which one may be a parameter.
-/

namespace Marcel

variable {ν V W : Type} [DecidableEq ν] [DecidableEq V]

/-! ### Specification -/

/-- `x` is the only name, in any scope, that holds the reservoir `r`. -/
def SoleHolder (x : ν) (r : V) (s : VH ν V) : Prop :=
  s.ns.dict.get? x = some r ∧ (∀ kv ∈ s.ns.dict, kv.2 = r → kv.1 = x) ∧
    ∀ sc ∈ s.ns.inner, x ∉ sc.params ∧ ∀ kv ∈ sc.vals, kv.2 ≠ r ∧ kv.1 ≠ x

/-- The command leaves the variable `x` alone (does not assign, store, import or delete it, or use it as a parameter), and does not
make another name hold `r` (as long as only `x` holds `r`, no expression assigned or passed to a pipeline yields `r`). It may
load from `x`, and do anything to all other variables, including other reservoirs. -/
def VProg.LeavesAlone (x : ν) (r : V) : VProg ν V → Prop
  | .set y e => y ≠ x ∧ ∀ env : Env ν V, (∀ z, env z = some r → z = x) → e env ≠ r
  | .imp y e => y ≠ x ∧ ∀ env : Env ν V, (∀ z, env z = some r → z = x) → e env ≠ r
  | .perm y e => y ≠ x ∧ ∀ env : Env ν V, (∀ z, env z = some r → z = x) → e env ≠ r
  | .del y => y ≠ x
  | .ite _ p q => p.LeavesAlone x r ∧ q.LeavesAlone x r
  | .seq p q => p.LeavesAlone x r ∧ q.LeavesAlone x r
  | .guard p => p.LeavesAlone x r
  | .call bs p => (∀ b ∈ bs, b.1 ≠ x ∧ ∀ env : Env ν V, (∀ z, env z = some r → z = x) → b.2 env ≠ r) ∧
      p.LeavesAlone x r
  | _ => True

/-! ### Proof -/

theorem mem_set {d : Dict ν V} {k : ν} {v : V} {kv : ν × V} (h : kv ∈ d.set k v) : kv ∈ d ∨ kv = (k, v) := by
  induction d with
  | nil => exact .inr (by simpa [Dict.set] using h)
  | cons a d ih =>
    obtain ⟨y, w⟩ := a
    simp only [Dict.set] at h
    split at h
    · next hy =>
      subst hy
      rcases List.mem_cons.1 h with h | h
      · exact .inr h
      · exact .inl (List.mem_cons_of_mem _ h)
    · rcases List.mem_cons.1 h with h | h
      · exact .inl (by simp [h])
      · rcases ih h with h | h
        · exact .inl (List.mem_cons_of_mem _ h)
        · exact .inr h

theorem mem_erase {d : Dict ν V} {k : ν} {kv : ν × V} (h : kv ∈ d.erase k) : kv ∈ d := by
  induction d with
  | nil => simp [Dict.erase] at h
  | cons a d ih =>
    obtain ⟨y, w⟩ := a
    simp only [Dict.erase] at h
    split at h
    · exact List.mem_cons_of_mem _ h
    · rcases List.mem_cons.1 h with h | h
      · simp [h]
      · exact List.mem_cons_of_mem _ (ih h)

/-- The invariant on the namespace. -/
def NSole (x : ν) (r : V) (n : NS ν V) : Prop :=
  n.dict.get? x = some r ∧ (∀ kv ∈ n.dict, kv.2 = r → kv.1 = x) ∧
    ∀ sc ∈ n.inner, x ∉ sc.params ∧ ∀ kv ∈ sc.vals, kv.2 ≠ r ∧ kv.1 ≠ x

theorem envSole {x : ν} {r : V} {n : NS ν V} (h : NSole x r n) : ∀ z, n.dict.get? z = some r → z = x :=
  fun z hz => h.2.1 (z, r) (Dict.mem_of_get? _ _ _ hz) rfl

theorem storeItem_sole (x y : ν) (r v : V) (hy : y ≠ x) (hv : v ≠ r) (scs : List (Scope ν V)) (top : Dict ν V)
    (h : ∀ sc ∈ scs, x ∉ sc.params ∧ ∀ kv ∈ sc.vals, kv.2 ≠ r ∧ kv.1 ≠ x) :
    ∀ sc ∈ (NS.storeItem y v scs top).1, x ∉ sc.params ∧ ∀ kv ∈ sc.vals, kv.2 ≠ r ∧ kv.1 ≠ x := by
  induction scs with
  | nil => simp [NS.storeItem]
  | cons sc scs ih =>
    have h1 := h sc (by simp)
    have h2 := fun sc' hs => h sc' (List.mem_cons_of_mem _ hs)
    simp only [NS.storeItem]
    split
    · intro sc' hs
      rcases List.mem_cons.1 hs with rfl | hs
      · refine ⟨h1.1, fun kv hkv => ?_⟩
        rcases mem_set hkv with hk | rfl
        · exact h1.2 _ hk
        · exact ⟨hv, hy⟩
      · exact h2 _ hs
    · intro sc' hs
      rcases List.mem_cons.1 hs with rfl | hs
      · exact h1
      · exact ih h2 _ hs

theorem dictSet_sole {x y : ν} {r v : V} (hy : y ≠ x) (hv : v ≠ r) {d : Dict ν V} (h1 : d.get? x = some r)
    (h2 : ∀ kv ∈ d, kv.2 = r → kv.1 = x) :
    (d.set y v).get? x = some r ∧ ∀ kv ∈ d.set y v, kv.2 = r → kv.1 = x := by
  refine ⟨by rw [Dict.get?_set, if_neg hy]; exact h1, fun kv hkv hr => ?_⟩
  rcases mem_set hkv with hk | rfl
  · exact h2 _ hk hr
  · exact absurd hr hv

theorem assign_sole {x y : ν} {r v : V} (hy : y ≠ x) (hv : v ≠ r) {n : NS ν V} (h : NSole x r n) :
    NSole x r (n.assign y v) := by
  obtain ⟨h1, h2, h3⟩ := h
  obtain ⟨a, b⟩ := dictSet_sole hy hv h1 h2
  exact ⟨a, b, storeItem_sole x y r v hy hv n.inner n.top h3⟩

theorem pushLoop_sole (wr : V → Bool) (x : ν) (r : V) (bs : List (ν × V)) (hb : ∀ b ∈ bs, b.1 ≠ x ∧ b.2 ≠ r) (n : NS ν V)
    (h : NSole x r n) : NSole x r (NS.pushLoop wr bs n).1 := by
  induction bs generalizing n with
  | nil => exact h
  | cons b bs ih =>
    obtain ⟨y, v⟩ := b
    have hyv := hb (y, v) (by simp)
    simp only [NS.pushLoop]
    split
    · exact ih (fun b hb' => hb b (by simp [hb'])) _ (assign_sole hyv.1 hyv.2 h)
    · obtain ⟨a, b⟩ := dictSet_sole hyv.1 hyv.2 h.1 h.2.1
      exact ⟨a, b, h.2.2⟩

theorem push_sole (wr : V → Bool) (n0 : V) (x : ν) (r : V) (hn : n0 ≠ r) (bs : Dict ν V)
    (hb : ∀ b ∈ bs, b.1 ≠ x ∧ b.2 ≠ r) (n : NS ν V) (h : NSole x r n) : NSole x r (n.push wr n0 bs).1 := by
  refine pushLoop_sole wr x r bs hb _ ⟨h.1, h.2.1, ?_⟩
  intro sc hs
  rcases List.mem_cons.1 hs with rfl | hs
  · have hk : x ∉ bs.keys := by
      intro hc
      obtain ⟨b, hb1, hb2⟩ := List.mem_map.1 hc
      exact (hb b hb1).1 hb2
    refine ⟨hk, fun kv hkv => ?_⟩
    obtain ⟨k, hk1, rfl⟩ := List.mem_map.1 hkv
    exact ⟨hn, fun hc => hk (hc ▸ hk1)⟩
  · exact h.2.2 _ hs

theorem evalArgs_sole (x : ν) (r : V) (bs : List (ν × (Env ν V → V))) (env : Env ν V)
    (hb : ∀ b ∈ bs, b.1 ≠ x ∧ b.2 env ≠ r) : ∀ b ∈ Prog.evalArgs bs env, b.1 ≠ x ∧ b.2 ≠ r := by
  have : ∀ (bs : List (ν × (Env ν V → V))) (d : Dict ν V), (∀ b ∈ bs, b.1 ≠ x ∧ b.2 env ≠ r) →
      (∀ b ∈ d, b.1 ≠ x ∧ b.2 ≠ r) →
      ∀ b ∈ bs.foldl (fun d be => d.set be.1 (be.2 env)) d, b.1 ≠ x ∧ b.2 ≠ r := by
    intro bs
    induction bs with
    | nil => intro d _ h; exact h
    | cons b bs ih =>
      intro d hb h
      refine ih _ (fun b hb' => hb b (by simp [hb'])) ?_
      intro kv hkv
      rcases mem_set hkv with hk | rfl
      · exact h _ hk
      · have := hb b (by simp)
        exact this
  exact this bs [] hb (by simp)

theorem delKeys_sole (x : ν) (r : V) (ks : List ν) (hk : x ∉ ks) (d : Dict ν V) (h1 : d.get? x = some r)
    (h2 : ∀ kv ∈ d, kv.2 = r → kv.1 = x) :
    (NS.delKeys ks d).1.get? x = some r ∧ ∀ kv ∈ (NS.delKeys ks d).1, kv.2 = r → kv.1 = x := by
  induction ks generalizing d with
  | nil => exact ⟨h1, h2⟩
  | cons k ks ih =>
    simp only [List.mem_cons, not_or] at hk
    simp only [NS.delKeys]
    split
    · exact ⟨h1, h2⟩
    · refine ih hk.2 _ ?_ (fun kv hkv => h2 kv (mem_erase hkv))
      rw [Dict.get?_erase_ne _ _ _ (fun h => hk.1 h.symm)]; exact h1

theorem setAll_sole (x : ν) (r : V) (vs : Dict ν V) (hv : ∀ kv ∈ vs, kv.2 ≠ r ∧ kv.1 ≠ x) (d : Dict ν V)
    (h1 : d.get? x = some r) (h2 : ∀ kv ∈ d, kv.2 = r → kv.1 = x) :
    (NS.setAll vs d).get? x = some r ∧ ∀ kv ∈ NS.setAll vs d, kv.2 = r → kv.1 = x := by
  unfold NS.setAll
  induction vs generalizing d with
  | nil => exact ⟨h1, h2⟩
  | cons b vs ih =>
    have hb := hv b (by simp)
    obtain ⟨a, c⟩ := dictSet_sole hb.2 hb.1 h1 h2
    exact ih (fun kv hkv => hv kv (by simp [hkv])) _ a c

theorem restore_sole (x : ν) (r : V) (scs : List (Scope ν V))
    (h : ∀ sc ∈ scs, x ∉ sc.params ∧ ∀ kv ∈ sc.vals, kv.2 ≠ r ∧ kv.1 ≠ x) (d : Dict ν V)
    (h1 : d.get? x = some r) (h2 : ∀ kv ∈ d, kv.2 = r → kv.1 = x) :
    (NS.restore scs d).get? x = some r ∧ ∀ kv ∈ NS.restore scs d, kv.2 = r → kv.1 = x := by
  induction scs with
  | nil => exact ⟨h1, h2⟩
  | cons sc scs ih =>
    obtain ⟨a, b⟩ := ih (fun sc' hs => h sc' (by simp [hs]))
    exact setAll_sole x r sc.vals (h sc (by simp)).2 _ a b

theorem pop_sole (x : ν) (r : V) (n : NS ν V) (h : NSole x r n) : NSole x r n.pop.1 := by
  simp only [NS.pop]
  split
  · exact h
  · next sc scs hi =>
    have hsc := h.2.2 sc (by simp [hi])
    have hrest : ∀ sc' ∈ scs, x ∉ sc'.params ∧ ∀ kv ∈ sc'.vals, kv.2 ≠ r ∧ kv.1 ≠ x :=
      fun sc' hs => h.2.2 sc' (by simp [hi, hs])
    have hk : x ∉ sc.vals.keys := by
      intro hc
      obtain ⟨b, hb1, hb2⟩ := List.mem_map.1 hc
      exact (hsc.2 b hb1).2 hb2
    have h3 := delKeys_sole x r sc.vals.keys hk n.dict h.1 h.2.1
    rcases hd : NS.delKeys sc.vals.keys n.dict with ⟨d, _ | e⟩
    · rw [hd] at h3
      obtain ⟨a, b⟩ := restore_sole x r scs hrest d h3.1 h3.2
      exact ⟨a, b, hrest⟩
    · rw [hd] at h3
      exact ⟨h3.1, h3.2, hrest⟩

theorem replaced_sole (vals : Vals V) {x y : ν} {r v : V} (hy : y ≠ x) {s : VH ν V} (h : NSole x r s.ns)
    (hg : r ∉ s.gone) : r ∉ s.replaced vals y v := by
  unfold VH.replaced
  split
  · next w hw =>
    have hwr : w ≠ r := by
      rintro rfl
      exact hy (h.2.1 _ (Dict.mem_of_get? _ _ _ hw) rfl)
    split
    · simp only [List.mem_cons, not_or]; exact ⟨fun hc => hwr hc.symm, hg⟩
    · exact hg
  · exact hg

theorem exec_sole (vals : Vals V) (x : ν) (r : V) (hn : vals.none0 ≠ r) (p : VProg ν V) (hp : p.LeavesAlone x r)
    (s : VH ν V) (h : NSole x r s.ns) (hg : r ∉ s.gone) :
    NSole x r (p.exec vals s).1.ns ∧ r ∉ (p.exec vals s).1.gone := by
  induction p generalizing s with
  | skip => exact ⟨h, hg⟩
  | raise e => exact ⟨h, hg⟩
  | set y e =>
    simp only [VProg.exec, VH.setvar]
    split
    · exact ⟨h, hg⟩
    · exact ⟨assign_sole hp.1 (hp.2 _ (envSole h)) h, replaced_sole vals hp.1 h hg⟩
  | imp y e =>
    simp only [VProg.exec, VH.setvarImport]
    split
    · exact ⟨h, hg⟩
    · exact ⟨assign_sole hp.1 (hp.2 _ (envSole h)) h, hg⟩
  | perm y e =>
    obtain ⟨a, b⟩ := dictSet_sole hp.1 (hp.2 _ (envSole h)) h.1 h.2.1
    exact ⟨⟨a, b, h.2.2⟩, hg⟩
  | del y =>
    simp only [VProg.exec, VH.delvar]
    split
    · exact ⟨h, hg⟩
    · split
      · exact ⟨h, hg⟩
      · next v hv =>
        refine ⟨⟨?_, fun kv hkv => h.2.1 kv (mem_erase hkv), h.2.2⟩, ?_⟩
        · show (s.ns.dict.erase y).get? x = _
          rw [Dict.get?_erase_ne _ _ _ hp]; exact h.1
        · have hvr : v ≠ r := by
            rintro rfl
            exact hp (h.2.1 _ (Dict.mem_of_get? _ _ _ hv) rfl)
          simp only
          split
          · simp only [List.mem_cons, not_or]; exact ⟨fun hc => hvr hc.symm, hg⟩
          · exact hg
  | ite c p q ihp ihq =>
    simp only [VProg.exec]
    split
    · exact ihp hp.1 s h hg
    · exact ihq hp.2 s h hg
  | seq p q ihp ihq =>
    have h1 := ihp hp.1 s h hg
    simp only [VProg.exec]
    rcases hr : p.exec vals s with ⟨s1, _ | e⟩
    · rw [hr] at h1; exact ihq hp.2 s1 h1.1 h1.2
    · rw [hr] at h1; exact h1
  | guard p ih =>
    have h1 := ih hp s h hg
    simp only [VProg.exec]
    rcases hr : p.exec vals s with ⟨s1, _ | ⟨_ | _ | _⟩⟩ <;> (rw [hr] at h1; exact h1)
  | call bs p ih =>
    simp only [VProg.exec]
    have a := push_sole vals.wrappable vals.none0 x r hn (Prog.evalArgs bs s.ns.dict.get?)
      (evalArgs_sole x r bs _ fun b hb => ⟨(hp.1 b hb).1, (hp.1 b hb).2 _ (envSole h)⟩) s.ns h
    rcases hpush : s.ns.push vals.wrappable vals.none0 (Prog.evalArgs bs s.ns.dict.get?) with ⟨n1, _ | e⟩
    · rw [hpush] at a
      have h2 := ih hp.2 { s with ns := n1 } a hg
      simp only
      rcases hr : p.exec vals { s with ns := n1 } with ⟨s2, e2⟩
      rw [hr] at h2
      have c := pop_sole x r s2.ns h2.1
      simp only
      rcases hq : s2.ns.pop with ⟨n4, _ | e4⟩ <;> (rw [hq] at c; exact ⟨c, h2.2⟩)
    · rw [hpush] at a; exact ⟨a, hg⟩

/-! ### C51 -/

/-- **C51, partial.** A reservoir held by exactly one variable is not lost: whatever commands run (failing ones included) that
do not touch that variable and do not copy the reservoir to another name, the variable still holds it and its file has
not been deleted. Missing: reservoirs held by several names (`C51_false_alias`, `C51_false_param`). -/
theorem C51_partial (vals : Vals V) (x : ν) (r : V) (hn : vals.none0 ≠ r) (ps : List (VProg ν V))
    (hp : ∀ p ∈ ps, p.LeavesAlone x r) (s : VH ν V) (h : SoleHolder x r s) (hg : r ∉ s.gone) :
    SoleHolder x r (runCommands vals ps s) ∧ r ∉ (runCommands vals ps s).gone := by
  induction ps generalizing s with
  | nil => exact ⟨h, hg⟩
  | cons p ps ih =>
    have h1 := exec_sole vals x r hn p (hp p (by simp)) s h hg
    exact ih (fun q hq => hp q (by simp [hq])) _ h1.1 h1.2

/-- Assigning another value to a variable holding a reservoir deletes the reservoir's file, and no other
file; assigning the same reservoir (as `store` does with a variable that holds one already) deletes nothing. -/
theorem C51_assigned (vals : Vals V) (s : VH ν V) (x : ν) (v : V) (e : Env ν V → V) (he : e s.ns.dict.get? = v)
    (hm : s.enforce = false) :
    let s' := ((VProg.set x e).exec vals s).1
    s'.ns.dict.get? x = some v ∧
    (∀ q, q ∈ s'.gone ↔ q ∈ s.gone ∨ (s.ns.dict.get? x = some q ∧ vals.isRes q = true ∧ q ≠ v)) := by
  simp only [VProg.exec, VH.setvar, VH.refuses, hm, Bool.false_and, Bool.false_eq_true, if_false, he]
  refine ⟨by simp [NS.assign, Dict.get?_set], fun q => ?_⟩
  unfold VH.replaced
  split
  · next w hw =>
    rw [hw]
    split
    · next hc =>
      simp only [Bool.and_eq_true, bne_iff_ne, ne_eq] at hc
      simp only [List.mem_cons, Option.some.injEq]
      constructor
      · rintro (rfl | h)
        · exact .inr ⟨rfl, hc.1, fun h => hc.2 h.symm⟩
        · exact .inl h
      · rintro (h | ⟨rfl, -, -⟩)
        · exact .inr h
        · exact .inl rfl
    · next hc =>
      simp only [Bool.and_eq_true, bne_iff_ne, ne_eq, not_and, Decidable.not_not] at hc
      constructor
      · exact .inl
      · rintro (h | ⟨h1, h2, h3⟩)
        · exact h
        · cases h1
          exact absurd (hc h2).symm h3
  · next hw => rw [hw]; simp

/-- What a finished job assigned replaces the parent's value just as an assignment in the parent would: the file of the
reservoir that was there is deleted, and no other file, whether or not the value can be stored. -/
theorem C51_job (vals : Vals V) (s child : VH ν V) (x : ν) (v : V) (hm : s.enforce = false) (hc : child.changes = [(x, v)]) :
    ∀ q, q ∈ (Job.finish vals (child, none) s).1.gone ↔
      q ∈ s.gone ∨ (s.ns.dict.get? x = some q ∧ vals.isRes q = true ∧ q ≠ v) := by
  have h := (C51_assigned vals s x v (fun _ => v) rfl hm).2
  intro q
  rw [← h q]
  simp only [VProg.exec, VH.setvar, VH.refuses, hm, Bool.false_and, Bool.false_eq_true, if_false]
  simp only [Job.finish, hc, Job.applyChanges, VH.setvarNoSource, VH.setvar, VH.refuses, hm, Bool.false_and, Bool.false_eq_true, if_false]
  split <;> simp_all <;> grind

/-- Deleting a variable holding a reservoir deletes the reservoir's file, and no other file. -/
theorem C51_deleted (vals : Vals V) (s : VH ν V) (x : ν) (hm : s.enforce = false) :
    ∀ q, q ∈ ((VProg.del x).exec vals s).1.gone ↔
      q ∈ s.gone ∨ (s.ns.dict.get? x = some q ∧ vals.isRes q = true) := by
  intro q
  simp only [VProg.exec, VH.delvar, VH.refuses, hm, Bool.false_and, Bool.false_eq_true, if_false]
  split
  · next h => rw [h]; simp
  · next v h =>
    rw [h]
    simp only [Option.some.injEq]
    split
    · next hv =>
      simp only [List.mem_cons]
      constructor
      · rintro (rfl | h)
        · exact .inr ⟨rfl, hv⟩
        · exact .inl h
      · rintro (h | ⟨rfl, -⟩)
        · exact .inr h
        · exact .inl rfl
    · next hv =>
      constructor
      · exact .inl
      · rintro (h | ⟨rfl, h2⟩)
        · exact h
        · exact absurd h2 hv

/-- **C51 is false for two variables holding the same stream**: after `y = (x)` and an assignment to `x`, the variable `y`
still holds the reservoir, whose file is gone. -/
theorem C51_false_alias (vals : Vals V) (s : VH ν V) (x y : ν) (hxy : x ≠ y) (r v : V) (hr : vals.isRes r = true)
    (hv : v ≠ r) (hm : s.enforce = false) (hx : s.ns.dict.get? x = some r) :
    let s' := runCommands vals [.set y fun env => (env x).getD r, .set x fun _ => v] s
    s'.ns.dict.get? y = some r ∧ r ∈ s'.gone := by
  simp only [runCommands, VProg.exec, VH.setvar, VH.refuses, hm, Bool.false_and, Bool.false_eq_true, if_false, hx,
    Option.getD_some]
  refine ⟨?_, ?_⟩
  · simp [NS.assign, Dict.get?_set, hxy]
  · simp [VH.replaced, NS.assign, Dict.get?_set, hxy.symm, hx, hr, hv]

/-- **C51 is false for arguments of pipelines**: a pipeline with a parameter `p` that assigns to `p` deletes the file of the
stream that was passed to it, although the caller's variable still holds it. -/
theorem C51_false_param (vals : Vals V) (s : VH ν V) (x p : ν) (hxp : x ≠ p) (r v : V) (hr : vals.isRes r = true)
    (hw : vals.wrappable r = true) (hv : v ≠ r) (hm : s.enforce = false) (hi : s.ns.inner = [])
    (hx : s.ns.dict.get? x = some r) :
    let s' := runCommands vals [.call [(p, fun env => (env x).getD r)] (.set p fun _ => v)] s
    s'.ns.dict.get? x = some r ∧ r ∈ s'.gone := by
  have hpx : (s.ns.dict.set p r |>.set p v).get? p = some v := by simp [Dict.get?_set]
  simp only [runCommands, VProg.exec, Prog.evalArgs, List.foldl_cons, List.foldl_nil, hx, Option.getD_some, Dict.set,
    NS.push, NS.pushLoop, hw, if_true, NS.assign, hi, NS.storeItem, Dict.keys, List.map_cons, List.map_nil,
    List.mem_singleton, VH.setvar, VH.refuses, hm, Bool.false_and, Bool.false_eq_true, if_false, NS.pop, NS.delKeys, hpx,
    NS.restore]
  refine ⟨?_, ?_⟩
  · rw [Dict.get?_erase_ne _ _ _ hxp.symm, Dict.get?_set, if_neg hxp.symm, Dict.get?_set, if_neg hxp.symm]; exact hx
  · simp [VH.replaced, Dict.get?_set, hr, hv]

/-- **C51 is false for import**: importing a symbol over a variable holding a stream leaves the file behind, with no variable
holding it. -/
theorem C51_false_import (vals : Vals V) (s : VH ν V) (x : ν) (r v : V) (hv : v ≠ r) (hm : s.enforce = false)
    (h : SoleHolder x r s) (hg : r ∉ s.gone) (hn : s.ns.dict.keys.Nodup) :
    let s' := runCommands vals [.imp x fun _ => v] s
    r ∉ s'.gone ∧ ∀ y, s'.ns.dict.get? y ≠ some r := by
  simp only [runCommands, VProg.exec, VH.setvarImport, VH.refuses, hm, Bool.false_and, Bool.false_eq_true, if_false]
  refine ⟨hg, fun y hy => ?_⟩
  simp only [NS.assign, Dict.get?_set] at hy
  split at hy
  · exact hv (by simpa using hy)
  · next hxy => exact hxy (h.2.1 _ (Dict.mem_of_get? _ _ _ hy) rfl).symm

/-! ### The hypotheses can be met -/

/-- Values that start with "res" are reservoirs. -/
def exResVals : Vals String := ⟨fun v => v.startsWith "res", fun _ => true, "None"⟩
/-- Two reservoirs in `a` and `b`, a number in `c`. -/
def exResState : VH String String := ⟨⟨[("a", "res1"), ("b", "res2"), ("c", "7")], [], []⟩, [], false, [], []⟩
/-- Commands that load from `a` in a pipeline with a parameter, replace `b`'s stream and fail. -/
def exResSession : List (VProg String String) :=
  [.call [("n", fun env => (env "c").getD "0")] (.set "d" fun _ => "8"), .set "b" fun _ => "5", .seq (.del "c") (.raise .kill)]

example : SoleHolder "a" "res1" exResState := by
  refine ⟨by decide, by decide, by simp [exResState]⟩
example : SoleHolder "a" "res1" (runCommands exResVals [.set "b" fun _ => "5"] exResState) ∧
    (runCommands exResVals [.set "b" fun _ => "5"] exResState).gone = ["res2"] :=
  ⟨(C51_partial exResVals "a" "res1" (by decide) [.set "b" fun _ => "5"] (by simp [VProg.LeavesAlone]) exResState
    ⟨by decide, by decide, by simp [exResState]⟩ (by decide)).1, by decide +kernel⟩
/-- The commands' hypothesis is met: these read other variables, pass arguments, replace another stream, delete and fail. -/
example : ∀ p ∈ exResSession, p.LeavesAlone "a" "res1" := by
  intro p hp
  simp only [exResSession, List.mem_cons, List.not_mem_nil, or_false] at hp
  rcases hp with rfl | rfl | rfl
  · refine ⟨?_, by decide, fun _ _ => by simp⟩
    intro b hb
    simp only [List.mem_singleton] at hb
    subst hb
    refine ⟨by decide, fun env he hc => ?_⟩
    simp only at hc
    cases h : env "c" with
    | none => rw [h] at hc; exact absurd hc (by decide)
    | some v =>
      rw [h] at hc
      simp only [Option.getD_some] at hc
      exact absurd (he "c" (by rw [h, hc])) (by decide)
  · exact ⟨by decide, fun _ _ => by simp⟩
  · exact ⟨(by decide : "c" ≠ "a"), trivial⟩
/-- Aliasing: `y = (a)`, `a = 5` — `y` holds a reservoir without a file. -/
example : let s' := runCommands exResVals [.set "y" fun env => (env "a").getD "res1", .set "a" fun _ => "5"] exResState
    s'.ns.dict.get? "y" = some "res1" ∧ "res1" ∈ s'.gone :=
  C51_false_alias exResVals exResState "a" "y" (by decide) "res1" "5" (by decide +kernel) (by decide) rfl (by decide)

end Marcel
