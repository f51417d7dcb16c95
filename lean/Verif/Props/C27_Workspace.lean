import Verif.Lemmas.Vars
import Verif.Props.C25_Scopes

/-!
# C27: a workspace remembers its variables; C28: immutable variables; C29: variables of jobs

All three are false of the code in some cases (`_false` theorems).
-/

namespace Marcel
open Ws

variable {ν V W : Type} [DecidableEq ν] [DecidableEq V]

/-! ### C27 -/

/-- **C27, partial.** A workspace with any persistent state is opened, any commands are run, it is closed and opened
again (with the same initial namespace and startup script). Every variable that the commands did not delete, did not
use as a parameter of a pipeline, and that is not set by cd, has the value that it had when the workspace was closed - in
particular, variables never assigned are as unbound as before. Missing: deleted variables (`C27_false`). -/
theorem C27_partial (vals : Vals V) (pk : Pickle V W) (hpk : ∀ v, pk.load (pk.dump v) = v) (api : Bool) (imm0 : List ν)
    (initial config : Dict ν V) (saved : Dict ν W) (hn : saved.keys.Nodup) (ps : List (VProg ν V)) (x : ν)
    (hp : ∀ p ∈ ps, p.Avoids True x) (saved' : Dict ν W)
    (hs : save pk (runCommands vals ps (openVH pk api imm0 initial config saved)).ns = some saved') :
    (openNs pk initial config saved').dict.get? x =
      (runCommands vals ps (openVH pk api imm0 initial config saved)).ns.dict.get? x := by
  have hc : (openVH pk api imm0 initial config saved).ns.Clear x := by
    intro sc hsc
    simp only [openVH, openNs, restore_inner] at hsc
    simp at hsc
  have h := runCommands_tr True vals x ps hp _ hc
  have hnd : (runCommands vals ps (openVH pk api imm0 initial config saved)).ns.top.keys.Nodup :=
    runCommands_nodup vals ps _ (restore_nodup pk saved _ (by simp [Dict.keys]))
  obtain ⟨g1, g2⟩ := restore_get pk saved hn ⟨initial.update config, [], []⟩ x
  have g3 : (openVH pk api imm0 initial config saved).ns.dict.get? x = _ := g1
  have g4 : (openVH pk api imm0 initial config saved).ns.top.get? x = _ := g2
  generalize hF : runCommands vals ps (openVH pk api imm0 initial config saved) = F at *
  have hsv : saved' = F.ns.top.map fun kv => (kv.1, pk.dump kv.2) := by
    simp only [save] at hs
    split at hs
    · simpa using hs.symm
    · simp at hs
  have hn' : saved'.keys.Nodup := by rw [hsv, keys_map_val]; exact hnd
  obtain ⟨k1, -⟩ := restore_get pk saved' hn' ⟨initial.update config, [], []⟩ x
  have hgx : (saved'.get? x).map pk.load = F.ns.top.get? x := by
    rw [hsv, get?_map_val]
    cases F.ns.top.get? x <;> simp [hpk]
  rw [openNs, k1, hgx]
  rcases h.change with ⟨⟨a, b⟩, -⟩ | ⟨v, a, b, -⟩
  · rw [b, g4, a, g3]
    cases (saved.get? x).map pk.load <;> rfl
  · rw [a, b]; rfl

/-- The saved state depends on nothing but the variables: closing succeeds whenever no scope is left over (which
`C46_partial` ensures). -/
theorem C27_closes (pk : Pickle V W) (s : NS ν V) (h : s.nScopes = 1) : (save pk s).isSome = true := by
  have : s.inner = [] := by
    have : s.inner.length = 0 := by simpa [NS.nScopes] using h
    exact List.eq_nil_of_length_eq_zero this
  simp [save, this]

theorem restore_dict_nodup (pk : Pickle V W) (saved : Dict ν W) (s : NS ν V) (h : s.dict.keys.Nodup) :
    (Ws.restore pk saved s).dict.keys.Nodup := by
  unfold Ws.restore
  induction saved generalizing s with
  | nil => exact h
  | cons a d ih => exact ih _ (Dict.nodup_keys_set _ _ _ h)

/-- **C27 is false**: a variable that is assigned and then deleted (so that it is unbound when the workspace is closed)
is back when the workspace is opened again, for every variable and every value. -/
theorem C27_false (vals : Vals V) (pk : Pickle V W) (hpk : ∀ v, pk.load (pk.dump v) = v) (imm0 : List ν)
    (initial config : Dict ν V) (hin : initial.keys.Nodup) (saved : Dict ν W) (x : ν) (v : V) :
    let s := runCommands vals [.set x fun _ => v, .del x] (openVH pk false imm0 initial config saved)
    s.ns.dict.get? x = none ∧
    ∃ saved', save pk s.ns = some saved' ∧ (openNs pk initial config saved').dict.get? x = some v := by
  have hi : (openNs pk initial config saved).inner = [] := by rw [openNs, restore_inner]
  have hnd : (openNs pk initial config saved).top.keys.Nodup := restore_nodup pk saved _ (by simp [Dict.keys])
  have hnd2 : (openNs pk initial config saved).dict.keys.Nodup :=
    restore_dict_nodup pk saved _ (nodup_foldl_set config initial hin)
  generalize hN : openNs pk initial config saved = N at *
  have e1 : (VProg.set x fun _ => v).exec vals (openVH pk false imm0 initial config saved) =
      (⟨⟨N.dict.set x v, N.top.set x v, []⟩, imm0 ++ config.keys, false,
        [x], VH.replaced vals (openVH pk false imm0 initial config saved) x v⟩, none) := by
    simp [VProg.exec, VH.setvar, VH.refuses, openVH, hN, NS.assign, hi, NS.storeItem, VH.addWritten]
  simp only [runCommands, e1]
  have hx : (N.dict.set x v).get? x = some v := by simp [Dict.get?_set]
  simp only [VProg.exec, VH.delvar, VH.refuses, hx, Bool.false_and, Bool.false_eq_true, if_false]
  refine ⟨?_, _, rfl, ?_⟩
  · rw [Dict.get?_erase _ _ _ (Dict.nodup_keys_set _ _ _ hnd2)]; simp
  · have hn' : (Dict.keys ((N.top.set x v).map fun kv => (kv.1, pk.dump kv.2))).Nodup := by
      rw [keys_map_val]; exact Dict.nodup_keys_set _ _ _ hnd
    obtain ⟨k1, -⟩ := restore_get pk ((N.top.set x v).map fun kv => (kv.1, pk.dump kv.2)) hn'
      ⟨initial.update config, [], []⟩ x
    rw [openNs, k1, get?_map_val, Dict.get?_set]
    simp [hpk]

/-! ### C28 -/

/-- The command does not use `x` as a parameter and does not set it as cd does. It may try to assign, import or delete
it. -/
def VProg.NoParam (x : ν) : VProg ν V → Prop
  | .perm y _ => y ≠ x
  | .ite _ p q => p.NoParam x ∧ q.NoParam x
  | .seq p q => p.NoParam x ∧ q.NoParam x
  | .guard p => p.NoParam x
  | .call bs p => x ∉ bs.map (·.1) ∧ p.NoParam x
  | _ => True

/-- What stays: the variable, and that it is protected. -/
structure Held (x : ν) (s s' : VH ν V) : Prop where
  clear : s'.ns.Clear x
  imm : s'.imm = s.imm
  enforce : s'.enforce = s.enforce
  keep : NS.Keep x s.ns s'.ns

theorem Held.trans {x : ν} {s s' s'' : VH ν V} (h : Held x s s') (h' : Held x s' s'') : Held x s s'' :=
  ⟨h'.clear, h'.imm.trans h.imm, h'.enforce.trans h.enforce, h.keep.trans h'.keep⟩

theorem exec_held (vals : Vals V) (x : ν) (p : VProg ν V) (hp : p.NoParam x) (s : VH ν V)
    (he : s.enforce = true) (hx : x ∈ s.imm) (hc : s.ns.Clear x) : Held x s (p.exec vals s).1 := by
  induction p generalizing s with
  | skip => exact ⟨hc, rfl, rfl, .refl _ _⟩
  | raise e => exact ⟨hc, rfl, rfl, .refl _ _⟩
  | set y e =>
    simp only [VProg.exec, VH.setvar]
    split
    · exact ⟨hc, rfl, rfl, .refl _ _⟩
    · next h =>
      have hy : y ≠ x := by rintro rfl; simp [VH.refuses, he, hx] at h
      obtain ⟨a, b⟩ := NS.assign_ne x y (e s.ns.dict.get?) hy s.ns hc
      exact ⟨b, rfl, rfl, a⟩
  | imp y e =>
    simp only [VProg.exec, VH.setvarImport]
    split
    · exact ⟨hc, rfl, rfl, .refl _ _⟩
    · next h =>
      have hy : y ≠ x := by rintro rfl; simp [VH.refuses, he, hx] at h
      obtain ⟨a, b⟩ := NS.assign_ne x y (e s.ns.dict.get?) hy s.ns hc
      exact ⟨b, rfl, rfl, a⟩
  | perm y e =>
    refine ⟨hc, rfl, rfl, ?_, rfl⟩
    simp [VProg.exec, NS.assignPermanent, Dict.get?_set, show ¬ y = x from hp]
  | del y =>
    simp only [VProg.exec, VH.delvar]
    split
    · exact ⟨hc, rfl, rfl, .refl _ _⟩
    · next h =>
      have hy : y ≠ x := by rintro rfl; simp [VH.refuses, he, hx] at h
      split
      · exact ⟨hc, rfl, rfl, .refl _ _⟩
      · exact ⟨hc, rfl, rfl, Dict.get?_erase_ne _ _ _ hy, rfl⟩
  | ite c p q ihp ihq =>
    simp only [VProg.exec]
    split
    · exact ihp hp.1 s he hx hc
    · exact ihq hp.2 s he hx hc
  | seq p q ihp ihq =>
    have h := ihp hp.1 s he hx hc
    simp only [VProg.exec]
    rcases hr : p.exec vals s with ⟨s1, _ | e⟩
    · rw [hr] at h
      exact h.trans (ihq hp.2 s1 (h.enforce.trans he) (h.imm ▸ hx) h.clear)
    · rw [hr] at h; exact h
  | guard p ih =>
    have h := ih hp s he hx hc
    simp only [VProg.exec]
    rcases hr : p.exec vals s with ⟨s1, _ | ⟨_ | _ | _⟩⟩ <;> (rw [hr] at h; exact h)
  | call bs p ih =>
    simp only [VProg.exec]
    obtain ⟨a, b⟩ := push_clear vals.wrappable vals.none0 x (Prog.evalArgs bs s.ns.dict.get?)
      (keys_evalArgs bs _ x hp.1) s.ns hc
    rcases hpush : s.ns.push vals.wrappable vals.none0 (Prog.evalArgs bs s.ns.dict.get?) with ⟨n1, _ | e⟩
    · rw [hpush] at a b
      have h1 : Held x s { s with ns := n1 } := ⟨b, rfl, rfl, a⟩
      have h2 := h1.trans (ih hp.2 { s with ns := n1 } he hx b)
      simp only
      rcases hr : p.exec vals { s with ns := n1 } with ⟨s2, e2⟩
      rw [hr] at h2
      obtain ⟨c, d⟩ := pop_clear x s2.ns h2.clear
      simp only
      rcases hq : s2.ns.pop with ⟨n4, _ | e4⟩ <;> (rw [hq] at c d; exact h2.trans ⟨d, rfl, rfl, c⟩)
    · rw [hpush] at a b; exact ⟨b, rfl, rfl, a⟩

/-- **C28, partial.** In an environment that enforces immutability (the API), no sequence of commands - assigning, deleting,
importing, at any nesting depth, failing or not - changes a variable declared immutable, unless it is used as a
pipeline's parameter (or is PWD/DIRS and the command is cd, pushd, popd). Missing: the interactive shell and scripts do
not enforce (`C28_false`); parameters (`C28_false_param`). -/
theorem C28_partial (vals : Vals V) (pk : Pickle V W) (imm0 : List ν) (initial config : Dict ν V) (saved : Dict ν W)
    (ps : List (VProg ν V)) (x : ν) (hx : x ∈ imm0 ∨ x ∈ config.keys) (hp : ∀ p ∈ ps, p.NoParam x) :
    (runCommands vals ps (openVH pk true imm0 initial config saved)).ns.dict.get? x =
      (openVH pk true imm0 initial config saved).ns.dict.get? x := by
  have hc : (openVH pk true imm0 initial config saved).ns.Clear x := by
    intro sc hsc
    simp only [openVH, openNs, restore_inner] at hsc
    simp at hsc
  have hx' : x ∈ (openVH pk true imm0 initial config saved).imm := by simpa [openVH] using hx
  have he : (openVH pk true imm0 initial config saved).enforce = true := rfl
  generalize openVH pk true imm0 initial config saved = s at *
  suffices h : Held x s (runCommands vals ps s) from h.keep.1
  induction ps generalizing s with
  | nil => exact ⟨hc, rfl, rfl, .refl _ _⟩
  | cons p ps ih =>
    have h := exec_held vals x p (hp p (by simp)) s he hx' hc
    exact h.trans (ih (fun q hq => hp q (by simp [hq])) _ h.clear (h.imm ▸ hx') (h.enforce.trans he))

/-- A refused attempt is a killed command, and changes nothing at all. -/
theorem C28_refused (vals : Vals V) (s : VH ν V) (x : ν) (e : Env ν V → V) (he : s.enforce = true) (hx : x ∈ s.imm) :
    (VProg.set x e).exec vals s = (s, some .kill) ∧ (VProg.imp x e).exec vals s = (s, some .kill) ∧
    (VProg.del x).exec vals s = (s, some .kill) := by
  simp [VProg.exec, VH.setvar, VH.setvarImport, VH.delvar, VH.refuses, he, hx]

/-- Nothing is refused unless it must be. -/
theorem C28_not_refused (vals : Vals V) (s : VH ν V) (x : ν) (v : V) (hx : ¬ (s.enforce = true ∧ x ∈ s.imm)) :
    ((VProg.set x fun _ => v).exec vals s).2 = none ∧
    ((VProg.set x fun _ => v).exec vals s).1.ns.dict.get? x = some v := by
  have : s.refuses x = false := by
    simp only [VH.refuses]
    cases h : s.enforce <;> simp_all
  simp [VProg.exec, VH.setvar, this, NS.assign, Dict.get?_set]

/-- **C28 is false of the shell**: in the interactive shell and in scripts every variable can be assigned, immutable or
not. -/
theorem C28_false (vals : Vals V) (pk : Pickle V W) (imm0 : List ν) (initial config : Dict ν V) (saved : Dict ν W)
    (x : ν) (v : V) :
    let r := (VProg.set x fun _ => v).exec vals (openVH pk false imm0 initial config saved)
    r.2 = none ∧ r.1.ns.dict.get? x = some v :=
  C28_not_refused vals _ x v (by simp [openVH])

/-- **C28 is false** even with enforcement, for HOST (and ITALIC): a missing comma makes them mutable. -/
theorem C28_false_host (vals : Vals V) (pk : Pickle V W) (initial : Dict String V) (saved : Dict String W) (v : V) :
    let r := (VProg.set "HOST" fun _ => v).exec vals (openVH pk true immutableVars initial [] saved)
    r.2 = none ∧ r.1.ns.dict.get? "HOST" = some v :=
  C28_not_refused vals _ "HOST" v (by simp [openVH, immutableVars, Dict.keys])

/-- **C28 is false** even with enforcement when a pipeline has an immutable variable's name as a parameter: afterwards the
variable is unbound. -/
theorem C28_false_param (vals : Vals V) (hw : vals.wrappable vals.none0 = true) (pk : Pickle V W) (imm0 : List ν)
    (initial config : Dict ν V) (hin : initial.keys.Nodup) (saved : Dict ν W) (x : ν) :
    ((VProg.call [(x, fun _ => vals.none0)] .skip).exec vals
      (openVH pk true imm0 initial config saved)).1.ns.dict.get? x = none := by
  have hi : (openVH pk true imm0 initial config saved).ns.inner = [] := by
    simp only [openVH, openNs, restore_inner]
  have hnd2 : (openVH pk true imm0 initial config saved).ns.dict.keys.Nodup :=
    restore_dict_nodup pk saved _ (nodup_foldl_set config initial hin)
  have h := C25_false vals.wrappable vals.none0 (openVH pk true imm0 initial config saved).ns hi hnd2 x
    (fun _ => vals.none0) (fun _ => hw)
  rw [← h]
  simp only [VProg.exec, Prog.exec]
  rcases (openVH pk true imm0 initial config saved).ns.push vals.wrappable vals.none0
    (Prog.evalArgs [(x, fun _ => vals.none0)] (openVH pk true imm0 initial config saved).ns.dict.get?) with ⟨n1, _ | e⟩
  · simp only
    rcases n1.pop with ⟨n4, _ | e4⟩ <;> rfl
  · rfl

/-! ### C29 -/

theorem applyChanges_spec (vals : Vals V) (cs : Dict ν V) (s : VH ν V) (hn : cs.keys.Nodup)
    (he : s.enforce = false) (hw : ∀ c ∈ cs, vals.wrappable c.2 = true) :
    (Job.applyChanges vals cs s).2 = none ∧
    ∀ x, (Job.applyChanges vals cs s).1.ns.dict.get? x = (cs.get? x <|> s.ns.dict.get? x) := by
  induction cs generalizing s with
  | nil => simp [Job.applyChanges]
  | cons c cs ih =>
    obtain ⟨y, v⟩ := c
    simp only [Dict.keys, List.map_cons, List.nodup_cons] at hn
    have hv := hw (y, v) (by simp)
    have e1 : s.setvarNoSource vals y v =
        ({ s with ns := s.ns.assign y v, written := s.addWritten y, gone := s.replaced vals y v }, none) := by
      simp [VH.setvarNoSource, VH.setvar, VH.refuses, he, hv]
    simp only [Job.applyChanges, e1]
    obtain ⟨i1, i2⟩ := ih { s with ns := s.ns.assign y v, written := s.addWritten y, gone := s.replaced vals y v }
      hn.2 he (fun c hc => hw c (by simp [hc]))
    refine ⟨i1, fun x => ?_⟩
    rw [i2 x, Dict.get?_cons]
    simp only [NS.assign, Dict.get?_set]
    by_cases h : y = x
    · subst h
      have : Dict.get? cs y = none := (Dict.get?_eq_none_iff _ _).2 hn.1
      simp [this]
    · simp [h]

theorem changes_get (s : VH ν V) (x : ν) :
    s.changes.get? x = if x ∈ s.written then s.ns.dict.get? x else none := by
  simp only [VH.changes]
  induction s.written with
  | nil => rfl
  | cons y w ih =>
    rw [List.filterMap_cons]
    cases hy : s.ns.dict.get? y with
    | none =>
      simp only [Option.map_none, ih, List.mem_cons]
      by_cases h : x = y
      · subst h; simp [hy]
      · simp [h]
    | some v =>
      simp only [Option.map_some, Dict.get?_cons, ih, List.mem_cons]
      by_cases h : y = x
      · subst h; simp [hy]
      · simp [h, show ¬ x = y from fun e => h e.symm]

theorem changes_keys (s : VH ν V) : s.changes.keys.Sublist s.written := by
  simp only [VH.changes]
  induction s.written with
  | nil => exact .slnil
  | cons y w ih =>
    rw [List.filterMap_cons]
    cases s.ns.dict.get? y with
    | none => exact .cons _ ih
    | some v => exact .cons₂ _ ih

/-- `vars_written` is a set. -/
theorem exec_written_nodup (vals : Vals V) (p : VProg ν V) (s : VH ν V) (h : s.written.Nodup) :
    (p.exec vals s).1.written.Nodup := by
  induction p generalizing s with
  | skip => exact h
  | raise e => exact h
  | set y e =>
    simp only [VProg.exec, VH.setvar]; split
    · exact h
    · simp only [VH.addWritten]; split
      · exact h
      · next hc => exact List.nodup_cons.2 ⟨by simpa using hc, h⟩
  | imp y e => simp only [VProg.exec, VH.setvarImport]; split <;> exact h
  | perm y e => exact h
  | del y =>
    simp only [VProg.exec, VH.delvar]
    split
    · exact h
    · split
      · exact h
      · exact h.sublist List.filter_sublist
  | ite c p q ihp ihq => simp only [VProg.exec]; split <;> simp_all
  | seq p q ihp ihq =>
    have h1 := ihp s h
    simp only [VProg.exec]
    rcases hr : p.exec vals s with ⟨s1, _ | e⟩
    · rw [hr] at h1; exact ihq s1 h1
    · rw [hr] at h1; exact h1
  | guard p ih =>
    have h1 := ih s h
    simp only [VProg.exec]
    rcases hr : p.exec vals s with ⟨s1, _ | ⟨_ | _ | _⟩⟩ <;> (rw [hr] at h1; exact h1)
  | call bs p ih =>
    simp only [VProg.exec]
    rcases hpush : s.ns.push vals.wrappable vals.none0 (Prog.evalArgs bs s.ns.dict.get?) with ⟨n1, _ | e⟩
    · have h2 := ih { s with ns := n1 } h
      simp only
      rcases hr : p.exec vals { s with ns := n1 } with ⟨s2, e2⟩
      rw [hr] at h2
      simp only
      rcases hq : s2.ns.pop with ⟨n4, _ | e4⟩ <;> exact h2
    · exact h

/-- **C29, partial.** A foreground job runs any command in a child process; the command ends without an exception. Every
variable on which parent and child agreed when the job started, and that the command did not delete, import, use as a
parameter, or set as cd does - whether it assigned it or not - has the same value in the parent and in the child
afterwards. Missing: deletions, imports, commands that are killed, and pipelines as values (`C29_false_*`). -/
theorem C29_partial (vals : Vals V) (pk : Pickle V W) (imm0 : List ν)
    (initial config : Dict ν V) (disk parentState : Dict ν W) (parent : VH ν V) (he : parent.enforce = false)
    (p : VProg ν V) (x : ν) (hp : p.Avoids False x)
    (hagree : (Ws.restore pk parentState (openNs pk initial config disk)).dict.get? x = parent.ns.dict.get? x)
    (hx : (Job.child vals pk imm0 initial config disk parentState p).2 = none)
    (hw : ∀ c ∈ (Job.child vals pk imm0 initial config disk parentState p).1.changes, vals.wrappable c.2 = true) :
    (Job.finish vals (Job.child vals pk imm0 initial config disk parentState p) parent).1.ns.dict.get? x =
      (Job.child vals pk imm0 initial config disk parentState p).1.ns.dict.get? x := by
  have hc : (Ws.restore pk parentState (openNs pk initial config disk)).Clear x := by
    intro sc hsc
    simp only [openNs, restore_inner] at hsc
    simp at hsc
  have h := exec_tr False vals x p hp { Ws.openVH pk false imm0 initial config disk with
    ns := Ws.restore pk parentState (Ws.openNs pk initial config disk), written := [] } hc
  have hwn := exec_written_nodup vals p { Ws.openVH pk false imm0 initial config disk with
    ns := Ws.restore pk parentState (Ws.openNs pk initial config disk), written := [] } (by simp)
  change Tr False x _ (Job.child vals pk imm0 initial config disk parentState p).1 at h
  change (Job.child vals pk imm0 initial config disk parentState p).1.written.Nodup at hwn
  generalize Job.child vals pk imm0 initial config disk parentState p = r at *
  obtain ⟨c, e⟩ := r
  simp only at hx
  subst hx
  simp only [Job.finish]
  obtain ⟨-, i2⟩ := applyChanges_spec vals c.changes parent (hwn.sublist (changes_keys c)) he hw
  rw [i2 x, changes_get]
  rcases h.change with ⟨⟨a, -⟩, w⟩ | ⟨v, a, -, w⟩
  · have : x ∉ c.written := fun hm => by simpa using w.1 hm
    rw [if_neg this, a, ← hagree]; rfl
  · have : x ∈ c.written := w.resolve_right id
    rw [if_pos this, a]; rfl

/-- Nothing else happens to the parent's variables: one that the command did not write is as it was. -/
theorem C29_frame (vals : Vals V) (child : VH ν V × Option Exn) (parent : VH ν V) (he : parent.enforce = false)
    (hn : child.1.written.Nodup) (hw : ∀ c ∈ child.1.changes, vals.wrappable c.2 = true) (x : ν)
    (hx : x ∉ child.1.written) : (Job.finish vals child parent).1.ns.dict.get? x = parent.ns.dict.get? x := by
  simp only [Job.finish]
  split
  · rfl
  · rw [(applyChanges_spec vals _ parent (hn.sublist (changes_keys _)) he hw).2 x, changes_get, if_neg hx]; rfl

/-- **C29 is false for deletions**: if the command deletes a variable, the parent still has it. -/
theorem C29_false_delete (vals : Vals V) (s parent : VH ν V) (x : ν) (v : V) (hn : s.ns.dict.keys.Nodup)
    (hs : s.enforce = false) (hw : s.written = []) (hx : s.ns.dict.get? x = some v)
    (hpx : parent.ns.dict.get? x = some v) :
    let child := (VProg.del x).exec vals s
    child.2 = none ∧ child.1.ns.dict.get? x = none ∧
    (Job.finish vals child parent).1.ns.dict.get? x = some v := by
  simp only [VProg.exec, VH.delvar, VH.refuses, hs, Bool.false_and, Bool.false_eq_true, if_false, hx, Job.finish,
    VH.changes, hw, List.filter_nil, List.filterMap_nil, Job.applyChanges]
  exact ⟨trivial, by rw [Dict.get?_erase _ _ _ hn]; simp, hpx⟩

/-- **C29 is false for imports**: what the command imports does not reach the parent. -/
theorem C29_false_import (vals : Vals V) (s parent : VH ν V) (x : ν) (v : V)
    (hs : s.enforce = false) (hw : s.written = []) :
    let child := (VProg.imp x fun _ => v).exec vals s
    child.2 = none ∧ child.1.ns.dict.get? x = some v ∧ (Job.finish vals child parent).1 = parent := by
  simp [VProg.exec, VH.setvarImport, VH.refuses, hs, Job.finish, VH.changes, hw, Job.applyChanges, NS.assign,
    Dict.get?_set]

/-- **C29 is false for commands that are killed**: what they assigned before does not reach the parent. -/
theorem C29_false_killed (vals : Vals V) (s parent : VH ν V) (x : ν) (v : V) (e : Exn) (hs : s.enforce = false) :
    let child := (VProg.seq (.set x fun _ => v) (.raise e)).exec vals s
    child.1.ns.dict.get? x = some v ∧ (Job.finish vals child parent).1 = parent := by
  simp [VProg.exec, VH.setvar, VH.refuses, hs, Job.finish, NS.assign, Dict.get?_set]

/-- **C29 is false for commands that are killed in a pipeline they run**, just as for those killed themselves: the exception passes through the call. -/
theorem C29_false_killed_inside (vals : Vals V) (s parent : VH ν V) (x : ν) (v : V) (e : Exn) (hs : s.enforce = false) :
    let child := (VProg.seq (.set x fun _ => v) (.seq (.call [] (.raise e)) (.set x fun _ => vals.none0))).exec vals s
    x ∈ child.1.written ∧ child.2 = some e ∧ (Job.finish vals child parent).1 = parent := by
  simp [VProg.exec, VH.setvar, VH.refuses, hs, Job.finish, NS.assign, NS.push, NS.pushLoop, NS.pop, NS.delKeys, Prog.evalArgs, Dict.keys,
    VH.addWritten, NS.nScopes]
  split <;> simp_all

/-- **C29 is false for pipelines as values**: taking over a pipeline fails an assertion in the parent (in the thread that
listens to jobs, which ends), and the topmost scope, which is what is saved, does not have it. -/
theorem C29_false_pipeline (vals : Vals V) (s parent : VH ν V) (x : ν) (v : V) (hs : s.enforce = false)
    (hw : s.written = []) (hv : vals.wrappable v = false) (hpe : parent.enforce = false) :
    let child := (VProg.set x fun _ => v).exec vals s
    child.2 = none ∧ (Job.finish vals child parent).2 = some .crash ∧
    (Job.finish vals child parent).1.ns.top = parent.ns.top := by
  simp [VProg.exec, VH.setvar, VH.refuses, hs, hw, Job.finish, VH.changes, VH.addWritten, NS.assign, Dict.get?_set,
    Job.applyChanges, VH.setvarNoSource, hpe, hv]

/-! ### The hypotheses can be met -/

/-- Strings as values; the ones that start with "(|" are pipelines. -/
def exVals : Vals String := ⟨fun v => v.startsWith "res", fun v => !v.startsWith "(|", "None"⟩
def exPk : Pickle String String := ⟨fun v => "p" ++ v, fun w => String.ofList (w.toList.drop 1)⟩

/-- A command that assigns two variables, one of them inside a pipeline with a parameter, and one that fails. -/
def exSession : List (VProg String String) :=
  [.seq (.set "a" fun _ => "1") (.call [("p", fun _ => "2")] (.set "b" fun env => (env "p").getD "")),
   .seq (.set "c" fun _ => "3") (.raise .kill)]

example : ∀ p ∈ exSession, p.Avoids True "b" := by simp [exSession, VProg.Avoids]
example : (save exPk (runCommands exVals exSession
    (openVH exPk false immutableVars [("HOME", "/h")] [("cfg", "7")] [("old", "p0")])).ns).isSome = true := by rfl
example : ∀ p ∈ exSession, p.NoParam "HOME" := by simp [exSession, VProg.NoParam]
example : "HOME" ∈ immutableVars := by decide
example : ∀ p ∈ exSession, p.Avoids False "b" := by simp [exSession, VProg.Avoids]
example : (Job.child exVals exPk immutableVars [("HOME", "/h")] [] [] [("a", "p0")] (exSession.getD 0 .skip)).2 = none ∧
    (Job.child exVals exPk immutableVars [("HOME", "/h")] [] [] [("a", "p0")] (exSession.getD 0 .skip)).1.changes =
      [("b", "2"), ("a", "1")] := ⟨by rfl, by decide⟩
example : ∀ v, exPk.load (exPk.dump v) = v := by intro v; simp [exPk]

end Marcel
