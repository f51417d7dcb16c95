import Verif.Spec.Api
import Verif.Lemmas.Dict
import Verif.Props.C37_Args

/-! # Lemmas for C71: lists of arguments made from parameters -/

namespace Marcel.Api

open PyArg

set_option linter.unusedSectionVars false

variable {V : Type} [PyArg V]

/-- A flag as it is passed on by a function of the API. -/
inductive Slot (V : Type)
  | sw (flag : FlagDecl V) (sym : String) (b : Bool)
  | opt (flag : FlagDecl V) (sym : String) (x : Option V)

def Slot.flag : Slot V → FlagDecl V
  | .sw f _ _ => f
  | .opt f _ _ => f

def Slot.sym : Slot V → String
  | .sw _ s _ => s
  | .opt _ s _ => s

def Slot.given : Slot V → Bool
  | .sw _ _ b => b
  | .opt _ _ x => x.isSome

def Slot.render : Slot V → List V
  | .sw _ s b => switch b s
  | .opt _ s x => option x s

def Slot.field : Slot V → Str × Val V
  | .sw f _ b => (f.target, .switch b)
  | .opt f _ x => (f.target, .flagged f.convert x)

def Slot.use : Slot V → Option (Use V)
  | .sw f s b => if b then some ⟨f, ofStr s.toList, none, f.default⟩ else none
  | .opt f s (some x) => some ⟨f, ofStr s.toList, some x, (f.convert x).getD x⟩
  | .opt _ _ none => none

def Slot.arityOK : Slot V → Bool
  | .sw f _ _ => f.arity = .noValue
  | .opt f _ _ => f.arity = .oneValue

def Slot.symOK (s : Slot V) : Bool := s.flag.short = some s.sym.toList || s.flag.long = some s.sym.toList

def anonFields : List (AnonDecl V) → List V → List (Str × Val V)
  | [], _ => []
  | a :: as, x :: xs => (a.target, .conv a.convert x) :: anonFields as xs
  | a :: as, [] => a.default.toList.map (fun v => (a.target, .raw v)) ++ anonFields as []

def listFields (d : ArgsDecl V) (xs : List V) : List (Str × Val V) :=
  d.anonList.toList.map fun l => (l.target, .convs l.convert (xs.drop d.anons.length))

def genericFields (d : ArgsDecl V) (slots : List (Slot V)) (xs : List V) : List (Str × Val V) :=
  slots.map Slot.field ++ (anonFields d.anons xs ++ listFields d xs)

def convAt (d : ArgsDecl V) (i : Nat) (x : V) : Option V :=
  match d.anons[i]? with
  | some a => a.convert x
  | none =>
    match d.anonList with
    | some l => l.convert x
    | none => none

def anonVals (d : ArgsDecl V) (xs : List V) : List (AnonUse V) := xs.mapIdx fun i x => ⟨x, (convAt d i x).getD x⟩

/-- The names of the arguments given. -/
def givenOf (d : ArgsDecl V) (slots : List (Slot V)) (xs : List V) : List Str :=
  (slots.filter Slot.given).map (·.flag.name) ++ (d.anons.take xs.length).map (·.name)

def groupsOK (d : ArgsDecl V) (slots : List (Slot V)) (xs : List V) : Bool :=
  d.checkAtMostOne (givenOf d slots xs) && d.checkExactlyOne (givenOf d slots xs)

/-- What has to be known about the declarations and the way the arguments are made. -/
structure Fits (d : ArgsDecl V) (slots : List (Slot V)) (xs : List V) : Prop where
  valid : d.Valid
  mem : ∀ s ∈ slots, s.flag ∈ d.flags
  sym : slots.all Slot.symOK = true
  arity : slots.all Slot.arityOK = true
  once : (slots.map (·.flag.name)).Nodup
  targets : (slots.map (·.flag.target) ++ (d.anons.map (·.target) ++ d.anonList.toList.map (·.target))).Nodup
  fits : d.anonList.isSome ∨ xs.length ≤ d.anons.length
  required : ∀ a ∈ d.anons.drop xs.length, a.default.isSome = true

theorem isFlag_looks (d : ArgsDecl V) (hd : d.Valid) (x : V) (h : d.IsFlag x) : LooksLikeFlag x := by
  obtain ⟨f, hf, s, hs, h | h⟩ := h
  · obtain ⟨c, _, rfl⟩ := hd.shortForm f hf s h
    exact ⟨_, _, hs⟩
  · obtain ⟨c, cs, _, rfl⟩ := hd.longForm f hf s h
    exact ⟨_, _, hs⟩

theorem isFlag_flags (d : ArgsDecl V) (x : V) (h : d.IsFlag x) : d.flags ≠ [] := by
  obtain ⟨f, hf, _⟩ := h
  exact List.ne_nil_of_mem hf

/-- Flags are not taken apart. -/
theorem expand_sym (d : ArgsDecl V) (hd : d.Valid) (x : V) (h : d.IsFlag x) : d.expand x = [x] := by
  obtain ⟨f, hf, s, hs, h | h⟩ := h
  · obtain ⟨c, _, rfl⟩ := hd.shortForm f hf s h
    unfold ArgsDecl.expand
    rw [hs]
    simp
  · obtain ⟨c, cs, _, rfl⟩ := hd.longForm f hf s h
    unfold ArgsDecl.expand
    rw [hs]
    simp

/-- Nor are other arguments. -/
theorem expand_other (d : ArgsDecl V) (x : V) (h : d.flags ≠ [] → ¬ LooksLikeFlag x) : d.expand x = [x] := by
  unfold ArgsDecl.expand
  split
  · rename_i c d' cs hs
    split
    · split
      · rename_i hc hall
        exfalso
        have : (d.findFlag (ofStr ['-', c] : V)).isSome = true := by
          simp only [List.all_cons, Bool.and_eq_true] at hall
          exact hall.1
        exact h (isFlag_flags d _ ((findFlag_isSome d _).1 this)) ⟨_, _, hs⟩
      · rfl
    · rfl
  · rfl

theorem mem_anonFields (as : List (AnonDecl V)) : ∀ (xs : List V) (i : Nat) (a : AnonDecl V) (x : V), as[i]? = some a → xs[i]? = some x →
    (a.target, Val.conv a.convert x) ∈ anonFields as xs := by
  induction as with
  | nil => intro xs i a x h; simp at h
  | cons b as ih =>
    intro xs i a x ha hx
    cases xs with
    | nil => simp at hx
    | cons y ys =>
      cases i with
      | zero =>
        simp only [List.getElem?_cons_zero, Option.some.injEq] at ha hx
        subst ha; subst hx
        exact List.Mem.head _
      | succ i =>
        rw [List.getElem?_cons_succ] at ha hx
        exact List.Mem.tail _ (ih ys i a x ha hx)

/-- What is accepted can be converted; and does not look like a flag if there are any. -/
theorem accepted_arg (d : ArgsDecl V) (xs : List V) (hfit : d.anonList.isSome ∨ xs.length ≤ d.anons.length)
    (h : ∀ p ∈ anonFields d.anons xs ++ listFields d xs, p.2.Accepted (!d.flags.isEmpty)) (i : Nat) (x : V) (hx : xs[i]? = some x) :
    (d.flags ≠ [] → ¬ LooksLikeFlag x) ∧ ∃ r, convAt d i x = some r := by
  have hs : ∀ (P : Prop) (Q : Prop), ((!d.flags.isEmpty) = true → P) ∧ Q → (d.flags ≠ [] → P) ∧ Q := by
    intro P Q hpq
    refine ⟨fun hf => hpq.1 ?_, hpq.2⟩
    cases hfl : d.flags with
    | nil => exact absurd hfl hf
    | cons => rfl
  unfold convAt
  cases ha : d.anons[i]? with
  | some a =>
    have := h _ (List.mem_append_left _ (mem_anonFields d.anons xs i a x ha hx))
    obtain ⟨h1, h2⟩ := hs _ _ this
    exact ⟨h1, Option.isSome_iff_exists.1 h2⟩
  | none =>
    have hi : d.anons.length ≤ i := List.getElem?_eq_none_iff.1 ha
    have hix : i < xs.length := (List.getElem?_eq_some_iff.1 hx).1
    cases hl : d.anonList with
    | none => rw [hl] at hfit; simp at hfit; omega
    | some l =>
      have hmem : (l.target, Val.convs l.convert (xs.drop d.anons.length)) ∈ listFields d xs := by
        unfold listFields; rw [hl]; exact List.Mem.head _
      have hx' : x ∈ xs.drop d.anons.length := by
        apply List.mem_iff_getElem?.2
        refine ⟨i - d.anons.length, ?_⟩
        rw [List.getElem?_drop]
        have : d.anons.length + (i - d.anons.length) = i := by omega
        rw [this]; exact hx
      have := h _ (List.mem_append_right _ hmem) x hx'
      obtain ⟨h1, h2⟩ := hs _ _ this
      exact ⟨h1, Option.isSome_iff_exists.1 h2⟩

theorem slot_use_flag (s : Slot V) (u : Use V) (h : s.use = some u) : u.flag = s.flag ∧ u.sym = ofStr s.sym.toList ∧ s.given = true := by
  cases s with
  | sw f y b => cases b <;> simp [Slot.use] at h; subst h; exact ⟨rfl, rfl, rfl⟩
  | opt f y x => cases x <;> simp [Slot.use] at h; subst h; exact ⟨rfl, rfl, rfl⟩

theorem uses_names (slots : List (Slot V)) (g : FlagDecl V → Str) :
    ((slots.filterMap Slot.use).map fun u => g u.flag) = (slots.filter Slot.given).map fun s => g s.flag := by
  induction slots with
  | nil => rfl
  | cons s slots ih =>
    cases s with
    | sw f y b => cases b; exact ih; exact congrArg (g f :: ·) ih
    | opt f y x => cases x; exact ih; exact congrArg (g f :: ·) ih

theorem render_arranged (slots : List (Slot V)) :
    (slots.filterMap Slot.use).flatMap (fun u => u.sym :: u.value.toList) = slots.flatMap Slot.render := by
  induction slots with
  | nil => rfl
  | cons s slots ih =>
    cases s with
    | sw f y b => cases b; exact ih; exact congrArg (ofStr y.toList :: ·) ih
    | opt f y x =>
      cases x with
      | none => exact ih
      | some x => exact congrArg (fun l => ofStr y.toList :: x :: l) ih

theorem anonVals_raw (d : ArgsDecl V) (xs : List V) : (anonVals d xs).map (·.raw) = xs := by
  apply List.ext_getElem?
  intro i
  rw [anonVals, List.getElem?_map, List.getElem?_mapIdx]
  cases xs[i]? <;> rfl

theorem anonVals_length (d : ArgsDecl V) (xs : List V) : (anonVals d xs).length = xs.length := by simp [anonVals]

theorem anonVals_get (d : ArgsDecl V) (xs : List V) (i : Nat) (a : AnonUse V) (h : (anonVals d xs)[i]? = some a) :
    xs[i]? = some a.raw ∧ a.result = (convAt d i a.raw).getD a.raw := by
  rw [anonVals, List.getElem?_mapIdx] at h
  cases hx : xs[i]? with
  | none => rw [hx] at h; cases h
  | some x => rw [hx] at h; cases h; exact ⟨rfl, rfl⟩

theorem arr_of_fits (d : ArgsDecl V) (slots : List (Slot V)) (xs : List V) (hf : Fits d slots xs)
    (hacc : ∀ p ∈ genericFields d slots xs, p.2.Accepted (!d.flags.isEmpty)) : Arr d (slots.filterMap Slot.use) (anonVals d xs) := by
  have hslot : ∀ u ∈ slots.filterMap Slot.use, ∃ s ∈ slots, s.use = some u := by
    intro u hu
    obtain ⟨s, hs, h⟩ := List.mem_filterMap.1 hu
    exact ⟨s, hs, h⟩
  have hanon : ∀ p ∈ anonFields d.anons xs ++ listFields d xs, p.2.Accepted (!d.flags.isEmpty) := fun p hp => hacc p (List.mem_append_right _ hp)
  have hsacc : ∀ s ∈ slots, s.field.2.Accepted (!d.flags.isEmpty) := fun s hs => hacc _ (List.mem_append_left _ (List.mem_map_of_mem hs))
  have hx : ∀ (i : Nat) (x : V), xs[i]? = some x → (d.flags ≠ [] → ¬ LooksLikeFlag x) ∧ ∃ r, convAt d i x = some r := accepted_arg d xs hf.fits hanon
  have hdecl : ∀ u ∈ slots.filterMap Slot.use, u.flag ∈ d.flags := by
    intro u hu
    obtain ⟨s, hs, h⟩ := hslot u hu
    rw [(slot_use_flag s u h).1]
    exact hf.mem s hs
  constructor
  · exact hdecl
  · intro u hu
    obtain ⟨s, hs, h⟩ := hslot u hu
    obtain ⟨h1, h2, _⟩ := slot_use_flag s u h
    rw [h1, h2]
    refine ⟨_, str_ofStr _, ?_⟩
    have := List.all_eq_true.1 hf.sym s hs
    simpa [Slot.symOK] using this
  · intro u hu v hv
    obtain ⟨s, hs, h⟩ := hslot u hu
    have hno : ¬ LooksLikeFlag v := by
      cases s with
      | sw f y b => cases b <;> simp [Slot.use] at h; subst h; simp at hv
      | opt f y x =>
        cases x <;> simp [Slot.use] at h
        subst h
        simp only [Option.some.injEq] at hv
        subst hv
        exact (hsacc _ hs).1
    exact ⟨fun hfl => hno (isFlag_looks d hf.valid v hfl), hno⟩
  · intro u hu hn
    obtain ⟨s, hs, h⟩ := hslot u hu
    cases s with
    | sw f y b => cases b <;> simp [Slot.use] at h; subst h; rfl
    | opt f y x =>
      have := List.all_eq_true.1 hf.arity _ hs
      cases x <;> simp [Slot.use] at h
      subst h
      simp only [Slot.arityOK, decide_eq_true_eq] at this
      simp only at hn
      rw [hn] at this; cases this
  · intro u hu
    obtain ⟨s, hs, h⟩ := hslot u hu
    cases s with
    | sw f y b => cases b <;> simp [Slot.use] at h; subst h; rfl
    | opt f y x =>
      cases x <;> simp [Slot.use] at h
      subst h
      obtain ⟨_, r, hr, _⟩ := hsacc _ hs
      simp [hr]
  · rw [uses_names slots (·.name)]
    exact List.Nodup.sublist (List.Sublist.map _ List.filter_sublist) hf.once
  · intro a ha hfl
    obtain ⟨i, hi⟩ := List.mem_iff_getElem?.1 ha
    obtain ⟨h1, _⟩ := anonVals_get d xs i a hi
    exact (hx i _ h1).1 (isFlag_flags d _ hfl) (isFlag_looks d hf.valid _ hfl)
  · intro a as has hne
    obtain ⟨h1, _⟩ := anonVals_get d xs 0 a (by rw [has]; rfl)
    exact (hx 0 _ h1).1 hne
  · intro _ u hu
    obtain ⟨s, hs, h⟩ := hslot u (List.mem_of_getLast? hu)
    cases s with
    | sw f y b =>
      have := List.all_eq_true.1 hf.arity _ hs
      cases b <;> simp [Slot.use] at h; subst h
      right
      simpa [Slot.arityOK] using this
    | opt f y x => cases x <;> simp [Slot.use] at h; subst h; left; rfl
  · intro i a ha
    obtain ⟨h1, h2⟩ := anonVals_get d xs i a ha
    obtain ⟨_, r, hr⟩ := hx i _ h1
    rw [hr] at h2
    simp only [Option.getD_some] at h2
    rw [h2]
    unfold convAt at hr
    cases hda : d.anons[i]? with
    | some b => rw [hda] at hr; exact hr
    | none =>
      rw [hda] at hr
      cases hl : d.anonList with
      | none => rw [hl] at hr; cases hr
      | some l => rw [hl] at hr; exact ⟨l, rfl, hr⟩

theorem flatMap_expand (d : ArgsDecl V) (xs : List V) (h : ∀ x ∈ xs, d.expand x = [x]) : xs.flatMap d.expand = xs := by
  induction xs with
  | nil => rfl
  | cons x xs ih =>
    rw [List.flatMap_cons, h x (List.Mem.head _), ih (fun y hy => h y (List.Mem.tail _ hy))]; rfl

theorem expand_args (d : ArgsDecl V) (slots : List (Slot V)) (xs : List V) (hf : Fits d slots xs)
    (hacc : ∀ p ∈ genericFields d slots xs, p.2.Accepted (!d.flags.isEmpty)) :
    (slots.flatMap Slot.render ++ xs).flatMap d.expand = arranged (slots.filterMap Slot.use) (anonVals d xs) := by
  have harr := arr_of_fits d slots xs hf hacc
  have hanon : ∀ p ∈ anonFields d.anons xs ++ listFields d xs, p.2.Accepted (!d.flags.isEmpty) := fun p hp => hacc p (List.mem_append_right _ hp)
  rw [arranged, render_arranged, anonVals_raw]
  apply flatMap_expand
  intro x hx
  rcases List.mem_append.1 hx with hx | hx
  · rw [← render_arranged] at hx
    obtain ⟨u, hu, hxu⟩ := List.mem_flatMap.1 hx
    rcases List.mem_cons.1 hxu with rfl | hv
    · obtain ⟨s, h1, h2⟩ := harr.sym u hu
      exact expand_sym d hf.valid _ ⟨u.flag, harr.declared u hu, s, h1, h2⟩
    · have := harr.value u hu x (by cases hv' : u.value with
        | none => rw [hv'] at hv; cases hv
        | some w => rw [hv'] at hv; simp at hv; rw [hv])
      exact expand_other d x (fun _ => this.2)
  · obtain ⟨i, hi⟩ := List.mem_iff_getElem?.1 hx
    exact expand_other d x (accepted_arg d xs hf.fits hanon i x hi).1

theorem givenNames_eq (d : ArgsDecl V) (slots : List (Slot V)) (xs : List V) :
    givenNames d (slots.filterMap Slot.use) (anonVals d xs) = givenOf d slots xs := by
  rw [givenNames, givenOf, uses_names slots (·.name), anonVals_length]

theorem arrangement_iff (d : ArgsDecl V) (slots : List (Slot V)) (xs : List V) (hf : Fits d slots xs)
    (hacc : ∀ p ∈ genericFields d slots xs, p.2.Accepted (!d.flags.isEmpty)) :
    Arrangement d (slots.filterMap Slot.use) (anonVals d xs) ↔ groupsOK d slots xs = true := by
  have harr := arr_of_fits d slots xs hf hacc
  have hg : groupsOK d slots xs = true ↔
      (∀ g ∈ d.atMostOne, (g.filter (fun n => n ∈ givenOf d slots xs)).length ≤ 1) ∧
      (∀ g ∈ d.exactlyOne, (g.filter (fun n => n ∈ givenOf d slots xs)).length = 1) := by
    rw [groupsOK, Bool.and_eq_true, atMost_iff, exactly_iff]
  rw [hg]
  constructor
  · intro h
    have h1 := h.atMostOne
    have h2 := h.exactlyOne
    rw [givenNames_eq] at h1 h2
    exact ⟨h1, h2⟩
  · intro h
    refine ⟨?_, harr.once, harr.anon, harr.first, harr.greedy, harr.convert, ?_, ?_, ?_⟩
    · intro u hu
      refine ⟨harr.declared u hu, harr.sym u hu, harr.value u hu, harr.none_ u hu, ?_, harr.result u hu⟩
      intro hone
      obtain ⟨s, hs, hsu⟩ := List.mem_filterMap.1 hu
      have hsacc := hacc _ (List.mem_append_left _ (List.mem_map_of_mem hs))
      have hary := List.all_eq_true.1 hf.arity _ hs
      cases s with
      | sw f y b =>
        cases b <;> simp [Slot.use] at hsu; subst hsu
        simp only [Slot.arityOK, decide_eq_true_eq] at hary
        simp only at hone
        rw [hary] at hone; cases hone
      | opt f y x =>
        cases x <;> simp [Slot.use] at hsu; subst hsu
        obtain ⟨_, r, hr, ht⟩ := hsacc
        simp [hr, ht]
    · intro i a ha hi
      rw [anonVals_length] at hi
      apply hf.required a
      apply List.mem_iff_getElem?.2
      refine ⟨i - xs.length, ?_⟩
      rw [List.getElem?_drop]
      have : xs.length + (i - xs.length) = i := by omega
      rw [this]; exact ha
    · rw [givenNames_eq]; exact h.1
    · rw [givenNames_eq]; exact h.2

theorem parse_generic (d : ArgsDecl V) (slots : List (Slot V)) (xs : List V) (op : Dict Str (ArgValue V)) (hf : Fits d slots xs)
    (hacc : ∀ p ∈ genericFields d slots xs, p.2.Accepted (!d.flags.isEmpty)) :
    (groupsOK d slots xs = true → d.parse (slots.flatMap Slot.render ++ xs) op = some (op.update (argStores d (slots.filterMap Slot.use) (anonVals d xs)))) ∧
    (groupsOK d slots xs = false → d.parse (slots.flatMap Slot.render ++ xs) op = none) := by
  have harr := arr_of_fits d slots xs hf hacc
  have hx : d.extract { flagOk := decide (d.flags.length > 0) } (slots.flatMap Slot.render ++ xs) = some (stateOf d (slots.filterMap Slot.use) (anonVals d xs)) := by
    rw [extract_eq, expand_args d slots xs hf hacc, ← stateOf_init]
    exact harr.loop d hf.valid _ _
  obtain ⟨h1, h2⟩ := parse_of_state d hf.valid _ op _ _ harr hx
  have hiff := arrangement_iff d slots xs hf hacc
  constructor
  · intro h; exact h1 (hiff.2 h)
  · intro h
    cases hp : d.parse (slots.flatMap Slot.render ++ xs) op with
    | none => rfl
    | some o =>
      have := hiff.1 (h2 (by rw [hp]; rfl))
      rw [h] at this; cases this

theorem get?_update_not (e : List (Str × ArgValue V)) : ∀ (op : Dict Str (ArgValue V)) (t : Str), t ∉ e.map (·.1) → (op.update e).get? t = op.get? t := by
  induction e with
  | nil => intro op t _; rfl
  | cons p e ih =>
    intro op t h
    rw [List.map_cons, List.mem_cons, not_or] at h
    show ((op.set p.1 p.2).update e).get? t = _
    rw [ih _ t h.2, Dict.get?_set, if_neg (fun h' => h.1 (by first | exact h' | exact h'.symm))]

theorem get?_update_mem (e : List (Str × ArgValue V)) : ∀ (op : Dict Str (ArgValue V)) (t : Str) (v : ArgValue V), (e.map (·.1)).Nodup → (t, v) ∈ e →
    (op.update e).get? t = some v := by
  induction e with
  | nil => intro op t v _ h; cases h
  | cons p e ih =>
    intro op t v hn h
    rw [List.map_cons, List.nodup_cons] at hn
    show ((op.set p.1 p.2).update e).get? t = _
    rcases List.mem_cons.1 h with rfl | h
    · rw [get?_update_not e _ _ hn.1, Dict.get?_set]
      simp
    · exact ih _ t v hn.2 h

def posStores (anons : List (AnonDecl V)) (vals : List (AnonUse V)) : List (Str × ArgValue V) :=
  (anons.zip vals).map (fun (decl, a) => (decl.target, ArgValue.one a.result)) ++
    (anons.drop vals.length).filterMap (fun decl => decl.default.map fun v => (decl.target, ArgValue.one v))

theorem anon_keys_sublist (anons : List (AnonDecl V)) : ∀ (vals : List (AnonUse V)),
    List.Sublist ((posStores anons vals).map (fun p => p.1)) (anons.map fun a => a.target) := by
  unfold posStores
  induction anons with
  | nil => intro vals; simp
  | cons a as ih =>
    intro vals
    cases vals with
    | nil =>
      have := ih []
      simp only [List.zip_nil_right, List.map_nil, List.length_nil, List.drop_zero, List.nil_append] at this ⊢
      cases hd : a.default with
      | none => rw [List.filterMap_cons_none (by rw [hd]; rfl)]; exact List.Sublist.cons _ this
      | some v =>
        rw [List.filterMap_cons_some (b := (a.target, .one v)) (by rw [hd]; rfl)]
        exact List.Sublist.cons_cons _ this
    | cons v vals =>
      have := ih vals
      simp only [List.zip_cons_cons, List.map_cons, List.length_cons, List.drop_succ_cons, List.cons_append] at this ⊢
      exact List.Sublist.cons_cons _ this

theorem slot_eq_of_target (slots : List (Slot V)) (hn : (slots.map (·.flag.target)).Nodup) (s s' : Slot V) (hs : s ∈ slots) (hs' : s' ∈ slots)
    (h : s.flag.target = s'.flag.target) : s = s' := by
  induction slots with
  | nil => cases hs
  | cons a as ih =>
    rw [List.map_cons, List.nodup_cons] at hn
    rcases List.mem_cons.1 hs with rfl | hs1 <;> rcases List.mem_cons.1 hs' with rfl | hs1'
    · rfl
    · exact absurd (by rw [h]; exact List.mem_map_of_mem (f := fun s : Slot V => s.flag.target) hs1') hn.1
    · exact absurd (by rw [← h]; exact List.mem_map_of_mem (f := fun s : Slot V => s.flag.target) hs1) hn.1
    · exact ih hn.2 hs1 hs1'

/-- The fields of positional parameters. -/
theorem mem_anonFields_cases (as : List (AnonDecl V)) : ∀ (xs : List V) (t : Str) (v : Val V), (t, v) ∈ anonFields as xs →
    (∃ (i : Nat) (a : AnonDecl V) (x : V), as[i]? = some a ∧ xs[i]? = some x ∧ t = a.target ∧ v = .conv a.convert x) ∨
    (∃ a ∈ as.drop xs.length, ∃ w, a.default = some w ∧ t = a.target ∧ v = .raw w) := by
  induction as with
  | nil => intro xs t v h; cases h
  | cons a as ih =>
    intro xs t v h
    cases xs with
    | cons x xs =>
      rcases List.mem_cons.1 h with h | h
      · cases h; exact .inl ⟨0, a, x, rfl, rfl, rfl, rfl⟩
      · rcases ih xs t v h with ⟨i, b, y, h1, h2, h3⟩ | ⟨b, hb, h3⟩
        · exact .inl ⟨i + 1, b, y, h1, h2, h3⟩
        · exact .inr ⟨b, hb, h3⟩
    | nil =>
      rcases List.mem_append.1 h with h | h
      · cases hd : a.default with
        | none => rw [hd] at h; cases h
        | some w =>
          rw [hd] at h
          simp at h
          exact .inr ⟨a, List.Mem.head _, w, hd, h.1, h.2⟩
      · rcases ih [] t v h with ⟨i, b, y, h1, h2, h3⟩ | ⟨b, hb, h3⟩
        · simp at h2
        · exact .inr ⟨b, List.mem_cons_of_mem _ (by simpa using hb), h3⟩

/-- The fields hold what they should. -/
theorem holds_generic (d : ArgsDecl V) (slots : List (Slot V)) (xs : List V) (op : Dict Str (ArgValue V)) (hf : Fits d slots xs)
    (hacc : ∀ p ∈ genericFields d slots xs, p.2.Accepted (!d.flags.isEmpty)) :
    ∀ p ∈ genericFields d slots xs, p.2.Holds (op.get? p.1) ((op.update (argStores d (slots.filterMap Slot.use) (anonVals d xs))).get? p.1) := by
  have hanon : ∀ p ∈ anonFields d.anons xs ++ listFields d xs, p.2.Accepted (!d.flags.isEmpty) := fun p hp => hacc p (List.mem_append_right _ hp)
  have hx : ∀ (i : Nat) (x : V), xs[i]? = some x → (d.flags ≠ [] → ¬ LooksLikeFlag x) ∧ ∃ r, convAt d i x = some r := accepted_arg d xs hf.fits hanon
  have hkeys : ((argStores d (slots.filterMap Slot.use) (anonVals d xs)).map (·.1)).Sublist
      (slots.map (·.flag.target) ++ (d.anons.map (·.target) ++ d.anonList.toList.map (·.target))) := by
    rw [argStores, List.map_append]
    apply List.Sublist.append
    · rw [List.map_map]
      show (((slots.filterMap Slot.use).map fun u => u.flag.target)).Sublist _
      rw [uses_names slots (·.target)]
      exact List.Sublist.map _ List.filter_sublist
    · rw [← List.append_assoc, List.map_append]
      apply List.Sublist.append
      · exact anon_keys_sublist d.anons (anonVals d xs)
      · rw [List.map_map]; exact List.Sublist.refl _
  have hnod := List.Nodup.sublist hkeys hf.targets
  have hmem : ∀ t v, (t, v) ∈ argStores d (slots.filterMap Slot.use) (anonVals d xs) →
      (op.update (argStores d (slots.filterMap Slot.use) (anonVals d xs))).get? t = some v := fun t v h => get?_update_mem _ op t v hnod h
  have huse : ∀ s ∈ slots, ∀ u, s.use = some u →
      (op.update (argStores d (slots.filterMap Slot.use) (anonVals d xs))).get? s.flag.target = some (.one u.result) := by
    intro s hs u hu
    apply hmem
    rw [← (slot_use_flag s u hu).1]
    exact List.mem_append_left _ (List.mem_map_of_mem (f := fun u : Use V => (u.flag.target, ArgValue.one u.result)) (List.mem_filterMap.2 ⟨s, hs, hu⟩))
  have hunused : ∀ s ∈ slots, s.given = false →
      (op.update (argStores d (slots.filterMap Slot.use) (anonVals d xs))).get? s.flag.target = op.get? s.flag.target := by
    intro s hs hg
    apply get?_update_not
    intro hin
    have ht := hf.targets
    rw [List.nodup_append] at ht
    rw [argStores, List.map_append, List.mem_append] at hin
    rcases hin with hin | hin
    · rw [List.map_map] at hin
      have hin' : s.flag.target ∈ (slots.filterMap Slot.use).map fun u => u.flag.target := hin
      rw [uses_names slots (·.target)] at hin'
      obtain ⟨s', hs', heq⟩ := List.mem_map.1 hin'
      obtain ⟨h1, h2⟩ := List.mem_filter.1 hs'
      have := slot_eq_of_target slots ht.1 s s' hs h1 heq.symm
      rw [this, h2] at hg; cases hg
    · refine ht.2.2 _ (List.mem_map_of_mem (f := fun s : Slot V => s.flag.target) hs) s.flag.target ?_ rfl
      rw [← List.append_assoc, List.map_append, List.mem_append] at hin
      rcases hin with hin | hin
      · exact List.mem_append_left _ ((anon_keys_sublist d.anons (anonVals d xs)).mem hin)
      · rw [List.map_map] at hin; exact List.mem_append_right _ hin
  have hval : ∀ (i : Nat) (x r : V), xs[i]? = some x → convAt d i x = some r → (anonVals d xs)[i]? = some ⟨x, r⟩ := by
    intro i x r h1 h2
    rw [anonVals, List.getElem?_mapIdx, h1]
    simp [h2]
  intro p hp
  obtain ⟨t, v⟩ := p
  rcases List.mem_append.1 hp with hp | hp
  · obtain ⟨s, hs, heq⟩ := List.mem_map.1 hp
    have hsacc := hacc _ (List.mem_append_left _ (List.mem_map_of_mem hs))
    cases s with
    | sw f y b =>
      cases heq
      have hdef : f.default = tru := by
        have := List.all_eq_true.1 hf.arity _ hs
        simp only [Slot.arityOK, decide_eq_true_eq] at this
        exact hf.valid.default f (hf.mem _ hs) (by rw [this]; intro h; cases h)
      cases b with
      | true => have := huse _ hs _ rfl; rw [hdef] at this; exact this
      | false => exact hunused _ hs rfl
    | opt f y x =>
      cases heq
      cases x with
      | none => exact hunused _ hs rfl
      | some x =>
        obtain ⟨_, r, hr, _⟩ := hsacc
        have := huse _ hs _ rfl
        rw [hr] at this
        exact ⟨r, hr, this⟩
  · rcases List.mem_append.1 hp with hp | hp
    · rcases mem_anonFields_cases _ _ _ _ hp with ⟨i, a, x, h1, h2, rfl, rfl⟩ | ⟨a, ha, w, h1, rfl, rfl⟩
      · obtain ⟨_, r, hr⟩ := hx i x h2
        refine ⟨r, ?_, ?_⟩
        · unfold convAt at hr; rw [h1] at hr; exact hr
        · apply hmem
          apply List.mem_append_right
          apply List.mem_append_left
          have : (a, (⟨x, r⟩ : AnonUse V)) ∈ d.anons.zip (anonVals d xs) := by
            apply List.mem_iff_getElem?.2
            refine ⟨i, ?_⟩
            rw [List.getElem?_zip_eq_some]
            exact ⟨h1, hval i x r h2 hr⟩
          exact List.mem_map_of_mem (f := fun (decl, a) => ((decl.target, ArgValue.one a.result) : Str × ArgValue V)) this
      · show _ = _
        apply hmem
        apply List.mem_append_right
        apply List.mem_append_right
        apply List.mem_append_left
        apply List.mem_filterMap.2
        refine ⟨a, by rw [anonVals_length]; exact ha, by rw [h1]; rfl⟩
    · cases hl : d.anonList with
      | none => unfold listFields at hp; rw [hl] at hp; cases hp
      | some l =>
        have hpl := hp
        unfold listFields at hp
        rw [hl] at hp
        simp at hp
        obtain ⟨rfl, rfl⟩ := hp
        refine ⟨((anonVals d xs).drop d.anons.length).map (·.result), ?_, ?_⟩
        · apply List.ext_getElem?
          intro i
          rw [List.map_map, List.getElem?_map, List.getElem?_map, List.getElem?_drop, List.getElem?_drop]
          cases hxi : xs[d.anons.length + i]? with
          | none =>
            have : (anonVals d xs)[d.anons.length + i]? = none := by
              rw [List.getElem?_eq_none_iff, anonVals_length]
              exact List.getElem?_eq_none_iff.1 hxi
            rw [this]; rfl
          | some x =>
            obtain ⟨_, r, hr⟩ := hx _ x hxi
            rw [hval _ x r hxi hr]
            unfold convAt at hr
            rw [List.getElem?_eq_none (by omega), hl] at hr
            simp only at hr
            rw [Option.map_some, hr]; rfl
        · apply hmem
          apply List.mem_append_right
          apply List.mem_append_right
          apply List.mem_append_right
          rw [hl]
          exact List.Mem.head _

/-- Only these fields are stored. -/
theorem stores_fields (d : ArgsDecl V) (slots : List (Slot V)) (xs : List V) (hf : Fits d slots xs) (t : Str)
    (h : t ∈ (argStores d (slots.filterMap Slot.use) (anonVals d xs)).map (·.1)) : t ∈ (genericFields d slots xs).map (·.1) := by
  have hanon : ∀ (as : List (AnonDecl V)) (xs : List V), (∀ a ∈ as.drop xs.length, a.default.isSome = true) → (anonFields as xs).map (·.1) = as.map (·.target) := by
    intro as
    induction as with
    | nil => intro xs _; rfl
    | cons a as ih =>
      intro xs h
      cases xs with
      | cons x xs => simp only [anonFields, List.map_cons]; rw [ih xs h]
      | nil =>
        have := h a (List.Mem.head _)
        cases hd : a.default with
        | none => rw [hd] at this; cases this
        | some v =>
          simp only [anonFields, hd, Option.toList_some, List.map_cons, List.map_nil, List.cons_append, List.nil_append]
          rw [ih [] (fun b hb => h b (List.mem_cons_of_mem _ (by simpa using hb)))]
  have hfl : (slots.map Slot.field).map (·.1) = slots.map (·.flag.target) := by
    rw [List.map_map]
    apply List.map_congr_left
    intro s _
    cases s <;> rfl
  rw [genericFields, List.map_append, List.map_append, hfl, hanon d.anons xs hf.required]
  rw [argStores, List.map_append, List.mem_append] at h
  rcases h with h | h
  · rw [List.map_map] at h
    have h' : t ∈ (slots.filterMap Slot.use).map fun u => u.flag.target := h
    rw [uses_names slots (·.target)] at h'
    obtain ⟨s, hs, rfl⟩ := List.mem_map.1 h'
    exact List.mem_append_left _ (List.mem_map_of_mem (f := fun s : Slot V => s.flag.target) (List.mem_filter.1 hs).1)
  · rw [← List.append_assoc, List.map_append, List.mem_append] at h
    apply List.mem_append_right
    rcases h with h | h
    · exact List.mem_append_left _ ((anon_keys_sublist d.anons (anonVals d xs)).mem h)
    · apply List.mem_append_right
      rw [List.map_map] at h
      unfold listFields
      rw [List.map_map]
      exact h

end Marcel.Api
