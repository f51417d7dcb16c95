import Verif.Lemmas.Api

/-! # Lemmas for C71: the functions of the API one by one -/

namespace Marcel.Api

open PyArg

set_option linter.unusedSectionVars false

variable {V : Type} [PyArg V]

def shortOK : Option Str → Bool
  | none => true
  | some ['-', c] => c ≠ '-'
  | some _ => false

def longOK : Option Str → Bool
  | none => true
  | some ('-' :: '-' :: c :: _) => c ≠ '-'
  | some _ => false

def ordered : List Bool → Bool
  | [] => true
  | b :: bs => (!b || bs.all id) && ordered bs

/-- The strings in declarations and in the flags passed on. -/
structure Shape where
  flags : List (Str × Option Str × Option Str × Arity × Str)
  anons : List (Str × Bool × Str)
  list : Option (Str × Str)

def shape (d : ArgsDecl V) : Shape :=
  ⟨d.flags.map fun f => (f.name, f.short, f.long, f.arity, f.target), d.anons.map fun a => (a.name, a.default.isSome, a.target), d.anonList.map fun l => (l.name, l.target)⟩

/-- How a flag is passed on: its number in the declarations, the string, and whether it has a value. -/
abbrev Kind := Nat × String × Bool

def Slot.kind : Slot V → String × Bool
  | .sw _ s _ => (s, false)
  | .opt _ s _ => (s, true)

def kindOK (sh : Shape) (k : Kind) : Bool :=
  match sh.flags[k.1]? with
  | some (_, short, long, arity, _) =>
    (short = some k.2.1.toList || long = some k.2.1.toList) && arity = (if k.2.2 then Arity.oneValue else Arity.noValue)
  | none => false

/-- The parts of `Fits` that can be computed. -/
def fitsB (sh : Shape) (ks : List Kind) : Bool :=
  sh.flags.all (fun f => shortOK f.2.1) && (sh.flags.all (fun f => longOK f.2.2.1) && (decide (sh.flags.flatMap fun f => f.2.1.toList ++ f.2.2.1.toList).Nodup &&
  (decide (sh.flags.map (·.1) ++ (sh.anons.map (·.1) ++ (sh.list.toList.map (·.1)))).Nodup && (ordered (sh.anons.map (·.2.1)) &&
  ((sh.list.isNone || sh.anons.all (fun a => !a.2.1)) && (ks.all (kindOK sh) && (decide (ks.map (·.1)).Nodup &&
  decide (sh.flags.map (·.2.2.2.2) ++ (sh.anons.map (·.2.2) ++ sh.list.toList.map (·.2))).Nodup)))))))

theorem ordered_get (bs : List Bool) : ∀ (i j : Nat), ordered bs = true → bs[i]? = some true → i ≤ j → ∀ b, bs[j]? = some b → b = true := by
  induction bs with
  | nil => intro i j _ h; simp at h
  | cons c cs ih =>
    intro i j ho hi hij b hj
    simp only [ordered, Bool.and_eq_true, Bool.or_eq_true, Bool.not_eq_true'] at ho
    cases j with
    | zero =>
      have : i = 0 := by omega
      subst this
      rw [hi] at hj; cases hj; rfl
    | succ j =>
      rw [List.getElem?_cons_succ] at hj
      cases i with
      | zero =>
        simp only [List.getElem?_cons_zero, Option.some.injEq] at hi
        subst hi
        have := ho.1.resolve_left (by simp)
        exact List.all_eq_true.1 this b (List.mem_of_getElem? hj)
      | succ i => exact ih i j ho.2 hi (by omega) b hj

theorem symbols_of_nodup (fs : List (FlagDecl V)) : ∀ (i j : Nat) (f g : FlagDecl V), (fs.flatMap fun f => f.short.toList ++ f.long.toList).Nodup →
    fs[i]? = some f → fs[j]? = some g → ∀ s, f.symbol s = true → g.symbol s = true → i = j := by
  have hsym : ∀ (f : FlagDecl V) s, f.symbol s = true → s ∈ f.short.toList ++ f.long.toList := by
    intro f s h
    rw [FlagDecl.symbol_iff] at h
    rcases h with h | h <;> simp [h]
  induction fs with
  | nil => intro i j f g _ h; simp at h
  | cons a as ih =>
    intro i j f g hn hi hj s hf hg
    rw [List.flatMap_cons, List.nodup_append] at hn
    have hin : ∀ (k : Nat) (h : FlagDecl V), as[k]? = some h → h.symbol s = true → s ∈ as.flatMap fun f => f.short.toList ++ f.long.toList := by
      intro k h hk hh
      exact List.mem_flatMap.2 ⟨h, List.mem_of_getElem? hk, hsym h s hh⟩
    cases i with
    | zero =>
      simp only [List.getElem?_cons_zero, Option.some.injEq] at hi
      subst hi
      cases j with
      | zero => rfl
      | succ j => exact absurd rfl (hn.2.2 s (hsym _ s hf) s (hin j g hj hg))
    | succ i =>
      rw [List.getElem?_cons_succ] at hi
      cases j with
      | zero =>
        simp only [List.getElem?_cons_zero, Option.some.injEq] at hj
        subst hj
        exact absurd rfl (hn.2.2 s (hsym _ s hg) s (hin i f hi hf))
      | succ j => rw [ih i j f g hn.2.1 hi hj s hf hg]

theorem nodup_pick {α : Type} (g : FlagDecl V → α) (fs : List (FlagDecl V)) (hn : (fs.map g).Nodup) (is : List Nat) (hi : is.Nodup) :
    ((is.filterMap (fs[·]?)).map g).Nodup := by
  induction is with
  | nil => exact List.nodup_nil
  | cons i is ih =>
    rw [List.nodup_cons] at hi
    cases h : fs[i]? with
    | none => rw [List.filterMap_cons_none h]; exact ih hi.2
    | some f =>
      rw [List.filterMap_cons_some h, List.map_cons, List.nodup_cons]
      refine ⟨?_, ih hi.2⟩
      intro hin
      obtain ⟨f', hf', heq⟩ := List.mem_map.1 hin
      obtain ⟨j, hj, hfj⟩ := List.mem_filterMap.1 hf'
      have h1 : (fs.map g)[i]? = some (g f) := by rw [List.getElem?_map, h]; rfl
      have h2 : (fs.map g)[j]? = some (g f) := by rw [List.getElem?_map, hfj, ← heq]; rfl
      have hlt := (List.getElem?_eq_some_iff.1 h1).1
      have := (List.getElem?_inj hlt hn).1 (h1.trans h2.symm)
      exact hi.1 (this ▸ hj)

theorem fits_of (d : ArgsDecl V) (slots : List (Slot V)) (xs : List V) (sh : Shape) (ks : List Kind) (h : fitsB sh ks = true) (hsh : shape d = sh)
    (hks : slots.map Slot.kind = ks.map (·.2)) (hflags : slots.map (fun s => some s.flag) = ks.map (d.flags[·.1]?)) (hdef : d.flags.map (·.default) = d.flags.map fun _ => tru)
    (hfits : d.anonList.isSome ∨ xs.length ≤ d.anons.length)
    (hreq : (d.anons.drop xs.length).all (·.default.isSome) = true) : Fits d slots xs := by
  have hmem : ∀ s ∈ slots, s.flag ∈ d.flags := by
    intro s hs
    have : some s.flag ∈ ks.map (d.flags[·.1]?) := by rw [← hflags]; exact List.mem_map_of_mem (f := fun s : Slot V => some s.flag) hs
    obtain ⟨k, _, hk⟩ := List.mem_map.1 this
    exact List.mem_of_getElem? hk
  have hpick : slots.map (·.flag) = (ks.map (·.1)).filterMap (d.flags[·]?) := by
    have h1 : slots.map (·.flag) = (slots.map (fun s => some s.flag)).filterMap id := by simp [List.filterMap_map, Function.comp_def]
    rw [h1, hflags, List.filterMap_map, List.filterMap_map]; rfl
  have hslot : ∀ s ∈ slots, ∃ k ∈ ks, s.kind = k.2 ∧ d.flags[k.1]? = some s.flag := by
    intro s hs
    obtain ⟨i, hi⟩ := List.mem_iff_getElem?.1 hs
    have h1 := congrArg (·[i]?) hks
    have h2 := congrArg (·[i]?) hflags
    simp only [List.getElem?_map, hi, Option.map_some] at h1 h2
    cases hk : ks[i]? with
    | none => rw [hk] at h1; cases h1
    | some k =>
      rw [hk] at h1 h2
      simp only [Option.map_some, Option.some.injEq] at h1 h2
      exact ⟨k, List.mem_of_getElem? hk, h1, h2.symm⟩
  have hkind : ∀ s ∈ slots, s.symOK = true ∧ s.arityOK = true := by
    intro s hs
    obtain ⟨k, hk, h1, h2⟩ := hslot s hs
    have hok : kindOK sh k = true := by
      unfold fitsB at h
      simp only [Bool.and_eq_true] at h
      exact List.all_eq_true.1 h.2.2.2.2.2.2.1 k hk
    rw [← hsh] at hok
    unfold kindOK at hok
    simp only [shape, List.getElem?_map, h2, Option.map_some, Bool.and_eq_true] at hok
    obtain ⟨ho1, ho2⟩ := hok
    cases s with
    | sw f y b =>
      rw [← h1] at ho1 ho2
      simp only [Slot.kind, Slot.flag] at ho1 ho2
      refine ⟨ho1, ?_⟩
      simpa [Slot.arityOK] using ho2
    | opt f y x =>
      rw [← h1] at ho1 ho2
      simp only [Slot.kind, Slot.flag] at ho1 ho2
      refine ⟨ho1, ?_⟩
      simpa [Slot.arityOK] using ho2
  subst hsh
  unfold fitsB at h
  simp only [Bool.and_eq_true] at h
  obtain ⟨h1, h2, h3, h4, h5, h6, h7, h8, h9⟩ := h
  simp only [shape, List.map_map, List.all_map, List.flatMap_map, Function.comp_def, decide_eq_true_eq] at h1 h2 h3 h4 h5 h6 h8 h9
  have hnames : (d.flags.map (·.name) ++ (d.anons.map (·.name) ++ (d.anonList.toList.map (·.name)))).Nodup := by
    cases hl : d.anonList <;> rw [hl] at h4 <;> exact h4
  have htargets : (d.flags.map (·.target) ++ (d.anons.map (·.target) ++ (d.anonList.toList.map (·.target)))).Nodup := by
    cases hl : d.anonList <;> rw [hl] at h9 <;> exact h9
  refine ⟨⟨?_, ?_, ?_, hnames, ?_, ?_, ?_⟩, hmem, List.all_eq_true.2 fun s hs => (hkind s hs).1, List.all_eq_true.2 fun s hs => (hkind s hs).2, ?_, ?_, hfits, ?_⟩
  · intro f hf s hs
    have := List.all_eq_true.1 h1 f hf
    rw [hs] at this
    unfold shortOK at this
    split at this
    · cases ‹some s = none›
    · rename_i c heq
      cases heq
      exact ⟨c, by simpa using this, rfl⟩
    · cases this
  · intro f hf s hs
    have := List.all_eq_true.1 h2 f hf
    rw [hs] at this
    unfold longOK at this
    split at this
    · cases ‹some s = none›
    · rename_i c cs heq
      cases heq
      exact ⟨c, cs, by simpa using this, rfl⟩
    · cases this
  · intro i j f g hi hj
    exact symbols_of_nodup d.flags i j f g h3 hi hj
  · intro f hf _
    obtain ⟨i, hi⟩ := List.mem_iff_getElem?.1 hf
    have := congrArg (·[i]?) hdef
    simp only [List.getElem?_map, hi, Option.map_some, Option.some.injEq] at this
    exact this
  · intro i j a b hi hj hij ha
    apply ordered_get _ i j h5 (by rw [List.getElem?_map, hi, Option.map_some, ha]) hij
    rw [List.getElem?_map, hj, Option.map_some]
  · intro hl a ha
    rcases Bool.or_eq_true _ _ ▸ h6 with h6 | h6
    · cases hd : d.anonList with
      | none => rw [hd] at hl; cases hl
      | some l => rw [hd] at h6; cases h6
    · have := List.all_eq_true.1 h6 a ha
      cases hd : a.default with
      | none => rfl
      | some v => rw [hd] at this; cases this
  · have := nodup_pick (·.name) d.flags (List.nodup_append.1 hnames).1 _ h8
    rw [← hpick, List.map_map] at this
    exact this
  · have hn := List.nodup_append.1 htargets
    rw [List.nodup_append]
    refine ⟨?_, hn.2.1, ?_⟩
    · have := nodup_pick (·.target) d.flags hn.1 _ h8
      rw [← hpick, List.map_map] at this
      exact this
    · intro a ha b hb
      obtain ⟨s, hs, rfl⟩ := List.mem_map.1 ha
      exact hn.2.2 _ (List.mem_map_of_mem (f := fun f : FlagDecl V => f.target) (hmem s hs)) b hb
  · exact List.all_eq_true.1 hreq

instance : PyArg Str where
  str := some
  ofStr := id
  str_ofStr _ := rfl
  tru := []
  isTrue _ := true
  tru_isTrue := rfl

/-- Declarations do not depend on the values. -/
def py0 : Py Str := ⟨some, some, some, some, some, some, some, some, some, some, fun _ => true, [], [], []⟩

/-- How a call makes its arguments. -/
structure Made (py : Py V) (call : Call V) (slots : List (Slot V)) (xs : List V) : Prop where
  fits : Fits (call.decl py) slots xs
  fields : call.fields py = genericFields (call.decl py) slots xs
  arglist : call.arglist py = slots.flatMap Slot.render ++ xs
  exclusive : call.Exclusive ↔ groupsOK (call.decl py) slots xs = true
  hasFlags : call.hasFlags = !(call.decl py).flags.isEmpty

theorem truthy_eq (py : Py V) (x : Option V) (h : TrueIfGiven py x) : truthy py x = x := by
  cases x with
  | none => rfl
  | some v => simp [truthy, Option.filter, h v rfl]

macro "arg_eq" : tactic => `(tactic| simp only [Call.arglist, List.flatMap_cons, List.flatMap_nil, List.append_nil, List.nil_append, Slot.render, List.append_assoc])

macro "no_groups" : tactic => `(tactic| exact ⟨fun _ => rfl, fun _ => trivial⟩)

theorem atMostOne_iff (l : List Bool) : AtMostOne l ↔ decide ((l.filter id).length ≤ 1) = true := by
  unfold AtMostOne; simp

theorem exactlyOne_iff (l : List Bool) : ExactlyOne l ↔ decide ((l.filter id).length = 1) = true := by
  unfold ExactlyOne; simp

theorem depth_args (depth : Option Nat) (h : ∀ n, depth = some n → n ≤ 1) :
    (depthArgs depth : List V) = switch (decide (depth = some 0)) "-0" ++ switch (decide (depth = some 1)) "-1" := by
  match depth with
  | none => rfl
  | some 0 => rfl
  | some 1 => rfl
  | some (n + 2) => have := h _ rfl; omega

theorem depth_isSome (depth : Option Nat) (h : ∀ n, depth = some n → n ≤ 1) :
    (depth = none) ∨ (depth = some 0) ∨ (depth = some 1) := by
  match depth with
  | none => exact .inl rfl
  | some 0 => exact .inr (.inl rfl)
  | some 1 => exact .inr (.inr rfl)
  | some (n + 2) => have := h _ rfl; omega


-- BEGIN
set_option linter.unusedVariables false
set_option linter.unusedSimpArgs false

/-- Whether the groups are respected, by names. -/
def groupsN (am eo : List (List Str)) (given : List (Str × Bool)) (anons : List Str) : Bool :=
  am.all (fun g => inter g ((given.filter (·.2)).map (·.1) ++ anons) ≤ 1) && eo.all (fun g => inter g ((given.filter (·.2)).map (·.1) ++ anons) = 1)

theorem groupsOK_eq (d : ArgsDecl V) (slots : List (Slot V)) (xs : List V) :
    groupsOK d slots xs = groupsN d.atMostOne d.exactlyOne (slots.map fun s => (s.flag.name, s.given)) ((d.anons.take xs.length).map (·.name)) := by
  have : (slots.filter Slot.given).map (·.flag.name) = ((slots.map fun s => (s.flag.name, s.given)).filter (·.2)).map (·.1) := by
    rw [List.filter_map, List.map_map]; rfl
  rw [groupsOK, givenOf, this]; rfl

theorem read_groups : ∀ d0 d1 dr csv tsv h s p j l : Bool, ¬ (d0 = true ∧ d1 = true) →
    groupsN [names ["d0", "d1", "dr"], names ["csv", "tsv", "pickle", "json"], names ["headings", "skip_headings"]] []
      [("d0".toList, d0), ("d1".toList, d1), ("dr".toList, dr), ("csv".toList, csv), ("tsv".toList, tsv), ("headings".toList, h), ("skip_headings".toList, s), ("pickle".toList, p),
        ("json".toList, j), ("label".toList, l)] [] =
    (decide (([(d0 || d1), dr].filter id).length ≤ 1) && (decide (([csv, tsv, p, j].filter id).length ≤ 1) && decide (([h, s].filter id).length ≤ 1))) := by
  decide +kernel

theorem made_args (py : Py V) (p : V) (all : Bool) (hr : (.args p all : Call V).Regular py) : ∃ slots anons, Made py (.args p all : Call V) slots anons := by
  clear hr
  refine ⟨[.sw (flag0 "all" "-a" (some "--all")) "--all" all], [p], ?_, ?_, ?_, ?_, rfl⟩
  · (refine fits_of _ _ _ (shape (Call.decl py0 (.args [] false))) [(0, "--all", false)] (by decide +kernel) rfl rfl rfl rfl ?_ (by first | rfl | exact congrArg (List.all · _) List.drop_nil); first | exact Or.inl rfl | exact Or.inr (Nat.le_refl _) | exact Or.inr (Nat.zero_le _))
  · rfl
  · first | rfl | simp only [Call.arglist, List.flatMap_cons, List.flatMap_nil, List.append_nil, List.nil_append, Slot.render, List.append_assoc, List.cons_append]
  · exact ⟨fun _ => rfl, fun _ => trivial⟩

theorem made_assign (py : Py V) (var : V) (value : V) (hr : (.assign var value : Call V).Regular py) : ∃ slots anons, Made py (.assign var value : Call V) slots anons := by
  clear hr
  refine ⟨[], [var, value], ?_, ?_, ?_, ?_, rfl⟩
  · (refine fits_of _ _ _ (shape (Call.decl py0 (.assign [] []))) [] (by decide +kernel) rfl rfl rfl rfl ?_ (by first | rfl | exact congrArg (List.all · _) List.drop_nil); first | exact Or.inl rfl | exact Or.inr (Nat.le_refl _) | exact Or.inr (Nat.zero_le _))
  · rfl
  · first | rfl | simp only [Call.arglist, List.flatMap_cons, List.flatMap_nil, List.append_nil, List.nil_append, Slot.render, List.append_assoc, List.cons_append]
  · exact ⟨fun _ => rfl, fun _ => trivial⟩

theorem made_bash (py : Py V) (xs : List V) (i : Bool) (hr : (.bash xs i : Call V).Regular py) : ∃ slots anons, Made py (.bash xs i : Call V) slots anons := by
  clear hr
  refine ⟨[.sw (flag0 "interactive" "-i" (some "--interactive")) "--interactive" i], xs, ?_, ?_, ?_, ?_, rfl⟩
  · (refine fits_of _ _ _ (shape (Call.decl py0 (.bash [] false))) [(0, "--interactive", false)] (by decide +kernel) rfl rfl rfl rfl ?_ (by first | rfl | exact congrArg (List.all · _) List.drop_nil); first | exact Or.inl rfl | exact Or.inr (Nat.le_refl _) | exact Or.inr (Nat.zero_le _))
  · rfl
  · first | rfl | simp only [Call.arglist, List.flatMap_cons, List.flatMap_nil, List.append_nil, List.nil_append, Slot.render, List.append_assoc, List.cons_append]
  · exact ⟨fun _ => rfl, fun _ => trivial⟩

theorem made_case (py : Py V) (xs : List V) (hr : (.case xs : Call V).Regular py) : ∃ slots anons, Made py (.case xs : Call V) slots anons := by
  clear hr
  refine ⟨[], xs, ?_, ?_, ?_, ?_, rfl⟩
  · (refine fits_of _ _ _ (shape (Call.decl py0 (.case []))) [] (by decide +kernel) rfl rfl rfl rfl ?_ (by first | rfl | exact congrArg (List.all · _) List.drop_nil); first | exact Or.inl rfl | exact Or.inr (Nat.le_refl _) | exact Or.inr (Nat.zero_le _))
  · rfl
  · first | rfl | simp only [Call.arglist, List.flatMap_cons, List.flatMap_nil, List.append_nil, List.nil_append, Slot.render, List.append_assoc, List.cons_append]
  · exact ⟨fun _ => rfl, fun _ => trivial⟩

theorem made_cast (py : Py V) (xs : List V) (hr : (.cast xs : Call V).Regular py) : ∃ slots anons, Made py (.cast xs : Call V) slots anons := by
  clear hr
  refine ⟨[], xs, ?_, ?_, ?_, ?_, rfl⟩
  · (refine fits_of _ _ _ (shape (Call.decl py0 (.cast []))) [] (by decide +kernel) rfl rfl rfl rfl ?_ (by first | rfl | exact congrArg (List.all · _) List.drop_nil); first | exact Or.inl rfl | exact Or.inr (Nat.le_refl _) | exact Or.inr (Nat.zero_le _))
  · rfl
  · first | rfl | simp only [Call.arglist, List.flatMap_cons, List.flatMap_nil, List.append_nil, List.nil_append, Slot.render, List.append_assoc, List.cons_append]
  · exact ⟨fun _ => rfl, fun _ => trivial⟩

theorem made_cd (py : Py V) (d : Option V) (hr : (.cd d : Call V).Regular py) : ∃ slots anons, Made py (.cd d : Call V) slots anons := by
  clear hr
  refine ⟨[], d.toList, ?_, ?_, ?_, ?_, rfl⟩
  · cases d <;> (refine fits_of _ _ _ (shape (Call.decl py0 (.cd none))) [] (by decide +kernel) rfl rfl rfl rfl ?_ (by first | rfl | exact congrArg (List.all · _) List.drop_nil); first | exact Or.inl rfl | exact Or.inr (Nat.le_refl _) | exact Or.inr (Nat.zero_le _))
  · cases d <;> rfl
  · cases d <;> rfl
  · exact ⟨fun _ => rfl, fun _ => trivial⟩

theorem made_difference (py : Py V) (p : V) (hr : (.difference p : Call V).Regular py) : ∃ slots anons, Made py (.difference p : Call V) slots anons := by
  clear hr
  refine ⟨[], [p], ?_, ?_, ?_, ?_, rfl⟩
  · (refine fits_of _ _ _ (shape (Call.decl py0 (.difference []))) [] (by decide +kernel) rfl rfl rfl rfl ?_ (by first | rfl | exact congrArg (List.all · _) List.drop_nil); first | exact Or.inl rfl | exact Or.inr (Nat.le_refl _) | exact Or.inr (Nat.zero_le _))
  · rfl
  · first | rfl | simp only [Call.arglist, List.flatMap_cons, List.flatMap_nil, List.append_nil, List.nil_append, Slot.render, List.append_assoc, List.cons_append]
  · exact ⟨fun _ => rfl, fun _ => trivial⟩

theorem made_dirs (py : Py V) (clear : Option Bool) (hr : (.dirs clear : Call V).Regular py) : ∃ slots anons, Made py (.dirs clear : Call V) slots anons := by
  refine ⟨[.sw (flag0 "clear" "-c" (some "--clear")) "--clear" (decide (clear = some true))], [], ?_, ?_, ?_, ?_, rfl⟩
  · (refine fits_of _ _ _ (shape (Call.decl py0 (.dirs none))) [(0, "--clear", false)] (by decide +kernel) rfl rfl rfl rfl ?_ (by first | rfl | exact congrArg (List.all · _) List.drop_nil); first | exact Or.inl rfl | exact Or.inr (Nat.le_refl _) | exact Or.inr (Nat.zero_le _))
  · (match clear with | none => rfl | some true => rfl | some false => rfl)
  · cases clear with
    | none => rfl
    | some b => cases b with
      | true => rfl
      | false => exact absurd rfl hr
  · exact ⟨fun _ => rfl, fun _ => trivial⟩

theorem made_download (py : Py V) (dir : V) (cluster : V) (paths : List V) (hr : (.download dir cluster paths : Call V).Regular py) : ∃ slots anons, Made py (.download dir cluster paths : Call V) slots anons := by
  clear hr
  refine ⟨[], dir :: cluster :: paths, ?_, ?_, ?_, ?_, rfl⟩
  · (refine fits_of _ _ _ (shape (Call.decl py0 (.download [] [] []))) [] (by decide +kernel) rfl rfl rfl rfl ?_ (by first | rfl | exact congrArg (List.all · _) List.drop_nil); first | exact Or.inl rfl | exact Or.inr (Nat.le_refl _) | exact Or.inr (Nat.zero_le _))
  · rfl
  · first | rfl | simp only [Call.arglist, List.flatMap_cons, List.flatMap_nil, List.append_nil, List.nil_append, Slot.render, List.append_assoc, List.cons_append]
  · exact ⟨fun _ => rfl, fun _ => trivial⟩

theorem made_env (py : Py V) (var : Option V) (delete : Option V) (pattern : Option V) (os : Bool) (builtins : Bool) (hr : (.env var delete pattern os builtins : Call V).Regular py) : ∃ slots anons, Made py (.env var delete pattern os builtins : Call V) slots anons := by
  obtain ⟨h1, h2, h3⟩ := hr
  refine ⟨[.opt (flag1 "delete" "-d" "--delete" "delete" some) "-d" delete, .opt (flag1 "pattern" "-p" "--pattern" "pattern" some) "-p" pattern, .sw (flag0 "os" "-o" (some "--os")) "--os" os, .sw (flag0 "builtins" "-b" (some "--builtins")) "--builtins" builtins], var.toList, ?_, ?_, ?_, ?_, rfl⟩
  · cases var <;> (refine fits_of _ _ _ (shape (Call.decl py0 (.env none none none false false))) [(0, "-d", true), (1, "-p", true), (3, "--os", false), (2, "--builtins", false)] (by decide +kernel) rfl rfl rfl rfl ?_ (by first | rfl | exact congrArg (List.all · _) List.drop_nil); first | exact Or.inl rfl | exact Or.inr (Nat.le_refl _) | exact Or.inr (Nat.zero_le _))
  · cases var <;> rfl
  · simp only [Call.arglist, truthy_eq py _ h1, truthy_eq py _ h2, truthy_eq py _ h3, List.flatMap_cons, List.flatMap_nil, List.append_nil, List.nil_append, Slot.render, List.append_assoc, List.cons_append]
  · simp only [Call.Exclusive, atMostOne_iff, exactlyOne_iff, ← Bool.and_eq_true, ← Bool.eq_iff_iff]
    cases var <;> cases delete <;> cases pattern <;> cases os <;> cases builtins <;> rfl

theorem made_expand (py : Py V) (d : Option V) (hr : (.expand d : Call V).Regular py) : ∃ slots anons, Made py (.expand d : Call V) slots anons := by
  clear hr
  refine ⟨[], d.toList, ?_, ?_, ?_, ?_, rfl⟩
  · cases d <;> (refine fits_of _ _ _ (shape (Call.decl py0 (.expand none))) [] (by decide +kernel) rfl rfl rfl rfl ?_ (by first | rfl | exact congrArg (List.all · _) List.drop_nil); first | exact Or.inl rfl | exact Or.inr (Nat.le_refl _) | exact Or.inr (Nat.zero_le _))
  · cases d <;> rfl
  · cases d <;> rfl
  · exact ⟨fun _ => rfl, fun _ => trivial⟩

theorem made_filt (py : Py V) (p : V) (compare : Option V) (keep : Bool) (discard : Bool) (hr : (.filt p compare keep discard : Call V).Regular py) : ∃ slots anons, Made py (.filt p compare keep discard : Call V) slots anons := by
  refine ⟨[.sw (flag0 "keep" "-k" (some "--keep")) "--keep" keep, .sw (flag0 "discard" "-d" (some "--discard")) "--discard" discard, .opt (flag1 "compare" "-c" "--compare" "compare" some) "--compare" compare], [p], ?_, ?_, ?_, ?_, rfl⟩
  · (refine fits_of _ _ _ (shape (Call.decl py0 (.filt [] none false false))) [(0, "--keep", false), (1, "--discard", false), (2, "--compare", true)] (by decide +kernel) rfl rfl rfl rfl ?_ (by first | rfl | exact congrArg (List.all · _) List.drop_nil); first | exact Or.inl rfl | exact Or.inr (Nat.le_refl _) | exact Or.inr (Nat.zero_le _))
  · rfl
  · simp only [Call.arglist, truthy_eq py _ hr, List.flatMap_cons, List.flatMap_nil, List.append_nil, List.nil_append, Slot.render, List.append_assoc, List.cons_append]
  · simp only [Call.Exclusive, atMostOne_iff, exactlyOne_iff, ← Bool.and_eq_true, ← Bool.eq_iff_iff]
    cases compare <;> cases keep <;> cases discard <;> rfl

theorem made_fork (py : Py V) (f : V) (p : V) (hr : (.fork f p : Call V).Regular py) : ∃ slots anons, Made py (.fork f p : Call V) slots anons := by
  clear hr
  refine ⟨[], [f, p], ?_, ?_, ?_, ?_, rfl⟩
  · (refine fits_of _ _ _ (shape (Call.decl py0 (.fork [] []))) [] (by decide +kernel) rfl rfl rfl rfl ?_ (by first | rfl | exact congrArg (List.all · _) List.drop_nil); first | exact Or.inl rfl | exact Or.inr (Nat.le_refl _) | exact Or.inr (Nat.zero_le _))
  · rfl
  · first | rfl | simp only [Call.arglist, List.flatMap_cons, List.flatMap_nil, List.append_nil, List.nil_append, Slot.render, List.append_assoc, List.cons_append]
  · exact ⟨fun _ => rfl, fun _ => trivial⟩

theorem made_gen (py : Py V) (count : Option V) (start : Option V) (pad : Option V) (hr : (.gen count start pad : Call V).Regular py) : ∃ slots anons, Made py (.gen count start pad : Call V) slots anons := by
  refine ⟨[.opt (flag1 "pad" "-p" "--pad" "pad_arg" py.strToInt) "--pad" pad], [count.getD py.zero, start.getD py.zero], ?_, ?_, ?_, ?_, rfl⟩
  · (refine fits_of _ _ _ (shape (Call.decl py0 (.gen none none none))) [(0, "--pad", true)] (by decide +kernel) rfl rfl rfl rfl ?_ (by first | rfl | exact congrArg (List.all · _) List.drop_nil); first | exact Or.inl rfl | exact Or.inr (Nat.le_refl _) | exact Or.inr (Nat.zero_le _))
  · rfl
  · simp only [Call.arglist, truthy_eq py _ hr, List.flatMap_cons, List.flatMap_nil, List.append_nil, List.nil_append, Slot.render, List.append_assoc, List.cons_append]
  · exact ⟨fun _ => rfl, fun _ => trivial⟩

theorem made_head (py : Py V) (n : V) (hr : (.head n : Call V).Regular py) : ∃ slots anons, Made py (.head n : Call V) slots anons := by
  clear hr
  refine ⟨[], [n], ?_, ?_, ?_, ?_, rfl⟩
  · (refine fits_of _ _ _ (shape (Call.decl py0 (.head []))) [] (by decide +kernel) rfl rfl rfl rfl ?_ (by first | rfl | exact congrArg (List.all · _) List.drop_nil); first | exact Or.inl rfl | exact Or.inr (Nat.le_refl _) | exact Or.inr (Nat.zero_le _))
  · rfl
  · first | rfl | simp only [Call.arglist, List.flatMap_cons, List.flatMap_nil, List.append_nil, List.nil_append, Slot.render, List.append_assoc, List.cons_append]
  · exact ⟨fun _ => rfl, fun _ => trivial⟩

theorem made_intersect (py : Py V) (p : V) (hr : (.intersect p : Call V).Regular py) : ∃ slots anons, Made py (.intersect p : Call V) slots anons := by
  clear hr
  refine ⟨[], [p], ?_, ?_, ?_, ?_, rfl⟩
  · (refine fits_of _ _ _ (shape (Call.decl py0 (.intersect []))) [] (by decide +kernel) rfl rfl rfl rfl ?_ (by first | rfl | exact congrArg (List.all · _) List.drop_nil); first | exact Or.inl rfl | exact Or.inr (Nat.le_refl _) | exact Or.inr (Nat.zero_le _))
  · rfl
  · first | rfl | simp only [Call.arglist, List.flatMap_cons, List.flatMap_nil, List.append_nil, List.nil_append, Slot.render, List.append_assoc, List.cons_append]
  · exact ⟨fun _ => rfl, fun _ => trivial⟩

theorem made_join (py : Py V) (p : V) (keep : Bool) (hr : (.join p keep : Call V).Regular py) : ∃ slots anons, Made py (.join p keep : Call V) slots anons := by
  clear hr
  refine ⟨[.sw (flag0 "keep" "-k" (some "--keep")) "--keep" keep], [p], ?_, ?_, ?_, ?_, rfl⟩
  · (refine fits_of _ _ _ (shape (Call.decl py0 (.join [] false))) [(0, "--keep", false)] (by decide +kernel) rfl rfl rfl rfl ?_ (by first | rfl | exact congrArg (List.all · _) List.drop_nil); first | exact Or.inl rfl | exact Or.inr (Nat.le_refl _) | exact Or.inr (Nat.zero_le _))
  · rfl
  · first | rfl | simp only [Call.arglist, List.flatMap_cons, List.flatMap_nil, List.append_nil, List.nil_append, Slot.render, List.append_assoc, List.cons_append]
  · exact ⟨fun _ => rfl, fun _ => trivial⟩

theorem made_load (py : Py V) (t : V) (hr : (.load t : Call V).Regular py) : ∃ slots anons, Made py (.load t : Call V) slots anons := by
  clear hr
  refine ⟨[], [t], ?_, ?_, ?_, ?_, rfl⟩
  · (refine fits_of _ _ _ (shape (Call.decl py0 (.load []))) [] (by decide +kernel) rfl rfl rfl rfl ?_ (by first | rfl | exact congrArg (List.all · _) List.drop_nil); first | exact Or.inl rfl | exact Or.inr (Nat.le_refl _) | exact Or.inr (Nat.zero_le _))
  · rfl
  · first | rfl | simp only [Call.arglist, List.flatMap_cons, List.flatMap_nil, List.append_nil, List.nil_append, Slot.render, List.append_assoc, List.cons_append]
  · exact ⟨fun _ => rfl, fun _ => trivial⟩

theorem made_ls (py : Py V) (paths : List V) (depth : Option Nat) (recursive : Bool) (file : Bool) (dir : Bool) (symlink : Bool) (hr : (.ls paths depth recursive file dir symlink : Call V).Regular py) : ∃ slots anons, Made py (.ls paths depth recursive file dir symlink : Call V) slots anons := by
  refine ⟨[.sw (flag0 "d0" "-0" none) "-0" (decide (depth = some 0)), .sw (flag0 "d1" "-1" none) "-1" (decide (depth = some 1)), .sw (flag0 "dr" "-r" (some "--recursive")) "--recursive" recursive, .sw (flag0 "file" "-f" (some "--file")) "--file" file, .sw (flag0 "dir" "-d" (some "--dir")) "--dir" dir, .sw (flag0 "symlink" "-s" (some "--symlink")) "--symlink" symlink], paths, ?_, ?_, ?_, ?_, rfl⟩
  · (refine fits_of _ _ _ (shape (Call.decl py0 (.ls [] none false false false false))) [(0, "-0", false), (1, "-1", false), (2, "--recursive", false), (3, "--file", false), (4, "--dir", false), (5, "--symlink", false)] (by decide +kernel) rfl rfl rfl rfl ?_ (by first | rfl | exact congrArg (List.all · _) List.drop_nil); first | exact Or.inl rfl | exact Or.inr (Nat.le_refl _) | exact Or.inr (Nat.zero_le _))
  · rfl
  · simp only [Call.arglist, depth_args _ hr, List.flatMap_cons, List.flatMap_nil, List.append_nil, List.nil_append, Slot.render, List.append_assoc, List.cons_append]
  · simp only [Call.Exclusive, atMostOne_iff, exactlyOne_iff, ← Bool.and_eq_true, ← Bool.eq_iff_iff]
    obtain rfl | rfl | rfl := depth_isSome depth hr <;> cases paths <;> cases recursive <;> cases file <;> cases dir <;> cases symlink <;> rfl

theorem made_map (py : Py V) (f : V) (hr : (.map f : Call V).Regular py) : ∃ slots anons, Made py (.map f : Call V) slots anons := by
  clear hr
  refine ⟨[], [f], ?_, ?_, ?_, ?_, rfl⟩
  · (refine fits_of _ _ _ (shape (Call.decl py0 (.map []))) [] (by decide +kernel) rfl rfl rfl rfl ?_ (by first | rfl | exact congrArg (List.all · _) List.drop_nil); first | exact Or.inl rfl | exact Or.inr (Nat.le_refl _) | exact Or.inr (Nat.zero_le _))
  · rfl
  · first | rfl | simp only [Call.arglist, List.flatMap_cons, List.flatMap_nil, List.append_nil, List.nil_append, Slot.render, List.append_assoc, List.cons_append]
  · exact ⟨fun _ => rfl, fun _ => trivial⟩

theorem made_popd (py : Py V)  (hr : (.popd  : Call V).Regular py) : ∃ slots anons, Made py (.popd  : Call V) slots anons := by
  clear hr
  refine ⟨[], [], ?_, ?_, ?_, ?_, rfl⟩
  · (refine fits_of _ _ _ (shape (Call.decl py0 (.popd ))) [] (by decide +kernel) rfl rfl rfl rfl ?_ (by first | rfl | exact congrArg (List.all · _) List.drop_nil); first | exact Or.inl rfl | exact Or.inr (Nat.le_refl _) | exact Or.inr (Nat.zero_le _))
  · rfl
  · first | rfl | simp only [Call.arglist, List.flatMap_cons, List.flatMap_nil, List.append_nil, List.nil_append, Slot.render, List.append_assoc, List.cons_append]
  · exact ⟨fun _ => rfl, fun _ => trivial⟩

theorem made_pushd (py : Py V) (d : Option V) (hr : (.pushd d : Call V).Regular py) : ∃ slots anons, Made py (.pushd d : Call V) slots anons := by
  clear hr
  refine ⟨[], d.toList, ?_, ?_, ?_, ?_, rfl⟩
  · cases d <;> (refine fits_of _ _ _ (shape (Call.decl py0 (.pushd none))) [] (by decide +kernel) rfl rfl rfl rfl ?_ (by first | rfl | exact congrArg (List.all · _) List.drop_nil); first | exact Or.inl rfl | exact Or.inr (Nat.le_refl _) | exact Or.inr (Nat.zero_le _))
  · cases d <;> rfl
  · cases d <;> rfl
  · exact ⟨fun _ => rfl, fun _ => trivial⟩

theorem made_pwd (py : Py V)  (hr : (.pwd  : Call V).Regular py) : ∃ slots anons, Made py (.pwd  : Call V) slots anons := by
  clear hr
  refine ⟨[], [], ?_, ?_, ?_, ?_, rfl⟩
  · (refine fits_of _ _ _ (shape (Call.decl py0 (.pwd ))) [] (by decide +kernel) rfl rfl rfl rfl ?_ (by first | rfl | exact congrArg (List.all · _) List.drop_nil); first | exact Or.inl rfl | exact Or.inr (Nat.le_refl _) | exact Or.inr (Nat.zero_le _))
  · rfl
  · first | rfl | simp only [Call.arglist, List.flatMap_cons, List.flatMap_nil, List.append_nil, List.nil_append, Slot.render, List.append_assoc, List.cons_append]
  · exact ⟨fun _ => rfl, fun _ => trivial⟩

theorem made_read (py : Py V) (filenames : List V) (depth : Option Nat) (recursive : Bool) (csv : Bool) (tsv : Bool) (headings : Bool) (skipHeadings : Bool) (pickle : Bool) (json : Bool) (label : Bool) (hr : (.read filenames depth recursive csv tsv headings skipHeadings pickle json label : Call V).Regular py) : ∃ slots anons, Made py (.read filenames depth recursive csv tsv headings skipHeadings pickle json label : Call V) slots anons := by
  refine ⟨[.sw (flag0 "d0" "-0" none) "-0" (decide (depth = some 0)), .sw (flag0 "d1" "-1" none) "-1" (decide (depth = some 1)), .sw (flag0 "dr" "-r" (some "--recursive")) "--recursive" recursive, .sw (flag0 "csv" "-c" (some "--csv")) "--csv" csv, .sw (flag0 "tsv" "-t" (some "--tsv")) "--tsv" tsv, .sw (flag0 "headings" "-h" (some "--headings")) "--headings" headings, .sw (flag0 "skip_headings" "-s" (some "--skip-headings")) "--skip-headings" skipHeadings, .sw (flag0 "pickle" "-p" (some "--pickle")) "--pickle" pickle, .sw (flag0 "json" "-j" (some "--json")) "--json" json, .sw (flag0 "label" "-l" (some "--label")) "--label" label], filenames, ?_, ?_, ?_, ?_, rfl⟩
  · (refine fits_of _ _ _ (shape (Call.decl py0 (.read [] none false false false false false false false false))) [(0, "-0", false), (1, "-1", false), (2, "--recursive", false), (3, "--csv", false), (4, "--tsv", false), (5, "--headings", false), (6, "--skip-headings", false), (7, "--pickle", false), (8, "--json", false), (9, "--label", false)] (by decide +kernel) rfl rfl rfl rfl ?_ (by first | rfl | exact congrArg (List.all · _) List.drop_nil); first | exact Or.inl rfl | exact Or.inr (Nat.le_refl _) | exact Or.inr (Nat.zero_le _))
  · rfl
  · simp only [Call.arglist, depth_args _ hr, List.flatMap_cons, List.flatMap_nil, List.append_nil, List.nil_append, Slot.render, List.append_assoc, List.cons_append]
  · simp only [Call.Exclusive, atMostOne_iff, exactlyOne_iff]
    rw [groupsOK_eq]
    have h := read_groups (decide (depth = some 0)) (decide (depth = some 1)) recursive csv tsv headings skipHeadings pickle json label
    have hd : depth.isSome = (decide (depth = some 0) || decide (depth = some 1)) := by obtain rfl | rfl | rfl := depth_isSome depth hr <;> rfl
    have ht : (List.take filenames.length ([] : List (AnonDecl V))).map (·.name) = [] := by rw [List.take_nil]; rfl
    have hn : ¬ (decide (depth = some 0) = true ∧ decide (depth = some 1) = true) := by obtain rfl | rfl | rfl := depth_isSome depth hr <;> decide
    rw [hd]
    show _ ↔ groupsN _ _ _ ((List.take filenames.length ([] : List (AnonDecl V))).map (·.name)) = true
    rw [ht]
    show _ ↔ groupsN [names ["d0", "d1", "dr"], names ["csv", "tsv", "pickle", "json"], names ["headings", "skip_headings"]] [] [("d0".toList, decide (depth = some 0)), ("d1".toList, decide (depth = some 1)), ("dr".toList, recursive), ("csv".toList, csv), ("tsv".toList, tsv), ("headings".toList, headings), ("skip_headings".toList, skipHeadings), ("pickle".toList, pickle), ("json".toList, json), ("label".toList, label)] [] = true
    rw [h hn, Bool.and_eq_true, Bool.and_eq_true]

theorem made_red (py : Py V) (fs : List (Option V)) (incremental : Bool) (hr : (.red fs incremental : Call V).Regular py) : ∃ slots anons, Made py (.red fs incremental : Call V) slots anons := by
  clear hr
  refine ⟨[.sw (flag0 "incremental" "-i" (some "--incremental")) "--incremental" incremental], fs.map (·.getD py.rGroup), ?_, ?_, ?_, ?_, rfl⟩
  · (refine fits_of _ _ _ (shape (Call.decl py0 (.red [] false))) [(0, "--incremental", false)] (by decide +kernel) rfl rfl rfl rfl ?_ (by first | rfl | exact congrArg (List.all · _) List.drop_nil); first | exact Or.inl rfl | exact Or.inr (Nat.le_refl _) | exact Or.inr (Nat.zero_le _))
  · rfl
  · first | rfl | simp only [Call.arglist, List.flatMap_cons, List.flatMap_nil, List.append_nil, List.nil_append, Slot.render, List.append_assoc, List.cons_append]
  · exact ⟨fun _ => rfl, fun _ => trivial⟩

theorem made_remote (py : Py V) (c : V) (p : V) (hr : (.remote c p : Call V).Regular py) : ∃ slots anons, Made py (.remote c p : Call V) slots anons := by
  clear hr
  refine ⟨[], [c, p], ?_, ?_, ?_, ?_, rfl⟩
  · (refine fits_of _ _ _ (shape (Call.decl py0 (.remote [] []))) [] (by decide +kernel) rfl rfl rfl rfl ?_ (by first | rfl | exact congrArg (List.all · _) List.drop_nil); first | exact Or.inl rfl | exact Or.inr (Nat.le_refl _) | exact Or.inr (Nat.zero_le _))
  · rfl
  · first | rfl | simp only [Call.arglist, List.flatMap_cons, List.flatMap_nil, List.append_nil, List.nil_append, Slot.render, List.append_assoc, List.cons_append]
  · exact ⟨fun _ => rfl, fun _ => trivial⟩

theorem made_reverse (py : Py V)  (hr : (.reverse  : Call V).Regular py) : ∃ slots anons, Made py (.reverse  : Call V) slots anons := by
  clear hr
  refine ⟨[], [], ?_, ?_, ?_, ?_, rfl⟩
  · (refine fits_of _ _ _ (shape (Call.decl py0 (.reverse ))) [] (by decide +kernel) rfl rfl rfl rfl ?_ (by first | rfl | exact congrArg (List.all · _) List.drop_nil); first | exact Or.inl rfl | exact Or.inr (Nat.le_refl _) | exact Or.inr (Nat.zero_le _))
  · rfl
  · first | rfl | simp only [Call.arglist, List.flatMap_cons, List.flatMap_nil, List.append_nil, List.nil_append, Slot.render, List.append_assoc, List.cons_append]
  · exact ⟨fun _ => rfl, fun _ => trivial⟩

theorem made_select (py : Py V) (f : V) (hr : (.select f : Call V).Regular py) : ∃ slots anons, Made py (.select f : Call V) slots anons := by
  clear hr
  refine ⟨[], [f], ?_, ?_, ?_, ?_, rfl⟩
  · (refine fits_of _ _ _ (shape (Call.decl py0 (.select []))) [] (by decide +kernel) rfl rfl rfl rfl ?_ (by first | rfl | exact congrArg (List.all · _) List.drop_nil); first | exact Or.inl rfl | exact Or.inr (Nat.le_refl _) | exact Or.inr (Nat.zero_le _))
  · rfl
  · first | rfl | simp only [Call.arglist, List.flatMap_cons, List.flatMap_nil, List.append_nil, List.nil_append, Slot.render, List.append_assoc, List.cons_append]
  · exact ⟨fun _ => rfl, fun _ => trivial⟩

theorem made_sort (py : Py V) (d : Option V) (hr : (.sort d : Call V).Regular py) : ∃ slots anons, Made py (.sort d : Call V) slots anons := by
  clear hr
  refine ⟨[], d.toList, ?_, ?_, ?_, ?_, rfl⟩
  · cases d <;> (refine fits_of _ _ _ (shape (Call.decl py0 (.sort none))) [] (by decide +kernel) rfl rfl rfl rfl ?_ (by first | rfl | exact congrArg (List.all · _) List.drop_nil); first | exact Or.inl rfl | exact Or.inr (Nat.le_refl _) | exact Or.inr (Nat.zero_le _))
  · cases d <;> rfl
  · cases d <;> rfl
  · exact ⟨fun _ => rfl, fun _ => trivial⟩

theorem made_sql (py : Py V) (statement : V) (xs : List V) (db : Option V) (autocommit : Bool) (updateCounts : Bool) (commit : Option V) (hr : (.sql statement xs db autocommit updateCounts commit : Call V).Regular py) : ∃ slots anons, Made py (.sql statement xs db autocommit updateCounts commit : Call V) slots anons := by
  refine ⟨[.opt (flag1 "db" "-d" "--db" "dbvar" some) "--db" db, .sw (flag0 "autocommit" "-a" (some "--autocommit")) "--autocommit" autocommit, .sw (flag0 "update_counts" "-u" (some "--update-counts")) "--update-counts" updateCounts, .opt (flag1 "commit" "-c" "--commit" "commit" py.strToInt) "--commit" commit], statement :: xs, ?_, ?_, ?_, ?_, rfl⟩
  · (refine fits_of _ _ _ (shape (Call.decl py0 (.sql [] [] none false false none))) [(0, "--db", true), (1, "--autocommit", false), (2, "--update-counts", false), (3, "--commit", true)] (by decide +kernel) rfl rfl rfl rfl ?_ (by first | rfl | exact congrArg (List.all · _) List.drop_nil); first | exact Or.inl rfl | exact Or.inr (Nat.le_refl _) | exact Or.inr (Nat.zero_le _))
  · rfl
  · simp only [Call.arglist, truthy_eq py _ hr, List.flatMap_cons, List.flatMap_nil, List.append_nil, List.nil_append, Slot.render, List.append_assoc, List.cons_append]
  · simp only [Call.Exclusive, atMostOne_iff, exactlyOne_iff, ← Bool.and_eq_true, ← Bool.eq_iff_iff]
    cases xs <;> cases db <;> cases autocommit <;> cases updateCounts <;> cases commit <;> rfl

theorem made_squish (py : Py V) (d : Option V) (hr : (.squish d : Call V).Regular py) : ∃ slots anons, Made py (.squish d : Call V) slots anons := by
  clear hr
  refine ⟨[], d.toList, ?_, ?_, ?_, ?_, rfl⟩
  · cases d <;> (refine fits_of _ _ _ (shape (Call.decl py0 (.squish none))) [] (by decide +kernel) rfl rfl rfl rfl ?_ (by first | rfl | exact congrArg (List.all · _) List.drop_nil); first | exact Or.inl rfl | exact Or.inr (Nat.le_refl _) | exact Or.inr (Nat.zero_le _))
  · cases d <;> rfl
  · cases d <;> rfl
  · exact ⟨fun _ => rfl, fun _ => trivial⟩

theorem made_store (py : Py V) (var : V) (append : Bool) (hr : (.store var append : Call V).Regular py) : ∃ slots anons, Made py (.store var append : Call V) slots anons := by
  clear hr
  refine ⟨[.sw (flag0 "append" "-a" (some "--append")) "--append" append], [var], ?_, ?_, ?_, ?_, rfl⟩
  · (refine fits_of _ _ _ (shape (Call.decl py0 (.store [] false))) [(0, "--append", false)] (by decide +kernel) rfl rfl rfl rfl ?_ (by first | rfl | exact congrArg (List.all · _) List.drop_nil); first | exact Or.inl rfl | exact Or.inr (Nat.le_refl _) | exact Or.inr (Nat.zero_le _))
  · rfl
  · first | rfl | simp only [Call.arglist, List.flatMap_cons, List.flatMap_nil, List.append_nil, List.nil_append, Slot.render, List.append_assoc, List.cons_append]
  · exact ⟨fun _ => rfl, fun _ => trivial⟩

theorem made_sudo (py : Py V) (p : V) (xs : List V) (hr : (.sudo p xs : Call V).Regular py) : ∃ slots anons, Made py (.sudo p xs : Call V) slots anons := by
  clear hr
  refine ⟨[], xs ++ [p], ?_, ?_, ?_, ?_, rfl⟩
  · (refine fits_of _ _ _ (shape (Call.decl py0 (.sudo [] []))) [] (by decide +kernel) rfl rfl rfl rfl ?_ (by first | rfl | exact congrArg (List.all · _) List.drop_nil); first | exact Or.inl rfl | exact Or.inr (Nat.le_refl _) | exact Or.inr (Nat.zero_le _))
  · rfl
  · first | rfl | simp only [Call.arglist, List.flatMap_cons, List.flatMap_nil, List.append_nil, List.nil_append, Slot.render, List.append_assoc, List.cons_append]
  · exact ⟨fun _ => rfl, fun _ => trivial⟩

theorem made_tail (py : Py V) (n : V) (hr : (.tail n : Call V).Regular py) : ∃ slots anons, Made py (.tail n : Call V) slots anons := by
  clear hr
  refine ⟨[], [n], ?_, ?_, ?_, ?_, rfl⟩
  · (refine fits_of _ _ _ (shape (Call.decl py0 (.tail []))) [] (by decide +kernel) rfl rfl rfl rfl ?_ (by first | rfl | exact congrArg (List.all · _) List.drop_nil); first | exact Or.inl rfl | exact Or.inr (Nat.le_refl _) | exact Or.inr (Nat.zero_le _))
  · rfl
  · first | rfl | simp only [Call.arglist, List.flatMap_cons, List.flatMap_nil, List.append_nil, List.nil_append, Slot.render, List.append_assoc, List.cons_append]
  · exact ⟨fun _ => rfl, fun _ => trivial⟩

theorem made_timer (py : Py V) (n : V) (hr : (.timer n : Call V).Regular py) : ∃ slots anons, Made py (.timer n : Call V) slots anons := by
  clear hr
  refine ⟨[], [n], ?_, ?_, ?_, ?_, rfl⟩
  · (refine fits_of _ _ _ (shape (Call.decl py0 (.timer []))) [] (by decide +kernel) rfl rfl rfl rfl ?_ (by first | rfl | exact congrArg (List.all · _) List.drop_nil); first | exact Or.inl rfl | exact Or.inr (Nat.le_refl _) | exact Or.inr (Nat.zero_le _))
  · rfl
  · first | rfl | simp only [Call.arglist, List.flatMap_cons, List.flatMap_nil, List.append_nil, List.nil_append, Slot.render, List.append_assoc, List.cons_append]
  · exact ⟨fun _ => rfl, fun _ => trivial⟩

theorem made_trace (py : Py V) (off : Bool) (on : Bool) (file : Option V) (hr : (.trace off on file : Call V).Regular py) : ∃ slots anons, Made py (.trace off on file : Call V) slots anons := by
  refine ⟨[.sw (flag0 "off" "-0" (some "--off")) "--off" off, .sw (flag0 "on" "-1" (some "--on")) "--on" on, .opt (flag1 "file" "-f" "--file" "filename" some) "--file" file], [], ?_, ?_, ?_, ?_, rfl⟩
  · (refine fits_of _ _ _ (shape (Call.decl py0 (.trace false false none))) [(0, "--off", false), (1, "--on", false), (2, "--file", true)] (by decide +kernel) rfl rfl rfl rfl ?_ (by first | rfl | exact congrArg (List.all · _) List.drop_nil); first | exact Or.inl rfl | exact Or.inr (Nat.le_refl _) | exact Or.inr (Nat.zero_le _))
  · rfl
  · simp only [Call.arglist, truthy_eq py _ hr, List.flatMap_cons, List.flatMap_nil, List.append_nil, List.nil_append, Slot.render, List.append_assoc, List.cons_append]
  · simp only [Call.Exclusive, atMostOne_iff, exactlyOne_iff, ← Bool.and_eq_true, ← Bool.eq_iff_iff]
    cases off <;> cases on <;> cases file <;> rfl

theorem made_union (py : Py V) (xs : List V) (hr : (.union xs : Call V).Regular py) : ∃ slots anons, Made py (.union xs : Call V) slots anons := by
  clear hr
  refine ⟨[], xs, ?_, ?_, ?_, ?_, rfl⟩
  · (refine fits_of _ _ _ (shape (Call.decl py0 (.union []))) [] (by decide +kernel) rfl rfl rfl rfl ?_ (by first | rfl | exact congrArg (List.all · _) List.drop_nil); first | exact Or.inl rfl | exact Or.inr (Nat.le_refl _) | exact Or.inr (Nat.zero_le _))
  · rfl
  · first | rfl | simp only [Call.arglist, List.flatMap_cons, List.flatMap_nil, List.append_nil, List.nil_append, Slot.render, List.append_assoc, List.cons_append]
  · exact ⟨fun _ => rfl, fun _ => trivial⟩

theorem made_unique (py : Py V) (consecutive : Bool) (hr : (.unique consecutive : Call V).Regular py) : ∃ slots anons, Made py (.unique consecutive : Call V) slots anons := by
  clear hr
  refine ⟨[.sw (flag0 "consecutive" "-c" (some "--consecutive")) "--consecutive" consecutive], [], ?_, ?_, ?_, ?_, rfl⟩
  · (refine fits_of _ _ _ (shape (Call.decl py0 (.unique false))) [(0, "--consecutive", false)] (by decide +kernel) rfl rfl rfl rfl ?_ (by first | rfl | exact congrArg (List.all · _) List.drop_nil); first | exact Or.inl rfl | exact Or.inr (Nat.le_refl _) | exact Or.inr (Nat.zero_le _))
  · rfl
  · first | rfl | simp only [Call.arglist, List.flatMap_cons, List.flatMap_nil, List.append_nil, List.nil_append, Slot.render, List.append_assoc, List.cons_append]
  · exact ⟨fun _ => rfl, fun _ => trivial⟩

theorem made_upload (py : Py V) (c : V) (d : V) (paths : List V) (hr : (.upload c d paths : Call V).Regular py) : ∃ slots anons, Made py (.upload c d paths : Call V) slots anons := by
  clear hr
  refine ⟨[], c :: d :: paths, ?_, ?_, ?_, ?_, rfl⟩
  · (refine fits_of _ _ _ (shape (Call.decl py0 (.upload [] [] []))) [] (by decide +kernel) rfl rfl rfl rfl ?_ (by first | rfl | exact congrArg (List.all · _) List.drop_nil); first | exact Or.inl rfl | exact Or.inr (Nat.le_refl _) | exact Or.inr (Nat.zero_le _))
  · rfl
  · first | rfl | simp only [Call.arglist, List.flatMap_cons, List.flatMap_nil, List.append_nil, List.nil_append, Slot.render, List.append_assoc, List.cons_append]
  · exact ⟨fun _ => rfl, fun _ => trivial⟩

theorem made_version (py : Py V)  (hr : (.version  : Call V).Regular py) : ∃ slots anons, Made py (.version  : Call V) slots anons := by
  clear hr
  refine ⟨[], [], ?_, ?_, ?_, ?_, rfl⟩
  · (refine fits_of _ _ _ (shape (Call.decl py0 (.version ))) [] (by decide +kernel) rfl rfl rfl rfl ?_ (by first | rfl | exact congrArg (List.all · _) List.drop_nil); first | exact Or.inl rfl | exact Or.inr (Nat.le_refl _) | exact Or.inr (Nat.zero_le _))
  · rfl
  · first | rfl | simp only [Call.arglist, List.flatMap_cons, List.flatMap_nil, List.append_nil, List.nil_append, Slot.render, List.append_assoc, List.cons_append]
  · exact ⟨fun _ => rfl, fun _ => trivial⟩

theorem made_window (py : Py V) (predicate : Option V) (overlap : Option V) (disjoint : Option V) (hr : (.window predicate overlap disjoint : Call V).Regular py) : ∃ slots anons, Made py (.window predicate overlap disjoint : Call V) slots anons := by
  refine ⟨[.opt (flag1 "overlap" "-o" "--overlap" "overlap_arg" py.strToInt) "--overlap" overlap, .opt (flag1 "disjoint" "-d" "--disjoint" "disjoint_arg" py.strToInt) "--disjoint" disjoint], predicate.toList, ?_, ?_, ?_, ?_, rfl⟩
  · cases predicate <;> (refine fits_of _ _ _ (shape (Call.decl py0 (.window none none none))) [(0, "--overlap", true), (1, "--disjoint", true)] (by decide +kernel) rfl rfl rfl rfl ?_ (by first | rfl | exact congrArg (List.all · _) List.drop_nil); first | exact Or.inl rfl | exact Or.inr (Nat.le_refl _) | exact Or.inr (Nat.zero_le _))
  · cases predicate <;> rfl
  · simp only [Call.arglist, truthy_eq py _ hr, List.flatMap_cons, List.flatMap_nil, List.append_nil, List.nil_append, Slot.render, List.append_assoc, List.cons_append]
  · simp only [Call.Exclusive, atMostOne_iff, exactlyOne_iff, ← Bool.and_eq_true, ← Bool.eq_iff_iff]
    cases predicate <;> cases overlap <;> cases disjoint <;> rfl

theorem made_write (py : Py V) (filename : Option V) (csv : Bool) (tsv : Bool) (pickle : Bool) (format : Option V) (append : Bool) (hr : (.write filename csv tsv pickle format append : Call V).Regular py) : ∃ slots anons, Made py (.write filename csv tsv pickle format append : Call V) slots anons := by
  obtain ⟨h1, h2⟩ := hr
  refine ⟨[.sw (flag0 "csv" "-c" (some "--csv")) "--csv" csv, .sw (flag0 "tsv" "-t" (some "--tsv")) "--tsv" tsv, .sw (flag0 "pickle" "-p" (some "--pickle")) "--pickle" pickle, .opt (flag1 "format" "-f" "--format" "format" some) "--format" format, .sw (flag0 "append" "-a" (some "--append")) "--append" append], filename.toList, ?_, ?_, ?_, ?_, rfl⟩
  · cases filename <;> (refine fits_of _ _ _ (shape (Call.decl py0 (.write none false false false none false))) [(0, "--csv", false), (1, "--tsv", false), (2, "--pickle", false), (3, "--format", true), (4, "--append", false)] (by decide +kernel) rfl rfl rfl rfl ?_ (by first | rfl | exact congrArg (List.all · _) List.drop_nil); first | exact Or.inl rfl | exact Or.inr (Nat.le_refl _) | exact Or.inr (Nat.zero_le _))
  · cases filename <;> rfl
  · simp only [Call.arglist, truthy_eq py _ h1, truthy_eq py _ h2, List.flatMap_cons, List.flatMap_nil, List.append_nil, List.nil_append, Slot.render, List.append_assoc, List.cons_append]
  · simp only [Call.Exclusive, atMostOne_iff, exactlyOne_iff, ← Bool.and_eq_true, ← Bool.eq_iff_iff]
    cases filename <;> cases csv <;> cases tsv <;> cases pickle <;> cases format <;> cases append <;> rfl

theorem made (py : Py V) (call : Call V) (hr : call.Regular py) : ∃ slots anons, Made py call slots anons := by
  cases call with
  | args p all => exact made_args py p all hr
  | assign var value => exact made_assign py var value hr
  | bash xs i => exact made_bash py xs i hr
  | case xs => exact made_case py xs hr
  | cast xs => exact made_cast py xs hr
  | cd d => exact made_cd py d hr
  | difference p => exact made_difference py p hr
  | dirs clear => exact made_dirs py clear hr
  | download dir cluster paths => exact made_download py dir cluster paths hr
  | env var delete pattern os builtins => exact made_env py var delete pattern os builtins hr
  | expand d => exact made_expand py d hr
  | filt p compare keep discard => exact made_filt py p compare keep discard hr
  | fork f p => exact made_fork py f p hr
  | gen count start pad => exact made_gen py count start pad hr
  | head n => exact made_head py n hr
  | intersect p => exact made_intersect py p hr
  | join p keep => exact made_join py p keep hr
  | load t => exact made_load py t hr
  | ls paths depth recursive file dir symlink => exact made_ls py paths depth recursive file dir symlink hr
  | map f => exact made_map py f hr
  | popd => exact made_popd py hr
  | pushd d => exact made_pushd py d hr
  | pwd => exact made_pwd py hr
  | read filenames depth recursive csv tsv headings skipHeadings pickle json label => exact made_read py filenames depth recursive csv tsv headings skipHeadings pickle json label hr
  | red fs incremental => exact made_red py fs incremental hr
  | remote c p => exact made_remote py c p hr
  | reverse => exact made_reverse py hr
  | select f => exact made_select py f hr
  | sort d => exact made_sort py d hr
  | sql statement xs db autocommit updateCounts commit => exact made_sql py statement xs db autocommit updateCounts commit hr
  | squish d => exact made_squish py d hr
  | store var append => exact made_store py var append hr
  | sudo p xs => exact made_sudo py p xs hr
  | tail n => exact made_tail py n hr
  | timer n => exact made_timer py n hr
  | trace off on file => exact made_trace py off on file hr
  | union xs => exact made_union py xs hr
  | unique consecutive => exact made_unique py consecutive hr
  | upload c d paths => exact made_upload py c d paths hr
  | version => exact made_version py hr
  | window predicate overlap disjoint => exact made_window py predicate overlap disjoint hr
  | write filename csv tsv pickle format append => exact made_write py filename csv tsv pickle format append hr

end Marcel.Api
