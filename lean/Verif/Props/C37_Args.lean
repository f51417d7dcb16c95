import Verif.Spec.ArgSpec
import Verif.Lemmas.Dict

/-! # C37, C38: operator arguments -/

namespace Marcel
open PyArg
variable {V : Type} [PyArg V]

/-! ## Basic facts -/

theorem FlagDecl.symbol_iff (f : FlagDecl V) (s : Str) : f.symbol s = true ↔ f.short = some s ∨ f.long = some s := by
  simp [FlagDecl.symbol]

theorem findFlag_isSome (d : ArgsDecl V) (x : V) : (d.findFlag x).isSome = true ↔ d.IsFlag x := by
  unfold ArgsDecl.findFlag ArgsDecl.IsFlag
  cases h : str x with
  | none => simp
  | some s =>
    simp only [List.find?_isSome]
    constructor
    · rintro ⟨f, hf, hs⟩
      exact ⟨f, hf, s, rfl, (f.symbol_iff s).mp hs⟩
    · rintro ⟨f, hf, s', e, hs⟩
      cases e
      exact ⟨f, hf, (f.symbol_iff s).mpr hs⟩

theorem findFlag_none (d : ArgsDecl V) (x : V) (h : ¬ d.IsFlag x) : d.findFlag x = none := by
  cases hf : d.findFlag x with
  | none => rfl
  | some f => exact absurd ((findFlag_isSome d x).mp (by rw [hf]; rfl)) h

theorem findFlag_some (d : ArgsDecl V) (x : V) (f : FlagDecl V) (h : d.findFlag x = some f) :
    f ∈ d.flags ∧ ∃ s, str x = some s ∧ (f.short = some s ∨ f.long = some s) := by
  unfold ArgsDecl.findFlag at h
  cases hs : str x with
  | none => rw [hs] at h; cases h
  | some s =>
    rw [hs] at h
    simp only at h
    have hsym : f.symbol s = true := by simpa using List.find?_some h
    exact ⟨List.mem_of_find?_eq_some h, s, rfl, (f.symbol_iff s).mp hsym⟩

/-- The flag found is the flag meant. -/
theorem findFlag_unique (d : ArgsDecl V) (hd : d.Valid) (x : V) (f : FlagDecl V) (hf : f ∈ d.flags)
    (hs : ∃ s, str x = some s ∧ (f.short = some s ∨ f.long = some s)) : d.findFlag x = some f := by
  obtain ⟨s, hs1, hs2⟩ := hs
  have hx : (d.findFlag x).isSome := (findFlag_isSome d x).mpr ⟨f, hf, s, hs1, hs2⟩
  cases hg : d.findFlag x with
  | none => rw [hg] at hx; cases hx
  | some g =>
    obtain ⟨hg1, s', hs', hg2⟩ := findFlag_some d x g hg
    rw [hs1] at hs'
    cases hs'
    obtain ⟨i, hi⟩ := List.mem_iff_getElem?.mp hf
    obtain ⟨j, hj⟩ := List.mem_iff_getElem?.mp hg1
    have := hd.symbols i j f g hi hj s ((f.symbol_iff s).mpr hs2) ((g.symbol_iff s).mpr hg2)
    subst this
    rw [hi] at hj
    exact hj.symm

theorem plausible_iff (x : V) : plausible x = true ↔ LooksLikeFlag x := by
  unfold plausible LooksLikeFlag
  cases h : str x with
  | none => simp
  | some s =>
    match s with
    | [] => simp
    | [c] => simp
    | c :: c' :: cs =>
      simp

/-! ## C38: combined flags -/

theorem C38_expand (d : ArgsDecl V) (x : V) :
    (∀ letters, d.Combined x letters → d.expand x = letters.map fun l => ofStr ['-', l]) ∧
    ((∀ letters, ¬ d.Combined x letters) → d.expand x = [x]) := by
  constructor
  · rintro letters ⟨h1, h2, h3, h4⟩
    match letters, h1 with
    | c :: c' :: cs, _ =>
      unfold ArgsDecl.expand
      rw [h2]
      simp only
      have hc : c ≠ '-' := by simpa using h3
      rw [if_pos hc, if_pos]
      rw [List.all_eq_true]
      intro l hl
      exact (findFlag_isSome d _).mpr (h4 l hl)
  · intro h
    unfold ArgsDecl.expand
    split
    · rename_i c c' cs hs
      split
      · rename_i hc
        split
        · rename_i hall
          exact absurd ⟨by simp, hs, by simpa using hc, fun l hl =>
            (findFlag_isSome d _).mp (List.all_eq_true.mp hall l hl)⟩ (h (c :: c' :: cs))
        · rfl
      · rfl
    · rfl

/-- A short flag by itself is not expanded further. -/
theorem expand_letter (d : ArgsDecl V) (l : Char) : d.expand (ofStr ['-', l] : V) = [ofStr ['-', l]] := by
  unfold ArgsDecl.expand
  rw [str_ofStr]
  split
  · rename_i h
    simp at h
  · rfl

theorem extract_append (d : ArgsDecl V) (xs ys : List V) : ∀ st : ArgState V,
    d.extract st (xs ++ ys) = (d.extract st xs).bind fun st' => d.extract st' ys := by
  induction xs with
  | nil => intro st; rfl
  | cons x xs ih =>
    intro st
    simp only [List.cons_append, ArgsDecl.extract]
    cases (d.expand x).foldlM d.step st with
    | none => rfl
    | some st' => exact ih st'

theorem extract_eq (d : ArgsDecl V) (xs : List V) : ∀ st : ArgState V,
    d.extract st xs = (xs.flatMap d.expand).foldlM d.step st := by
  induction xs with
  | nil => intro st; rfl
  | cons x xs ih =>
    intro st
    rw [List.flatMap_cons, List.foldlM_append, ArgsDecl.extract]
    cases (d.expand x).foldlM d.step st with
    | none => rfl
    | some st' => exact ih st'

/-- **C38.** Combined short flags, wherever they occur among the arguments, mean the same as the flags given
separately. -/
theorem C38_combined (d : ArgsDecl V) (pre post : List V) (x : V) (letters : List Char) (h : d.Combined x letters)
    (op : Dict Str (ArgValue V)) :
    d.parse (pre ++ x :: post) op = d.parse (pre ++ (letters.map (fun l => ofStr ['-', l]) ++ post)) op := by
  have : ∀ st, d.extract st (pre ++ x :: post) =
      d.extract st (pre ++ (letters.map (fun l => ofStr ['-', l]) ++ post)) := by
    intro st
    rw [extract_eq, extract_eq]
    simp only [List.flatMap_append, List.flatMap_cons, (C38_expand d x).1 letters h, List.flatMap_map, expand_letter]
    congr 1
    congr 1
    congr 1
    show _ = List.flatMap (fun l => [(ofStr ['-', l] : V)]) letters
    rw [← List.map_eq_flatMap]
  unfold ArgsDecl.parse
  rw [this]

/-! ## The loop -/

/-- The local variables after the flags and anonymous arguments. -/
def stateOf (d : ArgsDecl V) (uses : List (Use V)) (vals : List (AnonUse V)) : ArgState V where
  flags := uses.map fun u => (u.flag.name, u.result)
  anon := (d.anons.zip vals).map fun (a, v) => (a.name, v.result)
  anonList := (vals.drop d.anons.length).map (·.result)
  current := uses.getLast?.bind fun u => if u.value.isSome then none else some u.flag
  flagOk := decide (d.flags.length > 0) && vals.isEmpty

/-- What holds while the loop runs (an `Arrangement` in which the last flag may still lack its value, and before the
final checks). -/
structure Arr (d : ArgsDecl V) (uses : List (Use V)) (vals : List (AnonUse V)) : Prop where
  declared : ∀ u ∈ uses, u.flag ∈ d.flags
  sym : ∀ u ∈ uses, ∃ s, str u.sym = some s ∧ (u.flag.short = some s ∨ u.flag.long = some s)
  value : ∀ u ∈ uses, ∀ v, u.value = some v → ¬ d.IsFlag v ∧ ¬ LooksLikeFlag v
  none_ : ∀ u ∈ uses, u.flag.arity = .noValue → u.value = none
  result : ∀ u ∈ uses, match u.value with
    | some v => u.flag.convert v = some u.result
    | none => u.result = u.flag.default
  once : (uses.map (·.flag.name)).Nodup
  anon : ∀ a ∈ vals, ¬ d.IsFlag a.raw
  first : ∀ a as, vals = a :: as → d.flags ≠ [] → ¬ LooksLikeFlag a.raw
  greedy : vals ≠ [] → ∀ u, uses.getLast? = some u → u.value.isSome ∨ u.flag.arity = .noValue
  convert : ∀ (i : Nat) (a : AnonUse V), vals[i]? = some a →
    match d.anons[i]? with
    | some decl => decl.convert a.raw = some a.result
    | none => ∃ l, d.anonList = some l ∧ l.convert a.raw = some a.result

theorem arranged_snoc_use (uses : List (Use V)) (u : Use V) (h : u.value = none) :
    arranged (uses ++ [u]) [] = arranged uses [] ++ [u.sym] := by
  simp [arranged, h]

theorem arranged_snoc_value (uses : List (Use V)) (u : Use V) (v : V) (h : u.value = some v) :
    arranged (uses ++ [u]) [] = arranged uses [] ++ [u.sym, v] := by
  simp [arranged, h]

theorem arranged_snoc_val (uses : List (Use V)) (vals : List (AnonUse V)) (a : AnonUse V) :
    arranged uses (vals ++ [a]) = arranged uses vals ++ [a.raw] := by
  simp [arranged]

theorem dict_set_new (l : Dict Str V) (k : Str) (v : V) (h : k ∉ l.keys) : l.set k v = l ++ [(k, v)] := by
  induction l with
  | nil => rfl
  | cons x xs ih =>
    obtain ⟨k', v'⟩ := x
    simp [Dict.keys] at h
    rw [Dict.set, if_neg (Ne.symm h.1), ih (by simpa [Dict.keys] using h.2)]
    rfl

theorem dict_set_last (l : Dict Str V) (k : Str) (v v' : V) (h : k ∉ l.keys) :
    Dict.set (l ++ [(k, v)]) k v' = l ++ [(k, v')] := by
  induction l with
  | nil => simp [Dict.set]
  | cons x xs ih =>
    obtain ⟨k', w⟩ := x
    simp [Dict.keys] at h
    rw [List.cons_append, Dict.set, if_neg (Ne.symm h.1), ih (by simpa [Dict.keys] using h.2)]
    rfl

theorem has_false_iff (l : Dict Str V) (k : Str) : l.has k = false ↔ k ∉ l.keys := by
  unfold Dict.has
  rw [← Dict.get?_eq_none_iff]
  cases l.get? k <;> simp

theorem stateOf_keys (d : ArgsDecl V) (uses : List (Use V)) (vals : List (AnonUse V)) :
    (stateOf d uses vals).flags.keys = uses.map (·.flag.name) := by
  simp [stateOf, Dict.keys]

theorem stateOf_anon_length (d : ArgsDecl V) (uses : List (Use V)) (vals : List (AnonUse V)) :
    (stateOf d uses vals).anon.length = min d.anons.length vals.length := by
  simp [stateOf]

theorem anon_names_nodup (d : ArgsDecl V) (hd : d.Valid) : (d.anons.map (·.name)).Nodup := by
  have := hd.names
  rw [List.nodup_append] at this
  have := this.2.1
  rw [List.nodup_append] at this
  exact this.1

/-- A flag. -/
theorem step_flag (d : ArgsDecl V) (hd : d.Valid) (uses : List (Use V)) (u : Use V) (hf : u.flag ∈ d.flags)
    (hs : ∃ s, str u.sym = some s ∧ (u.flag.short = some s ∨ u.flag.long = some s)) (hv : u.value = none)
    (hr : u.result = u.flag.default) (hn : u.flag.name ∉ uses.map (·.flag.name)) :
    d.step (stateOf d uses []) u.sym = some (stateOf d (uses ++ [u]) []) := by
  unfold ArgsDecl.step
  rw [findFlag_unique d hd u.sym u.flag hf hs]
  have hpos : d.flags.length > 0 := List.length_pos_iff.mpr (List.ne_nil_of_mem hf)
  have hok : (stateOf d uses []).flagOk = true := by simp [stateOf, hpos]
  simp only [hok, if_true]
  have hkey : u.flag.name ∉ (stateOf d uses []).flags.keys := by rw [stateOf_keys]; exact hn
  rw [(has_false_iff _ _).mpr hkey, if_neg (by decide), dict_set_new _ _ _ hkey]
  simp [stateOf, hv, hr]
  omega

/-- A flag's value. -/
theorem step_value (d : ArgsDecl V) (uses : List (Use V)) (u u' : Use V) (v : V)
    (hv : u.value = none) (hu : u' = { u with value := some v, result := u'.result })
    (hnf : ¬ d.IsFlag v) (hnp : ¬ LooksLikeFlag v) (ha : u.flag.arity ≠ .noValue)
    (hr : u.flag.convert v = some u'.result) (hn : u.flag.name ∉ uses.map (·.flag.name)) :
    d.step (stateOf d (uses ++ [u]) []) v = some (stateOf d (uses ++ [u']) []) := by
  have huf : u'.flag = u.flag := by rw [hu]
  have huv : u'.value = some v := by rw [hu]
  unfold ArgsDecl.step
  rw [findFlag_none d v hnf]
  have hp : plausible v = false := by
    cases h : plausible v with
    | false => rfl
    | true => exact absurd ((plausible_iff v).mp h) hnp
  have hcur : (stateOf d (uses ++ [u]) []).current = some u.flag := by simp [stateOf, hv]
  have hflags : (stateOf d (uses ++ [u]) []).flags = (uses.map fun u => (u.flag.name, u.result)) ++ [(u.flag.name, u.result)] := by
    simp [stateOf]
  have hkey : u.flag.name ∉ Dict.keys (uses.map fun u => (u.flag.name, u.result)) := by
    simpa [Dict.keys] using hn
  simp only [hp, Bool.false_and, Bool.false_eq_true, if_false, hcur, if_neg ha, hr, Option.map_some]
  rw [hflags, dict_set_last _ _ _ _ hkey]
  simp [stateOf, huf, huv]

/-- An anonymous argument. -/
theorem step_anon (d : ArgsDecl V) (hd : d.Valid) (uses : List (Use V)) (vals : List (AnonUse V)) (a : AnonUse V)
    (hnf : ¬ d.IsFlag a.raw) (hfirst : vals = [] → d.flags ≠ [] → ¬ LooksLikeFlag a.raw)
    (hg : ∀ u, uses.getLast? = some u → u.value.isSome ∨ u.flag.arity = .noValue)
    (hc : match d.anons[vals.length]? with
      | some decl => decl.convert a.raw = some a.result
      | none => ∃ l, d.anonList = some l ∧ l.convert a.raw = some a.result) :
    d.step (stateOf d uses vals) a.raw = some (stateOf d uses (vals ++ [a])) := by
  unfold ArgsDecl.step
  rw [findFlag_none d _ hnf]
  have hp : (plausible a.raw && (stateOf d uses vals).flagOk) = false := by
    cases h : plausible a.raw with
    | false => rfl
    | true =>
      cases vals with
      | cons _ _ => simp [stateOf]
      | nil =>
        cases hfl : d.flags with
        | nil => simp [stateOf, hfl]
        | cons f fs => exact absurd ((plausible_iff _).mp h) (hfirst rfl (by simp [hfl]))
  simp only [hp, Bool.false_eq_true, if_false]
  have hcur : (stateOf d uses vals).current = none ∨ ∃ f, (stateOf d uses vals).current = some f ∧ f.arity = .noValue := by
    cases hl : uses.getLast? with
    | none => left; simp [stateOf, hl]
    | some u =>
      rcases hg u hl with h | h
      · left; simp [stateOf, hl, h]
      · cases hv : u.value with
        | some v => left; simp [stateOf, hl, hv]
        | none => right; exact ⟨u.flag, by simp [stateOf, hl, hv], h⟩
  have hlen := stateOf_anon_length d uses vals
  have key : d.stepAnon (stateOf d uses vals) a.raw = some (stateOf d uses (vals ++ [a])) := by
    unfold ArgsDecl.stepAnon
    by_cases hge : vals.length ≥ d.anons.length
    · rw [if_pos (by omega)]
      have hnone : d.anons[vals.length]? = none := List.getElem?_eq_none hge
      rw [hnone] at hc
      obtain ⟨l, hl, hcv⟩ := hc
      rw [hl]
      simp only [hcv, Option.map_some]
      have hz : d.anons.zip (vals ++ [a]) = d.anons.zip vals := by
        have : ∀ (xs : List (AnonDecl V)) (ys : List (AnonUse V)), ys.length ≥ xs.length → xs.zip (ys ++ [a]) = xs.zip ys := by
          intro xs
          induction xs with
          | nil => intro ys _; rfl
          | cons x xs ih =>
            intro ys h
            cases ys with
            | nil => simp at h
            | cons y ys => simp only [List.cons_append, List.zip_cons_cons]; rw [ih ys (by simpa using h)]
        exact this _ _ hge
      simp [stateOf, hz, List.drop_append_of_le_length hge]
    · have hlt : vals.length < d.anons.length := by omega
      rw [if_neg (by omega)]
      have hidx : (stateOf d uses vals).anon.length = vals.length := by omega
      rw [hidx]
      obtain ⟨b, hb⟩ : ∃ b, d.anons[vals.length]? = some b := ⟨_, List.getElem?_eq_getElem hlt⟩
      rw [hb] at hc ⊢
      simp only [hc, Option.map_some]
      have hz : ∀ (xs : List (AnonDecl V)) (ys : List (AnonUse V)), xs[ys.length]? = some b →
          xs.zip (ys ++ [a]) = xs.zip ys ++ [(b, a)] := by
        intro xs
        induction xs with
        | nil => intro ys h; simp at h
        | cons x xs ih =>
          intro ys h
          cases ys with
          | nil => simp at h; subst h; simp
          | cons y ys => simp only [List.cons_append, List.zip_cons_cons]; rw [ih ys (by simpa using h)]
      have hnew : b.name ∉ Dict.keys ((d.anons.zip vals).map fun (a, v) => (a.name, v.result)) := by
        have hn := anon_names_nodup d hd
        have hk : Dict.keys ((d.anons.zip vals).map fun (a, v) => (a.name, v.result)) =
            (d.anons.take vals.length).map (·.name) := by
          have : ∀ (xs : List (AnonDecl V)) (ys : List (AnonUse V)),
              Dict.keys ((xs.zip ys).map fun (a, v) => (a.name, v.result)) = (xs.take ys.length).map (·.name) := by
            intro xs
            induction xs with
            | nil => intro ys; simp [Dict.keys]
            | cons x xs ih =>
              intro ys
              cases ys with
              | nil => simp [Dict.keys]
              | cons y ys =>
                have := ih ys
                simp only [Dict.keys] at this ⊢
                simp [this]
          exact this _ _
        rw [hk]
        intro hm
        have hsplit : d.anons = d.anons.take vals.length ++ (b :: d.anons.drop (vals.length + 1)) := by
          have h1 := List.take_append_drop vals.length d.anons
          rw [List.getElem?_eq_getElem hlt] at hb
          cases hb
          rw [← List.drop_eq_getElem_cons hlt]
          exact h1.symm
        rw [hsplit, List.map_append, List.nodup_append] at hn
        exact hn.2.2 _ hm _ (by simp) rfl
      have hz' := hz d.anons vals hb
      have e1 : (stateOf d uses vals).anon = (d.anons.zip vals).map fun (a, v) => (a.name, v.result) := rfl
      rw [e1, dict_set_new _ _ _ hnew]
      have hd0 : (vals ++ [a]).drop d.anons.length = [] := List.drop_eq_nil_of_le (by simp; omega)
      have hd1 : vals.drop d.anons.length = [] := List.drop_eq_nil_of_le (by omega)
      simp [stateOf, hz', hd0, hd1]
  rcases hcur with h | ⟨f, h, ha⟩
  · rw [h]; exact key
  · rw [h]
    simp only [ha, if_true]
    exact key

theorem foldlM_snoc {σ α : Type} (f : σ → α → Option σ) (xs : List α) (x : α) (s : σ) :
    (xs ++ [x]).foldlM f s = (xs.foldlM f s).bind fun s' => f s' x := by
  rw [List.foldlM_append]
  cases xs.foldlM f s with
  | none => rfl
  | some s' => simp

/-! ### From arrangements to the loop -/

theorem Arr.loop (d : ArgsDecl V) (hd : d.Valid) (uses : List (Use V)) (vals : List (AnonUse V)) (h : Arr d uses vals) :
    (arranged uses vals).foldlM d.step (stateOf d [] []) = some (stateOf d uses vals) := by
  have huses : (arranged uses []).foldlM d.step (stateOf d [] []) = some (stateOf d uses []) := by
    have h1 := h.declared
    have h2 := h.sym
    have h3 := h.value
    have h4 := h.none_
    have h5 := h.result
    have h6 := h.once
    clear h
    induction hn : uses.length generalizing uses with
    | zero =>
      have : uses = [] := List.length_eq_zero_iff.mp hn
      subst this
      rfl
    | succ n ih =>
      obtain ⟨us, u, rfl⟩ : ∃ us u, uses = us ++ [u] := by
        have hne : uses ≠ [] := by intro e; rw [e] at hn; simp at hn
        exact ⟨_, _, (List.dropLast_concat_getLast hne).symm⟩
      have hm : ∀ x ∈ us, x ∈ us ++ [u] := fun x hx => by simp [hx]
      rw [List.map_append, List.nodup_append] at h6
      have ih := ih us (fun x hx => h1 x (hm x hx)) (fun x hx => h2 x (hm x hx)) (fun x hx => h3 x (hm x hx))
        (fun x hx => h4 x (hm x hx)) (fun x hx => h5 x (hm x hx)) h6.1 (by simpa using hn)
      have hu : u ∈ us ++ [u] := by simp
      have hnm : u.flag.name ∉ us.map (·.flag.name) := fun hmem => h6.2.2 _ hmem u.flag.name (by simp) rfl
      have hr := h5 u hu
      cases hv : u.value with
      | none =>
        rw [hv] at hr
        rw [arranged_snoc_use us u hv, foldlM_snoc, ih]
        exact step_flag d hd us u (h1 u hu) (h2 u hu) hv hr hnm
      | some v =>
        rw [hv] at hr
        let u0 : Use V := { u with value := none, result := u.flag.default }
        rw [arranged_snoc_value us u v hv]
        rw [show arranged us [] ++ [u.sym, v] = (arranged us [] ++ [u0.sym]) ++ [v] from by simp [u0]]
        rw [foldlM_snoc, foldlM_snoc, ih]
        simp only [Option.bind_some]
        rw [step_flag d hd us u0 (h1 u hu) (h2 u hu) rfl rfl hnm]
        simp only [Option.bind_some]
        refine step_value d us u0 u v rfl ?_ (h3 u hu v hv).1 (h3 u hu v hv).2 ?_ hr hnm
        · obtain ⟨f, s, val, r⟩ := u
          simp only at hv
          subst hv
          rfl
        · intro ha
          have := h4 u hu ha
          rw [hv] at this
          cases this
  have h1 := h.anon
  have h2 := h.first
  have h3 := h.greedy
  have h4 := h.convert
  clear h
  induction hn : vals.length generalizing vals with
  | zero =>
    have : vals = [] := List.length_eq_zero_iff.mp hn
    subst this
    exact huses
  | succ n ih =>
    obtain ⟨vs, v, rfl⟩ : ∃ vs v, vals = vs ++ [v] := by
      have hne : vals ≠ [] := by intro e; rw [e] at hn; simp at hn
      exact ⟨_, _, (List.dropLast_concat_getLast hne).symm⟩
    have ih := ih vs (fun a ha => h1 a (by simp [ha])) (fun a as e hf => h2 a (as ++ [v]) (by rw [e]; rfl) hf)
      (fun _ => h3 (by simp)) (fun i a hi => h4 i a (by
        have : i < vs.length := by
          rcases Nat.lt_or_ge i vs.length with hlt | hge
          · exact hlt
          · rw [List.getElem?_eq_none hge] at hi; cases hi
        rw [List.getElem?_append_left this]; exact hi)) (by simpa using hn)
    rw [arranged_snoc_val, foldlM_snoc, ih]
    simp only [Option.bind_some]
    refine step_anon d hd uses vs v (h1 v (by simp)) ?_ (h3 (by simp)) ?_
    · intro e hf
      subst e
      exact h2 v [] rfl hf
    · exact h4 vs.length v (by simp)

/-! ### From the loop to arrangements -/

theorem Arr.nil (d : ArgsDecl V) : Arr d [] [] :=
  ⟨by simp, by simp, by simp, by simp, by simp, by simp, by simp, by simp, by simp, by simp⟩

theorem mem_snoc {α : Type} {P : α → Prop} {xs : List α} {x : α} (h1 : ∀ y ∈ xs, P y) (h2 : P x) :
    ∀ y ∈ xs ++ [x], P y := by
  intro y hy
  simp at hy
  rcases hy with hy | rfl
  · exact h1 y hy
  · exact h2

theorem Arr.of_loop (d : ArgsDecl V) (hd : d.Valid) (xs : List V) : ∀ st : ArgState V,
    xs.foldlM d.step (stateOf d [] []) = some st →
    ∃ uses vals, Arr d uses vals ∧ xs = arranged uses vals ∧ st = stateOf d uses vals := by
  induction hn : xs.length generalizing xs with
  | zero =>
    intro st h
    have : xs = [] := List.length_eq_zero_iff.mp hn
    subst this
    cases h
    exact ⟨[], [], Arr.nil d, rfl, rfl⟩
  | succ n ih =>
    intro st h
    obtain ⟨ys, x, rfl⟩ : ∃ ys x, xs = ys ++ [x] := by
      have hne : xs ≠ [] := by intro e; rw [e] at hn; simp at hn
      exact ⟨_, _, (List.dropLast_concat_getLast hne).symm⟩
    rw [foldlM_snoc] at h
    cases hy : ys.foldlM d.step (stateOf d [] []) with
    | none => rw [hy] at h; cases h
    | some st0 =>
      rw [hy] at h
      simp only [Option.bind_some] at h
      obtain ⟨uses, vals, ha, hys, rfl⟩ := ih ys (by simpa using hn) st0 hy
      have hstep := h
      unfold ArgsDecl.step at h
      cases hf : d.findFlag x with
      | some f =>
        obtain ⟨hf1, hf2⟩ := findFlag_some d x f hf
        rw [hf] at h
        simp only at h
        split at h
        · rename_i hok
          split at h
          · cases h
          · rename_i hnew
            have hv : vals = [] := by
              cases vals with
              | nil => rfl
              | cons a as => simp [stateOf] at hok
            subst hv
            have hnm : f.name ∉ uses.map (·.flag.name) := by
              rw [← stateOf_keys d uses []]
              rw [← has_false_iff]
              simpa using hnew
            refine ⟨uses ++ [⟨f, x, none, f.default⟩], [], ⟨mem_snoc ha.declared hf1, mem_snoc ha.sym hf2,
              mem_snoc ha.value (by simp), mem_snoc ha.none_ (by simp), mem_snoc ha.result rfl, ?_, by simp, by simp,
              by simp, by simp⟩, ?_, ?_⟩
            · rw [List.map_append, List.nodup_append]
              refine ⟨ha.once, by simp, ?_⟩
              intro a hma b hmb e
              simp at hmb
              subst e
              subst hmb
              exact hnm hma
            · rw [arranged_snoc_use _ _ rfl, hys]
            · have := step_flag d hd uses ⟨f, x, none, f.default⟩ hf1 hf2 rfl rfl hnm
              rw [hstep] at this
              exact Option.some.inj this
        · cases h
      | none =>
        have hnf : ¬ d.IsFlag x := by
          intro hflag
          have := (findFlag_isSome d x).mpr hflag
          rw [hf] at this
          cases this
        rw [hf] at h
        simp only at h
        split at h
        · cases h
        · rename_i hp
          -- the anonymous case
          have anonCase : (∀ u, uses.getLast? = some u → u.value.isSome ∨ u.flag.arity = .noValue) →
              d.stepAnon (stateOf d uses vals) x = some st →
              ∃ uses' vals', Arr d uses' vals' ∧ ys ++ [x] = arranged uses' vals' ∧ st = stateOf d uses' vals' := by
            intro hg h
            unfold ArgsDecl.stepAnon at h
            have hlen := stateOf_anon_length d uses vals
            obtain ⟨r, hr⟩ : ∃ r, match d.anons[vals.length]? with
                | some decl => decl.convert x = some r
                | none => ∃ l, d.anonList = some l ∧ l.convert x = some r := by
              by_cases hge : vals.length ≥ d.anons.length
              · rw [if_pos (by omega)] at h
                rw [List.getElem?_eq_none hge]
                cases hl : d.anonList with
                | none => rw [hl] at h; cases h
                | some l =>
                  rw [hl] at h
                  simp only at h
                  cases hc : l.convert x with
                  | none => rw [hc] at h; cases h
                  | some r => exact ⟨r, l, rfl, hc⟩
              · rw [if_neg (by omega)] at h
                have hidx : (stateOf d uses vals).anon.length = vals.length := by omega
                rw [hidx] at h
                cases hb : d.anons[vals.length]? with
                | none => rw [hb] at h; cases h
                | some b =>
                  rw [hb] at h
                  simp only at h
                  cases hc : b.convert x with
                  | none => rw [hc] at h; cases h
                  | some r => exact ⟨r, hc⟩
            have hfirst : vals = [] → d.flags ≠ [] → ¬ LooksLikeFlag x := by
              intro hv hfl hlook
              apply hp
              rw [(plausible_iff x).mpr hlook, hv]
              have : d.flags.length > 0 := List.length_pos_iff.mpr hfl
              simp [stateOf, this]
            have hst := step_anon d hd uses vals ⟨x, r⟩ hnf hfirst hg hr
            rw [hstep] at hst
            refine ⟨uses, vals ++ [⟨x, r⟩], ⟨ha.declared, ha.sym, ha.value, ha.none_, ha.result, ha.once,
              mem_snoc ha.anon hnf, ?_, fun _ => hg, ?_⟩, ?_, Option.some.inj hst⟩
            · intro a as e hfl
              cases vals with
              | nil =>
                simp at e
                rw [← e.1]
                exact hfirst rfl hfl
              | cons a' as' =>
                simp at e
                rw [← e.1]
                exact ha.first a' as' rfl hfl
            · intro i a hi
              rcases Nat.lt_trichotomy i vals.length with hlt | heq | hgt
              · rw [List.getElem?_append_left hlt] at hi
                exact ha.convert i a hi
              · subst heq
                simp at hi
                subst hi
                exact hr
              · rw [List.getElem?_eq_none (by simp; omega)] at hi
                cases hi
            · rw [arranged_snoc_val, hys]
          cases hcur : (stateOf d uses vals).current with
          | none =>
            rw [hcur] at h
            refine anonCase ?_ h
            intro u hu
            left
            have : (stateOf d uses vals).current = if u.value.isSome then none else some u.flag := by
              simp [stateOf, hu]
            rw [hcur] at this
            cases hv : u.value with
            | some v => rfl
            | none => rw [hv] at this; simp at this
          | some f =>
            rw [hcur] at h
            simp only at h
            obtain ⟨u, hu, huf, huv⟩ : ∃ u, uses.getLast? = some u ∧ u.flag = f ∧ u.value = none := by
              cases hl : uses.getLast? with
              | none => simp [stateOf, hl] at hcur
              | some u =>
                have : (stateOf d uses vals).current = if u.value.isSome then none else some u.flag := by
                  simp [stateOf, hl]
                rw [hcur] at this
                cases hv : u.value with
                | some v => rw [hv] at this; simp at this
                | none => rw [hv] at this; simp at this; exact ⟨u, rfl, this.symm, hv⟩
            split at h
            · rename_i har
              refine anonCase ?_ h
              intro u' hu'
              rw [hu] at hu'
              cases hu'
              right
              rw [huf]
              exact har
            · rename_i har
              -- a value for the flag
              have hvals : vals = [] := by
                cases vals with
                | nil => rfl
                | cons a as =>
                  rcases ha.greedy (by simp) u hu with h' | h'
                  · rw [huv] at h'; cases h'
                  · rw [huf] at h'; exact absurd h' har
              subst hvals
              cases hc : f.convert x with
              | none => rw [hc] at h; cases h
              | some r =>
                obtain ⟨us, rfl⟩ : ∃ us, uses = us ++ [u] := by
                  have hne : uses ≠ [] := by intro e; rw [e] at hu; cases hu
                  have := List.dropLast_concat_getLast hne
                  rw [List.getLast?_eq_some_getLast hne] at hu
                  cases hu
                  exact ⟨_, this.symm⟩
                subst huf
                have hum : u ∈ us ++ [u] := by simp
                have honce := ha.once
                rw [List.map_append, List.nodup_append] at honce
                have hnm : u.flag.name ∉ us.map (·.flag.name) := fun hmem => honce.2.2 _ hmem u.flag.name (by simp) rfl
                have hflok : (stateOf d (us ++ [u]) []).flagOk = true := by
                  have : d.flags.length > 0 := List.length_pos_iff.mpr (List.ne_nil_of_mem (ha.declared u hum))
                  simp [stateOf, this]
                have hnp : ¬ LooksLikeFlag x := by
                  intro hl
                  apply hp
                  rw [(plausible_iff x).mpr hl, hflok]
                  rfl
                let u' : Use V := { u with value := some x, result := r }
                have hst := step_value d us u u' x huv rfl hnf hnp har hc hnm
                rw [hstep] at hst
                have hsub : ∀ y ∈ us, y ∈ us ++ [u] := fun y hy => by simp [hy]
                refine ⟨us ++ [u'], [], ⟨mem_snoc (fun y hy => ha.declared y (hsub y hy)) (ha.declared u hum),
                  mem_snoc (fun y hy => ha.sym y (hsub y hy)) (ha.sym u hum),
                  mem_snoc (fun y hy => ha.value y (hsub y hy)) ?_,
                  mem_snoc (fun y hy => ha.none_ y (hsub y hy)) (fun h => absurd h har),
                  mem_snoc (fun y hy => ha.result y (hsub y hy)) hc, ?_, by simp, by simp, by simp, by simp⟩, ?_,
                  Option.some.inj hst⟩
                · intro v hv
                  cases hv
                  exact ⟨hnf, hnp⟩
                · have := ha.once
                  simpa [u'] using this
                · rw [hys, arranged_snoc_use us u huv, arranged_snoc_value us u' x rfl]
                  simp [u']

/-! ### The final checks -/

theorem all_pair_iff {α β : Type} (l : List (α × β)) (p : α × β → Bool) : l.all p = true ↔ ∀ x ∈ l, p x = true :=
  List.all_eq_true

theorem find_name (fs : List (FlagDecl V)) (f : FlagDecl V) (hf : f ∈ fs) (hn : (fs.map (·.name)).Nodup) :
    fs.find? (·.name = f.name) = some f := by
  induction fs with
  | nil => simp at hf
  | cons g gs ih =>
    simp only [List.map_cons, List.nodup_cons] at hn
    by_cases h : g.name = f.name
    · rcases List.mem_cons.mp hf with rfl | hm
      · simp
      · exact absurd (List.mem_map.mpr ⟨f, hm, h.symm⟩) hn.1
    · rcases List.mem_cons.mp hf with rfl | hm
      · exact absurd rfl h
      · rw [List.find?_cons_of_neg (by simpa using h)]
        exact ih hm hn.2

theorem flag_names_nodup (d : ArgsDecl V) (hd : d.Valid) : (d.flags.map (·.name)).Nodup :=
  (List.nodup_append.mp hd.names).1

theorem counts_iff (d : ArgsDecl V) (hd : d.Valid) (uses : List (Use V)) (vals : List (AnonUse V)) (h : Arr d uses vals) :
    d.checkValueCounts (stateOf d uses vals).flags = true ↔
    ∀ u ∈ uses, u.flag.arity = .oneValue → u.value.isSome ∧ isTrue u.result = false := by
  unfold ArgsDecl.checkValueCounts
  rw [List.all_eq_true]
  simp only [stateOf, List.mem_map]
  constructor
  · intro hall u hu ha
    have := hall (u.flag.name, u.result) ⟨u, hu, rfl⟩
    simp only [ArgsDecl.flagByName, find_name d.flags u.flag (h.declared u hu) (flag_names_nodup d hd), ha] at this
    have hres : isTrue u.result = false := by
      cases ht : isTrue u.result with
      | false => rfl
      | true => simp [ht] at this
    refine ⟨?_, hres⟩
    cases hv : u.value with
    | some v => rfl
    | none =>
      have hr := h.result u hu
      rw [hv] at hr
      simp only at hr
      rw [hr, hd.default u.flag (h.declared u hu) (by rw [ha]; decide), tru_isTrue] at hres
      cases hres
  · rintro hall x ⟨u, hu, rfl⟩
    simp only [ArgsDecl.flagByName, find_name d.flags u.flag (h.declared u hu) (flag_names_nodup d hd)]
    cases ha : u.flag.arity with
    | oneValue =>
      have := (hall u hu ha).2
      simp [this]
    | noValue =>
      have hr := h.result u hu
      rw [h.none_ u hu ha] at hr
      simp only at hr
      rw [hr, hd.default u.flag (h.declared u hu) (by rw [ha]; decide), tru_isTrue]
      simp
    | optionalValue => simp

theorem anon_keys (d : ArgsDecl V) (uses : List (Use V)) (vals : List (AnonUse V)) :
    (stateOf d uses vals).anon.keys = (d.anons.take vals.length).map (·.name) := by
  have : ∀ (xs : List (AnonDecl V)) (ys : List (AnonUse V)),
      Dict.keys ((xs.zip ys).map fun (a, v) => (a.name, v.result)) = (xs.take ys.length).map (·.name) := by
    intro xs
    induction xs with
    | nil => intro ys; simp [Dict.keys]
    | cons x xs ih =>
      intro ys
      cases ys with
      | nil => simp [Dict.keys]
      | cons y ys =>
        have := ih ys
        simp only [Dict.keys] at this ⊢
        simp [this]
  exact this _ _

theorem names_eq (d : ArgsDecl V) (uses : List (Use V)) (vals : List (AnonUse V)) :
    (stateOf d uses vals).flags.keys ++ (stateOf d uses vals).anon.keys = givenNames d uses vals := by
  rw [stateOf_keys, anon_keys]
  rfl

theorem inter_eq (g names : List Str) : inter g names = (g.filter (fun n => n ∈ names)).length := by
  unfold inter
  congr 2
  funext n
  simp

theorem atMost_iff (d : ArgsDecl V) (names : List Str) : d.checkAtMostOne names = true ↔
    ∀ g ∈ d.atMostOne, (g.filter (fun n => n ∈ names)).length ≤ 1 := by
  simp [ArgsDecl.checkAtMostOne, inter_eq]

theorem exactly_iff (d : ArgsDecl V) (names : List Str) : d.checkExactlyOne names = true ↔
    ∀ g ∈ d.exactlyOne, (g.filter (fun n => n ∈ names)).length = 1 := by
  simp [ArgsDecl.checkExactlyOne, inter_eq]

theorem completeAnon_eq (as : List (AnonDecl V)) : ∀ anon : Dict Str V, (∀ a ∈ as, a.name ∉ anon.keys) →
    (as.map (·.name)).Nodup →
    ((∀ a ∈ as, a.default.isSome) →
      completeAnon anon as = some (anon ++ as.filterMap fun a => a.default.map fun v => (a.name, v))) ∧
    ((completeAnon anon as).isSome → ∀ a ∈ as, a.default.isSome) := by
  induction as with
  | nil => intro anon _ _; simp [completeAnon]
  | cons a as ih =>
    intro anon hnew hnd
    simp only [List.map_cons, List.nodup_cons] at hnd
    cases hdef : a.default with
    | none => simp [completeAnon, hdef]
    | some v =>
      have hset : anon.set a.name v = anon ++ [(a.name, v)] := dict_set_new _ _ _ (hnew a (by simp))
      have := ih (anon ++ [(a.name, v)]) (by
        intro b hb
        have h1 := hnew b (by simp [hb])
        simp only [Dict.keys, List.map_append, List.mem_append, not_or] at h1 ⊢
        refine ⟨h1, ?_⟩
        simp only [List.map_cons, List.map_nil, List.mem_singleton]
        intro e
        exact hnd.1 (List.mem_map.mpr ⟨b, hb, e⟩)) hnd.2
      simp only [completeAnon, hdef, hset]
      constructor
      · intro h
        rw [this.1 (fun b hb => h b (by simp [hb]))]
        simp [hdef]
      · intro h b hb
        rcases List.mem_cons.mp hb with rfl | hb
        · simp [hdef]
        · exact this.2 h b hb

theorem update_append {κ ν : Type} [DecidableEq κ] (op : Dict κ ν) (xs ys : List (κ × ν)) :
    op.update (xs ++ ys) = (op.update xs).update ys := by
  simp [Dict.update, List.foldl_append]

theorem transfer_eq (d : ArgsDecl V) (α : Type) (xs : List α) (name target : α → Str) (v : α → ArgValue V)
    (h : ∀ x ∈ xs, d.targetOf (name x) = some (target x)) : ∀ (op : Dict Str (ArgValue V)),
    d.transfer op (xs.map fun x => (name x, v x)) = some (op.update (xs.map fun x => (target x, v x))) := by
  induction xs with
  | nil => intro op; rfl
  | cons x xs ih =>
    intro op
    simp only [List.map_cons, ArgsDecl.transfer]
    rw [h x (by simp)]
    simp only
    rw [ih (fun y hy => h y (by simp [hy]))]
    rfl

theorem transfer_append (d : ArgsDecl V) (xs ys : List (Str × ArgValue V)) : ∀ op : Dict Str (ArgValue V),
    d.transfer op (xs ++ ys) = (d.transfer op xs).bind fun op' => d.transfer op' ys := by
  induction xs with
  | nil => intro op; rfl
  | cons x xs ih =>
    intro op
    obtain ⟨n, v⟩ := x
    simp only [List.cons_append, ArgsDecl.transfer]
    cases d.targetOf n with
    | none => rfl
    | some t => exact ih _

theorem targetOf_flag (d : ArgsDecl V) (hd : d.Valid) (f : FlagDecl V) (hf : f ∈ d.flags) :
    d.targetOf f.name = some f.target := by
  unfold ArgsDecl.targetOf
  rw [find_name d.flags f hf (flag_names_nodup d hd)]

theorem find_flag_none (d : ArgsDecl V) (n : Str) (h : n ∉ d.flags.map (·.name)) :
    d.flags.find? (·.name = n) = none := by
  rw [List.find?_eq_none]
  intro f hf e
  exact h (List.mem_map.mpr ⟨f, hf, by simpa using e⟩)

theorem targetOf_anon (d : ArgsDecl V) (hd : d.Valid) (a : AnonDecl V) (ha : a ∈ d.anons) :
    d.targetOf a.name = some a.target := by
  have hn := List.nodup_append.mp hd.names
  have hnf : a.name ∉ d.flags.map (·.name) := fun hm =>
    hn.2.2 _ hm a.name (by simp; left; exact ⟨a, ha, rfl⟩) rfl
  have hfind : d.anons.find? (·.name = a.name) = some a := by
    have hnd := anon_names_nodup d hd
    generalize d.anons = as at ha hnd
    induction as with
    | nil => simp at ha
    | cons g gs ih =>
      simp only [List.map_cons, List.nodup_cons] at hnd
      by_cases h : g.name = a.name
      · rcases List.mem_cons.mp ha with rfl | hm
        · simp
        · exact absurd (List.mem_map.mpr ⟨a, hm, h.symm⟩) hnd.1
      · rcases List.mem_cons.mp ha with rfl | hm
        · exact absurd rfl h
        · rw [List.find?_cons_of_neg (by simpa using h)]
          exact ih hm hnd.2
  unfold ArgsDecl.targetOf
  rw [find_flag_none d _ hnf, hfind]

theorem targetOf_list (d : ArgsDecl V) (hd : d.Valid) (l : AnonListDecl V) (hl : d.anonList = some l) :
    d.targetOf l.name = some l.target := by
  have hn := List.nodup_append.mp hd.names
  have hnf : l.name ∉ d.flags.map (·.name) := fun hm =>
    hn.2.2 _ hm l.name (by simp [hl]) rfl
  have hna : d.anons.find? (·.name = l.name) = none := by
    rw [List.find?_eq_none]
    intro a ha e
    have := (List.nodup_append.mp hn.2.1).2.2 a.name (List.mem_map.mpr ⟨a, ha, rfl⟩) l.name (by simp [hl])
    exact this (by simpa using e)
  unfold ArgsDecl.targetOf
  rw [find_flag_none d _ hnf, hna, hl]
  simp

/-- The end of `parse`, given the local variables after the loop. -/
theorem parse_of_state (d : ArgsDecl V) (hd : d.Valid) (args : List V) (op : Dict Str (ArgValue V))
    (uses : List (Use V)) (vals : List (AnonUse V)) (h : Arr d uses vals)
    (hx : d.extract { flagOk := decide (d.flags.length > 0) } args = some (stateOf d uses vals)) :
    (Arrangement d uses vals → d.parse args op = some (op.update (argStores d uses vals))) ∧
    ((d.parse args op).isSome → Arrangement d uses vals) := by
  have hlist : (!(stateOf d uses vals).anonList.isEmpty && d.anonList.isNone) = false := by
    cases hl : d.anonList with
    | some l => simp
    | none =>
      have : vals.length ≤ d.anons.length := by
        apply Nat.le_of_not_lt
        intro hlt
        have := h.convert d.anons.length _ (List.getElem?_eq_getElem hlt)
        rw [List.getElem?_eq_none (Nat.le_refl _)] at this
        obtain ⟨l, hl', _⟩ := this
        rw [hl] at hl'
        cases hl'
      simp [stateOf, List.drop_eq_nil_of_le this]
  have hlen : (d.anons.drop (stateOf d uses vals).anon.length) = d.anons.drop vals.length := by
    rw [stateOf_anon_length]
    rcases Nat.le_total d.anons.length vals.length with hle | hle
    · rw [Nat.min_eq_left hle, List.drop_eq_nil_of_le hle, List.drop_eq_nil_of_le (Nat.le_refl _)]
    · rw [Nat.min_eq_right hle]
  have hsplit : d.anons.map (·.name) = (d.anons.take vals.length).map (·.name) ++ (d.anons.drop vals.length).map (·.name) := by
    rw [← List.map_append, List.take_append_drop]
  have hnd := anon_names_nodup d hd
  rw [hsplit, List.nodup_append] at hnd
  have hcomp := completeAnon_eq (d.anons.drop vals.length) (stateOf d uses vals).anon (by
    intro a ha
    rw [anon_keys]
    intro hm
    exact hnd.2.2 _ hm a.name (List.mem_map.mpr ⟨a, ha, rfl⟩) rfl) hnd.2.1
  unfold ArgsDecl.parse
  rw [hx]
  simp only [Option.bind_eq_bind, Option.bind_some, hlist, Bool.false_eq_true, if_false, names_eq, hlen]
  constructor
  · intro ha
    rw [(counts_iff d hd uses vals h).mpr fun u hu => (ha.flagUses u hu).one]
    rw [(atMost_iff d _).mpr ha.atMostOne, (exactly_iff d _).mpr ha.exactlyOne]
    have hreq : ∀ a ∈ d.anons.drop vals.length, a.default.isSome := by
      intro a hm
      obtain ⟨i, hi⟩ := List.mem_iff_getElem?.mp hm
      rw [List.getElem?_drop] at hi
      exact ha.required _ a hi (by omega)
    rw [hcomp.1 hreq]
    simp only [Bool.not_true, Bool.false_eq_true, if_false, Option.pure_def, Option.bind_some]
    have e1 : (stateOf d uses vals).flags.map (fun (k, v) => (k, ArgValue.one v)) =
        uses.map (fun u => (u.flag.name, ArgValue.one u.result)) := by simp [stateOf]
    have e2 : (stateOf d uses vals).anon.map (fun (k, v) => (k, ArgValue.one v)) =
        (d.anons.zip vals).map (fun p => (p.1.name, ArgValue.one p.2.result)) := by simp [stateOf]
    have e3 : ((d.anons.drop vals.length).filterMap fun a => a.default.map fun v => (a.name, v)).map
          (fun (k, v) => (k, ArgValue.one v)) =
        ((d.anons.drop vals.length).filterMap fun a => a.default.map fun v => (a, v)).map
          (fun p => (p.1.name, ArgValue.one p.2)) := by
      rw [List.map_filterMap, List.map_filterMap]
      congr 1
      funext a
      cases a.default <;> rfl
    rw [e1, transfer_eq d (Use V) uses (·.flag.name) (·.flag.target) (fun u => .one u.result)
      (fun u hu => targetOf_flag d hd u.flag (h.declared u hu))]
    simp only [Option.bind_some]
    rw [List.map_append, e2, e3, transfer_append, transfer_append,
      transfer_eq d (AnonDecl V × AnonUse V) _ (·.1.name) (·.1.target) (fun p => .one p.2.result)
        (fun p hp => targetOf_anon d hd p.1 (List.of_mem_zip (a := p.1) (b := p.2) hp).1)]
    simp only [Option.bind_some]
    rw [transfer_eq d (AnonDecl V × V) _ (·.1.name) (·.1.target) (fun p => .one p.2) (by
      intro p hp
      obtain ⟨a, ha1, ha2⟩ := List.mem_filterMap.mp hp
      cases hdef : a.default with
      | none => rw [hdef] at ha2; cases ha2
      | some v =>
        rw [hdef] at ha2
        cases ha2
        exact targetOf_anon d hd a (List.mem_of_mem_drop ha1))]
    simp only [Option.bind_some]
    unfold argStores
    rw [update_append, update_append, update_append]
    have e4 : ((d.anons.drop vals.length).filterMap fun a => a.default.map fun v => (a, v)).map
          (fun p => (p.1.target, ArgValue.one p.2)) =
        (d.anons.drop vals.length).filterMap (fun decl => decl.default.map fun v => (decl.target, ArgValue.one v)) := by
      rw [List.map_filterMap]
      congr 1
      funext a
      cases a.default <;> rfl
    rw [e4]
    cases hl : d.anonList with
    | none => rfl
    | some l =>
      simp only [ArgsDecl.transfer, targetOf_list d hd l hl]
      rfl
  · intro hs
    cases hc : d.checkValueCounts (stateOf d uses vals).flags with
    | false => rw [hc] at hs; simp at hs
    | true =>
    cases hm : d.checkAtMostOne (givenNames d uses vals) with
    | false => rw [hc, hm] at hs; simp at hs
    | true =>
    cases he : d.checkExactlyOne (givenNames d uses vals) with
    | false => rw [hc, hm, he] at hs; simp at hs
    | true =>
    cases hk : completeAnon (stateOf d uses vals).anon (d.anons.drop vals.length) with
    | none => rw [hc, hm, he, hk] at hs; simp at hs
    | some anon =>
    have hreq := hcomp.2 (by rw [hk]; rfl)
    have hone := (counts_iff d hd uses vals h).mp hc
    exact {
      flagUses := fun u hu => ⟨h.declared u hu, h.sym u hu, h.value u hu, h.none_ u hu, hone u hu, h.result u hu⟩
      once := h.once
      anon := h.anon
      first := h.first
      greedy := h.greedy
      convert := h.convert
      required := fun i decl hi hle => hreq decl (by
        apply List.mem_iff_getElem?.mpr
        refine ⟨i - vals.length, ?_⟩
        rw [List.getElem?_drop, Nat.add_sub_cancel' hle]
        exact hi)
      atMostOne := (atMost_iff d _).mp hm
      exactlyOne := (exactly_iff d _).mp he }

theorem Arrangement.arr {d : ArgsDecl V} {uses : List (Use V)} {vals : List (AnonUse V)} (h : Arrangement d uses vals) :
    Arr d uses vals where
  declared u hu := (h.flagUses u hu).declared
  sym u hu := (h.flagUses u hu).sym
  value u hu := (h.flagUses u hu).value
  none_ u hu := (h.flagUses u hu).none_
  result u hu := (h.flagUses u hu).result
  once := h.once
  anon := h.anon
  first := h.first
  greedy := h.greedy
  convert := h.convert

theorem stateOf_init (d : ArgsDecl V) : stateOf d [] [] = { flagOk := decide (d.flags.length > 0) } := by
  simp [stateOf]

/-- **C37.** For every operator's declarations and every list of arguments: the arguments are accepted exactly when
they are (after combined short flags are written separately) a permitted arrangement, and then exactly the values of
that arrangement are stored in the operator. -/
theorem C37_parse (d : ArgsDecl V) (hd : d.Valid) (args : List V) (op op' : Dict Str (ArgValue V)) :
    d.parse args op = some op' ↔
    ∃ uses vals, Arrangement d uses vals ∧ args.flatMap d.expand = arranged uses vals ∧
      op' = op.update (argStores d uses vals) := by
  constructor
  · intro h
    cases hx : d.extract { flagOk := decide (d.flags.length > 0) } args with
    | none => unfold ArgsDecl.parse at h; rw [hx] at h; cases h
    | some st =>
      have hx' := hx
      rw [extract_eq, ← stateOf_init] at hx'
      obtain ⟨uses, vals, harr, he, rfl⟩ := Arr.of_loop d hd _ st hx'
      have hp := parse_of_state d hd args op uses vals harr hx
      have hA := hp.2 (by rw [h]; rfl)
      refine ⟨uses, vals, hA, he, ?_⟩
      have := hp.1 hA
      rw [h] at this
      exact Option.some.inj this
  · rintro ⟨uses, vals, hA, he, rfl⟩
    have hl := Arr.loop d hd uses vals hA.arr
    rw [← he, stateOf_init, ← extract_eq] at hl
    exact (parse_of_state d hd args op uses vals hA.arr hl).1 hA

/-- The arrangement is determined by the arguments: an argument list cannot be understood in two ways with different
effects. -/
theorem C37_unique (d : ArgsDecl V) (hd : d.Valid) (uses uses' : List (Use V)) (vals vals' : List (AnonUse V))
    (h : Arrangement d uses vals) (h' : Arrangement d uses' vals') (he : arranged uses vals = arranged uses' vals')
    (op : Dict Str (ArgValue V)) : op.update (argStores d uses vals) = op.update (argStores d uses' vals') := by
  have e1 := Arr.loop d hd uses vals h.arr
  have e2 := Arr.loop d hd uses' vals' h'.arr
  rw [he, e2] at e1
  have hst : stateOf d uses' vals' = stateOf d uses vals := Option.some.inj e1
  -- the state determines the stores
  have hlen : vals.length = vals'.length := by
    have h1 : (stateOf d uses vals).anon.length + (stateOf d uses vals).anonList.length = vals.length := by
      rw [stateOf_anon_length]; simp [stateOf]; omega
    have h2 : (stateOf d uses' vals').anon.length + (stateOf d uses' vals').anonList.length = vals'.length := by
      rw [stateOf_anon_length]; simp [stateOf]; omega
    rw [hst] at h2
    omega
  have hflags : uses.map (fun u => (u.flag.target, ArgValue.one u.result)) =
      uses'.map (fun u => (u.flag.target, ArgValue.one u.result)) := by
    have hf : ∀ us : List (Use V), (∀ u ∈ us, u.flag ∈ d.flags) →
        us.map (fun u => (u.flag.target, ArgValue.one u.result)) =
        (us.map (fun u => (u.flag.name, u.result))).map (fun p => ((d.targetOf p.1).getD [], ArgValue.one p.2)) := by
      intro us hus
      rw [List.map_map]
      apply List.map_congr_left
      intro u hu
      simp [targetOf_flag d hd u.flag (hus u hu)]
    rw [hf uses h.arr.declared, hf uses' h'.arr.declared]
    have : (stateOf d uses' vals').flags = (stateOf d uses vals).flags := by rw [hst]
    simp only [stateOf] at this
    rw [this]
  have hanon : (d.anons.zip vals).map (fun (decl, a) => (decl.target, ArgValue.one a.result)) =
      (d.anons.zip vals').map (fun (decl, a) => (decl.target, ArgValue.one a.result)) := by
    have hf : ∀ vs : List (AnonUse V), (d.anons.zip vs).map (fun (decl, a) => (decl.target, ArgValue.one a.result)) =
        ((d.anons.zip vs).map (fun (decl, a) => (decl.name, a.result))).map
          (fun p => ((d.targetOf p.1).getD [], ArgValue.one p.2)) := by
      intro vs
      rw [List.map_map]
      apply List.map_congr_left
      rintro ⟨a, v⟩ hp
      simp [targetOf_anon d hd a (List.of_mem_zip hp).1]
    rw [hf vals, hf vals']
    have : (stateOf d uses' vals').anon = (stateOf d uses vals).anon := by rw [hst]
    simp only [stateOf] at this
    rw [this]
  have hlist : (vals.drop d.anons.length).map (·.result) = (vals'.drop d.anons.length).map (·.result) := by
    have : (stateOf d uses' vals').anonList = (stateOf d uses vals).anonList := by rw [hst]
    exact this.symm
  unfold argStores
  rw [hflags, hanon, hlist, hlen]

/-! ## Non-vacuity -/

/-- Concrete Python values: strings, numbers, `True`. -/
inductive ArgV
  | s (s : Str)
  | n (n : Nat)
  | t
deriving DecidableEq

instance : PyArg ArgV where
  str := fun | .s x => some x | _ => none
  ofStr := .s
  str_ofStr := fun _ => rfl
  tru := .t
  isTrue := fun | .t => true | _ => false
  tru_isTrue := rfl

/-- A declaration with all kinds of arguments: flags `-a`/`--all` without value, `-k` with one value, `-o` with an
optional value, a mandatory anonymous argument, and a list. -/
def exampleDecl : ArgsDecl ArgV where
  flags := [⟨"all".toList, some "-a".toList, some "--all".toList, .noValue, .t, "all".toList, some⟩,
    ⟨"key".toList, some "-k".toList, none, .oneValue, .t, "key_arg".toList,
      fun v => match v with | .n _ => some v | _ => none⟩,
    ⟨"opt".toList, some "-o".toList, none, .optionalValue, .n 7, "opt".toList, some⟩]
  anons := [⟨"cmd".toList, none, "cmd".toList, some⟩]
  anonList := some ⟨"rest".toList, "rest".toList, some⟩
  atMostOne := [["key".toList, "opt".toList]]
  exactlyOne := []

theorem exampleDecl_valid : exampleDecl.Valid where
  shortForm := by
    intro f hf s hs
    simp [exampleDecl] at hf
    rcases hf with rfl | rfl | rfl <;> (simp at hs; subst hs)
    · exact ⟨'a', by decide, rfl⟩
    · exact ⟨'k', by decide, rfl⟩
    · exact ⟨'o', by decide, rfl⟩
  longForm := by
    intro f hf s hs
    simp [exampleDecl] at hf
    rcases hf with rfl | rfl | rfl <;> simp at hs
    subst hs
    exact ⟨'a', ['l', 'l'], by decide, rfl⟩
  symbols := by
    intro i j f g hf hg s h1 h2
    match i, j with
    | 0, 0 => rfl
    | 1, 1 => rfl
    | 2, 2 => rfl
    | i + 3, _ => simp [exampleDecl] at hf
    | _, j + 3 => simp [exampleDecl] at hg
    | 0, 1 | 0, 2 | 1, 0 | 1, 2 | 2, 0 | 2, 1 =>
      exfalso
      simp only [exampleDecl, List.getElem?_cons_zero, List.getElem?_cons_succ] at hf hg
      cases hf
      cases hg
      simp only [FlagDecl.symbol] at h1 h2
      simp at h1 h2
      rcases h1 with rfl | rfl <;> simp at h2
  names := by decide
  default := by
    intro f hf ha
    simp [exampleDecl] at hf
    rcases hf with rfl | rfl | rfl
    · rfl
    · rfl
    · exact absurd rfl ha
  anonOrder := by
    intro i j a b hi hj _ hs
    match i with
    | 0 => simp [exampleDecl] at hi; subst hi; cases hs
    | i + 1 => simp [exampleDecl] at hi
  listTerminal := by
    intro _ a ha
    simp [exampleDecl] at ha
    subst ha
    rfl

/-- `-ak 5 x y` -/
example : exampleDecl.parse [.s "-ak".toList, .n 5, .s "x".toList, .s "y".toList] [] =
    some [("all".toList, .one .t), ("key_arg".toList, .one (.n 5)), ("cmd".toList, .one (.s "x".toList)),
      ("rest".toList, .list [.s "y".toList])] := rfl

/-- A value for `-o` may be left out only if another flag follows. -/
example : exampleDecl.parse [.s "-o".toList, .s "-a".toList, .s "x".toList] [] =
    some [("opt".toList, .one (.n 7)), ("all".toList, .one .t), ("cmd".toList, .one (.s "x".toList)),
      ("rest".toList, .list [])] := rfl

/-- refused: repeated flag, missing value, excluded combination, missing argument, unknown flag -/
example : exampleDecl.parse [.s "-a".toList, .s "--all".toList, .n 1] [] = none := rfl
example : exampleDecl.parse [.s "-k".toList, .s "-a".toList, .n 1] [] = none := rfl
example : exampleDecl.parse [.s "-k".toList, .n 1, .s "-o".toList, .n 1, .n 1] [] = none := rfl
example : exampleDecl.parse [.s "-a".toList] [] = none := rfl
example : exampleDecl.parse [.s "-z".toList, .n 1] [] = none := rfl

example : exampleDecl.Combined (.s "-ak".toList) ['a', 'k'] :=
  ⟨by decide, rfl, by decide, by
    intro l hl
    simp only [List.mem_cons, List.not_mem_nil, or_false] at hl
    rcases hl with rfl | rfl
    · exact ⟨_, by simp [exampleDecl]; left; rfl, "-a".toList, rfl, Or.inl rfl⟩
    · exact ⟨_, by simp [exampleDecl]; right; left; rfl, "-k".toList, rfl, Or.inl rfl⟩⟩

end Marcel
