import Verif.Props.C37_Args

/-! # C39: binding the arguments of a pipeline -/

namespace Marcel
open PyArg
variable {V : Type} [PyArg V]

/-! ## Specification -/

/-- The argument names the parameter `n`: it is `-n` or `--n`. -/
def NamesParam (isIdentifier : Str → Bool) (x : V) (n : Str) : Prop :=
  n ≠ [] ∧ isIdentifier n = true ∧ n.head? ≠ some '-' ∧
  (str x = some ('-' :: n) ∨ str x = some ('-' :: '-' :: n))

/-- A named argument as typed: `-n value`. -/
structure NamedArg (V : Type) where
  sym : V
  name : Str
  value : V

/-! ## Reading the arguments -/

/-- Identifiers do not start with `-`. -/
def IdOK (isIdentifier : Str → Bool) : Prop := ∀ n, isIdentifier n = true → n.head? ≠ some '-'

theorem flagName_iff (s n : Str) (hn : n.head? ≠ some '-') :
    flagName s = some n ↔ s = '-' :: n ∨ s = '-' :: '-' :: n := by
  constructor
  · intro h
    unfold flagName at h
    split at h
    · cases h; exact Or.inr rfl
    · cases h; exact Or.inl rfl
    · cases h
  · rintro (rfl | rfl)
    · unfold flagName
      split
      · rename_i h
        simp at h
        rw [h] at hn
        simp at hn
      · rename_i h
        simp at h
        rw [h]
      · rename_i h
        exact absurd rfl (h n)
    · rfl

theorem paramFlag_iff (isId : Str → Bool) (hid : IdOK isId) (x : V) (n : Str) :
    paramFlag isId x = some n ↔ NamesParam isId x n := by
  unfold paramFlag NamesParam
  cases hs : str x with
  | none => simp
  | some s =>
    simp only [Option.some.injEq]
    constructor
    · intro h
      split at h
      · rename_i m hm
        split at h
        · rename_i hc
          cases h
          simp at hc
          exact ⟨hc.1, hc.2, hid _ hc.2, (flagName_iff s n (hid _ hc.2)).mp hm⟩
        · cases h
      · cases h
    · rintro ⟨h1, h2, h3, h4⟩
      rw [(flagName_iff s n h3).mpr h4]
      simp [h1, h2]

theorem paramFlag_none (isId : Str → Bool) (hid : IdOK isId) (x : V) (h : ∀ n, ¬ NamesParam isId x n) :
    paramFlag isId x = none := by
  cases hp : paramFlag isId x with
  | none => rfl
  | some n => exact absurd ((paramFlag_iff isId hid x n).mp hp) (h n)

theorem pipelineArgs_pos (isId : Str → Bool) (hid : IdOK isId) (pos : List V) (h : ∀ x ∈ pos, ∀ n, ¬ NamesParam isId x n)
    (kwargs : Dict Str V) : ∀ (args : List V) (done : Bool),
    pipelineArgs isId args kwargs none done pos = some (args ++ pos, kwargs) := by
  induction pos with
  | nil => intro args done; simp [pipelineArgs]
  | cons x xs ih =>
    intro args done
    rw [pipelineArgs, paramFlag_none isId hid x (h x (by simp))]
    simp only
    rw [ih (fun y hy => h y (by simp [hy]))]
    simp

/-- **C39** (reading). Named arguments followed by positional ones are understood as such. -/
theorem C39_call (isId : Str → Bool) (hid : IdOK isId) (named : List (NamedArg V)) (pos : List V)
    (hs : ∀ a ∈ named, NamesParam isId a.sym a.name) (hv : ∀ a ∈ named, ∀ n, ¬ NamesParam isId a.value n)
    (hn : (named.map (·.name)).Nodup) (hp : ∀ x ∈ pos, ∀ n, ¬ NamesParam isId x n) :
    pipelineArgs isId [] [] none false (named.flatMap (fun a => [a.sym, a.value]) ++ pos) =
      some (pos, named.map fun a => (a.name, a.value)) := by
  have : ∀ (named : List (NamedArg V)) (kw : Dict Str V), (∀ a ∈ named, NamesParam isId a.sym a.name) →
      (∀ a ∈ named, ∀ n, ¬ NamesParam isId a.value n) → (kw.keys ++ named.map (·.name)).Nodup →
      pipelineArgs isId [] kw none false (named.flatMap (fun a => [a.sym, a.value]) ++ pos) =
        some (pos, kw ++ named.map fun a => (a.name, a.value)) := by
    intro named
    induction named with
    | nil =>
      intro kw _ _ _
      simp only [List.flatMap_nil, List.nil_append, List.map_nil, List.append_nil]
      rw [pipelineArgs_pos isId hid pos hp]
      rfl
    | cons a as ih =>
      intro kw hs hv hn
      simp only [List.flatMap_cons, List.cons_append, List.nil_append, List.append_assoc]
      rw [pipelineArgs, (paramFlag_iff isId hid a.sym a.name).mpr (hs a (by simp))]
      simp only [Bool.false_eq_true, if_false]
      rw [pipelineArgs, paramFlag_none isId hid _ (hv a (by simp))]
      simp only
      rw [List.map_cons, List.nodup_append] at hn
      have hnew : a.name ∉ kw.keys := fun hm => hn.2.2 _ hm a.name (by simp) rfl
      rw [(has_false_iff kw a.name).mpr hnew, if_neg (by decide), dict_set_new _ _ _ hnew]
      rw [ih (kw ++ [(a.name, a.value)]) (fun b hb => hs b (by simp [hb])) (fun b hb => hv b (by simp [hb]))]
      · simp
      · have : Dict.keys (kw ++ [(a.name, a.value)]) ++ as.map (·.name) = kw.keys ++ (a.name :: as.map (·.name)) := by
          simp [Dict.keys]
        rw [this, List.nodup_append]
        exact hn
  have := this named [] hs hv (by simpa [Dict.keys] using hn)
  simpa using this

/-- Every parameter name among the arguments is directly followed by a value. -/
def EachHasValue (isId : Str → Bool) : List V → Prop
  | [] => True
  | [x] => ∀ n, ¬ NamesParam isId x n
  | x :: y :: rest => ((∃ n, NamesParam isId x n) → ∀ n, ¬ NamesParam isId y n) ∧ EachHasValue isId (y :: rest)

/-- **C39** (reading, converse). If the arguments are accepted, and every parameter name has its value, then they are
named arguments with distinct names followed by positional ones. -/
theorem C39_call_conv (isId : Str → Bool) (hid : IdOK isId) (xs : List V) (args : List V) (kwargs : Dict Str V)
    (hc : EachHasValue isId xs) (h : pipelineArgs isId [] [] none false xs = some (args, kwargs)) :
    ∃ named : List (NamedArg V), (∀ a ∈ named, NamesParam isId a.sym a.name) ∧
      (∀ a ∈ named, ∀ n, ¬ NamesParam isId a.value n) ∧ (named.map (·.name)).Nodup ∧
      (∀ x ∈ args, ∀ n, ¬ NamesParam isId x n) ∧
      xs = named.flatMap (fun a => [a.sym, a.value]) ++ args ∧ kwargs = named.map fun a => (a.name, a.value) := by
  -- after the first positional argument
  have hpos : ∀ (xs args0 args : List V) (kw kw' : Dict Str V),
      pipelineArgs isId args0 kw none true xs = some (args, kw') →
      kw' = kw ∧ args = args0 ++ xs ∧ ∀ x ∈ xs, ∀ n, ¬ NamesParam isId x n := by
    intro xs
    induction xs with
    | nil =>
      intro args0 args kw kw' h
      simp only [pipelineArgs, Option.some.injEq, Prod.mk.injEq] at h
      exact ⟨h.2.symm, by simp [h.1], by simp⟩
    | cons x xs ih =>
      intro args0 args kw kw' h
      rw [pipelineArgs] at h
      cases hp : paramFlag isId x with
      | some n => rw [hp] at h; simp at h
      | none =>
        rw [hp] at h
        obtain ⟨h1, h2, h3⟩ := ih _ _ _ _ h
        refine ⟨h1, by simp [h2], ?_⟩
        intro y hy
        rcases List.mem_cons.mp hy with rfl | hy
        · intro n hn
          rw [(paramFlag_iff isId hid y n).mpr hn] at hp
          cases hp
        · exact h3 y hy
  have hmain : ∀ (k : Nat) (xs args : List V) (kw kw' : Dict Str V), xs.length ≤ k → kw.keys.Nodup → EachHasValue isId xs →
      pipelineArgs isId [] kw none false xs = some (args, kw') →
      ∃ named : List (NamedArg V), (∀ a ∈ named, NamesParam isId a.sym a.name) ∧
        (∀ a ∈ named, ∀ n, ¬ NamesParam isId a.value n) ∧ (kw.keys ++ named.map (·.name)).Nodup ∧
        (∀ x ∈ args, ∀ n, ¬ NamesParam isId x n) ∧
        xs = named.flatMap (fun a => [a.sym, a.value]) ++ args ∧ kw' = kw ++ named.map fun a => (a.name, a.value) := by
    intro k
    induction k with
    | zero =>
      intro xs args kw kw' hk hkn _ h
      have : xs = [] := List.length_eq_zero_iff.mp (by omega)
      subst this
      simp only [pipelineArgs, Option.some.injEq, Prod.mk.injEq] at h
      refine ⟨[], by simp, by simp, by simpa using hkn, by simp [← h.1], by simp [← h.1], by simp [h.2]⟩
    | succ k ih =>
      intro xs args kw kw' hk hkn hc h
      match xs with
      | [] =>
        simp only [pipelineArgs, Option.some.injEq, Prod.mk.injEq] at h
        exact ⟨[], by simp, by simp, by simpa using hkn, by simp [← h.1], by simp [← h.1], by simp [h.2]⟩
      | [x] =>
        rw [pipelineArgs, paramFlag_none isId hid x hc] at h
        simp only [pipelineArgs, Option.some.injEq, Prod.mk.injEq] at h
        refine ⟨[], by simp, by simp, by simpa using hkn, ?_, by simp [← h.1], by simp [h.2]⟩
        intro y hy
        rw [← h.1] at hy
        simp at hy
        rw [hy]
        exact hc
      | x :: y :: rest =>
        rw [pipelineArgs] at h
        cases hp : paramFlag isId x with
        | none =>
          rw [hp] at h
          simp only [List.nil_append] at h
          obtain ⟨h1, h2, h3⟩ := hpos (y :: rest) [x] args kw kw' h
          refine ⟨[], by simp, by simp, by simpa using hkn, ?_, by simp [h2], by simp [h1]⟩
          intro z hz
          rw [h2] at hz
          simp only [List.cons_append, List.nil_append, List.mem_cons] at hz
          rcases hz with rfl | hz
          · intro n hn
            rw [(paramFlag_iff isId hid z n).mpr hn] at hp
            cases hp
          · exact h3 z (by simpa using hz)
        | some n =>
          have hn := (paramFlag_iff isId hid x n).mp hp
          have hy := hc.1 ⟨n, hn⟩
          rw [hp] at h
          simp only [Bool.false_eq_true, if_false] at h
          rw [pipelineArgs, paramFlag_none isId hid y hy] at h
          simp only at h
          cases hh : kw.has n with
          | true => rw [hh] at h; simp at h
          | false =>
            rw [hh] at h
            have hnew := (has_false_iff kw n).mp hh
            rw [if_neg (by decide), dict_set_new _ _ _ hnew] at h
            have hc' : EachHasValue isId rest := by
              have := hc.2
              cases rest with
              | nil => trivial
              | cons z zs => exact this.2
            have hkn' : (Dict.keys (kw ++ [(n, y)])).Nodup := by
              simp only [Dict.keys, List.map_append, List.map_cons, List.map_nil]
              rw [List.nodup_append]
              refine ⟨hkn, by simp, ?_⟩
              intro a ha b hb e
              simp at hb
              subst hb
              subst e
              exact hnew ha
            obtain ⟨named, n1, n2, n3, n4, n5, n6⟩ := ih rest args _ kw' (by simp at hk; omega) hkn' hc' h
            refine ⟨⟨x, n, y⟩ :: named, ?_, ?_, ?_, n4, by simp [n5], by simp [n6]⟩
            · intro a ha
              rcases List.mem_cons.mp ha with rfl | ha
              · exact hn
              · exact n1 a ha
            · intro a ha
              rcases List.mem_cons.mp ha with rfl | ha
              · exact hy
              · exact n2 a ha
            · have : kw.keys ++ (⟨x, n, y⟩ :: named : List (NamedArg V)).map (·.name) =
                  Dict.keys (kw ++ [(n, y)]) ++ named.map (·.name) := by simp [Dict.keys]
              rw [this]
              exact n3
  obtain ⟨named, h1, h2, h3, h4, h5, h6⟩ := hmain xs.length xs args [] kwargs (Nat.le_refl _) (by simp [Dict.keys]) hc h
  exact ⟨named, h1, h2, by simpa [Dict.keys] using h3, h4, h5, by simpa using h6⟩

/-- A parameter name at the end, without a value, is silently ignored (if there are no positional arguments). -/
theorem C39_dangling_false (isId : Str → Bool) (hid : IdOK isId) (x : V) (n : Str) (hx : NamesParam isId x n) :
    pipelineArgs isId [] [] none false [x] = pipelineArgs isId [] [] none false ([] : List V) := by
  have h := (paramFlag_iff isId hid x n).mpr hx
  simp [pipelineArgs, h]

/-! ## Binding -/

/-- Updating a dict with distinct keys. -/
theorem foldl_set_get? {α : Type} (xs : List α) (key : α → Str) (val : α → Option V) : ∀ (b : Dict Str (Option V)) (k : Str),
    k ∉ xs.map key → Dict.get? (xs.foldl (fun b x => Dict.set b (key x) (val x)) b) k = b.get? k := by
  induction xs with
  | nil => intro b k _; rfl
  | cons x xs ih =>
    intro b k hk
    simp only [List.map_cons, List.mem_cons, not_or] at hk
    rw [List.foldl_cons, ih _ _ hk.2, Dict.get?_set, if_neg (Ne.symm hk.1)]

theorem foldl_set_get?_mem {α : Type} (xs : List α) (key : α → Str) (val : α → Option V) (hn : (xs.map key).Nodup) :
    ∀ (b : Dict Str (Option V)) (x : α), x ∈ xs →
    Dict.get? (xs.foldl (fun b x => Dict.set b (key x) (val x)) b) (key x) = some (val x) := by
  induction xs with
  | nil => intro b x hx; simp at hx
  | cons y ys ih =>
    intro b x hx
    simp only [List.map_cons, List.nodup_cons] at hn
    rw [List.foldl_cons]
    rcases List.mem_cons.mp hx with rfl | hx
    · rw [foldl_set_get? ys key val _ _ hn.1, Dict.get?_set]
      simp
    · exact ih hn.2 _ x hx

/-- Before the parameters not given are added. -/
def givenBindings (params : List Str) (args : List V) (kwargs : Dict Str V) : Dict Str (Option V) :=
  kwargs.foldl (fun b (k, v) => Dict.set b k (some v)) ((params.zip args).foldl (fun b (p, v) => Dict.set b p (some v)) [])

theorem zip_keys (params : List Str) : ∀ args : List V, (params.zip args).map (·.1) = params.take args.length := by
  induction params with
  | nil => intro args; simp
  | cons p ps ih =>
    intro args
    cases args with
    | nil => simp
    | cons a as => simp [ih]

theorem given_get? (params : List Str) (args : List V) (kwargs : Dict Str V) (hp : params.Nodup) (hk : kwargs.keys.Nodup)
    (hd : ∀ k ∈ kwargs.keys, k ∉ params.take args.length) :
    (∀ (i : Nat) (p : Str) (v : V), params[i]? = some p → args[i]? = some v → (givenBindings params args kwargs).get? p = some (some v)) ∧
    (∀ k, k ∉ params.take args.length → (givenBindings params args kwargs).get? k = (kwargs.get? k).map some) := by
  have hz : ((params.zip args).map (·.1)).Nodup := by
    rw [zip_keys]
    exact hp.sublist (List.take_sublist _ _)
  constructor
  · intro i p v h1 h2
    have hmem : (p, v) ∈ params.zip args := by
      apply List.mem_iff_getElem?.mpr
      exact ⟨i, by rw [List.getElem?_zip_eq_some]; exact ⟨h1, h2⟩⟩
    have hpt : p ∈ params.take args.length := by
      rw [← zip_keys]
      exact List.mem_map.mpr ⟨(p, v), hmem, rfl⟩
    have hnk : p ∉ kwargs.keys := fun h => hd p h hpt
    unfold givenBindings
    rw [foldl_set_get? kwargs (·.1) (fun x => some x.2) _ _ hnk]
    exact foldl_set_get?_mem (params.zip args) (·.1) (fun x => some x.2) hz [] (p, v) hmem
  · intro k hk'
    unfold givenBindings
    cases hg : kwargs.get? k with
    | none =>
      rw [foldl_set_get? kwargs (·.1) (fun x => some x.2) _ _ ((Dict.get?_eq_none_iff _ _).mp hg)]
      rw [foldl_set_get? (params.zip args) (·.1) (fun x => some x.2) _ _ (by rw [zip_keys]; exact hk')]
      rfl
    | some v =>
      exact foldl_set_get?_mem kwargs (·.1) (fun x => some x.2) hk _ (k, v) (Dict.mem_of_get? _ _ _ hg)

/-- **C39** (binding). A call is accepted exactly when there are not too many arguments and none is given twice; then
each parameter is bound to the positional argument in its place, or else to the argument with its name, or else to
`None`; and nothing else is bound except for keywords. -/
theorem C39_bindings (params : List Str) (args : List V) (kwargs : Dict Str V) (hp : params.Nodup) (hk : kwargs.keys.Nodup) :
    ((pipelineBindings params args kwargs).isSome ↔
      args.length + kwargs.length ≤ params.length ∧ ∀ k ∈ kwargs.keys, k ∉ params.take args.length) ∧
    ∀ b, pipelineBindings params args kwargs = some b →
      (∀ (i : Nat) (p : Str), params[i]? = some p → b.get? p = some (match args[i]? with
        | some v => some v
        | none => kwargs.get? p)) ∧
      ∀ k, (b.get? k).isSome ↔ k ∈ params ∨ k ∈ kwargs.keys := by
  have hposkeys : ∀ k, Dict.has ((params.zip args).foldl (fun b (p, v) => Dict.set b p (some v)) ([] : Dict Str (Option V))) k = true ↔
      k ∈ params.take args.length := by
    intro k
    have hz : ((params.zip args).map (·.1)).Nodup := by
      rw [zip_keys]
      exact hp.sublist (List.take_sublist _ _)
    unfold Dict.has
    constructor
    · intro h
      apply Classical.byContradiction
      intro hn
      rw [foldl_set_get? (params.zip args) (·.1) (fun x => some x.2) _ _ (by rw [zip_keys]; exact hn)] at h
      cases h
    · intro h
      rw [← zip_keys] at h
      obtain ⟨⟨p, v⟩, hm, rfl⟩ := List.mem_map.mp h
      rw [foldl_set_get?_mem (params.zip args) (·.1) (fun x => some x.2) hz [] (p, v) hm]
      rfl
  have hany : (kwargs.keys.any (fun k => Dict.has ((params.zip args).foldl (fun b (p, v) => Dict.set b p (some v))
      ([] : Dict Str (Option V))) k)) = true ↔ ¬ ∀ k ∈ kwargs.keys, k ∉ params.take args.length := by
    rw [List.any_eq_true]
    constructor
    · rintro ⟨k, h1, h2⟩ hall
      exact hall k h1 ((hposkeys k).mp h2)
    · intro h
      apply Classical.byContradiction
      intro hn
      apply h
      intro k hk hm
      exact hn ⟨k, hk, (hposkeys k).mpr hm⟩
  unfold pipelineBindings bindings
  by_cases hlen : args.length + kwargs.length ≤ params.length
  · rw [if_neg (by omega), if_neg (by omega)]
    by_cases hdup : ∀ k ∈ kwargs.keys, k ∉ params.take args.length
    · have : (kwargs.keys.any (fun k => Dict.has ((params.zip args).foldl (fun b (p, v) => Dict.set b p (some v))
          ([] : Dict Str (Option V))) k)) = false := by
        cases h : (kwargs.keys.any (fun k => Dict.has ((params.zip args).foldl (fun b (p, v) => Dict.set b p (some v))
          ([] : Dict Str (Option V))) k)) with
        | false => rfl
        | true => exact absurd hdup (hany.mp h)
      simp only [this, Bool.false_eq_true, if_false]
      refine ⟨by simp [hlen]; simpa using hdup, ?_⟩
      intro b hb
      have hb' : (params.filter fun p => !(givenBindings params args kwargs).has p).foldl
          (fun b p => Dict.set b p none) (givenBindings params args kwargs) = b := Option.some.inj hb
      obtain ⟨g1, g2⟩ := given_get? params args kwargs hp hk hdup
      generalize hG : givenBindings params args kwargs = G at hb' g1 g2
      have hfn : ((params.filter fun p => !G.has p).map id).Nodup := by
        rw [List.map_id]
        exact hp.sublist List.filter_sublist
      have hget : ∀ k, b.get? k = if k ∈ params ∧ G.get? k = none then some none else G.get? k := by
        intro k
        rw [← hb']
        by_cases hm : k ∈ params ∧ G.get? k = none
        · rw [if_pos hm]
          exact foldl_set_get?_mem _ id (fun _ => none) hfn G k (by
            rw [List.mem_filter]
            exact ⟨hm.1, by simp [Dict.has, hm.2]⟩)
        · rw [if_neg hm]
          apply foldl_set_get? _ id (fun _ => none)
          rw [List.map_id, List.mem_filter]
          rintro ⟨h1, h2⟩
          apply hm
          refine ⟨h1, ?_⟩
          simpa [Dict.has] using h2
      have hnot : ∀ (i : Nat) (p : Str), params[i]? = some p → args[i]? = none → p ∉ params.take args.length := by
        intro i p h1 h2 hm
        obtain ⟨j, hj⟩ := List.mem_iff_getElem?.mp hm
        rw [List.getElem?_take] at hj
        split at hj
        · rename_i hlt
          have hi : i < params.length := (List.getElem?_eq_some_iff.mp h1).1
          have : i = j := by
            have hj' : j < params.length := (List.getElem?_eq_some_iff.mp hj).1
            have e : params[i]? = params[j]? := by rw [h1, hj]
            exact (List.getElem?_inj hi hp).mp e
          subst this
          have := List.getElem?_eq_none_iff.mp h2
          omega
        · cases hj
      constructor
      · intro i p hi
        rw [hget]
        cases ha : args[i]? with
        | some v =>
          rw [g1 i p v hi ha]
          simp
        | none =>
          rw [g2 p (hnot i p hi ha)]
          have hm : p ∈ params := List.mem_iff_getElem?.mpr ⟨i, hi⟩
          cases hkw : kwargs.get? p with
          | none => simp [hm]
          | some v => simp
      · intro k
        rw [hget]
        by_cases hm : k ∈ params
        · by_cases hg : G.get? k = none
          · simp [hm, hg]
          · rw [if_neg (fun h => hg h.2)]
            simp [hm, Option.isSome_iff_ne_none, hg]
        · rw [if_neg (fun h => hm h.1)]
          rw [g2 k (fun h => hm (List.mem_of_mem_take h))]
          simp [hm]
          rw [Dict.get?_isSome_iff]
    · simp only [hany.mpr hdup, if_true]
      exact ⟨by simp [hdup], by simp⟩
  · rw [if_pos (by omega)]
    exact ⟨by simp; intro h; omega, by simp⟩

/-- **C39**, for calls that name only parameters of the pipeline: exactly the parameters are bound. Missing: a call that
names something else should be refused, see `C39_unknown_false`. -/
theorem C39_partial (params : List Str) (args : List V) (kwargs : Dict Str V) (hp : params.Nodup) (hk : kwargs.keys.Nodup)
    (hknown : ∀ k ∈ kwargs.keys, k ∈ params) (b : Dict Str (Option V)) (hb : pipelineBindings params args kwargs = some b) :
    ∀ k, (b.get? k).isSome ↔ k ∈ params := by
  intro k
  rw [((C39_bindings params args kwargs hp hk).2 b hb).2 k]
  constructor
  · rintro (h | h)
    · exact h
    · exact hknown k h
  · exact Or.inl

/-- The whole claim is false: naming a parameter that the pipeline does not have is not refused; the name is bound as a
variable (unless there are too many arguments in all). -/
theorem C39_unknown_false (p k : Str) (h : k ≠ p) (v : V) :
    pipelineBindings [p] [] [(k, v)] = some [(k, some v), (p, none)] := by
  have hf : ((none : Option (Option V)).isSome) = false := rfl
  simp [pipelineBindings, bindings, Dict.keys, Dict.has, Dict.get?, Dict.set, h]

/-! ## Non-vacuity -/

/-- `f -b 2 1` for `f = (| a, b: ... |)` -/
example : pipelineArgs (fun n => n.all Char.isAlpha) [] [] none false [ArgV.s "-b".toList, .n 2, .n 1] =
    some ([.n 1], [("b".toList, .n 2)]) := rfl

example : pipelineBindings ["a".toList, "b".toList, "c".toList] [ArgV.n 1] [("b".toList, .n 2)] =
    some [("a".toList, some (.n 1)), ("b".toList, some (.n 2)), ("c".toList, none)] := rfl

example : pipelineBindings ["a".toList, "b".toList] [ArgV.n 1] [("a".toList, .n 2)] = none := rfl

example : IdOK (fun n => n.all Char.isAlpha) := by
  intro n h hh
  cases n with
  | nil => cases hh
  | cons c cs =>
    simp at hh
    subst hh
    simp at h

example : NamesParam (fun n => n.all Char.isAlpha) (ArgV.s "--b".toList) "b".toList :=
  ⟨by decide, by decide, by decide, Or.inr rfl⟩

end Marcel
