import Verif.Model.EnvOp
import Verif.Lemmas.Dict
import Verif.Props.C06_Sort

/-! C77: `env` shows the variables. -/

namespace Marcel.EnvOp
open Dict

variable {V : Type}

/-- The usual order of text: `s` is a beginning of `t`, or at the first difference `s` has the character with the smaller code. -/
def Before (s t : Str) : Prop :=
  (∃ c cs, t = s ++ c :: cs) ∨ ∃ p a b s' t', s = p ++ a :: s' ∧ t = p ++ b :: t' ∧ a.toNat < b.toNat

theorem before_cons (c : Char) (s t : Str) : Before (c :: s) (c :: t) ↔ Before s t := by
  constructor
  · rintro (⟨d, ds, h⟩ | ⟨p, a, b, s', t', h1, h2, h3⟩)
    · simp only [List.cons_append, List.cons.injEq, true_and] at h
      exact .inl ⟨d, ds, h⟩
    · cases p with
      | nil =>
        simp only [List.nil_append, List.cons.injEq] at h1 h2
        rw [← h1.1, ← h2.1] at h3
        exact absurd h3 (Nat.lt_irrefl _)
      | cons e p =>
        simp only [List.cons_append, List.cons.injEq] at h1 h2
        exact .inr ⟨p, a, b, s', t', h1.2, h2.2, h3⟩
  · rintro (⟨d, ds, h⟩ | ⟨p, a, b, s', t', h1, h2, h3⟩)
    · exact .inl ⟨d, ds, by rw [h]; rfl⟩
    · exact .inr ⟨c :: p, a, b, s', t', by rw [h1]; rfl, by rw [h2]; rfl, h3⟩

theorem not_before_nil (s : Str) : ¬ Before s [] := by
  rintro (⟨d, ds, h⟩ | ⟨p, a, b, s', t', h1, h2, h3⟩) <;> simp at *

theorem strLt_iff (s t : Str) : strLt s t = true ↔ Before s t := by
  induction s generalizing t with
  | nil =>
    cases t with
    | nil => simp [strLt, not_before_nil]
    | cons c t => simp only [strLt, true_iff]; exact .inl ⟨c, t, rfl⟩
  | cons a s ih =>
    cases t with
    | nil => simp [strLt, not_before_nil]
    | cons b t =>
      simp only [strLt]
      by_cases h : a = b
      · subst h; rw [if_pos rfl, ih, before_cons]
      · rw [if_neg h, decide_eq_true_eq]
        constructor
        · intro hl; exact .inr ⟨[], a, b, s, t, rfl, rfl, hl⟩
        · rintro (⟨d, ds, h'⟩ | ⟨p, a', b', s', t', h1, h2, h3⟩)
          · simp only [List.cons_append, List.cons.injEq] at h'; exact absurd h'.1.symm h
          · cases p with
            | nil =>
              simp only [List.nil_append, List.cons.injEq] at h1 h2
              rw [h1.1, h2.1]; exact h3
            | cons e p =>
              simp only [List.cons_append, List.cons.injEq] at h1 h2
              exact absurd (h1.1.trans h2.1.symm) h

theorem before_trans {s t u : Str} (h1 : Before s t) (h2 : Before t u) : Before s u := by
  induction s generalizing t u with
  | nil =>
    cases u with
    | nil => exact absurd h2 (not_before_nil _)
    | cons c u => exact .inl ⟨c, u, rfl⟩
  | cons a s ih =>
    cases t with
    | nil => exact absurd h1 (not_before_nil _)
    | cons b t =>
      cases u with
      | nil => exact absurd h2 (not_before_nil _)
      | cons c u =>
        rw [← strLt_iff] at h1 h2 ⊢
        simp only [strLt] at h1 h2 ⊢
        by_cases hab : a = b
        · subst hab
          rw [if_pos rfl, strLt_iff] at h1
          by_cases hac : a = c
          · subst hac; rw [if_pos rfl, strLt_iff] at h2; rw [if_pos rfl, strLt_iff]; exact ih h1 h2
          · rw [if_neg hac] at h2 ⊢; exact h2
        · rw [if_neg hab, decide_eq_true_eq] at h1
          by_cases hbc : b = c
          · subst hbc; rw [if_neg hab, decide_eq_true_eq]; exact h1
          · rw [if_neg hbc, decide_eq_true_eq] at h2
            have hac : a ≠ c := by rintro rfl; omega
            rw [if_neg hac, decide_eq_true_eq]; omega

theorem before_irrefl (s : Str) : ¬ Before s s := by
  induction s with
  | nil => exact not_before_nil _
  | cons c s ih => rw [before_cons]; exact ih

theorem before_total (s t : Str) (h : s ≠ t) : Before s t ∨ Before t s := by
  induction s generalizing t with
  | nil => cases t with
    | nil => exact absurd rfl h
    | cons c t => exact .inl (.inl ⟨c, t, rfl⟩)
  | cons a s ih =>
    cases t with
    | nil => exact .inr (.inl ⟨a, s, rfl⟩)
    | cons b t =>
      by_cases hab : a = b
      · subst hab
        rw [before_cons, before_cons]
        exact ih t (by rintro rfl; exact h rfl)
      · have : a.toNat ≠ b.toNat := fun e => hab (Char.toNat_inj.1 e)
        rcases Nat.lt_or_gt_of_ne this with h' | h'
        · exact .inl (.inr ⟨[], a, b, s, t, rfl, rfl, h'⟩)
        · exact .inr (.inr ⟨[], b, a, t, s, rfl, rfl, h'⟩)

theorem pyInsert_congr {κ α : Type} (lt lt' : κ → κ → Option Bool) (x : κ × α) (ys : List (κ × α)) (h : ∀ y ∈ ys, lt x.1 y.1 = lt' x.1 y.1) :
    pyInsert lt x ys = pyInsert lt' x ys := by
  induction ys with
  | nil => rfl
  | cons y ys ih => simp only [pyInsert]; rw [h y (by simp), ih fun z hz => h z (by simp [hz])]

theorem pyInsert_perm {κ α : Type} (lt : κ → κ → Option Bool) (x : κ × α) (ys zs : List (κ × α)) (h : pyInsert lt x ys = some zs) : zs.Perm (x :: ys) := by
  induction ys generalizing zs with
  | nil => simp only [pyInsert, Option.some.injEq] at h; subst h; exact .refl _
  | cons y ys ih =>
    simp only [pyInsert] at h
    cases hl : lt x.1 y.1 with
    | none => rw [hl] at h; cases h
    | some b =>
      rw [hl] at h
      cases b with
      | true => cases h; exact .refl _
      | false =>
        simp only at h
        cases hi : pyInsert lt x ys with
        | none => rw [hi] at h; cases h
        | some ws => rw [hi] at h; cases h; exact ((ih _ hi).cons y).trans (.swap _ _ _)

theorem pySort_congr {κ α : Type} (lt lt' : κ → κ → Option Bool) (xs acc : List (κ × α))
    (h : (acc ++ xs).Pairwise fun a b => lt a.1 b.1 = lt' a.1 b.1 ∧ lt b.1 a.1 = lt' b.1 a.1) : pySort lt acc xs = pySort lt' acc xs := by
  induction xs generalizing acc with
  | nil => rfl
  | cons x xs ih =>
    have hp : (acc ++ x :: xs).Perm ((x :: acc) ++ xs) := List.perm_middle
    have h' := hp.pairwise h (fun ⟨h1, h2⟩ => ⟨h2, h1⟩)
    simp only [pySort]
    rw [pyInsert_congr lt lt' x acc fun y hy => by
      rw [List.cons_append, List.pairwise_cons] at h'
      exact (h'.1 y (by simp [hy])).1]
    cases hi : pyInsert lt' x acc with
    | none => rfl
    | some zs =>
      simp only
      exact ih zs (((pyInsert_perm _ _ _ _ hi).append_right xs).symm.pairwise h' fun ⟨h1, h2⟩ => ⟨h2, h1⟩)

/-- `sorted` on pairs with distinct first components never compares second ones. -/
theorem sortedPairs_spec (lt : V → V → Option Bool) (l : List (Str × V)) (hn : (l.map (·.1)).Nodup) :
    ∃ r, sortedPairs lt l = some r ∧ r.Perm l ∧ r.Pairwise fun a b => Before a.1 b.1 := by
  have hc : pySort (pairLt lt) [] (l.map fun kv => (kv, ())) = pySort (pairLt fun _ _ => some false) [] (l.map fun kv => (kv, ())) := by
    apply pySort_congr
    rw [List.nil_append, List.pairwise_map]
    rw [List.Nodup, List.pairwise_map] at hn
    refine hn.imp ?_
    intro a b hab
    simp only [pairLt]
    rw [if_neg hab, if_neg (Ne.symm hab), if_neg hab, if_neg (Ne.symm hab)]
    exact ⟨rfl, rfl⟩
  have hO : OrderedOn (fun _ : Str × V => True) (pairLt fun _ _ => some false) (fun a b => a.1 = b.1 ∨ Before a.1 b.1) := by
    constructor
    · intro a b _ _
      simp only [pairLt]
      by_cases hab : a.1 = b.1
      · rw [if_pos hab]; exact .inr ⟨rfl, .inl hab.symm⟩
      · rw [if_neg hab]
        rcases Bool.eq_false_or_eq_true (strLt a.1 b.1) with h | h
        · rw [h]
          refine .inl ⟨rfl, ?_⟩
          rintro (h' | h')
          · exact hab h'.symm
          · exact before_irrefl _ (before_trans ((strLt_iff _ _).1 h) h')
        · rw [h]
          refine .inr ⟨rfl, ?_⟩
          rcases before_total _ _ hab with h' | h'
          · rw [(strLt_iff _ _).2 h'] at h; cases h
          · exact .inr h'
    · intro a b _ _
      by_cases hab : a.1 = b.1
      · exact .inl (.inl hab)
      · rcases before_total _ _ hab with h | h
        · exact .inl (.inr h)
        · exact .inr (.inr h)
    · rintro a b c (h | h) (h' | h')
      · exact .inl (h.trans h')
      · exact .inr (h ▸ h')
      · exact .inr (h' ▸ h)
      · exact .inr (before_trans h h')
  obtain ⟨zs, h1, h2, h3, _⟩ := pySort_spec (α := Unit) hO (l.map fun kv => (kv, ())) [] (fun _ _ => trivial) .nil
  rw [List.nil_append] at h2
  have hp : (zs.map (·.1)).Perm l := by
    have := h2.map (·.1)
    rw [List.map_map] at this
    simpa [Function.comp_def] using this
  refine ⟨zs.map (·.1), ?_, hp, ?_⟩
  · unfold sortedPairs; rw [hc, h1]; rfl
  · have hd : (zs.map (·.1)).Pairwise fun a b => a.1 ≠ b.1 := by
      rw [List.Nodup, List.pairwise_map] at hn
      exact hp.symm.pairwise hn fun h => Ne.symm h
    have h3' : (zs.map (·.1)).Pairwise fun a b => a.1 = b.1 ∨ Before a.1 b.1 := by rw [List.pairwise_map]; exact h3
    exact hd.imp₂ (fun a b h1 h2 => h2.resolve_left h1) h3'

theorem isIn_iff (pat s : Str) : isIn pat s = true ↔ ∃ p q, s = p ++ pat ++ q := by
  induction s with
  | nil =>
    simp only [isIn]
    rw [List.isPrefixOf_iff_prefix]
    constructor
    · rintro ⟨t, h⟩; exact ⟨[], t, by rw [List.nil_append]; exact h.symm⟩
    · rintro ⟨p, q, h⟩
      have : p = [] ∧ pat = [] ∧ q = [] := by simpa [and_assoc] using h.symm
      rw [this.2.1]; exact List.nil_prefix
  | cons c s ih =>
    simp only [isIn, Bool.or_eq_true]
    rw [ih, List.isPrefixOf_iff_prefix]
    constructor
    · rintro (⟨t, h⟩ | ⟨p, q, h⟩)
      · exact ⟨[], t, by rw [List.nil_append]; exact h.symm⟩
      · exact ⟨c :: p, q, by rw [h]; rfl⟩
    · rintro ⟨p, q, h⟩
      cases p with
      | nil => exact .inl ⟨q, by rw [h]; rfl⟩
      | cons d p =>
        simp only [List.cons_append, List.cons.injEq] at h
        exact .inr ⟨p, q, h.2⟩

theorem includes_iff (a : EnvArgs) (x : Str) : includes a x = true ↔ a.builtins = true ∨ x ≠ "__builtins__".toList := by
  unfold includes; simp

theorem given_some (s : Str) (h : s ≠ []) : given (some s) = some s := by
  cases s with
  | nil => exact absurd rfl h
  | cons => rfl

/-- **C77.** `env` without a variable, with or without `--pattern`, `--builtins` and `--os`: it succeeds whatever the values are, changes no variable, and shows every variable once, with its value, in increasing order of
the names; with `-p PATTERN` those whose names contain PATTERN, and in the marcel namespace `__builtins__` only if asked for. `ns` and `os` are the marcel and the OS variables, `lt` is Python's comparison of values. -/
theorem C77_list (lt : V → V → Option Bool) (isNone : V → Bool) (refused : Str → Bool) (os ns : Dict Str V)
    (hos : (os.map (·.1)).Nodup) (hns : (ns.map (·.1)).Nodup) (pattern : Option Str) (showBuiltins useOs : Bool) :
    let r := env lt isNone refused os ns { var := none, delete := none, pattern := pattern, builtins := showBuiltins, os := useOs }
    r.err = none ∧ r.ns = ns ∧ r.out.Pairwise (fun a b => Before a.1 b.1) ∧
      ∀ x v, (x, v) ∈ r.out ↔
        (if useOs then (x, v) ∈ os else (x, v) ∈ ns ∧ (showBuiltins = true ∨ x ≠ "__builtins__".toList)) ∧
        (∀ pat, pattern = some pat → ∃ p q, x = p ++ pat ++ q) := by
  intro r
  obtain ⟨so, ho1, ho2, ho3⟩ := sortedPairs_spec lt os hos
  obtain ⟨sn, hn1, hn2, hn3⟩ := sortedPairs_spec lt ns hns
  cases pattern with
  | none =>
    cases useOs with
    | true =>
      have hr : r = ⟨so, ns, none⟩ := by show env _ _ _ _ _ _ = _; simp [env, given, ho1]
      rw [hr]
      exact ⟨rfl, rfl, ho3, fun x v => ⟨fun h => ⟨ho2.mem_iff.1 h, fun _ h => by cases h⟩, fun h => ho2.mem_iff.2 h.1⟩⟩
    | false =>
      have hr : r = ⟨sn.filter fun kv => includes { var := none, delete := none, pattern := none, builtins := showBuiltins, os := false } kv.1, ns, none⟩ := by
        show env _ _ _ _ _ _ = _; simp [env, given, hn1]
      rw [hr]
      refine ⟨rfl, rfl, hn3.filter _, fun x v => ?_⟩
      simp only [List.mem_filter, includes_iff]
      rw [hn2.mem_iff]
      exact ⟨fun h => ⟨h, fun _ h => by cases h⟩, fun h => h.1⟩
  | some pat =>
    by_cases hpat : pat = []
    · subst hpat
      have hin : ∀ x : Str, ∀ pat : Str, some [] = some pat → ∃ p q, x = p ++ pat ++ q := fun x pat e => by cases e; exact ⟨x, [], by simp⟩
      cases useOs with
      | true =>
        have hr : r = ⟨so, ns, none⟩ := by show env _ _ _ _ _ _ = _; simp [env, given, ho1]
        rw [hr]
        exact ⟨rfl, rfl, ho3, fun x v => ⟨fun h => ⟨ho2.mem_iff.1 h, hin x⟩, fun h => ho2.mem_iff.2 h.1⟩⟩
      | false =>
        have hr : r = ⟨sn.filter fun kv => includes { var := none, delete := none, pattern := some [], builtins := showBuiltins, os := false } kv.1, ns, none⟩ := by
          show env _ _ _ _ _ _ = _; simp [env, given, hn1]
        rw [hr]
        refine ⟨rfl, rfl, hn3.filter _, fun x v => ?_⟩
        simp only [List.mem_filter, includes_iff]
        rw [hn2.mem_iff]
        exact ⟨fun h => ⟨h, hin x⟩, fun h => h.1⟩
    cases useOs with
    | true =>
      have hr : r = ⟨so.filter fun kv => isIn pat kv.1, ns, none⟩ := by
        show env _ _ _ _ _ _ = _
        simp only [env, given_some pat hpat]
        simp [given, ho1]
      rw [hr]
      refine ⟨rfl, rfl, ho3.filter _, fun x v => ?_⟩
      simp only [List.mem_filter, isIn_iff]
      rw [ho2.mem_iff]
      exact ⟨fun h => ⟨h.1, fun _ e => by cases e; exact h.2⟩, fun h => ⟨h.1, h.2 pat rfl⟩⟩
    | false =>
      obtain ⟨sf, hf1, hf2, hf3⟩ := sortedPairs_spec lt (ns.filter fun kv => isIn pat kv.1 &&
        includes { var := none, delete := none, pattern := some pat, builtins := showBuiltins, os := false } kv.1) (hns.sublist (List.filter_sublist.map _))
      have hr : r = ⟨sf, ns, none⟩ := by
        show env _ _ _ _ _ _ = _
        simp only [env, given_some pat hpat]
        simp only [given, Bool.false_eq_true, if_false]
        rw [hf1]
      rw [hr]
      refine ⟨rfl, rfl, hf3, fun x v => ?_⟩
      simp only
      rw [hf2.mem_iff, List.mem_filter, Bool.and_eq_true, isIn_iff, includes_iff]
      exact ⟨fun h => ⟨⟨h.1, h.2.2⟩, fun _ e => by cases e; exact h.2.1⟩, fun h => ⟨h.1.1, h.2 pat rfl, h.1.2⟩⟩

/-- **C77.** `env VAR` shows the variable with its value if it has one other than None; otherwise it fails and says that the variable is undefined. Nothing is changed. -/
theorem C77_var (lt : V → V → Option Bool) (isNone : V → Bool) (refused : Str → Bool) (os ns : Dict Str V)
    (hos : (os.map (·.1)).Nodup) (hns : (ns.map (·.1)).Nodup) (x : Str) (hx : x ≠ []) (showBuiltins useOs : Bool) :
    let r := env lt isNone refused os ns { var := some x, delete := none, pattern := none, builtins := showBuiltins, os := useOs }
    r.ns = ns ∧
      (∀ v, (x, v) ∈ (if useOs then os else ns) → isNone v = false → r.out = [(x, v)] ∧ r.err = none) ∧
      ((∀ v, (x, v) ∈ (if useOs then os else ns) → isNone v = true) → r.out = [] ∧ r.err = some .kill) := by
  intro r
  have hr : r = (match Dict.get? (if useOs then os else ns) x with
      | none => ⟨[], ns, some .kill⟩
      | some v => if isNone v then ⟨[], ns, some .kill⟩ else ⟨[(x, v)], ns, none⟩) := by
    show env _ _ _ _ _ _ = _
    simp only [env, given_some x hx]
    cases Dict.get? (if useOs then os else ns) x <;> rfl
  have hn : Dict.keys (if useOs then os else ns) |>.Nodup := by cases useOs; exact hns; exact hos
  refine ⟨?_, fun v hv hi => ?_, fun h => ?_⟩
  · rw [hr]
    cases Dict.get? (if useOs then os else ns) x with
    | none => rfl
    | some v => simp only; split <;> rfl
  · rw [hr, get?_of_mem _ _ _ hn hv]
    simp [hi]
  · rw [hr]
    cases hg : Dict.get? (if useOs then os else ns) x with
    | none => exact ⟨rfl, rfl⟩
    | some v => simp [h v (mem_of_get? _ _ _ hg)]

/-- **C77.** `env -d VAR`: if there is the variable, it is shown with its value and is then undefined; if not, nothing happens. No other variable is affected. -/
theorem C77_delete (lt : V → V → Option Bool) (isNone : V → Bool) (refused : Str → Bool) (os ns : Dict Str V)
    (hns : (ns.map (·.1)).Nodup) (x : Str) (hx : x ≠ []) (showBuiltins : Bool) :
    let r := env lt isNone refused os ns { var := none, delete := some x, pattern := none, builtins := showBuiltins, os := false }
    (refused x = true → r.out = [] ∧ r.err = some .kill ∧ r.ns = ns) ∧
    (refused x = false → r.err = none ∧ r.ns.get? x = none ∧ (∀ y, y ≠ x → r.ns.get? y = ns.get? y) ∧ r.out = (ns.filter fun kv => kv.1 = x)) := by
  intro r
  have hr : r = (if refused x then ⟨[], ns, some .kill⟩ else
      match ns.get? x with
      | none => ⟨[], ns, none⟩
      | some v => ⟨[(x, v)], ns.erase x, none⟩) := by
    show env _ _ _ _ _ _ = _
    simp only [env, given_some x hx]
    simp only [given, Bool.false_eq_true, if_false]
    cases refused x <;> cases Dict.get? ns x <;> rfl
  have hfil : ∀ (d : Dict Str V), (d.map (·.1)).Nodup → (d.filter fun kv => kv.1 = x) = (match Dict.get? d x with | none => [] | some v => [(x, v)]) := by
    intro d hd
    induction d with
    | nil => rfl
    | cons a d ih =>
      obtain ⟨y, v⟩ := a
      simp only [List.map_cons, List.nodup_cons] at hd
      rw [get?_cons]
      by_cases hy : y = x
      · subst hy
        rw [if_pos rfl, List.filter_cons_of_pos (by simp), ih hd.2]
        have : Dict.get? d y = none := by rw [get?_eq_none_iff]; exact hd.1
        rw [this]
      · rw [if_neg hy, List.filter_cons_of_neg (by simp [hy]), ih hd.2]
  constructor
  · intro h; rw [hr, if_pos h]; exact ⟨rfl, rfl, rfl⟩
  · intro h
    rw [hr, if_neg (by rw [h]; simp), hfil ns hns]
    cases hg : Dict.get? ns x with
    | none => exact ⟨rfl, hg, fun _ _ => rfl, rfl⟩
    | some v =>
      refine ⟨rfl, ?_, fun y hy => ?_, rfl⟩
      · simp only; rw [get?_erase _ _ _ hns, if_pos rfl]
      · simp only; rw [get?_erase _ _ _ hns, if_neg (Ne.symm hy)]

/-- **C77 is false** for a variable whose value is None: `env` lists it, but `env VAR` says that it is undefined. -/
theorem C77_false_none :
    let ns : Dict Str (Option Nat) := [("x".toList, none), ("y".toList, some 1)]
    let e := fun var => env (fun _ _ => none) (fun v => v.isNone) (fun _ => false) [] ns { var := var, delete := none, pattern := none, builtins := false, os := false }
    (e none).out = ns ∧ (e (some "x".toList)).err = some .kill := by
  refine ⟨by decide +kernel, by decide +kernel⟩

/-- Values that cannot be compared are no obstacle, names are in order of their codes (capitals first), and `__builtins__` is hidden. -/
theorem C77_case :
    let ns : Dict Str (Option Nat) := [("xy".toList, none), ("__builtins__".toList, some 0), ("x".toList, some 1), ("PWD".toList, some 2)]
    let e := fun (pat : Option Str) b => (env (fun _ _ => none) (fun v => v.isNone) (fun _ => false) [] ns { var := none, delete := none, pattern := pat, builtins := b, os := false }).out.map (·.1)
    e none false = ["PWD".toList, "x".toList, "xy".toList] ∧ e none true = ["PWD".toList, "__builtins__".toList, "x".toList, "xy".toList] ∧ e (some "y".toList) false = ["xy".toList] := by
  refine ⟨by decide +kernel, by decide +kernel, by decide +kernel⟩

end Marcel.EnvOp
