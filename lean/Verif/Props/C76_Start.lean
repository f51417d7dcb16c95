import Verif.Model.EnvOp
import Verif.Lemmas.Dict

/-! C76: the variables when marcel starts: those marcel defines, those of `marcel.builtin`, and those the startup script defines. -/

namespace Marcel.EnvOp
open Dict

variable {V : Type}

theorem builtinLoop_snd (perm : Dict Str (Later V)) (value : Option V) (l : List (Str × V)) :
    (builtinLoop perm value l).2 = (match l.getLast? with | some kv => some kv.2 | none => value) := by
  induction l generalizing perm value with
  | nil => rfl
  | cons a l ih =>
    obtain ⟨k, v⟩ := a
    simp only [builtinLoop]
    have : (match l.getLast? with | some kv => some kv.2 | none => some v) = (match ((k, v) :: l).getLast? with | some kv => some kv.2 | none => value) := by
      cases l with
      | nil => rfl
      | cons b l => rw [List.getLast?_cons_cons]; cases h : (b :: l).getLast? with
        | none => simp at h
        | some kv => rfl
    split <;> rw [ih] <;> exact this

theorem builtinLoop_get (perm : Dict Str (Later V)) (value : Option V) (l : List (Str × V)) (x : Str) :
    (builtinLoop perm value l).1.get? x = if (l.any fun kv => decide (kv.1 = x)) && decide (x.head? ≠ some '_') then some .value else perm.get? x := by
  induction l generalizing perm value with
  | nil => simp [builtinLoop]
  | cons a l ih =>
    obtain ⟨k, v⟩ := a
    simp only [builtinLoop]
    by_cases hx : k = x
    · subst hx
      by_cases hk : k.head? = some '_'
      · rw [if_pos hk, ih]; simp [hk]
      · rw [if_neg hk, ih, get?_set]; simp [hk]
    · have hany : (((k, v) :: l).any fun kv => decide (kv.1 = x)) = (l.any fun kv => decide (kv.1 = x)) := by
        rw [List.any_cons]; simp [hx]
      rw [hany]
      split
      · exact ih _ _
      · rw [ih, get?_set, if_neg hx]

theorem addToNamespace_get (value : Option V) (perm : Dict Str (Later V)) (ns ns' : Dict Str V) (hn : perm.keys.Nodup)
    (h : addToNamespace value ns perm = some ns') (x : Str) :
    ns'.get? x = (match perm.get? x with | some f => f.call value | none => ns.get? x) := by
  induction perm generalizing ns with
  | nil => simp only [addToNamespace, Option.some.injEq] at h; subst h; rfl
  | cons a perm ih =>
    obtain ⟨y, f⟩ := a
    simp only [keys, List.map_cons, List.nodup_cons] at hn
    simp only [addToNamespace] at h
    cases hf : f.call value with
    | none => rw [hf] at h; cases h
    | some v =>
      rw [hf] at h
      rw [ih _ hn.2 h, get?_cons]
      by_cases hx : y = x
      · subst hx
        have : Dict.get? perm y = none := by rw [get?_eq_none_iff]; exact hn.1
        rw [this, if_pos rfl, get?_set, if_pos rfl]; exact hf.symm
      · rw [if_neg hx, get?_set, if_neg hx]

theorem builtinLoop_nodup (perm : Dict Str (Later V)) (value : Option V) (l : List (Str × V)) (hn : perm.keys.Nodup) :
    (builtinLoop perm value l).1.keys.Nodup := by
  induction l generalizing perm value with
  | nil => exact hn
  | cons a l ih =>
    obtain ⟨k, v⟩ := a
    simp only [builtinLoop]
    split
    · exact ih _ _ hn
    · exact ih _ _ (nodup_keys_set _ _ _ hn)

theorem addToNamespace_some (value : Option V) (perm : Dict Str (Later V)) (ns : Dict Str V)
    (h : ∀ xf ∈ perm, xf.2.call value ≠ none) : ∃ ns', addToNamespace value ns perm = some ns' := by
  induction perm generalizing ns with
  | nil => exact ⟨_, rfl⟩
  | cons a perm ih =>
    obtain ⟨y, f⟩ := a
    simp only [addToNamespace]
    cases hf : f.call value with
    | none => exact absurd hf (h (y, f) (by simp))
    | some v => exact ih _ fun xf hx => h xf (by simp [hx])

theorem get?_update (d e : Dict Str V) (hn : e.keys.Nodup) (x : Str) :
    (Dict.update d e).get? x = (match e.get? x with | some v => some v | none => d.get? x) := by
  induction e generalizing d with
  | nil => rfl
  | cons a e ih =>
    obtain ⟨y, v⟩ := a
    simp only [keys, List.map_cons, List.nodup_cons] at hn
    have hu : Dict.update d ((y, v) :: e) = Dict.update (d.set y v) e := rfl
    rw [hu, ih _ hn.2, get?_cons]
    by_cases hx : y = x
    · subst hx
      have : Dict.get? e y = none := by rw [get?_eq_none_iff]; exact hn.1
      rw [this, if_pos rfl, get?_set, if_pos rfl]
    · rw [if_neg hx, get?_set, if_neg hx]

theorem get?_explicit (d : Dict Str V) (x : Str) : Dict.get? (d.map fun kv => (kv.1, Later.computes kv.2)) x = (d.get? x).map .computes := by
  induction d with
  | nil => rfl
  | cons a d ih =>
    obtain ⟨y, v⟩ := a
    simp only [List.map_cons, get?_cons, ih]
    split <;> rfl

theorem keys_explicit (d : Dict Str V) : Dict.keys (d.map fun kv => (kv.1, Later.computes (V := V) kv.2)) = d.keys := by
  simp [keys, List.map_map, Function.comp_def]

/-- The namespace the startup script sees. -/
theorem initial_ns (explicit : Dict Str V) (builtins : List (Str × V)) (he : explicit.keys.Nodup) :
    ∃ ns, addToNamespace (initialNamespace explicit builtins).2 [] (initialNamespace explicit builtins).1 = some ns ∧
      ∀ x, ns.get? x = if (builtins.any fun kv => decide (kv.1 = x)) && decide (x.head? ≠ some '_') then builtins.getLast?.map (·.2) else explicit.get? x := by
  have h2 : (initialNamespace explicit builtins).2 = builtins.getLast?.map (·.2) := by
    unfold initialNamespace; rw [builtinLoop_snd]; cases builtins.getLast? <;> rfl
  have hk : (initialNamespace explicit builtins).1.keys.Nodup := by
    unfold initialNamespace
    refine builtinLoop_nodup _ _ _ ?_
    rw [keys_explicit]; exact he
  have hg : ∀ x, (initialNamespace explicit builtins).1.get? x =
      if (builtins.any fun kv => decide (kv.1 = x)) && decide (x.head? ≠ some '_') then some .value else (explicit.get? x).map .computes := by
    intro x; unfold initialNamespace; rw [builtinLoop_get, get?_explicit]
  obtain ⟨ns, hns⟩ := addToNamespace_some (initialNamespace explicit builtins).2 (initialNamespace explicit builtins).1 [] (by
    rintro ⟨x, f⟩ hx hf
    have := get?_of_mem _ _ _ hk hx
    rw [hg] at this
    split at this
    · rename_i hc
      cases this
      simp only [Later.call, h2] at hf
      cases builtins with
      | nil => simp at hc
      | cons b bs => simp at hf
    · cases he : explicit.get? x with
      | none => rw [he] at this; cases this
      | some v => rw [he] at this; cases this; simp [Later.call] at hf)
  refine ⟨ns, hns, fun x => ?_⟩
  rw [addToNamespace_get _ _ _ _ hk hns, hg]
  by_cases hc : ((builtins.any fun kv => decide (kv.1 = x)) && decide (x.head? ≠ some '_')) = true
  · rw [if_pos hc, if_pos hc]; exact h2
  · rw [if_neg hc, if_neg hc]; cases explicit.get? x <;> rfl

/-! ### The property -/

/-- The names `from marcel.builtin import *` imports (the module has no `__all__`). -/
def Public (x : Str) : Prop := ∀ rest, x ≠ '_' :: rest

theorem public_iff (x : Str) : Public x ↔ x.head? ≠ some '_' := by
  unfold Public
  cases x with
  | nil => simp
  | cons c cs => simp only [List.head?_cons, ne_eq, Option.some.injEq, List.cons.injEq, not_and]; exact ⟨fun h hc => h cs hc rfl, fun h r hc => absurd hc h⟩

theorem any_iff (builtins : List (Str × V)) (x : Str) :
    ((builtins.any fun kv => decide (kv.1 = x)) && decide (x.head? ≠ some '_')) = true ↔ (∃ v, (x, v) ∈ builtins) ∧ Public x := by
  rw [public_iff, Bool.and_eq_true, List.any_eq_true]
  simp only [decide_eq_true_eq]
  exact and_congr_left fun _ => ⟨fun ⟨⟨k, v⟩, h, e⟩ => ⟨v, by simp only at e; subst e; exact h⟩, fun ⟨v, h⟩ => ⟨_, h, rfl⟩⟩

/-- **C76, part.** When marcel starts, `explicit` being the variables it defines itself, `builtins` the contents of the module `marcel.builtin`, and `d` what the startup script defines (given the
variables that exist when it runs): a variable that the script defines has the value the script gives it; a variable that marcel defines has that value, unless the script or `marcel.builtin` has the
same name; and a name that none of these define is undefined. Hence all public names of `marcel.builtin` have their values if the script says `from marcel.builtin import *`, as the script supplied with
marcel does (`C76_import`).

Missing: a public name of `marcel.builtin` need not have its value otherwise (`C76_false`). -/
theorem C76_partial (explicit : Dict Str V) (builtins : List (Str × V)) (script : Dict Str V → Option (Dict Str V)) (ns : Dict Str V)
    (he : (explicit.map (·.1)).Nodup) (hd : ∀ ns d, script ns = some d → (d.map (·.1)).Nodup) (h : start explicit builtins script = .ok ns) :
    ∃ seen d, script seen = some d ∧
      (∀ x v, (x, v) ∈ d → ns.get? x = some v) ∧
      (∀ x, (∀ v, (x, v) ∉ d) → ns.get? x = seen.get? x) ∧
      (∀ x v, (x, v) ∈ explicit → (Public x → ∀ w, (x, w) ∉ builtins) → seen.get? x = some v) ∧
      (∀ x, (∀ v, (x, v) ∉ explicit) → (Public x → ∀ w, (x, w) ∉ builtins) → seen.get? x = none) ∧
      ∀ x v, (x, v) ∈ d → x ∉ ["MARCEL_VERSION".toList, "HOME".toList, "USER".toList, "HOST".toList, "WORKSPACE".toList] := by
  obtain ⟨seen, hs, hseen⟩ := initial_ns explicit builtins he
  unfold start at h
  rw [hs] at h
  cases hsc : script seen with
  | none => simp only [hsc] at h; cases h
  | some d =>
    simp only [hsc] at h
    have hdn := hd _ _ hsc
    split at h
    · cases h
    rename_i hnm
    cases h
    have hnot : ∀ x, (Public x → ∀ w, (x, w) ∉ builtins) → seen.get? x = explicit.get? x := by
      intro x hx
      rw [hseen, if_neg]
      rw [any_iff]
      rintro ⟨⟨w, hw⟩, hp⟩
      exact hx hp w hw
    have hnone : ∀ (d : Dict Str V) x, (∀ v, (x, v) ∉ d) → d.get? x = none := by
      intro d x hx
      cases hg : d.get? x with
      | none => rfl
      | some v => exact absurd (mem_of_get? _ _ _ hg) (hx v)
    refine ⟨seen, d, hsc, ?_, ?_, ?_, ?_, ?_⟩
    · intro x v hx
      rw [get?_update _ _ hdn, get?_of_mem _ _ _ hdn hx]
    · intro x hx
      rw [get?_update _ _ hdn, hnone _ _ hx]
    · intro x v hx hb
      rw [hnot x hb]; exact get?_of_mem _ _ _ he hx
    · intro x hx hb
      rw [hnot x hb]; exact hnone _ _ hx
    · intro x v hx hm
      apply hnm
      rw [List.any_eq_true]
      refine ⟨x, hm, ?_⟩
      unfold Dict.has
      rw [get?_of_mem _ _ _ hdn hx]; rfl

/-- **C76.** With a startup script that says `from marcel.builtin import *` and redefines none of these names, every public name of `marcel.builtin` has its value. -/
theorem C76_import (explicit : Dict Str V) (builtins : List (Str × V)) (script : Dict Str V → Option (Dict Str V)) (ns : Dict Str V)
    (he : (explicit.map (·.1)).Nodup) (hd : ∀ ns d, script ns = some d → (d.map (·.1)).Nodup) (h : start explicit builtins script = .ok ns)
    (hi : ∀ ns d, script ns = some d → ∀ x v, (x, v) ∈ builtins → Public x → (x, v) ∈ d) (x : Str) (v : V) (hx : (x, v) ∈ builtins) (hp : Public x) :
    ns.get? x = some v := by
  obtain ⟨seen, d, hs, h1, _⟩ := C76_partial explicit builtins script ns he hd h
  exact h1 x v (hi _ _ hs x v hx hp)

/-- **C76.** The start succeeds if the script runs and assigns none of the five variables that must not be changed; it fails if the script assigns one of them, whatever the value. -/
theorem C76_refused (explicit : Dict Str V) (builtins : List (Str × V)) (script : Dict Str V → Option (Dict Str V)) (he : (explicit.map (·.1)).Nodup) :
    ∃ seen, (∀ d, script seen = some d → (d.map (·.1)).Nodup →
        ((∃ x ∈ ["MARCEL_VERSION".toList, "HOME".toList, "USER".toList, "HOST".toList, "WORKSPACE".toList], ∃ v, (x, v) ∈ d) →
          start explicit builtins script = .error .neverMutable) ∧
        ((∀ x ∈ ["MARCEL_VERSION".toList, "HOME".toList, "USER".toList, "HOST".toList, "WORKSPACE".toList], ∀ v, (x, v) ∉ d) →
          ∃ ns, start explicit builtins script = .ok ns)) ∧
      (script seen = none → start explicit builtins script = .error .script) := by
  obtain ⟨seen, hs, hseen⟩ := initial_ns explicit builtins he
  refine ⟨seen, ?_, ?_⟩
  · intro d hd hdn
    unfold start
    rw [hs]
    simp only [hd]
    constructor
    · rintro ⟨x, hx, v, hv⟩
      rw [if_pos]
      rw [List.any_eq_true]
      refine ⟨x, hx, ?_⟩
      unfold Dict.has; rw [get?_of_mem _ _ _ hdn hv]; rfl
    · intro hno
      refine ⟨_, if_neg ?_⟩
      rw [List.any_eq_true]
      rintro ⟨x, hx, hh⟩
      unfold Dict.has at hh
      cases hg : Dict.get? d x with
      | none => rw [hg] at hh; cases hh
      | some v => exact hno x hx v (mem_of_get? _ _ _ hg)
  · intro hn
    unfold start
    rw [hs]
    simp only [hn]

/-- **C76 is false** in general: until the startup script says otherwise, every public name of `marcel.builtin`, and `PROMPT` and `Color` too, which marcel defines itself as well, has the value of the name defined last in
that module (a function that sets the prompt): the function made in the loop refers to the loop's variable. -/
theorem C76_false (explicit : Dict Str V) (builtins : List (Str × V)) (last : Str × V) (script : Dict Str V → Option (Dict Str V)) (ns : Dict Str V)
    (he : (explicit.map (·.1)).Nodup) (hd : ∀ ns d, script ns = some d → (d.map (·.1)).Nodup) (h : start explicit (builtins ++ [last]) script = .ok ns) :
    ∃ seen d, script seen = some d ∧ ∀ x v, (x, v) ∈ builtins ++ [last] → Public x → seen.get? x = some last.2 ∧ ((∀ w, (x, w) ∉ d) → ns.get? x = some last.2) := by
  obtain ⟨seen, hs, hseen⟩ := initial_ns explicit (builtins ++ [last]) he
  unfold start at h
  rw [hs] at h
  cases hsc : script seen with
  | none => simp only [hsc] at h; cases h
  | some d =>
    simp only [hsc] at h
    split at h
    · cases h
    cases h
    refine ⟨seen, d, hsc, fun x v hx hp => ?_⟩
    have h1 : seen.get? x = some last.2 := by
      rw [hseen, if_pos ((any_iff _ _).2 ⟨⟨v, hx⟩, hp⟩)]; simp
    refine ⟨h1, fun hn => ?_⟩
    have : Dict.get? d x = none := by
      cases hg : Dict.get? d x with
      | none => rfl
      | some w => exact absurd (mem_of_get? _ _ _ hg) (hn w)
    rw [get?_update _ _ (hd _ _ hsc), this]; exact h1

/-- An empty startup script: `now`, `PROMPT` and `File` are all `set_prompt`. The script of the distribution repairs this. -/
def case_explicit : Dict Str String := [("HOME".toList, "/home/u"), ("PROMPT".toList, "M 0.30 $ "), ("USER".toList, "u")]
def case_builtins : Dict Str String := [("now".toList, "time"), ("_JSON_UTIL".toList, "private"), ("File".toList, "class File"), ("PROMPT".toList, "$ "), ("set_prompt".toList, "function")]

theorem C76_false_case :
    (start case_explicit case_builtins (fun _ => some [])).toOption.map (fun ns => [ns.get? "now".toList, ns.get? "PROMPT".toList, ns.get? "HOME".toList]) =
      some [some "function", some "function", some "/home/u"] ∧
    (start case_explicit case_builtins (fun _ => some (case_builtins.filter fun kv => kv.1.head? ≠ some '_'))).toOption.map
        (fun ns => [ns.get? "now".toList, ns.get? "PROMPT".toList, ns.get? "HOME".toList, ns.get? "_JSON_UTIL".toList]) =
      some [some "time", some "$ ", some "/home/u", none] ∧
    start case_explicit case_builtins (fun _ => some [("USER".toList, "root")]) = .error .neverMutable := by
  refine ⟨by decide +kernel, by decide +kernel, ?_⟩
  have : (match start case_explicit case_builtins (fun _ => some [("USER".toList, "root")]) with | .error e => some e | .ok _ => none) = some .neverMutable := by decide +kernel
  split at this
  · rename_i e he; rw [he]; cases this; rfl
  · cases this

end Marcel.EnvOp
