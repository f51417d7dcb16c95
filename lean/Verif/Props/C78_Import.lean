import Verif.Model.EnvOp
import Verif.Props.C76_Start

/-! C78: `import` brings in what it names, and nothing else. -/

namespace Marcel.EnvOp
open Dict

variable {V : Type}

theorem importAll_get (l : List (Str × V)) (ns : Dict Str V) (hn : (l.map (·.1)).Nodup) (x : Str) :
    (importAll ns l).get? x = if x.head? = some '_' then ns.get? x else (match Dict.get? l x with | some v => some v | none => ns.get? x) := by
  induction l generalizing ns with
  | nil => simp [importAll]
  | cons a l ih =>
    obtain ⟨y, v⟩ := a
    simp only [List.map_cons, List.nodup_cons] at hn
    simp only [importAll]
    have hy : Dict.get? l y = none := by rw [get?_eq_none_iff]; exact hn.1
    by_cases hp : y.head? = some '_'
    · rw [if_pos hp, ih _ hn.2, get?_cons]
      by_cases hx : y = x
      · subst hx; rw [if_pos hp, if_pos hp]
      · rw [if_neg hx]
    · rw [if_neg hp, ih _ hn.2, get?_cons, get?_set]
      by_cases hx : y = x
      · subst hx; rw [if_neg hp, if_neg hp, if_pos rfl, if_pos rfl, hy]
      · rw [if_neg hx, if_neg hx]

/-- **C78, part.** If `import` fails, no variable is changed. -/
theorem C78_failure (identifier : Str → Bool) (modules : Str → Option (Module V)) (ns : Dict Str V) (a : ImportArgs) (e : ImportErr)
    (h : (import_ identifier modules ns a).2 = some e) : (import_ identifier modules ns a).1 = ns := by
  revert h
  unfold import_
  split
  · intro; rfl
  split
  · intro; rfl
  split
  · intro; rfl
  unfold importRun
  cases modules a.module with
  | none => intro; rfl
  | some m =>
    cases a.symbol with
    | none => intro h; cases h
    | some s =>
      simp only
      split
      · intro h; cases h
      · cases Dict.get? m.dict s with
        | none => intro; rfl
        | some v => intro h; cases h

/-- **C78, part.** `import MODULE`, and `import MODULE --as NAME`: if there is the module, it becomes the value of the variable called NAME, or MODULE without NAME, and no other variable is affected; otherwise the command fails. -/
theorem C78_module (identifier : Str → Bool) (modules : Str → Option (Module V)) (ns : Dict Str V) (M : Str) (name : Option Str)
    (hname : ∀ n, name = some n → identifier n = true) :
    let r := import_ identifier modules ns { module := M, symbol := none, as := name }
    (∀ m, modules M = some m → r.2 = none ∧
      r.1.get? (match name with | some n => n | none => M) = some m.value ∧ ∀ x, x ≠ (match name with | some n => n | none => M) → r.1.get? x = ns.get? x) ∧
    (modules M = none → r.2 = some .noModule) := by
  intro r
  have hr : r = (match modules M with | none => (ns, some .noModule) | some m => (ns.set (match name with | some n => n | none => M) m.value, none)) := by
    show import_ _ _ _ _ = _
    unfold import_
    rw [if_neg (by simp [badSymbol, given])]
    rw [if_neg (show ¬ _ by
      cases name with
      | none => simp [badName, given]
      | some n => cases n with
        | nil => simp [badName, given]
        | cons c cs => simp [badName, given, hname _ rfl])]
    rw [if_neg (by simp)]
    unfold importRun
    cases modules M <;> cases name <;> rfl
  constructor
  · intro m hm
    rw [hr, hm]
    refine ⟨rfl, ?_, fun x hx => ?_⟩
    · simp only; rw [get?_set, if_pos rfl]
    · simp only; rw [get?_set, if_neg (Ne.symm hx)]
  · intro hm; rw [hr, hm]

/-- **C78, part.** `import MODULE SYMBOL`, and `import MODULE SYMBOL --as NAME`: if the module has the symbol, its value becomes the value of the variable called NAME, or SYMBOL without NAME, and no other variable is affected;
otherwise the command fails. -/
theorem C78_symbol (identifier : Str → Bool) (modules : Str → Option (Module V)) (ns : Dict Str V) (M S : Str) (name : Option Str)
    (hS : identifier S = true) (hstar : identifier ['*'] = false) (hname : ∀ n, name = some n → identifier n = true) :
    let r := import_ identifier modules ns { module := M, symbol := some S, as := name }
    (∀ m v, modules M = some m → (m.dict.map (·.1)).Nodup → (S, v) ∈ m.dict → r.2 = none ∧
      r.1.get? (match name with | some n => n | none => S) = some v ∧ ∀ x, x ≠ (match name with | some n => n | none => S) → r.1.get? x = ns.get? x) ∧
    ((∀ m v, modules M = some m → (S, v) ∉ m.dict) → r.2 ≠ none) := by
  intro r
  have hs : S ≠ ['*'] := by rintro rfl; rw [hS] at hstar; cases hstar
  have hr : r = (match modules M with
      | none => (ns, some .noModule)
      | some m => match Dict.get? m.dict S with
        | none => (ns, some .noSymbol)
        | some v => (ns.set (match name with | some n => n | none => S) v, none)) := by
    show import_ _ _ _ _ = _
    unfold import_
    rw [if_neg (show ¬ _ by
      cases S with
      | nil => simp [badSymbol, given]
      | cons c cs => simp [badSymbol, given, hS])]
    rw [if_neg (show ¬ _ by
      cases name with
      | none => simp [badName, given]
      | some n => cases n with
        | nil => simp [badName, given]
        | cons c cs => simp [badName, given, hname _ rfl])]
    rw [if_neg (by simp [hs])]
    unfold importRun
    cases modules M with
    | none => rfl
    | some m =>
      simp only
      rw [if_neg hs]
      cases Dict.get? m.dict S <;> cases name <;> rfl
  constructor
  · intro m v hm hn hv
    rw [hr, hm]
    simp only
    rw [get?_of_mem _ _ _ hn hv]
    refine ⟨rfl, ?_, fun x hx => ?_⟩
    · simp only; rw [get?_set, if_pos rfl]
    · simp only; rw [get?_set, if_neg (Ne.symm hx)]
  · intro hno
    rw [hr]
    cases hm : modules M with
    | none => simp
    | some m =>
      simp only
      cases hg : Dict.get? m.dict S with
      | none => simp
      | some v => exact absurd (mem_of_get? _ _ _ hg) (hno m v hm)

/-- **C78, part.** `import MODULE *`: the names of the module that do not begin with `_` become variables with the values they have in the module, and no other variable is affected. -/
theorem C78_star (identifier : Str → Bool) (modules : Str → Option (Module V)) (ns : Dict Str V) (M : Str) :
    let r := import_ identifier modules ns { module := M, symbol := some ['*'], as := none }
    (∀ m, modules M = some m → (m.dict.map (·.1)).Nodup → r.2 = none ∧
      (∀ x v, (x, v) ∈ m.dict → Public x → r.1.get? x = some v) ∧
      ∀ x, (Public x → ∀ v, (x, v) ∉ m.dict) → r.1.get? x = ns.get? x) ∧
    (modules M = none → r.2 = some .noModule) := by
  intro r
  have hr : r = (match modules M with | none => (ns, some .noModule) | some m => (importAll ns m.dict, none)) := by
    show import_ _ _ _ _ = _
    unfold import_
    rw [if_neg (by simp [badSymbol, given]), if_neg (by simp [badName, given]), if_neg (by simp)]
    unfold importRun
    cases modules M <;> rfl
  constructor
  · intro m hm hn
    rw [hr, hm]
    refine ⟨rfl, fun x v hx hp => ?_, fun x hx => ?_⟩
    · simp only
      rw [importAll_get _ _ hn, if_neg ((public_iff x).1 hp), get?_of_mem _ _ _ hn hx]
    · simp only
      rw [importAll_get _ _ hn]
      by_cases hp : x.head? = some '_'
      · rw [if_pos hp]
      · rw [if_neg hp]
        cases hg : Dict.get? m.dict x with
        | none => rfl
        | some v => exact absurd (mem_of_get? _ _ _ hg) (hx ((public_iff x).2 hp) v)
  · intro hm; rw [hr, hm]

/-- A name with `--as` and `*`, or one that is not an identifier, is refused. -/
theorem C78_refused (identifier : Str → Bool) (modules : Str → Option (Module V)) (ns : Dict Str V) (M : Str) (symbol : Option Str) (n : Str)
    (h : (n ≠ [] ∧ identifier n = false) ∨ symbol = some ['*']) :
    (import_ identifier modules ns { module := M, symbol := symbol, as := some n }).2 = some .refused := by
  unfold import_
  split
  · rfl
  split
  · rfl
  rename_i h1 h2
  rcases h with ⟨hn, hi⟩ | rfl
  · unfold badName at h2
    rw [given_some' n hn] at h2
    simp [hi] at h2
  · rw [if_pos (by simp)]
where
  given_some' (s : Str) (h : s ≠ []) : given (some s) = some s := by
    cases s with
    | nil => exact absurd rfl h
    | cons => rfl

/-- **C78 is false** as said in the help ("like running the Python statement `import MODULE`") for a module in a package: `import a.b` does not define `a`, which is what Python's statement does; it defines a variable with the
name `a.b`, which no expression can refer to. -/
theorem C78_false_package (identifier : Str → Bool) (modules : Str → Option (Module V)) (ns : Dict Str V) (a b : Str) (m : Module V) (hm : modules (a ++ '.' :: b) = some m) :
    let r := import_ identifier modules ns { module := a ++ '.' :: b, symbol := none, as := none }
    r.2 = none ∧ r.1.get? a = ns.get? a := by
  intro r
  obtain ⟨h1, _, h3⟩ := (C78_module identifier modules ns (a ++ '.' :: b) none (fun _ h => by cases h)).1 m hm
  refine ⟨h1, h3 a ?_⟩
  intro h
  have := congrArg List.length h
  simp at this

/-- **C78 is false** ("like running `from MODULE import *`") for a module with `__all__`: names it leaves out are imported, and one it includes is not if it begins with `_`. The values here are lists of names. -/
theorem C78_false_all :
    let m : Module (List Str) := { value := [], dict := [("__all__".toList, ["f".toList, "_h".toList]), ("f".toList, []), ("g".toList, []), ("_h".toList, [])] }
    let r := import_ (fun _ => true) (fun x => if x = "m".toList then some m else none) [] { module := "m".toList, symbol := some ['*'], as := none }
    r.2 = none ∧ r.1.get? "f".toList = some [] ∧ r.1.get? "g".toList = some [] ∧ r.1.get? "_h".toList = none := by
  refine ⟨by decide +kernel, by decide +kernel, by decide +kernel, by decide +kernel⟩

/-- **C78 is false** ("like `from MODULE import SYMBOL`") for a module in a package: Python imports the module if the package has no such symbol yet, marcel fails. -/
theorem C78_false_submodule :
    let modules : Str → Option (Module Nat) := fun x => if x = "xml".toList then some ⟨1, []⟩ else if x = "xml.dom".toList then some ⟨2, []⟩ else none
    (import_ (fun x => x != ['*']) modules [] { module := "xml".toList, symbol := some "dom".toList, as := none }).2 = some .noSymbol := by
  decide +kernel

/-- The theorems at work. -/
theorem C78_case :
    let modules : Str → Option (Module Nat) := fun x => if x = "math".toList then some ⟨1, [("__name__".toList, 5), ("pi".toList, 3), ("e".toList, 2)]⟩ else none
    let imp := fun s n => (import_ (fun x => x != ['*']) modules [("x".toList, 9)] { module := "math".toList, symbol := s, as := n }).1
    imp none none = [("x".toList, 9), ("math".toList, 1)] ∧ imp (some "pi".toList) (some "p".toList) = [("x".toList, 9), ("p".toList, 3)] ∧
      imp (some ['*']) none = [("x".toList, 9), ("pi".toList, 3), ("e".toList, 2)] := by
  refine ⟨by decide +kernel, by decide +kernel, by decide +kernel⟩

end Marcel.EnvOp
