import Verif.Lemmas.Exec
import Verif.Lemmas.Api
import Verif.Props.C62_Resolve

/-! # Lemmas for C72: numerals and arguments -/

namespace Marcel.Exec

set_option linter.unusedSectionVars false

/-! ## Numerals -/

theorem digit_facts : ∀ d : Fin 10, (digit d).isDigit = true ∧ digit d ≠ '_' ∧ (digit d).toNat - 48 = d.val ∧ isspace (digit d) = false ∧ digit d ≠ '-' ∧ digit d ≠ '+' := by
  decide +kernel

theorem moreDigits_numeral (ds : List (Fin 10)) : ∀ acc, moreDigits acc (ds.map digit) = some (ds.foldl (fun n d => 10 * n + d.val) acc) := by
  induction ds with
  | nil => intro acc; rfl
  | cons d ds ih =>
    intro acc
    obtain ⟨h1, h2, h3, _⟩ := digit_facts d
    rw [List.map_cons, moreDigits.eq_def]
    simp only [if_neg h2, h1, if_true, h3, ih, List.foldl_cons]

theorem digits_numeral (ds : List (Fin 10)) (h : ds ≠ []) : digits (ds.map digit) = some (value ds) := by
  cases ds with
  | nil => exact absurd rfl h
  | cons d ds =>
    obtain ⟨h1, h2, h3, _⟩ := digit_facts d
    simp only [List.map_cons, digits, h1, if_true, h3, moreDigits_numeral, value, List.foldl_cons]
    simp

theorem dropWhile_none {s : Str} (h : ∀ c ∈ s, isspace c = false) : s.dropWhile isspace = s := by
  cases s with
  | nil => rfl
  | cons c s => rw [List.dropWhile_cons, h c List.mem_cons_self]; rfl

theorem pyStrip_none {s : Str} (h : ∀ c ∈ s, isspace c = false) : pyStrip s = s := by
  unfold pyStrip
  rw [dropWhile_none h, dropWhile_none (by intro c hc; exact h c (List.mem_reverse.mp hc)), List.reverse_reverse]

theorem digits_nospace (ds : List (Fin 10)) : ∀ c ∈ ds.map digit, isspace c = false := by
  intro c hc
  obtain ⟨d, _, rfl⟩ := List.mem_map.mp hc
  exact (digit_facts d).2.2.2.1

theorem minus_nospace : isspace '-' = false := by decide +kernel

theorem pyInt_numeral {s : Str} {n : Int} (h : Numeral s n) : pyInt s = some n := by
  cases h with
  | pos ds hd =>
    unfold pyInt
    rw [pyStrip_none (digits_nospace ds)]
    have hv := digits_numeral ds hd
    cases ds with
    | nil => exact absurd rfl hd
    | cons d ds =>
      obtain ⟨_, _, _, _, h5, h6⟩ := digit_facts d
      rw [List.map_cons] at hv ⊢
      split
      · rename_i h; exact absurd (List.cons.inj h).1 h5
      · rename_i h; exact absurd (List.cons.inj h).1 h6
      · rw [hv]; rfl
  | neg ds hd =>
    unfold pyInt
    rw [pyStrip_none (by
      intro c hc
      rcases List.mem_cons.mp hc with rfl | hc
      · exact minus_nospace
      · exact digits_nospace ds c hc)]
    simp only [digits_numeral ds hd]
    rfl

theorem Numeral.notFlag {s : Str} {n : Int} (h : Numeral s n) : s ≠ "-p".toList ∧ s ≠ "--pad".toList := by
  cases h with
  | pos ds hd =>
    cases ds with
    | nil => exact absurd rfl hd
    | cons d ds =>
      obtain ⟨_, _, _, _, h5, h6⟩ := digit_facts d
      refine ⟨?_, ?_⟩
      · intro h; exact h5 (List.cons.inj h).1
      · intro h; exact h5 (List.cons.inj h).1
  | neg ds hd =>
    cases ds with
    | nil => exact absurd rfl hd
    | cons d ds =>
      obtain ⟨h1, _, _, _, h5, h6⟩ := digit_facts d
      refine ⟨?_, ?_⟩
      · intro h
        have := (List.cons.inj (List.cons.inj h).2).1
        rw [List.map_cons] at h
        rw [show digit d = 'p' from this] at h1
        exact absurd h1 (by decide)
      · intro h; exact h5 (List.cons.inj (List.cons.inj h).2).1

/-! ## Parsing arguments -/

variable {V : Type} [DecidableEq V]

theorem expand_noFlags (nm tg : Str) (df : Option XArg) (conv : XArg → Option XArg) (x : XArg) :
    (⟨[], [⟨nm, df, tg, conv⟩], none, [], []⟩ : ArgsDecl XArg).expand x = [x] := Api.expand_other _ x (fun h' => absurd rfl h')

theorem parse_one (nm tg : Str) (df : Option XArg) (conv : XArg → Option XArg) (x : XArg) :
    (⟨[], [⟨nm, df, tg, conv⟩], none, [], []⟩ : ArgsDecl XArg).parse [x] [] = (conv x).map fun v => [(tg, .one v)] := by
  have hs : (⟨[], [⟨nm, df, tg, conv⟩], none, [], []⟩ : ArgsDecl XArg).findFlag x = none := by
    unfold ArgsDecl.findFlag; split <;> rfl
  simp only [ArgsDecl.parse, ArgsDecl.extract, expand_noFlags, List.foldlM_cons, List.foldlM_nil, ArgsDecl.step, hs, ArgsDecl.stepAnon]
  cases hc : conv x with
  | none => simp [hc]
  | some v =>
    simp [hc, ArgsDecl.checkValueCounts, ArgsDecl.checkAtMostOne, ArgsDecl.checkExactlyOne, completeAnon, ArgsDecl.transfer, ArgsDecl.targetOf, Dict.set, Dict.keys]

theorem parse_zero (nm tg : Str) (df : Option XArg) (conv : XArg → Option XArg) :
    (⟨[], [⟨nm, df, tg, conv⟩], none, [], []⟩ : ArgsDecl XArg).parse [] [] = df.map fun v => [(tg, .one v)] := by
  cases df with
  | none => simp [ArgsDecl.parse, ArgsDecl.extract, completeAnon, ArgsDecl.checkValueCounts, ArgsDecl.checkAtMostOne, ArgsDecl.checkExactlyOne]
  | some v =>
    simp [ArgsDecl.parse, ArgsDecl.extract, ArgsDecl.checkValueCounts, ArgsDecl.checkAtMostOne, ArgsDecl.checkExactlyOne, completeAnon, ArgsDecl.transfer, ArgsDecl.targetOf, Dict.set, Dict.keys]

/-! ### gen -/

/-- The declarations of `gen`. -/
def genDecl : ArgsDecl XArg := ⟨[Api.flag1 "pad" "-p" "--pad" "pad_arg" strToInt],
  [Api.anonDefault "count" "count_arg" (.int 0) strToInt, Api.anonDefault "start" "start_arg" (.int 0) strToInt], none, [], []⟩

theorem genDecl_eq (w : World V) : Kind.decl w .gen = genDecl := rfl

/-- An argument of `gen` that isn't a flag. -/
def NoFlag (x : XArg) : Prop := genDecl.findFlag x = none ∧ genDecl.expand x = [x]

theorem noFlag_fn (f : FnRef) : NoFlag (.fn f) := ⟨rfl, rfl⟩

theorem noFlag_numeral {s : Str} {n : Int} (h : Numeral s n) : NoFlag (.str s) := by
  constructor
  · have h1 := h.notFlag
    simp only [ArgsDecl.findFlag, PyArg.str, genDecl, Api.flag1, List.find?_cons, List.find?_nil, FlagDecl.symbol]
    have : (decide (some "-p".toList = some s) || decide (Option.some "--pad".toList = some s)) = false := by
      simp only [Bool.or_eq_false_iff, decide_eq_false_iff_not]
      exact ⟨fun h => h1.1 (Option.some.inj h).symm, fun h => h1.2 (Option.some.inj h).symm⟩
    rw [this]
  · cases h with
    | pos ds hd =>
      refine Api.expand_other _ _ fun _ ⟨c, cs, hc⟩ => ?_
      cases ds with
      | nil => exact hd rfl
      | cons d ds =>
        exact (digit_facts d).2.2.2.2.1 (List.cons.inj (Option.some.inj hc)).1
    | neg ds hd =>
      cases ds with
      | nil => exact absurd rfl hd
      | cons d ds =>
        cases ds with
        | nil => rfl
        | cons d' ds =>
          have : (genDecl.findFlag (PyArg.ofStr ['-', digit d] : XArg)).isSome = false := by clear hd; revert d; decide +kernel
          simp only [ArgsDecl.expand, PyArg.str, List.map_cons, List.all_cons, this, Bool.false_and]
          simp

theorem plausible_fn (f : FnRef) : plausible (XArg.fn f) = false := rfl

theorem plausible_str (s : Str) (h : s.head? ≠ some '-') : plausible (XArg.str s) = false := by
  simp only [plausible, PyArg.str]
  rw [decide_eq_false h, Bool.and_false]

theorem gen_parse0 : genDecl.parse [] [] = some [("count_arg".toList, .one (.int 0)), ("start_arg".toList, .one (.int 0))] := by rfl

/-- The state after no argument, one, or two. -/
abbrev gs0 : ArgState XArg := ⟨[], [], [], none, true⟩
abbrev gs1 (v : XArg) : ArgState XArg := ⟨[], [("count".toList, v)], [], none, false⟩
abbrev gs2 (v u : XArg) : ArgState XArg := ⟨[], [("count".toList, v), ("start".toList, u)], [], none, false⟩

theorem gen_step1 (x : XArg) (h : NoFlag x) (hp : plausible x = false) : genDecl.step gs0 x = (strToInt x).map gs1 := by
  unfold ArgsDecl.step
  rw [h.1, hp]
  rfl

theorem gen_step2 (v y : XArg) (h : NoFlag y) : genDecl.step (gs1 v) y = (strToInt y).map (gs2 v) := by
  unfold ArgsDecl.step
  rw [h.1, show (plausible y && (gs1 v).flagOk) = false from Bool.and_false _]
  rfl

theorem gen_extract1 (st : ArgState XArg) (x : XArg) (xs : List XArg) (h : NoFlag x) :
    genDecl.extract st (x :: xs) = (genDecl.step st x).bind fun st' => genDecl.extract st' xs := by
  rw [ArgsDecl.extract, h.2]
  simp only [List.foldlM_cons, List.foldlM_nil]
  cases genDecl.step st x <;> rfl

theorem gen_parse_none (xs : List XArg) (h : genDecl.extract gs0 xs = none) : genDecl.parse xs [] = none := by
  unfold ArgsDecl.parse
  rw [show ({ flagOk := decide (genDecl.flags.length > 0) } : ArgState XArg) = gs0 from rfl, h]
  rfl

theorem gen_parse1 (x : XArg) (h : NoFlag x) (hp : plausible x = false) :
    genDecl.parse [x] [] = (strToInt x).map fun v => [("count_arg".toList, .one v), ("start_arg".toList, .one (.int 0))] := by
  have he : genDecl.extract gs0 [x] = (strToInt x).map gs1 := by
    rw [gen_extract1 _ _ _ h, gen_step1 _ h hp]
    cases strToInt x <;> rfl
  cases hc : strToInt x with
  | none => rw [gen_parse_none _ (by rw [he, hc]; rfl)]; rfl
  | some v =>
    unfold ArgsDecl.parse
    rw [show ({ flagOk := decide (genDecl.flags.length > 0) } : ArgState XArg) = gs0 from rfl, he, hc]
    rfl

theorem gen_parse2 (x y : XArg) (h : NoFlag x) (hp : plausible x = false) (h' : NoFlag y) :
    genDecl.parse [x, y] [] = (strToInt x).bind fun v => (strToInt y).map fun u => [("count_arg".toList, .one v), ("start_arg".toList, .one u)] := by
  have he : genDecl.extract gs0 [x, y] = (strToInt x).bind fun v => (strToInt y).map (gs2 v) := by
    rw [gen_extract1 _ _ _ h, gen_step1 _ h hp]
    cases strToInt x with
    | none => rfl
    | some v =>
      simp only [Option.map_some, Option.bind_some]
      rw [gen_extract1 _ _ _ h', gen_step2 _ _ h']
      cases strToInt y <;> rfl
  cases hc : strToInt x with
  | none => rw [gen_parse_none _ (by rw [he, hc]; rfl)]; rfl
  | some v =>
    cases hc' : strToInt y with
    | none => rw [gen_parse_none _ (by rw [he, hc, hc']; rfl)]; rfl
    | some u =>
      unfold ArgsDecl.parse
      rw [show ({ flagOk := decide (genDecl.flags.length > 0) } : ArgState XArg) = gs0 from rfl, he, hc, hc']
      rfl

/-! ### unique and reverse -/

theorem unique_parse0 (w : World V) : (Kind.decl w .unique).parse [] [] = some [] := by rfl
theorem unique_parse1 (w : World V) : (Kind.decl w .unique).parse [.str "-c".toList] [] = some [("consecutive".toList, .one .true_)] := by rfl
theorem unique_parse2 (w : World V) : (Kind.decl w .unique).parse [.str "--consecutive".toList] [] = some [("consecutive".toList, .one .true_)] := by rfl
theorem reverse_parse (w : World V) : (Kind.decl w .reverse).parse [] [] = some [] := by rfl

/-! ### Arguments that aren't like flags -/

/-- An argument that doesn't begin with a minus sign. -/
def Quiet : XArg → Prop
  | .str s => s.head? ≠ some '-'
  | _ => True

/-- All flags begin with a minus sign. -/
def Dashed (d : ArgsDecl XArg) : Prop := ∀ f ∈ d.flags, ∀ s, f.symbol s = true → s.head? = some '-'

theorem quiet_findFlag {d : ArgsDecl XArg} (hd : Dashed d) {x : XArg} (h : Quiet x) : d.findFlag x = none := by
  unfold ArgsDecl.findFlag
  cases x with
  | str s =>
    show d.flags.find? (·.symbol s) = none
    rw [List.find?_eq_none]
    intro f hf hs
    exact h (hd f hf s hs)
  | _ => rfl

theorem quiet_expand {d : ArgsDecl XArg} {x : XArg} (h : Quiet x) : d.expand x = [x] := by
  refine Api.expand_other _ _ fun _ ⟨c, cs, hc⟩ => ?_
  cases x with
  | str s => exact h (by rw [Option.some.inj hc]; rfl)
  | _ => cases hc

theorem quiet_plausible {x : XArg} (h : Quiet x) : plausible x = false := by
  cases x with
  | str s => exact plausible_str s h
  | _ => rfl

theorem quiet_extract {d : ArgsDecl XArg} (st : ArgState XArg) {x : XArg} (xs : List XArg) (h : Quiet x) : d.extract st (x :: xs) = (d.step st x).bind fun st' => d.extract st' xs := by
  rw [ArgsDecl.extract, quiet_expand h]
  simp only [List.foldlM_cons, List.foldlM_nil]
  cases d.step st x <;> rfl

theorem parse_none {d : ArgsDecl XArg} (xs : List XArg) (h : d.extract { flagOk := decide (d.flags.length > 0) } xs = none) : d.parse xs [] = none := by
  unfold ArgsDecl.parse; rw [h]; rfl

/-! ### red -/

/-- All functions. -/
def toFunctions (w : World V) : List XArg → Option (List XArg)
  | [] => some []
  | x :: xs =>
    match toFunction w x with
    | none => none
    | some v => (toFunctions w xs).map (v :: ·)

def redDecl (w : World V) : ArgsDecl XArg := ⟨[Api.flag0 "incremental" "-i" (some "--incremental")], [], Api.anonList "functions" "functions" (toFunction w), [], []⟩

theorem redDecl_eq (w : World V) : Kind.decl w .red = redDecl w := rfl

theorem redDecl_dashed (w : World V) : Dashed (redDecl w) := by
  intro f hf s hs
  simp only [redDecl, List.mem_singleton] at hf
  subst hf
  simp only [FlagDecl.symbol, Api.flag0, Option.map_some, Bool.or_eq_true, decide_eq_true_eq, Option.some.injEq] at hs
  rcases hs with h | h <;> rw [← h] <;> rfl

theorem red_extract (w : World V) (xs : List XArg) : ∀ st : ArgState XArg, (∀ x ∈ xs, Quiet x) → (st.current = none ∨ st.current = some (Api.flag0 "incremental" "-i" (some "--incremental"))) →
    (redDecl w).extract st xs = (toFunctions w xs).map fun vs => { st with anonList := st.anonList ++ vs, flagOk := if xs.isEmpty then st.flagOk else false } := by
  induction xs with
  | nil => intro st _ _; simp [ArgsDecl.extract, toFunctions]
  | cons x xs ih =>
    intro st hq hc
    have hx := hq x List.mem_cons_self
    have hstep : (redDecl w).step st x = (toFunction w x).map fun v => { st with anonList := st.anonList ++ [v], flagOk := false } := by
      unfold ArgsDecl.step
      rw [quiet_findFlag (redDecl_dashed w) hx, quiet_plausible hx]
      simp only [Bool.false_and, Bool.false_eq_true, if_false]
      have hs : (redDecl w).stepAnon st x = (toFunction w x).map fun v => { st with anonList := st.anonList ++ [v], flagOk := false } := by
        simp [ArgsDecl.stepAnon, redDecl, Api.anonList]
      split
      · exact hs
      · rename_i f hcf
        rcases hc with hc | hc
        · rw [hc] at hcf; cases hcf
        · rw [hc] at hcf; cases hcf
          exact hs
    rw [quiet_extract _ _ hx, hstep, toFunctions]
    cases hf : toFunction w x with
    | none => rfl
    | some v =>
      simp only [Option.map_some, Option.bind_some]
      rw [ih { st with anonList := st.anonList ++ [v], flagOk := false } (fun y hy => hq y (List.mem_cons_of_mem _ hy)) hc]
      cases toFunctions w xs with
      | none => rfl
      | some vs => simp

theorem red_parse (w : World V) (xs : List XArg) (hq : ∀ x ∈ xs, Quiet x) :
    (redDecl w).parse xs [] = (toFunctions w xs).map fun vs => [("functions".toList, .list vs)] := by
  have he := red_extract w xs { flagOk := decide ((redDecl w).flags.length > 0) } hq (.inl rfl)
  cases hf : toFunctions w xs with
  | none => rw [parse_none _ (by rw [he, hf]; rfl)]; rfl
  | some vs =>
    unfold ArgsDecl.parse
    rw [he, hf]
    cases vs <;> rfl

theorem red_parse_inc (w : World V) (f : Str) (hf : f = "-i".toList ∨ f = "--incremental".toList) (xs : List XArg) (hq : ∀ x ∈ xs, Quiet x) :
    (redDecl w).parse (.str f :: xs) [] = (toFunctions w xs).map fun vs => [("incremental".toList, .one .true_), ("functions".toList, .list vs)] := by
  have h1 : (redDecl w).extract { flagOk := decide ((redDecl w).flags.length > 0) } (.str f :: xs) =
      (redDecl w).extract ⟨[("incremental".toList, .true_)], [], [], some (Api.flag0 "incremental" "-i" (some "--incremental")), true⟩ xs := by
    rcases hf with rfl | rfl <;> rfl
  have he := red_extract w xs ⟨[("incremental".toList, .true_)], [], [], some (Api.flag0 "incremental" "-i" (some "--incremental")), true⟩ hq (.inr rfl)
  cases hf : toFunctions w xs with
  | none => rw [parse_none _ (by rw [h1, he, hf]; rfl)]; rfl
  | some vs =>
    unfold ArgsDecl.parse
    rw [h1, he, hf]
    cases vs <;> rfl

/-! ### window -/

def windowDecl (w : World V) : ArgsDecl XArg := ⟨[Api.flag1 "overlap" "-o" "--overlap" "overlap_arg" strToInt, Api.flag1 "disjoint" "-d" "--disjoint" "disjoint_arg" strToInt],
  [Api.anonDefault "predicate" "predicate" .none_ (toFunction w)], none, [], [Api.names ["overlap", "disjoint", "predicate"]]⟩

theorem windowDecl_eq (w : World V) : Kind.decl w .window = windowDecl w := rfl

theorem windowDecl_dashed (w : World V) : Dashed (windowDecl w) := by
  intro f hf s hs
  simp only [windowDecl, List.mem_cons, List.not_mem_nil, or_false] at hf
  rcases hf with rfl | rfl
  · simp only [FlagDecl.symbol, Api.flag1, Bool.or_eq_true, decide_eq_true_eq, Option.some.injEq] at hs
    rcases hs with h | h <;> rw [← h] <;> rfl
  · simp only [FlagDecl.symbol, Api.flag1, Bool.or_eq_true, decide_eq_true_eq, Option.some.injEq] at hs
    rcases hs with h | h <;> rw [← h] <;> rfl

theorem window_parse (w : World V) (x : XArg) (hq : Quiet x) : (windowDecl w).parse [x] [] = (toFunction w x).map fun v => [("predicate".toList, .one v)] := by
  have he : (windowDecl w).extract { flagOk := decide ((windowDecl w).flags.length > 0) } [x] = (toFunction w x).map fun v => ⟨[], [("predicate".toList, v)], [], none, false⟩ := by
    rw [quiet_extract _ _ hq]
    unfold ArgsDecl.step
    rw [quiet_findFlag (windowDecl_dashed w) hq, quiet_plausible hq]
    show ((toFunction w x).map _).bind _ = _
    cases toFunction w x <;> rfl
  cases hf : toFunction w x with
  | none => rw [parse_none _ (by rw [he, hf]; rfl)]; rfl
  | some v =>
    unfold ArgsDecl.parse
    rw [he, hf]
    rfl

theorem strToInt_notTrue {x v : XArg} (h : strToInt x = some v) : PyArg.isTrue v = false := by
  cases x with
  | int n => cases h; rfl
  | fn f => cases h; rfl
  | str s =>
    simp only [strToInt] at h
    cases hp : pyInt s with
    | none => rw [hp] at h; cases h
    | some n => rw [hp] at h; cases h; rfl
  | _ => cases h

theorem window_parse_disjoint (w : World V) (f : Str) (hf : f = "-d".toList ∨ f = "--disjoint".toList) (x v : XArg) (hq : Quiet x) (hv : strToInt x = some v) :
    (windowDecl w).parse [.str f, x] [] = some [("disjoint_arg".toList, .one v), ("predicate".toList, .one .none_)] := by
  have h1 : (windowDecl w).extract { flagOk := decide ((windowDecl w).flags.length > 0) } [.str f, x] =
      (windowDecl w).extract ⟨[("disjoint".toList, .true_)], [], [], some (Api.flag1 "disjoint" "-d" "--disjoint" "disjoint_arg" strToInt), true⟩ [x] := by
    rcases hf with rfl | rfl <;> rfl
  have he : (windowDecl w).extract { flagOk := decide ((windowDecl w).flags.length > 0) } [.str f, x] = some ⟨[("disjoint".toList, v)], [], [], none, true⟩ := by
    rw [h1, quiet_extract _ _ hq]
    unfold ArgsDecl.step
    rw [quiet_findFlag (windowDecl_dashed w) hq, quiet_plausible hq]
    show ((strToInt x).map _).bind _ = _
    rw [hv]; rfl
  unfold ArgsDecl.parse
  rw [he]
  have ht := strToInt_notTrue hv
  cases v with
  | true_ => cases ht
  | _ => rfl

end Marcel.Exec
