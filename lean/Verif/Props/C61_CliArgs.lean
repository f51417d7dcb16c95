import Verif.Model.CliArgs
/-! # C61: the arguments of a script are parsed as declared -/

namespace Marcel.CliArgs

/-! ## Specification -/

/-- A part of the command line: a flag without value, a flag with a value, or another argument. -/
inductive Use
  | on (a : Arg) (f : Str)
  | value (a : Arg) (f v : Str)
  | other (s : Str)

def Use.text : Use → List Str
  | .on _ f => [f]
  | .value _ f v => [f, v]
  | .other s => [s]

/-- The part fits a declaration. -/
def Use.OK (toInt : Str → Option Int) (as : List Arg) : Use → Prop
  | .on a f => a ∈ as ∧ a.kind = .bool ∧ f ∈ a.flags
  | .value a f v => a ∈ as ∧ f ∈ a.flags ∧ v.head? ≠ some '-' ∧ (a.kind = .str ∨ a.kind = .int ∧ (toInt v).isSome)
  | .other s => s.head? ≠ some '-'

/-- The value it gives, if any, to the variable. -/
def Use.valueFor (toInt : Str → Option Int) (x : Arg) : Use → Option Val
  | .on a _ => if a = x then some (.bool true) else none
  | .value a _ v => if a = x then (if a.kind = .int then (toInt v).map .int else some (.str v)) else none
  | .other _ => none

/-- The other arguments. -/
def plain : List Use → List Str
  | [] => []
  | .other s :: us => s :: plain us
  | _ :: us => plain us

/-- The value of a variable: what the last use of its flag gives, or the default. The other arguments without the first two: the name of marcel, and the name of the script. -/
def expected (toInt : Str → Option Int) (us : List Use) (a : Arg) : Option Val :=
  if a.kind = .anon then some (.list ((plain us).drop 2))
  else match (us.filterMap (Use.valueFor toInt a)).getLast? with
    | some v => some v
    | none => if a.required then none else some a.default

/-- Declarations are in order: flags start with `-`, no flag is used twice, nor a name; `anon` is used at most once and has no flags. -/
structure Valid (as : List Arg) : Prop where
  flags : ∀ a ∈ as, ∀ f ∈ a.flags, f.head? = some '-'
  noDup : (as.flatMap Arg.flags).Nodup
  vars : (as.map Arg.var).Nodup
  one : ∀ a ∈ as, ∀ b ∈ as, a.kind = .anon → b.kind = .anon → a = b
  anon : ∀ a ∈ as, a.kind = .anon → a.flags = [] ∧ a.required = false
  some : ∀ a ∈ as, a.kind ≠ .anon → a.flags ≠ []

/-- The parts of the command line. -/
def IsUses (toInt : Str → Option Int) (as : List Arg) (argv : List Str) (us : List Use) : Prop := argv = us.flatMap Use.text ∧ ∀ u ∈ us, u.OK toInt as

/-! ## Declarations -/

theorem noDup_iff (l : List Str) : noDup l = true ↔ l.Nodup := by
  induction l with
  | nil => simp [noDup]
  | cons x l ih => simp [noDup, ih]

theorem declArg_flags {d : Decl} {a : Arg} (h : d.arg = .ok a) : (a.kind = .anon → a.flags = [] ∧ a.required = false) ∧ (a.kind ≠ .anon → a.flags ≠ []) ∧
    (∀ f ∈ a.flags, f.head? = some '-') ∧ a.var = d.var ∧ a.kind = d.kind := by
  have hs : ∀ f, isShort f = true → f.head? = some '-' := by
    intro f hf
    simp only [isShort, Bool.and_eq_true, beq_iff_eq] at hf
    rw [List.head?_eq_getElem?]; exact hf.1
  have hl : ∀ f, isLong f = true → f.head? = some '-' := by
    intro f hf
    simp only [isLong, Bool.and_eq_true, beq_iff_eq] at hf
    rw [List.head?_eq_getElem?]; exact hf.1
  unfold Decl.arg at h
  split at h
  · rename_i hk; cases h; simp [Arg.flags, hk]
  · rename_i hk
    have hk : d.kind ≠ .anon := fun e => hk e
    split at h
    · cases h
    · split at h
      · split at h
        · rename_i h1
          cases h
          refine ⟨fun e => absurd e hk, by simp [Arg.flags], ?_, rfl, rfl⟩
          intro f hf
          simp [Arg.flags] at hf
          exact hf ▸ hs _ h1
        · split at h
          · rename_i h1
            cases h
            refine ⟨fun e => absurd e hk, by simp [Arg.flags], ?_, rfl, rfl⟩
            intro f hf
            simp [Arg.flags] at hf
            exact hf ▸ hl _ h1
          · cases h
      · split at h
        · cases h
        · split at h
          · rename_i h1
            cases h
            simp only [Bool.and_eq_true] at h1
            refine ⟨fun e => absurd e hk, by simp [Arg.flags], ?_, rfl, rfl⟩
            intro f hf
            simp [Arg.flags] at hf
            rcases hf with rfl | rfl
            · exact hs _ h1.1
            · exact hl _ h1.2
          · split at h
            · rename_i h1
              cases h
              simp only [Bool.and_eq_true] at h1
              refine ⟨fun e => absurd e hk, by simp [Arg.flags], ?_, rfl, rfl⟩
              intro f hf
              simp [Arg.flags] at hf
              rcases hf with rfl | rfl
              · exact hs _ h1.2
              · exact hl _ h1.1
            · cases h

/-- Elements of two lists correspond. -/
inductive Match {α β : Type} (R : α → β → Prop) : List α → List β → Prop
  | nil : Match R [] []
  | cons {a b l m} : R a b → Match R l m → Match R (a :: l) (b :: m)

theorem mapM_ok {α β ε : Type} {f : α → Except ε β} {l : List α} {r : List β} (h : l.mapM f = .ok r) : Match (fun a b => f a = .ok b) l r := by
  induction l generalizing r with
  | nil => simp [pure, Except.pure] at h; subst h; exact .nil
  | cons a l ih =>
    simp only [List.mapM_cons, bind, Except.bind] at h
    cases ha : f a with
    | error e => rw [ha] at h; cases h
    | ok b =>
      rw [ha] at h
      simp only at h
      cases hl : l.mapM f with
      | error e => rw [hl] at h; cases h
      | ok bs =>
        rw [hl] at h
        cases h
        exact .cons ha (ih hl)

/-- The argument is as declared. -/
structure AsDeclared (d : Decl) (a : Arg) : Prop where
  var : a.var = d.var
  kind : a.kind = d.kind
  anon : d.kind = .anon → a.flags = [] ∧ a.required = false
  flags : d.kind ≠ .anon → ∀ f, f ∈ a.flags ↔ f = d.f1 ∨ some f = d.f2
  default : d.kind ≠ .anon → a.default = d.default
  required : d.kind ≠ .anon → a.required = d.required

theorem declArg_asDeclared {d : Decl} {a : Arg} (h : d.arg = .ok a) : AsDeclared d a := by
  unfold Decl.arg at h
  split at h
  · rename_i hk; cases h
    exact ⟨rfl, hk.symm, fun _ => ⟨rfl, rfl⟩, fun h => absurd hk h, fun h => absurd hk h, fun h => absurd hk h⟩
  · rename_i hk
    have hk : d.kind ≠ .anon := fun e => hk e
    split at h
    · cases h
    · split at h
      · rename_i h2
        split at h
        · cases h
          exact ⟨rfl, rfl, fun e => absurd e hk, fun _ f => by simp [Arg.flags, h2], fun _ => rfl, fun _ => rfl⟩
        · split at h
          · cases h
            exact ⟨rfl, rfl, fun e => absurd e hk, fun _ f => by simp [Arg.flags, h2], fun _ => rfl, fun _ => rfl⟩
          · cases h
      · rename_i f2 h2
        split at h
        · cases h
        · split at h
          · cases h
            exact ⟨rfl, rfl, fun e => absurd e hk, fun _ f => by simp [Arg.flags, h2], fun _ => rfl, fun _ => rfl⟩
          · split at h
            · cases h
              exact ⟨rfl, rfl, fun e => absurd e hk, fun _ f => by simp [Arg.flags, h2]; exact ⟨Or.symm, Or.symm⟩, fun _ => rfl, fun _ => rfl⟩
            · cases h

/-- Declarations that are accepted, with different names, are in order, and the arguments are as declared. -/
theorem C61_declared (ds : List Decl) (as : List Arg) (h : ds.mapM Decl.arg = .ok as) (hc : checkArgs as = true) (hv : (ds.map Decl.var).Nodup) : Valid as ∧ Match AsDeclared ds as := by
  have hf := mapM_ok h
  have hmem : ∀ a ∈ as, ∃ d ∈ ds, d.arg = .ok a := by
    clear hc hv h
    induction hf with
    | nil => simp
    | cons hd _ ih =>
      intro a ha
      rcases List.mem_cons.mp ha with rfl | ha
      · exact ⟨_, by simp, hd⟩
      · obtain ⟨d, h1, h2⟩ := ih a ha; exact ⟨d, by simp [h1], h2⟩
  have hvar : as.map Arg.var = ds.map Decl.var := by
    clear hc hv h hmem
    induction hf with
    | nil => rfl
    | cons hd _ ih => simp [ih, (declArg_flags hd).2.2.2.1]
  simp only [checkArgs, Bool.and_eq_true, decide_eq_true_eq, noDup_iff] at hc
  refine ⟨⟨?_, hc.2, hvar ▸ hv, ?_, ?_, ?_⟩, ?_⟩
  · intro a ha; obtain ⟨d, _, hd⟩ := hmem a ha; exact (declArg_flags hd).2.2.1
  · intro a ha b hb hka hkb
    have ha' : a ∈ as.filter fun a => a.kind == .anon := by simp [ha, hka]
    have hb' : b ∈ as.filter fun a => a.kind == .anon := by simp [hb, hkb]
    match hl : as.filter (fun a => a.kind == .anon), hc.1 with
    | [], _ => rw [hl] at ha'; cases ha'
    | [x], _ => rw [hl] at ha' hb'; simp at ha' hb'; rw [ha', hb']
    | x :: y :: l, h => rw [hl] at h; simp at h
  · intro a ha; obtain ⟨d, _, hd⟩ := hmem a ha; exact (declArg_flags hd).1
  · intro a ha; obtain ⟨d, _, hd⟩ := hmem a ha; exact (declArg_flags hd).2.1
  · clear hc hv h hmem hvar
    induction hf with
    | nil => exact .nil
    | cons hd _ ih => exact .cons (declArg_asDeclared hd) ih

/-- The flags that a declaration gives. -/
def Decl.Gives (d : Decl) (f : Str) : Prop := d.kind ≠ .anon ∧ (f = d.f1 ∨ some f = d.f2)

theorem match_append {α β : Type} {R : α → β → Prop} {l m : List α} {r : List β} (h : Match R (l ++ m) r) : ∃ a b, r = a ++ b ∧ Match R l a ∧ Match R m b := by
  induction l generalizing r with
  | nil => exact ⟨[], r, rfl, .nil, h⟩
  | cons x l ih =>
    cases h with
    | cons h1 h2 =>
      obtain ⟨a, b, e, ha, hb⟩ := ih h2
      exact ⟨_ :: a, b, by rw [e]; rfl, .cons h1 ha, hb⟩

theorem match_cons {α β : Type} {R : α → β → Prop} {x : α} {m : List α} {r : List β} (h : Match R (x :: m) r) : ∃ a b, r = a :: b ∧ R x a ∧ Match R m b := by
  cases h with
  | cons h1 h2 => exact ⟨_, _, rfl, h1, h2⟩

/-- **C61.** Declarations of which two give the same flag, or two ask for the other arguments, are refused, whatever the arguments are. -/
theorem C61_ambiguous (toInt : Str → Option Int) (pre mid post : List Decl) (d e : Decl) (argv : List Str)
    (h : (d.kind = .anon ∧ e.kind = .anon) ∨ ∃ f, d.Gives f ∧ e.Gives f) :
    ∃ x, parseArgs toInt (pre ++ d :: (mid ++ e :: post)) argv = .error x := by
  unfold parseArgs
  cases hm : (pre ++ d :: (mid ++ e :: post)).mapM Decl.arg with
  | error x => exact ⟨x, rfl⟩
  | ok as =>
    obtain ⟨a1, r1, rfl, -, h2⟩ := match_append (mapM_ok hm)
    obtain ⟨a, r2, rfl, hd, h3⟩ := match_cons h2
    obtain ⟨a3, r3, rfl, -, h4⟩ := match_append h3
    obtain ⟨b, r4, rfl, he, -⟩ := match_cons h4
    have hd := declArg_asDeclared hd
    have he := declArg_asDeclared he
    have hc : checkArgs (a1 ++ a :: (a3 ++ b :: r4)) = false := by
      cases hx : checkArgs (a1 ++ a :: (a3 ++ b :: r4)) with
      | false => rfl
      | true =>
        simp only [checkArgs, Bool.and_eq_true, decide_eq_true_eq, noDup_iff] at hx
        rcases h with ⟨k1, k2⟩ | ⟨f, k1, k2⟩
        · have q1 : (a.kind == .anon) = true := by rw [hd.kind, k1]; rfl
          have q2 : (b.kind == .anon) = true := by rw [he.kind, k2]; rfl
          have := hx.1
          simp [List.filter_append, q1, q2] at this
          omega
        · have m1 : f ∈ a.flags := (hd.flags k1.1 f).mpr k1.2
          have m2 : f ∈ b.flags := (he.flags k2.1 f).mpr k2.2
          have := hx.2
          simp only [List.flatMap_append, List.flatMap_cons] at this
          have := (List.nodup_append.mp this).2.1
          exact absurd rfl ((List.nodup_append.mp this).2.2 f m1 f (by simp [m2]))
    refine ⟨.usage, ?_⟩
    simp only [hc, Bool.false_eq_true, if_false]

/-! ## Scanning -/

def Use.tok (toInt : Str → Option Int) : Use → Option Arg × Val
  | .on a _ => (some a, .bool true)
  | .value a _ v => (some a, if a.kind = .int then .int ((toInt v).getD 0) else .str v)
  | .other s => (none, .str s)

theorem hasFlag_iff (a : Arg) (f : Str) : a.hasFlag f = true ↔ f ∈ a.flags := by
  unfold Arg.hasFlag Arg.flags
  rcases a.short with _ | x <;> rcases a.long with _ | y <;> simp
  · exact ⟨Eq.symm, Eq.symm⟩
  · exact ⟨Eq.symm, Eq.symm⟩
  · exact ⟨fun h => h.imp Eq.symm Eq.symm, fun h => h.imp Eq.symm Eq.symm⟩

theorem argOf_some {as : List Arg} {f : Str} {a : Arg} (h : argOf as f = some a) : a ∈ as ∧ f ∈ a.flags :=
  have h' : as.find? (fun a => a.hasFlag f) = some a := h
  ⟨List.mem_of_find?_eq_some h', (hasFlag_iff a f).mp (List.find?_some (p := fun (a : Arg) => a.hasFlag f) h')⟩

theorem flag_unique {as : List Arg} (hn : (as.flatMap Arg.flags).Nodup) {a b : Arg} (ha : a ∈ as) (hb : b ∈ as) {f : Str} (hfa : f ∈ a.flags) (hfb : f ∈ b.flags) : a = b := by
  induction as with
  | nil => cases ha
  | cons x as ih =>
    rw [List.flatMap_cons, List.nodup_append] at hn
    rcases List.mem_cons.mp ha with ha | ha <;> rcases List.mem_cons.mp hb with hb | hb
    · rw [ha, hb]
    · exact absurd rfl (hn.2.2 f (ha ▸ hfa) f (List.mem_flatMap.mpr ⟨b, hb, hfb⟩))
    · exact absurd rfl (hn.2.2 f (hb ▸ hfb) f (List.mem_flatMap.mpr ⟨a, ha, hfa⟩))
    · exact ih hn.2.1 ha hb

theorem argOf_eq {as : List Arg} (hn : (as.flatMap Arg.flags).Nodup) {a : Arg} (ha : a ∈ as) {f : Str} (hf : f ∈ a.flags) : argOf as f = some a := by
  cases h : argOf as f with
  | none =>
    unfold argOf at h
    rw [List.find?_eq_none] at h
    exact absurd ((hasFlag_iff a f).mpr hf) (h a ha)
  | some b =>
    obtain ⟨hb, hfb⟩ := argOf_some h
    rw [flag_unique hn ha hb hf hfb]

theorem isFlag_iff (t : Str) : isFlag t = true ↔ t.head? = some '-' := by simp [isFlag]

theorem scan_sound (toInt : Str → Option Int) (as : List Arg) (hv : Valid as) (n : Nat) : ∀ (argv : List Str) (toks : List (Option Arg × Val)), argv.length ≤ n →
    scan toInt as argv = .ok toks → ∃ us, IsUses toInt as argv us ∧ toks = us.map (Use.tok toInt) := by
  have hmap : ∀ {e : Except Err (List (Option Arg × Val))} {x : Option Arg × Val} {toks : List (Option Arg × Val)}, e.map (fun r => x :: r) = .ok toks →
      ∃ r, e = .ok r ∧ toks = x :: r := by
    intro e x toks h
    cases e with
    | error e => cases h
    | ok r => simp [Except.map] at h; exact ⟨r, rfl, h.symm⟩
  induction n with
  | zero =>
    intro argv toks hl h
    have : argv = [] := List.length_eq_zero_iff.mp (by omega)
    subst this
    simp [scan] at h
    subst h
    exact ⟨[], ⟨rfl, by simp⟩, rfl⟩
  | succ n ih =>
    intro argv toks hl h
    cases argv with
    | nil => simp [scan] at h; subst h; exact ⟨[], ⟨rfl, by simp⟩, rfl⟩
    | cons t rest =>
      have hlr : rest.length ≤ n := by simp at hl; omega
      unfold scan at h
      by_cases ht : isFlag t
      · rw [if_pos ht] at h
        cases ha : argOf as t with
        | none => rw [ha] at h; cases h
        | some a =>
          obtain ⟨hmem, hflag⟩ := argOf_some ha
          rw [ha] at h
          simp only at h
          by_cases hb : a.kind == .bool
          · rw [if_pos hb] at h
            obtain ⟨r, hr, rfl⟩ := hmap h
            obtain ⟨us, ⟨h1, h2⟩, h3⟩ := ih rest r hlr hr
            refine ⟨.on a t :: us, ⟨by simp [Use.text, h1], ?_⟩, by simp [Use.tok, h3]⟩
            intro u hu
            rcases List.mem_cons.mp hu with rfl | hu
            · exact ⟨hmem, by simpa using hb, hflag⟩
            · exact h2 u hu
          · rw [if_neg hb] at h
            cases rest with
            | nil => simp at h
            | cons v rest =>
              simp only at h
              have hlr' : rest.length ≤ n := by simp at hlr; omega
              by_cases hv' : isFlag v
              · rw [if_pos hv'] at h; cases h
              · rw [if_neg hv'] at h
                have hvn : v.head? ≠ some '-' := fun e => hv' ((isFlag_iff v).mpr e)
                by_cases hi : a.kind == .int
                · rw [if_pos hi] at h
                  have hi : a.kind = .int := by simpa using hi
                  cases hn : toInt v with
                  | none => rw [hn] at h; cases h
                  | some k =>
                    rw [hn] at h
                    simp only at h
                    obtain ⟨r, hr, rfl⟩ := hmap h
                    obtain ⟨us, ⟨h1, h2⟩, h3⟩ := ih rest r hlr' hr
                    refine ⟨.value a t v :: us, ⟨by simp [Use.text, h1], ?_⟩, by simp [Use.tok, h3, hi, hn]⟩
                    intro u hu
                    rcases List.mem_cons.mp hu with rfl | hu
                    · exact ⟨hmem, hflag, hvn, .inr ⟨hi, by simp [hn]⟩⟩
                    · exact h2 u hu
                · rw [if_neg hi] at h
                  have hi : a.kind ≠ .int := by simpa using hi
                  have hs : a.kind = .str := by
                    cases hk : a.kind with
                    | anon => rw [(hv.anon a hmem hk).1] at hflag; cases hflag
                    | str => rfl
                    | int => exact absurd hk hi
                    | bool => rw [hk] at hb; simp at hb
                  obtain ⟨r, hr, rfl⟩ := hmap h
                  obtain ⟨us, ⟨h1, h2⟩, h3⟩ := ih rest r hlr' hr
                  refine ⟨.value a t v :: us, ⟨by simp [Use.text, h1], ?_⟩, by simp [Use.tok, h3, hs]⟩
                  intro u hu
                  rcases List.mem_cons.mp hu with rfl | hu
                  · exact ⟨hmem, hflag, hvn, .inl hs⟩
                  · exact h2 u hu
      · rw [if_neg ht] at h
        obtain ⟨r, hr, rfl⟩ := hmap h
        obtain ⟨us, ⟨h1, h2⟩, h3⟩ := ih rest r hlr hr
        refine ⟨.other t :: us, ⟨by simp [Use.text, h1], ?_⟩, by simp [Use.tok, h3]⟩
        intro u hu
        rcases List.mem_cons.mp hu with rfl | hu
        · exact fun e => ht ((isFlag_iff t).mpr e)
        · exact h2 u hu

theorem scan_complete (toInt : Str → Option Int) (as : List Arg) (hv : Valid as) (us : List Use) (h : ∀ u ∈ us, u.OK toInt as) :
    scan toInt as (us.flatMap Use.text) = .ok (us.map (Use.tok toInt)) := by
  induction us with
  | nil => rfl
  | cons u us ih =>
    have ih := ih fun x hx => h x (by simp [hx])
    have hu := h u (by simp)
    cases u with
    | on a f =>
      obtain ⟨h1, h2, h3⟩ := hu
      have hf := hv.flags a h1 f h3
      simp only [List.flatMap_cons, Use.text, List.cons_append, List.nil_append, List.map_cons, Use.tok]
      unfold scan
      rw [if_pos ((isFlag_iff f).mpr hf), argOf_eq hv.noDup h1 h3]
      simp only
      rw [if_pos (by simp [h2]), ih]
      rfl
    | value a f v =>
      obtain ⟨h1, h2, h3, h4⟩ := hu
      have hf := hv.flags a h1 f h2
      have hb : ¬ (a.kind == .bool) = true := by rcases h4 with h | h <;> simp [h]
      simp only [List.flatMap_cons, Use.text, List.cons_append, List.nil_append, List.map_cons, Use.tok]
      unfold scan
      rw [if_pos ((isFlag_iff f).mpr hf), argOf_eq hv.noDup h1 h2]
      simp only
      rw [if_neg hb, if_neg (fun e => h3 ((isFlag_iff v).mp e))]
      rcases h4 with h4 | ⟨h4, h5⟩
      · rw [if_neg (by simp [h4]), ih]; simp [h4, Except.map]
      · rw [if_pos (by simp [h4])]
        cases hn : toInt v with
        | none => rw [hn] at h5; cases h5
        | some k => simp only; rw [ih]; simp [h4, Except.map]
    | other s =>
      simp only [List.flatMap_cons, Use.text, List.cons_append, List.nil_append, List.map_cons, Use.tok]
      unfold scan
      rw [if_neg (fun e => hu ((isFlag_iff s).mp e)), ih]
      rfl

/-! ## Values -/

theorem var_unique {as : List Arg} (hv : (as.map Arg.var).Nodup) {a b : Arg} (ha : a ∈ as) (hb : b ∈ as) (h : a.var = b.var) : a = b := by
  induction as with
  | nil => cases ha
  | cons x as ih =>
    rw [List.map_cons, List.nodup_cons] at hv
    rcases List.mem_cons.mp ha with ha | ha <;> rcases List.mem_cons.mp hb with hb | hb
    · rw [ha, hb]
    · exact absurd (List.mem_map.mpr ⟨b, hb, by rw [← h, ha]⟩) hv.1
    · exact absurd (List.mem_map.mpr ⟨a, ha, by rw [h, hb]⟩) hv.1
    · exact ih hv.2 ha hb

theorem defaults_eq {as : List Arg} (hv : (as.map Arg.var).Nodup) {a : Arg} (ha : a ∈ as) : defaults as a.var = if a.required then none else some a.default := by
  have key : ∀ (as : List Arg) (d : Vals), (∀ b ∈ as, b.var = a.var → b = a) →
      as.foldl (fun d a => if a.required then d else d.set a.var a.default) d a.var = if a ∈ as ∧ a.required = false then some a.default else d a.var := by
    intro as
    induction as with
    | nil => intro d _; simp
    | cons b as ih =>
      intro d h
      rw [List.foldl_cons, ih _ fun x hx => h x (by simp [hx])]
      by_cases hb : b.var = a.var
      · have := h b (by simp) hb
        subst this
        cases b.required <;> simp [Vals.set]
      · have hne : a ≠ b := fun e => hb (by rw [e])
        have hd : (if b.required then d else d.set b.var b.default) a.var = d a.var := by
          split
          · rfl
          · simp [Vals.set, Ne.symm hb]
        rw [hd]
        simp [hne]
  unfold defaults
  rw [key as _ fun b hb h => var_unique hv hb ha h]
  cases a.required <;> simp [ha]

theorem collect_eq (toInt : Str → Option Int) {as : List Arg} (hv : (as.map Arg.var).Nodup) {a : Arg} (ha : a ∈ as) (us : List Use) (h : ∀ u ∈ us, u.OK toInt as) (d : Vals) :
    collect d (us.map (Use.tok toInt)) a.var = match (us.filterMap (Use.valueFor toInt a)).getLast? with | some v => some v | none => d a.var := by
  induction us generalizing d with
  | nil => simp [collect]
  | cons u us ih =>
    have hu := h u (by simp)
    have hstep : ∀ d, collect d ((u :: us).map (Use.tok toInt)) = collect (match (u.tok toInt).1 with | some b => d.set b.var (u.tok toInt).2 | none => d) (us.map (Use.tok toInt)) := by
      intro d; rfl
    rw [hstep, ih fun x hx => h x (by simp [hx])]
    have hval : (match (u.tok toInt).1 with | some b => d.set b.var (u.tok toInt).2 | none => d) a.var = match u.valueFor toInt a with | some v => some v | none => d a.var := by
      cases u with
      | on b f =>
        simp only [Use.tok, Use.valueFor]
        by_cases hb : b = a
        · subst hb; simp [Vals.set]
        · have : b.var ≠ a.var := fun e => hb (var_unique hv hu.1 ha e)
          simp [Vals.set, hb, Ne.symm this]
      | value b f v =>
        simp only [Use.tok, Use.valueFor]
        by_cases hb : b = a
        · subst hb
          obtain ⟨_, _, _, h4⟩ := hu
          rcases h4 with h4 | ⟨h4, h5⟩
          · simp [Vals.set, h4]
          · cases hn : toInt v with
            | none => rw [hn] at h5; cases h5
            | some k => simp [Vals.set, h4]
        · have : b.var ≠ a.var := fun e => hb (var_unique hv hu.1 ha e)
          simp [Vals.set, hb, Ne.symm this]
      | other s => rfl
    rw [hval]
    cases hvf : u.valueFor toInt a with
    | none => simp [hvf]
    | some v =>
      rw [List.filterMap_cons, hvf]
      simp only [List.getLast?_cons]
      cases (us.filterMap (Use.valueFor toInt a)).getLast? <;> simp

theorem others_eq (toInt : Str → Option Int) (us : List Use) : others (us.map (Use.tok toInt)) = plain us := by
  induction us with
  | nil => rfl
  | cons u us ih =>
    unfold others at ih ⊢
    cases u <;> simp [Use.tok, plain, ih]

/-- The values after 238-245. -/
def final (toInt : Str → Option Int) (as : List Arg) (us : List Use) : Vals :=
  match as.find? fun a => a.kind == .anon with
  | some a => (collect (defaults as) (us.map (Use.tok toInt))).set a.var (.list ((plain us).drop 2))
  | none => collect (defaults as) (us.map (Use.tok toInt))

theorem final_eq (toInt : Str → Option Int) (as : List Arg) (hv : Valid as) (us : List Use) (h : ∀ u ∈ us, u.OK toInt as) (a : Arg) (ha : a ∈ as) :
    final toInt as us a.var = expected toInt us a := by
  have hc := collect_eq toInt hv.vars ha us h (defaults as)
  rw [defaults_eq hv.vars ha] at hc
  unfold final expected
  cases hf : as.find? fun a => a.kind == .anon with
  | none =>
    rw [List.find?_eq_none] at hf
    have hk : a.kind ≠ .anon := by have := hf a ha; simpa using this
    simp only
    rw [if_neg hk, hc]
  | some b =>
    have hb := List.mem_of_find?_eq_some hf
    have hkb : b.kind = .anon := by have := List.find?_some hf; simpa using this
    simp only
    by_cases hk : a.kind = .anon
    · rw [if_pos hk, hv.one a ha b hb hk hkb]; simp [Vals.set]
    · have : a.var ≠ b.var := fun e => hk (by rw [var_unique hv.vars ha hb e]; exact hkb)
      rw [if_neg hk]
      simp only [Vals.set, if_neg this]
      exact hc

theorem parse_eq (toInt : Str → Option Int) (as : List Arg) (us : List Use) (argv : List Str) (h : scan toInt as argv = .ok (us.map (Use.tok toInt))) :
    parse toInt as argv = if as.all fun a => !a.required || (final toInt as us a.var).isSome then .ok (final toInt as us) else .error .usage := by
  unfold parse final
  rw [h]
  simp only [others_eq]
  rfl

/-- **C61**: if parsing succeeds, the command line consists of parts that fit the declarations, every required flag is among them, and every variable has the value to be expected. -/
theorem C61_parse (toInt : Str → Option Int) (as : List Arg) (hv : Valid as) (argv : List Str) (d : Vals) (h : parse toInt as argv = .ok d) :
    ∃ us, IsUses toInt as argv us ∧ ∀ a ∈ as, d a.var = expected toInt us a ∧ (d a.var).isSome = true := by
  cases hs : scan toInt as argv with
  | error e => unfold parse at h; rw [hs] at h; cases h
  | ok toks =>
    obtain ⟨us, hu, rfl⟩ := scan_sound toInt as hv argv.length argv toks (Nat.le_refl _) hs
    rw [parse_eq toInt as us argv hs] at h
    split at h
    · rename_i hall
      cases h
      refine ⟨us, hu, fun a ha => ?_⟩
      have he := final_eq toInt as hv us hu.2 a ha
      refine ⟨he, ?_⟩
      have := List.all_eq_true.mp hall a ha
      simp only [Bool.or_eq_true, Bool.not_eq_true'] at this
      rcases this with hr | hr
      · rw [he]
        unfold expected
        split
        · rfl
        · split
          · rfl
          · simp [hr]
      · exact hr
    · cases h

/-- Conversely, if the command line consists of such parts, with all required flags, it is accepted. -/
theorem C61_accepted (toInt : Str → Option Int) (as : List Arg) (hv : Valid as) (argv : List Str) (us : List Use) (hu : IsUses toInt as argv us)
    (hr : ∀ a ∈ as, a.required = true → ∃ u ∈ us, (u.valueFor toInt a).isSome = true) : ∃ d, parse toInt as argv = .ok d := by
  have hs := scan_complete toInt as hv us hu.2
  rw [← hu.1] at hs
  rw [parse_eq toInt as us argv hs, if_pos]
  · exact ⟨_, rfl⟩
  · rw [List.all_eq_true]
    intro a ha
    cases hreq : a.required with
    | false => rfl
    | true =>
      simp only [Bool.not_true, Bool.false_or]
      rw [final_eq toInt as hv us hu.2 a ha]
      unfold expected
      split
      · rfl
      · obtain ⟨u, hu1, hu2⟩ := hr a ha hreq
        split
        · rfl
        · rename_i hnone
          rw [List.getLast?_eq_none_iff, List.filterMap_eq_nil_iff] at hnone
          rw [hnone u hu1] at hu2
          cases hu2

/-- A command line is divided into parts in one way only. -/
theorem C61_unique (toInt : Str → Option Int) (as : List Arg) (hv : Valid as) (argv : List Str) (us vs : List Use) (hu : IsUses toInt as argv us) (hw : IsUses toInt as argv vs) : us = vs := by
  induction us generalizing vs argv with
  | nil =>
    cases vs with
    | nil => rfl
    | cons v vs =>
      have := hu.1.symm.trans hw.1
      cases v <;> simp [Use.text] at this
  | cons u us ih =>
    cases vs with
    | nil =>
      have := hu.1.symm.trans hw.1
      cases u <;> simp [Use.text] at this
    | cons v vs =>
      have he := hu.1.symm.trans hw.1
      have hu0 := hu.2 u (by simp)
      have hv0 := hw.2 v (by simp)
      have hus : ∀ rest, rest = us.flatMap Use.text → IsUses toInt as rest us := fun r h => ⟨h, fun x hx => hu.2 x (by simp [hx])⟩
      have hvs : ∀ rest, rest = vs.flatMap Use.text → IsUses toInt as rest vs := fun r h => ⟨h, fun x hx => hw.2 x (by simp [hx])⟩
      cases u with
      | on a f =>
        have hf := hv.flags a hu0.1 f hu0.2.2
        cases v with
        | on b g =>
          simp [Use.text] at he
          obtain ⟨rfl, he⟩ := he
          have := flag_unique hv.noDup hu0.1 hv0.1 hu0.2.2 hv0.2.2
          rw [this, ih _ vs (hus _ rfl) (hvs _ he)]
        | value b g w =>
          simp [Use.text] at he
          obtain ⟨rfl, _⟩ := he
          have := flag_unique hv.noDup hu0.1 hv0.1 hu0.2.2 hv0.2.1
          subst this
          have h1 := hu0.2.1
          have h2 := hv0.2.2.2
          rw [h1] at h2
          simp at h2
        | other s =>
          simp [Use.text] at he
          exact absurd hf (he.1 ▸ hv0)
      | value a f w =>
        have hf := hv.flags a hu0.1 f hu0.2.1
        cases v with
        | on b g =>
          simp [Use.text] at he
          obtain ⟨rfl, _⟩ := he
          have := flag_unique hv.noDup hu0.1 hv0.1 hu0.2.1 hv0.2.2
          subst this
          have h1 := hv0.2.1
          have h2 := hu0.2.2.2
          rw [h1] at h2
          simp at h2
        | value b g w' =>
          simp [Use.text] at he
          obtain ⟨rfl, rfl, he⟩ := he
          have := flag_unique hv.noDup hu0.1 hv0.1 hu0.2.1 hv0.2.1
          rw [this, ih _ vs (hus _ rfl) (hvs _ he)]
        | other s =>
          simp [Use.text] at he
          exact absurd hf (he.1 ▸ hv0)
      | other s =>
        cases v with
        | on b g =>
          simp [Use.text] at he
          exact absurd (hv.flags b hv0.1 g hv0.2.2) (he.1 ▸ hu0)
        | value b g w =>
          simp [Use.text] at he
          exact absurd (hv.flags b hv0.1 g hv0.2.1) (he.1 ▸ hu0)
        | other s' =>
          simp [Use.text] at he
          rw [he.1, ih _ vs (hus _ rfl) (hvs _ he.2)]

/-- Each part of the command line counts: no text is lost. -/
theorem C61_lossless (toInt : Str → Option Int) (as : List Arg) (hv : Valid as) (argv : List Str) (d : Vals) (h : parse toInt as argv = .ok d) :
    ∃ us, argv = us.flatMap Use.text ∧ ∀ a ∈ as, a.kind = .anon → d a.var = some (.list ((plain us).drop 2)) := by
  obtain ⟨us, h1, h2⟩ := C61_parse toInt as hv argv d h
  refine ⟨us, h1.1, fun a ha hk => ?_⟩
  rw [(h2 a ha).1]
  simp [expected, hk]

/-! ## What fails -/

/-- **C61 is false** for the value of an int flag that is not a number: instead of the message about usage, there is a ValueError. -/
theorem C61_false_int (toInt : Str → Option Int) (a : Arg) (hk : a.kind = .int) (f v : Str) (hf : a.hasFlag f = true) (hd : f.head? = some '-') (hv : v.head? ≠ some '-') (hn : toInt v = none)
    (rest : List Str) : parse toInt [a] (f :: v :: rest) = .error .valueError := by
  have : scan toInt [a] (f :: v :: rest) = .error .valueError := by
    unfold scan
    rw [if_pos ((isFlag_iff f).mpr hd)]
    have : argOf [a] f = some a := by simp [argOf, hf]
    rw [this]
    simp only
    rw [if_neg (by simp [hk]), if_neg (fun e => hv ((isFlag_iff v).mp e)), if_pos (by simp [hk]), hn]
  unfold parse
  rw [this]

/-- If the script is read from standard input, there is no name of a script on the command line: the first argument is dropped. -/
theorem C61_false_stdin (toInt : Str → Option Int) (var marcel x y : Str) (hm : marcel.head? ≠ some '-') (hx : x.head? ≠ some '-') (hy : y.head? ≠ some '-') :
    ∃ d, parse toInt [⟨var, .anon, none, none, .list [], false⟩] [marcel, x, y] = .ok d ∧ d var = some (.list [y]) := by
  have hs : scan toInt [⟨var, .anon, none, none, .list [], false⟩] [marcel, x, y] = .ok [(none, .str marcel), (none, .str x), (none, .str y)] := by
    simp [scan, isFlag_iff, hm, hx, hy, Except.map]
  unfold parse
  rw [hs]
  exact ⟨_, rfl, by simp [Vals.set, others]⟩

/-! ## The hypotheses can be met -/

def exDecls : List Decl := [⟨"verbose".toList, .bool, "-v".toList, some "--verbose".toList, .bool false, false⟩, ⟨"n".toList, .int, "--count".toList, some "-n".toList, .int 0, true⟩,
  ⟨"files".toList, .anon, [], none, .none, false⟩]

def exArgs : List Arg := [⟨"verbose".toList, .bool, some "-v".toList, some "--verbose".toList, .bool false, false⟩, ⟨"n".toList, .int, some "-n".toList, some "--count".toList, .int 0, true⟩,
  ⟨"files".toList, .anon, none, none, .list [], false⟩]

example : exDecls.mapM Decl.arg = .ok exArgs ∧ checkArgs exArgs = true ∧ (exDecls.map Decl.var).Nodup := by
  refine ⟨by rfl, by decide +kernel, by decide +kernel⟩

/-- A conversion for the example. -/
def exInt (s : Str) : Option Int := if s = ['5'] then some 5 else none

example : (match parse exInt exArgs ["marcel".toList, "s".toList, "a".toList, "-n".toList, "5".toList, "b".toList, "-v".toList] with
    | .ok d => decide (d "verbose".toList = some (.bool true)) && decide (d "n".toList = some (.int 5)) && decide (d "files".toList = some (.list ["a".toList, "b".toList]))
    | .error _ => false) = true := by decide +kernel

/-- Two declarations with the same flag. -/
example (toInt : Str → Option Int) (argv : List Str) : ∃ x, parseArgs toInt
    [⟨"a".toList, .str, "-a".toList, some "--all".toList, .none, false⟩, ⟨"b".toList, .bool, "--all".toList, none, .none, false⟩] argv = .error x :=
  C61_ambiguous toInt [] [] [] _ _ argv (Or.inr ⟨"--all".toList, ⟨by decide, Or.inr rfl⟩, ⟨by decide, Or.inl rfl⟩⟩)

end Marcel.CliArgs
