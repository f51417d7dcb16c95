import Verif.Lemmas.ExecArgs
import Verif.Lemmas.ExecMore
import Verif.Props.C21_FlushOnce

/-! # Lemmas for C72: a stage is made into an operator that does what the stage does -/

namespace Marcel.Exec

set_option linter.unusedSectionVars false

open Op

variable {V : Type} [DecidableEq V]

/-- What an operator that is first sends, and how it ends. -/
def FirstSends (w : World V) (o : AnyOp V) (es : List (Ev V)) (x : Option Exn) : Prop :=
  (∃ e, (o.2.item o.2.init w.empty).exn = some e ∧ es = (o.2.item o.2.init w.empty).out ∧ x = some e) ∨
  ((o.2.item o.2.init w.empty).exn = none ∧ es = (o.2.item o.2.init w.empty).out ++ (o.2.flush (o.2.item o.2.init w.empty).st).out ∧
    x = (o.2.flush (o.2.item o.2.init w.empty).st).exn)

/-- An operator that is set up for a stage. -/
inductive ReadyFor (w : World V) (st : Stage) : Ready V → Prop
  | source (sent : Nat → List V × Bool) : st.isGen →
      (∀ steps, ∃ s xs, st.Starts w steps s ∧ s.sent = xs.map .item ∧ xs = (sent steps).1 ∧ s.how = if (sent steps).2 then .finished else .running) →
      ReadyFor w st (.source sent)
  | needs (o : AnyOp V) : ¬ st.isGen → st.needsInput → Implements o (st.Does w) → ((∀ n, st ≠ .tail n) → SignalsOnce o.2) → ReadyFor w st (.stage true o)
  | stage (o : AnyOp V) : ¬ st.isGen → ¬ st.needsInput → Implements o (st.Does w) → ((∀ n, st ≠ .tail n) → SignalsOnce o.2) →
      (∀ steps, ∃ es x s, FirstSends w o es x ∧ st.Starts w steps s ∧ Carries s es x) → ReadyFor w st (.stage false o)

/-- A function doesn't exist. -/
def Stage.Unreadable (w : World V) (st : Stage) : Prop := ∃ f ∈ st.functions, ¬ f.Exists w

/-- What becomes of a stage. -/
def MadeFor (w : World V) (st : Stage) (c : Created) : Prop :=
  (st.Unreadable w ∧ make w c = some none) ∨
  (¬ st.Unreadable w ∧ ∃ k op, make w c = some (some (k, op)) ∧ (k = .gen ↔ st.isGen) ∧
    (st.Bad w ∧ k.setup w op = .error .kill ∨ ¬ st.Bad w ∧ ∃ r, k.setup w op = .ok r ∧ ReadyFor w st r))

/-! ## One end of the stream -/

theorem signalsOnce_via {σ A B : Type} (i : V → A) (j : B → V) (o : Op σ A B) (h : SignalsOnce o) : SignalsOnce (viaOp i j o) := by
  intro s hs
  obtain ⟨b, h1, h2⟩ := h s hs
  refine ⟨b.map (evMap j), ?_, ?_⟩
  · show (o.flush s).out.map (evMap j) = _
    rw [h1, List.map_append]; rfl
  · intro hb
    obtain ⟨e, he, h⟩ := List.mem_map.mp hb
    cases e with
    | flush => exact h2 he
    | _ => cases h

theorem signalsOnce_redReady (w : World V) (inc : Bool) (fs : List FnRef) : SignalsOnce (redReady w inc fs).2 := by
  rcases Bool.eq_false_or_eq_true (redIsGrouping (fs.map (redFn w))) with h | h
  · rw [show redReady w inc fs = ⟨_, viaOp w.elems w.seq (redGroupOp w.none0 inc (fs.map (redFn w)))⟩ by simp only [redReady, h, if_true]]
    exact signalsOnce_via _ _ _ (signalsOnce_red_group _ _ _)
  · rw [show redReady w inc fs = ⟨_, viaOp w.elems w.seq (redOp w.none0 w.zero inc (fs.map (redFn w)))⟩ by simp only [redReady, h, Bool.false_eq_true, if_false]]
    exact signalsOnce_via _ _ _ (signalsOnce_red _ _ _ _)

/-! ## Arguments -/

/-- An integer, as an argument. -/
theorem num_arg (w : World V) (names : Names) (isShell : Str → Bool) (n : Num) (a : SArg) (h : n.Written a) (ha : a.WF isShell false) :
    ∃ c, ArgMeans names false a c ∧
      ((∃ src, n = .expr src ∧ w.compiles src = false ∧ argOf w c = none) ∨
       ((∀ src, n = .expr src → w.compiles src = true) ∧ ∃ x v, argOf w c = some x ∧ NoFlag x ∧ ((∀ u, a = .word u → u.kept.head? ≠ some '-') → Quiet x) ∧ strToInt x = some v ∧
         evalInt w v = (match n.eval w with | some k => .ok k | none => .error .kill))) := by
  cases h with
  | lit u n hn =>
    have hw : u.WF := ha
    refine ⟨_, .word false u, .inr ⟨(by intro src h; cases h), .str u.kept, .int n, ?_, noFlag_numeral hn, ?_, ?_, rfl⟩⟩
    · show some (XArg.str u.lit.original) = _
      rw [hw.original]
    · intro h; exact h u rfl
    · show (pyInt u.kept).map XArg.int = _
      rw [pyInt_numeral hn]; rfl
  | expr src =>
    refine ⟨_, .expr false src, ?_⟩
    rcases Bool.eq_false_or_eq_true (w.compiles src) with hc | hc
    · refine .inr ⟨(by intro s h; cases h; exact hc), .fn (.source src), .fn (.source src), ?_, noFlag_fn _, fun _ => True.intro, rfl, ?_⟩
      · show (if w.compiles src then some (XArg.fn (.source src)) else none) = _
        rw [hc]; rfl
      · simp only [evalInt, Num.eval]
        cases w.fn (.source src) w.empty with
        | error m => rfl
        | ok v =>
          simp only
          cases w.toInt v <;> rfl
    · refine .inl ⟨src, rfl, hc, ?_⟩
      show (if w.compiles src then some (XArg.fn (.source src)) else none) = _
      rw [hc]; rfl

/-- An operator, as a command. -/
theorem op_means (names : Names) (u : Word) (name : Str) (hu : u.kept = name) (hd : names.defined name = false) (h1 : name ∈ operatorNames) (h2 : name ∉ shellStyle) (args : List SArg) (cs : List CArg)
    (h : ArgsMean names false args cs) : OpMeans names (.named u args) (.builtin name cs) := by
  subst hu
  refine .operator u args cs hd h1 ?_
  rw [decide_eq_false h2]
  exact h

theorem not_shell (names : Names) (name : Str) (h1 : name ∈ publicOps) (h2 : name ∉ shellStyle) : names.shellArgs name = false := by
  rw [shellArgs_eq, decide_eq_false h2, (isOp_iff _).mpr h1]
  simp

theorem args1 {names : Names} {a : SArg} {c : CArg} (h : ArgMeans names false a c) : ArgsMean names false [a] [c] := .cons _ _ _ _ _ h (.nil _)

theorem argsOf1 (w : World V) {c : CArg} {x : XArg} (h : argOf w c = some x) : argsOf w [c] = some [x] := by simp only [argsOf, h]; rfl
theorem argsOf1_none (w : World V) {c : CArg} (h : argOf w c = none) (cs : List CArg) : argsOf w (c :: cs) = none := by simp only [argsOf, h]
theorem argsOf2 (w : World V) {c d : CArg} {x y : XArg} (h : argOf w c = some x) (h' : argOf w d = some y) : argsOf w [c, d] = some [x, y] := by simp only [argsOf, h, h']; rfl
theorem argsOf2_none (w : World V) {c d : CArg} (h' : argOf w d = none) : argsOf w [c, d] = none := by simp only [argsOf, h']; cases argOf w c <;> rfl

theorem expr_ok (w : World V) {src : Str} (h : w.compiles src = true) : argOf w (.tok (.expr src)) = some (.fn (.source src)) := by
  show (if w.compiles src then some (XArg.fn (.source src)) else none) = _
  rw [h]; rfl
theorem expr_bad (w : World V) {src : Str} (h : w.compiles src = false) : argOf w (.tok (.expr src)) = none := by
  show (if w.compiles src then some (XArg.fn (.source src)) else none) = _
  rw [h]; rfl

/-! ## The first stage -/

theorem map_first (w : World V) (src : FnRef) (f : V → Except Msg V) (hf : ∀ x, f x = (w.fn src x).map w.wrap) (steps : Nat) :
    ∃ es x s, FirstSends w ⟨_, mapOp f⟩ es x ∧ (Stage.map src).Starts w steps s ∧ Carries s es x := by
  cases h : w.fn src w.empty with
  | ok y =>
    have e : (mapOp f).item () w.empty = ⟨(), [.item (w.wrap y)], none⟩ := by simp [mapOp, hf, h, Except.map]
    refine ⟨[.item (w.wrap y), .flush], none, ⟨[.item (w.wrap y)], .finished⟩, .inr ?_, ?_, 1, rfl, by decide, rfl⟩
    · show ((mapOp f).item () w.empty).exn = none ∧ _ = ((mapOp f).item () w.empty).out ++ _ ∧ _
      rw [e]; exact ⟨rfl, rfl, rfl⟩
    · simp only [Stage.Starts, applied, h]; rfl
  | error m =>
    have e : (mapOp f).item () w.empty = ⟨(), [.err m], some .kare⟩ := by simp [mapOp, hf, h, Except.map, fatal]
    refine ⟨[.err m], some .kare, ⟨[.error m], .stopped .kare⟩, .inl ⟨.kare, ?_⟩, ?_, 0, rfl, rfl, rfl⟩
    · show ((mapOp f).item () w.empty).exn = some .kare ∧ _ = ((mapOp f).item () w.empty).out ∧ _
      rw [e]; exact ⟨rfl, rfl, rfl⟩
    · simp only [Stage.Starts, applied, h]; rfl

theorem select_first (w : World V) (src : FnRef) (f : V → Except Msg Bool) (hf : ∀ x, f x = (w.fn src x).map w.truth) (steps : Nat) :
    ∃ es x s, FirstSends w ⟨_, selectOp f⟩ es x ∧ (Stage.select src).Starts w steps s ∧ Carries s es x := by
  cases h : w.fn src w.empty with
  | ok y =>
    cases ht : w.truth y with
    | true =>
      have e : (selectOp f).item () w.empty = ⟨(), [.item w.empty], none⟩ := by simp [selectOp, hf, h, Except.map, ht]
      refine ⟨[.item w.empty, .flush], none, ⟨[.item w.empty], .finished⟩, .inr ?_, ?_, 1, rfl, by decide, rfl⟩
      · show ((selectOp f).item () w.empty).exn = none ∧ _ = ((selectOp f).item () w.empty).out ++ _ ∧ _
        rw [e]; exact ⟨rfl, rfl, rfl⟩
      · simp only [Stage.Starts, chosen, h, ht]; rfl
    | false =>
      have e : (selectOp f).item () w.empty = ⟨(), [], none⟩ := by simp [selectOp, hf, h, Except.map, ht]
      refine ⟨[.flush], none, ⟨[], .finished⟩, .inr ?_, ?_, 1, rfl, by decide, rfl⟩
      · show ((selectOp f).item () w.empty).exn = none ∧ _ = ((selectOp f).item () w.empty).out ++ _ ∧ _
        rw [e]; exact ⟨rfl, rfl, rfl⟩
      · simp only [Stage.Starts, chosen, h, ht]; rfl
  | error m =>
    have e : (selectOp f).item () w.empty = ⟨(), [.err m], some .kare⟩ := by simp [selectOp, hf, h, Except.map, fatal]
    refine ⟨[.err m], some .kare, ⟨[.error m], .stopped .kare⟩, .inl ⟨.kare, ?_⟩, ?_, 0, rfl, rfl, rfl⟩
    · show ((selectOp f).item () w.empty).exn = some .kare ∧ _ = ((selectOp f).item () w.empty).out ∧ _
      rw [e]; exact ⟨rfl, rfl, rfl⟩
    · simp only [Stage.Starts, chosen, h]; rfl

/-- An operator that raises nothing for an item, as the first. -/
theorem quiet_first (w : World V) (R : Stream V → Stream V → Prop) (o : AnyOp V) (hq : ∀ s x, (o.2.item s x).exn = none) (h : Implements o R) :
    ∃ es x s, FirstSends w o es x ∧ R ⟨[.item w.empty], .finished⟩ s ∧ Carries s es x := by
  obtain ⟨t, h1, h2⟩ := h ⟨[.item w.empty], .finished⟩ [.item w.empty, .flush] none ⟨1, rfl, by decide, rfl⟩
  refine ⟨_, _, t, .inr ⟨hq _ _, rfl, rfl⟩, h1, ?_⟩
  have e : o.2.feed o.2.init [.item w.empty, .flush] =
      ⟨(o.2.flush (o.2.item o.2.init w.empty).st).st, (o.2.item o.2.init w.empty).out ++ (o.2.flush (o.2.item o.2.init w.empty).st).out, (o.2.flush (o.2.item o.2.init w.empty).st).exn⟩ := by
    rw [feed_item (o := o.2) (s := o.2.init) (s' := (o.2.item o.2.init w.empty).st) (x := w.empty) (out := (o.2.item o.2.init w.empty).out) (e := none)
      (by rw [← hq o.2.init w.empty]) (.inl rfl), feed_cons, step_flush]
    cases hx : (o.2.flush (o.2.item o.2.init w.empty).st).exn <;> simp [feed_nil, hx]
  simp only [obs, e] at h2
  simpa using h2

/-- `squish` as the first. -/
theorem squish_first (w : World V) (f : Option FnRef) (steps : Nat) :
    ∃ es x s, FirstSends w ⟨_, squishXOp w (f.getD (.named ['+']))⟩ es x ∧ (Stage.squish f).Starts w steps s ∧ Carries s es x := by
  generalize hg : f.getD (.named ['+']) = g
  cases h : (w.elems w.empty).foldlM (w.fn2 g) w.none0 with
  | ok y =>
    have e : (squishXOp w g).item () w.empty = ⟨(), [.item (w.wrap y)], none⟩ := by simp [squishXOp, h]
    refine ⟨[.item (w.wrap y), .flush], none, ⟨[.item (w.wrap y)], .finished⟩, .inr ?_, ?_, 1, rfl, by decide, rfl⟩
    · show ((squishXOp w g).item () w.empty).exn = none ∧ _ = ((squishXOp w g).item () w.empty).out ++ _ ∧ _
      rw [e]; exact ⟨rfl, rfl, rfl⟩
    · simp only [Stage.Starts, combined, hg, h]; rfl
  | error m =>
    have e : (squishXOp w g).item () w.empty = ⟨(), [.err m], some .kare⟩ := by simp [squishXOp, h, fatal]
    refine ⟨[.err m], some .kare, ⟨[.error m], .stopped .kare⟩, .inl ⟨.kare, ?_⟩, ?_, 0, rfl, rfl, rfl⟩
    · show ((squishXOp w g).item () w.empty).exn = some .kare ∧ _ = ((squishXOp w g).item () w.empty).out ∧ _
      rw [e]; exact ⟨rfl, rfl, rfl⟩
    · simp only [Stage.Starts, combined, hg, h]; rfl

/-- `expand` as the first. -/
theorem expand_first (w : World V) (n : Option Num) (p : Option Int) (hp : match n with | none => p = none | some n => ∃ k, n.eval w = some k ∧ p = some k) (steps : Nat) :
    ∃ es x s, FirstSends w ⟨_, expandXOp w p⟩ es x ∧ (Stage.expand n).Starts w steps s ∧ Carries s es x := by
  rcases expand_item w p w.empty with ⟨ys, h1, h2⟩ | ⟨h1, h2⟩
  · refine ⟨ofItems ys ++ [.flush], none, ⟨ys.map .item, .finished⟩, .inr ?_, ⟨p, ys.map .item, none, hp, ?_, rfl⟩, 1, by rw [evs_items]; rfl, by decide, rfl⟩
    · show ((expandXOp w p).item () w.empty).exn = none ∧ _ = ((expandXOp w p).item () w.empty).out ++ _ ∧ _
      rw [h1]; exact ⟨rfl, rfl, rfl⟩
    · have := Expands.item w.empty ys [] [] none h2 .nil
      rwa [List.append_nil] at this
  · refine ⟨[], some .crash, ⟨[], .stopped .crash⟩, .inl ⟨.crash, ?_⟩, ⟨p, [], some .crash, hp, .crash _ _ h2, rfl⟩, 0, rfl, rfl, rfl⟩
    show ((expandXOp w p).item () w.empty).exn = some .crash ∧ _ = ((expandXOp w p).item () w.empty).out ∧ _
    rw [h1]; exact ⟨rfl, rfl, rfl⟩

theorem evs_err {t : List (Shown V)} {m : Msg} : evs t = [.err m] ↔ t = [.error m] := by
  constructor
  · intro h
    match t with
    | [] => cases h
    | [.error m'] => cases h; rfl
    | [.item x] => cases h
    | _ :: _ :: _ => exact absurd (congrArg List.length h) (by simp [evs])
  · rintro rfl; rfl

/-- `red` as the first. -/
theorem red_first (w : World V) (inc : Bool) (fs : List FnRef) (steps : Nat) :
    ∃ es x s, FirstSends w (redReady w inc fs) es x ∧ (Stage.red inc fs).Starts w steps s ∧ Carries s es x := by
  obtain ⟨t, g, st, st', h1, h2, _, gs, h4, h5⟩ := red_ends w inc fs [.item w.empty]
  have hf : (redReady w inc fs).2.item (redReady w inc fs).2.init w.empty = ⟨st, evs t, ((redReady w inc fs).2.item (redReady w inc fs).2.init w.empty).exn⟩ := by
    rw [evs_item, evs_nil, feed_item (o := (redReady w inc fs).2) (s := (redReady w inc fs).2.init) (s' := ((redReady w inc fs).2.item (redReady w inc fs).2.init w.empty).st) (x := w.empty)
      (out := ((redReady w inc fs).2.item (redReady w inc fs).2.init w.empty).out) (e := ((redReady w inc fs).2.item (redReady w inc fs).2.init w.empty).exn) rfl
      (by rcases red_item w inc fs w.empty with ⟨h, _⟩ | ⟨h, _⟩ <;> simp [h]), feed_nil] at h1
    simp only [List.append_nil] at h1
    injection h1 with h1 h1'
    rw [← h1, ← h1']
  rcases red_item w inc fs w.empty with ⟨h6, m, h7⟩ | ⟨h6, h7⟩
  · rw [hf] at h7
    have ht := evs_err.mp h7
    subst ht
    refine ⟨[.err m], some .kare, ⟨[.error m], .stopped .kare⟩, .inl ⟨.kare, h6, ?_, rfl⟩, ⟨_, gs, h4, .inl ⟨⟨m, rfl⟩, rfl⟩⟩, 0, rfl, rfl, rfl⟩
    rw [hf]; rfl
  · rw [hf] at h7
    refine ⟨evs t ++ (evs g ++ [.flush]), none, ⟨t ++ g, .finished⟩, .inr ⟨h6, ?_, ?_⟩, ⟨t, gs, h4, .inr ⟨?_, by rw [h5]⟩⟩, 1, by rw [evs_append, List.append_assoc]; rfl, by decide, rfl⟩
    · rw [hf]; simp only [h2]
    · rw [hf]; simp only [h2]
    · rintro ⟨m, hm⟩
      exact h7 ⟨m, evs_err.mpr hm⟩

/-! ## The stages -/

theorem Implements.congr {o : AnyOp V} {R S : Stream V → Stream V → Prop} (h : Implements o R) (e : R = S) : Implements o S := e ▸ h

/-- A stage with one function. -/
theorem unreadable1 (w : World V) {st : Stage} {f : FnRef} (h : st.functions = [f]) : st.Unreadable w ↔ ¬ f.Exists w := by
  unfold Stage.Unreadable; rw [h]; simp

theorem no_sources (w : World V) {st : Stage} (h : st.functions = []) : ¬ st.Unreadable w := by
  unfold Stage.Unreadable; rw [h]; simp

/-- What becomes of a function given as an argument. -/
def FnArg (w : World V) (f : FnRef) (c : CArg) : Prop :=
  (¬ f.Exists w ∧ (argOf w c = none ∨ ∃ x, argOf w c = some x ∧ Quiet x ∧ toFunction w x = none)) ∨
  (f.Exists w ∧ ∃ x, argOf w c = some x ∧ Quiet x ∧ toFunction w x = some (.fn f))

theorem fn_expr (w : World V) (src : Str) : FnArg w (.source src) (.tok (.expr src)) := by
  rcases Bool.eq_false_or_eq_true (w.compiles src) with hc | hc
  · exact .inr ⟨hc, _, expr_ok w hc, True.intro, rfl⟩
  · refine .inl ⟨?_, .inl (expr_bad w hc)⟩
    intro h
    rw [show w.compiles src = true from h] at hc; cases hc

theorem fn_arg (w : World V) (names : Names) (isShell : Str → Bool) (f : FnRef) (a : SArg) (h : f.Written a) (ha : a.WF isShell false) : ∃ c, ArgMeans names false a c ∧ FnArg w f c := by
  cases h with
  | source src => exact ⟨_, .expr false src, fn_expr w src⟩
  | named u hd _ =>
    have hw : u.WF := ha
    have hx : argOf w (.tok (u.tok false)) = some (.str u.kept) := by
      show some (XArg.str u.lit.original) = _
      rw [hw.original]
    refine ⟨_, .word false u, ?_⟩
    have ht : toFunction w (.str u.kept) = if w.isFunction u.kept then some (.fn (.named u.kept)) else none := rfl
    rcases Bool.eq_false_or_eq_true (w.isFunction u.kept) with hc | hc
    · exact .inr ⟨hc, _, hx, hd, by rw [ht, hc]; rfl⟩
    · refine .inl ⟨?_, .inr ⟨_, hx, hd, by rw [ht, hc]; rfl⟩⟩
      intro h
      rw [show w.isFunction u.kept = true from h] at hc; cases hc

/-- A stage with one function as its argument. -/
theorem fn_made (w : World V) (st : Stage) (f : FnRef) (c : CArg) (h : FnArg w f c) (hs : st.functions = [f]) (hng : ¬ st.isGen) (hb : st.Bad w → st.Unreadable w) (k : Kind) (name : Str)
    (hk : kindOf name = some k) (hkg : k ≠ .gen) (op : XArg → Dict Str (ArgValue XArg)) (hparse : ∀ x, Quiet x → (k.decl w).parse [x] [] = (toFunction w x).map op) (r : Ready V)
    (hset : k.setup w (op (.fn f)) = .ok r) (hr : ReadyFor w st r) : MadeFor w st (.builtin name [c]) := by
  rcases h with ⟨h1, h2⟩ | ⟨h1, x, h2, h3, h4⟩
  · refine .inl ⟨(unreadable1 w hs).mpr h1, ?_⟩
    rcases h2 with h2 | ⟨x, h2, h3, h4⟩
    · simp only [make, argsOf1_none w h2, hk]
    · simp only [make, argsOf1 w h2, hk, hparse x h3, h4]; rfl
  · have hu : ¬ st.Unreadable w := by rw [unreadable1 w hs]; exact fun h => h h1
    refine .inr ⟨hu, k, op (.fn f), ?_, ⟨fun h => absurd h hkg, fun h => absurd h hng⟩, .inr ⟨fun h => hu (hb h), r, hset, hr⟩⟩
    simp only [make, argsOf1 w h2, hk, hparse x h3, h4]; rfl

theorem map_made (w : World V) (f : FnRef) (c : CArg) (h : FnArg w f c) : MadeFor w (.map f) (.builtin "map".toList [c]) := by
  have hf : ∀ x, (fieldFn w [("function".toList, .one (.fn f))] "function" x).map w.wrap = (w.fn f x).map w.wrap := fun x => rfl
  exact fn_made w (.map f) f c h rfl (fun h => h) (fun h => h.elim id False.elim) .map _ rfl (by decide) (fun v => [("function".toList, .one v)]) (fun x _ => parse_one _ _ _ _ _) _ rfl
    (.stage _ (fun h => h) (fun h => h) (map_does w f _ hf) (fun _ => signalsOnce_map _) (map_first w f _ hf))

theorem select_made (w : World V) (f : FnRef) (c : CArg) (h : FnArg w f c) : MadeFor w (.select f) (.builtin "select".toList [c]) := by
  have hf : ∀ x, (fieldFn w [("function".toList, .one (.fn f))] "function" x).map w.truth = (w.fn f x).map w.truth := fun x => rfl
  exact fn_made w (.select f) f c h rfl (fun h => h) (fun h => h.elim id False.elim) .select _ rfl (by decide) (fun v => [("function".toList, .one v)]) (fun x _ => parse_one _ _ _ _ _) _ rfl
    (.stage _ (fun h => h) (fun h => h) (select_does w f _ hf) (fun _ => signalsOnce_select _) (select_first w f _ hf))

theorem sort_made (w : World V) (f : FnRef) (c : CArg) (h : FnArg w f c) : MadeFor w (.sort (some f)) (.builtin "sort".toList [c]) :=
  fn_made w (.sort (some f)) f c h rfl (fun h => h) (fun h => h.elim id False.elim) .sort _ rfl (by decide) (fun v => [("key".toList, .one v)]) (fun x _ => parse_one _ _ _ _ _) _ rfl
    (.needs _ (fun h => h) True.intro (sort_does w (some f)) fun _ => signalsOnce_sort _ _)

theorem windowBy_made (w : World V) (f : FnRef) (c : CArg) (h : FnArg w f c) : MadeFor w (.windowBy f) (.builtin "window".toList [c]) := by
  have hf : ∀ x, (fieldFn w [("predicate".toList, .one (.fn f))] "predicate" x).map w.truth = (w.fn f x).map w.truth := fun x => rfl
  exact fn_made w (.windowBy f) f c h rfl (fun h => h) (fun h => h.elim id False.elim) .window _ rfl (by decide) (fun v => [("predicate".toList, .one v)]) (fun x hx => window_parse w x hx) _ rfl
    (.needs _ (fun h => h) True.intro (windowBy_does w f _ hf) fun _ => signalsOnce_via _ _ _ (signalsOnce_window_pred _ _))

theorem squishBy_made (w : World V) (f : FnRef) (c : CArg) (h : FnArg w f c) : MadeFor w (.squish (some f)) (.builtin "squish".toList [c]) :=
  fn_made w (.squish (some f)) f c h rfl (fun h => h) (fun h => h.elim id False.elim) .squish _ rfl (by decide) (fun v => [("function".toList, .one v)]) (fun x _ => parse_one _ _ _ _ _) _ rfl
    (.stage _ (fun h => h) (fun h => h) (squish_does w (some f)) (fun _ => fun _ _ => endsOnce_flush) (squish_first w (some f)))

theorem squish_made (w : World V) : MadeFor w (.squish none) (.builtin "squish".toList []) := by
  have hu := no_sources w (st := .squish none) rfl
  have hb : ¬ (Stage.squish none).Bad w := fun h => h.elim hu id
  refine .inr ⟨hu, .squish, [("function".toList, .one .none_)], ?_, ⟨(fun h => by cases h), False.elim⟩, .inr ⟨hb, _, rfl, ?_⟩⟩
  · simp only [make, argsOf, show kindOf "squish".toList = some .squish from rfl]
    rw [show (Kind.decl w .squish).parse [] [] = _ from parse_zero _ _ _ _]; rfl
  · exact .stage _ (fun h => h) (fun h => h) (squish_does w none) (fun _ => fun _ _ => endsOnce_flush) (squish_first w none)

theorem sort_made' (w : World V) : MadeFor w (.sort none) (.builtin "sort".toList []) := by
  have hu := no_sources w (st := .sort none) rfl
  have hb : ¬ (Stage.sort none).Bad w := fun h => h.elim hu id
  refine .inr ⟨hu, .sort, [("key".toList, .one .none_)], ?_, ⟨(fun h => by cases h), False.elim⟩, .inr ⟨hb, _, rfl, ?_⟩⟩
  · simp only [make, argsOf, show kindOf "sort".toList = some .sort from rfl]
    rw [show (Kind.decl w .sort).parse [] [] = _ from parse_zero _ _ _ _]; rfl
  · exact .needs _ (fun h => h) True.intro (sort_does w none) fun _ => signalsOnce_sort _ _

theorem reverse_made (w : World V) : MadeFor w .reverse (.builtin "reverse".toList []) := by
  have hu := no_sources w (st := .reverse) rfl
  have hb : ¬ (Stage.reverse).Bad w := fun h => h.elim hu id
  refine .inr ⟨hu, .reverse, [], ?_, ⟨(fun h => by cases h), False.elim⟩, .inr ⟨hb, _, rfl, ?_⟩⟩
  · simp only [make, argsOf, show kindOf "reverse".toList = some .reverse from rfl, reverse_parse]; rfl
  · refine .stage _ (fun h => h) (fun h => h) reverse_does (fun _ => signalsOnce_reverse) fun _ => ?_
    obtain ⟨es, x, s, h1, h2, h3⟩ : ∃ es x s, FirstSends w ⟨_, reverseOp⟩ es x ∧ (Stage.reverse).Does w ⟨[.item w.empty], .finished⟩ s ∧ Carries s es x := by
      refine ⟨[.item w.empty, .flush], none, ⟨[.item w.empty], .finished⟩, .inr ⟨rfl, rfl, rfl⟩, ?_, 1, rfl, by decide, rfl⟩
      simp only [Stage.Does, Collects, if_true]
      exact ⟨_, rfl, rfl⟩
    exact ⟨es, x, s, h1, h2, h3⟩

theorem unique_made (w : World V) : MadeFor w (.unique false) (.builtin "unique".toList []) := by
  have hu := no_sources w (st := .unique false) rfl
  have hb : ¬ (Stage.unique false).Bad w := fun h => h.elim hu id
  refine .inr ⟨hu, .unique, [], ?_, ⟨(fun h => by cases h), False.elim⟩, .inr ⟨hb, _, rfl, ?_⟩⟩
  · simp only [make, argsOf, show kindOf "unique".toList = some .unique from rfl, unique_parse0]; rfl
  · exact .needs _ (fun h => h) True.intro (unique_does w) fun _ => signalsOnce_unique _

theorem consecutive_made (w : World V) (v : Word) (hv : v.WF) (h : v.kept = "-c".toList ∨ v.kept = "--consecutive".toList) :
    MadeFor w (.unique true) (.builtin "unique".toList [.tok (v.tok false)]) := by
  have hu := no_sources w (st := .unique true) rfl
  have hb : ¬ (Stage.unique true).Bad w := fun h => h.elim hu id
  have ha : argOf w (.tok (v.tok false)) = some (.str v.kept) := by
    show some (XArg.str v.lit.original) = _
    rw [hv.original]
  refine .inr ⟨hu, .unique, [("consecutive".toList, .one .true_)], ?_, ⟨(fun h => by cases h), False.elim⟩, .inr ⟨hb, _, rfl, ?_⟩⟩
  · simp only [make, argsOf1 w ha, show kindOf "unique".toList = some .unique from rfl]
    rcases h with h | h
    · rw [h, unique_parse1]; rfl
    · rw [h, unique_parse2]; rfl
  · exact .needs _ (fun h => h) True.intro (consecutive_does w) fun _ => signalsOnce_unique_consecutive

theorem unreadable_num (w : World V) (st : Stage) (n : Num) (h : ∀ src, n = .expr src → st.functions = [.source src]) (hl : ∀ k, n = .lit k → st.functions = []) :
    st.Unreadable w ↔ ∃ src, n = .expr src ∧ w.compiles src = false := by
  cases n with
  | lit k => simp [no_sources w (hl k rfl)]
  | expr src => rw [unreadable1 w (h src rfl)]; simp [FnRef.Exists]

theorem head_made (w : World V) (names : Names) (isShell : Str → Bool) (n : Num) (a : SArg) (h : n.Written a) (ha : a.WF isShell false) :
    ∃ c, ArgMeans names false a c ∧ MadeFor w (.head n) (.builtin "head".toList [c]) := by
  have hur : (Stage.head n).Unreadable w ↔ ∃ src, n = .expr src ∧ w.compiles src = false :=
    unreadable_num w (.head n) n (by rintro src rfl; rfl) (by rintro k rfl; rfl)
  obtain ⟨c, hm, ⟨src, hn, hc, hx⟩ | ⟨hc, x, v, hx, _, _, hv, he⟩⟩ := num_arg w names isShell n a h ha
  · refine ⟨c, hm, .inl ⟨hur.mpr ⟨src, hn, hc⟩, ?_⟩⟩
    simp only [make, argsOf1_none w hx, show kindOf "head".toList = some .head from rfl]
  · have hu : ¬ (Stage.head n).Unreadable w := by
      rw [hur]; rintro ⟨src, hn, h⟩; rw [hc src hn] at h; cases h
    refine ⟨c, hm, .inr ⟨hu, .head, [("n_arg".toList, .one v)], ?_, ⟨(fun h => by cases h), False.elim⟩, ?_⟩⟩
    · simp only [make, argsOf1 w hx, show kindOf "head".toList = some .head from rfl]
      rw [show (Kind.decl w .head).parse [x] [] = _ from parse_one _ _ _ _ _, show (conversions w).strToInt x = some v from hv]; rfl
    · simp only [Kind.setup, show field [("n_arg".toList, .one v)] "n_arg" = v from rfl, he]
      cases hk : n.eval w with
      | none => exact .inl ⟨.inr (.inl hk), rfl⟩
      | some k =>
        by_cases h0 : k = 0
        · subst h0
          exact .inl ⟨.inr (.inr hk), rfl⟩
        · obtain ⟨o, h1, h2, h3⟩ := head_does w n k hk h0
          simp only [h1]
          refine .inr ⟨?_, _, rfl, .stage _ (fun h => h) (fun h => h) h3 (fun _ => signalsOnce_head k o h1) fun _ => quiet_first w _ _ h2 h3⟩
          rintro (h | h | h)
          · exact hu h
          · rw [hk] at h; cases h
          · rw [hk] at h; exact h0 (Option.some.inj h)

theorem tail_made (w : World V) (names : Names) (isShell : Str → Bool) (n : Num) (a : SArg) (h : n.Written a) (ha : a.WF isShell false) :
    ∃ c, ArgMeans names false a c ∧ MadeFor w (.tail n) (.builtin "tail".toList [c]) := by
  have hur : (Stage.tail n).Unreadable w ↔ ∃ src, n = .expr src ∧ w.compiles src = false :=
    unreadable_num w (.tail n) n (by rintro src rfl; rfl) (by rintro k rfl; rfl)
  obtain ⟨c, hm, ⟨src, hn, hc, hx⟩ | ⟨hc, x, v, hx, _, _, hv, he⟩⟩ := num_arg w names isShell n a h ha
  · refine ⟨c, hm, .inl ⟨hur.mpr ⟨src, hn, hc⟩, ?_⟩⟩
    simp only [make, argsOf1_none w hx, show kindOf "tail".toList = some .tail from rfl]
  · have hu : ¬ (Stage.tail n).Unreadable w := by
      rw [hur]; rintro ⟨src, hn, h⟩; rw [hc src hn] at h; cases h
    refine ⟨c, hm, .inr ⟨hu, .tail, [("n_arg".toList, .one v)], ?_, ⟨(fun h => by cases h), False.elim⟩, ?_⟩⟩
    · simp only [make, argsOf1 w hx, show kindOf "tail".toList = some .tail from rfl]
      rw [show (Kind.decl w .tail).parse [x] [] = _ from parse_one _ _ _ _ _, show (conversions w).strToInt x = some v from hv]; rfl
    · simp only [Kind.setup, show field [("n_arg".toList, .one v)] "n_arg" = v from rfl, he]
      cases hk : n.eval w with
      | none => exact .inl ⟨.inr (.inl hk), rfl⟩
      | some k =>
        by_cases h0 : k = 0
        · subst h0
          exact .inl ⟨.inr (.inr hk), rfl⟩
        · obtain ⟨o, h1, h2, h3⟩ := tail_does w n k hk h0
          simp only [h1]
          refine .inr ⟨?_, _, rfl, .stage _ (fun h => h) (fun h => h) h3 (fun h => absurd rfl (h n)) fun _ => quiet_first w _ _ h2 h3⟩
          rintro (h | h | h)
          · exact hu h
          · rw [hk] at h; cases h
          · rw [hk] at h; exact h0 (Option.some.inj h)

theorem padded_eq (w : World V) : (fun l : List (Option V) => w.seq (l.map (·.getD w.none0))) = padded w := rfl

theorem disjoint_made (w : World V) (names : Names) (isShell : Str → Bool) (v : Word) (hv : v.WF) (hd : v.kept = "-d".toList ∨ v.kept = "--disjoint".toList) (n : Num) (a : SArg) (h : n.Written a)
    (hq : ∀ u, a = SArg.word u → u.kept.head? ≠ some '-') (ha : a.WF isShell false) : ∃ c, ArgMeans names false a c ∧ MadeFor w (.disjoint n) (.builtin "window".toList [.tok (v.tok false), c]) := by
  have hur : (Stage.disjoint n).Unreadable w ↔ ∃ src, n = .expr src ∧ w.compiles src = false :=
    unreadable_num w (.disjoint n) n (by rintro src rfl; rfl) (by rintro k rfl; rfl)
  have hva : argOf w (.tok (v.tok false)) = some (.str v.kept) := by
    show some (XArg.str v.lit.original) = _
    rw [hv.original]
  obtain ⟨c, hm, ⟨src, hn, hc, hx⟩ | ⟨hc, x, y, hx, _, hqx, hy, he⟩⟩ := num_arg w names isShell n a h ha
  · refine ⟨c, hm, .inl ⟨hur.mpr ⟨src, hn, hc⟩, ?_⟩⟩
    simp only [make, argsOf2_none w hx, show kindOf "window".toList = some .window from rfl]
  · have hu : ¬ (Stage.disjoint n).Unreadable w := by
      rw [hur]; rintro ⟨src, hn, h⟩; rw [hc src hn] at h; cases h
    refine ⟨c, hm, .inr ⟨hu, .window, [("disjoint_arg".toList, .one y), ("predicate".toList, .one .none_)], ?_, ⟨(fun h => by cases h), False.elim⟩, ?_⟩⟩
    · simp only [make, argsOf2 w hva hx, show kindOf "window".toList = some .window from rfl, windowDecl_eq, window_parse_disjoint w v.kept hd x y (hqx hq) hy]; rfl
    · have hev : evalPad w y = (evalInt w y).map some := by
        cases y with
        | none_ => have : evalInt w XArg.none_ = .error .crash := rfl
                   rw [this] at he; cases hk : n.eval w <;> rw [hk] at he <;> cases he
        | _ => rfl
      simp only [Kind.setup, setupWindow, show field [("disjoint_arg".toList, .one y), ("predicate".toList, .one .none_)] "disjoint_arg" = y from rfl,
        show field [("disjoint_arg".toList, .one y), ("predicate".toList, .one .none_)] "overlap_arg" = .none_ from rfl,
        show field [("disjoint_arg".toList, .one y), ("predicate".toList, .one .none_)] "predicate" = .none_ from rfl, hev, he, if_true, show evalPad w .none_ = .ok none from rfl]
      cases hk : n.eval w with
      | none => exact .inl ⟨.inr (.inl hk), rfl⟩
      | some k =>
        simp only [Except.map, windowSetup]
        by_cases h0 : k ≥ 0
        · rw [if_pos h0]
          refine .inr ⟨?_, _, rfl, .needs _ (fun h => h) True.intro (disjoint_does w n k hk h0) fun _ => signalsOnce_via _ _ _ (signalsOnce_window_disjoint _ _)⟩
          rintro (h | h | ⟨k', h, h'⟩)
          · exact hu h
          · rw [hk] at h; cases h
          · rw [hk] at h; cases h; omega
        · rw [if_neg h0]
          exact .inl ⟨.inr (.inr ⟨k, hk, by omega⟩), rfl⟩

theorem expand_made (w : World V) (names : Names) (isShell : Str → Bool) (n : Option Num) (as : List SArg) (h : Num.WrittenOpt n as) (ha : argsWF isShell false as) :
    ∃ cs, ArgsMean names false as cs ∧ MadeFor w (.expand n) (.builtin "expand".toList cs) := by
  cases h with
  | none =>
    have hu := no_sources w (st := .expand none) rfl
    have hb : ¬ (Stage.expand none).Bad w := fun h => h.elim hu id
    refine ⟨[], .nil _, .inr ⟨hu, .expand, [("position_arg".toList, .one .none_)], ?_, ⟨(fun h => by cases h), False.elim⟩, .inr ⟨hb, _, rfl, ?_⟩⟩⟩
    · simp only [make, argsOf, show kindOf "expand".toList = some .expand from rfl]
      rw [show (Kind.decl w .expand).parse [] [] = _ from parse_zero _ _ _ _]; rfl
    · exact .stage _ (fun h => h) (fun h => h) (expand_does w none none rfl) (fun _ => fun _ _ => endsOnce_flush) (expand_first w none none rfl)
  | some n a hn =>
    have hur : (Stage.expand (some n)).Unreadable w ↔ ∃ src, n = .expr src ∧ w.compiles src = false :=
      unreadable_num w (.expand (some n)) n (by rintro src rfl; rfl) (by rintro k rfl; rfl)
    obtain ⟨c, hm, ⟨src, hn, hc, hx⟩ | ⟨hc, x, y, hx, _, _, hy, he⟩⟩ := num_arg w names isShell n a hn ha.1
    · refine ⟨[c], args1 hm, .inl ⟨hur.mpr ⟨src, hn, hc⟩, ?_⟩⟩
      simp only [make, argsOf1_none w hx, show kindOf "expand".toList = some .expand from rfl]
    · have hu : ¬ (Stage.expand (some n)).Unreadable w := by
        rw [hur]; rintro ⟨src, hn, h⟩; rw [hc src hn] at h; cases h
      refine ⟨[c], args1 hm, .inr ⟨hu, .expand, [("position_arg".toList, .one y)], ?_, ⟨(fun h => by cases h), False.elim⟩, ?_⟩⟩
      · simp only [make, argsOf1 w hx, show kindOf "expand".toList = some .expand from rfl]
        rw [show (Kind.decl w .expand).parse [x] [] = _ from parse_one _ _ _ _ _, show (conversions w).strToInt x = some y from hy]; rfl
      · have hev : evalPad w y = (evalInt w y).map some := by
          cases y with
          | none_ => have : evalInt w XArg.none_ = .error .crash := rfl
                     rw [this] at he; cases hk : n.eval w <;> rw [hk] at he <;> cases he
          | _ => rfl
        simp only [Kind.setup, show field [("position_arg".toList, .one y)] "position_arg" = y from rfl, hev, he]
        cases hk : n.eval w with
        | none => exact .inl ⟨.inr hk, rfl⟩
        | some k =>
          refine .inr ⟨?_, _, rfl, .stage _ (fun h => h) (fun h => h) (expand_does w (some n) (some k) ⟨k, hk, rfl⟩) (fun _ => fun _ _ => endsOnce_flush) (expand_first w (some n) (some k) ⟨k, hk, rfl⟩)⟩
          rintro (h | h)
          · exact hu h
          · rw [show n.eval w = none from h] at hk; cases hk

/-- The functions of `red`. -/
theorem fns_arg (w : World V) (names : Names) (isShell : Str → Bool) (fs : List FnRef) (as : List SArg) (h : FnRef.AllWritten fs as) (ha : argsWF isShell false as) :
    ∃ cs, ArgsMean names false as cs ∧
      (((∃ f ∈ fs, ¬ f.Exists w) ∧ (argsOf w cs = none ∨ ∃ xs, argsOf w cs = some xs ∧ (∀ x ∈ xs, Quiet x) ∧ toFunctions w xs = none)) ∨
       ((∀ f ∈ fs, f.Exists w) ∧ ∃ xs, argsOf w cs = some xs ∧ (∀ x ∈ xs, Quiet x) ∧ toFunctions w xs = some (fs.map .fn))) := by
  induction h with
  | nil => exact ⟨[], .nil _, .inr ⟨by simp, [], rfl, by simp, rfl⟩⟩
  | cons f fs a as h1 _ ih =>
    obtain ⟨c, h3, h4⟩ := fn_arg w names isShell f a h1 ha.1
    obtain ⟨cs, h5, h6⟩ := ih ha.2
    refine ⟨c :: cs, .cons _ _ _ _ _ h3 h5, ?_⟩
    rcases h4 with ⟨h7, h8⟩ | ⟨h7, x, h8, h9, h10⟩
    · refine .inl ⟨⟨f, List.mem_cons_self, h7⟩, ?_⟩
      rcases h8 with h8 | ⟨x, h8, h9, h10⟩
      · exact .inl (argsOf1_none w h8 cs)
      · rcases h6 with ⟨_, h6 | ⟨xs, h6, h11, _⟩⟩ | ⟨_, xs, h6, h11, _⟩
        · exact .inl (by simp only [argsOf, h8, h6]; rfl)
        · refine .inr ⟨x :: xs, by simp only [argsOf, h8, h6]; rfl, ?_, by simp only [toFunctions, h10]⟩
          intro y hy; rcases List.mem_cons.mp hy with rfl | hy
          · exact h9
          · exact h11 y hy
        · refine .inr ⟨x :: xs, by simp only [argsOf, h8, h6]; rfl, ?_, by simp only [toFunctions, h10]⟩
          intro y hy; rcases List.mem_cons.mp hy with rfl | hy
          · exact h9
          · exact h11 y hy
    · rcases h6 with ⟨⟨g, hg, hg'⟩, h6⟩ | ⟨h6, xs, h11, h12, h13⟩
      · refine .inl ⟨⟨g, List.mem_cons_of_mem _ hg, hg'⟩, ?_⟩
        rcases h6 with h6 | ⟨xs, h6, h11, h12⟩
        · exact .inl (by simp only [argsOf, h8, h6]; rfl)
        · refine .inr ⟨x :: xs, by simp only [argsOf, h8, h6]; rfl, ?_, by simp only [toFunctions, h10, h12]; rfl⟩
          intro y hy; rcases List.mem_cons.mp hy with rfl | hy
          · exact h9
          · exact h11 y hy
      · refine .inr ⟨?_, x :: xs, by simp only [argsOf, h8, h11]; rfl, ?_, by simp only [toFunctions, h10, h13]; rfl⟩
        · intro g hg; rcases List.mem_cons.mp hg with rfl | hg
          · exact h7
          · exact h6 g hg
        · intro y hy; rcases List.mem_cons.mp hy with rfl | hy
          · exact h9
          · exact h12 y hy

theorem only_fns (fs : List FnRef) : (fs.map XArg.fn).filterMap (fun | .fn f => some f | _ => none) = fs := by
  induction fs with
  | nil => rfl
  | cons f fs ih => rw [List.map_cons, List.filterMap_cons]; simp only; rw [ih]

theorem red_setup (w : World V) (inc : Bool) (fs : List FnRef) (op : Dict Str (ArgValue XArg)) (h1 : Dict.get? op "functions".toList = some (.list (fs.map .fn))) (h2 : decide (field op "incremental" = .true_) = inc) :
    Kind.setup w op .red = .ok (.stage false (redReady w inc fs)) := by
  have hf : fieldFns op "functions" = fs := by unfold fieldFns; rw [h1]; exact only_fns fs
  simp only [Kind.setup, setupRed, hf, h2, redReady]
  rcases Bool.eq_false_or_eq_true (redIsGrouping (fs.map (redFn w))) with h | h <;> simp only [h, if_true, Bool.false_eq_true, if_false]

theorem red_made (w : World V) (names : Names) (isShell : Str → Bool) (fs : List FnRef) (as : List SArg) (h : FnRef.AllWritten fs as) (ha : argsWF isShell false as) :
    ∃ cs, ArgsMean names false as cs ∧ MadeFor w (.red false fs) (.builtin "red".toList cs) ∧
      ∀ v : Word, v.WF → (v.kept = "-i".toList ∨ v.kept = "--incremental".toList) → MadeFor w (.red true fs) (.builtin "red".toList (.tok (v.tok false) :: cs)) := by
  have hk : kindOf "red".toList = some .red := rfl
  obtain ⟨cs, h1, h2⟩ := fns_arg w names isShell fs as h ha
  refine ⟨cs, h1, ?_, ?_⟩
  · rcases h2 with ⟨h2, h3⟩ | ⟨h2, xs, h3, h4, h5⟩
    · refine .inl ⟨h2, ?_⟩
      rcases h3 with h3 | ⟨xs, h3, h4, h5⟩
      · simp only [make, hk, h3]
      · simp only [make, hk, h3, redDecl_eq, red_parse w xs h4, h5]; rfl
    · have hu : ¬ (Stage.red false fs).Unreadable w := fun ⟨f, hf, hf'⟩ => hf' (h2 f hf)
      refine .inr ⟨hu, .red, _, (by simp only [make, hk, h3, redDecl_eq, red_parse w xs h4, h5]; rfl), ⟨(fun h => by cases h), False.elim⟩,
        .inr ⟨fun h => h.elim hu id, _, red_setup w false fs _ rfl rfl, .stage _ (fun h => h) (fun h => h) (red_does w false fs) (fun _ => signalsOnce_redReady w _ _) (red_first w false fs)⟩⟩
  · intro v hv hvk
    have hva : argOf w (.tok (v.tok false)) = some (.str v.kept) := by
      show some (XArg.str v.lit.original) = _
      rw [hv.original]
    rcases h2 with ⟨h2, h3⟩ | ⟨h2, xs, h3, h4, h5⟩
    · refine .inl ⟨h2, ?_⟩
      rcases h3 with h3 | ⟨xs, h3, h4, h5⟩
      · simp only [make, hk, argsOf, hva, h3]; rfl
      · simp only [make, hk, argsOf, hva, h3, Option.map_some, redDecl_eq, red_parse_inc w v.kept hvk xs h4, h5]; rfl
    · have hu : ¬ (Stage.red true fs).Unreadable w := fun ⟨f, hf, hf'⟩ => hf' (h2 f hf)
      refine .inr ⟨hu, .red, _, (by simp only [make, hk, argsOf, hva, h3, Option.map_some, redDecl_eq, red_parse_inc w v.kept hvk xs h4, h5]; rfl), ⟨(fun h => by cases h), False.elim⟩,
        .inr ⟨fun h => h.elim hu id, _, red_setup w true fs _ rfl rfl, .stage _ (fun h => h) (fun h => h) (red_does w true fs) (fun _ => signalsOnce_redReady w _ _) (red_first w true fs)⟩⟩

/-- `gen` with these arguments. -/
theorem gen_setup (w : World V) (count start : Option Num) (vc vs : XArg)
    (hc : evalInt w vc = (match evalOpt w count with | some k => .ok k | none => .error .kill)) (hs : evalInt w vs = (match evalOpt w start with | some k => .ok k | none => .error .kill)) :
    ((evalOpt w count = none ∨ evalOpt w start = none) ∧ Kind.setup w [("count_arg".toList, .one vc), ("start_arg".toList, .one vs)] .gen = .error .kill) ∨
    (¬ (evalOpt w count = none ∨ evalOpt w start = none) ∧ ∃ r, Kind.setup w [("count_arg".toList, .one vc), ("start_arg".toList, .one vs)] .gen = .ok r ∧ ReadyFor w (.gen count start) r) := by
  simp only [Kind.setup, setupGen, show field [("count_arg".toList, .one vc), ("start_arg".toList, .one vs)] "pad_arg" = .none_ from rfl,
    show field [("count_arg".toList, .one vc), ("start_arg".toList, .one vs)] "count_arg" = vc from rfl,
    show field [("count_arg".toList, .one vc), ("start_arg".toList, .one vs)] "start_arg" = vs from rfl, evalPad, hc, hs]
  cases h1 : evalOpt w count with
  | none => exact .inl ⟨.inl rfl, rfl⟩
  | some c =>
    cases h2 : evalOpt w start with
    | none => exact .inl ⟨.inr rfl, rfl⟩
    | some s =>
      refine .inr ⟨(by rintro (h | h) <;> cases h), _, rfl, .source _ True.intro fun steps => ?_⟩
      by_cases h0 : c = 0
      · simp only [h0, if_true, genLoop_none]
        refine ⟨_, _, ⟨c, s, h1, h2, .inl ⟨h0, rfl⟩⟩, ?_, rfl, rfl⟩
        simp only [List.map_map]
        rfl
      · simp only [if_neg h0, genLoop_some]
        refine ⟨_, _, ⟨c, s, h1, h2, .inr ⟨h0, rfl⟩⟩, ?_, rfl, ?_⟩
        · simp only [List.map_map]
          rfl
        · simp

theorem gen_sources2 (w : World V) (c s : Num) : (Stage.gen (some c) (some s)).Unreadable w ↔ (∃ src, c = .expr src ∧ w.compiles src = false) ∨ (∃ src, s = .expr src ∧ w.compiles src = false) := by
  cases c <;> cases s <;> simp [Stage.Unreadable, Stage.functions, FnRef.Exists]

theorem gen_sources1 (w : World V) (c : Num) : (Stage.gen (some c) none).Unreadable w ↔ ∃ src, c = .expr src ∧ w.compiles src = false := by
  cases c <;> simp [Stage.Unreadable, Stage.functions, FnRef.Exists]

theorem gen_finish (w : World V) (count start : Option Num) (c : Created) (vc vs : XArg) (hu : ¬ (Stage.gen count start).Unreadable w)
    (hm : make w c = some (some (.gen, [("count_arg".toList, .one vc), ("start_arg".toList, .one vs)])))
    (hc : evalInt w vc = (match evalOpt w count with | some k => .ok k | none => .error .kill)) (hs : evalInt w vs = (match evalOpt w start with | some k => .ok k | none => .error .kill)) :
    MadeFor w (.gen count start) c := by
  refine .inr ⟨hu, .gen, _, hm, ⟨fun _ => True.intro, fun _ => rfl⟩, ?_⟩
  rcases gen_setup w count start vc vs hc hs with ⟨h1, h2⟩ | ⟨h1, h2⟩
  · exact .inl ⟨.inr h1, h2⟩
  · exact .inr ⟨fun h => h.elim hu h1, h2⟩

theorem gen_made (w : World V) (names : Names) (isShell : Str → Bool) (count start : Option Num) (cs ss : List SArg)
    (hd : ∀ v, SArg.word v ∈ cs → v.kept.head? ≠ some '-') (hns : count = none → start = none) (hc : Num.WrittenOpt count cs) (hs : Num.WrittenOpt start ss)
    (hw : argsWF isShell false (cs ++ ss)) : ∃ xs, ArgsMean names false (cs ++ ss) xs ∧ MadeFor w (.gen count start) (.builtin "gen".toList xs) := by
  have hk : kindOf "gen".toList = some .gen := rfl
  cases hc with
  | none =>
    cases hns rfl
    cases hs
    refine ⟨[], .nil _, gen_finish w none none _ (.int 0) (.int 0) (no_sources w rfl) ?_ rfl rfl⟩
    simp only [make, hk, argsOf, genDecl_eq, gen_parse0]; rfl
  | some n a hn =>
    cases hs with
    | none =>
      obtain ⟨c, hm, ⟨src, e, hcp, hx⟩ | ⟨hcp, x, v, hx, hf, hp, hv, he⟩⟩ := num_arg w names isShell n a hn hw.1
      · refine ⟨[c], args1 hm, .inl ⟨(gen_sources1 w n).mpr ⟨src, e, hcp⟩, ?_⟩⟩
        simp only [make, hk, argsOf1_none w hx]
      · refine ⟨[c], args1 hm, gen_finish w (some n) none _ v (.int 0) ?_ ?_ he rfl⟩
        · rw [gen_sources1]; rintro ⟨src, e, h⟩; rw [hcp src e] at h; cases h
        · simp only [make, hk, argsOf1 w hx, genDecl_eq, gen_parse1 x hf (quiet_plausible <| hp fun u e => hd u (by rw [e]; exact List.mem_cons_self)), hv]; rfl
    | some m b hmb =>
      obtain ⟨c, hm, hca⟩ := num_arg w names isShell n a hn hw.1
      obtain ⟨d, hm', hda⟩ := num_arg w names isShell m b hmb hw.2.1
      refine ⟨[c, d], .cons _ _ _ _ _ hm (args1 hm'), ?_⟩
      rcases hca with ⟨src, e, hcp, hx⟩ | ⟨hcp, x, v, hx, hf, hp, hv, he⟩
      · refine .inl ⟨(gen_sources2 w n m).mpr (.inl ⟨src, e, hcp⟩), ?_⟩
        simp only [make, hk, argsOf1_none w hx]
      · rcases hda with ⟨src, e, hcp', hx'⟩ | ⟨hcp', y, u, hx', hf', hp', hv', he'⟩
        · refine .inl ⟨(gen_sources2 w n m).mpr (.inr ⟨src, e, hcp'⟩), ?_⟩
          simp only [make, hk, argsOf2_none w hx']
        · refine gen_finish w (some n) (some m) _ v u ?_ ?_ he he'
          · rw [gen_sources2]
            rintro (⟨src, e, h⟩ | ⟨src, e, h⟩)
            · rw [hcp src e] at h; cases h
            · rw [hcp' src e] at h; cases h
          · simp only [make, hk, argsOf2 w hx hx', genDecl_eq, gen_parse2 x y hf (quiet_plausible <| hp fun u e => hd u (by rw [e]; exact List.mem_cons_self)) hf', hv, hv']; rfl

/-- The names of the operators of the stages. -/
def stageNames : List Str := ["gen".toList, "map".toList, "select".toList, "head".toList, "tail".toList, "reverse".toList, "sort".toList, "unique".toList,
  "window".toList, "squish".toList, "expand".toList, "red".toList]

theorem stageNames_ops : ∀ x ∈ stageNames, x ∈ operatorNames ∧ x ∉ shellStyle ∧ x ∈ publicOps := by decide +kernel

theorem stage_made (w : World V) (names : Names) (hnames : ∀ x ∈ stageNames, names.defined x = false) (st : Stage) (o : SOp) (h : st.Written o) (hw : o.WF names.shellArgs) :
    ∃ c, OpMeans names o c ∧ MadeFor w st c := by
  have key : ∀ (u : Word) (name : Str) (args : List SArg), name ∈ stageNames → u.kept = name → (SOp.named u args).WF names.shellArgs →
      argsWF names.shellArgs false args ∧ ∀ cs, ArgsMean names false args cs → OpMeans names (.named u args) (.builtin name cs) := by
    intro u name args hn hu hwf
    obtain ⟨h1, h2, h3⟩ := stageNames_ops name hn
    refine ⟨?_, fun cs hcs => op_means names u name hu (hnames name hn) h1 h2 args cs hcs⟩
    have := hwf.2.1
    rwa [hu, not_shell names name h3 h2] at this
  cases h with
  | gen u count start cs ss hu hd hns hc hs =>
    obtain ⟨h1, h2⟩ := key u _ _ (by decide) hu hw
    obtain ⟨xs, h3, h4⟩ := gen_made w names names.shellArgs count start cs ss hd hns hc hs h1
    exact ⟨_, h2 xs h3, h4⟩
  | map u f a hu hf =>
    obtain ⟨h1, h2⟩ := key u _ _ (by decide) hu hw
    obtain ⟨c, h3, h4⟩ := fn_arg w names names.shellArgs f a hf h1.1
    exact ⟨_, h2 _ (args1 h3), map_made w f c h4⟩
  | bare src => exact ⟨_, .bare src, map_made w _ _ (fn_expr w src)⟩
  | select u f a hu hf =>
    obtain ⟨h1, h2⟩ := key u _ _ (by decide) hu hw
    obtain ⟨c, h3, h4⟩ := fn_arg w names names.shellArgs f a hf h1.1
    exact ⟨_, h2 _ (args1 h3), select_made w f c h4⟩
  | head u n a hu hn =>
    obtain ⟨h1, h2⟩ := key u _ _ (by decide) hu hw
    obtain ⟨c, h3, h4⟩ := head_made w names names.shellArgs n a hn h1.1
    exact ⟨_, h2 _ (args1 h3), h4⟩
  | tail u n a hu hn =>
    obtain ⟨h1, h2⟩ := key u _ _ (by decide) hu hw
    obtain ⟨c, h3, h4⟩ := tail_made w names names.shellArgs n a hn h1.1
    exact ⟨_, h2 _ (args1 h3), h4⟩
  | reverse u hu => exact ⟨_, (key u _ _ (by decide) hu hw).2 _ (.nil _), reverse_made w⟩
  | sort u hu => exact ⟨_, (key u _ _ (by decide) hu hw).2 _ (.nil _), sort_made' w⟩
  | sortKey u f a hu hf =>
    obtain ⟨h1, h2⟩ := key u _ _ (by decide) hu hw
    obtain ⟨c, h3, h4⟩ := fn_arg w names names.shellArgs f a hf h1.1
    exact ⟨_, h2 _ (args1 h3), sort_made w f c h4⟩
  | unique u hu => exact ⟨_, (key u _ _ (by decide) hu hw).2 _ (.nil _), unique_made w⟩
  | consecutive u v hu hv =>
    obtain ⟨h1, h2⟩ := key u _ _ (by decide) hu hw
    exact ⟨_, h2 _ (args1 (.word _ _)), consecutive_made w v h1.1 hv⟩
  | windowBy u f a hu hf =>
    obtain ⟨h1, h2⟩ := key u _ _ (by decide) hu hw
    obtain ⟨c, h3, h4⟩ := fn_arg w names names.shellArgs f a hf h1.1
    exact ⟨_, h2 _ (args1 h3), windowBy_made w f c h4⟩
  | disjoint u v n a hu hv hn hq =>
    obtain ⟨h1, h2⟩ := key u _ _ (by decide) hu hw
    obtain ⟨c, h3, h4⟩ := disjoint_made w names names.shellArgs v h1.1 hv n a hn hq h1.2.1
    exact ⟨_, h2 _ (.cons _ _ _ _ _ (.word _ _) (args1 h3)), h4⟩
  | squish u hu => exact ⟨_, (key u _ _ (by decide) hu hw).2 _ (.nil _), squish_made w⟩
  | squishBy u f a hu hf =>
    obtain ⟨h1, h2⟩ := key u _ _ (by decide) hu hw
    obtain ⟨c, h3, h4⟩ := fn_arg w names names.shellArgs f a hf h1.1
    exact ⟨_, h2 _ (args1 h3), squishBy_made w f c h4⟩
  | expand u n as hu hn =>
    obtain ⟨h1, h2⟩ := key u _ _ (by decide) hu hw
    obtain ⟨cs, h3, h4⟩ := expand_made w names names.shellArgs n as hn h1
    exact ⟨_, h2 _ h3, h4⟩
  | red u fs as hu hf =>
    obtain ⟨h1, h2⟩ := key u _ _ (by decide) hu hw
    obtain ⟨cs, h3, h4, _⟩ := red_made w names names.shellArgs fs as hf h1
    exact ⟨_, h2 _ h3, h4⟩
  | incremental u v fs as hu hv hf =>
    obtain ⟨h1, h2⟩ := key u _ _ (by decide) hu hw
    obtain ⟨cs, h3, _, h4⟩ := red_made w names names.shellArgs fs as hf h1.2
    exact ⟨_, h2 _ (.cons _ _ _ _ _ (.word _ _) h3), h4 v h1.1 hv⟩

end Marcel.Exec
