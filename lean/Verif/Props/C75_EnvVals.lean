import Verif.Model.EnvVals
import Verif.Lemmas.Dict
import Verif.Props.C32_Exprs
import Verif.Props.C35_FArgs

/-! # C75: variables of every kind come back -/

namespace Marcel.EnvVals

variable {V : Type}

/-! ## Specification -/

/-- What is relied on: a module is found by its name; text is data; parsing gives pipelines; and Python's tokenizer finds `lambda` at the start of a text. -/
structure World.Sound (w : World V) : Prop where
  module : ∀ v n, w.kind v = .module n → w.module n = some v
  str : ∀ t, w.kind (w.str t) = .data
  parse : ∀ t ns v, w.parse t ns = some v → w.kind v = .pipeline
  lambda : ∀ t, w.symbols ("lambda ".toList ++ t) = .lambda :: w.symbols t
  thunk : ∀ t, w.symbols ("lambda: ".toList ++ t) = .lambda :: .colon :: w.symbols t

/-- The value that the command assigns depends on no other variables than these. -/
def Uses (w : World V) (c : Command) (ds : List Str) : Prop :=
  ∀ ns ns' : Str → Option V, (∀ d ∈ ds, ns d = ns' d) → value w ns c = value w ns' c

/-- The commands assign to these variables. -/
def vars (cs : List Command) : List Str := cs.map Command.var

/-- The variable `d` was assigned to for the first time before `x` was. -/
def Before (cs : List Command) (d x : Str) : Prop := ∃ a b, cs = a ++ b ∧ d ∈ vars a ∧ x ∉ vars a

/-- A variable which is a function or a pipeline in the end uses only variables which are not assigned to after it, and which were there before it. -/
def Lasting (w : World V) (cs : List Command) (s : Session V) : Prop :=
  ∀ pre c post, cs = pre ++ c :: post → c.var ∉ vars post →
    ∀ v, s.ns.get? c.var = some v → w.kind v = .callable ∨ w.kind v = .pipeline →
      ∃ ds, Uses w c ds ∧ ∀ d ∈ ds, d ∉ vars post ∧ d ≠ c.var ∧ (d ∈ vars pre → Before cs d c.var)

/-- The other conditions under which it can be made again: a value that is data can be pickled; a builtin function can be found in the module that it names; and a pipeline has been
written as one (and not as an expression which has a pipeline as its value). -/
structure Storable (w : World V) (cs : List Command) (s : Session V) : Prop where
  data : ∀ x v, x ∈ vars cs → s.ns.get? x = some v → w.kind v = .data → w.picklable v = true
  builtin : ∀ x v m n, x ∈ vars cs → s.ns.get? x = some v → w.kind v = .builtin m n → ∃ m', m = some m' ∧ w.symbol m' n = some v
  pipeline : ∀ pre x src post v, cs = pre ++ .expression x src :: post → x ∉ vars post → s.ns.get? x = some v → w.kind v ≠ .pipeline

/-! ## The source of a function is stored so that it gives the same function -/

theorem fparse_lambda_of_colon (ss : List FSym) (h : (fparse ss).explicitColon = true) (hl : (fparse ss).explicitLambda = false) :
    (fparse (.lambda :: ss)).explicitLambda = true := by
  have he : (fparse ss).state = .end_ := by
    apply Classical.byContradiction
    intro hn
    unfold fparse FParse.finish at h hn
    split at h
    · simp at h
    · rename_i hne
      rw [if_neg hne] at hn
      exact hn (Classical.not_not.mp hne)
  obtain ⟨lam, ps, tr, body, rfl⟩ := (C35_partial ss).mp he
  rw [C35_header] at hl
  simp only at hl
  subst hl
  have := C35_header true ps tr body
  have e : headerSyms true ps tr ++ body = .lambda :: (headerSyms false ps tr ++ body) := by simp [headerSyms]
  rw [e] at this
  rw [this]

theorem exprPrefix_none (p : FParse) (h : exprPrefix true p = .none) : exprPrefix false p = .none := by
  obtain ⟨st, a, b, c⟩ := p
  cases a <;> cases b <;> cases c <;> first | rfl | cases h

theorem exprPrefix_lambda (p : FParse) (h : exprPrefix true p = .lambda) : p.explicitColon = true ∧ p.explicitLambda = false := by
  obtain ⟨st, a, b, c⟩ := p
  cases a <;> cases b <;> cases c <;> first | exact ⟨rfl, rfl⟩ | cases h

theorem exprPrefix_explicit (p : FParse) (h : p.explicitLambda = true) : exprPrefix false p = .none := by
  obtain ⟨st, a, b, c⟩ := p
  cases a <;> cases b <;> cases c <;> first | rfl | cases h

theorem exprPrefix_again (w : World V) (hw : w.Sound) (src : Str) (p : FPrefix) (hp : exprPrefix true (fparse (w.symbols src)) = p) :
    exprPrefix false (fparse (w.symbols (FPrefix.text p ++ src))) = .none := by
  have th : ∀ ss, exprPrefix false (fparse (.lambda :: .colon :: ss)) = .none := fun ss => rfl
  cases p with
  | none => exact exprPrefix_none _ hp
  | thunk =>
    show exprPrefix false (fparse (w.symbols ("lambda: ".toList ++ src))) = _
    rw [hw.thunk]
    exact th _
  | thunkLambda =>
    show exprPrefix false (fparse (w.symbols ("lambda: ".toList ++ ("lambda ".toList ++ src)))) = _
    rw [hw.thunk]
    exact th _
  | lambda =>
    show exprPrefix false (fparse (w.symbols ("lambda ".toList ++ src))) = _
    rw [hw.lambda]
    obtain ⟨h1, h2⟩ := exprPrefix_lambda _ hp
    exact exprPrefix_explicit _ (fparse_lambda_of_colon _ h1 h2)

theorem functionSource_again (w : World V) (hw : w.Sound) (src : Str) :
    functionSource w false (functionSource w true src) = functionSource w true src := by
  have key : exprPrefix false (fparse (w.symbols (functionSource w true src))) = .none := exprPrefix_again w hw src _ rfl
  show FPrefix.text (exprPrefix false (fparse (w.symbols (functionSource w true src)))) ++ functionSource w true src = _
  rw [key]
  rfl

theorem balanced_append_plain (t s : Str) (ht : ∀ c ∈ t, c ≠ '(' ∧ c ≠ ')' ∧ c ≠ '\'' ∧ c ≠ '"') (hs : Balanced s) : Balanced (t ++ s) := by
  induction t with
  | nil => exact hs
  | cons c t ih =>
    have hc := ht c (List.mem_cons_self ..)
    exact .chr c _ hc.1 hc.2.1 hc.2.2.1 hc.2.2.2 (ih fun d hd => ht d (List.mem_cons_of_mem _ hd))

theorem balanced_functionSource (w : World V) (b : Bool) (src : Str) (h : Balanced src) : Balanced (functionSource w b src) := by
  unfold functionSource
  apply balanced_append_plain _ _ _ h
  cases exprPrefix b (fparse (w.symbols src)) <;> decide

theorem parseFunction_stored (w : World V) (hw : w.Sound) (src : Str) (h : Balanced src) :
    parseFunction w ('(' :: functionSource w true src ++ [')']) = some (functionSource w true src) := by
  show (match exprToken (functionSource w true src ++ ')' :: []) with
    | .ok (source, _) => some (functionSource w false source)
    | .error _ => none) = _
  rw [C32_matching _ [] (balanced_functionSource w true src h)]
  simp only [functionSource_again w hw]

/-! ## A session -/

theorem dict_set_fresh {α : Type} (d : Dict Str α) (x : Str) (v : α) (h : x ∉ d.keys) : d.set x v = d ++ [(x, v)] := by
  induction d with
  | nil => rfl
  | cons kv d ih =>
    obtain ⟨k, a⟩ := kv
    simp only [Dict.keys, List.map_cons, List.mem_cons, not_or] at h
    have hk : ¬ k = x := fun e => h.1 e.symm
    simp only [Dict.set, if_neg hk, List.cons_append]
    rw [ih h.2]

theorem commands_append (w : World V) (s : Session V) (a b : List Command) :
    s.commands w (a ++ b) = (s.commands w a).bind fun s' => s'.commands w b := by
  induction a generalizing s with
  | nil => rfl
  | cons c a ih =>
    simp only [List.cons_append, Session.commands]
    cases s.command w c with
    | none => rfl
    | some s' => exact ih s'

theorem command_eq (w : World V) (s s' : Session V) (c : Command) (h : s.command w c = some s') :
    ∃ v, value w s.ns.get? c = some v ∧ s' = ⟨s.ns.set c.var v, s.top.set c.var (stored w v c)⟩ := by
  unfold Session.command at h
  split at h
  · cases h
  · rename_i v hv
    injection h with h
    exact ⟨v, hv, h.symm⟩

/-- **C75.** What a command that succeeds does: it gives its value to the variable that is named in it, and leaves all others alone. -/
theorem C75_command (w : World V) (s s' : Session V) (x y z : Str) (v : V) :
    (s.command w (.expression x y) = some s' → w.call (functionSource w true y) s.ns.get? = some v → s'.ns.get? x = some v) ∧
    (s.command w (.string x y) = some s' → s'.ns.get? x = some (w.str y)) ∧
    (s.command w (.pipeline x y) = some s' → w.parse y s.ns.get? = some v → s'.ns.get? x = some v) ∧
    (s.command w (.module x y) = some s' → w.module y = some v → s'.ns.get? x = some v) ∧
    (s.command w (.symbol x y z) = some s' → w.symbol y z = some v → s'.ns.get? x = some v) ∧
    (∀ c, (c = .expression x y ∨ c = .string x y ∨ c = .pipeline x y ∨ c = .module x y ∨ c = .symbol x y z) → s.command w c = some s' →
      ∀ u, u ≠ x → s'.ns.get? u = s.ns.get? u) := by
  refine ⟨fun h e => ?_, fun h => ?_, fun h e => ?_, fun h e => ?_, fun h e => ?_, fun c hc h u hu => ?_⟩
  · obtain ⟨u, hu, rfl⟩ := command_eq w s s' _ h
    have : some u = some v := hu.symm.trans e
    cases this
    exact (Dict.get?_set _ _ _ _).trans (if_pos rfl)
  · obtain ⟨u, hu, rfl⟩ := command_eq w s s' _ h
    have : some u = some (w.str y) := hu.symm.trans rfl
    cases this
    exact (Dict.get?_set _ _ _ _).trans (if_pos rfl)
  · obtain ⟨u, hu, rfl⟩ := command_eq w s s' _ h
    have : some u = some v := hu.symm.trans e
    cases this
    exact (Dict.get?_set _ _ _ _).trans (if_pos rfl)
  · obtain ⟨u, hu, rfl⟩ := command_eq w s s' _ h
    have : some u = some v := hu.symm.trans e
    cases this
    exact (Dict.get?_set _ _ _ _).trans (if_pos rfl)
  · obtain ⟨u, hu, rfl⟩ := command_eq w s s' _ h
    have : some u = some v := hu.symm.trans e
    cases this
    exact (Dict.get?_set _ _ _ _).trans (if_pos rfl)
  · obtain ⟨q, -, rfl⟩ := command_eq w s s' _ h
    have : c.var = x := by rcases hc with rfl | rfl | rfl | rfl | rfl <;> rfl
    rw [this]
    exact (Dict.get?_set _ _ _ _).trans (if_neg (fun e => hu e.symm))

/-- What is not assigned to is not changed; the order of the variables in the scope does not change. -/
theorem commands_keep (w : World V) (s s' : Session V) (cs : List Command) (h : s.commands w cs = some s') :
    (∀ x, x ∉ vars cs → s'.ns.get? x = s.ns.get? x ∧ s'.top.get? x = s.top.get? x) ∧ s.top.keys <+: s'.top.keys ∧
      (∀ x, x ∈ s'.top.keys ↔ x ∈ s.top.keys ∨ x ∈ vars cs) ∧ (s.top.keys.Nodup → s'.top.keys.Nodup) := by
  induction cs generalizing s with
  | nil =>
    injection h with h
    subst h
    simp [vars]
  | cons c cs ih =>
    simp only [Session.commands] at h
    split at h
    · cases h
    · rename_i s1 h1
      obtain ⟨v, -, rfl⟩ := command_eq w s s1 c h1
      obtain ⟨i1, i2, i3, i4⟩ := ih _ h
      refine ⟨?_, ?_, ?_, fun hn => i4 (Dict.nodup_keys_set _ _ _ hn)⟩
      · intro x hx
        simp only [vars, List.map_cons, List.mem_cons, not_or] at hx
        obtain ⟨e1, e2⟩ := i1 x hx.2
        rw [e1, e2, Dict.get?_set, Dict.get?_set]
        rw [if_neg (fun e => hx.1 e.symm), if_neg (fun e => hx.1 e.symm)]
        exact ⟨rfl, rfl⟩
      · refine List.IsPrefix.trans ?_ i2
        rw [Dict.keys_set]
        split
        · exact List.prefix_refl _
        · exact List.prefix_append _ _
      · intro x
        rw [i3, Dict.keys_set]
        simp only [vars, List.map_cons, List.mem_cons]
        by_cases hx : c.var ∈ s.top.keys
        · rw [if_pos hx]
          constructor
          · rintro (h | h)
            · exact .inl h
            · exact .inr (.inr h)
          · rintro (h | h | h)
            · exact .inl h
            · subst h; exact .inl hx
            · exact .inr h
        · rw [if_neg hx]
          simp only [List.mem_append, List.mem_singleton]
          constructor
          · rintro ((h | h) | h)
            · exact .inl h
            · exact .inr (.inl h)
            · exact .inr (.inr h)
          · rintro (h | h | h)
            · exact .inl (.inl h)
            · exact .inl (.inr h)
            · exact .inr h

/-- The last assignment to a variable. -/
theorem last_assignment (cs : List Command) (x : Str) (h : x ∈ vars cs) : ∃ pre c post, cs = pre ++ c :: post ∧ c.var = x ∧ x ∉ vars post := by
  induction cs with
  | nil => simp [vars] at h
  | cons c cs ih =>
    by_cases hx : x ∈ vars cs
    · obtain ⟨pre, c', post, e, e1, e2⟩ := ih hx
      exact ⟨c :: pre, c', post, by rw [e]; rfl, e1, e2⟩
    · simp only [vars, List.map_cons, List.mem_cons] at h
      rcases h with h | h
      · exact ⟨[], c, cs, rfl, h.symm, hx⟩
      · exact absurd h hx

theorem commands_last (w : World V) (s s' : Session V) (pre post : List Command) (c : Command)
    (h : s.commands w (pre ++ c :: post) = some s') (hl : c.var ∉ vars post) :
    ∃ s1 v, s.commands w pre = some s1 ∧ value w s1.ns.get? c = some v ∧ s'.ns.get? c.var = some v ∧ s'.top.get? c.var = some (stored w v c) ∧
      ∀ d, d ≠ c.var → d ∉ vars post → s'.ns.get? d = s1.ns.get? d := by
  rw [commands_append] at h
  cases h1 : s.commands w pre with
  | none => rw [h1] at h; cases h
  | some s1 =>
    rw [h1] at h
    simp only [Option.bind_some, Session.commands] at h
    split at h
    · cases h
    · rename_i s2 h2
      obtain ⟨v, hv, rfl⟩ := command_eq w s1 s2 c h2
      obtain ⟨k, -, -, -⟩ := commands_keep w _ _ _ h
      refine ⟨s1, v, rfl, hv, ?_, ?_, ?_⟩
      · rw [(k c.var hl).1, Dict.get?_set, if_pos rfl]
      · rw [(k c.var hl).2, Dict.get?_set, if_pos rfl]
      · intro d hd hp
        rw [(k d hp).1, Dict.get?_set, if_neg (fun e => hd e.symm)]

/-- What is stored gives the value again, in a namespace that agrees on what is used. -/
theorem reconstitute_stored (w : World V) (hw : w.Sound) (c : Command) (ns ns' : Str → Option V) (v : V) (hv : value w ns c = some v)
    (hb : ∀ x src, c = .expression x src → Balanced src)
    (builtin : ∀ m n, w.kind v = .builtin m n → ∃ m', m = some m' ∧ w.symbol m' n = some v)
    (pipeline : ∀ x src, c = .expression x src → w.kind v ≠ .pipeline)
    (same : w.kind v = .callable ∨ w.kind v = .pipeline → value w ns' c = value w ns c) :
    reconstitute w ns' (stored w v c) = some v := by
  have other : ∀ src, w.kind v ≠ .callable → w.kind v ≠ .pipeline → reconstitute w ns' (wrap w v src) = some v := fun src h1 h2 => by
    unfold wrap
    generalize hk : w.kind v = k at h1 h2 ⊢
    cases k with
    | builtin m n =>
      obtain ⟨m', rfl, hs⟩ := builtin m n hk
      exact hs
    | module n => exact hw.module v n hk
    | callable => exact absurd rfl h1
    | pipeline => exact absurd rfl h2
    | data => rfl
  cases c with
  | expression x src =>
    have hnp := pipeline x src rfl
    by_cases hc : w.kind v = .callable
    · have e : stored w v (.expression x src) = .function ('(' :: functionSource w true src ++ [')']) := by
        show wrap w v _ = _
        unfold wrap
        rw [hc]
      rw [e]
      show (match parseFunction w ('(' :: functionSource w true src ++ [')']) with
        | none => none
        | some f => w.call f ns') = some v
      rw [parseFunction_stored w hw src (hb x src rfl)]
      exact (same (.inl hc)).trans hv
    · exact other _ hc hnp
  | string x text =>
    injection hv with hv
    subst hv
    exact other _ (by rw [hw.str]; simp) (by rw [hw.str]; simp)
  | pipeline x src =>
    have hk := hw.parse src ns v hv
    have e : stored w v (.pipeline x src) = .pipeline src := by
      show wrap w v _ = _
      unfold wrap
      rw [hk]
    rw [e]
    exact (same (.inr hk)).trans hv
  | module x m => exact hv
  | symbol x m s => exact hv

theorem restore_rest (w : World V) (permanent : Dict Str V) (target : Str → Option V) (rest done : Dict Str (EV V)) (r : Session V)
    (hr : ∀ y, r.ns.get? y = if y ∈ done.keys then target y else permanent.get? y) (ht : r.top = done) (hn : (Dict.keys (done ++ rest)).Nodup)
    (step : ∀ (a : Dict Str (EV V)) (x : Str) (ev : EV V) (b : Dict Str (EV V)), done ++ rest = a ++ (x, ev) :: b → ∀ ns : Str → Option V,
      (∀ y, ns y = if y ∈ a.keys then target y else permanent.get? y) → ∃ v, reconstitute w ns ev = some v ∧ target x = some v) :
    ∃ s', restore w r rest = some s' ∧ s'.top = done ++ rest ∧ ∀ y, s'.ns.get? y = if y ∈ Dict.keys (done ++ rest) then target y else permanent.get? y := by
  induction rest generalizing done r with
  | nil => exact ⟨r, rfl, by simpa using ht, by simpa using hr⟩
  | cons kv rest ih =>
    obtain ⟨x, ev⟩ := kv
    obtain ⟨v, h1, h2⟩ := step done x ev rest rfl r.ns.get? hr
    have hx : x ∉ done.keys := by
      simp only [Dict.keys, List.map_append, List.map_cons] at hn
      have := (List.nodup_append.mp hn).2.2
      intro hx
      exact this x hx x (List.mem_cons_self ..) rfl
    have ea : done ++ (x, ev) :: rest = (done ++ [(x, ev)]) ++ rest := by simp
    obtain ⟨s', e1, e2, e3⟩ := ih (done ++ [(x, ev)]) ⟨r.ns.set x v, r.top.set x ev⟩ (by
        intro y
        show (r.ns.set x v).get? y = _
        rw [Dict.get?_set]
        by_cases hy : x = y
        · subst hy
          rw [if_pos rfl, if_pos (by simp [Dict.keys]), h2]
        · rw [if_neg hy, hr]
          have : (y ∈ Dict.keys (done ++ [(x, ev)])) ↔ y ∈ done.keys := by
            have hyx : ¬ y = x := fun e => hy e.symm
            simp [Dict.keys, hyx]
          by_cases hy' : y ∈ done.keys
          · rw [if_pos hy', if_pos (this.mpr hy')]
          · rw [if_neg hy', if_neg (fun h => hy' (this.mp h))])
      (by show r.top.set x ev = _; rw [ht, dict_set_fresh _ _ _ hx]) (by rw [← ea]; exact hn) (by rw [← ea]; exact step)
    refine ⟨s', ?_, by rw [ea]; exact e2, by rw [ea]; exact e3⟩
    simp only [restore, h1]
    exact e1

/-- **C75.** For every session: after closing the workspace and opening it again, every variable has the value it had, if functions and pipelines use only what was there before
them and has not been assigned to since, and the values can be stored. (Without that it is false, see below.) -/
theorem C75_partial (w : World V) (hw : w.Sound) (permanent : Dict Str V) (cs : List Command) (s : Session V)
    (h : (Session.fresh permanent).commands w cs = some s) (hb : ∀ x src, .expression x src ∈ cs → Balanced src)
    (hs : Storable w cs s) (hl : Lasting w cs s) :
    ∃ saved s', s.close w = some saved ∧ reopen w permanent saved = some s' ∧ (∀ x, s'.ns.get? x = s.ns.get? x) ∧ s'.top = s.top := by
  obtain ⟨k1, -, k3, k4⟩ := commands_keep w _ _ _ h
  have hn : s.top.keys.Nodup := k4 (by simp [Session.fresh, Dict.keys])
  have hk : ∀ x, x ∈ s.top.keys ↔ x ∈ vars cs := fun x => by rw [k3]; simp [Session.fresh, Dict.keys]
  -- every entry
  have entry : ∀ x ev, (x, ev) ∈ s.top → ∃ pre c post s1 v, cs = pre ++ c :: post ∧ c.var = x ∧ x ∉ vars post ∧
      (Session.fresh permanent).commands w pre = some s1 ∧ value w s1.ns.get? c = some v ∧ s.ns.get? x = some v ∧ ev = stored w v c ∧
      ∀ d, d ≠ x → d ∉ vars post → s.ns.get? d = s1.ns.get? d := fun x ev hm => by
    have hx : x ∈ vars cs := (hk x).mp (List.mem_map.mpr ⟨_, hm, rfl⟩)
    obtain ⟨pre, c, post, e, hc, hp⟩ := last_assignment cs x hx
    subst hc
    obtain ⟨s1, v, h1, h2, h3, h4, h5⟩ := commands_last w _ s pre post c (by rw [← e]; exact h) hp
    have := Dict.get?_of_mem _ _ _ hn hm
    rw [h4] at this
    injection this with this
    exact ⟨pre, c, post, s1, v, e, rfl, hp, h1, h2, h3, this.symm, h5⟩
  have hclose : s.close w = some s.top := by
    unfold Session.close
    rw [if_pos]
    rw [List.all_eq_true]
    rintro ⟨x, ev⟩ hm
    obtain ⟨pre, c, post, s1, v, e, hc, hp, h1, h2, h3, rfl, -⟩ := entry x ev hm
    have hx : x ∈ vars cs := (hk x).mp (List.mem_map.mpr ⟨_, hm, rfl⟩)
    have key : ∀ src, (wrap w v src).picklable w = true := fun src => by
      unfold wrap
      generalize hkd : w.kind v = kd
      cases kd with
      | data => exact hs.data x v hx h3 hkd
      | _ => rfl
    cases c <;> first | rfl | exact key _
  refine ⟨s.top, ?_⟩
  have hfin := restore_rest w permanent s.ns.get? s.top [] (Session.fresh permanent) (by intro y; simp [Session.fresh, Dict.keys]) rfl (by simpa using hn) (by
    intro a x ev b e ns hns
    rw [List.nil_append] at e
    have hm : (x, ev) ∈ s.top := by rw [e]; simp
    obtain ⟨pre, c, post, s1, v, ec, hc, hp, h1, h2, h3, rfl, h5⟩ := entry x ev hm
    have hx : x ∈ vars cs := (hk x).mp (List.mem_map.mpr ⟨_, hm, rfl⟩)
    subst hc
    refine ⟨v, ?_, h3⟩
    apply reconstitute_stored w hw c s1.ns.get? ns v h2
    · intro y src hy
      exact hb y src (by rw [ec, hy]; simp)
    · intro m n hkd
      exact hs.builtin c.var v m n hx h3 hkd
    · intro y src hy
      subst hy
      exact hs.pipeline pre y src post v ec hp h3
    · intro hkd
      obtain ⟨ds, hu, hd⟩ := hl pre c post ec hp v h3 hkd
      apply hu
      intro d hdm
      obtain ⟨d1, d2, d3⟩ := hd d hdm
      rw [hns, ← h5 d d2 d1]
      by_cases hpre : d ∈ vars pre
      · obtain ⟨u, t, eu, hdu, hxu⟩ := d3 hpre
        have : d ∈ a.keys := by
          -- the variables assigned to in `u` come first
          rw [eu, commands_append] at h
          cases hu1 : (Session.fresh permanent).commands w u with
          | none => rw [hu1] at h; cases h
          | some su =>
            rw [hu1] at h
            obtain ⟨-, -, j3, -⟩ := commands_keep w _ _ _ hu1
            obtain ⟨-, i2, -, -⟩ := commands_keep w _ _ _ h
            have hds : d ∈ su.top.keys := (j3 d).mpr (.inr hdu)
            have hxs : c.var ∉ su.top.keys := fun hh => by
              rcases (j3 c.var).mp hh with hh | hh
              · simp [Session.fresh, Dict.keys] at hh
              · exact hxu hh
            obtain ⟨z, hz⟩ := i2
            rw [e] at hz
            simp only [Dict.keys, List.map_append, List.map_cons] at hz hds hxs ⊢
            rcases List.append_eq_append_iff.mp hz with ⟨q, q1, q2⟩ | ⟨q, q1, q2⟩
            · rw [q1]
              exact List.mem_append_left _ hds
            · cases q with
              | nil =>
                rw [List.append_nil] at q1
                rw [q1] at hds
                exact hds
              | cons q0 q =>
                simp only [List.cons_append, List.cons.injEq] at q2
                exfalso
                apply hxs
                rw [q1, ← q2.1]
                simp
        rw [if_pos this]
      · have hcs : d ∉ vars cs := by
          rw [ec]
          simp only [vars, List.map_append, List.map_cons, List.mem_append, List.mem_cons, not_or]
          exact ⟨hpre, d2, d1⟩
        have hnk : d ∉ a.keys := fun hh => hcs ((hk d).mp (by
          rw [e]
          simp only [Dict.keys, List.map_append, List.mem_append]
          exact .inl hh))
        rw [if_neg hnk, (k1 d hcs).1]
        rfl)
  obtain ⟨s', e1, e2, e3⟩ := hfin
  refine ⟨s', hclose, e1, ?_, by simpa using e2⟩
  intro x
  rw [e3, List.nil_append]
  by_cases hx : x ∈ s.top.keys
  · rw [if_pos hx]
  · rw [if_neg hx]
    exact ((k1 x (fun hh => hx ((hk x).mpr hh))).1).symm

/-! ## Where it is false -/

/-- A few values: text, the functions `x: x` and `x: x + 1`, the method `[].append`, a generator, a module, and pipelines. -/
inductive Val
  | text (t : Str)
  | identity
  | increment
  | append
  | generator
  | math
  | sqrt
  | pipeline (source : Str)
deriving DecidableEq, Repr

def Val.kind : Val → Kind
  | .text _ => .data
  | .identity => .callable
  | .increment => .callable
  | .append => .builtin none "append".toList
  | .generator => .data
  | .math => .module "math".toList
  | .sqrt => .builtin (some "math".toList) "sqrt".toList
  | .pipeline _ => .pipeline

def Val.call (source : Str) (ns : Str → Option Val) : Option Val :=
  if source = "lambda: lambda x: x".toList then some .identity
  else if source = "lambda: lambda x: x + 1".toList then some .increment
  else if source = "lambda: [].append".toList then some .append
  else if source = "lambda: (x for x in '')".toList then some .generator
  else if source = "lambda: math.sqrt".toList then (ns "math".toList).bind fun _ => some .sqrt
  else if source = "lambda: g".toList then ns "g".toList
  else none

/-- The tokens that matter here. -/
def tokens : Str → List FSym
  | 'l' :: 'a' :: 'm' :: 'b' :: 'd' :: 'a' :: ' ' :: t => .lambda :: tokens t
  | 'l' :: 'a' :: 'm' :: 'b' :: 'd' :: 'a' :: ':' :: ' ' :: t => .lambda :: .colon :: tokens t
  | 'x' :: ':' :: _ => [.name, .colon]
  | _ => [.other]

def demo : World Val where
  kind := Val.kind
  picklable v := v != .generator
  module m := if m = "math".toList then some .math else none
  symbol m n := if m = "math".toList ∧ n = "sqrt".toList then some .sqrt else none
  call := Val.call
  parse src _ := some (.pipeline src)
  symbols := tokens
  str := .text

theorem demo_sound : demo.Sound where
  module v n h := by
    cases v <;> simp [demo, Val.kind] at h
    subst h; rfl
  str t := rfl
  parse t ns v h := by injection h with h; subst h; rfl
  lambda t := rfl
  thunk t := rfl

def name (s : String) : Str := s.toList

/-- The value of a variable after the commands; and after closing and opening again. -/
def before (cs : List Command) (x : String) : Option Val :=
  ((Session.fresh []).commands demo cs).bind fun s => s.ns.get? x.toList

def after (cs : List Command) (x : String) : Option Val :=
  (((Session.fresh []).commands demo cs).bind fun s => (s.close demo).bind fun t => reopen demo [] t).bind fun s => s.ns.get? x.toList

/-- Whether the workspace can be closed; and opened again. -/
def closes (cs : List Command) : Bool := (((Session.fresh []).commands demo cs).bind fun s => s.close demo).isSome

def opens (cs : List Command) : Bool :=
  (((Session.fresh []).commands demo cs).bind fun s => (s.close demo).bind fun t => reopen demo [] t).isSome

/-- **C75 is false of the code** when a variable is given, for the second time, a function by means of a variable that is newer: `f = (lambda x: x)`, `g = (lambda x: x + 1)`,
`f = (g)`. The variables are restored in the order in which they were first assigned to, so `g` is not there when `f` is restored, and the workspace cannot be opened any more. -/
theorem C75_false_order :
    before [.expression (name "f") (name "lambda x: x"), .expression (name "g") (name "lambda x: x + 1"), .expression (name "f") (name "g")] "f" = some .increment ∧
    closes [.expression (name "f") (name "lambda x: x"), .expression (name "g") (name "lambda x: x + 1"), .expression (name "f") (name "g")] = true ∧
    opens [.expression (name "f") (name "lambda x: x"), .expression (name "g") (name "lambda x: x + 1"), .expression (name "f") (name "g")] = false := by
  decide +kernel

/-- Also when what is used is assigned to later: `g = (lambda x: x)`, `f = (g)`, `g = (lambda x: x + 1)`. Afterwards `f` is a different function. -/
theorem C75_false_stale :
    before [.expression (name "g") (name "lambda x: x"), .expression (name "f") (name "g"), .expression (name "g") (name "lambda x: x + 1")] "f" = some .identity ∧
    after [.expression (name "g") (name "lambda x: x"), .expression (name "f") (name "g"), .expression (name "g") (name "lambda x: x + 1")] "f" = some .increment := by
  decide +kernel

/-- Also for a builtin method, `m = ([].append)`, whose module is None: the workspace cannot be opened any more. -/
theorem C75_false_method :
    before [.expression (name "m") (name "[].append")] "m" = some .append ∧ closes [.expression (name "m") (name "[].append")] = true ∧
    opens [.expression (name "m") (name "[].append")] = false := by
  decide +kernel

/-- Also for an expression whose value is a pipeline: after `g = (| ls |)`, `f = (g)`, what is stored of `f` is not the text of a pipeline but of a function; it is restored as a different
pipeline. -/
theorem C75_false_alias :
    before [.pipeline (name "g") (name "ls"), .expression (name "f") (name "g")] "f" = some (.pipeline (name "ls")) ∧
    after [.pipeline (name "g") (name "ls"), .expression (name "f") (name "g")] "f" = some (.pipeline (name "lambda: g")) := by
  decide +kernel

/-- One value that cannot be pickled, and nothing is stored: with `s = text`, `g = (x for x in '')` the workspace cannot be closed (and the file has been truncated by then). -/
theorem C75_false_unpicklable :
    before [.string (name "s") (name "text"), .expression (name "g") (name "(x for x in '')")] "s" = some (.text (name "text")) ∧
    closes [.string (name "s") (name "text"), .expression (name "g") (name "(x for x in '')")] = false := by
  decide +kernel

/-! ## A case -/

def story : List Command :=
  [.module (name "math") (name "math"), .expression (name "g") (name "lambda x: x + 1"), .expression (name "f") (name "g"), .string (name "s") (name "a"),
   .expression (name "q") (name "math.sqrt"), .pipeline (name "p") (name "gen 3"), .string (name "s") (name "b")]

def storyEnd : Session Val :=
  ⟨[(name "math", .math), (name "g", .increment), (name "f", .increment), (name "s", .text (name "b")), (name "q", .sqrt), (name "p", .pipeline (name "gen 3"))],
   [(name "math", .imported (name "math") none), (name "g", .function (name "(lambda: lambda x: x + 1)")), (name "f", .function (name "(lambda: g)")), (name "s", .simple (.text (name "b"))),
    (name "q", .builtin (some (name "math")) (name "sqrt")), (name "p", .pipeline (name "gen 3"))]⟩

theorem story_runs : (Session.fresh []).commands demo story = some storyEnd := by decide +kernel

theorem split_at {α : Type} (l pre post : List α) (c : α) (h : l = pre ++ c :: post) :
    pre.length < l.length ∧ l[pre.length]? = some c ∧ pre = l.take pre.length ∧ post = l.drop (pre.length + 1) := by
  subst h
  refine ⟨by simp, by simp, by simp, by simp⟩

theorem story_split (pre post : List Command) (c : Command) (h : story = pre ++ c :: post) :
    ∃ n, n ∈ [0, 1, 2, 3, 4, 5, 6] ∧ story[n]? = some c ∧ pre = story.take n ∧ post = story.drop (n + 1) := by
  obtain ⟨h1, h2, h3, h4⟩ := split_at story pre post c h
  refine ⟨pre.length, ?_, h2, h3, h4⟩
  have : pre.length < 7 := h1
  generalize pre.length = n at this
  simp only [List.mem_cons, List.not_mem_nil, or_false]
  omega

/-- The hypotheses of `C75_partial` hold for a session with a module, functions that use each other, text, a builtin function, and a pipeline; and so all of these come back. -/
theorem C75_case : ∃ saved s', storyEnd.close demo = some saved ∧ reopen demo [] saved = some s' ∧ (∀ x, s'.ns.get? x = storyEnd.ns.get? x) ∧ s'.top = storyEnd.top := by
  have kinds : ∀ x v, storyEnd.ns.get? x = some v →
      (x, v) ∈ [(name "math", Val.math), (name "g", .increment), (name "f", .increment), (name "s", .text (name "b")), (name "q", .sqrt), (name "p", .pipeline (name "gen 3"))] :=
    fun x v hv => Dict.mem_of_get? _ _ _ hv
  apply C75_partial demo demo_sound [] story storyEnd story_runs
  · intro x src hm
    have key : ∀ t : Str, (∀ c ∈ t, c ≠ '(' ∧ c ≠ ')' ∧ c ≠ '\'' ∧ c ≠ '"') → Balanced t := fun t ht => by
      have := balanced_append_plain t [] ht .nil
      rwa [List.append_nil] at this
    apply key
    have : ∀ c ∈ story, (match c with | .expression _ src => src.all fun c => c != '(' && c != ')' && c != '\'' && c != '"' | _ => true) = true := by decide +kernel
    have := this _ hm
    simp only [List.all_eq_true, Bool.and_eq_true, bne_iff_ne, ne_eq] at this
    intro c hc
    exact ⟨(this c hc).1.1.1, (this c hc).1.1.2, (this c hc).1.2, (this c hc).2⟩
  · constructor
    · intro x v _ hv hk
      have := kinds x v hv
      simp only [List.mem_cons, Prod.mk.injEq, List.not_mem_nil, or_false] at this
      rcases this with ⟨-, rfl⟩ | ⟨-, rfl⟩ | ⟨-, rfl⟩ | ⟨-, rfl⟩ | ⟨-, rfl⟩ | ⟨-, rfl⟩ <;> first | rfl | cases hk
    · intro x v m n _ hv hk
      have := kinds x v hv
      simp only [List.mem_cons, Prod.mk.injEq, List.not_mem_nil, or_false] at this
      rcases this with ⟨-, rfl⟩ | ⟨-, rfl⟩ | ⟨-, rfl⟩ | ⟨-, rfl⟩ | ⟨-, rfl⟩ | ⟨-, rfl⟩ <;> first | cases hk; exact ⟨_, rfl, rfl⟩ | cases hk
    · intro pre x src post v hc hp hv
      have := kinds x v hv
      have hm : Command.expression x src ∈ story := by rw [hc]; simp
      simp only [List.mem_cons, Prod.mk.injEq, List.not_mem_nil, or_false] at this
      rcases this with ⟨-, rfl⟩ | ⟨-, rfl⟩ | ⟨-, rfl⟩ | ⟨-, rfl⟩ | ⟨-, rfl⟩ | ⟨rfl, rfl⟩
      · simp [demo, Val.kind]
      · simp [demo, Val.kind]
      · simp [demo, Val.kind]
      · simp [demo, Val.kind]
      · simp [demo, Val.kind]
      · have : ∀ c ∈ story, c.var = name "p" → c = .pipeline (name "p") (name "gen 3") := by decide +kernel
        have := this _ hm rfl
        cases this
  · intro pre c post hc hp v hv hk
    obtain ⟨n, hn, h1, h2, h3⟩ := story_split pre post c hc
    have := kinds c.var v hv
    simp only [List.mem_cons, List.not_mem_nil, or_false] at hn
    rcases hn with rfl | rfl | rfl | rfl | rfl | rfl | rfl <;> injection h1 with h1 <;> subst h1
    · cases hv; simp [demo, Val.kind] at hk
    · exact ⟨[], fun _ _ _ => rfl, by simp⟩
    · refine ⟨[name "g"], fun ns ns' h => h (name "g") (List.mem_singleton.mpr rfl), ?_⟩
      intro d hd
      rw [List.mem_singleton] at hd
      subst hd
      subst h3
      refine ⟨by decide +kernel, by decide +kernel, fun _ => ⟨story.take 2, story.drop 2, rfl, by decide +kernel, by decide +kernel⟩⟩
    · subst h3; exact absurd (by decide +kernel) hp
    · cases hv; simp [demo, Val.kind] at hk
    · exact ⟨[], fun _ _ _ => rfl, by simp⟩
    · cases hv; simp [demo, Val.kind] at hk

end Marcel.EnvVals
