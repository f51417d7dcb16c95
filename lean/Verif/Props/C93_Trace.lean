import Verif.Model.Trace
import Verif.Props.C91_WsOp

/-! # C93: traced lines are written where the last `trace` said -/

namespace Marcel.Trace

open PyArg
open WsOp (Arg Operand Either)

/-! ## Specification -/

/-- op/trace.py 21-46, the help; the empty name of a file is no name. -/
inductive Usage : List Str → Req → Prop
  | status : Usage [] .status
  | off {f} : Either f "-0" "--off" → Usage [f] .off
  | on {f} : Either f "-1" "--on" → Usage [f] .on
  | file {f n} : Either f "-f" "--file" → Operand n → n ≠ [] → Usage [f, n] (.file (.str n))
  | nofile {f} : Either f "-f" "--file" → Usage [f, []] .status

/-- `trace` isn't asked for anything but the status in a process. -/
def Quiet (h : List Ev) : Prop := ∀ e ∈ h, ∀ r, e = .trace r → r = .status

/-- No other process is started by a process. -/
def Alone (h : List Ev) : Prop := ∀ e ∈ h, ∀ b, e ≠ .start b

/-- The current directory after some events. -/
def dirAfter (dir : Str) : List Ev → Str
  | [] => dir
  | .cd d :: h => dirAfter d h
  | _ :: h => dirAfter dir h

/-- Where lines are to go, according to a request, the name of a file being relative to a directory. `none`: nowhere. -/
def Says (r : Req) (dir : Str) (p : Option Place) : Prop :=
  match r with
  | .off => p = none
  | .on => p = some .stdout
  | .file (.str n) => ∃ f, p = some (.file f) ∧ ((∃ m, n = '/' :: m ∧ f = n) ∨ (n.head? ≠ some '/' ∧ f = dir ++ ['/'] ++ n))
  | _ => False

/-- Lines written to a place. -/
def written (p : Option Place) (ls : List Line) : List (Place × Line) :=
  match p with
  | some q => ls.map fun l => (q, l)
  | none => []

/-- Processes within processes: the innermost has lines to trace. -/
def nest : Nat → List Line → Ev
  | 0, ls => .start (ls.map .line)
  | n + 1, ls => .start [nest n ls]

/-- The file, if it is one, can be opened. -/
def CanOpen (y : Sys) : Option Place → Prop
  | some (.file f) => y.openable f = true
  | _ => True

/-! ## Arguments -/

theorem decl_valid : decl.Valid :=
  (Api.fits_of decl [] [] (Api.shape decl) [] (by decide +kernel) rfl rfl rfl rfl (.inr (Nat.zero_le _)) rfl).valid

theorem operand_notFlag {s : Str} (h : Operand s) : ¬ decl.IsFlag (Arg.str s) := fun h' => (WsOp.looks_iff s).mp (Api.isFlag_looks decl decl_valid _ h') h

theorem name_mem {f : FlagDecl Arg} (h : f ∈ decl.flags) : ∀ g ∈ decl.atMostOne, f.name ∈ g := by
  have : ∀ n ∈ decl.flags.map (·.name), ∀ g ∈ decl.atMostOne, n ∈ g := by decide +kernel
  exact this _ (List.mem_map_of_mem h)

theorem short {uses : List (Use Arg)} {vals : List (AnonUse Arg)} (h : Arrangement decl uses vals) : uses.length ≤ 1 ∧ vals = [] := by
  constructor
  · match uses, h with
    | [], _ => simp
    | [_], _ => simp
    | u :: v :: us, h =>
      exfalso
      have hg : decl.atMostOne.head? = some (Api.names ["on", "off", "file"]) := rfl
      have hm := List.mem_of_mem_head? hg
      have hu := name_mem (h.flagUses u (by simp)).declared _ hm
      have hv := name_mem (h.flagUses v (by simp)).declared _ hm
      have := WsOp.two_filter _ _ u.flag.name v.flag.name hu hv (by simp [givenNames]) (by simp [givenNames]) (h.atMostOne _ hm)
      have hn := h.once
      simp [this] at hn
  · match vals, h with
    | [], _ => rfl
    | a :: r, h =>
      exfalso
      have := h.convert 0 a rfl
      simp [decl] at this

noncomputable def flagCount (l : List Arg) : Nat := l.countP fun x => (decl.findFlag x).isSome

theorem count_arranged {uses : List (Use Arg)} {vals : List (AnonUse Arg)} (h : Arrangement decl uses vals) : flagCount (arranged uses vals) ≤ 1 := by
  have hv : flagCount (vals.map (·.raw)) = 0 := by
    refine List.countP_eq_zero.mpr ?_
    intro x hx
    obtain ⟨a, ha, rfl⟩ := List.mem_map.mp hx
    simp [findFlag_none decl _ (h.anon a ha)]
  have hl := (short h).1
  have hu := h.flagUses
  unfold arranged flagCount
  rw [List.countP_append]
  unfold flagCount at hv
  rw [hv, Nat.add_zero]
  clear hv
  rcases uses with _ | ⟨u, _ | ⟨v, us⟩⟩
  · exact Nat.zero_le 1
  · have ho := hu u (List.mem_singleton.mpr rfl)
    have h0 : (u.value.toList).countP (fun x => (decl.findFlag x).isSome) = 0 := by
      refine List.countP_eq_zero.mpr ?_
      intro x hx
      have h1 := ho.value x (Option.mem_toList.mp hx)
      rw [findFlag_none decl _ h1.1]
      exact Bool.false_ne_true
    rw [List.flatMap_cons, List.flatMap_nil, List.append_nil, List.countP_cons, h0]
    split
    · exact Nat.le_refl 1
    · exact Nat.zero_le 1
  · exact absurd hl (by rw [List.length_cons, List.length_cons]; omega)

theorem not_expanded {args : List Arg} {uses : List (Use Arg)} {vals : List (AnonUse Arg)} (h : Arrangement decl uses vals) (he : args.flatMap decl.expand = arranged uses vals) :
    args = arranged uses vals := by
  have hc := count_arranged h
  rw [← he] at hc ⊢
  clear he h
  induction args with
  | nil => rfl
  | cons x xs ih =>
    simp only [List.flatMap_cons] at hc ⊢
    unfold flagCount at hc
    rw [List.countP_append] at hc
    have hx : decl.expand x = [x] := by
      rcases Classical.em (∃ letters, decl.Combined x letters) with ⟨letters, hl⟩ | hl
      · exfalso
        rw [(C38_expand decl x).1 letters hl] at hc
        have : (letters.map fun l => (ofStr ['-', l] : Arg)).countP (fun x => (decl.findFlag x).isSome) = letters.length := by
          rw [List.countP_eq_length.mpr]
          · simp
          · intro y hy
            obtain ⟨l, hl', rfl⟩ := List.mem_map.mp hy
            exact (findFlag_isSome decl _).mpr (hl.2.2.2 l hl')
        rw [this] at hc
        have := hl.1
        omega
      · exact (C38_expand decl x).2 (fun l hl' => hl ⟨l, hl'⟩)
    rw [hx, ← ih (by unfold flagCount; omega)]
    rfl

theorem parse_iff (args : List Arg) (op' : Dict Str (ArgValue Arg)) :
    decl.parse args [] = some op' ↔ ∃ uses, Arrangement decl uses [] ∧ args = arranged uses [] ∧ op' = Dict.update [] (argStores decl uses []) := by
  rw [C37_parse decl decl_valid]
  constructor
  · rintro ⟨uses, vals, h1, h2, h3⟩
    obtain rfl := (short h1).2
    exact ⟨uses, h1, not_expanded h1 h2, h3⟩
  · rintro ⟨uses, h1, h2, h3⟩
    refine ⟨uses, [], h1, ?_, h3⟩
    subst h2
    have he : ∀ x ∈ arranged uses [], decl.expand x = [x] := by
      intro x hx
      unfold arranged at hx
      rcases List.mem_append.mp hx with hx | hx
      · obtain ⟨u, hu, hx⟩ := List.mem_flatMap.mp hx
        have ho := h1.flagUses u hu
        rcases List.mem_cons.mp hx with rfl | hx
        · obtain ⟨s, hs⟩ := ho.sym
          exact Api.expand_sym decl decl_valid _ ⟨u.flag, ho.declared, s, hs⟩
        · exact Api.expand_other decl x fun _ => (ho.value x (by simpa using hx)).2
      · cases hx
    generalize arranged uses [] = l at he
    induction l with
    | nil => rfl
    | cons x xs ih => rw [List.flatMap_cons, he x (by simp), ih fun y hy => he y (by simp [hy])]; rfl

theorem stores_flag (u : Use Arg) : argStores decl [u] [] = [(u.flag.target, .one u.result)] := rfl

theorem choose_off : choose (Dict.update [] [("off".toList, .one .tru)]) = .off := by decide +kernel
theorem choose_on : choose (Dict.update [] [("on".toList, .one .tru)]) = .on := by decide +kernel
theorem choose_file (v : Arg) : choose (Dict.update [] [("filename".toList, .one v)]) = if truthy v then .file v else .status := rfl

theorem arrangement_one (u : Use Arg) (hu : u.OK decl) : Arrangement decl [u] [] where
  flagUses := fun v hv => by rw [List.mem_singleton.mp hv]; exact hu
  once := List.nodup_cons.mpr ⟨List.not_mem_nil, List.nodup_nil⟩
  anon := fun a ha => by cases ha
  first := fun a as ha => by cases ha
  greedy := fun h => absurd rfl h
  convert := fun i a ha => by simp at ha
  required := fun i d hd _ => by simp [decl] at hd
  atMostOne := by
    have h : ∀ n ∈ decl.flags.map (·.name), ∀ g ∈ decl.atMostOne, (g.filter (fun m => m ∈ [n])).length ≤ 1 := by decide +kernel
    intro g hg
    exact h _ (List.mem_map_of_mem hu.declared) g hg
  exactlyOne := fun g hg => absurd hg List.not_mem_nil

theorem noVal_ok (n a b : String) (hf : Api.flag0 n a (some b) ∈ decl.flags) {f : Str} (h : Either f a b) : Use.OK decl ⟨Api.flag0 n a (some b), .str f, none, .tru⟩ where
  declared := hf
  sym := ⟨f, rfl, h.elim (fun h => .inl (congrArg some h.symm)) fun h => .inr (congrArg some h.symm)⟩
  value := fun v hv => by cases hv
  none_ := fun _ => rfl
  one := fun h => by cases h
  result := rfl

theorem oneVal_ok (n t a b : String) (hf : Api.flag1 n a b t some ∈ decl.flags) {f v : Str} (h : Either f a b) (hv : Operand v) : Use.OK decl ⟨Api.flag1 n a b t some, .str f, some (.str v), .str v⟩ where
  declared := hf
  sym := ⟨f, rfl, h.elim (fun h => .inl (congrArg some h.symm)) fun h => .inr (congrArg some h.symm)⟩
  value := fun w hw => by cases hw; exact ⟨operand_notFlag hv, fun h => (WsOp.looks_iff v).mp h hv⟩
  none_ := fun h => by cases h
  one := fun _ => ⟨rfl, rfl⟩
  result := rfl

theorem request_use (u : Use Arg) (hu : u.OK decl) (args : List Str) (he : args.map Arg.str = arranged [u] []) : request args = some (choose (Dict.update [] [(u.flag.target, .one u.result)])) := by
  unfold request
  rw [(parse_iff _ _).mpr ⟨[u], arrangement_one u hu, he, rfl⟩, stores_flag]

theorem noVal_of {u : Use Arg} (hu : u.OK decl) (t a b : String) (hf : u.flag = Api.flag0 t a (some b)) : WsOp.NoVal u t a b := by
  have hv : u.value = none := hu.none_ (by rw [hf]; rfl)
  have hr := hu.result
  rw [hv] at hr
  refine ⟨by rw [hf]; rfl, WsOp.sym_of hu.sym (by rw [hf]; rfl) (by rw [hf]; rfl), hv, ?_⟩
  simp only at hr
  rw [hr, hf]
  rfl

theorem oneVal_of {u : Use Arg} (hu : u.OK decl) (n t a b : String) (hf : u.flag = Api.flag1 n a b t some) : WsOp.OneVal u t a b := by
  have hv := (hu.one (by rw [hf]; rfl)).1
  obtain ⟨v, hv⟩ := Option.isSome_iff_exists.mp hv
  have hr := hu.result
  rw [hv] at hr
  refine ⟨by rw [hf]; rfl, WsOp.sym_of hu.sym (by rw [hf]; rfl) (by rw [hf]; rfl), v, hv, ?_, (hu.value v hv).2⟩
  simp only at hr
  rw [hf] at hr
  exact (Option.some.inj hr).symm

theorem use_cases {u : Use Arg} (hu : u.OK decl) : WsOp.NoVal u "off" "-0" "--off" ∨ WsOp.NoVal u "on" "-1" "--on" ∨ WsOp.OneVal u "filename" "-f" "--file" := by
  have h := hu.declared
  simp only [decl, List.mem_cons, List.not_mem_nil, or_false] at h
  rcases h with h | h | h
  · exact .inl (noVal_of hu _ _ _ h)
  · exact .inr (.inl (noVal_of hu _ _ _ h))
  · exact .inr (.inr (oneVal_of hu _ _ _ _ h))

/-- **C93** Which lists of arguments `trace` accepts, and what they ask for. -/
theorem C93_requests (args : List Str) (r : Req) : request args = some r ↔ Usage args r := by
  constructor
  · intro h
    unfold request at h
    cases hp : decl.parse (args.map Arg.str) [] with
    | none => rw [hp] at h; cases h
    | some op =>
      rw [hp] at h
      obtain ⟨uses, ha, he, rfl⟩ := (parse_iff _ _).mp hp
      have hr := Option.some.inj h
      have hl := (short ha).1
      rcases uses with _ | ⟨u, _ | ⟨v, us⟩⟩
      · obtain rfl := WsOp.map_nil_inv he
        subst hr
        exact .status
      · rw [stores_flag] at hr
        rcases use_cases (ha.flagUses u (List.mem_singleton.mpr rfl)) with hu | hu | hu
        · obtain ⟨f, hf, he⟩ := WsOp.noVal_args hu [] args he
          obtain ⟨x, rfl, hx⟩ := WsOp.map_one_inv he
          cases hx
          rw [hu.1, hu.2.2.2, choose_off] at hr
          subst hr
          exact .off hf
        · obtain ⟨f, hf, he⟩ := WsOp.noVal_args hu [] args he
          obtain ⟨x, rfl, hx⟩ := WsOp.map_one_inv he
          cases hx
          rw [hu.1, hu.2.2.2, choose_on] at hr
          subst hr
          exact .on hf
        · obtain ⟨f, v, hf, hv, hres, he⟩ := WsOp.oneVal_args hu [] args he
          obtain ⟨x, y, rfl, hx, hy⟩ := WsOp.map_two_inv he
          cases hx
          cases hy
          rw [hu.1, hres, choose_file] at hr
          subst hr
          rcases v with _ | ⟨c, cs⟩
          · exact .nofile hf
          · exact .file hf hv (List.cons_ne_nil _ _)
      · exact absurd hl (by rw [List.length_cons, List.length_cons]; omega)
  · intro h
    cases h with
    | status => decide +kernel
    | off hf => exact (request_use _ (noVal_ok "off" "-0" "--off" (by simp [decl]) hf) _ rfl).trans (congrArg some choose_off)
    | on hf => exact (request_use _ (noVal_ok "on" "-1" "--on" (by simp [decl]) hf) _ rfl).trans (congrArg some choose_on)
    | file hf hv hn =>
      refine (request_use _ (oneVal_ok "file" "filename" "-f" "--file" (by simp [decl]) hf hv) _ rfl).trans (congrArg some ((choose_file _).trans ?_))
      exact if_pos (decide_eq_true hn)
    | nofile hf => exact (request_use _ (oneVal_ok "file" "filename" "-f" "--file" (by simp [decl]) hf (by rintro ⟨_, _, h⟩; cases h)) _ rfl).trans rfl

/-! ## Lines -/

theorem exec_append (y : Sys) (s : St) (a b : List Ev) : exec y s (a ++ b) = exec y (exec y s a) b := by
  induction a generalizing s with
  | nil => rw [List.nil_append, exec]
  | cons e es ih => rw [List.cons_append, exec, ih, exec]

theorem step_start_spawn (y : Sys) (s : St) (b : List Ev) (hm : y.method = .spawn) :
    step y s (.start b) = match unpickled y (pickled s) with | some c => back (pickled s) (exec y c b) | none => { pickled s with killed := s.killed + 1 } := by
  rw [step, hm]
  rfl

theorem step_start_fork (y : Sys) (s : St) (b : List Ev) (hm : y.method = .fork) : step y s (.start b) = back s (exec y s b) := by
  rw [step, hm]

/-- What remains of tracing and the directory, whatever is started. -/
theorem start_keeps (y : Sys) (s : St) (b : List Ev) : (step y s (.start b)).target = s.target ∧ (step y s (.start b)).cwd = s.cwd ∧
    (step y s (.start b)).tracefile = if y.method = .fork then s.tracefile else none := by
  cases hm : y.method with
  | fork => rw [step_start_fork y s b hm]; exact ⟨rfl, rfl, rfl⟩
  | spawn =>
    rw [step_start_spawn y s b hm]
    cases unpickled y (pickled s) <;> exact ⟨rfl, rfl, rfl⟩

theorem status_keeps (s : St) : (printStatus s).target = s.target ∧ (printStatus s).cwd = s.cwd ∧ (printStatus s).tracefile = s.tracefile ∧ (printStatus s).log = s.log := by
  unfold printStatus
  split <;> exact ⟨rfl, rfl, rfl, rfl⟩

theorem line_keeps (s : St) (l : Line) : (writeLine s l).target = s.target ∧ (writeLine s l).cwd = s.cwd ∧ (writeLine s l).tracefile = s.tracefile := by
  unfold writeLine
  split <;> exact ⟨rfl, rfl, rfl⟩

/-- The directory is what the last `cd` said, whatever else happens. -/
theorem cwd_exec (y : Sys) (s : St) (h : List Ev) : (exec y s h).cwd = dirAfter s.cwd h := by
  induction h generalizing s with
  | nil => rw [exec]; rfl
  | cons e es ih =>
    rw [exec, ih]
    cases e with
    | line l => rw [step, (line_keeps s l).2.1]; rfl
    | cd d => rw [step]; rfl
    | start b => rw [(start_keeps y s b).2.1]; rfl
    | trace r =>
      rw [step]
      have : (perform y s r).cwd = s.cwd := by
        cases r with
        | off => rfl
        | on => rfl
        | status => exact (status_keeps s).2.1
        | file n =>
          cases n with
          | str m => show (enableFile y s m).cwd = s.cwd; unfold enableFile; split <;> rfl
          | _ => rfl
      rw [this]
      rfl

theorem quiet_cons {e : Ev} {es : List Ev} (h : Quiet (e :: es)) : (∀ r, e = .trace r → r = .status) ∧ Quiet es :=
  ⟨h e List.mem_cons_self, fun x hx => h x (List.mem_cons_of_mem _ hx)⟩

theorem target_quiet (y : Sys) (s : St) (h : List Ev) (hq : Quiet h) : (exec y s h).target = s.target := by
  induction h generalizing s with
  | nil => rw [exec]
  | cons e es ih =>
    obtain ⟨h1, h2⟩ := quiet_cons hq
    rw [exec, ih _ h2]
    cases e with
    | line l => rw [step, (line_keeps s l).1]
    | cd d => rw [step]
    | start b => exact (start_keeps y s b).1
    | trace r => obtain rfl := h1 r rfl; rw [step]; exact (status_keeps s).1

theorem file_quiet (y : Sys) (s : St) (h : List Ev) (hq : Quiet h) (ha : y.method = .fork ∨ Alone h) : (exec y s h).tracefile = s.tracefile := by
  induction h generalizing s with
  | nil => rw [exec]
  | cons e es ih =>
    obtain ⟨h1, h2⟩ := quiet_cons hq
    rw [exec, ih _ h2 (ha.imp id fun ha x hx => ha x (List.mem_cons_of_mem _ hx))]
    cases e with
    | line l => rw [step, (line_keeps s l).2.2]
    | cd d => rw [step]
    | start b =>
      rw [(start_keeps y s b).2.2]
      rcases ha with ha | ha
      · rw [if_pos ha]
      · exact absurd rfl (ha _ List.mem_cons_self b)
    | trace r => obtain rfl := h1 r rfl; rw [step]; exact (status_keeps s).2.2.1

theorem exec_lines (y : Sys) (s : St) (ls : List Line) : exec y s (ls.map .line) = { s with log := s.log ++ written s.tracefile ls } := by
  induction ls generalizing s with
  | nil =>
    rw [List.map_nil, exec]
    have : written s.tracefile [] = [] := by unfold written; split <;> rfl
    rw [this, List.append_nil]
  | cons l ls ih =>
    rw [List.map_cons, exec, ih, step]
    unfold writeLine
    cases hf : s.tracefile with
    | none => simp only; rw [hf]; rfl
    | some p => simp [written]

theorem resolve_says (dir n : Str) : (∃ m, n = '/' :: m ∧ resolve dir n = n) ∨ (n.head? ≠ some '/' ∧ resolve dir n = dir ++ ['/'] ++ n) := by
  unfold resolve
  by_cases h : n.head? = some '/'
  · rw [if_pos h]
    cases n with
    | nil => cases h
    | cons c cs => cases h; exact .inl ⟨cs, rfl, rfl⟩
  · rw [if_neg h]
    exact .inr ⟨h, by simp⟩

theorem says_file {n : Str} {dir : Str} {p : Option Place} (h : Says (.file (.str n)) dir p) : p = some (.file (resolve dir n)) := by
  obtain ⟨f, rfl, h⟩ := h
  congr 2
  unfold resolve
  rcases h with ⟨m, rfl, rfl⟩ | ⟨h1, rfl⟩
  · exact (if_pos (show ('/' :: m).head? = some '/' from rfl)).symm
  · rw [if_neg h1]; simp

/-- The request as the target that is remembered. -/
def asTarget : Req → Target
  | .on => .stdout
  | .file (.str n) => .file n
  | _ => .none_

/-- The state after a request that can be met. -/
theorem perform_says (y : Sys) (s : St) (r : Req) (p : Option Place) (hp : Says r s.cwd p) (ho : CanOpen y p) :
    (perform y s r).tracefile = p ∧ (perform y s r).cwd = s.cwd ∧ (perform y s r).target = asTarget r := by
  cases r with
  | off => obtain rfl : p = none := hp; exact ⟨rfl, rfl, rfl⟩
  | on => obtain rfl : p = some .stdout := hp; exact ⟨rfl, rfl, rfl⟩
  | status => exact hp.elim
  | file n =>
    cases n with
    | str n =>
      obtain rfl := says_file hp
      have ho : y.openable (resolve s.cwd n) = true := ho
      have he : perform y s (.file (.str n)) = { s with target := .file n, tracefile := some (.file (resolve s.cwd n)), description := n } := if_pos ho
      rw [he]
      exact ⟨rfl, rfl, rfl⟩
    | _ => exact hp.elim

/-- **C93** Lines go where the last `trace` of the process said, as long as no other process has been started since (which matters for the start method `spawn` only). -/
theorem C93_here (y : Sys) (s : St) (r : Req) (p : Option Place) (hp : Says r s.cwd p) (ho : CanOpen y p) (h : List Ev) (hq : Quiet h) (ha : y.method = .fork ∨ Alone h) (ls : List Line) :
    (exec y s (.trace r :: h ++ ls.map .line)).log = (exec y s (.trace r :: h)).log ++ written p ls := by
  have hf : (exec y s (.trace r :: h)).tracefile = p := by
    rw [exec, file_quiet y _ h hq ha, step]
    exact (perform_says y s r p hp ho).1
  rw [exec_append, exec_lines, hf]

theorem unpickled_says (y : Sys) (s : St) (r : Req) (p : Option Place) (hp : Says r s.cwd p) (ht : s.target = asTarget r) (hn : s.tracefile = none) :
    (CanOpen y p → unpickled y s = some { s with tracefile := p }) ∧ (¬ CanOpen y p → unpickled y s = none) := by
  cases r with
  | off => obtain rfl : p = none := hp; exact ⟨fun _ => by obtain ⟨t, f, d, c, lg, sd, k⟩ := s; cases ht; cases hn; rfl, fun h => absurd trivial h⟩
  | on => obtain rfl : p = some .stdout := hp; exact ⟨fun _ => by unfold unpickled; rw [ht]; rfl, fun h => absurd trivial h⟩
  | status => exact hp.elim
  | file n =>
    cases n with
    | str n =>
      obtain rfl := says_file hp
      constructor
      · intro h
        have ho : y.openable (resolve s.cwd n) = true := h
        unfold unpickled
        rw [ht]
        simp only [asTarget]
        rw [if_pos ho]
      · intro h
        have ho : ¬ y.openable (resolve s.cwd n) = true := h
        unfold unpickled
        rw [ht]
        simp only [asTarget]
        rw [if_neg ho]
    | _ => exact hp.elim

/-- A process that was started has tracing as it is to be. -/
theorem nest_log (y : Sys) (hm : y.method = .spawn) (n : Nat) (ls : List Line) (s : St) (r : Req) (p : Option Place) (hp : Says r s.cwd p) (ho : CanOpen y p) (ht : s.target = asTarget r) :
    (step y s (nest n ls)).log = s.log ++ written p ls ∧ (step y s (nest n ls)).killed = s.killed := by
  induction n generalizing s with
  | zero =>
    rw [nest, step_start_spawn y s _ hm, (unpickled_says y (pickled s) r p hp ht rfl).1 ho]
    simp only [exec_lines]
    exact ⟨rfl, rfl⟩
  | succ n ih =>
    rw [nest, step_start_spawn y s _ hm, (unpickled_says y (pickled s) r p hp ht rfl).1 ho]
    simp only [exec]
    exact ih { pickled s with tracefile := p } hp ht

/-- **C93** Lines of the processes that are started, at any depth, go where the last `trace` said, whatever has happened since; the name of a file is now relative to the current directory. -/
theorem C93_started (y : Sys) (hm : y.method = .spawn) (s : St) (r : Req) (p₀ p : Option Place) (h : List Ev) (hq : Quiet h) (hp₀ : Says r s.cwd p₀) (ho₀ : CanOpen y p₀)
    (hp : Says r (dirAfter s.cwd h) p) (ho : CanOpen y p) (n : Nat) (ls : List Line) :
    (exec y s (.trace r :: h ++ [nest n ls])).log = (exec y s (.trace r :: h)).log ++ written p ls := by
  obtain ⟨_, h2, h3⟩ := perform_says y s r p₀ hp₀ ho₀
  have ht : (exec y s (.trace r :: h)).target = asTarget r := by
    rw [exec, target_quiet y _ h hq, step, h3]
  have hc : (exec y s (.trace r :: h)).cwd = dirAfter s.cwd h := by
    rw [cwd_exec]; rfl
  rw [exec_append]
  simp only [exec]
  simp only [exec] at ht hc
  exact (nest_log y hm n ls _ r p (by rw [hc]; exact hp) ho ht).1

/-- **C93** With the start method `fork`, so do lines of processes at any depth, to the file that was named. -/
theorem C93_forked (y : Sys) (hm : y.method = .fork) (s : St) (r : Req) (p : Option Place) (h : List Ev) (hq : Quiet h) (hp : Says r s.cwd p) (ho : CanOpen y p) (n : Nat) (ls : List Line) :
    (exec y s (.trace r :: h ++ [nest n ls])).log = (exec y s (.trace r :: h)).log ++ written p ls := by
  have hf : (exec y s (.trace r :: h)).tracefile = p := by
    rw [exec, file_quiet y _ h hq (.inl hm), step]
    exact (perform_says y s r p hp ho).1
  rw [exec_append]
  simp only [exec]
  simp only [exec] at hf
  generalize exec y (step y s (.trace r)) h = t at hf
  have : (step y t (nest n ls)).log = t.log ++ written t.tracefile ls := by
    clear hf
    induction n generalizing t with
    | zero => rw [nest, step_start_fork y t _ hm, exec_lines]; rfl
    | succ n ih => rw [nest, step_start_fork y t _ hm]; simp only [exec]; exact ih t
  rw [this, hf]

/-- **C93** A request that cannot be met, the file not being possible to open, changes nothing. -/
theorem C93_refused (y : Sys) (s : St) (n : Str) (p : Option Place) (hp : Says (.file (.str n)) s.cwd p) (ho : ¬ CanOpen y p) :
    exec y s [.trace (.file (.str n))] = { s with killed := s.killed + 1 } := by
  obtain rfl := says_file hp
  have ho : ¬ y.openable (resolve s.cwd n) = true := ho
  rw [exec, exec, step, perform, enableFile, if_neg ho]

/-- **C93** When marcel starts nothing is traced. -/
theorem C93_initially (y : Sys) (dir : Str) (h : List Ev) (hq : Quiet h) (n : Nat) (ls : List Line) :
    (exec y (init dir) (h ++ ls.map .line)).log = (exec y (init dir) h).log ∧ (exec y (init dir) (h ++ [nest n ls])).log = (exec y (init dir) h).log := by
  have hnone : ∀ t : St, t.tracefile = none → t.target = .none_ → (step y t (nest n ls)).log = t.log := by
    intro t h1 h2
    cases hm : y.method with
    | spawn =>
      have := (nest_log y hm n ls t .off none rfl trivial h2).1
      rw [this, written, List.append_nil]
    | fork =>
      clear h2
      induction n generalizing t with
      | zero => rw [nest, step_start_fork y t _ hm, exec_lines, h1]; exact List.append_nil _
      | succ n ih => rw [nest, step_start_fork y t _ hm]; simp only [exec]; exact ih t h1
  have hkeep : ∀ (h : List Ev) (t : St), Quiet h → t.tracefile = none → (exec y t h).tracefile = none := by
    intro h
    induction h with
    | nil => intro t _ ht; rw [exec]; exact ht
    | cons e es ih =>
      intro t hq ht
      obtain ⟨h1, h2⟩ := quiet_cons hq
      rw [exec]
      refine ih _ h2 ?_
      cases e with
      | line l => rw [step, (line_keeps t l).2.2, ht]
      | cd d => rw [step]; exact ht
      | start b => rw [(start_keeps y t b).2.2, ht]; split <;> rfl
      | trace r => obtain rfl := h1 r rfl; rw [step]; exact (status_keeps t).2.2.1.trans ht
  constructor
  · rw [exec_append, exec_lines, hkeep h _ hq rfl]
    exact List.append_nil _
  · rw [exec_append]
    simp only [exec]
    exact hnone _ (hkeep h _ hq rfl) (target_quiet y _ h hq)

mutual
  /-- **C93** Nothing that was written is lost: lines are only added. -/
  theorem C93_append (y : Sys) (s : St) : ∀ h : List Ev, s.log <+: (exec y s h).log
    | [] => by rw [exec]; exact List.prefix_refl _
    | e :: es => by
      rw [exec]
      exact (append_step y s e).trans (C93_append y (step y s e) es)

  theorem append_step (y : Sys) (s : St) : ∀ e : Ev, s.log <+: (step y s e).log
    | .line l => by
      rw [step, writeLine]
      split
      · exact List.prefix_append _ _
      · exact List.prefix_refl _
    | .cd d => by rw [step]; exact List.prefix_refl _
    | .trace r => by
      rw [step]
      cases r with
      | off => exact List.prefix_refl _
      | on => exact List.prefix_refl _
      | status => show s.log <+: (printStatus s).log; rw [(status_keeps s).2.2.2]; exact List.prefix_refl _
      | file n =>
        cases n with
        | str m => show s.log <+: (enableFile y s m).log; unfold enableFile; split <;> exact List.prefix_refl _
        | _ => exact List.prefix_refl _
    | .start b => by
      cases hm : y.method with
      | fork => rw [step_start_fork y s b hm]; exact C93_append y s b
      | spawn =>
        rw [step_start_spawn y s b hm]
        cases hu : unpickled y (pickled s) with
        | none => exact List.prefix_refl _
        | some c =>
          have : c.log = s.log := by
            unfold unpickled at hu
            split at hu
            · cases hu; rfl
            · cases hu; rfl
            · split at hu
              · cases hu; rfl
              · cases hu
          have h := C93_append y c b
          rw [this] at h
          exact h
end

/-- **C93** `trace` without arguments says whether lines go to stdout, as long as no other process has been started since. -/
theorem C93_status (y : Sys) (s : St) (r : Req) (hr : r = .on ∨ r = .off) (h : List Ev) (hq : Quiet h) (ha : y.method = .fork ∨ Alone h) :
    (exec y s (.trace r :: h ++ [.trace .status])).said = (exec y s (.trace r :: h)).said ++ [if r = .on then .to_ "stdout".toList else .off] := by
  have hd : ∀ (h : List Ev) (t : St), Quiet h → (exec y t h).description = t.description := by
    intro h
    induction h with
    | nil => intro t _; rw [exec]
    | cons e es ih =>
      intro t hq
      obtain ⟨h1, h2⟩ := quiet_cons hq
      rw [exec, ih _ h2]
      cases e with
      | line l => rw [step, writeLine]; split <;> rfl
      | cd d => rw [step]
      | start b =>
        cases hm : y.method with
        | fork => rw [step_start_fork y t b hm]; rfl
        | spawn => rw [step_start_spawn y t b hm]; cases unpickled y (pickled t) <;> rfl
      | trace r => obtain rfl := h1 r rfl; rw [step]; show (printStatus t).description = _; unfold printStatus; split <;> rfl
  have hf := fun p hp => (perform_says y s r p hp (by rcases hr with rfl | rfl <;> (cases hp; trivial))).1
  rw [exec_append]
  simp only [exec]
  rw [step.eq_def]
  simp only
  have h1 := file_quiet y (step y s (.trace r)) h hq ha
  have h2 := hd h (step y s (.trace r)) hq
  rw [step] at h1 h2 ⊢
  show (printStatus _).said = _
  unfold printStatus
  rcases hr with rfl | rfl
  · rw [hf _ rfl] at h1
    rw [h1]
    simp only
    rw [h2]
    rfl
  · rw [hf _ rfl] at h1
    rw [h1]
    rfl

/-! ## Examples, and where it is false -/

def sys : Sys := ⟨.spawn, fun f => f ≠ "/t".toList⟩

/-- `trace -f t` in /home, a job that traces a line, `cd /tmp`, another job. -/
theorem C93_example :
    Says (.file (.str "t".toList)) "/home".toList (some (.file "/home/t".toList)) ∧ CanOpen sys (some (.file "/home/t".toList)) ∧ Quiet [.start [.line ['a']], .cd "/tmp".toList] ∧
    (exec sys (init "/home".toList) [.trace (.file (.str "t".toList)), .line ['x'], .start [.line ['a'], .start [.line ['b']]]]).log =
      [(.file "/home/t".toList, ['x']), (.file "/home/t".toList, ['a']), (.file "/home/t".toList, ['b'])] := by
  refine ⟨⟨_, rfl, .inr ⟨by decide +kernel, by decide +kernel⟩⟩, ?_, ?_, by decide +kernel⟩
  · show sys.openable _ = true; decide +kernel
  · intro e he r hr
    simp only [List.mem_cons, List.not_mem_nil, or_false] at he
    rcases he with rfl | rfl <;> cases hr

/-- Not so in a process that has started another one: nothing is traced any more, until a `trace --on` or `--file`. (`__getstate__` clears the attribute of the object itself.) -/
theorem C93_false_here (dir : Str) (b : List Ev) (ls : List Line) (y : Sys) (hm : y.method = .spawn) :
    (exec y (init dir) ([.trace .on, .start b] ++ ls.map .line)).log = (exec y (init dir) [.trace .on, .start b]).log := by
  rw [exec_append, exec_lines]
  have : (exec y (init dir) [.trace .on, .start b]).tracefile = none := by
    simp only [exec]
    rw [(start_keeps y _ b).2.2, hm]
    rfl
  rw [this]
  exact List.append_nil _

/-- `trace` then says that tracing is off, although the next job is traced. -/
theorem C93_false_status_job :
    (exec sys (init []) [.trace .on, .start [], .trace .status]).said = [.off] ∧ (exec sys (init []) [.trace .on, .start [], .trace .status, .start [.line ['a']]]).log = [(.stdout, ['a'])] := by
  decide +kernel

/-- `trace` says nothing at all when lines go to a file. -/
theorem C93_false_status_file : (exec sys (init "/home".toList) [.trace (.file (.str "t".toList)), .trace .status]).said = [] := by decide +kernel

/-- The file isn't the one that was named after the directory has changed, -/
theorem C93_false_cd :
    (exec sys (init "/home".toList) [.trace (.file (.str "t".toList)), .start [.line ['a']], .cd "/tmp".toList, .start [.line ['b']]]).log = [(.file "/home/t".toList, ['a']), (.file "/tmp/t".toList, ['b'])] := by
  decide +kernel

/-- and if that file cannot be opened, then jobs do not run at all. -/
theorem C93_false_cd_job :
    (exec sys (init "/home".toList) [.trace (.file (.str "t".toList)), .cd [], .start [.trace .on, .line ['b']]]).log = [] := by
  decide +kernel

end Marcel.Trace
