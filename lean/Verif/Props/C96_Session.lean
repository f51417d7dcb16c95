import Verif.Spec.Session
/-! # C96: marcel and workspaces that cannot be opened -/

namespace Marcel.Session

variable {C : Type}

theorem current_snoc (log : Log C) (e : Ev C) :
    current (log ++ [e]) = match e with | .opened w => some w | .closed _ _ => none | _ => current log := by
  unfold current; rw [List.foldl_append]; rfl

theorem held_snoc (w : Ws) (log : Log C) (e : Ev C) :
    held w (log ++ [e]) = match e with | .locked v => held w log || decide (v = w) | .unlocked v => held w log && decide (v ≠ w) | _ => held w log := by
  unfold held; rw [List.foldl_append]; rfl

theorem orderly_nil : Orderly ([] : Log C) := by
  intro pre e post h
  simp at h

theorem orderly_snoc {log : Log C} {e : Ev C} (h : Orderly log) (he : Proper log e) : Orderly (log ++ [e]) := by
  intro pre e' post hp
  rcases List.eq_nil_or_concat post with rfl | ⟨post', x, rfl⟩
  · have := List.append_inj' (s₁ := log) (t₁ := [e]) (s₂ := pre) (t₂ := [e']) hp rfl
    obtain ⟨rfl, h2⟩ := this
    cases h2
    exact he
  · have h1 : log ++ [e] = (pre ++ e' :: post') ++ [x] := by rw [hp]; simp
    have := List.append_inj' h1 rfl
    exact h pre e' post' this.1

/-- The messages 298-299 and 302-303. -/
def Unseen (log : Log C) : Prop := ∀ e ∈ log, e ≠ .fixIt ∧ ∀ w, e ≠ .tryDefault w

theorem unseen_snoc {log : Log C} {e : Ev C} (h : Unseen log) (h1 : e ≠ .fixIt) (h2 : ∀ w, e ≠ .tryDefault w) : Unseen (log ++ [e]) := by
  intro x hx
  rcases List.mem_append.mp hx with hx | hx
  · exact h x hx
  · rw [List.mem_singleton] at hx; subst hx; exact ⟨h1, h2⟩

/-- A workspace that is to be usable. -/
def HeldIf (w : Ws) (log : Log C) : Prop := w = .default_ ∨ held w log = true

structure Idle (s : St C) : Prop where
  orderly : Orderly s.log
  unseen : Unseen s.log
  cur : current s.log = none

structure Busy (s : St C) (w : Ws) : Prop where
  orderly : Orderly s.log
  unseen : Unseen s.log
  inUse : InUse w s.log

structure Fine (s : St C) : Prop where
  orderly : Orderly s.log
  unseen : Unseen s.log

theorem Idle.fine {s : St C} (h : Idle s) : Fine s := ⟨h.1, h.2⟩
theorem Busy.fine {s : St C} {w : Ws} (h : Busy s w) : Fine s := ⟨h.1, h.2⟩

theorem idle_lock {s : St C} (h : Idle s) (w : Ws) : Idle (s.lock w) ∧ HeldIf w (s.lock w).log ∧ (s.lock w).mains = s.mains := by
  cases w with
  | default_ => exact ⟨h, Or.inl rfl, rfl⟩
  | named n =>
    refine ⟨⟨orderly_snoc h.1 trivial, unseen_snoc h.2 (by simp) (by simp), ?_⟩, Or.inr ?_, rfl⟩
    · show current (s.log ++ _) = _
      rw [current_snoc]; exact h.3
    · show held _ (s.log ++ _) = _
      rw [held_snoc]; simp

theorem idle_add {s : St C} (h : Idle s) (e : Ev C) (hp : Proper s.log e) (h1 : e ≠ .fixIt) (h2 : ∀ w, e ≠ .tryDefault w) (h3 : ∀ w, e ≠ .opened w) :
    Idle (s.add e) := by
  refine ⟨orderly_snoc h.1 hp, unseen_snoc h.2 h1 h2, ?_⟩
  show current (s.log ++ _) = _
  rw [current_snoc]
  cases e <;> first | exact h.3 | rfl | (rename_i w; exact absurd rfl (h3 w))

theorem busy_opened {s : St C} (h : Idle s) (w : Ws) (hw : HeldIf w s.log) : Busy (s.add (.opened w)) w := by
  refine ⟨orderly_snoc h.1 ⟨h.3, hw⟩, unseen_snoc h.2 (by simp) (by simp), ?_, ?_⟩
  · show current (s.log ++ _) = _
    rw [current_snoc]
  · rcases hw with hw | hw
    · exact Or.inl hw
    · right
      show held _ (s.log ++ _) = _
      rw [held_snoc]; exact hw

theorem busy_add {s : St C} {w : Ws} (h : Busy s w) (e : Ev C) (hp : Proper s.log e) (h1 : e ≠ .fixIt) (h2 : ∀ v, e ≠ .tryDefault v)
    (h3 : ∀ v, e ≠ .opened v) (h4 : ∀ v b, e ≠ .closed v b) (h5 : ∀ v, e ≠ .locked v) (h6 : ∀ v, e ≠ .unlocked v) : Busy (s.add e) w := by
  refine ⟨orderly_snoc h.1 hp, unseen_snoc h.2 h1 h2, ?_, ?_⟩
  · show current (s.log ++ _) = _
    rw [current_snoc]
    cases e <;> first | exact h.3.1 | (rename_i w; exact absurd rfl (h3 w)) | (rename_i w b; exact absurd rfl (h4 w b))
  · rcases h.3.2 with hw | hw
    · exact Or.inl hw
    · right
      show held _ (s.log ++ _) = _
      rw [held_snoc]
      cases e <;> first | exact hw | (rename_i w; exact absurd rfl (h5 w)) | (rename_i w; exact absurd rfl (h6 w))

theorem openWs_spec (W : World C) {s : St C} (h : Idle s) (w : Ws) :
    ((openWs W s w).2 = .ok () → Busy (openWs W s w).1 w) ∧
    (∀ e, (openWs W s w).2 = .error e → Idle (openWs W s w).1) ∧ (openWs W s w).1.mains = s.mains := by
  obtain ⟨h1, h2, h3⟩ := idle_lock h w
  unfold openWs
  rcases W.obstacle s.log w with _ | o
  · exact ⟨fun _ => busy_opened h1 w h2, fun e he => by simp at he, h3⟩
  · cases o <;> simp only []
    case missing =>
      by_cases hd : w = .default_
      · rw [if_pos hd]; exact ⟨fun _ => busy_opened h w (Or.inl hd), fun e he => by simp at he, rfl⟩
      · rw [if_neg hd]; exact ⟨fun he => by simp at he, fun e he => h, rfl⟩
    case inUse =>
      by_cases hd : w = .default_
      · rw [if_pos hd]; exact ⟨fun _ => busy_opened h w (Or.inl hd), fun e he => by simp at he, rfl⟩
      · rw [if_neg hd]; exact ⟨fun he => by simp at he, fun e he => h, rfl⟩
    case properties =>
      by_cases hd : w = .default_
      · rw [if_pos hd]; exact ⟨fun _ => busy_opened h w (Or.inl hd), fun e he => by simp at he, rfl⟩
      · rw [if_neg hd]; exact ⟨fun he => by simp at he, fun e he => h1, h3⟩
    all_goals exact ⟨fun he => by simp at he, fun e he => h1, h3⟩

theorem busy_cmd {s : St C} {w : Ws} (h : Busy s w) (c : C) : Busy (s.add (.cmd w c)) w :=
  busy_add h _ h.3 (by simp) (by simp) (by simp) (by simp) (by simp) (by simp)

theorem runCommands_spec (W : World C) (w : Ws) (cs : List C) : ∀ s : St C, Busy s w →
    Busy (runCommands W w cs s).1 w ∧ (runCommands W w cs s).1.mains = s.mains ∧ ∀ v, (runCommands W w cs s).2 ≠ .error (.startupScript v) := by
  induction cs with
  | nil => intro s h; exact ⟨h, rfl, fun v => by simp [runCommands]⟩
  | cons c cs ih =>
    intro s h
    have hb := busy_cmd h c
    unfold runCommands
    rcases W.exec s.log w c with _ | _ | v | _ | _
    · exact ih _ hb
    · exact ih _ hb
    all_goals exact ⟨hb, rfl, fun v => by simp⟩

theorem runScripts_spec (W : World C) (w : Ws) (l : List (Option (List C))) : ∀ s : St C, Busy s w →
    Busy (runScripts W w l s).1 w ∧ (runScripts W w l s).1.mains = s.mains ∧ ∀ v, (runScripts W w l s).2 ≠ .error (.startupScript v) := by
  induction l with
  | nil =>
    intro s h
    exact ⟨busy_add h _ trivial (by simp) (by simp) (by simp) (by simp) (by simp) (by simp), rfl, fun v => by simp [runScripts]⟩
  | cons o l ih =>
    intro s h
    rcases o with _ | cs
    · exact ⟨h, rfl, fun v => by simp [runScripts]⟩
    · obtain ⟨h1, h2, h3⟩ := runCommands_spec W w cs s h
      unfold runScripts
      generalize runCommands W w cs s = q at h1 h2 h3
      obtain ⟨s1, e | u⟩ := q
      · exact ⟨h1, h2, h3⟩
      · obtain ⟨g1, g2, g3⟩ := ih s1 h1
        exact ⟨g1, g2.trans h2, g3⟩

theorem build_busy {s : St C} {w : Ws} (h : Busy s w) (ws : List Ws) : Busy (⟨s.log ++ [.built w], ws⟩ : St C) w := by
  have := busy_add h (.built w) trivial (by simp) (by simp) (by simp) (by simp) (by simp) (by simp)
  exact ⟨this.1, this.2, this.3⟩

/-- What `env_and_main` leaves. -/
def Left (x : St C × Except Exn (Ws × Bool)) : Prop :=
  (∀ v b, x.2 = .ok (v, b) → Busy x.1 v ∧ x.1.mains = [v]) ∧
  (∀ e, x.2 = .error e → Fine x.1 ∧ (∀ v, e = .startupScript v → Idle x.1 ∧ x.1.mains = []))

theorem left_error {s : St C} {e : Exn} (h : Fine s) (he : ∀ v, e = .startupScript v → Idle s ∧ s.mains = []) :
    Left (s, (.error e : Except Exn (Ws × Bool))) :=
  ⟨fun v b h' => by simp at h', fun e' h' => by cases h'; exact ⟨h, he⟩⟩

theorem envAndMain_spec (W : World C) (d : Nat) : ∀ (s : St C) (w : Ws), Idle s → s.mains = [] → Left (envAndMain W d s w) := by
  induction d with
  | zero => intro s w h hm; exact left_error h.fine (fun v _ => ⟨h, hm⟩)
  | succ d ih =>
    intro s w h hm
    obtain ⟨h1, h2, h3⟩ := openWs_spec W h w
    unfold envAndMain
    generalize openWs W s w = q at h1 h2 h3
    obtain ⟨s1, e | u⟩ := q
    · have hi := h2 e rfl
      have key : Left (s1, (.error e : Except Exn (Ws × Bool))) := left_error hi.fine (fun v _ => ⟨hi, h3.trans hm⟩)
      cases e with
      | exception => exact ih _ _ (idle_add hi _ trivial (by simp) (by simp) (by simp)) (h3.trans hm)
      | _ => exact key
    · have hb : Busy s1 w := h1 rfl
      have rest : ∀ b : Bool, Left (match runScripts W w (W.scripts (s1.log ++ [.built w]) w) ⟨s1.log ++ [.built w], w :: s1.mains⟩ with
          | (s, .error (.startupScript v)) => if w = .default_ then (s.add .fixIt, .error .systemExit) else envAndMain W d (s.add (.tryDefault v)) .default_
          | (s, .error e) => (s, .error e)
          | (s, .ok ()) => (s, .ok (w, b))) := by
        intro b
        obtain ⟨g1, g2, g3⟩ := runScripts_spec W w (W.scripts (s1.log ++ [.built w]) w) _ (build_busy hb (w :: s1.mains))
        generalize runScripts W w (W.scripts (s1.log ++ [.built w]) w) ⟨s1.log ++ [.built w], w :: s1.mains⟩ = r at g1 g2 g3
        obtain ⟨s2, e | u⟩ := r
        · have key : Left (s2, (.error e : Except Exn (Ws × Bool))) := left_error g1.fine (fun v hv => by subst hv; exact absurd rfl (g3 v))
          cases e with
          | startupScript v => exact absurd rfl (g3 v)
          | _ => exact key
        · refine ⟨fun v b' he => ?_, fun e he => by simp at he⟩
          simp only [Except.ok.injEq, Prod.mk.injEq] at he
          obtain ⟨rfl, _⟩ := he
          refine ⟨g1, ?_⟩
          show s2.mains = _
          rw [g2]; show w :: s1.mains = _; rw [h3, hm]
      simp only []
      rcases W.build s1.log w with _ | _ | _
      · exact rest false
      · exact rest true
      · exact left_error ⟨hb.1, hb.2⟩ (fun v hv => by cases hv)

theorem closeLog_spec (W : World C) (log : Log C) (w : Ws) (h1 : Orderly log) (h2 : Unseen log) :
    Orderly (closeLog W log w) ∧ Unseen (closeLog W log w) ∧ current (closeLog W log w) = none := by
  unfold closeLog
  cases w with
  | default_ =>
    refine ⟨orderly_snoc h1 trivial, unseen_snoc h2 (by simp) (by simp), ?_⟩
    rw [current_snoc]
  | named n =>
    simp only []
    split
    · have e : log ++ [Ev.unlocked (.named n), .closed (.named n) true] = (log ++ [.unlocked (.named n)]) ++ [.closed (.named n) true] := by simp
      rw [e]
      refine ⟨orderly_snoc (orderly_snoc h1 trivial) trivial, unseen_snoc (unseen_snoc h2 (by simp) (by simp)) (by simp) (by simp), ?_⟩
      rw [current_snoc]
    · refine ⟨orderly_snoc h1 trivial, unseen_snoc h2 (by simp) (by simp), ?_⟩
      rw [current_snoc]

theorem shutdown_idle (W : World C) {s : St C} (h : Fine s) (w : Ws) : Idle (shutdown W s w) := by
  obtain ⟨h1, h2, h3⟩ := closeLog_spec W s.log w h.1 h.2
  exact ⟨h1, h2, h3⟩

/-- What holds in each phase. -/
def PhaseOk (x : St C × Phase C) : Prop :=
  match x.2 with
  | .begin => Idle x.1 ∧ x.1.mains = []
  | .enter _ => Idle x.1 ∧ x.1.mains = []
  | .script w _ => Busy x.1 w ∧ x.1.mains = [w]
  | .ended _ => Fine x.1

theorem escape_ok (s : St C) (e : Exn) (h : Fine s) (he : ∀ v, e = .startupScript v → Idle s ∧ s.mains = []) : PhaseOk (escape s e) := by
  cases e with
  | startupScript v =>
    obtain ⟨h1, h2⟩ := he v rfl
    exact ⟨idle_add h1 _ trivial (by simp) (by simp) (by simp), h2⟩
  | _ => exact h

theorem ran_busy {s : St C} {w : Ws} (h : Busy s w) : Busy (s.add (.ran w)) w :=
  busy_add h _ h.3 (by simp) (by simp) (by simp) (by simp) (by simp) (by simp)

theorem stepEnter_ok (W : World C) (d : Nat) (s : St C) (w : Ws) (h : Idle s) (hm : s.mains = []) : PhaseOk (stepEnter W d s w) := by
  have hl := envAndMain_spec W d s w h hm
  unfold stepEnter
  generalize envAndMain W d s w = q at hl
  obtain ⟨s1, e | ⟨v, needs⟩⟩ := q
  · obtain ⟨h1, h2⟩ := hl.2 e rfl
    exact escape_ok s1 e h1 h2
  · obtain ⟨h1, h2⟩ := hl.1 v needs rfl
    cases needs with
    | true =>
      refine ⟨shutdown_idle W h1.fine v, ?_⟩
      show s1.mains.tail = []
      rw [h2]; rfl
    | false =>
      have h3 := ran_busy h1
      have h4 : Idle (shutdown W (s1.add (.ran v)) v) ∧ (shutdown W (s1.add (.ran v)) v).mains = [] := by
        refine ⟨shutdown_idle W h3.fine v, ?_⟩
        show s1.mains.tail = []
        rw [h2]; rfl
      simp only [Bool.false_eq_true, if_false]
      rcases W.run s1.log v with _ | u | _ | _
      · exact h3.fine
      · cases u <;> exact h4
      · exact h3.fine
      · exact h3.fine

theorem openScript_spec (W : World C) (s : St C) (w : Ws) (h : Idle s) (hm : s.mains = []) :
    ((openScript W s w).2 = .ok () → Busy (openScript W s w).1 w ∧ (openScript W s w).1.mains = [w]) ∧
    (∀ e, (openScript W s w).2 = .error e → Fine (openScript W s w).1 ∧
      (∀ v, e = .startupScript v → Idle (openScript W s w).1 ∧ (openScript W s w).1.mains = [])) := by
  obtain ⟨h1, h2, h3⟩ := openWs_spec W h w
  unfold openScript
  generalize openWs W s w = q at h1 h2 h3
  obtain ⟨s1, e | u⟩ := q
  · have hi := h2 e rfl
    exact ⟨fun he => by simp at he, fun e' _ => ⟨hi.fine, fun v _ => ⟨hi, h3.trans hm⟩⟩⟩
  · have hb : Busy s1 w := h1 rfl
    have h3 : s1.mains = s.mains := h3
    simp only []
    rcases W.build s1.log w with _ | _ | _
    · exact ⟨fun _ => ⟨build_busy hb _, by show w :: s1.mains = _; rw [h3, hm]⟩, fun e he => by simp at he⟩
    · exact ⟨fun _ => ⟨build_busy hb _, by show w :: s1.mains = _; rw [h3, hm]⟩, fun e he => by simp at he⟩
    · exact ⟨fun he => by simp at he, fun e he => ⟨⟨hb.1, hb.2⟩, fun v hv => by simp at he; subst he; cases hv⟩⟩

theorem stepScriptBegin_ok (W : World C) (s : St C) (h : Idle s) (hm : s.mains = []) : PhaseOk (stepScriptBegin W s) := by
  obtain ⟨h1, h2⟩ := openScript_spec W s .default_ h hm
  unfold stepScriptBegin
  generalize openScript W s .default_ = q at h1 h2
  obtain ⟨s1, e | u⟩ := q
  · exact escape_ok s1 e (h2 e rfl).1 (h2 e rfl).2
  · obtain ⟨hb, hm1⟩ := h1 rfl
    obtain ⟨g1, g2, g3⟩ := runScripts_spec W .default_ (W.scripts s1.log .default_) s1 hb
    simp only []
    generalize runScripts W .default_ (W.scripts s1.log .default_) s1 = r at g1 g2 g3
    obtain ⟨s2, e | u⟩ := r
    · exact escape_ok s2 e g1.fine (fun v hv => by subst hv; exact absurd rfl (g3 v))
    · exact ⟨g1, g2.trans hm1⟩

theorem stepScript_ok (W : World C) (s : St C) (w : Ws) (cs : List C) (h : Busy s w) (hm : s.mains = [w]) : PhaseOk (stepScript W s w cs) := by
  unfold stepScript
  rcases cs with _ | ⟨c, cs⟩
  · exact h.fine
  · have hb := busy_cmd h c
    simp only []
    rcases W.exec s.log w c with _ | _ | v | _ | _
    · exact ⟨hb, hm⟩
    · exact ⟨hb, hm⟩
    · have hi := shutdown_idle W hb.fine w
      have hm' : (shutdown W (s.add (.cmd w c)) w).mains = [] := by show s.mains.tail = []; rw [hm]; rfl
      obtain ⟨h1, h2⟩ := openScript_spec W _ v hi hm'
      simp only []
      generalize openScript W (shutdown W (s.add (.cmd w c)) w) v = q at h1 h2
      obtain ⟨s1, e | u⟩ := q
      · exact escape_ok s1 e (h2 e rfl).1 (h2 e rfl).2
      · exact h1 rfl
    · exact hb.fine
    · exact hb.fine

theorem after_ok (W : World C) (interactive : Bool) (d n : Nat) : PhaseOk (after W interactive d n) := by
  induction n with
  | zero => exact ⟨⟨orderly_nil, (fun e he => by cases he), rfl⟩, rfl⟩
  | succ n ih =>
    show PhaseOk (step W interactive d (after W interactive d n))
    generalize after W interactive d n = x at ih
    obtain ⟨s, p⟩ := x
    unfold step
    cases p with
    | «begin» =>
      cases interactive with
      | true => exact ih
      | false => exact stepScriptBegin_ok W s ih.1 ih.2
    | enter w => exact stepEnter_ok W d s w ih.1 ih.2
    | script w cs => exact stepScript_ok W s w cs ih.1 ih.2
    | ended e => exact ih

theorem PhaseOk.fine {x : St C × Phase C} (h : PhaseOk x) : Fine x.1 := by
  obtain ⟨s, p⟩ := x
  cases p with
  | «begin» => exact h.1.fine
  | enter w => exact h.1.fine
  | script w cs => exact h.1.fine
  | ended e => exact h

theorem atExit_fine (W : World C) (ws : List Ws) : ∀ log : Log C, Orderly log → Unseen log → Orderly (atExit W ws log) ∧ Unseen (atExit W ws log) := by
  induction ws with
  | nil => intro log h1 h2; exact ⟨h1, h2⟩
  | cons w ws ih =>
    intro log h1 h2
    obtain ⟨g1, g2, _⟩ := closeLog_spec W log w h1 h2
    obtain ⟨g1, g2, _⟩ := closeLog_spec W _ .default_ g1 g2
    exact ih _ g1 g2

theorem whole_fine (W : World C) (interactive : Bool) (d n : Nat) :
    Orderly (whole W (after W interactive d n)) ∧ Unseen (whole W (after W interactive d n)) := by
  have h := (after_ok W interactive d n).fine
  unfold whole
  generalize after W interactive d n = x at h
  obtain ⟨s, p⟩ := x
  cases p with
  | ended e => exact atExit_fine W _ _ h.1 h.2
  | _ => exact ⟨h.1, h.2⟩

/-- **C96.** Whatever goes wrong: commands, and sessions of commands, are executed only in the workspace that is open and locked, and a workspace is opened only after the one
before has been closed. -/
theorem C96_orderly (W : World C) (interactive : Bool) (depth n : Nat) : Orderly (whole W (after W interactive depth n)) :=
  (whole_fine W interactive depth n).1

/-- **C96, false.** The messages marcel has for startup scripts that fail (`Trying default workspace ...`, `Fix the startup script and try again.`) never appear, whatever the startup scripts do: the
exception is raised at another place than where it is expected. -/
theorem C96_false_handlers (W : World C) (interactive : Bool) (depth n : Nat) (w : Ws) :
    Ev.fixIt ∉ whole W (after W interactive depth n) ∧ Ev.tryDefault w ∉ whole W (after W interactive depth n) :=
  ⟨fun h => ((whole_fine W interactive depth n).2 _ h).1 rfl, fun h => ((whole_fine W interactive depth n).2 _ h).2 w rfl⟩

/-! ## Workspaces that cannot be opened -/

/-- **C96.** In an interactive session: if the startup script of a named workspace fails, this is told, and marcel goes on with opening the default workspace. -/
theorem C96_script (W : World C) (depth n k : Nat) (s : St C) (h : after W true (depth + 1) n = (s, .enter (.named k)))
    (ho : W.obstacle s.log (.named k) = some .script) :
    after W true (depth + 1) (n + 2) = (⟨s.log ++ [.locked (.named k), .told (.named k)], s.mains⟩, .enter .default_) := by
  show step W true _ (step W true _ (after W true (depth + 1) n)) = _
  rw [h]
  simp [step, stepEnter, envAndMain, openWs, ho, escape, St.lock, St.add]

/-- **C96.** If the properties or the saved variables of a named workspace cannot be read, this is told, and marcel goes on with opening the default workspace. -/
theorem C96_unreadable (W : World C) (depth n k : Nat) (s : St C) (h : after W true (depth + 1) n = (s, .enter (.named k)))
    (ho : W.obstacle s.log (.named k) = some .properties ∨ W.obstacle s.log (.named k) = some .environment) :
    after W true (depth + 1) (n + 1) = stepEnter W depth ⟨s.log ++ [.locked (.named k), .fallBack (.named k)], s.mains⟩ .default_ := by
  show step W true _ (after W true (depth + 1) n) = _
  rw [h]
  rcases ho with ho | ho <;> simp [step, stepEnter, envAndMain, openWs, ho, St.lock, St.add]

/-- **C96.** If nothing goes wrong, the workspace asked for is opened, and commands are executed in it; `ws u` then closes it and goes to `u`, a change of the startup script closes it and opens it
again, the end of the input ends marcel. -/
theorem C96_change (W : World C) (depth n : Nat) (w : Ws) (s : St C) (h : after W true (depth + 1) n = (s, .enter w))
    (ho : W.obstacle s.log w = none) (hb : ∀ log, W.build log w = .fine) (hs : ∀ log, W.scripts log w = []) :
    ∃ log, log = s.log ++ (if w = .default_ then [] else [.locked w]) ++ [.opened w, .built w, .started w] ∧
      (W.run log w = .ended → (after W true (depth + 1) (n + 1)).1.log = log ++ [.ran w] ∧ (after W true (depth + 1) (n + 1)).2 = .ended .normal) ∧
      (∀ u, W.run log w = .reconfigure u → (after W true (depth + 1) (n + 1)).2 = .enter (u.getD w) ∧
        (after W true (depth + 1) (n + 1)).1.log = log ++ [.ran w] ++
          (if w = .default_ then [.closed w (W.closes (log ++ [.ran w]) w)]
           else if W.closes (log ++ [.ran w]) w then [.unlocked w, .closed w true] else [.closed w false])) := by
  refine ⟨_, rfl, ?_⟩
  have e1 : ∀ x, after W true (depth + 1) n = x → after W true (depth + 1) (n + 1) = step W true (depth + 1) x := fun x hx => by rw [← hx]; rfl
  rw [e1 _ h]
  cases w with
  | default_ =>
    constructor
    · intro hr
      simp at hr
      simp [step, stepEnter, envAndMain, openWs, ho, hb, hs, runScripts, St.lock, St.add, hr, RunRes.toExcept]
    · intro u hr
      simp at hr
      cases u <;> simp [step, stepEnter, envAndMain, openWs, ho, hb, hs, runScripts, St.lock, St.add, hr, RunRes.toExcept, shutdown, closeLog]
  | named k =>
    constructor
    · intro hr
      simp at hr
      simp [step, stepEnter, envAndMain, openWs, ho, hb, hs, runScripts, St.lock, St.add, hr, RunRes.toExcept]
    · intro u hr
      simp at hr
      cases u <;> simp [step, stepEnter, envAndMain, openWs, ho, hb, hs, runScripts, St.lock, St.add, hr, RunRes.toExcept, shutdown, closeLog] <;> split <;> simp

/-- **C96, false.** If the startup script of a named workspace assigns HOME, USER, HOST, WORKSPACE or MARCEL_VERSION, or cannot be read, `ws` with this workspace ends marcel; likewise if the workspace was
taken or deleted by another process in between. -/
theorem C96_false_kill (W : World C) (depth n k : Nat) (s : St C) (h : after W true (depth + 1) n = (s, .enter (.named k)))
    (ho : ∃ o ∈ [Obstacle.forbidden, .unreadable, .inUse, .missing], W.obstacle s.log (.named k) = some o) :
    (after W true (depth + 1) (n + 1)).2 = .ended .message := by
  show (step W true _ (after W true (depth + 1) n)).2 = _
  rw [h]
  obtain ⟨o, hm, ho⟩ := ho
  simp only [List.mem_cons, List.not_mem_nil, or_false] at hm
  rcases hm with rfl | rfl | rfl | rfl <;> simp [step, stepEnter, envAndMain, openWs, ho, St.lock, escape, St.add]

/-- **C96, false.** If the startup script of the default workspace fails, marcel does not end: it says so again and again, without end; interactive or not. -/
theorem C96_false_forever (W : World C) (depth : Nat) (ho : ∀ log, W.obstacle log .default_ = some .script) (n : Nat) :
    after W true (depth + 1) (2 * n) = (⟨List.replicate n (.told .default_), []⟩, .begin) ∧
    after W false (depth + 1) n = (⟨List.replicate n (.told .default_), []⟩, .begin) := by
  constructor
  · induction n with
    | zero => rfl
    | succ n ih =>
      show step W true _ (step W true _ (after W true (depth + 1) (2 * n))) = _
      rw [ih, List.replicate_succ']
      simp [step, stepEnter, envAndMain, openWs, ho, escape, St.lock, St.add]
  · induction n with
    | zero => rfl
    | succ n ih =>
      show step W false _ (after W false (depth + 1) n) = _
      rw [ih, List.replicate_succ']
      simp [step, stepScriptBegin, openScript, openWs, ho, escape, St.lock, St.add]

/-- **C96, false.** If the saved variables of the default workspace cannot be read, marcel tries to open it instead of itself, as often as Python allows, and ends with a traceback. -/
theorem C96_false_default (W : World C) (depth : Nat) (ho : ∀ log, W.obstacle log .default_ = some .environment) :
    after W true depth 2 = (⟨List.replicate depth (.fallBack .default_), []⟩, .ended .traceback) := by
  have : ∀ d k, envAndMain W d ⟨List.replicate k (.fallBack .default_), []⟩ .default_ =
      (⟨List.replicate (k + d) (.fallBack .default_), []⟩, .error .exception) := by
    intro d
    induction d with
    | zero => intro k; rfl
    | succ d ih =>
      intro k
      have := ih (k + 1)
      rw [List.replicate_succ', show k + 1 + d = k + (d + 1) by omega] at this
      simpa [envAndMain, openWs, ho, St.lock, St.add] using this
  have h0 := this depth 0
  show step W true _ (step W true _ (⟨[], []⟩, .begin)) = _
  simp only [step, if_true, stepEnter]
  rw [show (⟨[], []⟩ : St C) = ⟨List.replicate 0 (.fallBack .default_), []⟩ from rfl, h0]
  simp [escape]

/-- **C96, false.** If a startup script given to `run_on_startup` opens a workspace, marcel ends with a traceback. -/
theorem C96_false_startup_ws (W : World C) (depth : Nat) (v : Ws) (c : C) (cs : List C) (rest : List (Option (List C)))
    (ho : ∀ log, W.obstacle log .default_ = none) (hb : ∀ log, W.build log .default_ ≠ .raises)
    (hs : ∀ log, W.scripts log .default_ = some (c :: cs) :: rest) (hc : ∀ log, W.exec log .default_ c = .reconfigure v) :
    (after W true (depth + 1) 2).2 = .ended .traceback ∧ (after W false (depth + 1) 1).2 = .ended .traceback := by
  constructor
  · show (step W true _ (step W true _ (⟨[], []⟩, .begin))).2 = _
    simp only [step, if_true, stepEnter, envAndMain, openWs, ho]
    have := hb [.opened .default_]
    simp only [St.lock, St.add, List.nil_append]
    generalize W.build [.opened .default_] .default_ = q at this
    cases q with
    | raises => exact absurd rfl this
    | fine => simp [hs, runScripts, runCommands, hc, escape]
    | needsRestart => simp [hs, runScripts, runCommands, hc, escape]
  · show (step W false _ (⟨[], []⟩, .begin)).2 = _
    simp only [step, Bool.false_eq_true, if_false, stepScriptBegin, openScript, openWs, ho]
    have := hb [.opened .default_]
    simp only [St.lock, St.add, List.nil_append]
    generalize W.build [.opened .default_] .default_ = q at this
    cases q with
    | raises => exact absurd rfl this
    | fine => simp [hs, runScripts, runCommands, hc, escape]
    | needsRestart => simp [hs, runScripts, runCommands, hc, escape]

theorem executed_append (l l' : Log C) : executed (l ++ l') = executed l ++ executed l' := List.filterMap_append

theorem executed_close (W : World C) (log : Log C) (w : Ws) : executed (closeLog W log w) = executed log := by
  unfold closeLog
  cases w with
  | default_ => simp [executed]
  | named n => simp only []; split <;> simp [executed]

/-- Several steps. -/
def steps (W : World C) (interactive : Bool) (d : Nat) : Nat → St C × Phase C → St C × Phase C
  | 0, x => x
  | n + 1, x => steps W interactive d n (step W interactive d x)

theorem after_steps (W : World C) (interactive : Bool) (d m : Nat) : ∀ n, steps W interactive d m (after W interactive d n) = after W interactive d (n + m) := by
  induction m with
  | zero => intro n; rfl
  | succ m ih =>
    intro n
    have := ih (n + 1)
    rw [show n + 1 + m = n + (m + 1) by omega] at this
    exact this

theorem script_fine (W : World C) (d : Nat) (w : Ws) (cs rest : List C) (hc : ∀ x ∈ cs, ∀ log, W.exec log w x = .fine ∨ W.exec log w x = .caught) :
    ∀ s : St C, steps W false d cs.length (s, .script w (cs ++ rest)) = (⟨s.log ++ cs.map (.cmd w), s.mains⟩, .script w rest) := by
  induction cs with
  | nil => intro s; simp [steps]
  | cons c cs ih =>
    intro s
    have ih := ih (fun x hx => hc x (List.mem_cons_of_mem _ hx)) (s.add (.cmd w c))
    have h1 : step W false d (s, .script w (c :: cs ++ rest)) = (s.add (.cmd w c), .script w (cs ++ rest)) := by
      rcases hc c (List.mem_cons_self ..) s.log with h | h <;> simp [step, stepScript, h]
    show steps W false d cs.length (step W false d _) = _
    rw [h1, ih]
    simp [St.add]

/-- **C96, false.** If a script opens a workspace whose startup script fails, the whole script is run again from its beginning, and so on without end: the commands before that one are executed again each time. -/
theorem C96_false_again (W : World C) (depth k : Nat) (cs rest : List C) (c : C)
    (ho : ∀ log, W.obstacle log .default_ = none) (hb : ∀ log, W.build log .default_ = .fine) (hs : ∀ log, W.scripts log .default_ = [])
    (ht : ∀ log, W.script log = cs ++ c :: rest) (hf : ∀ x ∈ cs, ∀ log, W.exec log .default_ x = .fine)
    (hc : ∀ log, W.exec log .default_ c = .reconfigure (.named k)) (hk : ∀ log, W.obstacle log (.named k) = some .script) (m : Nat) :
    ∃ n, (after W false depth n).2 = .begin ∧ executed (after W false depth n).1.log = (List.replicate m (cs ++ [c])).flatten := by
  induction m with
  | zero => exact ⟨0, rfl, rfl⟩
  | succ m ih =>
    obtain ⟨n, h1, h2⟩ := ih
    refine ⟨n + (1 + (cs.length + 1)), ?_⟩
    rw [← after_steps]
    generalize after W false depth n = x at h1 h2
    obtain ⟨s, p⟩ := x
    subst h1
    have hadd : ∀ a b y, steps W false depth (a + b) y = steps W false depth b (steps W false depth a y) := by
      intro a
      induction a with
      | zero => intro b y; rw [Nat.zero_add]; rfl
      | succ a ih => intro b y; rw [show a + 1 + b = (a + b) + 1 by omega]; exact ih b _
    have e1 : steps W false depth 1 (s, .begin) = (⟨s.log ++ [.opened .default_, .built .default_, .started .default_], .default_ :: s.mains⟩, .script .default_ (cs ++ c :: rest)) := by
      simp [steps, step, stepScriptBegin, openScript, openWs, ho, hb, hs, ht, runScripts, St.add, St.lock]
    rw [hadd, e1, hadd, script_fine W depth .default_ cs (c :: rest) (fun x hx log => Or.inl (hf x hx log))]
    have e2 : ∀ t : St C, steps W false depth 1 (t, .script .default_ (c :: rest)) =
        (⟨closeLog W (t.log ++ [.cmd .default_ c]) .default_ ++ [.locked (.named k), .told (.named k)], t.mains.tail⟩, .begin) := by
      intro t
      simp [steps, step, stepScript, hc, openScript, openWs, hk, escape, St.add, St.lock, shutdown]
    rw [e2]
    refine ⟨rfl, ?_⟩
    simp only [executed_append, executed_close, h2]
    rw [List.replicate_succ', List.flatten_append]
    have : ∀ l : List C, executed (l.map (Ev.cmd Ws.default_)) = l := by
      intro l
      induction l with
      | nil => rfl
      | cons a l ih => simp only [executed, List.map_cons, List.filterMap_cons] at ih ⊢; rw [ih]
    rw [this]
    simp [executed]

/-! ## Markers are given back -/

/-- Only the workspace that is open is locked. -/
def Only (log : Log C) : Prop := ∀ w, held w log = true → w ≠ .default_ ∧ current log = some w

theorem only_snoc {log : Log C} (h : Only log) (e : Ev C) (h1 : ∀ v, e ≠ .locked v) (h2 : ∀ v, e ≠ .opened v) (h3 : ∀ v b, e ≠ .closed v b) (h4 : ∀ v, e ≠ .unlocked v) :
    Only (log ++ [e]) := by
  intro w hw
  rw [held_snoc] at hw
  rw [current_snoc]
  cases e <;> first | exact h w hw | exact absurd rfl (h1 _) | exact absurd rfl (h2 _) | exact absurd rfl (h3 _ _) | exact absurd rfl (h4 _)

theorem only_none {log : Log C} (h : Only log) (hc : current log = none) (v : Ws) : held v log = false := by
  rcases Bool.eq_false_or_eq_true (held v log) with hv | hv
  · have := (h v hv).2; rw [hc] at this; cases this
  · exact hv

theorem openWs_only (W : World C) (hW : Smooth W) {s : St C} (h : Idle s) (ho : Only s.log) (w : Ws) : Only (openWs W s w).1.log := by
  have hn := only_none ho h.cur
  have hdef : ∀ t : St C, t.log = s.log → Only (t.add (.opened .default_)).log := by
    intro t ht v hv
    have hv : held v (t.log ++ [.opened .default_]) = true := hv
    rw [held_snoc, ht] at hv
    have hv : held v s.log = true := hv
    rw [hn v] at hv; cases hv
  unfold openWs
  cases w with
  | default_ =>
    rcases W.obstacle s.log .default_ with _ | o
    · exact hdef s rfl
    · cases o <;> simp only [if_true] <;> first | exact hdef s rfl | exact ho
  | named k =>
    rcases hW.opens s.log k with e | e | e <;> rw [e]
    · intro v hv
      have hv : held v ((s.log ++ [.locked (.named k)]) ++ [.opened (.named k)]) = true := hv
      rw [held_snoc] at hv
      have hv : held v (s.log ++ [.locked (.named k)]) = true := hv
      rw [held_snoc] at hv
      simp only [hn v, Bool.false_or, decide_eq_true_eq] at hv
      subst hv
      refine ⟨by simp, ?_⟩
      show current ((s.log ++ [.locked (.named k)]) ++ [.opened (.named k)]) = _
      rw [current_snoc]
    · exact ho
    · exact ho

theorem runCommands_only (W : World C) (w : Ws) (cs : List C) : ∀ s : St C, Only s.log → Only (runCommands W w cs s).1.log := by
  induction cs with
  | nil => intro s h; exact h
  | cons c cs ih =>
    intro s h
    have hb : Only (s.add (.cmd w c)).log := only_snoc h _ (by simp) (by simp) (by simp) (by simp)
    unfold runCommands
    rcases W.exec s.log w c with _ | _ | v | _ | _
    · exact ih _ hb
    · exact ih _ hb
    all_goals exact hb

theorem runScripts_only (W : World C) (w : Ws) (l : List (Option (List C))) : ∀ s : St C, Only s.log → Only (runScripts W w l s).1.log := by
  induction l with
  | nil => intro s h; exact only_snoc h _ (by simp) (by simp) (by simp) (by simp)
  | cons o l ih =>
    intro s h
    rcases o with _ | cs
    · exact h
    · have h1 := runCommands_only W w cs s h
      unfold runScripts
      generalize runCommands W w cs s = q at h1
      obtain ⟨s1, e | u⟩ := q
      · exact h1
      · exact ih s1 h1

/-- Whatever is open will be closed. -/
structure Tidy (s : St C) : Prop where
  only : Only s.log
  covered : current s.log = none ∨ ∃ w, current s.log = some w ∧ s.mains = [w]

theorem tidy_idle {s : St C} (h : Idle s) (ho : Only s.log) : Tidy s := ⟨ho, Or.inl h.cur⟩
theorem tidy_busy {s : St C} {w : Ws} (h : Busy s w) (ho : Only s.log) (hm : s.mains = [w]) : Tidy s := ⟨ho, Or.inr ⟨w, h.inUse.1, hm⟩⟩

theorem envAndMain_tidy (W : World C) (hW : Smooth W) (d : Nat) : ∀ (s : St C) (w : Ws), Idle s → s.mains = [] → Only s.log → Tidy (envAndMain W d s w).1 := by
  induction d with
  | zero => intro s w h _ ho; exact tidy_idle h ho
  | succ d ih =>
    intro s w h hm ho
    obtain ⟨h1, h2, h3⟩ := openWs_spec W h w
    have h4 := openWs_only W hW h ho w
    unfold envAndMain
    generalize openWs W s w = q at h1 h2 h3 h4
    obtain ⟨s1, e | u⟩ := q
    · have hi := h2 e rfl
      have key : Tidy s1 := tidy_idle hi h4
      cases e with
      | exception =>
        exact ih _ _ (idle_add hi _ trivial (by simp) (by simp) (by simp)) (h3.trans hm) (only_snoc h4 _ (by simp) (by simp) (by simp) (by simp))
      | _ => exact key
    · have hb : Busy s1 w := h1 rfl
      have h3 : s1.mains = s.mains := h3
      have rest : ∀ b : Bool, Tidy (match runScripts W w (W.scripts (s1.log ++ [.built w]) w) ⟨s1.log ++ [.built w], w :: s1.mains⟩ with
          | (s, .error (.startupScript v)) => if w = .default_ then (s.add .fixIt, .error .systemExit) else envAndMain W d (s.add (.tryDefault v)) .default_
          | (s, .error e) => (s, .error e)
          | (s, .ok ()) => (s, .ok (w, b)) : St C × Except Exn (Ws × Bool)).1 := by
        intro b
        obtain ⟨g1, g2, g3⟩ := runScripts_spec W w (W.scripts (s1.log ++ [.built w]) w) _ (build_busy hb (w :: s1.mains))
        have g4 := runScripts_only W w (W.scripts (s1.log ++ [.built w]) w) ⟨s1.log ++ [.built w], w :: s1.mains⟩
          (only_snoc h4 _ (by simp) (by simp) (by simp) (by simp))
        generalize runScripts W w (W.scripts (s1.log ++ [.built w]) w) ⟨s1.log ++ [.built w], w :: s1.mains⟩ = r at g1 g2 g3 g4
        obtain ⟨s2, e | u⟩ := r
        · have key : Tidy s2 := tidy_busy g1 g4 (by rw [g2]; show w :: s1.mains = _; rw [h3, hm])
          cases e with
          | startupScript v => exact absurd rfl (g3 v)
          | _ => exact key
        · exact tidy_busy g1 g4 (by rw [g2]; show w :: s1.mains = _; rw [h3, hm])
      simp only []
      rcases W.build s1.log w with _ | _ | _
      · exact rest false
      · exact rest true
      · exact ⟨h4, Or.inr ⟨w, hb.inUse.1, by show w :: s1.mains = _; rw [h3, hm]⟩⟩

theorem closeLog_held (W : World C) (hW : Smooth W) (log : Log C) (w : Ws) (h : Only log) (hc : current log = some w ∨ current log = none) (v : Ws) :
    held v (closeLog W log w) = false := by
  unfold closeLog
  cases w with
  | default_ =>
    rw [held_snoc]
    show held v log = false
    rcases Bool.eq_false_or_eq_true (held v log) with hv | hv
    · obtain ⟨h1, h2⟩ := h v hv
      rcases hc with hc | hc <;> rw [hc] at h2 <;> cases h2
      exact absurd rfl h1
    · exact hv
  | named n =>
    simp only [hW.closes, if_true]
    have e : log ++ [Ev.unlocked (.named n), .closed (.named n) true] = (log ++ [.unlocked (.named n)]) ++ [.closed (.named n) true] := by simp
    rw [e, held_snoc]
    show held v (log ++ [.unlocked (.named n)]) = false
    rw [held_snoc]
    rcases Bool.eq_false_or_eq_true (held v log) with hv | hv
    · obtain ⟨h1, h2⟩ := h v hv
      rcases hc with hc | hc <;> rw [hc] at h2 <;> cases h2
      simp
    · simp [hv]

theorem shutdown_only (W : World C) (hW : Smooth W) {s : St C} {w : Ws} (h : Only s.log) (hc : current s.log = some w) : Only (shutdown W s w).log := by
  intro v hv
  have := closeLog_held W hW s.log w h (Or.inl hc) v
  have hv : held v (closeLog W s.log w) = true := hv
  rw [this] at hv; cases hv

theorem escape_tidy {s : St C} (e : Exn) (h : Tidy s) : Tidy (escape s e).1 := by
  cases e with
  | startupScript v =>
    refine ⟨only_snoc h.1 _ (by simp) (by simp) (by simp) (by simp), ?_⟩
    have : current (s.add (.told v)).log = current s.log := by
      show current (s.log ++ _) = _
      rw [current_snoc]
    show current (s.add (.told v)).log = none ∨ ∃ w, current (s.add (.told v)).log = some w ∧ s.mains = [w]
    rw [this]; exact h.2
  | _ => exact h

theorem stepEnter_tidy (W : World C) (hW : Smooth W) (d : Nat) (s : St C) (w : Ws) (h : Idle s) (hm : s.mains = []) (ho : Only s.log) :
    Tidy (stepEnter W d s w).1 := by
  have hl := envAndMain_spec W d s w h hm
  have ht := envAndMain_tidy W hW d s w h hm ho
  unfold stepEnter
  generalize envAndMain W d s w = q at hl ht
  obtain ⟨s1, e | ⟨v, needs⟩⟩ := q
  · exact escape_tidy e ht
  · obtain ⟨h1, h2⟩ := hl.1 v needs rfl
    have ht1 : Only s1.log := ht.1
    cases needs with
    | true => exact tidy_idle (shutdown_idle W h1.fine v) (shutdown_only W hW ht1 h1.inUse.1)
    | false =>
      have h3 := ran_busy h1
      have h4 : Only (s1.add (.ran v)).log := only_snoc ht1 _ (by simp) (by simp) (by simp) (by simp)
      have h5 : Tidy (s1.add (.ran v)) := tidy_busy h3 h4 h2
      have h6 : Tidy (shutdown W (s1.add (.ran v)) v) := tidy_idle (shutdown_idle W h3.fine v) (shutdown_only W hW h4 h3.inUse.1)
      simp only [Bool.false_eq_true, if_false]
      rcases W.run s1.log v with _ | u | _ | _
      · exact h5
      · cases u <;> exact h6
      · exact h5
      · exact h5

theorem openScript_tidy (W : World C) (hW : Smooth W) (s : St C) (w : Ws) (h : Idle s) (hm : s.mains = []) (ho : Only s.log) : Tidy (openScript W s w).1 := by
  obtain ⟨h1, h2, h3⟩ := openWs_spec W h w
  have h4 := openWs_only W hW h ho w
  unfold openScript
  generalize openWs W s w = q at h1 h2 h3 h4
  obtain ⟨s1, e | u⟩ := q
  · exact tidy_idle (h2 e rfl) h4
  · have hb : Busy s1 w := h1 rfl
    have h3 : s1.mains = s.mains := h3
    have hm' : w :: s1.mains = [w] := by rw [h3, hm]
    simp only []
    rcases W.build s1.log w with _ | _ | _
    · exact tidy_busy (build_busy hb _) (only_snoc h4 _ (by simp) (by simp) (by simp) (by simp)) hm'
    · exact tidy_busy (build_busy hb _) (only_snoc h4 _ (by simp) (by simp) (by simp) (by simp)) hm'
    · exact ⟨h4, Or.inr ⟨w, hb.inUse.1, hm'⟩⟩

theorem stepScriptBegin_tidy (W : World C) (hW : Smooth W) (s : St C) (h : Idle s) (hm : s.mains = []) (ho : Only s.log) : Tidy (stepScriptBegin W s).1 := by
  obtain ⟨h1, h2⟩ := openScript_spec W s .default_ h hm
  have h3 := openScript_tidy W hW s .default_ h hm ho
  unfold stepScriptBegin
  generalize openScript W s .default_ = q at h1 h2 h3
  obtain ⟨s1, e | u⟩ := q
  · exact escape_tidy e h3
  · obtain ⟨hb, hm1⟩ := h1 rfl
    obtain ⟨g1, g2, g3⟩ := runScripts_spec W .default_ (W.scripts s1.log .default_) s1 hb
    have g4 := runScripts_only W .default_ (W.scripts s1.log .default_) s1 h3.1
    simp only []
    generalize runScripts W .default_ (W.scripts s1.log .default_) s1 = r at g1 g2 g3 g4
    have ht : Tidy r.1 := tidy_busy g1 g4 (g2.trans hm1)
    obtain ⟨s2, e | u⟩ := r
    · exact escape_tidy e ht
    · exact ht

theorem stepScript_tidy (W : World C) (hW : Smooth W) (s : St C) (w : Ws) (cs : List C) (h : Busy s w) (hm : s.mains = [w]) (ho : Only s.log) :
    Tidy (stepScript W s w cs).1 := by
  unfold stepScript
  rcases cs with _ | ⟨c, cs⟩
  · exact tidy_busy h ho hm
  · have hb := busy_cmd h c
    have ho' : Only (s.add (.cmd w c)).log := only_snoc ho _ (by simp) (by simp) (by simp) (by simp)
    have ht : Tidy (s.add (.cmd w c)) := tidy_busy hb ho' hm
    simp only []
    rcases W.exec s.log w c with _ | _ | v | _ | _
    · exact ht
    · exact ht
    · have hi := shutdown_idle W hb.fine w
      have hm' : (shutdown W (s.add (.cmd w c)) w).mains = [] := by show s.mains.tail = []; rw [hm]; rfl
      have h3 := openScript_tidy W hW _ v hi hm' (shutdown_only W hW ho' hb.inUse.1)
      simp only []
      generalize openScript W (shutdown W (s.add (.cmd w c)) w) v = q at h3
      obtain ⟨s1, e | u⟩ := q
      · exact escape_tidy e h3
      · exact h3
    · exact ht
    · exact ht

theorem after_tidy (W : World C) (hW : Smooth W) (interactive : Bool) (d n : Nat) : Tidy (after W interactive d n).1 := by
  induction n with
  | zero => exact ⟨fun w hw => (by cases hw), Or.inl rfl⟩
  | succ n ih =>
    have hok := after_ok W interactive d n
    show Tidy (step W interactive d (after W interactive d n)).1
    generalize after W interactive d n = x at ih hok
    obtain ⟨s, p⟩ := x
    unfold step
    cases p with
    | «begin» =>
      cases interactive with
      | true => exact ih
      | false => exact stepScriptBegin_tidy W hW s hok.1 hok.2 ih.1
    | enter w => exact stepEnter_tidy W hW d s w hok.1 hok.2 ih.1
    | script w cs => exact stepScript_tidy W hW s w cs hok.1 hok.2 ih.1
    | ended e => exact ih

/-- **C96.** If nothing fails once the marker of a workspace has been taken, and closing succeeds, then at all times the only marker that the process has is that of the workspace that is open; and when it
has ended (however), it has none. -/
theorem C96_released (W : World C) (hW : Smooth W) (interactive : Bool) (depth n : Nat) (w : Ws) :
    (held w (after W interactive depth n).1.log = true → current (after W interactive depth n).1.log = some w) ∧
    ∀ e, (after W interactive depth n).2 = .ended e → held w (whole W (after W interactive depth n)) = false := by
  have ht := after_tidy W hW interactive depth n
  refine ⟨fun hw => (ht.1 w hw).2, ?_⟩
  intro e he
  have hok := (after_ok W interactive depth n).fine
  unfold whole
  generalize after W interactive depth n = x at ht he hok
  obtain ⟨s, p⟩ := x
  subst he
  show held w (atExit W s.mains s.log) = false
  have hidle : ∀ (ws : List Ws) (log : Log C), Orderly log → Unseen log → current log = none → (∀ v, held v log = false) → held w (atExit W ws log) = false := by
    intro ws
    induction ws with
    | nil => intro log _ _ _ h; exact h w
    | cons v ws ih =>
      intro log h1 h2 h3 h4
      obtain ⟨g1, g2, g3⟩ := closeLog_spec W log v h1 h2
      have g4 := closeLog_held W hW log v (fun u hu => by rw [h4 u] at hu; cases hu) (Or.inr h3)
      obtain ⟨k1, k2, k3⟩ := closeLog_spec W _ .default_ g1 g2
      exact ih _ k1 k2 k3 (closeLog_held W hW _ .default_ (fun u hu => by rw [g4 u] at hu; cases hu) (Or.inr g3))
  rcases ht.2 with hc | ⟨v, hc, hm⟩
  · exact hidle s.mains s.log hok.1 hok.2 hc (only_none ht.1 hc)
  · have hm : s.mains = [v] := hm
    rw [hm]
    obtain ⟨g1, g2, g3⟩ := closeLog_spec W s.log v hok.1 hok.2
    have g4 := closeLog_held W hW s.log v ht.1 (Or.inl hc)
    exact closeLog_held W hW _ .default_ (fun u hu => by rw [g4 u] at hu; cases hu) (Or.inr g3) w

/-! ## How it ends -/

def Exn.IsExit (e : Exn) : Prop := e = .exit ∨ e = .systemExit

theorem openWs_exit (W : World C) (s : St C) (w : Ws) (e : Exn) (he : e.IsExit) (h : (openWs W s w).2 = .error e) : Asked W (openWs W s w).1.log := by
  have hl : (s.lock w).log = s.log ∨ (s.lock w).log = s.log ++ [.locked w] := by
    cases w with
    | default_ => exact Or.inl rfl
    | named k => exact Or.inr rfl
  unfold openWs at h ⊢
  generalize ho : W.obstacle s.log w = o at h
  rcases o with _ | o
  · simp at h
  · cases o <;> simp only [] at h ⊢
    case scriptExit => exact Or.inr (Or.inr ⟨s.log, w, hl, ho⟩)
    case missing => split at h <;> simp at h; subst h; rcases he with he | he <;> cases he
    case inUse => split at h <;> simp at h; subst h; rcases he with he | he <;> cases he
    case properties => split at h <;> simp at h; subst h; rcases he with he | he <;> cases he
    all_goals (simp at h; subst h; rcases he with he | he <;> cases he)

theorem runCommands_exit (W : World C) (w : Ws) (e : Exn) (he : e.IsExit) (cs : List C) : ∀ s : St C, (runCommands W w cs s).2 = .error e →
    Asked W (runCommands W w cs s).1.log := by
  induction cs with
  | nil => intro s h; simp [runCommands] at h
  | cons c cs ih =>
    intro s
    unfold runCommands
    generalize hx : W.exec s.log w c = x
    rcases x with _ | _ | v | _ | _
    · exact ih _
    · exact ih _
    · intro h; simp at h; subst h; rcases he with he | he <;> cases he
    · intro h; exact Or.inr (Or.inl ⟨s.log, w, c, rfl, hx⟩)
    · intro h; simp at h; subst h; rcases he with he | he <;> cases he

theorem runScripts_exit (W : World C) (w : Ws) (e : Exn) (he : e.IsExit) (l : List (Option (List C))) : ∀ s : St C, (runScripts W w l s).2 = .error e →
    Asked W (runScripts W w l s).1.log := by
  induction l with
  | nil => intro s h; simp [runScripts] at h
  | cons o l ih =>
    intro s
    rcases o with _ | cs
    · intro h; simp [runScripts] at h; subst h; rcases he with he | he <;> cases he
    · have h1 := runCommands_exit W w e he cs s
      unfold runScripts
      generalize runCommands W w cs s = q at h1
      obtain ⟨s1, e' | u⟩ := q
      · exact h1
      · exact ih s1

theorem envAndMain_exit (W : World C) (e : Exn) (he : e.IsExit) (d : Nat) : ∀ (s : St C) (w : Ws), Idle s → (envAndMain W d s w).2 = .error e →
    Asked W (envAndMain W d s w).1.log := by
  induction d with
  | zero => intro s w _ h; simp [envAndMain] at h; subst h; rcases he with he | he <;> cases he
  | succ d ih =>
    intro s w hi h
    obtain ⟨h1, h2, _⟩ := openWs_spec W hi w
    have h4 := openWs_exit W s w e he
    unfold envAndMain at h ⊢
    generalize openWs W s w = q at h1 h2 h4 h
    obtain ⟨s1, e' | u⟩ := q
    · have hi' := h2 e' rfl
      cases e' with
      | exception => exact ih _ _ (idle_add hi' _ trivial (by simp) (by simp) (by simp)) h
      | _ => exact h4 (by simpa using h)
    · have hb : Busy s1 w := h1 rfl
      obtain ⟨g1, g2, g3⟩ := runScripts_spec W w (W.scripts (s1.log ++ [.built w]) w) _ (build_busy hb (w :: s1.mains))
      have g4 := runScripts_exit W w e he (W.scripts (s1.log ++ [.built w]) w) ⟨s1.log ++ [.built w], w :: s1.mains⟩
      simp only [] at h ⊢
      generalize runScripts W w (W.scripts (s1.log ++ [.built w]) w) ⟨s1.log ++ [.built w], w :: s1.mains⟩ = r at g1 g2 g3 g4 h
      generalize W.build s1.log w = bb at h ⊢
      rcases bb with _ | _ | _
      · obtain ⟨s2, e' | u⟩ := r
        · cases e' with
          | startupScript v => exact absurd rfl (g3 v)
          | _ => exact g4 (by simpa using h)
        · simp at h
      · obtain ⟨s2, e' | u⟩ := r
        · cases e' with
          | startupScript v => exact absurd rfl (g3 v)
          | _ => exact g4 (by simpa using h)
        · simp at h
      · simp at h; subst h; rcases he with he | he <;> cases he

theorem escape_exit {s : St C} {e : Exn} (h : (escape s e).2 = .ended .exit) : e.IsExit ∧ (escape s e).1 = s := by
  cases e <;> simp [escape] at h <;> simp [Exn.IsExit, escape]

theorem escape_normal {s : St C} {e : Exn} : (escape s e).2 ≠ .ended .normal := by
  cases e <;> simp [escape]

/-- **C96.** marcel ends with `exit` only if it was asked to; and an interactive marcel ends normally only at the end of what is typed. -/
theorem C96_ends (W : World C) (interactive : Bool) (depth n : Nat) :
    ((after W interactive depth n).2 = .ended .exit → Asked W (after W interactive depth n).1.log) ∧
    (interactive = true → (after W interactive depth n).2 = .ended .normal →
      ∃ pre w, (after W interactive depth n).1.log = pre ++ [.ran w] ∧ W.run pre w = .ended) := by
  induction n with
  | zero => exact ⟨fun h => by simp [after] at h, fun _ h => by simp [after] at h⟩
  | succ n ih =>
    have hok := after_ok W interactive depth n
    have hinv : interactive = true → ∀ w cs, (after W interactive depth n).2 ≠ .script w cs := by
      clear ih hok
      intro hint
      subst hint
      induction n with
      | zero => intro w cs; simp [after]
      | succ n ih =>
        intro w cs
        show (step W true depth (after W true depth n)).2 ≠ _
        generalize after W true depth n = x at ih
        obtain ⟨s, p⟩ := x
        cases p with
        | «begin» => simp [step]
        | script v ds => exact absurd rfl (ih v ds)
        | ended e => simp [step]
        | enter v =>
          have esc : ∀ (t : St C) (e : Exn), (escape t e).2 ≠ .script w cs := by intro t e; cases e <;> simp [escape]
          show (stepEnter W depth s v).2 ≠ _
          unfold stepEnter
          generalize envAndMain W depth s v = q
          obtain ⟨s1, e | ⟨u, needs⟩⟩ := q
          · exact esc s1 e
          · cases needs with
            | true => simp
            | false =>
              simp only [Bool.false_eq_true, if_false]
              rcases W.run s1.log u with _ | o | _ | _
              · simp [RunRes.toExcept]
              · cases o <;> simp [RunRes.toExcept]
              · exact esc _ _
              · exact esc _ _
    show ((step W interactive depth (after W interactive depth n)).2 = _ → _) ∧ (_ → (step W interactive depth (after W interactive depth n)).2 = _ → _)
    rw [show after W interactive depth (n + 1) = step W interactive depth (after W interactive depth n) from rfl]
    generalize after W interactive depth n = x at ih hok hinv
    obtain ⟨s, p⟩ := x
    cases p with
    | ended e => exact ih
    | «begin» =>
      cases interactive with
      | true => exact ⟨fun h => by simp [step] at h, fun _ h => by simp [step] at h⟩
      | false =>
        refine ⟨?_, fun h => by cases h⟩
        obtain ⟨k1, k2⟩ := openScript_spec W s .default_ hok.1 hok.2
        have k3 : ∀ e, Exn.IsExit e → (openScript W s .default_).2 = .error e → Asked W (openScript W s .default_).1.log := by
          intro e he h
          have := openWs_exit W s .default_ e he
          unfold openScript at h ⊢
          generalize openWs W s .default_ = q at h this
          obtain ⟨s1, e' | u⟩ := q
          · exact this h
          · simp only [] at h ⊢
            generalize W.build s1.log .default_ = bb at h ⊢
            rcases bb with _ | _ | _
            · simp at h
            · simp at h
            · simp at h; subst h; rcases he with he | he <;> cases he
        show (stepScriptBegin W s).2 = _ → Asked W (stepScriptBegin W s).1.log
        unfold stepScriptBegin
        generalize openScript W s .default_ = q at k1 k2 k3
        obtain ⟨s1, e | u⟩ := q
        · intro h
          obtain ⟨e1, e2⟩ := escape_exit h
          show Asked W (escape s1 e).1.log
          rw [e2]; exact k3 e e1 rfl
        · have g := fun e he => runScripts_exit W .default_ e he (W.scripts s1.log .default_) s1
          simp only []
          generalize runScripts W .default_ (W.scripts s1.log .default_) s1 = r at g
          obtain ⟨s2, e | u⟩ := r
          · intro h
            obtain ⟨e1, e2⟩ := escape_exit h
            show Asked W (escape s2 e).1.log
            rw [e2]; exact g e e1 rfl
          · intro h; simp at h
    | enter w =>
      have g := fun e he => envAndMain_exit W e he depth s w hok.1
      show ((stepEnter W depth s w).2 = _ → Asked W (stepEnter W depth s w).1.log) ∧ (_ → (stepEnter W depth s w).2 = _ → _)
      show _ ∧ (_ → _ → ∃ pre v, (stepEnter W depth s w).1.log = pre ++ [.ran v] ∧ _)
      unfold stepEnter
      generalize envAndMain W depth s w = q at g
      obtain ⟨s1, e | ⟨v, needs⟩⟩ := q
      · refine ⟨fun h => ?_, fun _ h => absurd h escape_normal⟩
        obtain ⟨e1, e2⟩ := escape_exit h
        show Asked W (escape s1 e).1.log
        rw [e2]; exact g e e1 rfl
      · cases needs with
        | true => exact ⟨fun h => by simp at h, fun _ h => by simp at h⟩
        | false =>
          simp only [Bool.false_eq_true, if_false]
          generalize hr : W.run s1.log v = r
          rcases r with _ | o | _ | _
          · exact ⟨fun h => by simp [RunRes.toExcept] at h, fun _ _ => ⟨s1.log, v, rfl, hr⟩⟩
          · cases o <;> exact ⟨fun h => by simp [RunRes.toExcept] at h, fun _ h => by simp [RunRes.toExcept] at h⟩
          · exact ⟨fun _ => Or.inl ⟨s1.log, v, rfl, hr⟩, fun _ h => absurd h escape_normal⟩
          · exact ⟨fun h => by simp [RunRes.toExcept, escape] at h, fun _ h => absurd h escape_normal⟩
    | script w cs =>
      refine ⟨?_, fun hint => absurd rfl (hinv hint w cs)⟩
      show (stepScript W s w cs).2 = _ → Asked W (stepScript W s w cs).1.log
      unfold stepScript
      rcases cs with _ | ⟨c, cs⟩
      · intro h; simp at h
      · simp only []
        generalize hx : W.exec s.log w c = x
        rcases x with _ | _ | v | _ | _
        · intro h; simp at h
        · intro h; simp at h
        · have k3 : ∀ (t : St C) e, Exn.IsExit e → (openScript W t v).2 = .error e → Asked W (openScript W t v).1.log := by
            intro t e he h
            have := openWs_exit W t v e he
            unfold openScript at h ⊢
            generalize openWs W t v = q at h this
            obtain ⟨s1, e' | u⟩ := q
            · exact this h
            · simp only [] at h ⊢
              generalize W.build s1.log v = bb at h ⊢
              rcases bb with _ | _ | _
              · simp at h
              · simp at h
              · simp at h; subst h; rcases he with he | he <;> cases he
          have k3 := k3 (shutdown W (s.add (.cmd w c)) w)
          simp only []
          generalize openScript W (shutdown W (s.add (.cmd w c)) w) v = q at k3
          obtain ⟨s1, e | u⟩ := q
          · intro h
            obtain ⟨e1, e2⟩ := escape_exit h
            show Asked W (escape s1 e).1.log
            rw [e2]; exact k3 e e1 rfl
          · intro h; simp at h
        · intro _; exact Or.inr (Or.inl ⟨s.log, w, c, rfl, hx⟩)
        · intro h; simp [escape] at h

/-! ## Examples -/

/-- Commands: 0 opens the workspace 0, 1 does something. A session ends with the command that opens workspace 0 the first time, and at the end of the input the second time. -/
def exWorld (o : Option Obstacle) : World Nat where
  obstacle _ w := if w = .named 0 then o else none
  build _ _ := .fine
  scripts _ _ := []
  exec _ _ c := if c = 0 then .reconfigure (.named 0) else .fine
  run log _ := if log.length ≤ 3 then .reconfigure (some (.named 0)) else .ended
  closes _ _ := true
  script _ := [1, 0, 1]

example : Smooth (exWorld none) := ⟨fun _ _ => Or.inl (by simp [exWorld]), fun _ _ => rfl⟩

example : (after (exWorld none) true 5 3).2 = .ended .normal ∧
    whole (exWorld none) (after (exWorld none) true 5 3) = [.opened .default_, .built .default_, .started .default_, .ran .default_, .closed .default_ true,
      .locked (.named 0), .opened (.named 0), .built (.named 0), .started (.named 0), .ran (.named 0), .unlocked (.named 0), .closed (.named 0) true,
      .closed .default_ true] := by decide +kernel

example : ∃ s, after (exWorld (some .script)) true 5 2 = (s, .enter (.named 0)) ∧ s.log.length = 5 := ⟨_, rfl, by decide +kernel⟩

/-- **C96, false.** A workspace whose startup script failed stays locked by the process, which goes on in the default workspace, and its marker is not given back when the process ends. -/
theorem C96_false_locked :
    ∃ W : World Nat, (after W true 5 5).2 = .ended .normal ∧ W.obstacle [] .default_ = none ∧ (∀ log w, W.closes log w = true) ∧
      Ev.told (.named 0) ∈ whole W (after W true 5 5) ∧ Ev.opened (.named 0) ∉ whole W (after W true 5 5) ∧
      held (.named 0) (whole W (after W true 5 5)) = true :=
  ⟨exWorld (some .script), by decide +kernel, by decide +kernel, fun _ _ => rfl, by decide +kernel, by decide +kernel, by decide +kernel⟩

end Marcel.Session
