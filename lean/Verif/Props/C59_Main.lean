import Verif.Model.Main
import Verif.Props.C35_FArgs
/-! # C59: commands are executed once, in order. C60: a script read from standard input is executed like one in a file -/

namespace Marcel.Main

/-! ## Specification -/

/-- The commands that were typed, among those executed. -/
def typedOf {C W : Type} : List (Entry C W) → List C
  | [] => []
  | .cmd c :: l => c :: typedOf l
  | _ :: l => typedOf l

/-- The command of an entry. -/
def Entry.command {C W : Type} : Entry C W → Option C
  | .startup _ => none
  | .cmd c => some c
  | .recalled c => some c

/-- At position `i`, command `c` was executed, with result `r`. -/
def Ran {C W : Type} (exec : Exec C W) (log : List (Entry C W)) (i : Nat) (c : C) (r : Option C × Res W) : Prop :=
  (∃ e, log[i]? = some e ∧ e.command = some c) ∧ exec (log.take i) c = r

/-! ## Typed commands -/

theorem typedOf_append {C W : Type} (a b : List (Entry C W)) : typedOf (a ++ b) = typedOf a ++ typedOf b := by
  induction a with
  | nil => rfl
  | cons x a ih => cases x <;> simp [typedOf, ih]

theorem execute_typed {C W : Type} (exec : Exec C W) (s : St C W) (e : Entry C W) (c : C) :
    typedOf (execute exec s e c).log = typedOf s.log ++ typedOf [e] ∧ (execute exec s e c).typed = s.typed := by
  unfold execute
  split
  split <;> simp [restart, typedOf_append]
  cases e <;> simp [typedOf]

/-- **C59**, as long as no modification of the startup script is noticed: the commands executed, without those recalled from the history, and the commands not yet reached, are the commands typed, in
order. -/
theorem C59_order_partial {C W : Type} (exec : Exec C W) (w : W) (typed : List C) (n : Nat) :
    typedOf (session exec (List.replicate n false) (start w typed)).log ++ (session exec (List.replicate n false) (start w typed)).typed = typed := by
  have key : ∀ (n : Nat) (s : St C W), typedOf (session exec (List.replicate n false) s).log ++ (session exec (List.replicate n false) s).typed =
      typedOf s.log ++ s.typed := by
    intro n
    induction n with
    | zero => intro s; rfl
    | succ n ih =>
      intro s
      rw [List.replicate_succ]
      show typedOf (session exec (List.replicate n false) (iter exec s false)).log ++ (session exec (List.replicate n false) (iter exec s false)).typed = _
      rw [ih]
      unfold iter
      split
      · rfl
      · split
        · rename_i c _
          simp only [Bool.false_eq_true, ↓reduceIte]
          obtain ⟨h1, h2⟩ := execute_typed exec { s with next := none } (.recalled c) c
          rw [h1, h2]; simp [typedOf]
        · split
          · rename_i c rest ht
            simp only [Bool.false_eq_true, ↓reduceIte]
            obtain ⟨h1, h2⟩ := execute_typed exec { s with typed := rest } (.cmd c) c
            rw [h1, h2, ht]; simp [typedOf]
          · rfl
  have := key n (start w typed)
  simpa [start, typedOf] using this

/-! ## Recalled commands and startup scripts -/

/-- `i` is the last position. -/
structure Follow {C W : Type} (exec : Exec C W) (s : St C W) : Prop where
  nonempty : s.log ≠ []
  /-- The command to be recalled was determined by the last command. -/
  next : ∀ d, s.next = some d → ∃ c r, Ran exec s.log (s.log.length - 1) c (some d, r) ∧ (r = .fine ∨ r = .interrupt)
  recalled : ∀ i d, s.log[i + 1]? = some (.recalled d) → ∃ c r, Ran exec s.log i c (some d, r) ∧ (r = .fine ∨ r = .interrupt)
  open' : ∀ i c n w, Ran exec s.log i c (n, .open w) → s.log[i + 1]? = some (.startup w)
  /-- Nothing follows a command that ends the session. -/
  last : ∀ i c n r, Ran exec s.log i c (n, r) → r = .crash ∨ r = .exit → i + 1 = s.log.length ∧ s.ended = true
  ended : s.ended = true → (s.typed = [] ∧ s.next = none) ∨ ∃ c n r, Ran exec s.log (s.log.length - 1) c (n, r) ∧ (r = .crash ∨ r = .exit)

theorem ran_old {C W : Type} {exec : Exec C W} {log ext : List (Entry C W)} {i : Nat} {c : C} {r : Option C × Res W} (hi : i < log.length) :
    Ran exec (log ++ ext) i c r ↔ Ran exec log i c r := by
  unfold Ran
  rw [List.getElem?_append_left hi, List.take_append_of_le_length (by omega)]

theorem ran_new {C W : Type} {exec : Exec C W} {log ext : List (Entry C W)} {e : Entry C W} {c : C} {r : Option C × Res W} (he : e.command = some c) :
    Ran exec (log ++ e :: ext) log.length c r ↔ exec log c = r := by
  unfold Ran
  simp [he]

theorem ran_lt {C W : Type} {exec : Exec C W} {log : List (Entry C W)} {i : Nat} {c : C} {r : Option C × Res W} (h : Ran exec log i c r) : i < log.length := by
  obtain ⟨⟨e, he, _⟩, _⟩ := h
  exact (List.getElem?_eq_some_iff.mp he).1

theorem ran_fun {C W : Type} {exec : Exec C W} {log : List (Entry C W)} {i : Nat} {c c' : C} {r r' : Option C × Res W} (h : Ran exec log i c r) (h' : Ran exec log i c' r') :
    c = c' ∧ r = r' := by
  obtain ⟨⟨e, he, hc⟩, hr⟩ := h
  obtain ⟨⟨e', he', hc'⟩, hr'⟩ := h'
  rw [he] at he'
  cases he'
  rw [hc] at hc'
  cases hc'
  exact ⟨rfl, hr.symm.trans hr'⟩

theorem ran_startup {C W : Type} {exec : Exec C W} {log ext : List (Entry C W)} {w : W} {c : C} {r : Option C × Res W} :
    ¬ Ran exec (log ++ .startup w :: ext) log.length c r := by
  intro ⟨⟨e, he, hc⟩, _⟩
  simp at he
  subst he
  cases hc

/-- Adding the startup scripts to the log. -/
theorem follow_restart {C W : Type} {exec : Exec C W} {s : St C W} (f : Follow exec s) (hn : s.ended = false) (w : W)
    (hopen : ∀ c n w', Ran exec s.log (s.log.length - 1) c (n, .open w') → w' = w) (s' : St C W) (hs : s'.log = s.log ++ [.startup w]) (hnx : s'.next = none)
    (he : s'.ended = false) : Follow exec s' := by
  have hpos : 0 < s.log.length := List.length_pos_iff.mpr f.nonempty
  refine ⟨by rw [hs]; simp, by rw [hnx]; simp, ?_, ?_, ?_, by rw [he]; simp⟩
  · intro i d hi
    rw [hs] at hi ⊢
    have hlt : i + 1 < s.log.length := by
      rcases Nat.lt_or_ge (i + 1) s.log.length with h | h
      · exact h
      · rw [List.getElem?_append_right h] at hi
        have := List.mem_of_getElem? hi
        simp at this
    rw [List.getElem?_append_left hlt] at hi
    obtain ⟨c, r, hr, h2⟩ := f.recalled i d hi
    exact ⟨c, r, (ran_old (by omega)).mpr hr, h2⟩
  · intro i c n w' hr
    rw [hs] at hr ⊢
    have hlt := ran_lt hr
    simp at hlt
    rcases Nat.lt_or_ge i s.log.length with h | h
    · have hr' := (ran_old h).mp hr
      rcases Nat.lt_or_ge (i + 1) s.log.length with h1 | h1
      · rw [List.getElem?_append_left h1]; exact f.open' i c n w' hr'
      · have hi : i = s.log.length - 1 := by omega
        subst hi
        rw [hopen c n w' hr']
        rw [List.getElem?_append_right (by omega)]
        have : s.log.length - 1 + 1 - s.log.length = 0 := by omega
        rw [this]; rfl
    · have : i = s.log.length := by omega
      subst this
      exact absurd hr ran_startup
  · intro i c n r hr hcr
    rw [hs] at hr
    have hlt := ran_lt hr
    simp at hlt
    rcases Nat.lt_or_ge i s.log.length with h | h
    · have := (f.last i c n r ((ran_old h).mp hr) hcr).2
      rw [hn] at this; cases this
    · have : i = s.log.length := by omega
      subst this
      exact absurd hr ran_startup

theorem follow_execute {C W : Type} {exec : Exec C W} {s : St C W} (f : Follow exec s) (hn : s.ended = false) (hno : ∀ c n w', ¬ Ran exec s.log (s.log.length - 1) c (n, .open w'))
    (e : Entry C W) (c : C) (he : e.command = some c) (s0 : St C W) (hlog : s0.log = s.log) (hend : s0.ended = false) (hnx : s0.next = none)
    (hrec : ∀ d, e = .recalled d → ∃ c r, Ran exec s.log (s.log.length - 1) c (some d, r) ∧ (r = .fine ∨ r = .interrupt)) : Follow exec (execute exec s0 e c) := by
  have hpos : 0 < s.log.length := List.length_pos_iff.mpr f.nonempty
  rcases hx : exec s0.log c with ⟨n, r⟩
  have hx' : exec s.log c = (n, r) := by rw [← hlog]; exact hx
  -- the properties of the extended log, apart from what follows the new command
  have hrecd : ∀ i d, (s.log ++ [e])[i + 1]? = some (.recalled d) → ∃ c r, Ran exec (s.log ++ [e]) i c (some d, r) ∧ (r = .fine ∨ r = .interrupt) := by
    intro i d hi
    rcases Nat.lt_or_ge (i + 1) s.log.length with h | h
    · rw [List.getElem?_append_left h] at hi
      obtain ⟨c, r, hr, h2⟩ := f.recalled i d hi
      exact ⟨c, r, (ran_old (by omega)).mpr hr, h2⟩
    · have hlt := (List.getElem?_eq_some_iff.mp hi).1
      simp at hlt
      have hi1 : i + 1 = s.log.length := by omega
      rw [hi1] at hi
      simp at hi
      obtain ⟨c', r', h1, h2⟩ := hrec d hi
      have hii : i = s.log.length - 1 := by omega
      subst hii
      exact ⟨c', r', (ran_old (by omega)).mpr h1, h2⟩
  have hopn : ∀ i c' n' w', i < s.log.length → Ran exec (s.log ++ [e]) i c' (n', .open w') → (s.log ++ [e])[i + 1]? = some (.startup w') := by
    intro i c' n' w' hi hr
    have hr' := (ran_old hi).mp hr
    rcases Nat.lt_or_ge (i + 1) s.log.length with h1 | h1
    · rw [List.getElem?_append_left h1]; exact f.open' i c' n' w' hr'
    · have : i = s.log.length - 1 := by omega
      subst this
      exact absurd hr' (hno c' n' w')
  have hlst : ∀ i c' n' r', i < s.log.length → Ran exec (s.log ++ [e]) i c' (n', r') → ¬ (r' = .crash ∨ r' = .exit) := by
    intro i c' n' r' hi hr hcr
    have := (f.last i c' n' r' ((ran_old hi).mp hr) hcr).2
    rw [hn] at this; cases this
  have hnew : ∀ c' r', Ran exec (s.log ++ [e]) s.log.length c' r' → r' = (n, r) := by
    intro c' r' hr
    have h2 : Ran exec (s.log ++ [e]) s.log.length c (n, r) := (ran_new he).mpr hx'
    exact (ran_fun hr h2).2
  have hself : Ran exec (s.log ++ [e]) s.log.length c (n, r) := (ran_new he).mpr hx'
  have hcases : ∀ {i c' r'}, Ran exec (s.log ++ [e]) i c' r' → i < s.log.length ∨ i = s.log.length := by
    intro i c' r' hr
    have := ran_lt hr
    simp at this
    omega
  unfold execute
  rw [hx, hlog]
  cases r with
  | fine =>
    refine ⟨by simp, ?_, hrecd, ?_, ?_, by simp only [hend]; simp⟩
    · intro d hd
      simp only at hd
      exact ⟨c, .fine, by simpa [hd] using hself, .inl rfl⟩
    · intro i c' n' w' hr
      rcases hcases hr with h | h
      · exact hopn i c' n' w' h hr
      · subst h; have := hnew _ _ hr; cases this
    · intro i c' n' r' hr hcr
      rcases hcases hr with h | h
      · exact absurd hcr (hlst i c' n' r' h hr)
      · subst h; have := hnew _ _ hr; cases this; rcases hcr with h | h <;> cases h
  | interrupt =>
    refine ⟨by simp, ?_, hrecd, ?_, ?_, by simp only [hend]; simp⟩
    · intro d hd
      simp only at hd
      exact ⟨c, .interrupt, by simpa [hd] using hself, .inr rfl⟩
    · intro i c' n' w' hr
      rcases hcases hr with h | h
      · exact hopn i c' n' w' h hr
      · subst h; have := hnew _ _ hr; cases this
    · intro i c' n' r' hr hcr
      rcases hcases hr with h | h
      · exact absurd hcr (hlst i c' n' r' h hr)
      · subst h; have := hnew _ _ hr; cases this; rcases hcr with h | h <;> cases h
  | «open» w =>
    simp only [restart]
    refine ⟨by simp, by simp, ?_, ?_, ?_, by simp only [hend]; simp⟩
    · intro i d hi
      simp only at hi ⊢
      rcases Nat.lt_or_ge (i + 1) (s.log ++ [e]).length with h | h
      · rw [List.getElem?_append_left h] at hi
        obtain ⟨c', r', h1, h2⟩ := hrecd i d hi
        exact ⟨c', r', (ran_old (by omega)).mpr h1, h2⟩
      · rw [List.getElem?_append_right h] at hi
        have := List.mem_of_getElem? hi
        simp at this
    · intro i c' n' w' hr
      simp only at hr ⊢
      rcases Nat.lt_or_ge i (s.log ++ [e]).length with h | h
      · have hr' := (ran_old h).mp hr
        rcases hcases hr' with h1 | h1
        · rw [List.getElem?_append_left (by simp; omega)]
          exact hopn i c' n' w' h1 hr'
        · subst h1
          have := hnew _ _ hr'
          cases this
          simp
      · have hlt := ran_lt hr
        simp at h hlt
        have : i = (s.log ++ [e]).length := by simp; omega
        subst this
        exact absurd hr ran_startup
    · intro i c' n' r' hr hcr
      simp only at hr
      rcases Nat.lt_or_ge i (s.log ++ [e]).length with h | h
      · have hr' := (ran_old h).mp hr
        rcases hcases hr' with h1 | h1
        · exact absurd hcr (hlst i c' n' r' h1 hr')
        · subst h1
          have := hnew _ _ hr'
          cases this
          rcases hcr with h | h <;> cases h
      · have hlt := ran_lt hr
        simp at h hlt
        have : i = (s.log ++ [e]).length := by simp; omega
        subst this
        exact absurd hr ran_startup
  | crash =>
    refine ⟨by simp, ?_, hrecd, ?_, ?_, ?_⟩
    · simp only [hnx]; simp
    · intro i c' n' w' hr
      rcases hcases hr with h | h
      · exact hopn i c' n' w' h hr
      · subst h; have := hnew _ _ hr; cases this
    · intro i c' n' r' hr hcr
      rcases hcases hr with h | h
      · exact absurd hcr (hlst i c' n' r' h hr)
      · exact ⟨by simp [h], rfl⟩
    · intro _
      exact .inr ⟨c, n, .crash, by simpa using hself, .inl rfl⟩
  | exit =>
    refine ⟨by simp, ?_, hrecd, ?_, ?_, ?_⟩
    · simp only [hnx]; simp
    · intro i c' n' w' hr
      rcases hcases hr with h | h
      · exact hopn i c' n' w' h hr
      · subst h; have := hnew _ _ hr; cases this
    · intro i c' n' r' hr hcr
      rcases hcases hr with h | h
      · exact absurd hcr (hlst i c' n' r' h hr)
      · exact ⟨by simp [h], rfl⟩
    · intro _
      exact .inr ⟨c, n, .exit, by simpa using hself, .inr rfl⟩

theorem follow_iter {C W : Type} {exec : Exec C W} {s : St C W} (f : Follow exec s) (hno : ∀ c n w', ¬ Ran exec s.log (s.log.length - 1) c (n, .open w')) (b : Bool) :
    Follow exec (iter exec s b) ∧ ∀ c n w', ¬ Ran exec (iter exec s b).log ((iter exec s b).log.length - 1) c (n, .open w') := by
  have hpos : 0 < s.log.length := List.length_pos_iff.mpr f.nonempty
  have hlast : ∀ (s0 : St C W) (e : Entry C W) (c : C), e.command = some c → s0.log = s.log → ∀ c' n w',
      ¬ Ran exec (execute exec s0 e c).log ((execute exec s0 e c).log.length - 1) c' (n, .open w') := by
    intro s0 e c he hl c' n w' hr
    rcases hx : exec s0.log c with ⟨n0, r⟩
    unfold execute at hr
    rw [hx] at hr
    have hone : ∀ r0, exec s0.log c = (n0, r0) → (∀ w', r0 ≠ .open w') → Ran exec (s0.log ++ [e]) ((s0.log ++ [e]).length - 1) c' (n, .open w') → False := by
      intro r0 h0 hne hr
      have hself : Ran exec (s0.log ++ [e]) s0.log.length c (n0, r0) := (ran_new he).mpr h0
      have hl1 : (s0.log ++ [e]).length - 1 = s0.log.length := by simp
      rw [hl1] at hr
      have := (ran_fun hr hself).2
      cases this
      exact hne w' rfl
    cases r with
    | fine => exact hone _ hx (by simp) hr
    | interrupt => exact hone _ hx (by simp) hr
    | crash => exact hone _ hx (by simp) hr
    | exit => exact hone _ hx (by simp) hr
    | «open» w =>
      simp only [restart] at hr
      have hl1 : ((s0.log ++ [e]) ++ [Entry.startup w]).length - 1 = (s0.log ++ [e]).length := by simp
      rw [hl1] at hr
      exact ran_startup hr
  have hrs : ∀ (s0 : St C W), s0.log = s.log → ∀ c' n w', ¬ Ran exec (restart s0 s.ws).log ((restart s0 s.ws).log.length - 1) c' (n, .open w') := by
    intro s0 hl c' n w' hr
    simp only [restart] at hr
    have hl1 : (s0.log ++ [Entry.startup s.ws]).length - 1 = s0.log.length := by simp
    rw [hl1] at hr
    exact ran_startup hr
  unfold iter
  by_cases hend : s.ended
  · rw [if_pos hend]; exact ⟨f, hno⟩
  · rw [if_neg hend]
    have hend : s.ended = false := by simpa using hend
    cases hnx : s.next with
    | some c =>
      simp only
      cases b with
      | true =>
        rw [if_pos rfl]
        exact ⟨follow_restart f hend s.ws (fun c n w' h => absurd h (hno c n w')) _ rfl rfl hend, hrs _ rfl⟩
      | false =>
        rw [if_neg (by simp)]
        refine ⟨follow_execute f hend hno (.recalled c) c rfl _ rfl hend rfl ?_, hlast _ _ _ rfl rfl⟩
        intro d hd
        cases hd
        exact f.next c hnx
    | none =>
      simp only
      cases ht : s.typed with
      | nil =>
        simp only
        refine ⟨⟨f.nonempty, by simp, f.recalled, f.open', ?_, fun _ => .inl ⟨rfl, rfl⟩⟩, hno⟩
        intro i c n r hr hcr
        exact ⟨(f.last i c n r hr hcr).1, rfl⟩
      | cons c rest =>
        simp only
        cases b with
        | true =>
          rw [if_pos rfl]
          exact ⟨follow_restart f hend s.ws (fun c n w' h => absurd h (hno c n w')) _ rfl rfl hend, hrs _ rfl⟩
        | false =>
          rw [if_neg (by simp)]
          refine ⟨follow_execute f hend hno (.cmd c) c rfl _ rfl hend rfl ?_, hlast _ _ _ rfl rfl⟩
          intro d hd
          cases hd

theorem follow_session {C W : Type} (exec : Exec C W) (w : W) (typed : List C) (changes : List Bool) : Follow exec (session exec changes (start w typed)) := by
  have key : ∀ (changes : List Bool) (s : St C W), Follow exec s → (∀ c n w', ¬ Ran exec s.log (s.log.length - 1) c (n, .open w')) →
      Follow exec (session exec changes s) := by
    intro changes
    induction changes with
    | nil => intro s f _; exact f
    | cons b changes ih =>
      intro s f h
      exact ih (iter exec s b) (follow_iter f h b).1 (follow_iter f h b).2
  have hr : ∀ i c r, ¬ Ran exec (start (C := C) w typed).log i c r := by
    intro i c r h
    have := ran_lt h
    simp [start] at this
    subst this
    exact absurd h (ran_startup (log := []) (ext := []))
  refine key changes _ ⟨by simp [start], by simp [start], ?_, ?_, ?_, by simp [start]⟩ (fun c n w' h => hr _ _ _ h)
  · intro i d hi
    simp [start] at hi
  · intro i c n w' h; exact absurd h (hr _ _ _)
  · intro i c n r h; exact absurd h (hr _ _ _)

/-- A command is executed as recalled only immediately after a command that recalled it. -/
theorem C59_recalled {C W : Type} (exec : Exec C W) (w : W) (typed : List C) (changes : List Bool) (i : Nat) (d : C)
    (h : (session exec changes (start w typed)).log[i + 1]? = some (.recalled d)) :
    ∃ c r, Ran exec (session exec changes (start w typed)).log i c (some d, r) :=
  let ⟨c, r, hr, _⟩ := (follow_session exec w typed changes).recalled i d h
  ⟨c, r, hr⟩

/-- After a command that opens another workspace, the startup scripts of that workspace are run. -/
theorem C59_startup {C W : Type} (exec : Exec C W) (w : W) (typed : List C) (changes : List Bool) (i : Nat) (c : C) (n : Option C) (w' : W)
    (h : Ran exec (session exec changes (start w typed)).log i c (n, .open w')) : (session exec changes (start w typed)).log[i + 1]? = some (.startup w') :=
  (follow_session exec w typed changes).open' i c n w' h

/-- The session ends only when there is nothing more to execute, or by a command that ends it; and nothing is executed after that. -/
theorem C59_end {C W : Type} (exec : Exec C W) (w : W) (typed : List C) (changes : List Bool) :
    ((session exec changes (start w typed)).ended = true → ((session exec changes (start w typed)).typed = [] ∧ (session exec changes (start w typed)).next = none) ∨
      ∃ c n r, Ran exec (session exec changes (start w typed)).log ((session exec changes (start w typed)).log.length - 1) c (n, r) ∧ (r = .crash ∨ r = .exit)) ∧
    ∀ i c n r, Ran exec (session exec changes (start w typed)).log i c (n, r) → r = .crash ∨ r = .exit → i + 1 = (session exec changes (start w typed)).log.length :=
  ⟨(follow_session exec w typed changes).ended, fun i c n r h hr => ((follow_session exec w typed changes).last i c n r h hr).1⟩

/-- What a command recalls is executed next, if no modification of the startup script is noticed. -/
theorem C59_next {C W : Type} (exec : Exec C W) (s : St C W) (he : s.ended = false) (e : Entry C W) (c d : C) (r : Res W) (hr : r = .fine ∨ r = .interrupt)
    (hx : exec s.log c = (some d, r)) : (iter exec (execute exec s e c) false).log[s.log.length + 1]? = some (.recalled d) := by
  have h1 : execute exec s e c = { s with log := s.log ++ [e], next := some d } := by
    unfold execute
    rw [hx]
    rcases hr with rfl | rfl <;> rfl
  have hpre : ∀ (s0 : St C W) (e0 : Entry C W) (c0 : C), ∃ ext, (execute exec s0 e0 c0).log = s0.log ++ e0 :: ext := by
    intro s0 e0 c0
    unfold execute
    split
    split
    · exact ⟨[], rfl⟩
    · exact ⟨[], rfl⟩
    · rename_i w0 _; exact ⟨[.startup w0], by simp only [restart, List.append_assoc, List.cons_append, List.nil_append]⟩
    · exact ⟨[], rfl⟩
    · exact ⟨[], rfl⟩
  rw [h1]
  have h2 : iter exec { s with log := s.log ++ [e], next := some d } false = execute exec { s with log := s.log ++ [e], next := none } (.recalled d) d := by
    simp only [iter, he]
    rfl
  rw [h2]
  obtain ⟨ext, hext⟩ := hpre { s with log := s.log ++ [e], next := none } (.recalled d) d
  rw [hext]
  simp

/-- **C59 is false** when the startup script has been modified: the command typed then is not executed, neither before nor after the restart. -/
theorem C59_false_modified {C W : Type} (exec : Exec C W) (w : W) (c : C) (changes : List Bool) :
    ∀ e ∈ (session exec (true :: changes) (start w [c])).log, e = .startup w := by
  have h0 : session exec (true :: changes) (start w [c]) = session exec changes ⟨[], none, w, [.startup w, .startup w], false⟩ := rfl
  rw [h0]
  have key : ∀ (changes : List Bool) (s : St C W), s.typed = [] → s.next = none → session exec changes s = s ∨ session exec changes s = { s with ended := true } := by
    intro changes
    induction changes with
    | nil => intro s _ _; exact .inl rfl
    | cons b changes ih =>
      intro s ht hn
      have hi : iter exec s b = s ∨ iter exec s b = { s with ended := true } := by
        unfold iter
        split
        · exact .inl rfl
        · rw [hn]; simp only; rw [ht]; exact .inr rfl
      show session exec changes (iter exec s b) = s ∨ session exec changes (iter exec s b) = { s with ended := true }
      rcases hi with hi | hi
      · rw [hi]; exact ih s ht hn
      · rw [hi]
        rcases ih { s with ended := true } ht hn with h | h <;> rw [h] <;> exact .inr rfl
  rcases key changes ⟨[], none, w, [.startup w, .startup w], false⟩ rfl rfl with h | h <;> rw [h] <;> simp

/-! ## Scripts -/

theorem scriptLoop_spec {C W : Type} (exec : Exec C W) (cs : List C) (log : List (Entry C W)) :
    ∃ k, scriptLoop exec cs log = log ++ (cs.take k).map .cmd ∧ (k = cs.length ∨ ∃ c, cs[k - 1]? = some c ∧ 0 < k ∧ k ≤ cs.length ∧
      ((exec (log ++ (cs.take (k - 1)).map .cmd) c).2 = .crash ∨ (exec (log ++ (cs.take (k - 1)).map .cmd) c).2 = .exit ∨
        (exec (log ++ (cs.take (k - 1)).map .cmd) c).2 = .interrupt)) := by
  induction cs generalizing log with
  | nil => exact ⟨0, by simp [scriptLoop], .inl rfl⟩
  | cons c cs ih =>
    have hgo : scriptLoop exec (c :: cs) log = scriptLoop exec cs (log ++ [.cmd c]) → ∃ k, scriptLoop exec (c :: cs) log = log ++ ((c :: cs).take k).map .cmd ∧
        (k = (c :: cs).length ∨ ∃ c', (c :: cs)[k - 1]? = some c' ∧ 0 < k ∧ k ≤ (c :: cs).length ∧ ((exec (log ++ ((c :: cs).take (k - 1)).map .cmd) c').2 = .crash ∨
          (exec (log ++ ((c :: cs).take (k - 1)).map .cmd) c').2 = .exit ∨ (exec (log ++ ((c :: cs).take (k - 1)).map .cmd) c').2 = .interrupt)) := by
      intro h
      obtain ⟨k, h1, h2⟩ := ih (log ++ [.cmd c])
      refine ⟨k + 1, by rw [h, h1]; simp, ?_⟩
      rcases h2 with h2 | ⟨c', h2, h3, h4, h5⟩
      · exact .inl (by simp [h2])
      · right
        obtain ⟨k, rfl⟩ : ∃ j, k = j + 1 := ⟨k - 1, by omega⟩
        refine ⟨c', by simpa using h2, by omega, by simp; omega, ?_⟩
        simpa [List.append_assoc] using h5
    cases hr : (exec log c).2 with
    | fine => exact hgo (by simp [scriptLoop, hr])
    | «open» w => exact hgo (by simp [scriptLoop, hr])
    | interrupt => exact ⟨1, by simp [scriptLoop, hr], .inr ⟨c, rfl, by omega, by simp, .inr (.inr (by simpa using hr))⟩⟩
    | crash => exact ⟨1, by simp [scriptLoop, hr], .inr ⟨c, rfl, by omega, by simp, .inl (by simpa using hr)⟩⟩
    | exit => exact ⟨1, by simp [scriptLoop, hr], .inr ⟨c, rfl, by omega, by simp, .inr (.inl (by simpa using hr))⟩⟩

/-- **C59** for scripts: the commands of the script are executed once, in order, up to the first one, if any, that ends with `exit`, ctrl-C, or an exception that marcel does not expect. -/
theorem C59_script {C W : Type} (exec : Exec C W) (w : W) (cs : List C) : ∃ k, script exec w cs = .startup w :: (cs.take k).map .cmd ∧
    (k = cs.length ∨ ∃ c r, cs[k - 1]? = some c ∧ 0 < k ∧ (exec (.startup w :: (cs.take (k - 1)).map .cmd) c).2 = r ∧ (r = .crash ∨ r = .exit ∨ r = .interrupt)) := by
  obtain ⟨k, h1, h2⟩ := scriptLoop_spec exec cs [.startup w]
  refine ⟨k, h1, ?_⟩
  rcases h2 with h2 | ⟨c, h3, h4, _, h5⟩
  · exact .inl h2
  · exact .inr ⟨c, _, h3, h4, rfl, h5⟩

/-- **C59 is false** of scripts in that the startup scripts of a workspace opened by a command of the script are not run. -/
theorem C59_false_script {C W : Type} (exec : Exec C W) (w : W) (cs : List C) (w' : W) : Entry.startup w' ∉ (script exec w cs).tail := by
  obtain ⟨k, h1, _⟩ := C59_script exec w cs
  rw [h1]
  intro h
  simp only [List.tail_cons, List.mem_map] at h
  obtain ⟨_, _, h⟩ := h
  cases h

/-! ## C60: standard input -/

theorem strip_eq (l : Str) (h1 : ∀ c, l.head? = some c → isspace c = false) (h2 : ∀ c, l.getLast? = some c → isspace c = false) : strip l = l := by
  have key : ∀ l : Str, (∀ c, l.head? = some c → isspace c = false) → l.dropWhile isspace = l := by
    intro l h
    cases l with
    | nil => rfl
    | cons c l => rw [List.dropWhile_cons_of_neg]; simp [h c rfl]
  unfold strip
  rw [key l h1, key l.reverse (by simpa using h2), List.reverse_reverse]

theorem strip_blank (l : Str) (h : ∀ c ∈ l, isspace c = true) : strip l = [] := by
  have : l.dropWhile isspace = [] := by
    induction l with
    | nil => rfl
    | cons c l ih => rw [List.dropWhile_cons_of_pos (h c (by simp))]; exact ih fun d hd => h d (by simp [hd])
  unfold strip
  rw [this]; rfl

/-- A line that is not blank, and neither starts nor ends with white space. -/
def Trim (l : Str) : Prop := l ≠ [] ∧ (∀ c, l.head? = some c → isspace c = false) ∧ (∀ c, l.getLast? = some c → isspace c = false)

theorem heredocLines_trim (ls blank : List Str) (h : ∀ l ∈ ls, Trim l) (hb : ∀ l ∈ blank, ∀ c ∈ l, isspace c = true) : heredocLines (ls ++ blank) = ls := by
  induction ls with
  | nil =>
    cases blank with
    | nil => rfl
    | cons b bs => simp [heredocLines, strip_blank b (hb b (by simp))]
  | cons l ls ih =>
    obtain ⟨h1, h2, h3⟩ := h l (by simp)
    simp only [List.cons_append, heredocLines, strip_eq l h2 h3]
    rw [if_neg (by simpa using h1), ih fun x hx => h x (by simp [hx])]

/-- **C60**, for scripts whose lines neither start nor end with white space and are not blank, except at the end: the commands are the same as those of a script in a file. -/
theorem C60_partial (text : Str) (ls blank : List Str) (ht : IsLines text (ls ++ blank)) (h : ∀ l ∈ ls, Trim l) (hb : ∀ l ∈ blank, ∀ c ∈ l, isspace c = true) :
    commandsInScript (heredoc text) = commandsInScript text := by
  have hs : splitLines [] text = ls ++ blank := (isLines_unique text _ ht).symm
  have hnb : ∀ l ∈ blank, ¬ NonBlank l := by
    intro l hl ⟨c, hc, hcs⟩
    rw [hb l hl c hc] at hcs
    cases hcs
  have hf : (ls ++ blank).filter (fun l => NonBlank l) = ls.filter (fun l => NonBlank l) := by
    rw [List.filter_append]
    have : blank.filter (fun l => decide (NonBlank l)) = [] := by
      rw [List.filter_eq_nil_iff]
      intro l hl
      simpa using hnb l hl
    rw [this, List.append_nil]
  have h1 := C36_commands text _ ht
  rw [hf] at h1
  have hd : heredoc text = List.intercalate ['\n'] ls := by unfold heredoc; rw [hs, heredocLines_trim ls blank h hb]
  rw [hd]
  cases ls with
  | nil =>
    have : commandsInScript (List.intercalate ['\n'] ([] : List Str)) = [] := rfl
    rw [this]
    exact (Grouped.unique h1 (by simpa using Grouped.done)).symm
  | cons l ls =>
    have hl2 : IsLines (List.intercalate ['\n'] (l :: ls)) (l :: ls) := ⟨by simp, fun x hx => ht.2.1 x (by simp at hx ⊢; rcases hx with hx | hx <;> simp [hx]), rfl⟩
    exact Grouped.unique (C36_commands _ _ hl2) h1

/-- `l` is `core` with white space around it. -/
def Padded (l core : Str) : Prop := Trim core ∧ ∃ pre post, (∀ c ∈ pre, isspace c = true) ∧ (∀ c ∈ post, isspace c = true) ∧ l = pre ++ core ++ post

theorem strip_padded {l core : Str} (h : Padded l core) : strip l = core := by
  obtain ⟨⟨hne, h1, h2⟩, pre, post, hpre, hpost, rfl⟩ := h
  have drop : ∀ (p t : Str), (∀ c ∈ p, isspace c = true) → (p ++ t).dropWhile isspace = t.dropWhile isspace := by
    intro p t hp
    induction p with
    | nil => rfl
    | cons c p ih => rw [List.cons_append, List.dropWhile_cons_of_pos (hp c (by simp))]; exact ih fun d hd => hp d (by simp [hd])
  have keep : ∀ (t : Str), (∀ c, t.head? = some c → isspace c = false) → t.dropWhile isspace = t := by
    intro t ht
    cases t with
    | nil => rfl
    | cons c t => rw [List.dropWhile_cons_of_neg]; simp [ht c rfl]
  unfold strip
  rw [List.append_assoc, drop pre _ hpre, keep (core ++ post), List.reverse_append, drop _ _ (by simpa using hpost), keep _ (by simpa using h2), List.reverse_reverse]
  intro c hc
  cases core with
  | nil => exact absurd rfl hne
  | cons d t => exact h1 c (by simpa using hc)

/-- What is executed, in general: the lines up to the first blank one, without the white space around them. -/
theorem C60_text (text : Str) (ls : List (Str × Str)) (rest : List Str) (ht : IsLines text (ls.map Prod.fst ++ rest)) (h : ∀ l ∈ ls, Padded l.1 l.2)
    (hr : rest = [] ∨ ∃ b r, rest = b :: r ∧ ∀ c ∈ b, isspace c = true) : heredoc text = List.intercalate ['\n'] (ls.map Prod.snd) := by
  have hs : splitLines [] text = ls.map Prod.fst ++ rest := (isLines_unique text _ ht).symm
  have key : heredocLines (ls.map Prod.fst ++ rest) = ls.map Prod.snd := by
    clear ht hs
    induction ls with
    | nil =>
      rcases hr with rfl | ⟨b, r, rfl, hb⟩
      · rfl
      · simp [heredocLines, strip_blank b hb]
    | cons l ls ih =>
      simp only [List.map_cons, List.cons_append, heredocLines, strip_padded (h l (by simp))]
      rw [if_neg (by simpa using (h l (by simp)).1.1), ih fun x hx => h x (by simp [hx])]
  unfold heredoc
  rw [hs, key]

/-- **C60 is false**: what follows a blank line is ignored. -/
theorem C60_false_blank (a b : Str) (ha : '\n' ∉ a) (ht : Trim a) : heredoc (a ++ '\n' :: '\n' :: b) = a := by
  have hsl : ∀ (cur x y : Str), '\n' ∉ x → splitLines cur (x ++ '\n' :: y) = (cur ++ x) :: splitLines [] y := by
    intro cur x
    induction x generalizing cur with
    | nil => intro y _; simp [splitLines]
    | cons c x ih =>
      intro y hx
      simp at hx
      simp only [List.cons_append, splitLines]
      rw [if_neg (fun e => hx.1 e.symm), ih (cur ++ [c]) y hx.2]
      simp
  unfold heredoc
  rw [hsl [] a _ ha]
  have h2 : splitLines [] ('\n' :: b) = [] :: splitLines [] b := rfl
  rw [h2]
  obtain ⟨h1, h2, h3⟩ := ht
  simp only [List.nil_append, heredocLines, strip_eq a h2 h3]
  rw [if_neg (by simpa using h1)]
  simp [strip]

/-- The source is determined by stdin first: with a pipe, a script named on the command line is not executed. -/
theorem C60_source (argc : Nat) : source true argc = .heredoc ∧ (source false argc = .interactive ↔ argc = 1) ∧ (source false argc = .script ↔ argc ≠ 1) := by
  unfold source
  by_cases h : argc = 1 <;> simp [h]

/-! ## The hypotheses can be met -/

/-- Command 7 recalls command 1; command 8 opens workspace 5, command 9 fails unexpectedly. -/
def exExec : Exec Nat Nat := fun _ c => if c = 7 then (some 1, .fine) else if c = 8 then (none, .open 5) else if c = 9 then (none, .crash) else (none, .fine)

example : (session exExec (List.replicate 6 false) (start 0 [2, 7, 8, 3])).log = [.startup 0, .cmd 2, .cmd 7, .recalled 1, .cmd 8, .startup 5, .cmd 3] := by decide +kernel

example : (session exExec [false, true, false] (start 0 [2, 7, 8, 3])).log = [.startup 0, .cmd 2, .startup 0, .cmd 8, .startup 5] := by decide +kernel

example : script exExec 0 [2, 8, 9, 3] = [.startup 0, .cmd 2, .cmd 8, .cmd 9] := by decide +kernel

example : Trim "ls -l".toList := by
  have h : isspace 'l' = false := by unfold isspace; decide
  refine ⟨by simp, ?_, ?_⟩ <;> intro c hc <;> simp at hc <;> subst hc <;> exact h

end Marcel.Main
