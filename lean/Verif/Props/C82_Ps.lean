import Verif.Model.Ps
/-! # C82: ps shows the processes that are asked for -/

namespace Marcel.Ps

/-! ## Specification -/

/-- The flags: at most one of them is given (argsparser: C37). -/
inductive Selection
  | everything
  | mine
  | user (t : Text)
  | myGroup
  | group (t : Text)
  | pid (t : Text)
  | command (t : Text)

/-- The attributes of the operator for each of them: `None` for flags that are not given, `True` for flags without value. -/
def Selection.args : Selection → Args
  | .everything => ⟨.none, .none, .none, .none⟩
  | .mine => ⟨.true, .none, .none, .none⟩
  | .user t => ⟨.text t, .none, .none, .none⟩
  | .myGroup => ⟨.none, .true, .none, .none⟩
  | .group t => ⟨.none, .text t, .none, .none⟩
  | .pid t => ⟨.none, .none, .text t, .none⟩
  | .command t => ⟨.none, .none, .none, .text t⟩

/-- `t` names the user or group with the number `i`: it is the name of it (the first, if there are several), or it is not the name of any
and is that number. -/
def Names (s : Sys) (db : List (Text × Int)) (t : Text) (i : Int) : Prop :=
  (∃ before after, db = before ++ (t, i) :: after ∧ ∀ e ∈ before, e.1 ≠ t) ∨ ((∀ e ∈ db, e.1 ≠ t) ∧ s.int t = some i)

/-- A part of a text. -/
def Within (sub t : Text) : Prop := ∃ a b, t = a ++ sub ++ b

/-- The processes that are asked for. -/
def Wanted (s : Sys) : Selection → Proc → Prop
  | .everything, _ => True
  | .mine, p => ∃ l, p.uids = some l ∧ s.myUid ∈ l
  | .user t, p => ∃ l i, p.uids = some l ∧ Names s s.users t i ∧ i ∈ l
  | .myGroup, p => ∃ l, p.gids = some l ∧ s.myGid ∈ l
  | .group t, p => ∃ l i, p.gids = some l ∧ Names s s.groups t i ∧ i ∈ l
  | .pid t, p => s.int t = some p.pid
  | .command t, p => (∃ x, p.name = some x ∧ Within t x) ∨ (∃ x, p.exe = some x ∧ Within t x) ∨
      (∃ l x, p.cmdline = some l ∧ x ∈ l ∧ Within t x)

/-- The selection makes sense: the user, group or number exists. An empty string is none. -/
def Sensible (s : Sys) : Selection → Prop
  | .user t => ∃ i, Names s s.users t i
  | .group t => ∃ i, Names s s.groups t i
  | .pid t => t ≠ [] ∧ ∃ i, s.int t = some i
  | .command t => t ≠ []
  | _ => True

/-- psutil knows users and groups of all processes. -/
def Known (p : Proc) : Prop := (∃ l, p.uids = some l) ∧ ∃ l, p.gids = some l

/-! ## Proofs -/

theorem lookup_some (db : List (Text × Int)) (t : Text) (i : Int) :
    lookup db t = some i ↔ ∃ before after, db = before ++ (t, i) :: after ∧ ∀ e ∈ before, e.1 ≠ t := by
  induction db with
  | nil => simp [lookup]
  | cons e db ih =>
    obtain ⟨n, j⟩ := e
    unfold lookup
    by_cases h : n = t
    · rw [if_pos h]
      constructor
      · intro he; cases he
        exact ⟨[], db, by rw [h]; rfl, fun e he => (by cases he)⟩
      · rintro ⟨before, after, he, hb⟩
        cases before with
        | nil => cases he; rfl
        | cons b before =>
          cases he
          exact absurd h (hb (n, j) (List.mem_cons_self ..))
    · rw [if_neg h, ih]
      constructor
      · rintro ⟨before, after, he, hb⟩
        refine ⟨(n, j) :: before, after, by rw [he]; rfl, ?_⟩
        intro e hm
        rcases List.mem_cons.mp hm with rfl | hm
        · exact h
        · exact hb e hm
      · rintro ⟨before, after, he, hb⟩
        cases before with
        | nil => cases he; exact absurd rfl h
        | cons b before =>
          cases he
          exact ⟨before, after, rfl, fun e hm => hb e (List.mem_cons_of_mem _ hm)⟩

theorem lookup_none (db : List (Text × Int)) (t : Text) : lookup db t = .none ↔ ∀ e ∈ db, e.1 ≠ t := by
  induction db with
  | nil => simp [lookup]
  | cons e db ih =>
    obtain ⟨n, j⟩ := e
    unfold lookup
    by_cases h : n = t
    · rw [if_pos h]; simp [h]
    · rw [if_neg h, ih]; simp [h]

theorem convert_iff (s : Sys) (db : List (Text × Int)) (t : Text) (i : Int) :
    convertToId s db (.text t) = .ok i ↔ Names s db t i := by
  unfold convertToId Names
  cases hl : lookup db t with
  | some j =>
    simp only
    rw [← lookup_some, hl]
    constructor
    · intro h; cases h; exact Or.inl rfl
    · rintro (h | ⟨h, _⟩)
      · cases h; rfl
      · rw [← lookup_none, hl] at h; cases h
  | none =>
    simp only
    rw [← lookup_some, hl, ← lookup_none, hl]
    cases s.int t with
    | none => simp
    | some j => simp

theorem Names.unique {s : Sys} {db : List (Text × Int)} {t : Text} {i j : Int} (h1 : Names s db t i) (h2 : Names s db t j) : i = j := by
  rw [← convert_iff] at h1 h2
  rw [h1] at h2
  cases h2
  rfl

theorem convert_error (s : Sys) (db : List (Text × Int)) (t : Text) (h : ¬ ∃ i, Names s db t i) :
    convertToId s db (.text t) = .error .kill := by
  cases hc : convertToId s db (.text t) with
  | ok i => exact absurd ⟨i, (convert_iff s db t i).mp hc⟩ h
  | error e =>
    unfold convertToId at hc
    simp only at hc
    split at hc
    · cases hc
    · split at hc
      · cases hc
      · exact hc.symm

theorem isIn_iff (sub t : Text) : isIn sub t = true ↔ Within sub t := by
  induction t with
  | nil =>
    unfold isIn Within
    rw [List.isEmpty_iff]
    constructor
    · rintro rfl; exact ⟨[], [], rfl⟩
    · rintro ⟨a, b, h⟩
      have := h.symm
      simp only [List.append_eq_nil_iff] at this
      exact this.1.2
  | cons c t ih =>
    unfold isIn
    rw [Bool.or_eq_true, ih, List.isPrefixOf_iff_prefix]
    constructor
    · rintro (⟨b, h⟩ | ⟨a, b, h⟩)
      · exact ⟨[], b, h.symm⟩
      · exact ⟨c :: a, b, by rw [h]; rfl⟩
    · rintro ⟨a, b, h⟩
      cases a with
      | nil => exact Or.inl ⟨b, h.symm⟩
      | cons x a => cases h; exact Or.inr ⟨a, b, rfl⟩

theorem loop_spec (f : Filter) (ps : List Proc) (P : Proc → Prop) (h : ∀ p ∈ ps, ∃ b, f.test p = some b ∧ (b = true ↔ P p)) :
    ∃ out, loop f ps = (out, .none) ∧ out.Sublist ps ∧ ∀ p ∈ ps, p ∈ out ↔ P p := by
  induction ps with
  | nil => exact ⟨[], rfl, List.Sublist.refl _, fun p hp => (by cases hp)⟩
  | cons p ps ih =>
    obtain ⟨out, h1, h2, h3⟩ := ih (fun q hq => h q (List.mem_cons_of_mem _ hq))
    obtain ⟨b, hb, hP⟩ := h p (List.mem_cons_self ..)
    unfold loop
    rw [hb]
    cases b with
    | true =>
      simp only [h1]
      refine ⟨p :: out, rfl, h2.cons_cons p, ?_⟩
      intro q hq
      by_cases hqp : q = p
      · subst hqp
        exact ⟨fun _ => hP.mp rfl, fun _ => List.mem_cons_self ..⟩
      · rcases List.mem_cons.mp hq with rfl | hq
        · exact absurd rfl hqp
        · rw [List.mem_cons, h3 q hq]
          simp [hqp]
    | false =>
      simp only [h1]
      refine ⟨out, rfl, h2.cons p, ?_⟩
      intro q hq
      rcases List.mem_cons.mp hq with rfl | hq
      · constructor
        · intro ho
          have hmem := h2.subset ho
          exact (h3 q hmem).mp ho
        · intro hw; exact absurd (hP.mpr hw) (by simp)
      · exact h3 q hq

/-- The filter of each selection. -/
theorem setup_filter (s : Sys) (sel : Selection) (hs : Sensible s sel) : ∃ f a, setup s sel.args = .ok (f, a) ∧
    ∀ p, Known p → ∃ b, f.test p = some b ∧ (b = true ↔ Wanted s sel p) := by
  cases sel with
  | everything => exact ⟨.all, _, rfl, fun p _ => ⟨true, rfl, by simp [Wanted]⟩⟩
  | mine =>
    refine ⟨.user s.myUid, _, rfl, fun p hp => ?_⟩
    obtain ⟨⟨l, hl⟩, _⟩ := hp
    exact ⟨l.contains s.myUid, by simp [Filter.test, hl], by simp [Wanted, hl]⟩
  | user t =>
    obtain ⟨i, hi⟩ := hs
    have hc := (convert_iff s s.users t i).mpr hi
    refine ⟨.user i, ⟨.num i, .none, .none, .none⟩, ?_, fun p hp => ?_⟩
    · simp [setup, Selection.args, setupUser, setupGroup, setupPid, setupCommand, truthy, hc]
    · obtain ⟨⟨l, hl⟩, _⟩ := hp
      refine ⟨l.contains i, by simp [Filter.test, hl], ?_⟩
      simp only [Wanted, hl, List.contains_iff_mem]
      constructor
      · intro h; exact ⟨l, i, rfl, hi, h⟩
      · rintro ⟨l', j, he, hj, hm⟩
        cases he
        rw [hi.unique hj]; exact hm
  | myGroup =>
    refine ⟨.group s.myGid, _, rfl, fun p hp => ?_⟩
    obtain ⟨_, ⟨l, hl⟩⟩ := hp
    exact ⟨l.contains s.myGid, by simp [Filter.test, hl], by simp [Wanted, hl]⟩
  | group t =>
    obtain ⟨i, hi⟩ := hs
    have hc := (convert_iff s s.groups t i).mpr hi
    refine ⟨.group i, ⟨.none, .num i, .none, .none⟩, ?_, fun p hp => ?_⟩
    · simp [setup, Selection.args, setupUser, setupGroup, setupPid, setupCommand, truthy, hc]
    · obtain ⟨_, ⟨l, hl⟩⟩ := hp
      refine ⟨l.contains i, by simp [Filter.test, hl], ?_⟩
      simp only [Wanted, hl, List.contains_iff_mem]
      constructor
      · intro h; exact ⟨l, i, rfl, hi, h⟩
      · rintro ⟨l', j, he, hj, hm⟩
        cases he
        rw [hi.unique hj]; exact hm
  | pid t =>
    obtain ⟨h0, i, hi⟩ := hs
    have hne : t.isEmpty = false := by cases t with
      | nil => exact absurd rfl h0
      | cons c t => rfl
    refine ⟨.pid i, ⟨.none, .none, .num i, .none⟩, ?_, fun p hp => ⟨i == p.pid, rfl, ?_⟩⟩
    · simp [setup, Selection.args, setupUser, setupGroup, setupPid, setupCommand, truthy, hne, hi]
    · simp [Wanted, hi]
  | command t =>
    have hne : t.isEmpty = false := by cases t with
      | nil => exact absurd rfl hs
      | cons c t => rfl
    refine ⟨.command t, ⟨.none, .none, .none, .text t⟩, ?_, fun p hp => ⟨_, rfl, ?_⟩⟩
    · simp [setup, Selection.args, setupUser, setupGroup, setupPid, setupCommand, truthy, hne]
    · simp only [Wanted, Bool.or_eq_true, or_assoc]
      have e1 : (match p.name with | some t' => isIn t t' | .none => false) = true ↔ ∃ x, p.name = some x ∧ Within t x := by
        cases p.name <;> simp [isIn_iff]
      have e2 : (match p.exe with | some t' => isIn t t' | .none => false) = true ↔ ∃ x, p.exe = some x ∧ Within t x := by
        cases p.exe <;> simp [isIn_iff]
      have e3 : (match p.cmdline with | some l => l.any (isIn t) | .none => false) = true ↔
          ∃ l x, p.cmdline = some l ∧ x ∈ l ∧ Within t x := by
        cases p.cmdline <;> simp [isIn_iff]
      exact or_congr e1 (or_congr e2 e3)

/-- **C82.** A selection that makes sense gives exactly the processes asked for, in order. -/
theorem C82_ps (s : Sys) (sel : Selection) (hs : Sensible s sel) (procs : List Proc) (hk : ∀ p ∈ procs, Known p) :
    ∃ out, ps s sel.args procs = (out, .none) ∧ out.Sublist procs ∧ ∀ p ∈ procs, p ∈ out ↔ Wanted s sel p := by
  obtain ⟨f, a, hf, ht⟩ := setup_filter s sel hs
  unfold ps
  rw [hf]
  exact loop_spec f procs _ (fun p hp => ht p (hk p hp))

/-- **C82.** A user, group or number that does not exist kills the command; nothing is sent. -/
theorem C82_refused (s : Sys) (sel : Selection) (hs : ¬ Sensible s sel) (he : sel.args ≠ Selection.args (.pid [])
    ∧ sel.args ≠ Selection.args (.command [])) (procs : List Proc) :
    ps s sel.args procs = ([], some .kill) := by
  cases sel with
  | everything => exact absurd trivial hs
  | mine => exact absurd trivial hs
  | myGroup => exact absurd trivial hs
  | user t =>
    have := convert_error s s.users t hs
    simp [ps, setup, Selection.args, setupUser, this]
  | group t =>
    have := convert_error s s.groups t hs
    simp [ps, setup, Selection.args, setupUser, setupGroup, this]
  | pid t =>
    have h0 : t ≠ [] := fun h => he.1 (by rw [h])
    have hne : t.isEmpty = false := by cases t with
      | nil => exact absurd rfl h0
      | cons c t => rfl
    have hi : s.int t = .none := by
      cases hi : s.int t with
      | none => rfl
      | some i => exact absurd ⟨h0, i, hi⟩ hs
    simp [ps, setup, Selection.args, setupUser, setupGroup, setupPid, truthy, hne, hi]
  | command t => exact absurd (fun h => he.2 (by rw [h])) hs

/-- **C82.** The operator can be run again (see C80): with the attributes which the first run left, the result is the same. -/
theorem C82_again (s : Sys) (sel : Selection) (f : Filter) (a : Args) (h : setup s sel.args = .ok (f, a)) (h0 : sel.args ≠ Selection.args (.pid [])) (procs : List Proc)
    (hz : ∀ t, sel = .pid t → s.int t ≠ some 0) :
    ps s a procs = ps s sel.args procs := by
  have key : ∃ a', setup s a = .ok (f, a') := by
    cases sel with
    | everything => cases h; exact ⟨_, rfl⟩
    | mine => cases h; exact ⟨_, rfl⟩
    | myGroup => cases h; exact ⟨_, rfl⟩
    | user t =>
      simp only [setup, Selection.args, setupUser, setupGroup, setupPid, setupCommand, truthy] at h
      cases hc : convertToId s s.users (.text t) with
      | error e => simp [hc] at h
      | ok i => simp [hc] at h; obtain ⟨rfl, rfl⟩ := h; exact ⟨_, rfl⟩
    | group t =>
      simp only [setup, Selection.args, setupUser, setupGroup, setupPid, setupCommand, truthy] at h
      cases hc : convertToId s s.groups (.text t) with
      | error e => simp [hc] at h
      | ok i => simp [hc] at h; obtain ⟨rfl, rfl⟩ := h; exact ⟨_, rfl⟩
    | pid t =>
      have hne : t.isEmpty = false := by cases t with
        | nil => exact absurd rfl h0
        | cons c t => rfl
      simp only [setup, Selection.args, setupUser, setupGroup, setupPid, setupCommand, truthy, hne] at h
      cases hi : s.int t with
      | none => simp [hi] at h
      | some i =>
        have hi0 : i ≠ 0 := fun e => hz t rfl (by rw [hi, e])
        simp [hi] at h
        obtain ⟨rfl, rfl⟩ := h
        exact ⟨_, by simp [setup, setupUser, setupGroup, setupPid, setupCommand, truthy, hi0]; rfl⟩
    | command t => cases h; exact ⟨_, rfl⟩
  obtain ⟨a', ha⟩ := key
  unfold ps
  rw [h, ha]

/-- **C82 is false for empty strings**: `ps --pid ''` is not refused, and shows all processes. -/
theorem C82_false_empty (s : Sys) (procs : List Proc) : ps s (Selection.args (.pid [])) procs = (procs, .none) := by
  have : ∀ l : List Proc, loop .all l = (l, .none) := by
    intro l
    induction l with
    | nil => rfl
    | cons p l ih => simp [loop, Filter.test, ih]
  exact this procs

/-- **C82 is false if the system hides the users of a process**: asked for a user, `ps` fails at this process, and shows none of those
after it. -/
theorem C82_false_hidden (s : Sys) (sel : Selection) (hs : Sensible s sel) (hsel : sel = .mine ∨ ∃ t, sel = .user t) (p : Proc)
    (hp : p.uids = .none) (procs : List Proc) : ps s sel.args (p :: procs) = ([], some .crash) := by
  rcases hsel with rfl | ⟨t, rfl⟩
  · simp [ps, setup, Selection.args, setupUser, setupGroup, setupPid, setupCommand, truthy, loop, Filter.test, hp]
  · obtain ⟨i, hi⟩ := hs
    have hc := (convert_iff s s.users t i).mpr hi
    simp [ps, setup, Selection.args, setupUser, setupGroup, setupPid, setupCommand, truthy, hc, loop, Filter.test, hp]

/-- **C82 is false for the Python API**: `ps`, with none of its arguments or with any one of them, raises a Python exception. -/
theorem C82_false_api (s : Sys) (a : Arg) (p : Proc) (procs : List Proc) :
    (∃ out, ps s (apiArgs .none .none .none .none) (p :: procs) = (out, some .crash)) ∧
    (∃ out, ps s (apiArgs .none .none (some a) .none) (p :: procs) = (out, some .crash)) ∧
    (∃ out, ps s (apiArgs .none .none .none (some a)) (p :: procs) = (out, some .crash)) ∧
    (∃ out e, ps s (apiArgs (some a) .none .none .none) (p :: procs) = (out, some e)) ∧
    (∃ out e, ps s (apiArgs .none (some a) .none .none) (p :: procs) = (out, some e)) := by
  refine ⟨⟨[], rfl⟩, ⟨[], rfl⟩, ⟨[], rfl⟩, ?_, ⟨[], .crash, rfl⟩⟩
  unfold ps setup
  simp only [apiArgs, Option.getD_some, Option.getD_none]
  cases setupUser s a .all with
  | error e => exact ⟨[], e, rfl⟩
  | ok r => exact ⟨[], .crash, rfl⟩

/-- … and so it does with any three of them, if there is no command among them. -/
theorem C82_false_api_three (s : Sys) (a b c : Arg) (p : Proc) (procs : List Proc) :
    ∃ out e, ps s (apiArgs (some a) (some b) (some c) .none) (p :: procs) = (out, some e) := by
  unfold ps setup
  simp only [apiArgs, Option.getD_some, Option.getD_none]
  cases setupUser s a .all with
  | error e => exact ⟨[], e, rfl⟩
  | ok r =>
    obtain ⟨f, u⟩ := r
    cases h2 : setupGroup s b f with
    | error e => simp only [h2]; exact ⟨[], e, rfl⟩
    | ok r =>
      obtain ⟨f', g⟩ := r
      simp only [h2]
      cases h3 : setupPid s c f' with
      | error e => exact ⟨[], e, rfl⟩
      | ok r =>
        obtain ⟨f'', q⟩ := r
        exact ⟨[], .crash, rfl⟩

/-- **C82 is false** for process number 0 if the command is executed again (in a loop, say): the first time no process or process 0 is found, then all are. -/
theorem C82_false_zero (s : Sys) (t : Text) (h : s.int t = some 0) (ht : t ≠ []) (procs : List Proc) :
    ∃ f a, setup s (Selection.args (.pid t)) = .ok (f, a) ∧ (ps s (Selection.args (.pid t)) procs).1 = procs.filter (fun p => p.pid = 0) ∧
      ps s a procs = (procs, .none) := by
  have hne : (!t.isEmpty) = true := by cases t <;> simp_all
  refine ⟨.pid 0, ⟨.none, .none, .num 0, .none⟩, ?_, ?_, ?_⟩
  · simp [setup, Selection.args, setupUser, setupGroup, setupPid, setupCommand, truthy, hne, h]
  · have e : ps s (Selection.args (.pid t)) procs = loop (.pid 0) procs := by
      simp [ps, setup, Selection.args, setupUser, setupGroup, setupPid, setupCommand, truthy, hne, h]
    rw [e]
    clear e
    induction procs with
    | nil => rfl
    | cons p l ih =>
      by_cases hp : p.pid = 0
      · simp [loop, Filter.test, hp, ih]
      · have : ((0 : Int) == p.pid) = false := by simpa using fun h => hp h.symm
        simp [loop, Filter.test, hp, this, ih]
  · exact C82_false_empty s procs

/-! ## Example -/

/-- Users `ann` (1000) and `1000` (1001), numbers of one digit, and 1000. -/
def exSys : Sys where
  users := [("ann".toList, 1000), ("1000".toList, 1001)]
  groups := [("adm".toList, 4)]
  myUid := 1000
  myGid := 4
  int := fun t => if t = "7".toList then some 7 else if t = "1000".toList then some 1000 else none

def exProcs : List Proc := [⟨1, some [0, 0, 0], some [0], some "init".toList, none, some ["/sbin/init".toList]⟩,
  ⟨7, some [1000, 1000, 0], some [4], some "vi".toList, some "/bin/vi".toList, some ["vi".toList, "init.txt".toList]⟩,
  ⟨8, some [1001, 1001, 1001], some [4], none, none, none⟩]

/-- Non-vacuity: a name that is a number is taken as a name. -/
theorem C82_example :
    ((ps exSys (Selection.args (.user "ann".toList)) exProcs).1.map (·.pid) = [7]) ∧
    ((ps exSys (Selection.args (.user "1000".toList)) exProcs).1.map (·.pid) = [8]) ∧
    ((ps exSys (Selection.args (.group "7".toList)) exProcs).1.map (·.pid) = []) ∧
    ((ps exSys (Selection.args .myGroup) exProcs).1.map (·.pid) = [7, 8]) ∧
    ((ps exSys (Selection.args (.pid "7".toList)) exProcs).1.map (·.pid) = [7]) ∧
    ((ps exSys (Selection.args (.command "init".toList)) exProcs).1.map (·.pid) = [1, 7]) ∧
    (ps exSys (Selection.args (.user "bob".toList)) exProcs = ([], some .kill)) := by
  decide +kernel

example : Sensible exSys (.user "1000".toList) :=
  ⟨1001, Or.inl ⟨[("ann".toList, 1000)], [], rfl, by decide⟩⟩

end Marcel.Ps
