import Verif.Model.Ls
/-! # C48: `ls` lists every file, once -/

namespace Marcel.Ls

/-! ## Specification -/

/-- What every file system satisfies: apart from symbolic links, directories form a tree (there is a rank that decreases from a directory to its
entries), there are finitely many directories, and the names in a directory are different. -/
structure FS.WF (fs : FS) : Prop where
  tree : ∃ rank : Ino → Nat, ∀ i es n j, fs.node i = .dir (some es) → (n, j) ∈ es → rank j < rank i
  finite : ∃ N, ∀ i es, fs.node i = .dir es → i < N
  names : ∀ i es, fs.node i = .dir (some es) → (es.map (·.1)).Nodup

/-- The command ends with this result. -/
def Lists (fs : FS) (o : Opts) (args : List Arg) (cwd : Path) (res : Bool × List Out) : Prop :=
  ∃ fuel, ls fs o fuel args cwd = some res

/-- The roots: the paths matched by the arguments, or the current directory if there are no arguments. -/
def IsRoot (args : List Arg) (cwd : Path) (p : Path) : Prop :=
  (args = [] ∧ p = cwd) ∨ (.root ∈ args ∧ p = []) ∨ ∃ ms, .glob ms ∈ args ∧ p ∈ ms

/-- The paths that were sent. -/
def pathsOf : List Out → List Path
  | [] => []
  | .path p :: l => p :: pathsOf l
  | _ :: l => pathsOf l

/-- How many names may follow the root. -/
def Depth.allows : Depth → Nat → Prop
  | .zero, n => n = 0
  | .one, n => n ≤ 1
  | .deep, _ => True

/-- `p`, and what is on the way from `p` to `p ++ q`, are not symbolic links. -/
def NoLinks (fs : FS) (p q : Path) : Prop := ∀ q1 q2, q = q1 ++ q2 → q2 ≠ [] → fs.isSymlink (p ++ q1) = false

/-- What can be reached from an inode, by going from directories to their entries and following symbolic links to directories. -/
inductive Reach (fs : FS) (i : Ino) : Ino → Prop
  | refl : Reach fs i i
  | step {j k : Ino} {n : Name} {es : List (Name × Ino)} : Reach fs i j → fs.entriesOf j = some es → (n, k) ∈ es → Reach fs i k

/-! ## Facts about the file system -/

/-- The directory that `i` is or links to. -/
def dirIno (fs : FS) (i : Ino) : Option Ino :=
  match fs.follow i with
  | some d => match fs.node d with
    | .dir _ => some d
    | _ => none
  | none => none

theorem isDir_iff (fs : FS) (p : Path) : fs.isDir p = true ↔ ∃ i d, fs.lstat p = some i ∧ dirIno fs i = some d := by
  unfold FS.isDir FS.stat dirIno
  cases h : fs.lstat p with
  | none => simp
  | some i =>
    simp only [Option.bind_some, Option.some.injEq]
    cases hf : fs.follow i with
    | none => simp [hf]
    | some d => cases hn : fs.node d <;> simp [hn, hf]

theorem dirIno_follow {fs : FS} {i d : Ino} (h : dirIno fs i = some d) : fs.follow i = some d ∧ ∃ es, fs.node d = .dir es := by
  unfold dirIno at h
  split at h
  · split at h
    · rename_i hf _ _ hn
      cases h
      exact ⟨hf, _, hn⟩
    · cases h
  · cases h

theorem entriesOf_dir {fs : FS} {i : Ino} {es : List (Name × Ino)} (h : fs.entriesOf i = some es) :
    ∃ d, dirIno fs i = some d ∧ fs.node d = .dir (some es) := by
  unfold FS.entriesOf at h
  unfold dirIno
  split at h
  · split at h
    · rename_i hf _ _ hn
      subst h
      rw [hf]
      exact ⟨_, by simp [hn], hn⟩
    · cases h
  · cases h

theorem dir_entriesOf {fs : FS} {i d : Ino} {es : Option (List (Name × Ino))} (h : dirIno fs i = some d) (hn : fs.node d = .dir es) :
    fs.entriesOf i = es := by
  obtain ⟨hf, _⟩ := dirIno_follow h
  unfold FS.entriesOf
  rw [hf]
  simp [hn]

theorem walk_append (fs : FS) (i : Ino) (p q : Path) : fs.walk i (p ++ q) = (fs.walk i p).bind fun j => fs.walk j q := by
  induction p generalizing i with
  | nil => rfl
  | cons n p ih =>
    simp only [List.cons_append, FS.walk]
    cases fs.entriesOf i with
    | none => rfl
    | some es =>
      simp only
      cases es.lookup n with
      | none => rfl
      | some j => exact ih j

theorem lookup_mem {es : List (Name × Ino)} {n : Name} {j : Ino} (h : es.lookup n = some j) : (n, j) ∈ es := by
  induction es with
  | nil => cases h
  | cons e es ih =>
    obtain ⟨m, k⟩ := e
    simp only [List.lookup_cons] at h
    by_cases hm : n = m
    · subst hm
      simp at h
      simp [h]
    · rw [show (n == m) = false by simpa using hm] at h
      exact List.mem_cons_of_mem _ (ih h)

theorem mem_lookup {es : List (Name × Ino)} {n : Name} {j : Ino} (hnd : (es.map (·.1)).Nodup) (h : (n, j) ∈ es) : es.lookup n = some j := by
  induction es with
  | nil => cases h
  | cons e es ih =>
    obtain ⟨m, k⟩ := e
    rw [List.map_cons, List.nodup_cons] at hnd
    simp only [List.lookup_cons]
    rcases List.mem_cons.mp h with h | h'
    · cases h; simp
    · have hm : n ≠ m := by
        intro e
        exact hnd.1 (List.mem_map.mpr ⟨(n, j), by assumption, e⟩)
      rw [show (n == m) = false by simpa using hm]
      exact ih hnd.2 h'

theorem lstat_child {fs : FS} (wf : fs.WF) {p : Path} {i : Ino} {es : List (Name × Ino)} (hp : fs.lstat p = some i)
    (he : fs.entriesOf i = some es) {n : Name} {j : Ino} (hm : (n, j) ∈ es) : fs.lstat (p ++ [n]) = some j := by
  unfold FS.lstat at hp ⊢
  rw [walk_append, hp]
  obtain ⟨d, _, hn⟩ := entriesOf_dir he
  simp [FS.walk, he, mem_lookup (wf.names d es hn) hm]

theorem lstat_split {fs : FS} {p : Path} {n : Name} {j : Ino} (h : fs.lstat (p ++ [n]) = some j) :
    ∃ i es, fs.lstat p = some i ∧ fs.entriesOf i = some es ∧ (n, j) ∈ es := by
  unfold FS.lstat at h ⊢
  rw [walk_append] at h
  cases hp : fs.walk fs.root p with
  | none => simp [hp] at h
  | some i =>
    rw [hp] at h
    simp only [Option.bind_some, FS.walk] at h
    cases he : fs.entriesOf i with
    | none => simp [he] at h
    | some es =>
      rw [he] at h
      simp only at h
      cases hl : es.lookup n with
      | none => simp [hl] at h
      | some k =>
        rw [hl] at h
        simp only [Option.some.injEq] at h
        subst h
        exact ⟨i, es, rfl, he, lookup_mem hl⟩

theorem iterdir_eq {fs : FS} {p : Path} {i : Ino} (hp : fs.lstat p = some i) :
    fs.iterdir p = (fs.entriesOf i).map (·.map fun e => p ++ [e.1]) := by
  unfold FS.iterdir
  rw [hp]

theorem stat_eq {fs : FS} {p : Path} {i : Ino} (hp : fs.lstat p = some i) : fs.stat p = fs.follow i := by
  unfold FS.stat
  rw [hp]; rfl

theorem mem_insertPath {ps : List Path} {p q : Path} : q ∈ insertPath p ps ↔ q = p ∨ q ∈ ps := by
  induction ps with
  | nil => simp [insertPath]
  | cons x ps ih =>
    unfold insertPath
    split
    · simp
    · simp only [List.mem_cons, ih]
      constructor
      · rintro (h | h | h)
        · exact .inr (.inl h)
        · exact .inl h
        · exact .inr (.inr h)
      · rintro (h | h | h)
        · exact .inr (.inl h)
        · exact .inl h
        · exact .inr (.inr h)

theorem mem_sorted {ps : List Path} {p : Path} : p ∈ sorted ps ↔ p ∈ ps := by
  unfold sorted
  induction ps with
  | nil => simp
  | cons x ps ih => rw [List.foldr_cons, mem_insertPath, ih, List.mem_cons]

/-! ## The visit as a relation -/

/-- The state after a path has been sent, if it is wanted and has not been sent before. -/
def sent (fs : FS) (o : Opts) (p : Path) (s : St) : St := (sendPath fs o p s).2

/-- Visiting the paths `ps`, which all exist. -/
inductive VisitL (fs : FS) (o : Opts) : List Path → Nat → St → St → Prop
  | nil {level s} : VisitL fs o [] level s s
  | skip {p ps level s s' i} : fs.lstat p = some i → descends fs o p level (sent fs o p s) = false →
      VisitL fs o ps level (sent fs o p s) s' → VisitL fs o (p :: ps) level s s'
  | denied {p ps level s s' i d} : fs.lstat p = some i → dirIno fs i = some d → descends fs o p level (sent fs o p s) = true →
      fs.node d = .dir none →
      VisitL fs o ps level { mark fs p (sent fs o p s) with out := (mark fs p (sent fs o p s)).out ++ [.denied p] } s' →
      VisitL fs o (p :: ps) level s s'
  | down {p ps level s s1 s' i d es} : fs.lstat p = some i → dirIno fs i = some d → descends fs o p level (sent fs o p s) = true →
      fs.node d = .dir (some es) →
      VisitL fs o (sorted (es.map fun e => p ++ [e.1])) (level + 1) (mark fs p (sent fs o p s)) s1 →
      VisitL fs o ps level s1 s' →
      VisitL fs o (p :: ps) level s s'

theorem sendPath_some {fs : FS} {o : Opts} {p : Path} {s : St} {i : Ino} (h : fs.lstat p = some i) :
    sendPath fs o p s = (false, sent fs o p s) := by
  unfold sent sendPath
  rw [h]
  simp only
  split <;> rfl

theorem descends_dir {fs : FS} {o : Opts} {p : Path} {level : Nat} {s : St} (h : descends fs o p level s = true) : fs.isDir p = true := by
  unfold descends at h
  simp only [Bool.and_eq_true] at h
  exact h.1.1

theorem kids_exist {fs : FS} (wf : fs.WF) {p : Path} {i d : Ino} {es : List (Name × Ino)} (hp : fs.lstat p = some i)
    (hd : dirIno fs i = some d) (hn : fs.node d = .dir (some es)) : ∀ x ∈ sorted (es.map fun e => p ++ [e.1]), ∃ j, fs.lstat x = some j := by
  intro x hx
  rw [mem_sorted, List.mem_map] at hx
  obtain ⟨e, he, rfl⟩ := hx
  exact ⟨e.2, lstat_child wf hp (dir_entriesOf hd hn) he⟩

theorem visit_rel {fs : FS} (wf : fs.WF) (o : Opts) (fuel : Nat) :
    (∀ p level s r, visit fs o fuel p level s = some r → (∃ i, fs.lstat p = some i) → r.1 = false ∧ ∀ ps s', VisitL fs o ps level r.2 s' →
      VisitL fs o (p :: ps) level s s') ∧
    (∀ ps level s s', visitAll fs o fuel ps level s = some s' → (∀ p ∈ ps, ∃ i, fs.lstat p = some i) → VisitL fs o ps level s s') := by
  induction fuel with
  | zero =>
    constructor
    · intro p level s r h; simp [visit] at h
    · intro ps level s s' h _
      cases ps with
      | nil => simp only [visitAll, Option.some.injEq] at h; subst h; exact .nil
      | cons p ps => simp [visitAll] at h
  | succ fuel ih =>
    constructor
    · intro p level s r h ⟨i, hi⟩
      rw [visit, sendPath_some hi] at h
      simp only at h
      split at h
      · rename_i hdesc
        obtain ⟨i', d, hi', hd⟩ := (isDir_iff fs p).mp (descends_dir hdesc)
        rw [hi] at hi'; cases hi'
        obtain ⟨hf, es, hn⟩ := dirIno_follow hd
        rw [iterdir_eq hi, dir_entriesOf hd hn] at h
        cases es with
        | none =>
          simp only [Option.map_none, Option.some.injEq] at h
          subst h
          exact ⟨rfl, fun ps s' hv => .denied hi hd hdesc hn hv⟩
        | some es =>
          simp only [Option.map_some, Option.map_eq_some_iff] at h
          obtain ⟨s1, h1, rfl⟩ := h
          exact ⟨rfl, fun ps s' hv => .down hi hd hdesc hn (ih.2 _ _ _ _ h1 (kids_exist wf hi hd hn)) hv⟩
      · rename_i hdesc
        simp only [Option.some.injEq] at h
        subst h
        exact ⟨rfl, fun ps s' hv => .skip hi (by simpa using hdesc) hv⟩
    · intro ps level s s' h hall
      cases ps with
      | nil => simp only [visitAll, Option.some.injEq] at h; subst h; exact .nil
      | cons p ps =>
        rw [visitAll] at h
        split at h
        · cases h
        · rename_i r hr
          obtain ⟨h1, h2⟩ := ih.1 _ _ _ _ hr (hall p (by simp))
          refine h2 _ _ (ih.2 _ _ _ _ ?_ (fun x hx => hall x (by simp [hx])))
          rw [noteMissing, if_neg (by rw [h1]; simp)] at h
          exact h

theorem runRoots_rel {fs : FS} (wf : fs.WF) (o : Opts) (fuel : Nat) (ps : List Path) (s : St) (r : Bool × St)
    (hall : ∀ p ∈ ps, ∃ i, fs.lstat p = some i) (h : runRoots fs o fuel ps s = some r) : r.1 = false ∧ VisitL fs o ps 0 s r.2 := by
  induction ps generalizing s with
  | nil => simp only [runRoots, Option.some.injEq] at h; subst h; exact ⟨rfl, .nil⟩
  | cons p ps ih =>
    rw [runRoots] at h
    split at h
    · cases h
    · rename_i s1 h1
      have := ((visit_rel wf o fuel).1 _ _ _ _ h1 (hall p (by simp))).1
      cases this
    · rename_i s1 h1
      obtain ⟨e, hv⟩ := ih s1 (fun x hx => hall x (by simp [hx])) h
      exact ⟨e, ((visit_rel wf o fuel).1 _ _ _ _ h1 (hall p (by simp))).2 _ _ hv⟩

/-! ## Invariants -/

theorem pathsOf_append (a b : List Out) : pathsOf (a ++ b) = pathsOf a ++ pathsOf b := by
  induction a with
  | nil => rfl
  | cons x a ih => cases x <;> simp [pathsOf, ih]

theorem mem_pathsOf {l : List Out} {p : Path} : p ∈ pathsOf l ↔ .path p ∈ l := by
  induction l with
  | nil => simp [pathsOf]
  | cons x l ih => cases x <;> simp [pathsOf, ih]

theorem sent_eq {fs : FS} {o : Opts} {p : Path} {s : St} {i : Ino} (h : fs.lstat p = some i) :
    (sent fs o p s).visited = s.visited ∧
      ((sent fs o p s).out = s.out ∧ (wanted o (fs.node i) = true → .path p ∈ s.out) ∨
        (sent fs o p s).out = s.out ++ [.path p] ∧ wanted o (fs.node i) = true ∧ .path p ∉ s.out) := by
  unfold sent sendPath
  rw [h]
  simp only
  split
  · rename_i hc
    simp only [Bool.and_eq_true, Bool.not_eq_true', List.contains_eq_mem, decide_eq_false_iff_not] at hc
    exact ⟨rfl, .inr ⟨rfl, hc⟩⟩
  · rename_i hc
    refine ⟨rfl, .inl ⟨rfl, fun hw => ?_⟩⟩
    simp only [Bool.and_eq_true, Bool.not_eq_true', List.contains_eq_mem, decide_eq_false_iff_not, not_and, Classical.not_not] at hc
    exact hc hw

theorem mark_eq {fs : FS} {p : Path} {s : St} {i d : Ino} (h : fs.lstat p = some i) (hd : dirIno fs i = some d) :
    mark fs p s = { s with visited := s.visited ++ [d] } := by
  unfold mark
  rw [stat_eq h, (dirIno_follow hd).1]

theorem sent_ext {fs : FS} {o : Opts} {p : Path} {s : St} {i : Ino} (hp : fs.lstat p = some i) :
    (∀ x ∈ s.out, x ∈ (sent fs o p s).out) ∧ (∀ d ∈ s.visited, d ∈ (sent fs o p s).visited) := by
  obtain ⟨hv, ho⟩ := sent_eq (o := o) (s := s) hp
  refine ⟨fun x hx => ?_, fun d hd => by rw [hv]; exact hd⟩
  rcases ho with ⟨e, _⟩ | ⟨e, _⟩ <;> rw [e] <;> simp [hx]

theorem out_ext {fs : FS} {o : Opts} {ps : List Path} {level : Nat} {s s' : St} (h : VisitL fs o ps level s s') :
    (∀ x ∈ s.out, x ∈ s'.out) ∧ (∀ d ∈ s.visited, d ∈ s'.visited) := by
  induction h with
  | nil => exact ⟨fun _ h => h, fun _ h => h⟩
  | skip hp _ _ ih =>
    exact ⟨fun x hx => ih.1 x ((sent_ext hp).1 x hx), fun d hd => ih.2 d ((sent_ext hp).2 d hd)⟩
  | denied hp hd _ _ _ ih =>
    rw [mark_eq hp hd] at ih
    exact ⟨fun x hx => ih.1 x (by simp [(sent_ext hp).1 x hx]), fun d hd => ih.2 d (by simp [(sent_ext hp).2 d hd])⟩
  | down hp hd _ _ _ _ ih1 ih2 =>
    rw [mark_eq hp hd] at ih1
    exact ⟨fun x hx => ih2.1 x (ih1.1 x (by simp [(sent_ext hp).1 x hx])),
      fun d hd => ih2.2 d (ih1.2 d (by simp [(sent_ext hp).2 d hd]))⟩

theorem nodup_sent {fs : FS} {o : Opts} {p : Path} {s : St} {i : Ino} (h : fs.lstat p = some i) (hn : (pathsOf s.out).Nodup) :
    (pathsOf (sent fs o p s).out).Nodup := by
  rcases (sent_eq (o := o) (s := s) h).2 with ⟨e, _⟩ | ⟨e, _, hm⟩
  · rw [e]; exact hn
  · rw [e, pathsOf_append, List.nodup_append]
    refine ⟨hn, by simp [pathsOf], ?_⟩
    intro a ha b hb
    simp only [pathsOf, List.mem_singleton] at hb
    subst hb
    intro e
    subst e
    exact hm (mem_pathsOf.mp ha)

theorem nodup {fs : FS} {o : Opts} {ps : List Path} {level : Nat} {s s' : St} (h : VisitL fs o ps level s s')
    (hn : (pathsOf s.out).Nodup) : (pathsOf s'.out).Nodup := by
  induction h with
  | nil => exact hn
  | skip hp _ _ ih => exact ih (nodup_sent hp hn)
  | denied hp hd _ _ _ ih =>
    apply ih
    rw [mark_eq hp hd]
    simp only [pathsOf_append, pathsOf, List.append_nil]
    exact nodup_sent hp hn
  | down hp hd _ _ _ _ ih1 ih2 =>
    apply ih2
    apply ih1
    rw [mark_eq hp hd]
    exact nodup_sent hp hn

theorem descends_level {fs : FS} {o : Opts} {p : Path} {level : Nat} {s : St} (h : descends fs o p level s = true) :
    (level = 0 ∧ o.depth = .one) ∨ o.depth = .deep := by
  unfold descends at h
  simp only [Bool.and_eq_true, Bool.or_eq_true, beq_iff_eq] at h
  rcases h.1.2 with ⟨h0, h1 | h1⟩ | h1
  · exact .inl ⟨h0, h1⟩
  · exact .inr h1
  · exact .inr h1

/-- What is sent is at or below one of the paths, of a kind that is wanted, and not too deep. -/
def SoundAt (fs : FS) (o : Opts) (ps : List Path) (level : Nat) (x : Out) : Prop :=
  ∃ p ∈ ps, ∃ q, (q = [] ∨ o.depth.allows (level + q.length)) ∧
    ((x = .path (p ++ q) ∧ ∃ i, fs.lstat (p ++ q) = some i ∧ wanted o (fs.node i) = true) ∨
      (x = .denied (p ++ q) ∧ ∃ i, fs.stat (p ++ q) = some i ∧ fs.node i = .dir none))

theorem SoundAt.mono {fs : FS} {o : Opts} {ps : List Path} {level : Nat} {x : Out} (p : Path) (h : SoundAt fs o ps level x) :
    SoundAt fs o (p :: ps) level x := by
  obtain ⟨p', hp', r⟩ := h
  exact ⟨p', by simp [hp'], r⟩

theorem SoundAt.down {fs : FS} {o : Opts} {p : Path} {ps : List Path} {es : List (Name × Ino)} {level : Nat} {x : Out}
    (hl : (level = 0 ∧ o.depth = .one) ∨ o.depth = .deep) (h : SoundAt fs o (sorted (es.map fun e => p ++ [e.1])) (level + 1) x) :
    SoundAt fs o (p :: ps) level x := by
  obtain ⟨p', hp', q, hq, r⟩ := h
  rw [mem_sorted, List.mem_map] at hp'
  obtain ⟨e, _, rfl⟩ := hp'
  refine ⟨p, by simp, e.1 :: q, .inr ?_, by simpa using r⟩
  rcases hl with ⟨h0, h1⟩ | h1
  · subst h0
    rw [h1] at hq ⊢
    rcases hq with rfl | hq
    · simp [Depth.allows]
    · simp only [Depth.allows] at hq
      have : q = [] := List.eq_nil_of_length_eq_zero (by omega)
      simp [this, Depth.allows]
  · rw [h1]; trivial

theorem sound_sent {fs : FS} {o : Opts} {p : Path} {ps : List Path} {level : Nat} {s : St} {i : Ino} (hp : fs.lstat p = some i)
    {x : Out} (hx : x ∈ (sent fs o p s).out) : x ∈ s.out ∨ SoundAt fs o (p :: ps) level x := by
  rcases (sent_eq (o := o) (s := s) hp).2 with ⟨e, _⟩ | ⟨e, hw, _⟩
  · rw [e] at hx; exact .inl hx
  · rw [e, List.mem_append, List.mem_singleton] at hx
    rcases hx with hx | rfl
    · exact .inl hx
    · exact .inr ⟨p, by simp, [], .inl rfl, .inl ⟨by simp, i, by simpa using hp, hw⟩⟩

theorem sound {fs : FS} {o : Opts} {ps : List Path} {level : Nat} {s s' : St} (h : VisitL fs o ps level s s') :
    ∀ x ∈ s'.out, x ∈ s.out ∨ SoundAt fs o ps level x := by
  induction h with
  | nil => exact fun x hx => .inl hx
  | skip hp _ _ ih =>
    intro x hx
    rcases ih x hx with hx | hx
    · exact sound_sent hp hx
    · exact .inr (hx.mono _)
  | @denied p ps level s s' i d hp hd hdesc hn hv ih =>
    intro x hx
    rcases ih x hx with hx | hx
    · rw [mark_eq hp hd] at hx
      simp only [List.mem_append, List.mem_singleton] at hx
      rcases hx with hx | rfl
      · exact sound_sent hp hx
      · exact .inr ⟨p, by simp, [], .inl rfl, .inr ⟨by simp, d, by simp [stat_eq hp, (dirIno_follow hd).1], hn⟩⟩
    · exact .inr (hx.mono _)
  | down hp hd hdesc _ _ _ ih1 ih2 =>
    intro x hx
    rcases ih2 x hx with hx | hx
    · rcases ih1 x hx with hx | hx
      · rw [mark_eq hp hd] at hx
        exact sound_sent hp hx
      · exact .inr (SoundAt.down (descends_level hdesc) hx)
    · exact .inr (hx.mono _)

theorem mem_sent {fs : FS} {o : Opts} {p : Path} {s : St} {i : Ino} (hp : fs.lstat p = some i) (hw : wanted o (fs.node i) = true) :
    .path p ∈ (sent fs o p s).out := by
  rcases (sent_eq (o := o) (s := s) hp).2 with ⟨e, h⟩ | ⟨e, _⟩
  · rw [e]; exact h hw
  · rw [e]; simp

/-- Every one of the paths is sent, if it is wanted. -/
theorem emitted {fs : FS} {o : Opts} {ps : List Path} {level : Nat} {s s' : St} (h : VisitL fs o ps level s s') :
    ∀ p ∈ ps, ∀ i, fs.lstat p = some i → wanted o (fs.node i) = true → .path p ∈ s'.out := by
  induction h with
  | nil => intro p hp; cases hp
  | skip hp _ hv ih =>
    intro x hx j hj hw
    rcases List.mem_cons.mp hx with rfl | hx
    · exact (out_ext hv).1 _ (mem_sent hj hw)
    · exact ih x hx j hj hw
  | denied hp hd _ _ hv ih =>
    intro x hx j hj hw
    rcases List.mem_cons.mp hx with rfl | hx
    · refine (out_ext hv).1 _ ?_
      rw [mark_eq hp hd]
      simp [mem_sent hj hw]
    · exact ih x hx j hj hw
  | down hp hd _ _ hv1 hv2 ih1 ih2 =>
    intro x hx j hj hw
    rcases List.mem_cons.mp hx with rfl | hx
    · refine (out_ext hv2).1 _ ((out_ext hv1).1 _ ?_)
      rw [mark_eq hp hd]
      simp [mem_sent hj hw]
    · exact ih2 x hx j hj hw

theorem descends_real {fs : FS} {o : Opts} {p : Path} {level : Nat} {s : St} (hd : fs.isDir p = true) (hl : fs.isSymlink p = false)
    (ha : o.depth.allows (level + 1)) : descends fs o p level s = true := by
  unfold descends alreadyVisited
  rw [hd, hl]
  cases ho : o.depth with
  | zero => rw [ho] at ha; simp [Depth.allows] at ha
  | one => rw [ho] at ha; simp [Depth.allows] at ha; simp [ha]
  | deep => simp

theorem allows_le {d : Depth} {a b : Nat} (h : d.allows b) (hab : a ≤ b) : d.allows a := by
  cases d with
  | zero => simp only [Depth.allows] at h ⊢; omega
  | one => simp only [Depth.allows] at h ⊢; omega
  | deep => trivial

/-- Something below a path, without symbolic links on the way, is found. -/
theorem below {fs : FS} {o : Opts} {ps : List Path} {level : Nat} {s s' : St} (h : VisitL fs o ps level s s') :
    ∀ p ∈ ps, ∀ n q j, NoLinks fs p (n :: q) → o.depth.allows (level + (n :: q).length) → fs.lstat (p ++ n :: q) = some j →
      (wanted o (fs.node j) = true → .path (p ++ n :: q) ∈ s'.out) := by
  have hreal : ∀ p n q j level s, NoLinks fs p (n :: q) → o.depth.allows (level + (n :: q).length) → fs.lstat (p ++ n :: q) = some j →
      descends fs o p level s = true ∧ ∃ i es k, fs.lstat p = some i ∧ fs.entriesOf i = some es ∧ (n, k) ∈ es := by
    intro p n q j level s hnl ha hj
    have hl : fs.isSymlink p = false := by simpa using hnl [] (n :: q) rfl (by simp)
    have : ∃ k, fs.lstat (p ++ [n]) = some k := by
      unfold FS.lstat at hj ⊢
      rw [show p ++ n :: q = (p ++ [n]) ++ q by simp, walk_append] at hj
      cases hk : fs.walk fs.root (p ++ [n]) with
      | none => simp [hk] at hj
      | some k => exact ⟨k, rfl⟩
    obtain ⟨k, hk⟩ := this
    obtain ⟨i, es, hi, he, hm⟩ := lstat_split hk
    refine ⟨descends_real ?_ hl (allows_le ha (by simp)), i, es, k, hi, he, hm⟩
    obtain ⟨d, hd, _⟩ := entriesOf_dir he
    exact (isDir_iff fs p).mpr ⟨i, d, hi, hd⟩
  induction h with
  | nil => intro p hp; cases hp
  | @skip p ps level s s' i hp hdesc hv ih =>
    intro x hx n q j hnl ha hj hw
    rcases List.mem_cons.mp hx with rfl | hx
    · have := (hreal x n q j level (sent fs o x s) hnl ha hj).1
      rw [hdesc] at this; cases this
    · exact ih x hx n q j hnl ha hj hw
  | @denied p ps level s s' i d hp hd hdesc hn hv ih =>
    intro x hx n q j hnl ha hj hw
    rcases List.mem_cons.mp hx with rfl | hx
    · obtain ⟨_, i', es, k, hi, he, _⟩ := hreal x n q j level (sent fs o x s) hnl ha hj
      rw [hp] at hi; cases hi
      rw [dir_entriesOf hd hn] at he; cases he
    · exact ih x hx n q j hnl ha hj hw
  | @down p ps level s s1 s' i d es hp hd hdesc hn hv1 hv2 ih1 ih2 =>
    intro x hx n q j hnl ha hj hw
    rcases List.mem_cons.mp hx with rfl | hx
    · obtain ⟨_, i', es', k, hi, he, hm⟩ := hreal x n q j level (sent fs o x s) hnl ha hj
      rw [hp] at hi; cases hi
      rw [dir_entriesOf hd hn] at he; cases he
      have hkid : x ++ [n] ∈ sorted (es.map fun e => x ++ [e.1]) := by
        rw [mem_sorted, List.mem_map]
        exact ⟨(n, k), hm, rfl⟩
      refine (out_ext hv2).1 _ ?_
      cases q with
      | nil => exact emitted hv1 _ hkid j hj hw
      | cons m q =>
        have := ih1 (x ++ [n]) hkid m q j ?_ (allows_le ha (by simp; omega)) (by simpa using hj) hw
        · simpa using this
        · intro q1 q2 e hne
          have := hnl (n :: q1) q2 (by rw [e]; rfl) hne
          simpa using this
    · exact ih2 x hx n q j hnl ha hj hw

/-- The directory `d` has been dealt with, under some path. -/
def Done (fs : FS) (o : Opts) (ps : List Path) (level : Nat) (s : St) (d : Ino) : Prop :=
  ∃ p, (level = 0 → o.depth = .one → p ∈ ps) ∧ fs.stat p = some d ∧ (fs.node d = .dir none → .denied p ∈ s.out) ∧
    ∀ es, fs.node d = .dir (some es) → ∀ n j, (n, j) ∈ es → fs.lstat (p ++ [n]) = some j ∧
      (wanted o (fs.node j) = true → .path (p ++ [n]) ∈ s.out) ∧ (o.depth = .deep → ∀ e, dirIno fs j = some e → e ∈ s.visited)

theorem Done.mono {fs : FS} {o : Opts} {ps : List Path} {level : Nat} {s s' : St} {d : Ino} (x : Path) (h : Done fs o ps level s d)
    (ho : ∀ y ∈ s.out, y ∈ s'.out) (hv : ∀ y ∈ s.visited, y ∈ s'.visited) : Done fs o (x :: ps) level s' d := by
  obtain ⟨p, h0, h1, h2, h3⟩ := h
  refine ⟨p, fun a b => List.mem_cons_of_mem _ (h0 a b), h1, fun a => ho _ (h2 a), fun es he n j hm => ?_⟩
  obtain ⟨a, b, c⟩ := h3 es he n j hm
  exact ⟨a, fun w => ho _ (b w), fun dd e he => hv _ (c dd e he)⟩

theorem descends_not {fs : FS} {o : Opts} {p : Path} {level : Nat} {s : St} {i d : Ino} (hp : fs.lstat p = some i)
    (hd : dirIno fs i = some d) (ha : o.depth.allows (level + 1)) (h : descends fs o p level s = false) : d ∈ s.visited := by
  have hdir : fs.isDir p = true := (isDir_iff fs p).mpr ⟨i, d, hp, hd⟩
  unfold descends at h
  rw [hdir] at h
  have hc : ((level == 0 && (o.depth == Depth.one || o.depth == Depth.deep)) || o.depth == Depth.deep) = true := by
    cases ho : o.depth with
    | zero => rw [ho] at ha; simp [Depth.allows] at ha
    | one => rw [ho] at ha; simp [Depth.allows] at ha; simp [ha]
    | deep => simp
  rw [hc] at h
  simp only [Bool.and_self, Bool.true_and, Bool.not_eq_false'] at h
  unfold alreadyVisited at h
  rw [stat_eq hp, (dirIno_follow hd).1] at h
  simp only [Bool.and_eq_true, List.contains_eq_mem, decide_eq_true_eq] at h
  exact h.2

/-- The directories among the paths are visited, unless that is too deep. -/
theorem visited_all {fs : FS} {o : Opts} {ps : List Path} {level : Nat} {s s' : St} (h : VisitL fs o ps level s s') :
    ∀ p ∈ ps, ∀ i d, fs.lstat p = some i → dirIno fs i = some d → o.depth.allows (level + 1) → d ∈ s'.visited := by
  induction h with
  | nil => intro p hp; cases hp
  | skip hp hdesc hv ih =>
    intro x hx j e hj he ha
    rcases List.mem_cons.mp hx with rfl | hx
    · exact (out_ext hv).2 _ (descends_not hj he ha hdesc)
    · exact ih x hx j e hj he ha
  | denied hp hd hdesc _ hv ih =>
    intro x hx j e hj he ha
    rcases List.mem_cons.mp hx with rfl | hx
    · rw [hp] at hj; cases hj
      rw [hd] at he; cases he
      refine (out_ext hv).2 _ ?_
      rw [mark_eq hp hd]; simp
    · exact ih x hx j e hj he ha
  | down hp hd hdesc _ hv1 hv2 ih1 ih2 =>
    intro x hx j e hj he ha
    rcases List.mem_cons.mp hx with rfl | hx
    · rw [hp] at hj; cases hj
      rw [hd] at he; cases he
      refine (out_ext hv2).2 _ ((out_ext hv1).2 _ ?_)
      rw [mark_eq hp hd]; simp
    · exact ih2 x hx j e hj he ha

/-- Below the roots no directory is visited, with `-1`. -/
theorem not_visited {fs : FS} {o : Opts} {ps : List Path} {level : Nat} {s s' : St} (h : VisitL fs o ps level s s')
    (ho : o.depth ≠ .deep) (hl : level ≠ 0) : s'.visited = s.visited := by
  induction h with
  | nil => rfl
  | skip hp hdesc hv ih => rw [ih hl, (sent_eq hp).1]
  | denied hp hd hdesc _ hv ih =>
    rcases descends_level hdesc with ⟨a, _⟩ | a
    · exact absurd a hl
    · exact absurd a ho
  | down hp hd hdesc _ hv1 hv2 ih1 ih2 =>
    rcases descends_level hdesc with ⟨a, _⟩ | a
    · exact absurd a hl
    · exact absurd a ho

theorem closed {fs : FS} (wf : fs.WF) {o : Opts} {ps : List Path} {level : Nat} {s s' : St} (h : VisitL fs o ps level s s') :
    ∀ d ∈ s'.visited, d ∈ s.visited ∨ Done fs o ps level s' d := by
  induction h with
  | nil => exact fun d hd => .inl hd
  | skip hp hdesc hv ih =>
    intro d hd
    rcases ih d hd with h | h
    · rw [(sent_eq hp).1] at h; exact .inl h
    · exact .inr (h.mono _ (fun _ h => h) (fun _ h => h))
  | @denied p ps level s s' i e hp hd hdesc hn hv ih =>
    intro d hdv
    rcases ih d hdv with h | h
    · rw [mark_eq hp hd] at h
      simp only [(sent_eq (o := o) (s := s) hp).1, List.mem_append, List.mem_singleton] at h
      rcases h with h | rfl
      · exact .inl h
      · refine .inr ⟨p, fun _ _ => by simp, by rw [stat_eq hp]; exact (dirIno_follow hd).1, fun _ => (out_ext hv).1 _ ?_, ?_⟩
        · simp
        · intro es he; rw [hn] at he; cases he
    · exact .inr (h.mono _ (fun _ h => h) (fun _ h => h))
  | @down p ps level s s1 s' i e es hp hd hdesc hn hv1 hv2 ih1 ih2 =>
    intro d hdv
    rcases ih2 d hdv with h | h
    · have hself : d = e → Done fs o (p :: ps) level s' d := by
        rintro rfl
        refine ⟨p, fun _ _ => by simp, by rw [stat_eq hp]; exact (dirIno_follow hd).1, ?_, ?_⟩
        · intro he; rw [hn] at he; cases he
        · intro es' he n j hm
          rw [hn] at he; cases he
          have hj := lstat_child wf hp (dir_entriesOf hd hn) hm
          have hkid : p ++ [n] ∈ sorted (es.map fun e => p ++ [e.1]) := by
            rw [mem_sorted, List.mem_map]
            exact ⟨(n, j), hm, rfl⟩
          exact ⟨hj, fun hw => (out_ext hv2).1 _ (emitted hv1 _ hkid j hj hw),
            fun hdeep e he => (out_ext hv2).2 _ (visited_all hv1 _ hkid j e hj he (by rw [hdeep]; trivial))⟩
      by_cases hdeep : o.depth = .deep
      · rcases ih1 d h with h | h
        · rw [mark_eq hp hd] at h
          simp only [(sent_eq (o := o) (s := s) hp).1, List.mem_append, List.mem_singleton] at h
          rcases h with h | h
          · exact .inl h
          · exact .inr (hself h)
        · obtain ⟨p', _, h1, h2, h3⟩ := h
          refine .inr ⟨p', fun _ b => (by rw [hdeep] at b; cases b), h1, fun a => (out_ext hv2).1 _ (h2 a), fun es he n j hm => ?_⟩
          obtain ⟨a, b, c⟩ := h3 es he n j hm
          exact ⟨a, fun w => (out_ext hv2).1 _ (b w), fun dd e he => (out_ext hv2).2 _ (c dd e he)⟩
      · rw [not_visited hv1 hdeep (by omega), mark_eq hp hd] at h
        simp only [(sent_eq (o := o) (s := s) hp).1, List.mem_append, List.mem_singleton] at h
        rcases h with h | h
        · exact .inl h
        · exact .inr (hself h)
    · exact .inr (h.mono _ (fun _ h => h) (fun _ h => h))

/-! ## Termination -/

theorem mono_fuel (fs : FS) (o : Opts) (fuel : Nat) :
    (∀ p level s r, visit fs o fuel p level s = some r → visit fs o (fuel + 1) p level s = some r) ∧
    (∀ ps level s r, visitAll fs o fuel ps level s = some r → visitAll fs o (fuel + 1) ps level s = some r) := by
  induction fuel with
  | zero =>
    constructor
    · intro p level s r h; simp [visit] at h
    · intro ps level s r h
      cases ps with
      | nil => simpa [visitAll] using h
      | cons p ps => simp [visitAll] at h
  | succ fuel ih =>
    constructor
    · intro p level s r h
      rw [visit] at h ⊢
      split at h
      · exact h
      · split at h
        · rename_i hd
          rw [if_pos hd]
          split at h
          · exact h
          · rw [Option.map_eq_some_iff] at h ⊢
            obtain ⟨s1, h1, h2⟩ := h
            exact ⟨s1, ih.2 _ _ _ _ h1, h2⟩
        · rename_i hd
          rw [if_neg hd]
          exact h
    · intro ps level s r h
      cases ps with
      | nil => simpa [visitAll] using h
      | cons p ps =>
        rw [visitAll] at h ⊢
        split at h
        · cases h
        · rename_i r1 h1
          rw [ih.1 _ _ _ _ h1]
          exact ih.2 _ _ _ _ h

theorem mono_visit {fs : FS} {o : Opts} {fuel k : Nat} {p : Path} {level : Nat} {s : St} {r : Bool × St}
    (h : visit fs o fuel p level s = some r) : visit fs o (fuel + k) p level s = some r := by
  induction k with
  | zero => exact h
  | succ k ih => exact (mono_fuel fs o (fuel + k)).1 _ _ _ _ ih

theorem mono_visitAll {fs : FS} {o : Opts} {fuel k : Nat} {ps : List Path} {level : Nat} {s : St} {r : St}
    (h : visitAll fs o fuel ps level s = some r) : visitAll fs o (fuel + k) ps level s = some r := by
  induction k with
  | zero => exact h
  | succ k ih => exact (mono_fuel fs o (fuel + k)).2 _ _ _ _ ih

/-- The number of directories below `N` that have not been visited. -/
def unvisited (N : Nat) (s : St) : Nat := ((List.range N).filter fun d => !s.visited.contains d).length

theorem filter_length_le {α : Type} (l : List α) (f g : α → Bool) (h : ∀ x ∈ l, f x = true → g x = true) :
    (l.filter f).length ≤ (l.filter g).length := by
  induction l with
  | nil => simp
  | cons x l ih =>
    have := ih (fun y hy => h y (by simp [hy]))
    have hx := h x (by simp)
    simp only [List.filter_cons]
    cases hf : f x <;> cases hg : g x <;> simp_all <;> omega

theorem filter_length_lt {α : Type} (l : List α) (f g : α → Bool) (h : ∀ x ∈ l, f x = true → g x = true) (x : α) (hx : x ∈ l)
    (hf : f x = false) (hg : g x = true) : (l.filter f).length < (l.filter g).length := by
  induction l with
  | nil => cases hx
  | cons y l ih =>
    have hle := filter_length_le l f g (fun z hz => h z (by simp [hz]))
    rcases List.mem_cons.mp hx with rfl | hx
    · simp [hf, hg]; omega
    · have := ih (fun z hz => h z (by simp [hz])) hx
      have hy := h y (by simp)
      simp only [List.filter_cons]
      cases hf' : f y <;> cases hg' : g y <;> simp_all <;> omega

theorem unvisited_le {N : Nat} {s s' : St} (h : ∀ d ∈ s.visited, d ∈ s'.visited) : unvisited N s' ≤ unvisited N s := by
  apply filter_length_le
  intro x _ hx
  simp only [Bool.not_eq_true', List.contains_eq_mem, decide_eq_false_iff_not] at hx ⊢
  exact fun hm => hx (h x hm)

theorem unvisited_lt {N : Nat} {s s' : St} (h : ∀ d ∈ s.visited, d ∈ s'.visited) {d : Ino} (hN : d < N) (h1 : d ∉ s.visited)
    (h2 : d ∈ s'.visited) : unvisited N s' < unvisited N s := by
  apply filter_length_lt _ _ _ ?_ d (by simpa using hN) (by simpa using h2) (by simpa using h1)
  intro x _ hx
  simp only [Bool.not_eq_true', List.contains_eq_mem, decide_eq_false_iff_not] at hx ⊢
  exact fun hm => hx (h x hm)

/-- A single visit ends, if the visits of the directory's entries do. -/
theorem terminates_aux {fs : FS} (wf : fs.WF) (o : Opts) (rank : Ino → Nat)
    (hrank : ∀ i es n j, fs.node i = .dir (some es) → (n, j) ∈ es → rank j < rank i) (N : Nat)
    (hN : ∀ i es, fs.node i = .dir es → i < N) :
    ∀ c r p i level s, unvisited N s ≤ c → rank i ≤ r → fs.lstat p = some i → ∃ fuel res, visit fs o fuel p level s = some res := by
  have loop : ∀ (good : St → Path → Prop), (∀ s p level, good s p → (∃ i, fs.lstat p = some i) ∧ ∃ fuel res, visit fs o fuel p level s = some res) →
      (∀ s s' p, (∀ d ∈ s.visited, d ∈ s'.visited) → good s p → good s' p) →
      ∀ ps level s, (∀ p ∈ ps, good s p) → ∃ fuel res, visitAll fs o fuel ps level s = some res := by
    intro good hg hm ps
    induction ps with
    | nil => intro level s _; exact ⟨0, s, by simp [visitAll]⟩
    | cons p ps ih =>
      intro level s hall
      obtain ⟨hex, f1, r1, h1⟩ := hg s p level (hall p (by simp))
      obtain ⟨e, hrel⟩ := (visit_rel wf o f1).1 _ _ _ _ h1 hex
      have hext := (out_ext (hrel [] r1.2 .nil)).2
      obtain ⟨f2, r2, h2⟩ := ih level r1.2 (fun x hx => hm _ _ x hext (hall x (by simp [hx])))
      refine ⟨f1 + f2 + 1, r2, ?_⟩
      rw [visitAll, mono_visit h1]
      simp only [noteMissing, e, Bool.false_eq_true, if_false]
      rw [Nat.add_comm]
      exact mono_visitAll h2
  intro c
  induction c using Nat.strongRecOn with
  | _ c ihc =>
  intro r
  induction r using Nat.strongRecOn with
  | _ r ihr =>
  intro p i level s hc hr hp
  cases hdesc : descends fs o p level (sent fs o p s) with
  | false =>
    refine ⟨1, (false, sent fs o p s), ?_⟩
    rw [visit, sendPath_some hp]
    simp [hdesc]
  | true =>
    obtain ⟨i', d, hi', hd⟩ := (isDir_iff fs p).mp (descends_dir hdesc)
    rw [hp] at hi'; cases hi'
    obtain ⟨hf, es, hn⟩ := dirIno_follow hd
    cases es with
    | none =>
      refine ⟨1, (false, { mark fs p (sent fs o p s) with out := (mark fs p (sent fs o p s)).out ++ [.denied p] }), ?_⟩
      rw [visit, sendPath_some hp]
      simp [hdesc, iterdir_eq hp, dir_entriesOf hd hn]
    | some es =>
      have hsub : ∀ d ∈ s.visited, d ∈ (mark fs p (sent fs o p s)).visited := by
        intro x hx
        rw [mark_eq hp hd]
        simp [(sent_eq (o := o) (s := s) hp).1, hx]
      have key : ∃ fuel res, visitAll fs o fuel (sorted (es.map fun e => p ++ [e.1])) (level + 1) (mark fs p (sent fs o p s)) = some res := by
        by_cases hv : d ∈ s.visited
        · -- visited before: not through a symbolic link, so the rank decreases
          have hnl : fs.isSymlink p = false := by
            cases hl : fs.isSymlink p with
            | false => rfl
            | true =>
              unfold descends alreadyVisited at hdesc
              rw [hl, stat_eq hp, hf] at hdesc
              simp [(sent_eq (o := o) (s := s) hp).1, hv] at hdesc
          have hid : d = i := by
            unfold FS.isSymlink at hnl
            rw [hp] at hnl
            simp only at hnl
            unfold FS.follow at hf
            split at hf
            · rename_i hl; rw [hl] at hnl; cases hnl
            · cases hf; rfl
          subst hid
          refine loop (fun s p => unvisited N s ≤ c ∧ ∃ j, fs.lstat p = some j ∧ rank j < r) ?_ ?_ _ _ _ ?_
          · rintro s p level ⟨h1, j, h2, h3⟩
            exact ⟨⟨j, h2⟩, ihr (rank j) h3 p j level s h1 (Nat.le_refl _) h2⟩
          · rintro s s' p h ⟨h1, h2⟩
            exact ⟨Nat.le_trans (unvisited_le h) h1, h2⟩
          · intro x hx
            rw [mem_sorted, List.mem_map] at hx
            obtain ⟨e, he, rfl⟩ := hx
            exact ⟨Nat.le_trans (unvisited_le hsub) hc, e.2, lstat_child wf hp (dir_entriesOf hd hn) he,
              Nat.lt_of_lt_of_le (hrank _ _ _ _ hn he) hr⟩
        · have hlt : unvisited N (mark fs p (sent fs o p s)) < c := by
            refine Nat.lt_of_lt_of_le (unvisited_lt hsub (hN d _ hn) hv ?_) hc
            rw [mark_eq hp hd]; simp
          refine loop (fun s p => unvisited N s < c ∧ ∃ j, fs.lstat p = some j) ?_ ?_ _ _ _ ?_
          · rintro s p level ⟨h1, j, h2⟩
            exact ⟨⟨j, h2⟩, ihc (unvisited N s) h1 (rank j) p j level s (Nat.le_refl _) (Nat.le_refl _) h2⟩
          · rintro s s' p h ⟨h1, h2⟩
            exact ⟨Nat.lt_of_le_of_lt (unvisited_le h) h1, h2⟩
          · intro x hx
            exact ⟨hlt, kids_exist wf hp hd hn x hx⟩
      obtain ⟨fuel, res, h⟩ := key
      refine ⟨fuel + 1, (false, res), ?_⟩
      rw [visit, sendPath_some hp]
      simp [hdesc, iterdir_eq hp, dir_entriesOf hd hn, h]

/-! ## The roots -/

theorem mem_addNew (seen ms : List Path) : ∀ acc : List Path × List Path, (∀ p, p ∈ acc.2 ↔ p ∈ seen ∨ p ∈ acc.1) →
    ∀ p, (p ∈ (ms.foldl (fun (r : List Path × List Path) p => if r.2.contains p then r else (r.1 ++ [p], r.2 ++ [p])) acc).2 ↔
        p ∈ seen ∨ p ∈ acc.1 ∨ p ∈ ms) ∧
      (p ∈ seen ∨ p ∈ (ms.foldl (fun (r : List Path × List Path) p => if r.2.contains p then r else (r.1 ++ [p], r.2 ++ [p])) acc).1 ↔
        p ∈ seen ∨ p ∈ acc.1 ∨ p ∈ ms) ∧
      (p ∈ (ms.foldl (fun (r : List Path × List Path) p => if r.2.contains p then r else (r.1 ++ [p], r.2 ++ [p])) acc).1 →
        p ∈ acc.1 ∨ p ∈ ms) := by
  induction ms with
  | nil =>
    intro acc h p
    simp only [List.foldl_nil, List.not_mem_nil, or_false]
    exact ⟨h p, trivial, id⟩
  | cons m ms ih =>
    intro acc h p
    simp only [List.foldl_cons]
    by_cases hc : m ∈ acc.2
    · rw [if_pos (by simpa using hc)]
      obtain ⟨a, b, c⟩ := ih acc h p
      have hm := (h m).mp hc
      refine ⟨a.trans ?_, b.trans ?_, fun hp => ?_⟩
      · constructor
        · rintro (h | h | h)
          · exact .inl h
          · exact .inr (.inl h)
          · exact .inr (.inr (by simp [h]))
        · rintro (h | h | h)
          · exact .inl h
          · exact .inr (.inl h)
          · rcases List.mem_cons.mp h with rfl | h
            · rcases hm with h | h
              · exact .inl h
              · exact .inr (.inl h)
            · exact .inr (.inr h)
      · constructor
        · rintro (h | h | h)
          · exact .inl h
          · exact .inr (.inl h)
          · exact .inr (.inr (by simp [h]))
        · rintro (h | h | h)
          · exact .inl h
          · exact .inr (.inl h)
          · rcases List.mem_cons.mp h with rfl | h
            · rcases hm with h | h
              · exact .inl h
              · exact .inr (.inl h)
            · exact .inr (.inr h)
      · rcases c hp with h | h
        · exact .inl h
        · exact .inr (by simp [h])
    · rw [if_neg (by simpa using hc)]
      obtain ⟨a, b, c⟩ := ih (acc.1 ++ [m], acc.2 ++ [m]) (by
        intro q
        simp only [List.mem_append, List.mem_singleton, h q, or_assoc]) p
      simp only [List.mem_append, List.mem_singleton, or_assoc] at a b c
      simp only [List.mem_cons]
      exact ⟨a, b, c⟩

theorem mem_normalize (args : List Arg) : ∀ rs seen, (∀ p ∈ seen, p ∈ rs) →
    ∀ p, p ∈ normalize args rs seen ↔ p ∈ rs ∨ (.root ∈ args ∧ p = []) ∨ ∃ ms, .glob ms ∈ args ∧ p ∈ ms := by
  induction args with
  | nil => intro rs seen _ p; simp [normalize]
  | cons a args ih =>
    intro rs seen hs p
    cases a with
    | root =>
      rw [normalize, ih _ _ (fun q hq => by simp [hs q hq])]
      simp only [List.mem_append, List.mem_cons, List.not_mem_nil, or_false, true_or, true_and, reduceCtorEq, false_or]
      constructor
      · rintro ((h | h) | ⟨_, h⟩ | h)
        · exact .inl h
        · exact .inr (.inl h)
        · exact .inr (.inl h)
        · exact .inr (.inr h)
      · rintro (h | h | h)
        · exact .inl (.inl h)
        · exact .inl (.inr h)
        · exact .inr (.inr h)
    | glob ms =>
      have key := mem_addNew seen ms ([], seen) (by simp)
      have hadd : normalize.addNew seen ms =
          ms.foldl (fun (r : List Path × List Path) p => if r.2.contains p then r else (r.1 ++ [p], r.2 ++ [p])) ([], seen) := rfl
      rw [← hadd] at key
      simp only [List.not_mem_nil, false_or] at key
      rw [normalize, ih]
      · simp only [List.mem_append, List.mem_cons, reduceCtorEq, false_or, Arg.glob.injEq]
        obtain ⟨k1, k2, k3⟩ := key p
        constructor
        · rintro ((h | h) | h | ⟨ms', h, hp⟩)
          · exact .inl h
          · exact .inr (.inr ⟨ms, .inl rfl, k3 h⟩)
          · exact .inr (.inl h)
          · exact .inr (.inr ⟨ms', .inr h, hp⟩)
        · rintro (h | h | ⟨ms', rfl | h, hp⟩)
          · exact .inl (.inl h)
          · exact .inr (.inl h)
          · rcases k2.mpr (.inr hp) with h | h
            · exact .inl (.inl (hs p h))
            · exact .inl (.inr h)
          · exact .inr (.inr ⟨ms', h, hp⟩)
      · intro q hq
        obtain ⟨k1, k2, k3⟩ := key q
        rw [List.mem_append]
        rcases k2.mpr (k1.mp hq) with h | h
        · exact .inl (hs q h)
        · exact .inr h

theorem mem_roots {args : List Arg} {cwd : Path} {rs : List Path} (h : roots args cwd = some rs) (p : Path) :
    p ∈ rs ↔ IsRoot args cwd p := by
  have hm := mem_normalize args [] [] (by simp)
  unfold roots at h
  unfold IsRoot
  split at h
  · cases h
  · rename_i hc
    cases h
    rw [mem_sorted]
    cases hn : normalize args [] [] with
    | nil =>
      rw [hn] at hc hm
      simp only [List.not_mem_nil, false_or, false_iff] at hm
      have : args = [] := by
        cases args with
        | nil => rfl
        | cons a as => simp at hc
      subst this
      simp
    | cons x xs =>
      have hne : args ≠ [] := by rintro rfl; simp [normalize] at hn
      simp only [List.length_cons, Nat.add_eq_zero_iff, Nat.succ_ne_self, and_false, beq_iff_eq, if_false]
      rw [← hn, hm p]
      simp [hne]

/-- The command: visiting the roots. -/
theorem ls_rel {fs : FS} (wf : fs.WF) {o : Opts} {args : List Arg} {cwd : Path} {res : Bool × List Out}
    (hex : ∀ p, IsRoot args cwd p → ∃ i, fs.lstat p = some i) (h : Lists fs o args cwd res) :
    res.1 = false ∧ ∃ rs s, (∀ p, p ∈ rs ↔ IsRoot args cwd p) ∧ VisitL fs o rs 0 ⟨[], []⟩ s ∧ res.2 = s.out := by
  obtain ⟨fuel, h⟩ := h
  unfold ls at h
  split at h
  · cases h
  · rename_i rs hr
    rw [Option.map_eq_some_iff] at h
    obtain ⟨r, h1, rfl⟩ := h
    obtain ⟨e, hv⟩ := runRoots_rel wf o fuel rs _ r (fun p hp => hex p ((mem_roots hr p).mp hp)) h1
    exact ⟨e, rs, r.2, mem_roots hr, hv, rfl⟩

theorem mono_runRoots {fs : FS} {o : Opts} {fuel k : Nat} {ps : List Path} {s : St} {r : Bool × St}
    (h : runRoots fs o fuel ps s = some r) : runRoots fs o (fuel + k) ps s = some r := by
  induction ps generalizing s with
  | nil => exact h
  | cons p ps ih =>
    rw [runRoots] at h ⊢
    split at h
    · cases h
    · rename_i s1 h1; rw [mono_visit h1]; exact h
    · rename_i s1 h1; rw [mono_visit h1]; exact ih h

/-! ## Theorems -/

/-- **C48**. `ls` always ends (also if symbolic links form cycles), without an exception, if the paths given to it exist. It is killed if the
arguments match nothing. -/
theorem C48_ends {fs : FS} (wf : fs.WF) (o : Opts) (args : List Arg) (cwd : Path)
    (hex : ∀ p, IsRoot args cwd p → ∃ i, fs.lstat p = some i) (hsome : ∃ p, IsRoot args cwd p) :
    ∃ out, Lists fs o args cwd (false, out) := by
  have hroots : ∃ rs, roots args cwd = some rs := by
    unfold roots
    split
    · rename_i hc
      exfalso
      simp only [Bool.and_eq_true, decide_eq_true_eq, beq_iff_eq] at hc
      have hm := mem_normalize args [] [] (by simp)
      rw [List.eq_nil_of_length_eq_zero hc.2] at hm
      obtain ⟨p, hp⟩ := hsome
      rcases hp with ⟨rfl, _⟩ | hp
      · simp at hc
      · have := (hm p).mpr (.inr hp)
        cases this
    · exact ⟨_, rfl⟩
  obtain ⟨rs, hr⟩ := hroots
  obtain ⟨rank, hrank⟩ := wf.tree
  obtain ⟨N, hN⟩ := wf.finite
  have key : ∀ ps s, (∀ p ∈ ps, ∃ i, fs.lstat p = some i) → ∃ fuel r, runRoots fs o fuel ps s = some r := by
    intro ps
    induction ps with
    | nil => intro s _; exact ⟨0, _, rfl⟩
    | cons p ps ih =>
      intro s hall
      obtain ⟨i, hi⟩ := hall p (by simp)
      obtain ⟨f1, r1, h1⟩ := terminates_aux wf o rank hrank N hN (unvisited N s) (rank i) p i 0 s (Nat.le_refl _) (Nat.le_refl _) hi
      obtain ⟨b, s1⟩ := r1
      obtain ⟨f2, r2, h2⟩ := ih s1 (fun x hx => hall x (by simp [hx]))
      refine ⟨f1 + f2, if b then (true, s1) else r2, ?_⟩
      rw [runRoots, mono_visit h1]
      cases b
      · simp only [Bool.false_eq_true, if_false]
        rw [Nat.add_comm]
        exact mono_runRoots h2
      · rfl
  obtain ⟨fuel, r, h⟩ := key rs ⟨[], []⟩ (fun p hp => hex p ((mem_roots hr p).mp hp))
  have hl : Lists fs o args cwd (r.1, r.2.out) := ⟨fuel, by unfold ls; rw [hr]; simp [h]⟩
  have := (ls_rel wf hex hl).1
  simp only at this
  exact ⟨r.2.out, by rw [this] at hl; exact hl⟩

/-- There is only one result. -/
theorem C48_deterministic {fs : FS} {o : Opts} {args : List Arg} {cwd : Path} {r1 r2 : Bool × List Out}
    (h1 : Lists fs o args cwd r1) (h2 : Lists fs o args cwd r2) : r1 = r2 := by
  obtain ⟨f1, h1⟩ := h1
  obtain ⟨f2, h2⟩ := h2
  unfold ls at h1 h2
  split at h1
  · cases h1
  · rename_i rs hr
    rw [hr] at h2
    simp only [Option.map_eq_some_iff] at h1 h2
    obtain ⟨a, ha, rfl⟩ := h1
    obtain ⟨b, hb, rfl⟩ := h2
    have h1 := mono_runRoots (k := f2) ha
    have h2 := mono_runRoots (k := f1) hb
    rw [Nat.add_comm f2 f1, h1] at h2
    cases h2
    rfl

/-- **C48**. No path is listed twice, however the arguments overlap. -/
theorem C48_once {fs : FS} (wf : fs.WF) {o : Opts} {args : List Arg} {cwd : Path} {res : Bool × List Out}
    (hex : ∀ p, IsRoot args cwd p → ∃ i, fs.lstat p = some i) (h : Lists fs o args cwd res) : (pathsOf res.2).Nodup := by
  obtain ⟨_, rs, s, _, hv, e⟩ := ls_rel wf hex h
  rw [e]
  exact nodup hv (by simp [pathsOf])

/-- **C48**. What is listed is one of the paths given, or below one of them by as many levels as requested at most; it exists, and is of one
of the kinds requested. The errors are about directories that cannot be listed, there are no others. -/
theorem C48_sound {fs : FS} (wf : fs.WF) {o : Opts} {args : List Arg} {cwd : Path} {res : Bool × List Out}
    (hex : ∀ p, IsRoot args cwd p → ∃ i, fs.lstat p = some i) (h : Lists fs o args cwd res) :
    ∀ x ∈ res.2, ∃ r q, IsRoot args cwd r ∧ o.depth.allows q.length ∧
      ((x = .path (r ++ q) ∧ ∃ i, fs.lstat (r ++ q) = some i ∧ wanted o (fs.node i) = true) ∨
        (x = .denied (r ++ q) ∧ ∃ i, fs.stat (r ++ q) = some i ∧ fs.node i = .dir none)) := by
  obtain ⟨_, rs, s, hrs, hv, e⟩ := ls_rel wf hex h
  rw [e]
  intro x hx
  rcases sound hv x hx with h | ⟨p, hp, q, hq, h⟩
  · cases h
  · refine ⟨p, q, (hrs p).mp hp, ?_, h⟩
    rcases hq with rfl | hq
    · cases o.depth <;> simp [Depth.allows]
    · simpa using hq

/-- **C48**. Everything of the kinds requested, at or below one of the paths given, by as many levels as requested at most, is listed, if
the way to it is not through symbolic links. -/
theorem C48_complete {fs : FS} (wf : fs.WF) {o : Opts} {args : List Arg} {cwd : Path} {res : Bool × List Out}
    (hex : ∀ p, IsRoot args cwd p → ∃ i, fs.lstat p = some i) (h : Lists fs o args cwd res) :
    ∀ r q i, IsRoot args cwd r → o.depth.allows q.length → NoLinks fs r q → fs.lstat (r ++ q) = some i →
      wanted o (fs.node i) = true → .path (r ++ q) ∈ res.2 := by
  obtain ⟨_, rs, s, hrs, hv, e⟩ := ls_rel wf hex h
  rw [e]
  intro r q i hr ha hnl hi hw
  cases q with
  | nil => simp only [List.append_nil] at hi ⊢; exact emitted hv r ((hrs r).mpr hr) i hi hw
  | cons n q => exact below hv r ((hrs r).mpr hr) n q i hnl (by simpa using ha) hi hw

/-- **C48**. With `-1`, if one of the paths given is a directory, or a symbolic link to one, all its entries of the kinds requested are listed,
below this path or below another path given that leads to the same directory. -/
theorem C48_complete_one {fs : FS} (wf : fs.WF) {o : Opts} {args : List Arg} {cwd : Path} {res : Bool × List Out}
    (hex : ∀ p, IsRoot args cwd p → ∃ i, fs.lstat p = some i) (h : Lists fs o args cwd res) (ho : o.depth = .one) :
    ∀ r d es, IsRoot args cwd r → fs.stat r = some d → fs.node d = .dir (some es) →
      ∃ r', IsRoot args cwd r' ∧ fs.stat r' = some d ∧
        ∀ n j, (n, j) ∈ es → wanted o (fs.node j) = true → .path (r' ++ [n]) ∈ res.2 := by
  obtain ⟨_, rs, s, hrs, hv, e⟩ := ls_rel wf hex h
  rw [e]
  intro r d es hr hd hes
  obtain ⟨i, hi⟩ := hex r hr
  have hdir : dirIno fs i = some d := by
    unfold dirIno
    rw [← stat_eq hi, hd]
    simp [hes]
  rcases closed wf hv d (visited_all hv r ((hrs r).mpr hr) i d hi hdir (by rw [ho]; simp [Depth.allows])) with h | ⟨p, h0, h1, _, h3⟩
  · cases h
  · exact ⟨p, (hrs p).mp (h0 rfl ho), h1, fun n j hm hw => (h3 es hes n j hm).2.1 hw⟩

/-- **C48**. With `-r`, everything of the kinds requested that can be reached from a path given, also through symbolic links, is listed, under one
of its paths. -/
theorem C48_complete_deep {fs : FS} (wf : fs.WF) {o : Opts} {args : List Arg} {cwd : Path} {res : Bool × List Out}
    (hex : ∀ p, IsRoot args cwd p → ∃ i, fs.lstat p = some i) (h : Lists fs o args cwd res) (ho : o.depth = .deep) :
    ∀ r i k, IsRoot args cwd r → fs.lstat r = some i → Reach fs i k →
      wanted o (fs.node k) = true → ∃ x, fs.lstat x = some k ∧ .path x ∈ res.2 := by
  obtain ⟨_, rs, s, hrs, hv, e⟩ := ls_rel wf hex h
  rw [e]
  intro r i k hr hi hk
  have key : (∃ x, fs.lstat x = some k ∧ (wanted o (fs.node k) = true → .path x ∈ s.out)) ∧
      ∀ d, dirIno fs k = some d → d ∈ s.visited := by
    induction hk with
    | refl =>
      exact ⟨⟨r, hi, emitted hv r ((hrs r).mpr hr) i hi⟩,
        fun d hd => visited_all hv r ((hrs r).mpr hr) i d hi hd (by rw [ho]; trivial)⟩
    | step _ he hm ih =>
      obtain ⟨d, hd, hn⟩ := entriesOf_dir he
      rcases closed wf hv d (ih.2 d hd) with h | ⟨p, _, h1, _, h3⟩
      · cases h
      · obtain ⟨a, b, c⟩ := h3 _ hn _ _ hm
        exact ⟨⟨_, a, b⟩, c ho⟩
  intro hw
  obtain ⟨⟨x, h1, h2⟩, _⟩ := key
  exact ⟨x, h1, h2 hw⟩

/-- **C48**. A directory that cannot be listed is reported: with `-r`, if it can be reached; with `-1`, if it is one of the paths given. -/
theorem C48_denied {fs : FS} (wf : fs.WF) {o : Opts} {args : List Arg} {cwd : Path} {res : Bool × List Out}
    (hex : ∀ p, IsRoot args cwd p → ∃ i, fs.lstat p = some i) (h : Lists fs o args cwd res) :
    ∀ r i k d, IsRoot args cwd r → fs.lstat r = some i → (o.depth = .one ∧ k = i ∨ o.depth = .deep ∧ Reach fs i k) →
      fs.follow k = some d → fs.node d = .dir none → ∃ x, fs.stat x = some d ∧ .denied x ∈ res.2 := by
  obtain ⟨_, rs, s, hrs, hv, e⟩ := ls_rel wf hex h
  rw [e]
  intro r i k d hr hi hk hf hn
  have hdir : dirIno fs k = some d := by unfold dirIno; rw [hf]; simp [hn]
  have hvis : d ∈ s.visited := by
    rcases hk with ⟨ho, rfl⟩ | ⟨ho, hk⟩
    · exact visited_all hv r ((hrs r).mpr hr) k d hi hdir (by rw [ho]; simp [Depth.allows])
    · have key : ∀ d, dirIno fs k = some d → d ∈ s.visited := by
        clear hf hn hdir
        induction hk with
        | refl => exact fun d hd => visited_all hv r ((hrs r).mpr hr) i d hi hd (by rw [ho]; trivial)
        | step _ he hm ih =>
          obtain ⟨d, hd, hn⟩ := entriesOf_dir he
          rcases closed wf hv d (ih d hd) with h | ⟨p, _, h1, _, h3⟩
          · cases h
          · exact (h3 _ hn _ _ hm).2.2 ho
      exact key d hdir
  rcases closed wf hv d hvis with h | ⟨p, _, h1, h2, _⟩
  · cases h
  · exact ⟨p, h1, h2 hn⟩

/-! ## Options -/

/-- **C48**, the kinds: files, directories and symbolic links are listed if they are asked for, and all three kinds if none is asked for. Other things (devices, sockets) are not. -/
theorem C48_kinds (d0 d1 dr f d l : Bool) (n : Node) :
    wanted (mkOpts d0 d1 dr f d l) n = true ↔
      (n = .file ∧ (f = true ∨ (f = false ∧ d = false ∧ l = false))) ∨
      ((∃ es, n = .dir es) ∧ (d = true ∨ (f = false ∧ d = false ∧ l = false))) ∨
      ((∃ t, n = .link t) ∧ (l = true ∨ (f = false ∧ d = false ∧ l = false))) := by
  cases n <;> cases f <;> cases d <;> cases l <;> simp [wanted, mkOpts]

/-- **C48**, the depth: `-0`, `-1`, `-r`, and 1 if none is given. -/
theorem C48_depth (d0 d1 dr f d l : Bool) :
    (mkOpts d0 d1 dr f d l).depth = if d0 then .zero else if dr && !d1 then .deep else .one := by
  cases d0 <;> cases d1 <;> cases dr <;> cases f <;> cases d <;> cases l <;> rfl

/-! ## Order -/

/-- The order of paths: a directory comes before what is in it, and of two names in a directory the smaller one comes first, with everything in it. -/
def Before (p q : Path) : Prop :=
  (∃ n t, q = p ++ n :: t) ∨ ∃ (c : Path) (a b : Name) (s t : Path), p = c ++ a :: s ∧ q = c ++ b :: t ∧ a < b

theorem Before.cons {a : Name} {p q : Path} (h : Before p q) : Before (a :: p) (a :: q) := by
  rcases h with ⟨n, t, rfl⟩ | ⟨c, x, y, s, t, rfl, rfl, h⟩
  · exact .inl ⟨n, t, rfl⟩
  · exact .inr ⟨a :: c, x, y, s, t, rfl, rfl, h⟩

theorem pathLe_before {p q : Path} (h : pathLe p q = true) : p = q ∨ Before p q := by
  induction p generalizing q with
  | nil =>
    cases q with
    | nil => exact .inl rfl
    | cons n t => exact .inr (.inl ⟨n, t, rfl⟩)
  | cons a p ih =>
    cases q with
    | nil => simp [pathLe] at h
    | cons b q =>
      simp only [pathLe] at h
      split at h
      · rename_i hab; exact .inr (.inr ⟨[], a, b, p, q, rfl, rfl, hab⟩)
      · split at h
        · cases h
        · have : a = b := by simp only [Name] at *; omega
          subst this
          rcases ih h with rfl | h
          · exact .inl rfl
          · exact .inr h.cons

theorem pathLe_total {p q : Path} (h : pathLe p q = false) : pathLe q p = true := by
  induction p generalizing q with
  | nil => simp [pathLe] at h
  | cons a p ih =>
    cases q with
    | nil => rfl
    | cons b q =>
      simp only [pathLe] at h ⊢
      split at h
      · cases h
      · rename_i hab
        split at h
        · rename_i hba; simp [hba]
        · rename_i hba
          have : a = b := by simp only [Name] at *; omega
          subst this
          simp [ih h]

theorem pathLe_trans {p q r : Path} (h1 : pathLe p q = true) (h2 : pathLe q r = true) : pathLe p r = true := by
  induction p generalizing q r with
  | nil => rfl
  | cons a p ih =>
    cases q with
    | nil => simp [pathLe] at h1
    | cons b q =>
      cases r with
      | nil => simp [pathLe] at h2
      | cons c r =>
        simp only [pathLe] at h1 h2 ⊢
        split at h1
        · rename_i hab
          split at h2
          · rw [if_pos (by simp only [Name] at *; omega)]
          · split at h2
            · cases h2
            · rw [if_pos (by simp only [Name] at *; omega)]
        · split at h1
          · cases h1
          · split at h2
            · rw [if_pos (by simp only [Name] at *; omega)]
            · split at h2
              · cases h2
              · rw [if_neg (by simp only [Name] at *; omega), if_neg (by simp only [Name] at *; omega)]
                exact ih h1 h2

theorem insertPath_sorted {p : Path} {ps : List Path} (h : ps.Pairwise fun a b => pathLe a b = true) :
    (insertPath p ps).Pairwise fun a b => pathLe a b = true := by
  induction ps with
  | nil => simp [insertPath]
  | cons q ps ih =>
    rw [List.pairwise_cons] at h
    unfold insertPath
    split
    · rename_i hpq
      rw [List.pairwise_cons]
      refine ⟨?_, List.pairwise_cons.mpr h⟩
      intro x hx
      rcases List.mem_cons.mp hx with rfl | hx
      · exact hpq
      · exact pathLe_trans hpq (h.1 x hx)
    · rename_i hpq
      rw [List.pairwise_cons]
      refine ⟨?_, ih h.2⟩
      intro x hx
      rcases mem_insertPath.mp hx with rfl | hx
      · exact pathLe_total (by simpa using hpq)
      · exact h.1 x hx

theorem sorted_sorted (ps : List Path) : (sorted ps).Pairwise fun a b => pathLe a b = true := by
  unfold sorted
  induction ps with
  | nil => exact .nil
  | cons p ps ih => exact insertPath_sorted ih

theorem insertPath_perm (p : Path) (ps : List Path) : (insertPath p ps).Perm (p :: ps) := by
  induction ps with
  | nil => exact .refl _
  | cons q ps ih =>
    unfold insertPath
    split
    · exact .refl _
    · exact (ih.cons q).trans (.swap ..)

theorem sorted_perm (ps : List Path) : (sorted ps).Perm ps := by
  unfold sorted
  induction ps with
  | nil => exact .refl _
  | cons p ps ih => exact (insertPath_perm p _).trans (ih.cons p)

/-- Different names in the same directory, in order. -/
def Sib (p q : Path) : Prop := ∃ (c : Path) (a b : Name), p = c ++ [a] ∧ q = c ++ [b] ∧ a < b

theorem sib_sorted {p : Path} {es : List (Name × Ino)} (hn : (es.map (·.1)).Nodup) : (sorted (es.map fun e => p ++ [e.1])).Pairwise Sib := by
  have hnd : (sorted (es.map fun e => p ++ [e.1])).Nodup := by
    rw [(sorted_perm _).nodup_iff]
    have : (es.map fun e => p ++ [e.1]) = (es.map (·.1)).map fun n => p ++ [n] := by simp
    rw [this]
    refine List.Pairwise.map (R := fun a b => a ≠ b) _ ?_ hn
    intro a b hab e
    exact hab (by simpa using e)
  have hs := sorted_sorted (es.map fun e => p ++ [e.1])
  have hm : ∀ x ∈ sorted (es.map fun e => p ++ [e.1]), ∃ n, x = p ++ [n] := by
    intro x hx
    rw [mem_sorted, List.mem_map] at hx
    obtain ⟨e, _, rfl⟩ := hx
    exact ⟨e.1, rfl⟩
  refine ((hs.and hnd).imp_of_mem ?_)
  intro x y hx hy ⟨h1, h2⟩
  obtain ⟨n, rfl⟩ := hm x hx
  obtain ⟨m, rfl⟩ := hm y hy
  rcases pathLe_before h1 with e | h
  · exact absurd e h2
  · refine ⟨p, n, m, rfl, rfl, ?_⟩
    rcases h with ⟨k, t, e⟩ | ⟨c, a, b, s, t, e1, e2, hab⟩
    · exfalso
      have := congrArg List.length e
      simp at this
    · have l1 := congrArg List.length e1
      have l2 := congrArg List.length e2
      have hcp : c = p ∨ c.length < p.length := by
        by_cases hc : c.length < p.length
        · exact .inr hc
        · left
          have hl : c.length = p.length := by simp at l1; omega
          exact (List.append_inj e1 hl.symm).1.symm
      rcases hcp with rfl | hc
      · have e1 := List.append_cancel_left e1
        have e2 := List.append_cancel_left e2
        simp at e1 e2
        simp only [Name] at *; omega
      · exfalso
        have g1 : (p ++ [n])[c.length]? = some a := by rw [e1]; simp
        have g2 : (p ++ [m])[c.length]? = some b := by rw [e2]; simp
        rw [List.getElem?_append_left hc] at g1 g2
        rw [g1] at g2
        cases g2
        simp only [Name] at *; omega

theorem Sib.before {p q : Path} (h : Sib p q) (s t : Path) : Before (p ++ s) (q ++ t) := by
  obtain ⟨c, a, b, rfl, rfl, hab⟩ := h
  exact .inr ⟨c, a, b, s, t, by simp, by simp, hab⟩

theorem sent_new {fs : FS} {o : Opts} {p : Path} {s : St} {i : Ino} (h : fs.lstat p = some i) :
    pathsOf (sent fs o p s).out = pathsOf s.out ∨ pathsOf (sent fs o p s).out = pathsOf s.out ++ [p] := by
  rcases (sent_eq (o := o) (s := s) h).2 with ⟨e, _⟩ | ⟨e, _⟩
  · left; rw [e]
  · right; rw [e, pathsOf_append]; rfl

/-- What is sent while siblings are visited is in order. -/
theorem visit_order {fs : FS} (wf : fs.WF) {o : Opts} {ps : List Path} {level : Nat} {s s' : St} (h : VisitL fs o ps level s s') :
    ps.Pairwise Sib → ∃ new, pathsOf s'.out = pathsOf s.out ++ new ∧ new.Pairwise Before ∧ ∀ x ∈ new, ∃ p ∈ ps, ∃ q, x = p ++ q := by
  induction h with
  | nil => intro _; exact ⟨[], by simp, .nil, by simp⟩
  | @skip p ps level s s' i hp hdesc hv ih =>
    intro hs
    rw [List.pairwise_cons] at hs
    obtain ⟨new, e, h1, h2⟩ := ih hs.2
    rcases sent_new (o := o) (s := s) hp with e0 | e0
    · exact ⟨new, by rw [e, e0], h1, fun x hx => by obtain ⟨q, hq, t, ht⟩ := h2 x hx; exact ⟨q, by simp [hq], t, ht⟩⟩
    · refine ⟨p :: new, by rw [e, e0]; simp, ?_, ?_⟩
      · rw [List.pairwise_cons]
        refine ⟨?_, h1⟩
        intro x hx
        obtain ⟨q, hq, t, rfl⟩ := h2 x hx
        have := (hs.1 q hq).before [] t
        simpa using this
      · intro x hx
        rcases List.mem_cons.mp hx with rfl | hx
        · exact ⟨x, List.mem_cons_self, [], (List.append_nil x).symm⟩
        · obtain ⟨q, hq, t, ht⟩ := h2 x hx; exact ⟨q, by simp [hq], t, ht⟩
  | @denied p ps level s s' i d hp hd hdesc hn hv ih =>
    intro hs
    rw [List.pairwise_cons] at hs
    obtain ⟨new, e, h1, h2⟩ := ih hs.2
    rw [mark_eq hp hd] at e
    simp only [pathsOf_append, pathsOf, List.append_nil] at e
    rcases sent_new (o := o) (s := s) hp with e0 | e0
    · exact ⟨new, by rw [e, e0], h1, fun x hx => by obtain ⟨q, hq, t, ht⟩ := h2 x hx; exact ⟨q, by simp [hq], t, ht⟩⟩
    · refine ⟨p :: new, by rw [e, e0]; simp, ?_, ?_⟩
      · rw [List.pairwise_cons]
        refine ⟨?_, h1⟩
        intro x hx
        obtain ⟨q, hq, t, rfl⟩ := h2 x hx
        have := (hs.1 q hq).before [] t
        simpa using this
      · intro x hx
        rcases List.mem_cons.mp hx with rfl | hx
        · exact ⟨x, List.mem_cons_self, [], (List.append_nil x).symm⟩
        · obtain ⟨q, hq, t, ht⟩ := h2 x hx; exact ⟨q, by simp [hq], t, ht⟩
  | @down p ps level s s1 s' i d es hp hd hdesc hn hv1 hv2 ih1 ih2 =>
    intro hs
    rw [List.pairwise_cons] at hs
    obtain ⟨n1, e1, h1, g1⟩ := ih1 (sib_sorted (wf.names d es hn))
    obtain ⟨n2, e2, h2, g2⟩ := ih2 hs.2
    rw [mark_eq hp hd] at e1
    simp only at e1
    have under : ∀ x ∈ n1, ∃ n t, x = p ++ n :: t := by
      intro x hx
      obtain ⟨q, hq, t, rfl⟩ := g1 x hx
      rw [mem_sorted, List.mem_map] at hq
      obtain ⟨e, _, rfl⟩ := hq
      exact ⟨e.1, t, by simp⟩
    have h12 : (n1 ++ n2).Pairwise Before := by
      rw [List.pairwise_append]
      refine ⟨h1, h2, ?_⟩
      intro x hx y hy
      obtain ⟨n, t, rfl⟩ := under x hx
      obtain ⟨q, hq, u, rfl⟩ := g2 y hy
      exact (hs.1 q hq).before _ _
    have g12 : ∀ x ∈ n1 ++ n2, ∃ q ∈ p :: ps, ∃ t, x = q ++ t := by
      intro x hx
      rcases List.mem_append.mp hx with hx | hx
      · obtain ⟨n, t, rfl⟩ := under x hx; exact ⟨p, by simp, _, rfl⟩
      · obtain ⟨q, hq, t, ht⟩ := g2 x hx; exact ⟨q, by simp [hq], t, ht⟩
    rcases sent_new (o := o) (s := s) hp with e0 | e0
    · exact ⟨n1 ++ n2, by rw [e2, e1, e0]; simp, h12, g12⟩
    · refine ⟨p :: (n1 ++ n2), by rw [e2, e1, e0]; simp, ?_, ?_⟩
      · rw [List.pairwise_cons]
        refine ⟨?_, h12⟩
        intro x hx
        rcases List.mem_append.mp hx with hx | hx
        · obtain ⟨n, t, rfl⟩ := under x hx; exact .inl ⟨n, t, rfl⟩
        · obtain ⟨q, hq, t, rfl⟩ := g2 x hx
          have := (hs.1 q hq).before [] t
          simpa using this
      · intro x hx
        rcases List.mem_cons.mp hx with rfl | hx
        · exact ⟨x, List.mem_cons_self, [], (List.append_nil x).symm⟩
        · exact g12 x hx

/-- **C48**, the order: with one path given, or none, what is listed is in the order of paths. -/
theorem C48_order {fs : FS} (wf : fs.WF) {o : Opts} {args : List Arg} {cwd r : Path} {res : Bool × List Out}
    (hr : (args = [] ∧ r = cwd) ∨ (args = [.root] ∧ r = []) ∨ args = [.glob [r]]) (hex : ∃ i, fs.lstat r = some i)
    (h : Lists fs o args cwd res) : (pathsOf res.2).Pairwise Before := by
  have hroots : roots args cwd = some [r] := by
    rcases hr with ⟨rfl, rfl⟩ | ⟨rfl, rfl⟩ | rfl <;> rfl
  obtain ⟨fuel, h⟩ := h
  unfold ls at h
  rw [hroots] at h
  simp only [Option.map_eq_some_iff] at h
  obtain ⟨x, hx, rfl⟩ := h
  obtain ⟨_, hv⟩ := runRoots_rel wf o fuel [r] _ x (fun p hp => by simp at hp; subst hp; exact hex) hx
  obtain ⟨new, e, hn, _⟩ := visit_order wf hv (by simp)
  simp only [pathsOf, List.nil_append] at e
  rw [e]; exact hn

/-- With `-0`, only the paths given are sent. -/
theorem zero_order {fs : FS} {o : Opts} (ho : o.depth = .zero) {ps : List Path} {level : Nat} {s s' : St} (h : VisitL fs o ps level s s') :
    ∃ new, pathsOf s'.out = pathsOf s.out ++ new ∧ new.Sublist ps := by
  have no : ∀ p level s, descends fs o p level s = false := by
    intro p level s; simp [descends, ho]
  induction h with
  | nil => exact ⟨[], by simp, .slnil⟩
  | @skip p ps level s s' i hp hdesc hv ih =>
    obtain ⟨new, e, hs⟩ := ih
    rcases sent_new (o := o) (s := s) hp with e0 | e0
    · exact ⟨new, by rw [e, e0], hs.cons _⟩
    · exact ⟨p :: new, by rw [e, e0]; simp, hs.cons_cons _⟩
  | denied _ _ hd => rw [no] at hd; cases hd
  | down _ _ hd => rw [no] at hd; cases hd

/-- **C48**, the order: with `-0`, any number of paths given is listed in order. -/
theorem C48_order_zero {fs : FS} (wf : fs.WF) {o : Opts} (ho : o.depth = .zero) {args : List Arg} {cwd : Path} {res : Bool × List Out}
    (hex : ∀ p, IsRoot args cwd p → ∃ i, fs.lstat p = some i) (h : Lists fs o args cwd res) : (pathsOf res.2).Pairwise Before := by
  have hnd := C48_once wf hex h
  obtain ⟨fuel, h⟩ := h
  unfold ls at h
  split at h
  · cases h
  · rename_i rs hr
    rw [Option.map_eq_some_iff] at h
    obtain ⟨x, hx, rfl⟩ := h
    obtain ⟨_, hv⟩ := runRoots_rel wf o fuel rs _ x (fun p hp => hex p ((mem_roots hr p).mp hp)) hx
    obtain ⟨new, e, hs⟩ := zero_order ho hv
    simp only [pathsOf, List.nil_append] at e
    simp only at hnd ⊢
    rw [e] at hnd ⊢
    have hso : rs.Pairwise fun a b => pathLe a b = true := by
      unfold roots at hr
      split at hr
      · cases hr
      · cases hr; exact sorted_sorted _
    refine ((hso.sublist hs).and hnd).imp ?_
    intro a b ⟨h1, h2⟩
    rcases pathLe_before h1 with rfl | h
    · exact absurd rfl h2
    · exact h

/-! ### Non-vacuity, and a file listed twice -/

/-- `/` contains `0`, a symbolic link to `1`; and `1`, a directory containing the file `2` and `3`, a symbolic link to `/`. -/
def exFS : FS where
  root := 0
  node
    | 0 => .dir (some [(1, 2), (0, 1)])
    | 1 => .link (some 2)
    | 2 => .dir (some [(2, 3), (3, 4)])
    | 3 => .file
    | 4 => .link (some 0)
    | _ => .other

def exRank : Ino → Nat
  | 0 => 2
  | 2 => 1
  | _ => 0

theorem exFS_wf : exFS.WF where
  tree := by
    refine ⟨exRank, fun i es n j h hm => ?_⟩
    unfold exFS at h
    simp only at h
    split at h <;> simp only [Node.dir.injEq, Option.some.injEq, reduceCtorEq] at h <;> subst h <;> simp at hm <;>
      rcases hm with ⟨rfl, rfl⟩ | ⟨rfl, rfl⟩ <;> decide
  finite := by
    refine ⟨3, fun i es h => ?_⟩
    unfold exFS at h
    simp only at h
    split at h <;> first | (simp at h; done) | decide
  names := by
    intro i es h
    unfold exFS at h
    simp only at h
    split at h <;> simp only [Node.dir.injEq, Option.some.injEq, reduceCtorEq] at h <;> subst h <;> decide

example : ∀ p, IsRoot [.root, .glob [[1], [0]]] [] p → ∃ i, exFS.lstat p = some i := by
  intro p hp
  rcases hp with ⟨h, _⟩ | ⟨_, rfl⟩ | ⟨ms, h, hp⟩
  · cases h
  · exact ⟨0, rfl⟩
  · simp at h
    subst h
    simp at hp
    rcases hp with rfl | rfl
    · exact ⟨2, by decide⟩
    · exact ⟨1, by decide⟩

/-- With overlapping arguments and `-r`: every path once. -/
theorem exLists : Lists exFS (mkOpts false false true false false false) [.root, .glob [[1], [0]]] [] (false,
    [.path [], .path [0], .path [0, 2], .path [0, 3], .path [1], .path [1, 2], .path [1, 3]]) := ⟨20, by decide +kernel⟩

example : (pathsOf [.path [], .path [0], .path [0, 2], .path [0, 3], .path [1], .path [1, 2], .path [1, 3]]).Pairwise Before :=
  C48_order exFS_wf (o := mkOpts false false true false false false) (args := [.root]) (cwd := []) (r := [])
    (res := (false, [.path [], .path [0], .path [0, 2], .path [0, 3], .path [1], .path [1, 2], .path [1, 3]]))
    (.inr (.inl ⟨rfl, rfl⟩)) ⟨0, rfl⟩ ⟨20, by decide +kernel⟩

/-- **C48 is false** for files instead of paths: a directory that is first reached through a symbolic link is visited again when it is reached
directly (filenamesop.py 161-171 looks at symbolic links only), so the same file (inode 3) is listed under two paths. -/
theorem C48_false_inode : ¬ ∀ (fs : FS), fs.WF → ∀ (o : Opts) (args : List Arg) (cwd : Path) (res : Bool × List Out),
    (∀ p, IsRoot args cwd p → ∃ i, fs.lstat p = some i) → Lists fs o args cwd res → ((pathsOf res.2).map fs.lstat).Nodup := by
  intro h
  have := h exFS exFS_wf (mkOpts false false true false false false) [.root] [] (false,
    [.path [], .path [0], .path [0, 2], .path [0, 3], .path [1], .path [1, 2], .path [1, 3]]) (by
      intro p hp
      rcases hp with ⟨h, _⟩ | ⟨_, rfl⟩ | ⟨ms, h, hp⟩
      · cases h
      · exact ⟨0, rfl⟩
      · simp at h) ⟨20, by decide +kernel⟩
  revert this
  decide +kernel

end Marcel.Ls
