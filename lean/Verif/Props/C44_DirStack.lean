import Verif.Model.DirStack
/-! # C44: the directory stack and the current directory agree -/

namespace Marcel.DirStack

variable {D : Type}

/-- The current directory of the process, `PWD`, and the top of the directory stack are the same. -/
def Agree (s : State D) : Prop := s.cwd = s.pwd ∧ s.stack.getLast? = some s.pwd

/-- A file system is consistent: a path exists, is a directory and accessible if what it resolves to is; what
exists is a directory or not; resolving twice is resolving once. -/
structure FS.Sane (fs : FS D) : Prop where
  ex : ∀ d, fs.exists_ (fs.resolve d) = fs.exists_ d
  dir : ∀ d, fs.isDir (fs.resolve d) = fs.isDir d
  acc : ∀ d, fs.access (fs.resolve d) = fs.access d
  twice : ∀ d, fs.resolve (fs.resolve d) = fs.resolve d
  dirEx : ∀ d, fs.isDir d = true → fs.exists_ d = true

/-- The current directory is still there and accessible, and none of the directories on the stack has been replaced by
a symbolic link to another one. -/
structure Usable (fs : FS D) (s : State D) : Prop where
  sane : fs.Sane
  pwdEx : fs.exists_ s.pwd = true
  pwdAcc : fs.access s.pwd = true
  canon : ∀ d ∈ s.stack, fs.resolve d = d

theorem clean_agree {fs : FS D} {s : State D} (h : Agree s) (hu : Usable fs s) : Agree (s.clean fs) := by
  refine ⟨h.1, ?_⟩
  have h2 := h.2
  show ((s.stack.filter _).getLast?) = some s.pwd
  rw [List.getLast?_eq_some_iff] at h2
  obtain ⟨l, hl⟩ := h2
  rw [hl, List.filter_append]
  simp [hu.pwdEx, hu.pwdAcc]

theorem chdirTo_ok {fs : FS D} {s : State D} {d : D} (h : (chdirTo fs s d).ok = true) :
    (chdirTo fs s d).state =
      { stack := if s.stack.isEmpty then [d] else s.stack.dropLast ++ [d], pwd := d, cwd := d } := by
  unfold chdirTo at h ⊢
  split
  · rfl
  · rename_i hc; simp [hc] at h

theorem chdirTo_fail {fs : FS D} {s : State D} {d : D} (h : (chdirTo fs s d).ok = false) :
    (chdirTo fs s d).state = s := by
  unfold chdirTo at h ⊢
  split
  · rename_i hc; simp [hc] at h
  · rfl

theorem chdirTo_agree {fs : FS D} {s : State D} {d : D} (h : (chdirTo fs s d).ok = true) :
    Agree (chdirTo fs s d).state := by
  rw [chdirTo_ok h]
  refine ⟨rfl, ?_⟩
  simp only
  split <;> simp

theorem clean_clean (fs : FS D) (s : State D) : (s.clean fs).clean fs = s.clean fs := by
  unfold State.clean
  simp [List.filter_filter]

theorem changeDir_fail {fs : FS D} {home : D} {s : State D} {d : D} (h : (changeDir fs home s d).ok = false) :
    (changeDir fs home s d).state = s.clean fs := by
  unfold changeDir at h ⊢
  split
  · rename_i hc; simp only [hc, if_true] at h; exact chdirTo_fail h
  · rename_i hc
    simp only [hc] at h
    unfold goHome at h ⊢
    split
    · split
      · rename_i h1 h2; simp [h1, h2] at h
      · rfl
    · rfl

theorem goHome_agree {fs : FS D} (hs : fs.Sane) {home : D} {s : State D} (h : (goHome fs home s).ok = true) :
    Agree (goHome fs home s).state := by
  unfold goHome at h ⊢
  split
  · split
    · rename_i h1 h2
      have := chdirTo_ok h2
      refine ⟨?_, ?_⟩
      · rw [this]
      · simp only
        rw [this]
        simp [hs.twice]
    · rename_i h1 h2; simp [h1, h2] at h
  · rename_i h1; simp [h1] at h

theorem changeDir_agree {fs : FS D} (hs : fs.Sane) {home : D} {s : State D} {d : D}
    (h : (changeDir fs home s d).ok = true) : Agree (changeDir fs home s d).state := by
  unfold changeDir at h ⊢
  split
  · rename_i hc; simp only [hc, if_true] at h; exact chdirTo_agree h
  · rename_i hc
    simp only [hc] at h
    exact goHome_agree hs h

theorem swapTop_mem (l : List D) (d : D) : d ∈ swapTop l ↔ d ∈ l := by
  unfold swapTop
  split
  · rename_i a b r e
    have : l = r.reverse ++ [b, a] := by
      rw [← List.reverse_reverse l, e]; simp
    rw [this]
    simp only [List.mem_append, List.mem_cons, List.not_mem_nil, or_false]
    constructor <;> (rintro (h | h | h) <;> simp [h])
  · exact Iff.rfl

theorem getLast?_mem {l : List D} {d : D} (h : l.getLast? = some d) : d ∈ l := by
  rw [List.getLast?_eq_some_iff] at h
  obtain ⟨m, rfl⟩ := h
  simp

/-- What the entries of a cleaned stack are like. -/
theorem mem_clean {fs : FS D} {s : State D} {d : D} (h : d ∈ (s.clean fs).stack) :
    d ∈ s.stack ∧ fs.exists_ d = true ∧ fs.access d = true := by
  unfold State.clean at h
  simp only [List.mem_filter, Bool.and_eq_true] at h
  exact ⟨h.1, h.2.1, h.2.2⟩

theorem pushDir_agree {fs : FS D} {home : D} {s : State D} {d : Option D} (hu : Usable fs s)
    (hd : ∀ e, d = some e → fs.exists_ e = true)
    (h : (pushDir fs home s d).ok = true) : Agree (pushDir fs home s d).state := by
  unfold pushDir at h ⊢
  split
  · rename_i e; simp [e] at h
  · rename_i top e
    simp only [e] at h
    split
    · rename_i hok
      have hres : fs.exists_ top = true ∧ fs.resolve top = top := by
        cases d with
        | none =>
          have hm := getLast?_mem e
          simp only [pushed] at hm
          rw [swapTop_mem] at hm
          have := mem_clean hm
          exact ⟨this.2.1, hu.canon top this.1⟩
        | some x =>
          simp only [pushed, List.getLast?_append, List.getLast?_singleton, Option.or_some,
            Option.some.injEq] at e
          have e : fs.resolve x = top := by simpa using e
          rw [← e]
          exact ⟨by rw [hu.sane.ex]; exact hd x rfl, hu.sane.twice x⟩
      have hst : (changeDir fs home (s.clean fs) top).state.pwd = top ∧
          (changeDir fs home (s.clean fs) top).state.cwd = top := by
        unfold changeDir at hok ⊢
        rw [hres.2, if_pos hres.1] at hok ⊢
        rw [chdirTo_ok hok]; exact ⟨rfl, rfl⟩
      refine ⟨by rw [hst.1, hst.2], ?_⟩
      simp only
      rw [hst.1]; exact e
    · rename_i hno
      simp only [hno] at h
      exact absurd h hno

theorem popDir_agree {fs : FS D} {home : D} {s : State D} (ha : Agree s) (hu : Usable fs s)
    (h : (popDir fs home s).ok = true) : Agree (popDir fs home s).state := by
  unfold popDir at h ⊢
  split
  · rename_i a prev r e
    have hst : (s.clean fs).stack = r.reverse ++ [prev, a] := by
      rw [← List.reverse_reverse (s.clean fs).stack, e]; simp
    have hm := mem_clean (d := prev) (by rw [hst]; simp)
    have hcan := hu.canon prev hm.1
    split
    · rename_i hok
      have : (changeDir fs home (s.clean fs) prev).state =
          { stack := r.reverse ++ [prev, prev], pwd := prev, cwd := prev } := by
        unfold changeDir at hok ⊢
        rw [hcan, if_pos hm.2.1] at hok ⊢
        rw [chdirTo_ok hok, clean_clean, hst]
        simp
      rw [this]
      refine ⟨rfl, ?_⟩
      simp
    · rename_i hno
      rw [e] at h
      simp only [hno] at h
      exact absurd h hno
  · exact clean_agree ha hu

theorem resetDirs_agree {fs : FS D} {s : State D} (ha : Agree s) (hu : Usable fs s) : Agree (resetDirs fs s) := by
  refine ⟨ha.1, ?_⟩
  unfold resetDirs State.clean
  simp [hu.pwdEx, hu.pwdAcc]

/-- A command that fails changes nothing: the process stays where it is, and the directory stack is as before, apart
from directories that do not exist any more or are not accessible any more. -/
theorem C44_failed (fs : FS D) (home : D) (s : State D) (c : Cmd D) (h : (c.run fs home s).ok = false) :
    (c.run fs home s).state.pwd = s.pwd ∧ (c.run fs home s).state.cwd = s.cwd ∧
    (c.run fs home s).state.stack = s.stack.filter (fun d => fs.exists_ d && fs.access d) := by
  have key : (c.run fs home s).state = s.clean fs := by
    have hpush : ∀ d, (pushDir fs home s d).ok = false → (pushDir fs home s d).state = s.clean fs := by
      intro d h
      unfold pushDir at h ⊢
      split
      · rfl
      · rename_i e
        simp only [e] at h
        split
        · rename_i hok; simp [hok] at h
        · rename_i hno
          simp only [hno] at h
          rw [changeDir_fail (by simpa using hno), clean_clean]
    cases c with
    | cd d =>
      unfold Cmd.run at h ⊢
      simp only at h ⊢
      split
      · rename_i hd; rw [if_pos hd] at h; exact changeDir_fail h
      · rfl
    | pushd d =>
      cases d with
      | none => exact hpush _ h
      | some d =>
        unfold Cmd.run at h ⊢
        simp only at h ⊢
        split
        · rename_i hd; rw [if_pos hd] at h; exact hpush _ h
        · rfl
    | popd =>
      unfold Cmd.run at h ⊢
      simp only at h ⊢
      unfold popDir at h ⊢
      split
      · rename_i e
        rw [e] at h
        simp only at h
        split
        · rename_i hok; simp [hok] at h
        · rename_i hno
          rw [changeDir_fail (by simpa using hno), clean_clean]
      · rfl
    | dirs => simp [Cmd.run] at h
    | dirsClear => simp [Cmd.run] at h
    | pwd => simp [Cmd.run] at h
    | start => exact changeDir_fail h
  rw [key]
  exact ⟨rfl, rfl, rfl⟩

theorem step_agree {fs : FS D} {home : D} {s : State D} (ha : Agree s) (hu : Usable fs s) (c : Cmd D) :
    Agree (c.run fs home s).state := by
  cases hok : (c.run fs home s).ok with
  | false =>
    obtain ⟨h1, h2, h3⟩ := C44_failed fs home s c hok
    have := clean_agree ha hu
    exact ⟨by rw [h1, h2]; exact ha.1, by rw [h1, h3]; exact this.2⟩
  | true =>
    cases c with
    | cd d =>
      unfold Cmd.run at hok ⊢
      simp only at hok ⊢
      split
      · rename_i hd; rw [if_pos hd] at hok; exact changeDir_agree hu.sane hok
      · exact clean_agree ha hu
    | pushd d =>
      cases d with
      | none => exact pushDir_agree hu (by simp) hok
      | some d =>
        unfold Cmd.run at hok ⊢
        simp only at hok ⊢
        split
        · rename_i hd
          rw [if_pos hd] at hok
          exact pushDir_agree hu (by intro e he; cases he; exact hd) hok
        · exact clean_agree ha hu
    | popd => exact popDir_agree ha hu hok
    | dirs => exact clean_agree ha hu
    | dirsClear => exact resetDirs_agree ha hu
    | pwd => exact clean_agree ha hu
    | start => exact changeDir_agree hu.sane hok

/-- **C44**. After any sequence of commands, with the file system changing in any way between them as long as the current
directory remains, the top of the directory stack, `PWD` and the current directory of the process are the same. Missing: histories in which
the current directory is deleted: `C44_false_deleted`. -/
theorem C44_partial (home d : D) (hist : List (FS D × Cmd D))
    (hu : ∀ pre fs c post, hist = pre ++ (fs, c) :: post → Usable fs (runAll home (initial d) pre)) :
    Agree (runAll home (initial d) hist) := by
  suffices h : ∀ (s : State D), Agree s →
      (∀ pre fs c post, hist = pre ++ (fs, c) :: post → Usable fs (runAll home s pre)) → Agree (runAll home s hist) from
    h (initial d) ⟨rfl, rfl⟩ hu
  clear hu
  induction hist with
  | nil => intro s ha _; exact ha
  | cons x hist ih =>
    intro s ha hu
    obtain ⟨fs, c⟩ := x
    exact ih _ (step_agree ha (hu [] fs c hist rfl) c)
      (fun pre fs' c' post e => hu ((fs, c) :: pre) fs' c' post (by rw [e]; rfl))

/-- What `dirs` prints first is the current directory. -/
theorem C44_printed (s : State D) (h : Agree s) : (printed s).head? = some s.cwd := by
  unfold printed
  rw [List.head?_reverse, h.2, h.1]

/-- `popd` after a successful `pushd d` restores the directory and the stack (apart from directories that have disappeared
in the meantime). -/
theorem C44_push_pop (fs1 fs2 : FS D) (home d : D) (s : State D) (ha : Agree s) (h1 : Usable fs1 s)
    (hok : (Cmd.run fs1 home s (.pushd (some d))).ok = true)
    (h2 : Usable fs2 (Cmd.run fs1 home s (.pushd (some d))).state)
    (hback : fs2.isDir s.pwd = true ∧ fs2.access s.pwd = true) :
    (Cmd.run fs2 home (Cmd.run fs1 home s (.pushd (some d))).state .popd).ok = true ∧
    (Cmd.run fs2 home (Cmd.run fs1 home s (.pushd (some d))).state .popd).state =
      { s with stack := s.stack.filter fun e =>
          (fs1.exists_ e && fs1.access e) && (fs2.exists_ e && fs2.access e) } := by
  have hde : fs1.exists_ d = true := by
    cases hd : fs1.exists_ d with
    | true => rfl
    | false => simp [Cmd.run, hd] at hok
  have e1 : Cmd.run fs1 home s (.pushd (some d)) = pushDir fs1 home s (some d) := by
    show (if fs1.exists_ d then _ else _) = _
    rw [if_pos hde]
  rw [e1] at hok h2 ⊢
  have hlast : (pushed fs1 (s.clean fs1).stack (some d)).getLast? = some (fs1.resolve d) := by
    simp [pushed]
  have hpush : (pushDir fs1 home s (some d)).state =
      ⟨(s.clean fs1).stack ++ [fs1.resolve d], fs1.resolve d, fs1.resolve d⟩ := by
    unfold pushDir at hok ⊢
    simp only [hlast] at hok ⊢
    split
    · rename_i hc
      have : (changeDir fs1 home (s.clean fs1) (fs1.resolve d)).state.pwd = fs1.resolve d ∧
          (changeDir fs1 home (s.clean fs1) (fs1.resolve d)).state.cwd = fs1.resolve d := by
        unfold changeDir at hc ⊢
        rw [h1.sane.twice, if_pos (by rw [h1.sane.ex]; exact hde)] at hc ⊢
        rw [chdirTo_ok hc]; exact ⟨rfl, rfl⟩
      rw [this.1, this.2]; rfl
    · rename_i hc
      simp only [hc] at hok
      exact absurd hok hc
  rw [hpush] at h2 ⊢
  have hbx := h2.sane.dirEx _ hback.1
  obtain ⟨l, hl⟩ := List.getLast?_eq_some_iff.mp (clean_agree ha h1).2
  have hlp : (s.clean fs1).stack = l ++ [s.pwd] := hl
  have hcan : fs2.resolve s.pwd = s.pwd := h2.canon s.pwd (by simp [hlp])
  have hst : (State.clean fs2 ⟨(s.clean fs1).stack ++ [fs1.resolve d], fs1.resolve d, fs1.resolve d⟩).stack =
      (l.filter fun e => fs2.exists_ e && fs2.access e) ++ [s.pwd, fs1.resolve d] := by
    have p1 := h2.pwdEx
    have p2 := h2.pwdAcc
    simp only at p1 p2
    rw [hlp]
    simp [State.clean, hbx, hback.2, p1, p2]
  have hpop : popDir fs2 home ⟨(s.clean fs1).stack ++ [fs1.resolve d], fs1.resolve d, fs1.resolve d⟩ =
      ⟨true, ⟨(l.filter fun e => fs2.exists_ e && fs2.access e) ++ [s.pwd], s.pwd, s.pwd⟩⟩ := by
    have hch : changeDir fs2 home
        (State.clean fs2 ⟨(s.clean fs1).stack ++ [fs1.resolve d], fs1.resolve d, fs1.resolve d⟩) s.pwd =
        ⟨true, ⟨(l.filter fun e => fs2.exists_ e && fs2.access e) ++ [s.pwd, s.pwd], s.pwd, s.pwd⟩⟩ := by
      unfold changeDir
      rw [hcan, if_pos hbx]
      unfold chdirTo
      simp only [hback.1, hback.2, Bool.and_self, if_true, clean_clean, hst]
      simp
    unfold popDir
    rw [hst]
    simp only [List.reverse_append, List.reverse_cons, List.reverse_nil, List.nil_append, List.singleton_append,
      List.cons_append, hch, if_true]
    simp
  show (popDir fs2 home _).ok = true ∧ (popDir fs2 home _).state = _
  rw [hpop]
  refine ⟨rfl, ?_⟩
  have hfil : s.stack.filter (fun e => (fs1.exists_ e && fs1.access e) && (fs2.exists_ e && fs2.access e)) =
      (l.filter fun e => fs2.exists_ e && fs2.access e) ++ [s.pwd] := by
    have : s.stack.filter (fun e => (fs1.exists_ e && fs1.access e) && (fs2.exists_ e && fs2.access e)) =
        ((s.clean fs1).stack).filter (fun e => fs2.exists_ e && fs2.access e) := by
      simp [State.clean, List.filter_filter]
      congr 1
      funext e
      simp [Bool.and_comm, Bool.and_left_comm]
    rw [this, hlp, List.filter_append]
    simp [hbx, hback.2]
  rw [hfil, ha.1]

/-! ### What each command does -/

theorem changeDir_there {fs : FS D} (hs : fs.Sane) {home : D} {s : State D} {d : D} (hd : fs.isDir d = true) (ha : fs.access d = true) :
    changeDir fs home s d = ⟨true, ⟨(s.clean fs).stack.dropLast ++ [fs.resolve d], fs.resolve d, fs.resolve d⟩⟩ := by
  have h1 : fs.exists_ (fs.resolve d) = true := by rw [hs.ex]; exact hs.dirEx d hd
  unfold changeDir chdirTo
  rw [if_pos h1, hs.dir, hs.acc, hd, ha]
  cases h : (s.clean fs).stack <;> simp

/-- `cd d` goes to the directory that `d` is (links are followed), and replaces the top of the stack by it. -/
theorem C44_cd (fs : FS D) (hs : fs.Sane) (home : D) (s : State D) (d : D) (hd : fs.isDir d = true) (ha : fs.access d = true) :
    Cmd.run fs home s (.cd d) =
      ⟨true, ⟨(s.stack.filter fun e => fs.exists_ e && fs.access e).dropLast ++ [fs.resolve d], fs.resolve d, fs.resolve d⟩⟩ := by
  show (if fs.isDir d then _ else _) = _
  rw [if_pos hd, changeDir_there hs hd ha]; rfl

/-- `cd d` fails if `d` is not a directory, or not accessible. -/
theorem C44_cd_refused (fs : FS D) (hs : fs.Sane) (home : D) (s : State D) (d : D) (h : ¬(fs.isDir d = true ∧ fs.access d = true)) :
    (Cmd.run fs home s (.cd d)).ok = false := by
  show (if fs.isDir d then changeDir fs home s d else ⟨false, s.clean fs⟩ : Result D).ok = false
  split
  · rename_i hd
    have ha : fs.access d = false := by simpa [hd] using h
    unfold changeDir chdirTo
    rw [if_pos (by rw [hs.ex]; exact hs.dirEx d hd), hs.acc, ha]
    simp
  · rfl

/-- `pushd d` goes to the directory that `d` is, and puts it on top of the stack. -/
theorem C44_pushd (fs : FS D) (hs : fs.Sane) (home : D) (s : State D) (d : D) (hd : fs.isDir d = true) (ha : fs.access d = true) :
    Cmd.run fs home s (.pushd (some d)) =
      ⟨true, ⟨(s.stack.filter fun e => fs.exists_ e && fs.access e) ++ [fs.resolve d], fs.resolve d, fs.resolve d⟩⟩ := by
  show (if fs.exists_ d then pushDir fs home s (some d) else _) = _
  rw [if_pos (hs.dirEx d hd)]
  have hlast : (pushed fs (s.clean fs).stack (some d)).getLast? = some (fs.resolve d) := by simp [pushed]
  unfold pushDir
  simp only [hlast]
  rw [changeDir_there hs (by rw [hs.dir]; exact hd) (by rw [hs.acc]; exact ha), hs.twice]
  rfl

/-- `pushd d` fails if `d` is not a directory, or not accessible. -/
theorem C44_pushd_refused (fs : FS D) (hs : fs.Sane) (home : D) (s : State D) (d : D) (h : ¬(fs.isDir d = true ∧ fs.access d = true)) :
    (Cmd.run fs home s (.pushd (some d))).ok = false := by
  show (if fs.exists_ d then pushDir fs home s (some d) else ⟨false, s.clean fs⟩ : Result D).ok = false
  split
  · rename_i he
    have hlast : (pushed fs (s.clean fs).stack (some d)).getLast? = some (fs.resolve d) := by simp [pushed]
    have hno : (changeDir fs home (s.clean fs) (fs.resolve d)).ok = false := by
      unfold changeDir chdirTo
      rw [hs.twice, if_pos (by rw [hs.ex]; exact he), hs.acc, hs.dir]
      rw [if_neg (by simpa using h)]
    unfold pushDir
    simp only [hlast, hno, Bool.false_eq_true, ↓reduceIte]
  · rfl

/-- `pushd` without an argument swaps the two topmost directories and goes to the new top. -/
theorem C44_swap (fs : FS D) (hs : fs.Sane) (home : D) (s : State D) (l : List D) (a b : D)
    (hst : s.stack.filter (fun e => fs.exists_ e && fs.access e) = l ++ [a, b]) (hd : fs.isDir a = true) (ha : fs.access a = true)
    (hr : fs.resolve a = a) :
    Cmd.run fs home s (.pushd none) = ⟨true, ⟨l ++ [b, a], a, a⟩⟩ := by
  have hc : (s.clean fs).stack = l ++ [a, b] := hst
  have hp : pushed fs (s.clean fs).stack none = l ++ [b, a] := by
    rw [hc]; simp [pushed, swapTop]
  show pushDir fs home s none = _
  have hlast : (pushed fs (s.clean fs).stack none).getLast? = some a := by rw [hp]; simp
  unfold pushDir
  simp only [hlast]
  rw [changeDir_there hs hd ha, hp, hr]
  rfl

/-- A shell starts in the directory `PWD`, if that is still an accessible directory, otherwise in the home directory. -/
theorem C44_start (fs : FS D) (hs : fs.Sane) (home : D) (s : State D) (hh : fs.isDir home = true ∧ fs.access home = true)
    (hp : fs.isDir s.pwd = true → fs.access s.pwd = true) :
    (Cmd.run fs home s .start).ok = true ∧
    (Cmd.run fs home s .start).state.cwd = (if fs.isDir s.pwd then fs.resolve s.pwd else fs.resolve home) := by
  show (changeDir fs home s (startDir fs home s)).ok = true ∧ (changeDir fs home s (startDir fs home s)).state.cwd = _
  cases hd : fs.isDir s.pwd with
  | true =>
    have : startDir fs home s = s.pwd := by simp [startDir, hd, hs.dirEx _ hd]
    rw [this, changeDir_there hs hd (hp hd)]
    exact ⟨rfl, rfl⟩
  | false =>
    have : startDir fs home s = home := by simp [startDir, hd]
    rw [this, changeDir_there hs hh.1 hh.2]
    exact ⟨rfl, by simp⟩

/-! ### Non-vacuity -/

/-- A file system in which every number is a directory, except 9, which is a file, and those listed. -/
def exFS (gone : List Nat) : FS Nat where
  exists_ d := !(gone.contains d)
  isDir d := d != 9 && !(gone.contains d)
  access d := !(gone.contains d)
  resolve d := d

theorem exFS_sane (gone : List Nat) : (exFS gone).Sane := by
  constructor <;> intros <;> simp_all [exFS]

/-- Directories are pushed, one that is not the current one disappears, a directory is popped. -/
def exHist : List (FS Nat × Cmd Nat) :=
  [(exFS [], .pushd (some 2)), (exFS [], .pushd (some 3)), (exFS [2], .cd 4), (exFS [2], .popd)]

example : ∀ pre fs c post, exHist = pre ++ (fs, c) :: post → Usable fs (runAll 0 (initial 1) pre) := by
  intro pre fs c post h
  have fin : ∀ gone pre, (gone.contains (runAll 0 (initial 1) pre).pwd) = false →
      Usable (exFS gone) (runAll 0 (initial 1) pre) := by
    intro gone pre hp
    refine ⟨exFS_sane gone, ?_, ?_, fun _ _ => rfl⟩ <;> simp only [exFS, hp, Bool.not_false]
  rcases pre with _ | ⟨a, _ | ⟨b, _ | ⟨e, _ | ⟨f, pre⟩⟩⟩⟩ <;>
    simp only [exHist, List.cons_append, List.nil_append, List.cons.injEq, Prod.mk.injEq] at h
  · rw [← h.1.1]; exact fin _ _ rfl
  · obtain ⟨ha, h⟩ := h
    rw [← h.1.1, ← ha]; exact fin _ _ rfl
  · obtain ⟨ha, hb, h⟩ := h
    rw [← h.1.1, ← ha, ← hb]; exact fin _ _ rfl
  · obtain ⟨ha, hb, he, h⟩ := h
    rw [← h.1.1, ← ha, ← hb, ← he]; exact fin _ _ rfl
  · obtain ⟨_, _, _, _, h⟩ := h
    simp at h

example : runAll 0 (initial 1) exHist = ⟨[1], 1, 1⟩ := rfl

/-- A `pushd` that fails. -/
example : (Cmd.run (exFS []) 0 (initial 1) (.pushd (some 9))).ok = false := rfl

example : (Cmd.run (exFS []) 0 (initial 1) (.pushd (some 5))).ok = true ∧
    Usable (exFS []) (Cmd.run (exFS []) 0 (initial 1) (.pushd (some 5))).state :=
  ⟨rfl, exFS_sane _, rfl, rfl, fun _ _ => rfl⟩

/-- A file system with a link: 6 is a link to 2, and 7 is not accessible. -/
def linkFS : FS Nat where
  exists_ d := d < 10
  isDir d := d < 9
  access d := d < 10 && d != 7
  resolve d := if d = 6 then 2 else d

theorem linkFS_sane : linkFS.Sane := by
  constructor <;> intro d
  · by_cases h : d = 6 <;> simp [linkFS, h]
  · by_cases h : d = 6 <;> simp [linkFS, h]
  · by_cases h : d = 6 <;> simp [linkFS, h]
  · by_cases h : d = 6 <;> simp [linkFS, h]
  · simp [linkFS]; omega

example : Cmd.run linkFS 0 ⟨[1, 3], 3, 3⟩ (.cd 6) = ⟨true, ⟨[1, 2], 2, 2⟩⟩ := C44_cd linkFS linkFS_sane 0 _ 6 rfl rfl
example : (Cmd.run linkFS 0 ⟨[1, 3], 3, 3⟩ (.cd 7)).ok = false := C44_cd_refused linkFS linkFS_sane 0 _ 7 (by decide)
example : (Cmd.run linkFS 0 ⟨[1, 3], 3, 3⟩ .start).state.cwd = 3 := (C44_start linkFS linkFS_sane 0 _ ⟨rfl, rfl⟩ (by decide)).2
example : Cmd.run linkFS 0 ⟨[1, 3], 3, 3⟩ (.pushd none) = ⟨true, ⟨[3, 1], 1, 1⟩⟩ := C44_swap linkFS linkFS_sane 0 _ [] 1 3 rfl rfl rfl rfl

/-! ### Where it fails -/

/-- **C44** is false of the code: directory 2 is pushed, then deleted (by someone else). `pwd` shows 2 and leaves the stack
with another directory at the top. -/
theorem C44_false_deleted : ∃ hist : List (FS Nat × Cmd Nat),
    (runAll 0 (initial 1) hist).pwd = 2 ∧ (runAll 0 (initial 1) hist).stack = [1] :=
  ⟨[(exFS [], .pushd (some 2)), (exFS [2], .pwd)], rfl, rfl⟩

/-- Then `cd 3` overwrites the directory that was to be kept: `popd` does not go back to 1. -/
theorem C44_false_lost : ∃ hist : List (FS Nat × Cmd Nat),
    runAll 0 (initial 1) hist = ⟨[3], 3, 3⟩ ∧
    hist.map (·.2) = [.pushd (some 2), .cd 3, .popd] :=
  ⟨[(exFS [], .pushd (some 2)), (exFS [2], .cd 3), (exFS [2], .popd)], rfl, rfl⟩

/-- `popd` goes one directory too far if the current directory was deleted: from 3 (deleted), pushed in 2, it goes
to 1. -/
theorem C44_false_popd : ∃ hist : List (FS Nat × Cmd Nat),
    runAll 0 (initial 1) hist = ⟨[1], 1, 1⟩ ∧
    hist.map (·.2) = [.pushd (some 2), .pushd (some 3), .popd] :=
  ⟨[(exFS [], .pushd (some 2)), (exFS [], .pushd (some 3)), (exFS [3], .popd)], rfl, rfl⟩

end Marcel.DirStack
