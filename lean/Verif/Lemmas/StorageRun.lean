import Verif.Lemmas.Storage

/-! # Uninterrupted runs -/

namespace Marcel.Storage

variable {α β : Type}

theorem bind_ok {m : Prog α} {f : α → Prog β} {fs fs' : FS} {a : α} (h : m fs none = .ok a fs' none) : (m >>= f) fs none = f a fs' none := by
  rw [bind_def, h]

theorem change_none (f : FS → FS) (fs : FS) : change f fs none = .ok () (f fs) none := rfl

theorem mkdir_ok {r : Root} {p : Path} {fs : FS} (h : fs r p = none) (hp : p = [] ∨ fs r p.dropLast = some .dir) :
    mkdir r p fs none = .ok () (fs.set r p (some .dir)) none := by
  unfold mkdir
  have h1 : has r p fs = false := by simp [has, h]
  have h2 : (decide (p = []) || isDir r p.dropLast fs) = true := by simpa [isDir] using hp
  simp only [get_bind, h1, Bool.false_eq_true, ↓reduceIte]
  show (if (decide (p = []) || isDir r p.dropLast fs) = true then change fun fs => fs.set r p (some .dir) else fail) fs none = _
  rw [if_pos h2]; rfl

theorem ensureDir_old {r : Root} {p : Path} {fs : FS} (h : fs r p = some .dir) : ensureDir r p fs none = .ok () fs none := by
  unfold ensureDir
  simp [get_bind, isDir, h, pure_def]

theorem ensureDir_new {r : Root} {p : Path} {fs : FS} (h : fs r p = none) (hp : p = [] ∨ fs r p.dropLast = some .dir) :
    ensureDir r p fs none = .ok () (fs.set r p (some .dir)) none := by
  unfold ensureDir
  simp only [get_bind, isDir, h]
  exact mkdir_ok h hp

theorem set_id {fs : FS} {r : Root} {p : Path} {n : Option Node} (h : fs r p = n) : fs.set r p n = fs := by
  funext r' p'; simp only [FS.set]; split
  · rename_i hh; rw [hh.1, hh.2, h]
  · rfl

/-- In either case the directory exists afterwards. -/
theorem ensureDir_ok {r : Root} {p : Path} {fs : FS} (h : fs r p = none ∨ fs r p = some .dir) (hp : p = [] ∨ fs r p.dropLast = some .dir) :
    ensureDir r p fs none = .ok () (fs.set r p (some .dir)) none := by
  rcases h with h | h
  · exact ensureDir_new h hp
  · rw [ensureDir_old h, set_id h]

theorem ensureDirs_one {r : Root} {n : Name} {fs : FS} (h0 : fs r [] = some .dir) (h : fs r [n] = none ∨ fs r [n] = some .dir) :
    ensureDirs r [] [n] fs none = .ok () (fs.set r [n] (some .dir)) none := by
  simp only [ensureDirs]
  rw [bind_ok (ensureDir_old h0)]
  exact ensureDir_ok (by simpa using h) (.inr (by simpa using h0))

theorem touch_new {r : Root} {p : Path} {fs : FS} (h : fs r p = none) (hp : fs r p.dropLast = some .dir) :
    touch r p fs none = .ok () (fs.set r p (some (.file []))) none := by
  unfold touch
  simp only [get_bind, has, h, Option.isSome_none, Bool.false_eq_true, ↓reduceIte, isDir, hp, decide_true]; rfl

theorem touch_old {r : Root} {p : Path} {fs : FS} (h : (fs r p).isSome) : touch r p fs none = .ok () fs none := by
  unfold touch
  simp only [get_bind, has, h]; rfl

theorem writeFile_ok {r : Root} {p : Path} {c : Text} {fs : FS} (h : fs r p ≠ some .dir) (hp : fs r p.dropLast = some .dir) :
    writeFile r p c fs none = .ok () (fs.set r p (some (.file c))) none := by
  unfold writeFile
  simp only [get_bind, isDir, h, hp, decide_false, decide_true, Bool.false_eq_true, ↓reduceIte]
  show Res.ok () ((fs.set r p _).set r p _) none = _
  rw [set_set]

theorem unlink_ok {r : Root} {p : Path} {c : Text} {fs : FS} (h : fs r p = some (.file c)) :
    unlink r p fs none = .ok () (fs.set r p none) none := by
  unfold unlink
  simp only [get_bind, has, isDir, h]; rfl

theorem rename_ok {names : List Name} {ra rb : Root} {a b : Path} {fs : FS} (h1 : (fs ra a).isSome) (h2 : ¬(ra = rb ∧ ∃ q, b = a ++ q))
    (h3 : fs rb b.dropLast = some .dir) (h4 : fs rb b = none) :
    rename names ra a rb b fs none = .ok () (fs.move ra a rb b) none := by
  unfold rename
  rw [get_bind]
  have h2' : (decide (ra = rb) && (strip a b).isSome) = false := by
    rw [Bool.and_eq_false_iff]
    by_cases e : ra = rb
    · right
      rw [← Bool.not_eq_true, strip_isSome]
      exact fun hq => h2 ⟨e, hq⟩
    · left; simpa using e
  simp only [has, h1, isDir, h3, h4, h2']
  rfl

theorem shMove_into {names : List Name} {r : Root} {n d : Name} {fs : FS} (hnd : n ≠ d) (h1 : (fs r [n]).isSome) (h2 : fs r [d] = some .dir)
    (h3 : fs r [d, n] = none) : shMove names r [n] r [d] fs none = .ok () (fs.move r [n] r [d, n]) none := by
  unfold shMove
  simp only [get_bind, isDir, h2, decide_true, ↓reduceIte, has]
  simp only [List.getLast?_singleton, Option.toList_some, List.cons_append, List.nil_append, h3, Option.isSome_none, Bool.false_eq_true, ↓reduceIte]
  exact rename_ok h1 (by simp [hnd.symm]) h2 h3

theorem shMove_to {names : List Name} {ra rb : Root} {a b : Path} {fs : FS} (h1 : (fs ra a).isSome) (h2 : ¬(ra = rb ∧ ∃ q, b = a ++ q))
    (h3 : fs rb b.dropLast = some .dir) (h4 : fs rb b = none) :
    shMove names ra a rb b fs none = .ok () (fs.move ra a rb b) none := by
  unfold shMove
  simp only [get_bind, isDir, h4]
  exact rename_ok h1 h2 h3 h4

theorem expect_ok {l : Layout} {fs : FS} (h : layoutOf fs = some (some l)) : expect l fs none = .ok () fs none := by
  unfold expect
  simp [get_bind, h, pure_def]

theorem subdirs_ok {names : List Name} {r : Root} {p : Path} {fs : FS} (h : fs r p = some .dir) :
    subdirs names r p fs none = .ok (names.filter fun n => isDir r (p ++ [n]) fs) fs none := by
  unfold subdirs
  simp [get_bind, isDir, h, Storage.get]

/-! ## Times -/

theorem digit_not_white {c : Char} (h : c.isDigit) : c.isWhitespace = false := by
  simp only [Char.isDigit, Bool.and_eq_true, decide_eq_true_eq] at h
  have h1 : 48 ≤ c.val.toNat := h.1
  cases hw : c.isWhitespace with
  | false => rfl
  | true =>
    exfalso
    simp only [Char.isWhitespace, Bool.or_eq_true, decide_eq_true_eq] at hw
    rcases hw with ((rfl | rfl) | rfl) | rfl <;> exact absurd h1 (by decide)

theorem digit_not_newline {c : Char} (h : c.isDigit) : c ≠ '\n' := by
  rintro rfl; exact absurd h (by decide)

theorem stripText_id {t : Text} {a b : Char} {m : Text} (h : t = a :: (m ++ [b])) (ha : a.isWhitespace = false) (hb : b.isWhitespace = false) :
    stripText t = t := by
  subst h
  simp [stripText, List.dropWhile, ha, hb]

theorem takeWhile_line {a b : Text} (h : ∀ c ∈ a, c ≠ '\n') : line (a ++ '\n' :: b) = a := by
  unfold line
  induction a with
  | nil => simp
  | cons c a ih =>
    have hc : c ≠ '\n' := h c (by simp)
    simp only [List.cons_append, List.takeWhile_cons, ne_eq, hc, not_false_eq_true, decide_true, ↓reduceIte, List.cons.injEq, true_and]
    exact ih fun d hd => h d (by simp [hd])

/-- The history that replaces an old one is recognized. -/
theorem looksPt_new {now : Text} (text : Text) (h : IsTime now) : looksPt (newHistory now text) = some true := by
  obtain ⟨y1, y2, y3, m1, m2, d1, d2, h1, h2, n1, n2, s1, s2, f, fs, rfl, hd⟩ := h
  have hf : f.isDigit := hd f (by simp)
  have e1 : stripText (line (newHistory (['2', y1, y2, y3, '-', m1, m2, '-', d1, d2, ' ', h1, h2, ':', n1, n2, ':', s1, s2, '.'] ++ (fs ++ [f])) text)) = [] := by
    simp [newHistory, line, stripText]
  have e2 : afterLine (newHistory (['2', y1, y2, y3, '-', m1, m2, '-', d1, d2, ' ', h1, h2, ':', n1, n2, ':', s1, s2, '.'] ++ (fs ++ [f])) text) =
      ('#' :: ' ' :: (['2', y1, y2, y3, '-', m1, m2, '-', d1, d2, ' ', h1, h2, ':', n1, n2, ':', s1, s2, '.'] ++ (fs ++ [f]))) ++ '\n' :: text := by
    simp [newHistory, afterLine]
  have e3 := takeWhile_line (b := text) (a := '#' :: ' ' :: (['2', y1, y2, y3, '-', m1, m2, '-', d1, d2, ' ', h1, h2, ':', n1, n2, ':', s1, s2, '.'] ++ (fs ++ [f]))) (by
    intro c hc
    have hdig : ∀ c ∈ [y1, y2, y3, m1, m2, d1, d2, h1, h2, n1, n2, s1, s2, f] ++ fs, c ≠ '\n' := fun c hc => digit_not_newline (hd c hc)
    simp only [List.mem_append, List.mem_cons, List.not_mem_nil, or_false] at hdig hc
    rcases hc with rfl | rfl | hc
    · decide
    · decide
    · rcases hc with hc | hc
      · rcases hc with rfl | rfl | rfl | rfl | rfl | rfl | rfl | rfl | rfl | rfl | rfl | rfl | rfl | rfl | rfl | rfl | rfl | rfl | rfl | rfl
        all_goals first | decide | (apply hdig; simp)
      · rcases hc with hc | rfl
        · exact hdig _ (.inr hc)
        · apply hdig; simp)
  have e4 := stripText_id (t := '#' :: ' ' :: (['2', y1, y2, y3, '-', m1, m2, '-', d1, d2, ' ', h1, h2, ':', n1, n2, ':', s1, s2, '.'] ++ (fs ++ [f])))
    (a := '#') (b := f) (m := ' ' :: (['2', y1, y2, y3, '-', m1, m2, '-', d1, d2, ' ', h1, h2, ':', n1, n2, ':', s1, s2, '.'] ++ fs)) (by simp) (by decide)
    (digit_not_white hf)
  unfold looksPt
  rw [e1, e2, e3, e4]
  simp [checkAt]

end Marcel.Storage
