import Verif.Model.Edit
import Verif.Props.C47_History
/-! # C83: edit -/

namespace Marcel.Edit

open History

/-! ## Specification -/

/-- `c` is the command number `k` of the history (newest first): there are `k` older ones. -/
def Numbered (h : List Text) (k : Nat) (c : Text) : Prop := ∃ newer older, h = newer ++ c :: older ∧ older.length = k

/-- A text whose only newline, if any, is at its end. -/
def OneLine (t : Text) : Prop := ∃ l, '\n' ∉ l ∧ '\r' ∉ l ∧ (t = l ∨ t = l ++ ['\n'])

/-- Spaces. -/
def Blank (ws : Char → Bool) (t : Text) : Prop := ∀ c ∈ t, ws c = true

/-- What the code makes of a text: each newline which is not the last character is doubled. -/
inductive Doubled : Text → Text → Prop
  | nil : Doubled [] []
  | last : Doubled ['\n'] ['\n']
  | newline (t u : Text) : t ≠ [] → Doubled t u → Doubled ('\n' :: t) ('\n' :: '\n' :: u)
  | other (c : Char) (t u : Text) : c ≠ '\n' → Doubled t u → Doubled (c :: t) (c :: u)

/-- Each end of a line (`\r\n`, `\r`, `\n`) becomes `\n`. -/
inductive Unified : Text → Text → Prop
  | nil : Unified [] []
  | crlf (t u : Text) : Unified t u → Unified ('\r' :: '\n' :: t) ('\n' :: u)
  | cr (t u : Text) : ¬ ['\n'] <+: t → Unified t u → Unified ('\r' :: t) ('\n' :: u)
  | other (c : Char) (t u : Text) : c ≠ '\r' → Unified t u → Unified (c :: t) (c :: u)

/-! ## Proofs -/

theorem unified_universal (t : Text) : Unified t (universal t) := by
  fun_induction universal t with
  | case1 => exact .nil
  | case2 r ih => exact .crlf _ _ ih
  | case3 r h ih => exact .cr _ _ (fun ⟨x, hx⟩ => h x hx.symm) ih
  | case4 c r _ h ih => exact .other _ _ _ (fun e => h e) ih

theorem universal_id (t : Text) (h : '\r' ∉ t) : universal t = t := by
  induction t with
  | nil => rfl
  | cons c t ih =>
    have hc : c ≠ '\r' := fun e => h (by simp [e])
    unfold universal
    split
    · rename_i r e; cases e
    · rename_i r e; cases e; exact absurd rfl hc
    · rename_i r _ e; cases e; exact absurd rfl hc
    · rename_i e; cases e
      rw [ih (fun hm => h (List.mem_cons_of_mem _ hm))]

theorem readlines_nil {t : Text} (h : readlines t = []) : t = [] := by
  cases t with
  | nil => rfl
  | cons c t =>
    exfalso
    unfold readlines at h
    split at h
    · rename_i e; cases e
    · cases h
    · split at h <;> cases h

theorem readlines_other (c : Char) (t : Text) (hc : c ≠ '\n') : readlines (c :: t) = match readlines t with
    | [] => [[c]]
    | l :: ls => (c :: l) :: ls := by
  rw [readlines.eq_def]
  split
  · rename_i e; cases e
  · rename_i e; cases e; exact absurd rfl hc
  · rename_i e; cases e; rfl

theorem doubled_lines (t : Text) : Doubled t (joinLines (readlines t)) := by
  induction t with
  | nil => exact .nil
  | cons c t ih =>
    by_cases hc : c = '\n'
    · subst hc
      rw [show readlines ('\n' :: t) = ['\n'] :: readlines t from rfl]
      cases hr : readlines t with
      | nil => rw [readlines_nil hr]; exact .last
      | cons l ls =>
        rw [hr] at ih
        exact .newline t _ (fun e => by rw [e] at hr; cases hr) ih
    · rw [readlines_other c t hc]
      cases hr : readlines t with
      | nil => rw [readlines_nil hr]; exact .other c [] [] hc .nil
      | cons l ls =>
        rw [hr] at ih
        have : joinLines ((c :: l) :: ls) = c :: joinLines (l :: ls) := by cases ls <;> rfl
        simp only [this]
        exact .other c t _ hc ih

theorem Doubled.unique {t u v : Text} (h : Doubled t u) (h' : Doubled t v) : u = v := by
  induction h generalizing v with
  | nil => cases h'; rfl
  | last =>
    cases h' with
    | last => rfl
    | newline _ _ h _ => exact absurd rfl h
    | other _ _ _ h _ => exact absurd rfl h
  | newline t u hne _ ih =>
    cases h' with
    | last => exact absurd rfl hne
    | newline _ _ _ h => rw [ih h]
    | other _ _ _ h _ => exact absurd rfl h
  | other c t u hc _ ih =>
    cases h' with
    | last => exact absurd rfl hc
    | newline _ _ _ _ => exact absurd rfl hc
    | other _ _ _ _ h => rw [ih h]

theorem doubled_oneLine (t : Text) (h : OneLine t) : Doubled t t := by
  obtain ⟨l, h1, h2, h3⟩ := h
  have key : ∀ (tail : Text), Doubled tail tail → Doubled (l ++ tail) (l ++ tail) := by
    intro tail ht
    clear h3 h2
    induction l with
    | nil => exact ht
    | cons c l ih =>
      exact .other c _ _ (fun e => h1 (by simp [e])) (ih (fun hm => h1 (List.mem_cons_of_mem _ hm)))
  rcases h3 with rfl | rfl
  · have := key [] .nil
    simpa using this
  · exact key _ .last

theorem editText_oneLine (ed : Text → Text) (t : Text) (h : OneLine (ed t)) : editText ed t = ed t := by
  unfold editText
  rw [universal_id]
  · exact (doubled_lines _).unique (doubled_oneLine _ h)
  · obtain ⟨l, _, h2, h3⟩ := h
    rcases h3 with h3 | h3 <;> rw [h3] <;> simp [h2]

theorem commandById_numbered (h : List Text) (k : Nat) (c : Text) (hn : Numbered h k c) : commandById h (k : Int) = c ∧ k < h.length := by
  obtain ⟨newer, older, rfl, rfl⟩ := hn
  unfold commandById
  refine ⟨?_, by simp only [List.length_append, List.length_cons]; omega⟩
  rw [if_neg (by omega), if_neg (by simp only [List.length_append, List.length_cons]; omega)]
  have : (newer ++ c :: older).length - 1 - (older.length : Int).toNat = newer.length := by
    simp only [List.length_append, List.length_cons, Int.toNat_natCast]; omega
  rw [this]
  simp

/-- The line `edit N`, with spaces. -/
theorem enter_edit (ws : Char → Bool) (num : Text → Option Int) (e : Env) (h : List Text) (hws : ws 'e' = false) (w s1 s2 s3 : Text)
    (hwne : w ≠ []) (hww : ∀ x ∈ w, ws x = false) (hns : w ≠ "-s".toList ∧ w ≠ "--startup".toList)
    (h1 : Blank ws s1) (h2 : Blank ws s2) (h3 : Blank ws s3) :
    enter ws num e h (s1 ++ ("edit".toList ++ (s2 ++ (w ++ s3)))) = editCommand e num h (s1 ++ ("edit".toList ++ (s2 ++ (w ++ s3)))) (some w) := by
  have hl := lstrip_skip ws s1 ("edit".toList ++ (s2 ++ (w ++ s3))) h1 (by intro a r he; cases he; exact hws)
  have hw : words ws (s2 ++ (w ++ s3)) = [w] := by
    rw [words_skip ws s2 _ h2, words_one ws w hww hwne s3 h3]
  unfold enter
  rw [hl]
  show (match words ws (s2 ++ (w ++ s3)) with | [] => _ | w :: _ => _) = _
  rw [hw]
  simp only
  rw [if_neg (by rintro (h | h); exact hns.1 h; exact hns.2 h)]

/-- **C83.** `edit N` gives the editor exactly the command number N; what is run is what the editor leaves, if that is one line (with or without a
newline at its end), and not empty. -/
theorem C83_edit (ws : Char → Bool) (num : Text → Option Int) (e : Env) (h : List Text) (hws : ws 'e' = false) (k : Nat) (c : Text)
    (hk : Numbered h k c) (w s1 s2 s3 : Text) (hw : num w = some (k : Int)) (hwne : w ≠ []) (hww : ∀ x ∈ w, ws x = false)
    (hns : w ≠ "-s".toList ∧ w ≠ "--startup".toList) (h1 : Blank ws s1) (h2 : Blank ws s2) (h3 : Blank ws s3) (ed : Text)
    (hed : e.var = some ed ∨ e.var = none ∧ e.host = some ed) (ho : OneLine (e.program ed c)) (hne : e.program ed c ≠ []) :
    enter ws num e h (s1 ++ ("edit".toList ++ (s2 ++ (w ++ s3)))) = ⟨some (ed, c), false, e.program ed c⟩ := by
  rw [enter_edit ws num e h hws w s1 s2 s3 hwne hww hns h1 h2 h3]
  obtain ⟨hc, hlt⟩ := commandById_numbered h k c hk
  have he : e.editor = some ed := by
    unfold Env.editor
    rcases hed with hed | ⟨h1, h2⟩
    · rw [hed]
    · rw [h1, h2]
  unfold editCommand
  simp only [hw, he, hc, editText_oneLine _ _ ho]
  rw [show replaced _ (e.program ed c) = e.program ed c from if_neg hne]
  congr 1
  simp; omega

/-- **C83.** `edit` without a number gives the editor the last command. -/
theorem C83_last (ws : Char → Bool) (num : Text → Option Int) (e : Env) (c : Text) (older : List Text) (hws : ws 'e' = false) (s1 s2 : Text)
    (h1 : Blank ws s1) (h2 : Blank ws s2) (ed : Text) (hed : e.var = some ed ∨ e.var = none ∧ e.host = some ed)
    (ho : OneLine (e.program ed c)) (hne : e.program ed c ≠ []) :
    enter ws num e (c :: older) (s1 ++ ("edit".toList ++ s2)) = ⟨some (ed, c), false, e.program ed c⟩ := by
  have hl := lstrip_skip ws s1 ("edit".toList ++ s2) h1 (by intro a r he; cases he; exact hws)
  have hw : words ws s2 = [] := by
    have := words_skip ws s2 [] h2
    rw [List.append_nil] at this
    rw [this]; rfl
  obtain ⟨hc, hlt⟩ := commandById_numbered (c :: older) older.length c ⟨[], older, rfl, rfl⟩
  have he : e.editor = some ed := by
    unfold Env.editor
    rcases hed with hed | ⟨h1, h2⟩
    · rw [hed]
    · rw [h1, h2]
  have hid : (((c :: older).length : Int) - 1) = (older.length : Int) := by simp
  unfold enter
  rw [hl]
  show (match words ws s2 with | [] => _ | w :: _ => _) = _
  rw [hw]
  unfold editCommand
  simp only [hid, he, hc, editText_oneLine _ _ ho]
  rw [show replaced _ (e.program ed c) = e.program ed c from if_neg hne]
  congr 1
  exact decide_eq_false (by rintro (h | h) <;> omega)

/-- **C83.** In general, what is run is what the editor leaves, with each end of a line become a newline, and each newline but one at the end doubled. -/
theorem C83_lines (ed : Text → Text) (t : Text) : ∃ u, Unified (ed t) u ∧ Doubled u (editText ed t) :=
  ⟨universal (ed t), unified_universal _, doubled_lines _⟩

theorem editText_doubled (ed : Text → Text) (t : Text) (h : '\r' ∉ ed t) : Doubled (ed t) (editText ed t) := by
  unfold editText
  rw [universal_id _ h]
  exact doubled_lines _

/-- **C83.** A line that does not begin with `!` or `edit` (after spaces) is run as it was typed; no editor is started. -/
theorem C83_other (ws : Char → Bool) (num : Text → Option Int) (e : Env) (h : List Text) (s t : Text) (hs : Blank ws s)
    (ht : ∀ c r, t = c :: r → ws c = false) (h1 : ¬ ['!'] <+: t) (h2 : ¬ "edit".toList <+: t) :
    enter ws num e h (s ++ t) = ⟨none, false, s ++ t⟩ := by
  unfold enter
  rw [lstrip_skip ws s t hs ht]
  split
  · exact absurd ⟨_, rfl⟩ h1
  · exact absurd ⟨_, rfl⟩ h2
  · rfl

/-- **C83.** `edit -s ...` and `edit --startup ...` are left to the operator; it edits the startup script of the current workspace, or of the one
that is named, which must exist. -/
theorem C83_startup (ws : Char → Bool) (num : Text → Option Int) (e : Env) (h : List Text) (hws : ws 'e' = false) (w s1 s2 rest : Text)
    (hw : w = "-s".toList ∨ w = "--startup".toList) (hwd : ws '-' = false ∧ ∀ c ∈ w, ws c = false) (h1 : Blank ws s1) (h2 : Blank ws s2)
    (hr : rest = [] ∨ ∃ c r, rest = c :: r ∧ ws c = true) (current : Text) (workspaces : List Text) :
    enter ws num e h (s1 ++ ("edit".toList ++ (s2 ++ (w ++ rest)))) = ⟨none, false, s1 ++ ("edit".toList ++ (s2 ++ (w ++ rest)))⟩ ∧
    (e.var ≠ none ∨ e.host ≠ none → opEdit e current workspaces ⟨some none, none⟩ = .edits current ∧
      ∀ n, opEdit e current workspaces ⟨some (some n), none⟩ = if n ∈ workspaces then .edits n else .kill) ∧
    (e.var = none ∧ e.host = none → ∀ a, opEdit e current workspaces ⟨a, none⟩ = .kill) := by
  refine ⟨?_, ?_, ?_⟩
  · have hl := lstrip_skip ws s1 ("edit".toList ++ (s2 ++ (w ++ rest))) h1 (by intro a r he; cases he; exact hws)
    have hwords : ∃ r, words ws (s2 ++ (w ++ rest)) = w :: r := by
      rw [words_skip ws s2 _ h2]
      have key : ∀ (w : Text), w ≠ [] → (∀ c ∈ w, ws c = false) → ∃ r, words ws (w ++ rest) = w :: r := by
        intro w
        induction w with
        | nil => intro h; exact absurd rfl h
        | cons c w ih =>
          intro _ hc
          have hcf := hc c (by simp)
          cases w with
          | nil =>
            rcases hr with rfl | ⟨d, r, rfl, hd⟩
            · exact ⟨[], by simp [words, hcf]⟩
            · refine ⟨words ws (d :: r), ?_⟩
              rw [List.cons_append, words.eq_def]
              simp [hcf, hd]
          | cons d w =>
            obtain ⟨r, hr'⟩ := ih (by simp) (fun x hx => hc x (by simp [hx]))
            refine ⟨r, ?_⟩
            rw [List.cons_append, List.cons_append, words.eq_def]
            rw [List.cons_append] at hr'
            have hd := hc d (by simp)
            simp only [hcf, hd, Bool.false_eq_true, if_false, hr']
      exact key w (by rcases hw with rfl | rfl <;> decide) hwd.2
    obtain ⟨r, hwr⟩ := hwords
    unfold enter
    rw [hl]
    show (match words ws (s2 ++ (w ++ rest)) with | [] => _ | w :: _ => _) = _
    rw [hwr]
    simp only
    rw [if_pos hw]
  · intro he
    have : e.editor.isSome = true := by
      unfold Env.editor
      cases hv : e.var with
      | some x => rfl
      | none =>
        cases hh : e.host with
        | some x => rfl
        | none => rcases he with h | h; exact absurd hv h; exact absurd hh h
    unfold opEdit
    simp [this]
  · rintro ⟨hv, hh⟩ a
    have : e.editor.isSome = false := by unfold Env.editor; rw [hv, hh]; rfl
    unfold opEdit
    rcases a with _ | _ | n <;> simp [this]

/-! ## What is false -/

/-- **C83 is false for commands of several lines**: with an editor that changes nothing, `edit` of a command with newlines inside runs
another text; the number of newlines between lines doubles each time. -/
theorem C83_false_lines (a b : Text) (ha : '\n' ∉ a ∧ '\r' ∉ a) (hb : '\n' ∉ b ∧ '\r' ∉ b ∧ b ≠ []) (n : Nat) :
    editText id (a ++ (List.replicate (n + 1) '\n' ++ b)) = a ++ (List.replicate (2 * (n + 1)) '\n' ++ b) := by
  have h := editText_doubled id (a ++ (List.replicate (n + 1) '\n' ++ b)) (by
    simp only [id, List.mem_append, List.mem_replicate, not_or]
    exact ⟨ha.2, by simp, hb.2.1⟩)
  refine h.unique ?_
  have hbb : Doubled b b := doubled_oneLine b ⟨b, hb.1, hb.2.1, Or.inl rfl⟩
  have hrep : ∀ m, Doubled (List.replicate m '\n' ++ b) (List.replicate (2 * m) '\n' ++ b) := by
    intro m
    induction m with
    | zero => simpa using hbb
    | succ m ih =>
      rw [show 2 * (m + 1) = 2 * m + 1 + 1 by omega, List.replicate_succ, List.replicate_succ, List.replicate_succ]
      refine .newline _ _ ?_ ih
      simp [hb.2.2]
  have : ∀ a : Text, '\n' ∉ a → Doubled (a ++ (List.replicate (n + 1) '\n' ++ b)) (a ++ (List.replicate (2 * (n + 1)) '\n' ++ b)) := by
    intro a ha
    induction a with
    | nil => exact hrep _
    | cons c a ih =>
      exact .other c _ _ (fun e => ha (by simp [e])) (ih (fun h => ha (List.mem_cons_of_mem _ h)))
  exact this a ha.1

/-- **C83 is false if the editor leaves an empty file**: the line `edit` or `edit N` is run itself; the first starts the editor again, for the
startup script, the second is an internal error. -/
theorem C83_false_empty (ws : Char → Bool) (num : Text → Option Int) (e : Env) (h : List Text) (hws : ws 'e' = false) (w s : Text)
    (hwne : w ≠ []) (hww : ∀ x ∈ w, ws x = false) (hns : w ≠ "-s".toList ∧ w ≠ "--startup".toList) (hs : Blank ws s)
    (he : ∀ ed t, e.program ed t = []) (ed : Text) (hed : e.var = some ed) (k : Int) (current : Text) (workspaces : List Text) :
    (enter ws num e h ("edit".toList ++ (s ++ w))).run = "edit".toList ++ (s ++ w) ∧
    opEdit e current workspaces ⟨none, some k⟩ = .crash ∧
    (enter ws num e h "edit".toList).run = "edit".toList ∧
    opEdit e current workspaces ⟨none, none⟩ = .edits current := by
  have hedr : e.editor = some ed := by unfold Env.editor; rw [hed]
  have hempty : ∀ t x, editText (e.program x) t = [] := by
    intro t x; unfold editText; rw [he]; rfl
  refine ⟨?_, rfl, ?_, ?_⟩
  · have := enter_edit ws num e h hws w [] s [] hwne hww hns (fun c hc => by cases hc) hs (fun c hc => by cases hc)
    simp only [List.nil_append, List.append_nil] at this
    rw [this]
    unfold editCommand
    simp only [hedr, hempty]
    split <;> rfl
  · unfold enter
    have hl : lstrip ws "edit".toList = "edit".toList := lstrip_skip ws [] _ (fun c hc => by cases hc) (by intro a r h; cases h; exact hws)
    rw [hl]
    show (editCommand e num h _ none).run = _
    unfold editCommand
    simp only [hedr, hempty]; rfl
  · unfold opEdit
    simp [hedr]

/-- **C83 is false for a number that no command has**: an error is printed, but the editor is started all the same, with an empty text, and what it
leaves is run. -/
theorem C83_false_number (ws : Char → Bool) (num : Text → Option Int) (e : Env) (h : List Text) (hws : ws 'e' = false) (w s : Text)
    (hwne : w ≠ []) (hww : ∀ x ∈ w, ws x = false) (hns : w ≠ "-s".toList ∧ w ≠ "--startup".toList) (hs : Blank ws s) (k : Int)
    (hk : num w = some k) (hout : k < 0 ∨ (h.length : Int) ≤ k) (ed : Text) (hed : e.var = some ed) :
    (enter ws num e h ("edit".toList ++ (s ++ w))).edited = some (ed, []) ∧ (enter ws num e h ("edit".toList ++ (s ++ w))).error = true := by
  have hedr : e.editor = some ed := by unfold Env.editor; rw [hed]
  have := enter_edit ws num e h hws w [] s [] hwne hww hns (fun c hc => by cases hc) hs (fun c hc => by cases hc)
  simp only [List.nil_append, List.append_nil] at this
  rw [this]
  unfold editCommand
  simp only [hk, hedr]
  have hc : commandById h k = [] := by
    unfold commandById
    rcases hout with h0 | h0
    · rw [if_pos h0]
    · by_cases hneg : k < 0
      · rw [if_pos hneg]
      · rw [if_neg hneg, if_pos h0]
  rw [hc]
  exact ⟨rfl, decide_eq_true hout⟩

/-- **C83 is false for commands whose name begins with `edit`**: for `editor 0` an error is printed, and then it is run; `edit0` edits the first
command. -/
theorem C83_false_prefix (ws : Char → Bool) (num : Text → Option Int) (e : Env) (h : List Text) (hws : ws 'e' = false) (hws2 : ∀ c ∈ "or".toList, ws c = false)
    (hblank : ws ' ' = true) (h0 : ws '0' = false) (hn : num "or".toList = none) :
    enter ws num e h "editor 0".toList = ⟨none, true, "editor 0".toList⟩ ∧
    enter ws num e h "edit0".toList = editCommand e num h "edit0".toList (some "0".toList) := by
  constructor
  case right =>
    have := enter_edit ws num e h hws "0".toList [] [] [] (by decide) (by intro x hx; cases hx with | head => exact h0 | tail _ h => cases h) (by decide)
      (fun c hc => by cases hc) (fun c hc => by cases hc) (fun c hc => by cases hc)
    exact this
  have hl : lstrip ws "editor 0".toList = "editor 0".toList := lstrip_skip ws [] _ (fun c hc => by cases hc) (by intro a r h; cases h; exact hws)
  unfold enter
  rw [hl]
  have hw : words ws "or 0".toList = ["or".toList, "0".toList] := by
    have ho := hws2 'o' (by decide)
    have hr := hws2 'r' (by decide)
    show words ws ['o', 'r', ' ', '0'] = _
    simp [words, ho, hr, hblank, h0]
  show (match words ws "or 0".toList with | [] => _ | w :: _ => _) = _
  rw [hw]
  simp only
  rw [if_neg (by decide)]
  unfold editCommand
  simp only [hn]

/-- **C83 is false for the Python API**: `edit(startup=True)` is `edit()`, and `edit(n)` is an internal error. -/
theorem C83_false_api (e : Env) (current : Text) (workspaces : List Text) (n : Int) (startup : Bool) :
    apiEdit none true = apiEdit none false ∧ opEdit e current workspaces (apiEdit (some n) startup) = .crash := ⟨rfl, rfl⟩

/-! ## Example -/

def exWs (c : Char) : Bool := c = ' '

def exNum (t : Text) : Option Int := if t = "0".toList then some 0 else if t = "1".toList then some 1 else none

/-- An editor that adds ` -l`, and a newline. -/
def exEnv : Env := ⟨none, some "vi".toList, fun _ t => t ++ " -l\n".toList⟩

/-- Non-vacuity -/
theorem C83_example :
    enter exWs exNum exEnv ["pwd".toList, "ls".toList] "edit 0".toList = ⟨some ("vi".toList, "ls".toList), false, "ls -l\n".toList⟩ ∧
    enter exWs exNum exEnv ["pwd".toList, "ls".toList] " edit".toList = ⟨some ("vi".toList, "pwd".toList), false, "pwd -l\n".toList⟩ ∧
    enter exWs exNum exEnv ["pwd".toList, "ls".toList] "edit 7".toList = ⟨none, true, "edit 7".toList⟩ := by
  decide +kernel

example : Numbered ["pwd".toList, "ls".toList] 0 "ls".toList := ⟨["pwd".toList], [], rfl, rfl⟩

end Marcel.Edit
