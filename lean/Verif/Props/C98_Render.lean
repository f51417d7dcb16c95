import Verif.Model.Render
import Verif.Props.C87_Color
import Verif.Props.C58_Write

/-! # C98: What is displayed for an item

Colours make no difference to the text that is displayed; a line can be read back; the columns of processes are aligned. -/

namespace Marcel.Render

open Marcel.Color (Text Color colorize Proper shows_append shows_text shows_colorize)
open Terminal

/-- A colour of a scheme is one that is documented. -/
def Good (c : Option Color) : Prop := ∀ d, c = some d → Proper d

/-- All colours are. -/
def Scheme.Good (s : Scheme) : Prop :=
  Render.Good s.pid ∧ Render.Good s.ppid ∧ Render.Good s.user ∧ Render.Good s.status ∧ Render.Good s.command ∧ Render.Good s.error ∧ Render.Good s.historyId ∧ Render.Good s.historyCommand

/-- The escape character of terminals. -/
abbrev ESC : Char := Char.ofNat 27

/-- The texts of an object have no escape character. -/
def Obj.Clean : Obj → Prop
  | .proc p => ESC ∉ p.user ∧ ESC ∉ p.status ∧ ∀ xs, p.cmdline = some xs → ∀ x ∈ xs, ESC ∉ x
  | .record r => ESC ∉ r.command
  | .error e => ESC ∉ e.message ∧ ∀ l, e.label = some l → ESC ∉ l
  | .other s r => ESC ∉ s ∧ ESC ∉ r

/-- The texts of an item. -/
def Input.Clean : Input → Prop
  | .none_ => True
  | .list xs => ∀ x ∈ xs, x.Clean
  | .tuple xs => ∀ x ∈ xs, x.Clean
  | .failure e => (Obj.error e).Clean

/-- The text is shown as `u`, and the terminal is as before. -/
def ShownAs (t u : Text) : Prop := (shows ready t).1.map (·.1) = u ∧ (shows ready t).2 = ready

theorem shownAs_append {a b u v : Text} (h1 : ShownAs a u) (h2 : ShownAs b v) : ShownAs (a ++ b) (u ++ v) := by
  unfold ShownAs at *
  rw [shows_append, h1.2]
  simp [h1.1, h2.1, h2.2]

theorem shownAs_text {t : Text} (h : ESC ∉ t) : ShownAs t t := by
  unfold ShownAs
  have := shows_text plain t h
  rw [show (ready : State) = ⟨plain, .text⟩ from rfl, this]
  simp [Function.comp_def]

theorem shownAs_colorize {t : Text} {c : Option Color} (h : ESC ∉ t) (hc : Good c) : ShownAs (colorize t c) t := by
  cases c with
  | none => exact shownAs_text h
  | some c =>
    unfold ShownAs
    rw [shows_colorize t c (hc c rfl) h]
    simp [Function.comp_def]

theorem dec_clean (n : Nat) (c : Char) (h : c ∈ dec n) : '0' ≤ c ∧ c ≤ '9' := by
  obtain ⟨d, hd, rfl⟩ := List.mem_map.1 h
  have hh := isDigits_decimal n d hd
  have e := Marcel.Color.chr_digit hh
  show (48 : Nat) ≤ (Char.ofNat d).toNat ∧ (Char.ofNat d).toNat ≤ 57
  rw [e]; exact hh

theorem dec_not {n : Nat} {c : Char} (h : c < '0' ∨ '9' < c) : c ∉ dec n := by
  intro hm
  have := dec_clean n c hm
  have h1 : (48 : Nat) ≤ c.toNat ∧ c.toNat ≤ 57 := this
  have h2 : c.toNat < 48 ∨ 57 < c.toNat := h
  omega

theorem esc_join {sep : Text} {xs : List Text} (hs : ESC ∉ sep) (h : ∀ x ∈ xs, ESC ∉ x) : ESC ∉ join sep xs := by
  induction xs with
  | nil => simp [join]
  | cons x xs ih =>
    have h1 := h x (by simp)
    have h2 := ih fun y hy => h y (by simp [hy])
    cases xs with
    | nil => exact h1
    | cons y ys =>
      show ESC ∉ x ++ sep ++ join sep (y :: ys)
      simp only [List.mem_append, not_or]
      exact ⟨⟨h1, hs⟩, h2⟩

theorem not_blanks {n : Nat} : ESC ∉ List.replicate n ' ' := by
  intro h
  have := List.eq_of_mem_replicate h
  revert this; decide

theorem esc_dec (n : Nat) : ESC ∉ dec n := dec_not (.inl (by decide))

theorem esc_rjust {w : Nat} {t : Text} (h : ESC ∉ t) : ESC ∉ rjust w t := by
  simp only [rjust, List.mem_append, not_or]; exact ⟨not_blanks, h⟩

theorem esc_ljust {w : Nat} {t : Text} (h : ESC ∉ t) : ESC ∉ ljust w t := by
  simp only [ljust, List.mem_append, not_or]; exact ⟨h, not_blanks⟩

theorem esc_command {p : Proc} (h : ∀ xs, p.cmdline = some xs → ∀ x ∈ xs, ESC ∉ x) : ESC ∉ p.command := by
  unfold Proc.command
  cases hc : p.cmdline with
  | none => simp
  | some xs => exact esc_join (by decide) (h xs hc)

theorem esc_err {e : Err} (h : (Obj.error e).Clean) : ESC ∉ e.compact := by
  obtain ⟨h1, h2⟩ := h
  unfold Err.compact
  cases hl : e.label with
  | none =>
    simp only [List.mem_append, not_or]
    exact ⟨by decide, h1⟩
  | some l =>
    simp only [List.mem_append, not_or]
    exact ⟨⟨⟨by decide, h2 l hl⟩, by decide⟩, h1⟩

theorem esc_rec {r : Rec} (h : ESC ∉ r.command) : ESC ∉ r.compact := by
  simp only [Rec.compact, formatRec, List.cons_append, List.mem_cons, List.mem_append, not_or]
  refine ⟨by decide, by decide, ⟨esc_dec _, by decide, by decide, by decide, by simp⟩, h⟩

theorem esc_compact {x : Obj} (h : x.Clean) : ESC ∉ x.compact := by
  cases x with
  | proc p =>
    show ESC ∉ "process(".toList ++ dec p.pid ++ [')']
    simp only [List.mem_append, not_or]
    exact ⟨⟨by decide, esc_dec _⟩, by decide⟩
  | record r => exact esc_rec h
  | error e => exact esc_err h
  | other s r => exact h.2

/-- What an object looks like without colours. -/
def Obj.plain : Obj → Text
  | .proc p => p.full none
  | .record r => r.compact
  | .error e => e.compact
  | .other s _ => s

theorem full_shown {s : Scheme} (hs : s.Good) {x : Obj} (h : x.Clean) : ∃ t, x.full (some s) = some t ∧ ShownAs t x.plain := by
  obtain ⟨g1, g2, g3, g4, g5, g6, g7, g8⟩ := hs
  cases x with
  | proc p =>
    refine ⟨_, rfl, ?_⟩
    obtain ⟨h1, h2, h3⟩ := h
    have two : ShownAs [' ', ' '] [' ', ' '] := shownAs_text (by decide)
    have k1 := shownAs_append (shownAs_append (shownAs_colorize (esc_rjust (w := 6) (esc_dec p.pid)) g1) two)
      (shownAs_append (shownAs_append (shownAs_colorize (esc_rjust (w := 6) (esc_dec p.ppid)) g2) two)
        (shownAs_append (shownAs_append (shownAs_colorize (esc_ljust (w := 8) h1) g3) two)
          (shownAs_append (shownAs_append (shownAs_colorize (esc_ljust (w := 10) h2) g4) two) (shownAs_colorize (esc_command h3) g5))))
    exact k1
  | record r =>
    refine ⟨_, rfl, ?_⟩
    have k := shownAs_append (shownAs_append (shownAs_append (shownAs_text (t := [' ', ' ']) (by decide)) (shownAs_colorize (esc_dec r.id) g7)) (shownAs_text (t := [':', ' ', ' ']) (by decide)))
      (shownAs_colorize h g8)
    exact k
  | error e => exact ⟨_, rfl, shownAs_colorize (esc_err h) g6⟩
  | other t r => exact ⟨_, rfl, shownAs_text h.1⟩

/-- Objects in a list or tuple of other than one are displayed by their `repr`, a single one in full. -/
def Input.plain : Input → Text
  | .none_ => "None".toList
  | .list xs => match xs with
    | [x] => x.plain
    | _ => ['['] ++ join [',', ' '] (xs.map Obj.compact) ++ [']']
  | .tuple xs => match xs with
    | [x] => x.plain
    | _ => ['('] ++ join [',', ' '] (xs.map Obj.compact) ++ [')']
  | .failure e => e.compact

theorem esc_objs {xs : List Obj} (h : ∀ x ∈ xs, x.Clean) (a b : Char) (ha : ESC ≠ a) (hb : ESC ≠ b) : ESC ∉ [a] ++ join [',', ' '] (xs.map Obj.compact) ++ [b] := by
  simp only [List.mem_append, List.mem_singleton, not_or]
  refine ⟨⟨ha, esc_join (by decide) ?_⟩, hb⟩
  intro t ht
  obtain ⟨x, hx, rfl⟩ := List.mem_map.1 ht
  exact esc_compact (h x hx)

/-- Whatever the colours, the text on the terminal is the same, and after it the terminal shows text without attributes. Without a color scheme that text is printed as it is, unless a history record is concerned. -/
theorem C98_colours (s : Scheme) (hs : s.Good) (x : Input) (h : x.Clean) :
    (∃ t, printed (some s) x = some t ∧ (shows ready t).1.map (·.1) = x.plain ∧ (shows ready t).2 = ready) ∧
    (printed none x = some x.plain ∨ ∃ r, x = .list [.record r] ∨ x = .tuple [.record r]) := by
  have one : ∀ y : Obj, (∃ r, y = .record r) ∨ y.full none = some y.plain := by
    intro y
    cases y with
    | record r => exact .inl ⟨r, rfl⟩
    | _ => exact .inr rfl
  constructor
  · cases x with
    | none_ => exact ⟨_, rfl, shownAs_text (by decide)⟩
    | failure e => exact ⟨_, rfl, shownAs_colorize (esc_err h) hs.2.2.2.2.2.1⟩
    | list xs =>
      rcases xs with _ | ⟨y, _ | ⟨z, zs⟩⟩
      · exact ⟨_, rfl, shownAs_text (by decide)⟩
      · exact full_shown hs (h y (by simp))
      · exact ⟨_, rfl, shownAs_text (esc_objs h '[' ']' (by decide) (by decide))⟩
    | tuple xs =>
      rcases xs with _ | ⟨y, _ | ⟨z, zs⟩⟩
      · exact ⟨_, rfl, shownAs_text (by decide)⟩
      · exact full_shown hs (h y (by simp))
      · exact ⟨_, rfl, shownAs_text (esc_objs h '(' ')' (by decide) (by decide))⟩
  · cases x with
    | none_ => exact .inl rfl
    | failure e => exact .inl rfl
    | list xs =>
      rcases xs with _ | ⟨y, _ | ⟨z, zs⟩⟩
      · exact .inl rfl
      · rcases one y with ⟨r, rfl⟩ | h1
        · exact .inr ⟨r, .inl rfl⟩
        · exact .inl h1
      · exact .inl rfl
    | tuple xs =>
      rcases xs with _ | ⟨y, _ | ⟨z, zs⟩⟩
      · exact .inl rfl
      · rcases one y with ⟨r, rfl⟩ | h1
        · exact .inr ⟨r, .inr rfl⟩
        · exact .inl h1
      · exact .inl rfl

/-! ## Columns -/

/-- The columns are wide enough. -/
def Proc.Fits (p : Proc) : Prop := p.pid < 1000000 ∧ p.ppid < 1000000 ∧ p.user.length ≤ 8 ∧ p.status.length ≤ 10

/-- Blanks. -/
def blanks (n : Nat) : Text := List.replicate n ' '

/-- The line of a process that fits into the columns: the ids end at 6 and 14, the user, the status and the command start at 16, 26 and 38. -/
theorem C98_columns (p : Proc) (h : p.Fits) : ∃ a b c d : Nat,
    p.full none = blanks a ++ dec p.pid ++ blanks (2 + b) ++ dec p.ppid ++ blanks 2 ++ p.user ++ blanks (c + 2) ++ p.status ++ blanks (d + 2) ++ p.command ∧
    a + (dec p.pid).length = 6 ∧ b + (dec p.ppid).length = 6 ∧ c + p.user.length = 8 ∧ d + p.status.length = 10 := by
  obtain ⟨h1, h2, h3, h4⟩ := h
  have l1 : (dec p.pid).length ≤ 6 := by
    unfold dec; rw [List.length_map]; exact (length_decimal_le p.pid 6 (by omega)).2 (by omega)
  have l2 : (dec p.ppid).length ≤ 6 := by
    unfold dec; rw [List.length_map]; exact (length_decimal_le p.ppid 6 (by omega)).2 (by omega)
  refine ⟨6 - (dec p.pid).length, 6 - (dec p.ppid).length, 8 - p.user.length, 10 - p.status.length, ?_, by omega, by omega, by omega, by omega⟩
  have e : ∀ n, blanks (n + 2) = blanks n ++ [' ', ' '] := by
    intro n; unfold blanks; rw [← List.replicate_append_replicate]; rfl
  have e' : ∀ n, blanks (2 + n) = [' ', ' '] ++ blanks n := by
    intro n; unfold blanks; rw [← List.replicate_append_replicate]; rfl
  simp only [Proc.full, join, rjust, ljust, e, e', List.append_assoc]
  rfl

/-- Blanks at the end. -/
theorem trim_eq {u v : Text} {j k : Nat} (hu : u.getLast? ≠ some ' ') (hv : v.getLast? ≠ some ' ') (h : u ++ blanks j = v ++ blanks k) : u = v := by
  have key : ∀ (u : Text) (j : Nat), u.getLast? ≠ some ' ' → ((u ++ blanks j).reverse.dropWhile (· = ' ')) = u.reverse := by
    intro u j hu
    rw [List.reverse_append]
    have : (blanks j).reverse = blanks j := by simp [blanks]
    rw [this]
    have hd : ∀ n (t : Text), (blanks n ++ t).dropWhile (· = ' ') = t.dropWhile (· = ' ') := by
      intro n t
      induction n with
      | zero => rfl
      | succ n ih =>
        rw [show blanks (n + 1) ++ t = ' ' :: (blanks n ++ t) from rfl, List.dropWhile_cons, if_pos (by decide), ih]
    rw [hd]
    rw [List.getLast?_eq_head?_reverse] at hu
    cases hr : u.reverse with
    | nil => rfl
    | cons c cs =>
      rw [hr] at hu
      rw [List.dropWhile_cons, if_neg (by simpa using hu)]
  have := key u j hu
  rw [h, key v k hv] at this
  exact (List.reverse_inj.1 this).symm

theorem dec_inj {m n : Nat} (h : dec m = dec n) : m = n := by
  have hd : ∀ n, (dec n).map Char.toNat = decimal n := by
    intro n
    unfold dec
    rw [List.map_map]
    conv => rhs; rw [← List.map_id (decimal n)]
    apply List.map_congr_left
    intro d hd
    exact Marcel.Color.chr_digit (isDigits_decimal n d hd)
  rw [← readDecimal_decimal m, ← readDecimal_decimal n, ← hd, ← hd, h]

theorem dec_blanks {m n j k : Nat} (h : blanks j ++ dec m = blanks k ++ dec n) : m = n := by
  have key : ∀ (n j : Nat), (blanks j ++ dec n).filter (· ≠ ' ') = dec n := by
    intro n j
    rw [List.filter_append]
    have h1 : (blanks j).filter (· ≠ ' ') = [] := by
      rw [List.filter_eq_nil_iff]
      intro c hc
      have := List.eq_of_mem_replicate hc
      simp [this]
    have h2 : (dec n).filter (· ≠ ' ') = dec n := by
      rw [List.filter_eq_self]
      intro c hc
      have : c ≠ ' ' := by rintro rfl; exact dec_not (.inl (by decide)) hc
      simpa using this
    rw [h1, h2, List.nil_append]
  apply dec_inj
  rw [← key m j, ← key n k, h]

/-- A line determines what it shows: process ids, user, status and command. -/
theorem C98_readable (p q : Proc) (hp : p.Fits) (hq : q.Fits) (h1 : p.user.getLast? ≠ some ' ') (h2 : q.user.getLast? ≠ some ' ') (h3 : p.status.getLast? ≠ some ' ') (h4 : q.status.getLast? ≠ some ' ')
    (h : p.full none = q.full none) : p.pid = q.pid ∧ p.ppid = q.ppid ∧ p.user = q.user ∧ p.status = q.status ∧ p.command = q.command := by
  have l : ∀ n, n < 1000000 → (rjust 6 (dec n)).length = 6 := by
    intro n hn
    have : (dec n).length ≤ 6 := by unfold dec; rw [List.length_map]; exact (length_decimal_le n 6 (by omega)).2 (by omega)
    simp only [rjust, List.length_append, List.length_replicate]; omega
  have l' : ∀ (w : Nat) (t : Text), t.length ≤ w → (ljust w t).length = w := by
    intro w t ht
    simp only [ljust, List.length_append, List.length_replicate]; omega
  obtain ⟨a1, a2, a3, a4⟩ := hp
  obtain ⟨b1, b2, b3, b4⟩ := hq
  simp only [Proc.full, join, List.append_assoc] at h
  obtain ⟨e1, h⟩ := List.append_inj h (by rw [l _ a1, l _ b1])
  obtain ⟨-, h⟩ := List.append_inj h rfl
  obtain ⟨e2, h⟩ := List.append_inj h (by rw [l _ a2, l _ b2])
  obtain ⟨-, h⟩ := List.append_inj h rfl
  obtain ⟨e3, h⟩ := List.append_inj h (by rw [l' _ _ a3, l' _ _ b3])
  obtain ⟨-, h⟩ := List.append_inj h rfl
  obtain ⟨e4, h⟩ := List.append_inj h (by rw [l' _ _ a4, l' _ _ b4])
  obtain ⟨-, h⟩ := List.append_inj h rfl
  exact ⟨dec_blanks e1, dec_blanks e2, trim_eq h1 h2 e3, trim_eq h3 h4 e4, h⟩

/-- So does the line of a history record: number and command, for all commands. -/
theorem C98_history (r q : Rec) (h : (Obj.record r).plain = (Obj.record q).plain) : r = q := by
  have h : formatRec (dec r.id) r.command = formatRec (dec q.id) q.command := h
  simp only [formatRec, List.cons_append, List.append_assoc, List.cons.injEq, true_and] at h
  have key : ∀ (n : Nat) (t : Text), (dec n ++ ':' :: t).takeWhile (· ≠ ':') = dec n ∧ (dec n ++ ':' :: t).dropWhile (· ≠ ':') = ':' :: t := by
    intro n t
    have hn : ∀ c ∈ dec n, decide (c ≠ ':') = true := by
      intro c hc
      have : c ≠ ':' := by rintro rfl; exact dec_not (.inr (by decide)) hc
      simpa using this
    constructor
    · rw [List.takeWhile_append_of_pos hn, List.takeWhile_cons, if_neg (by simp), List.append_nil]
    · rw [List.dropWhile_append_of_pos hn, List.dropWhile_cons, if_neg (by simp)]
  have e1 := congrArg (List.takeWhile (· ≠ ':')) h
  have e2 := congrArg (List.dropWhile (· ≠ ':')) h
  rw [(key _ _).1, (key _ _).1] at e1
  rw [(key _ _).2, (key _ _).2] at e2
  have e3 := dec_inj e1
  have e4 : r.command = q.command := by simpa using e2
  cases r; cases q; simp_all

/-! ## What is false -/

/-- Columns are not aligned if an id has more than six digits (Linux: up to 4194304) or a user name more than eight characters: the status of this process starts later than at 26. -/
theorem C98_false_columns : ∃ p q : Proc, p.pid = 4194304 ∧ q.user.length = 9 ∧ (p.full none).drop 26 ≠ ljust 10 p.status ++ [' ', ' '] ++ p.command ∧ (p.full none).drop 27 = ljust 10 p.status ++ [' ', ' '] ++ p.command ∧
    (q.full none).drop 27 = ljust 10 q.status ++ [' ', ' '] ++ q.command :=
  ⟨⟨4194304, 1, "root".toList, "sleeping".toList, some ["sh".toList]⟩, ⟨1, 0, "systemd-r".toList, "running".toList, none⟩, rfl, by decide +kernel, by decide +kernel, by decide +kernel, by decide +kernel⟩

/-- History records cannot be displayed without a color scheme, e.g. in a file: nothing is written, for any history, and there is an error for each record. -/
theorem C98_false_history_file (append : Bool) (old : Option Text) (rs : List Rec) :
    let c : WriteOp.Cfg Input := ⟨.default, true, append, .ok, printed none⟩
    let r := WriteOp.run c old (rs.map fun r => .item (.tuple [.record r]))
    r.1.target.getD [] = (if append then old.getD [] else []) ∧ r.1.sent = rs.flatMap fun r => [.failed (.tuple [.record r]), .item (.tuple [.record r])] := by
  intro c r
  obtain ⟨s, t, h1, h2, h3, _, h5⟩ := WriteOp.C58_partial c (fun _ => rfl) old (rs.map fun r => .item (.tuple [.record r])) (.inl rfl)
  have hr : r = (s, none) := h1
  rw [hr]
  have ht : t = [] := by
    rw [WriteOp.written_eq _ _ _ h2, List.flatMap_eq_nil_iff]
    intro x hx
    obtain ⟨q, _, rfl⟩ := List.mem_map.1 hx
    rfl
  refine ⟨?_, ?_⟩
  · show s.target.getD [] = _
    rw [h3, ht, List.append_nil]
    show (if (true && !append) = true then [] else old.getD []) = _
    cases append <;> rfl
  · show s.sent = _
    rw [h5]
    unfold WriteOp.passed
    have hi : ∀ rs : List Rec, WriteOp.inItems (rs.map fun r => WriteOp.In.item (Input.tuple [.record r])) = rs.map fun r => Input.tuple [.record r] := by
      intro rs
      induction rs with
      | nil => rfl
      | cons q qs ih => simp [WriteOp.inItems, ih]
    rw [hi, List.flatMap_map]
    rfl

/-! ## A case -/

/-- A color scheme with a bold red for ids and nothing for the rest is good, the process fits, and its item is clean. -/
example : let s : Scheme := ⟨some ⟨5, 0, 0, 1⟩, none, none, none, none, none, none, none⟩
    let p : Proc := ⟨4711, 1, "jao".toList, "sleeping".toList, some ["sh".toList, "-c".toList]⟩
    s.Good ∧ p.Fits ∧ (Input.tuple [.proc p]).Clean ∧ p.user.getLast? ≠ some ' ' ∧ p.status.getLast? ≠ some ' ' ∧
    p.full none = "  4711       1  jao       sleeping    sh -c".toList ∧ p.full (some s) ≠ p.full none := by
  refine ⟨?_, ⟨by decide, by decide, by decide, by decide⟩, ?_, by decide +kernel, by decide +kernel, by decide +kernel, by decide +kernel⟩
  · refine ⟨?_, ?_, ?_, ?_, ?_, ?_, ?_, ?_⟩ <;> intro d hd <;> cases hd <;> (unfold Proper; decide)
  · intro x hx
    rw [List.mem_singleton] at hx
    subst hx
    refine ⟨by decide +kernel, by decide +kernel, ?_⟩
    intro xs h
    cases h
    decide +kernel

end Marcel.Render
