import Verif.Model.Scheme
import Verif.Props.C88_Prompt
import Verif.Props.C89_Scheme
import Verif.Props.C98_Render

/-! # C99: A color scheme is displayed as the configuration that makes it; the configuration that marcel comes with is sound -/

namespace Marcel.SchemeShow

open Marcel.Color
open Marcel.Render (ShownAs shownAs_append shownAs_text shownAs_colorize dec dec_inj dec_not)
open Terminal

/-! ## Colours make no difference -/

/-- The keys of the extensions and the attributes have no escape character. -/
def Clean (s : Scheme) : Prop := ∀ e ∈ s, Char.ofNat 27 ∉ e.1 ∧ ∀ d, e.2 = .dict d → ∀ x ∈ d, Char.ofNat 27 ∉ x.1

theorem esc_decInt (n : Int) : Char.ofNat 27 ∉ decInt n := by
  cases n with
  | ofNat n => exact dec_not (n := n) (.inl (by decide))
  | negSucc n =>
    show Char.ofNat 27 ∉ '-' :: dec (n + 1)
    simp only [List.mem_cons, not_or]
    exact ⟨by decide, dec_not (.inl (by decide))⟩

theorem esc_repr (c : Option Color) : Char.ofNat 27 ∉ reprOpt c := by
  cases c with
  | none => decide
  | some c =>
    unfold reprOpt reprColor
    simp only [List.mem_append, not_or]
    refine ⟨⟨⟨⟨⟨⟨⟨by decide, esc_decInt _⟩, by decide⟩, esc_decInt _⟩, by decide⟩, esc_decInt _⟩, ?_⟩, by decide⟩
    split
    · decide
    · split
      · decide
      · split
        · decide
        · simp

theorem insertKey_mem (e x : Text × Option Color) (d : List (Text × Option Color)) : x ∈ insertKey e d ↔ x = e ∨ x ∈ d := by
  induction d with
  | nil => simp [insertKey]
  | cons f d ih =>
    unfold insertKey
    split
    · simp
    · simp only [List.mem_cons, ih]
      constructor
      · rintro (h | h | h)
        · exact .inr (.inl h)
        · exact .inl h
        · exact .inr (.inr h)
      · rintro (h | h | h)
        · exact .inr (.inl h)
        · exact .inl h
        · exact .inr (.inr h)

theorem sortKeys_mem (x : Text × Option Color) (d : List (Text × Option Color)) : x ∈ sortKeys d ↔ x ∈ d := by
  induction d with
  | nil => simp [sortKeys]
  | cons e d ih => simp [sortKeys, insertKey_mem, ih]

theorem insertKey_length (e : Text × Option Color) (d : List (Text × Option Color)) : (insertKey e d).length = d.length + 1 := by
  induction d with
  | nil => rfl
  | cons f d ih => unfold insertKey; split <;> simp [ih]

theorem sortKeys_length (d : List (Text × Option Color)) : (sortKeys d).length = d.length := by
  induction d with
  | nil => rfl
  | cons e d ih => simp [sortKeys, insertKey_length, ih]

/-- Lines, one shown as the other. -/
inductive AllShown : List Text → List Text → Prop
  | nil : AllShown [] []
  | cons {a b : Text} {as bs : List Text} : ShownAs a b → AllShown as bs → AllShown (a :: as) (b :: bs)

theorem AllShown.append {a b c d : List Text} (h1 : AllShown a b) (h2 : AllShown c d) : AllShown (a ++ c) (b ++ d) := by
  induction h1 with
  | nil => exact h2
  | cons h _ ih => exact .cons h ih

theorem shown_unlines {a b : List Text} (h : AllShown a b) : ShownAs (unlines a) (unlines b) := by
  induction h with
  | nil => exact shownAs_text (t := []) List.not_mem_nil
  | @cons x y as bs h t ih =>
    cases t with
    | nil => exact h
    | cons h' t' =>
      have := shownAs_append h (shownAs_append (shownAs_text (t := ['\n']) (by decide)) ih)
      exact this

theorem subLines_shown (l : Looks) (hk : ProperOpt l.key) (hv : ProperOpt l.value) (n vn : Nat) (d : List (Text × Option Color)) (h : ∀ x ∈ d, Char.ofNat 27 ∉ x.1) :
    AllShown (subLines l n vn d) (subLines ⟨none, none⟩ n vn d) := by
  induction d generalizing vn with
  | nil => exact .nil
  | cons e d ih =>
    obtain ⟨k, v⟩ := e
    refine .cons ?_ (ih (vn + 1) fun x hx => h x (by simp [hx]))
    refine shownAs_append (shownAs_append (shownAs_append (shownAs_append (shownAs_text (by decide)) (shownAs_colorize (h (k, v) (by simp)) hk)) (shownAs_text (by decide))) (shownAs_colorize (esc_repr v) hv)) (shownAs_text ?_)
    split <;> decide

theorem lines_shown (l : Looks) (hk : ProperOpt l.key) (hv : ProperOpt l.value) (total n : Nat) (s : Scheme) (h : Clean s) :
    AllShown (lines l total n s) (lines ⟨none, none⟩ total n s) := by
  induction s generalizing n with
  | nil => exact .nil
  | cons e s ih =>
    obtain ⟨k, v⟩ := e
    obtain ⟨h1, h2⟩ := h (k, v) (by simp)
    have hc : Char.ofNat 27 ∉ (if n + 1 < total then [','] else [] : Text) := by split <;> decide
    have one : ∀ c : Option Color, AllShown
        [[' ', ' ', ' ', ' '] ++ colorize k l.key ++ [':', ' '] ++ colorize (reprOpt c) l.value ++ (if n + 1 < total then [','] else [])]
        [[' ', ' ', ' ', ' '] ++ colorize k none ++ [':', ' '] ++ colorize (reprOpt c) none ++ (if n + 1 < total then [','] else [])] := fun c =>
      .cons (shownAs_append (shownAs_append (shownAs_append (shownAs_append (shownAs_text (by decide)) (shownAs_colorize h1 hk)) (shownAs_text (by decide))) (shownAs_colorize (esc_repr c) hv)) (shownAs_text hc)) .nil
    refine AllShown.append ?_ (ih (n + 1) fun e he => h e (by simp [he]))
    cases v with
    | none => exact one none
    | other => exact one none
    | color c => exact one (some c)
    | dict d =>
      refine AllShown.append (AllShown.append (.cons ?_ .nil) (subLines_shown l hk hv _ _ _ ?_)) (.cons ?_ .nil)
      · exact shownAs_append (shownAs_append (shownAs_text (by decide)) (shownAs_colorize h1 hk)) (shownAs_text (by decide))
      · intro x hx
        exact h2 d rfl x ((sortKeys_mem x d).1 hx)
      · exact shownAs_append (shownAs_text (by decide)) (shownAs_text hc)

/-- Whatever colours a scheme is displayed in, the text on the terminal is the one without colours, and the terminal is as before. -/
theorem C99_colours (l : Looks) (hk : ∀ c, l.key = some c → Proper c) (hv : ∀ c, l.value = some c → Proper c) (s : Scheme) (h : Clean s) :
    ∃ t u, display (some l) s = some t ∧ display (some ⟨none, none⟩) s = some u ∧ (shows ready t).1.map (·.1) = u ∧ (shows ready t).2 = ready :=
  ⟨_, _, rfl, rfl, shownAs_append (shownAs_append (shownAs_text (by decide)) (shown_unlines (lines_shown l hk hv s.length 0 s h))) (shownAs_text (by decide))⟩

/-! ## What the text is -/

/-- Texts with a comma and a line end between any two. -/
def listed : List Text → Text
  | [] => []
  | [x] => x
  | x :: xs => x ++ [',', '\n'] ++ listed xs

/-- An attribute, and what it is displayed as: `None`, a colour, or a dict, one line for each entry. -/
def entry (k : Text) : Val → Text
  | .color c => "    ".toList ++ k ++ ": ".toList ++ reprColor c
  | .dict [] => "    ".toList ++ k ++ ": {\n    }".toList
  | .dict d => "    ".toList ++ k ++ ": {\n".toList ++ listed ((sortKeys d).map fun e => "        ".toList ++ e.1 ++ ": ".toList ++ reprOpt e.2) ++ "\n    }".toList
  | _ => "    ".toList ++ k ++ ": None".toList

theorem unlines_append {a b : List Text} (ha : a ≠ []) (hb : b ≠ []) : unlines (a ++ b) = unlines a ++ '\n' :: unlines b := by
  induction a with
  | nil => exact absurd rfl ha
  | cons x a ih =>
    cases a with
    | nil =>
      cases b with
      | nil => exact absurd rfl hb
      | cons y b => rfl
    | cons y a =>
      show x ++ '\n' :: unlines ((y :: a) ++ b) = (x ++ '\n' :: unlines (y :: a)) ++ '\n' :: unlines b
      rw [ih (by simp)]
      simp

theorem subLines_text (n vn : Nat) (d : List (Text × Option Color)) (h : vn + d.length = n) :
    unlines (subLines ⟨none, none⟩ n vn d) = listed (d.map fun e => "        ".toList ++ e.1 ++ ": ".toList ++ reprOpt e.2) := by
  induction d generalizing vn with
  | nil => rfl
  | cons e d ih =>
    obtain ⟨k, v⟩ := e
    simp only [List.length_cons] at h
    have ih := ih (vn + 1) (by omega)
    cases d with
    | nil =>
      have hn : ¬ vn + 1 < n := by simp only [List.length_nil] at h; omega
      simp only [subLines, if_neg hn, unlines, List.map_cons, List.map_nil, listed, List.append_nil]
      rfl
    | cons f d =>
      have hn : vn + 1 < n := by simp only [List.length_cons] at h; omega
      rw [List.map_cons]
      obtain ⟨fk, fv⟩ := f
      show unlines (_ :: subLines _ _ _ ((fk, fv) :: d)) = _ ++ [',', '\n'] ++ listed (((fk, fv) :: d).map _)
      rw [← ih]
      simp only [if_pos hn, subLines, unlines, List.append_assoc, List.cons_append, List.nil_append]
      rfl

theorem subLines_length (l : Looks) (n vn : Nat) (d : List (Text × Option Color)) : (subLines l n vn d).length = d.length := by
  induction d generalizing vn with
  | nil => rfl
  | cons e d ih => simp [subLines, ih]

/-- The lines of an attribute. -/
theorem one_text (k : Text) (v : Val) (comma : Text) : unlines (match v with
     | .dict d =>
       [[' ', ' ', ' ', ' '] ++ colorize k none ++ [':', ' ', '{']] ++ subLines ⟨none, none⟩ d.length 0 (sortKeys d) ++ [[' ', ' ', ' ', ' ', '}'] ++ comma]
     | .color c => [[' ', ' ', ' ', ' '] ++ colorize k none ++ [':', ' '] ++ colorize (reprOpt (some c)) none ++ comma]
     | _ => [[' ', ' ', ' ', ' '] ++ colorize k none ++ [':', ' '] ++ colorize (reprOpt none) none ++ comma]) = entry k v ++ comma := by
  cases v with
  | none => simp [unlines, entry, colorize, reprOpt]
  | other => simp [unlines, entry, colorize, reprOpt]
  | color c => simp [unlines, entry, colorize, reprOpt]
  | dict d =>
    cases d with
    | nil => simp [unlines, entry, colorize, subLines, sortKeys]
    | cons e d =>
      have hne : subLines ⟨none, none⟩ (e :: d).length 0 (sortKeys (e :: d)) ≠ [] := by
        intro h
        have := congrArg List.length h
        rw [subLines_length, sortKeys_length] at this
        simp at this
      simp only
      rw [unlines_append (by simp) (by simp), unlines_append (by simp) hne, subLines_text _ _ _ (by rw [sortKeys_length]; omega)]
      simp [unlines, entry, colorize]

theorem lines_text (total n : Nat) (s : Scheme) (h : n + s.length = total) : unlines (lines ⟨none, none⟩ total n s) = listed (s.map fun e => entry e.1 e.2) := by
  induction s generalizing n with
  | nil => rfl
  | cons e s ih =>
    obtain ⟨k, v⟩ := e
    simp only [List.length_cons] at h
    have ih := ih (n + 1) (by omega)
    unfold lines
    cases s with
    | nil =>
      have hn : ¬ n + 1 < total := by simp only [List.length_nil] at h; omega
      simp only [if_neg hn, lines, List.append_nil, List.map_cons, List.map_nil, listed]
      have := one_text k v []
      simp only [List.append_nil] at this
      exact this
    | cons f s =>
      have hn : n + 1 < total := by simp only [List.length_cons] at h; omega
      simp only [if_pos hn]
      rw [unlines_append (by cases v <;> simp) (by obtain ⟨fk, fv⟩ := f; cases fv <;> simp [lines]), ih]
      refine (congrArg (fun z => z ++ '\n' :: listed ((f :: s).map fun e => entry e.1 e.2)) (one_text k v [','])).trans ?_
      simp [listed]

/-- Without colours, a scheme is displayed as a list of its attributes, in their order, with commas between, each with its value; extensions are sorted. Without a scheme for the display there is an exception. -/
theorem C99_display (s : Scheme) : display (some ⟨none, none⟩) s = some ("{\n".toList ++ listed (s.map fun e => entry e.1 e.2) ++ "\n}".toList) ∧ display none s = none := by
  refine ⟨?_, rfl⟩
  unfold display
  simp only
  rw [lines_text s.length 0 s (by omega)]
  rfl

theorem leText_iff (s t : Text) : leText s t = true ↔ s ≤ t := by
  induction s generalizing t with
  | nil => simp [leText]
  | cons a s ih =>
    cases t with
    | nil => simp [leText]
    | cons b t =>
      rw [List.cons_le_cons_iff]
      unfold leText
      by_cases h : a = b
      · subst h
        rw [if_pos rfl, ih]
        constructor
        · intro h; exact .inr ⟨rfl, h⟩
        · rintro (h | h)
          · exact absurd h (Nat.lt_irrefl a.toNat)
          · exact h.2
      · rw [if_neg h]
        constructor
        · intro h; exact .inl (of_decide_eq_true h)
        · rintro (h' | h')
          · exact decide_eq_true h'
          · exact absurd h'.1 h

theorem leText_total (s t : Text) (h : ¬ leText s t = true) : t ≤ s := by
  rw [leText_iff] at h
  rcases List.le_total s t with h' | h'
  · exact absurd h' h
  · exact h'

/-- The entries of a dict are displayed in the order of their keys, each one once. -/
theorem C99_sorted (d : List (Text × Option Color)) : (sortKeys d).Perm d ∧ (sortKeys d).Pairwise fun a b => a.1 ≤ b.1 := by
  have perm : ∀ e (d : List (Text × Option Color)), (insertKey e d).Perm (e :: d) := by
    intro e d
    induction d with
    | nil => exact List.Perm.refl _
    | cons f d ih =>
      unfold insertKey
      split
      · exact List.Perm.refl _
      · exact (List.Perm.cons f ih).trans (List.Perm.swap e f d)
  have srt : ∀ e (d : List (Text × Option Color)), (d.Pairwise fun a b => a.1 ≤ b.1) → (insertKey e d).Pairwise fun a b => a.1 ≤ b.1 := by
    intro e d hd
    induction d with
    | nil => exact List.pairwise_singleton _ _
    | cons f d ih =>
      obtain ⟨h1, h2⟩ := List.pairwise_cons.1 hd
      unfold insertKey
      split
      · next h =>
        have h := (leText_iff _ _).1 h
        refine List.pairwise_cons.2 ⟨?_, hd⟩
        intro x hx
        rcases List.mem_cons.1 hx with rfl | hx
        · exact h
        · exact List.le_trans h (h1 x hx)
      · next h =>
        refine List.pairwise_cons.2 ⟨?_, ih h2⟩
        intro x hx
        rcases (insertKey_mem e x d).1 hx with rfl | hx
        · exact leText_total _ _ h
        · exact h1 x hx
  induction d with
  | nil => exact ⟨.refl _, .nil⟩
  | cons e d ih => exact ⟨(perm e _).trans (ih.1.cons e), srt e _ ih.2⟩

/-- No comma or parenthesis in a number. -/
theorem decInt_chars (n : Int) : ∀ c ∈ decInt n, c ≠ ',' ∧ c ≠ ')' := by
  intro c hc
  cases n with
  | ofNat n =>
    have hc : c ∈ dec n := hc
    constructor
    · rintro rfl; exact dec_not (.inl (by decide)) hc
    · rintro rfl; exact dec_not (.inl (by decide)) hc
  | negSucc n =>
    have hc : c ∈ '-' :: dec (n + 1) := hc
    rcases List.mem_cons.1 hc with rfl | hc
    · decide
    constructor
    · rintro rfl; exact dec_not (.inl (by decide)) hc
    · rintro rfl; exact dec_not (.inl (by decide)) hc

theorem decInt_inj {m n : Int} (h : decInt m = decInt n) : m = n := by
  have head : ∀ k n : Nat, dec k ≠ '-' :: dec n := by
    intro k n h
    have : '-' ∈ dec k := by rw [h]; simp
    exact dec_not (.inl (by decide)) this
  cases m with
  | ofNat m =>
    cases n with
    | ofNat n => exact congrArg Int.ofNat (dec_inj h)
    | negSucc n => exact absurd h (head m (n + 1))
  | negSucc m =>
    cases n with
    | ofNat n => exact absurd h.symm (head n (m + 1))
    | negSucc n =>
      have h : '-' :: dec (m + 1) = '-' :: dec (n + 1) := h
      have := dec_inj (List.cons.inj h).2
      have : m = n := by omega
      rw [this]

/-- Texts up to the first comma or parenthesis. -/
theorem split_eq {a b : Text} {x y : Char} {t u : Text} (ha : ∀ c ∈ a, c ≠ ',' ∧ c ≠ ')') (hb : ∀ c ∈ b, c ≠ ',' ∧ c ≠ ')') (hx : x = ',' ∨ x = ')') (hy : y = ',' ∨ y = ')')
    (h : a ++ x :: t = b ++ y :: u) : a = b ∧ x = y ∧ t = u := by
  induction a generalizing b with
  | nil =>
    cases b with
    | nil => simpa using h
    | cons c b =>
      have h1 : x = c := (List.cons.inj h).1
      have := hb c (by simp)
      subst h1
      rcases hx with rfl | rfl
      · exact absurd rfl this.1
      · exact absurd rfl this.2
  | cons c a ih =>
    cases b with
    | nil =>
      have h1 : c = y := (List.cons.inj h).1
      have := ha c (by simp)
      subst h1
      rcases hy with rfl | rfl
      · exact absurd rfl this.1
      · exact absurd rfl this.2
    | cons d b =>
      obtain ⟨h1, h2⟩ := List.cons.inj h
      obtain ⟨h3, h4⟩ := ih (fun e he => ha e (by simp [he])) (fun e he => hb e (by simp [he])) h2
      exact ⟨by rw [h1, h3], h4⟩

/-- The style of a colour, as it is written. -/
theorem repr_style (c : Color) : ∃ x t, (x = ',' ∨ x = ')') ∧ reprColor c = "Color(".toList ++ (decInt c.r ++ ',' :: ' ' :: (decInt c.g ++ ',' :: ' ' :: (decInt c.b ++ x :: t))) ∧
    x :: t = (match c.bold, c.italic with
      | true, true => ", BOLD | ITALIC)".toList
      | true, false => ", BOLD)".toList
      | false, true => ", ITALIC)".toList
      | false, false => ")".toList) := by
  unfold reprColor
  cases c.bold <;> cases c.italic
  · exact ⟨')', [], .inr rfl, by simp, rfl⟩
  · exact ⟨',', " ITALIC)".toList, .inl rfl, by simp, rfl⟩
  · exact ⟨',', " BOLD)".toList, .inl rfl, by simp, rfl⟩
  · exact ⟨',', " BOLD | ITALIC)".toList, .inl rfl, by simp, rfl⟩

/-- The text of a colour, an expression that makes it, can be read back: colours with the same text have the same components; if they are proper, they are the same. -/
theorem C99_color (c d : Color) (h : reprColor c = reprColor d) :
    c.r = d.r ∧ c.g = d.g ∧ c.b = d.b ∧ (Proper c → Proper d → c = d) := by
  obtain ⟨x, t, hx, e1, e2⟩ := repr_style c
  obtain ⟨y, u, hy, f1, f2⟩ := repr_style d
  rw [e1, f1] at h
  have h := List.append_cancel_left h
  obtain ⟨h1, _, h⟩ := split_eq (decInt_chars _) (decInt_chars _) (.inl rfl) (.inl rfl) h
  obtain ⟨h2, _, h⟩ := split_eq (decInt_chars _) (decInt_chars _) (.inl rfl) (.inl rfl) (List.cons.inj h).2
  obtain ⟨h3, h4, h5⟩ := split_eq (decInt_chars _) (decInt_chars _) hx hy (List.cons.inj h).2
  have g1 := decInt_inj h1
  have g2 := decInt_inj h2
  have g3 := decInt_inj h3
  refine ⟨g1, g2, g3, fun hc hd => ?_⟩
  rw [h4, h5, f2] at e2
  have hb : c.bold = d.bold ∧ c.italic = d.italic := by
    revert e2
    cases c.bold <;> cases c.italic <;> cases d.bold <;> cases d.italic <;> decide
  obtain ⟨r, g, b, st⟩ := c
  obtain ⟨r', g', b', st'⟩ := d
  obtain ⟨_, _, _, _, _, _, c1, c2⟩ := hc
  obtain ⟨_, _, _, _, _, _, d1, d2⟩ := hd
  simp only [Color.bold, Color.italic, decide_eq_decide] at hb c1 c2 d1 d2
  simp only at g1 g2 g3
  have : st = st' := by omega
  subst this g1 g2 g3
  rfl

/-! ## The default configuration -/

/-- A value with proper colours. -/
def Fine : Val → Bool
  | .color c => decide (Proper c)
  | .dict d => d.all fun e => match e.2 with | some c => decide (Proper c) | none => false
  | _ => false

/-- A check of the scheme. -/
def checked (s : Scheme) : Bool :=
  decide (s.map Prod.fst = keys) &&
  (s.all fun e => decide (Char.ofNat 27 ∉ e.1) && (match e.2 with | .dict d => d.all fun x => decide (Char.ofNat 27 ∉ x.1) | _ => true)) &&
  documented.all fun n => match s.get? n.toList with
    | none => false
    | some .none => decide (n = "file_link_broken")
    | some v => decide (n ≠ "file_link_broken") && Fine v

/-- The configuration that marcel comes with is accepted; all attributes of the color scheme then have colours, all of them proper, but for `file_link_broken`, which has none. -/
theorem C99_default : ∃ s, defaultScheme = some s ∧ s.map Prod.fst = keys ∧ Clean s ∧
    ∀ n ∈ documented, ∃ v, s.get? n.toList = some v ∧ (n = "file_link_broken" ∧ v = .none ∨ n ≠ "file_link_broken" ∧ Fine v = true) := by
  have h : defaultScheme.isSome = true := by decide +kernel
  obtain ⟨s, hs⟩ := Option.isSome_iff_exists.1 h
  have key : (match defaultScheme with | none => false | some s' => checked s') = true := by decide +kernel
  rw [hs] at key
  have key : checked s = true := key
  simp only [checked, Bool.and_eq_true, decide_eq_true_eq, List.all_eq_true] at key
  obtain ⟨⟨h1, h2⟩, h3⟩ := key
  refine ⟨s, hs, h1, ?_, ?_⟩
  · intro e he
    have := h2 e he
    refine ⟨this.1, ?_⟩
    intro d hd x hx
    have := this.2
    rw [hd] at this
    exact of_decide_eq_true (List.all_eq_true.1 this x hx)
  · intro n hn
    have := h3 n hn
    cases hg : s.get? n.toList with
    | none => rw [hg] at this; cases this
    | some v =>
      rw [hg] at this
      refine ⟨v, rfl, ?_⟩
      cases v with
      | none => exact .inl ⟨of_decide_eq_true this, rfl⟩
      | color c => have := Bool.and_eq_true_iff.1 this; exact .inr ⟨of_decide_eq_true this.1, this.2⟩
      | dict d => have := Bool.and_eq_true_iff.1 this; exact .inr ⟨of_decide_eq_true this.1, this.2⟩
      | other => have := Bool.and_eq_true_iff.1 this; exact .inr ⟨of_decide_eq_true this.1, this.2⟩

theorem seen_says {c : Option Color} {ps : List Piece} {out : List (Char × Attr)} (h : Seen c ps out) : out.map (·.1) = ps.flatMap fun p => (p.says.getD []) := by
  induction ps generalizing c out with
  | nil => have h : out = [] := h; rw [h]; rfl
  | cons p ps ih =>
    cases p with
    | color d => exact ih (c := some d) h
    | text t =>
      obtain ⟨o1, o2, rfl, h1, _, h2⟩ := h
      rw [List.map_append, List.flatMap_cons, h1, ih h2]; rfl
    | fn r =>
      obtain ⟨o1, o2, rfl, h1, _, h2⟩ := h
      rw [List.map_append, List.flatMap_cons, h1, ih h2]; rfl
    | other =>
      obtain ⟨o1, o2, rfl, h1, _, h2⟩ := h
      rw [List.map_append, List.flatMap_cons, h1, ih h2]; rfl

/-- The prompt of the default configuration, for all versions, workspaces (empty: the default workspace), users, hosts and directories; after it, the terminal shows text without attributes. -/
theorem C99_prompt (default_ version workspace user host dir : Text)
    (h1 : Char.ofNat 27 ∉ version) (h2 : Char.ofNat 27 ∉ workspace) (h3 : Char.ofNat 27 ∉ user) (h4 : Char.ofNat 27 ∉ host) (h5 : Char.ofNat 27 ∉ dir) :
    ∃ t, promptString default_ (some (defaultPrompt version workspace user host dir)) = some t ∧
      (shows ready t).1.map (·.1) = "M ".toList ++ version ++ " ".toList ++ (if workspace = [] then [] else workspace ++ " ".toList) ++ user ++ "@".toList ++ host ++ " ".toList ++ dir ++ "$ ".toList ∧
      (shows ready t).2 = ready := by
  have good : ∀ p ∈ defaultPrompt version workspace user host dir, p.Good := by
    intro p hp
    simp only [defaultPrompt, List.mem_cons, List.not_mem_nil, or_false] at hp
    rcases hp with rfl | rfl | rfl | rfl | rfl | rfl | rfl | rfl | rfl | rfl | rfl | rfl | rfl | rfl | rfl
    · show Proper _; decide
    · show Char.ofNat 27 ∉ _; decide
    · show Proper _; decide
    · exact h1
    · show Char.ofNat 27 ∉ _; decide
    · show Proper _; decide
    · cases workspace with
      | nil => trivial
      | cons c w =>
        show Char.ofNat 27 ∉ (c :: w) ++ [' ']
        simp only [List.mem_append, not_or]
        exact ⟨h2, by decide⟩
    · show Proper _; decide
    · exact h3
    · show Char.ofNat 27 ∉ _; decide
    · exact h4
    · show Char.ofNat 27 ∉ _; decide
    · show Proper _; decide
    · cases dir with
      | nil => trivial
      | cons c w => exact h5
    · show Char.ofNat 27 ∉ _; decide
  obtain ⟨t, e1, e2, e3⟩ := C88_prompt default_ _ good
  refine ⟨t, e1, ?_, e3⟩
  rw [seen_says e2]
  cases workspace <;> cases dir <;> simp [defaultPrompt, Piece.says]

/-! ## A case -/

/-- The default scheme can be displayed in itself. -/
example : ∃ s t, defaultScheme = some s ∧ display (some ⟨some ⟨2, 4, 0, 0⟩, some ⟨0, 3, 4, 0⟩⟩) s = some t ∧ Proper ⟨2, 4, 0, 0⟩ ∧ Proper ⟨0, 3, 4, 0⟩ ∧ Clean s := by
  obtain ⟨s, h1, _, h3, _⟩ := C99_default
  exact ⟨s, _, h1, rfl, by decide, by decide, h3⟩

end Marcel.SchemeShow
