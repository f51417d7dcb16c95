import Verif.Model.Color
import Verif.Spec.Terminal
import Verif.Props.C20_Gen
/-! # C87: What is coloured is shown in that colour, and nothing else is -/

namespace Marcel.Color
open Terminal

/-- The attributes that a colour stands for. -/
def Wanted (c : Color) (a : Attr) : Prop :=
  (a.bold = true ↔ c.style = 1 ∨ c.style = 3) ∧ (a.italic = true ↔ c.style = 2 ∨ c.style = 3) ∧
  a.color = some (16 + 36 * c.r.toNat + 6 * c.g.toNat + c.b.toNat)

/-- A colour as documented: components from 0 to 5, style none, BOLD, ITALIC or both. -/
def Proper (c : Color) : Prop :=
  0 ≤ c.r ∧ c.r ≤ 5 ∧ 0 ≤ c.g ∧ c.g ≤ 5 ∧ 0 ≤ c.b ∧ c.b ≤ 5 ∧ 0 ≤ c.style ∧ c.style ≤ 3

instance (c : Color) : Decidable (Proper c) := by unfold Proper; infer_instance

theorem shows_append (s : State) (a b : List Char) :
    shows s (a ++ b) = ((shows s a).1 ++ (shows (shows s a).2 b).1, (shows (shows s a).2 b).2) := by
  induction a generalizing s with
  | nil => simp [shows]
  | cons c a ih => simp only [List.cons_append, shows, ih, List.append_assoc]

theorem shows_text (a : Attr) (t : List Char) (h : esc ∉ t) : shows ⟨a, .text⟩ t = (t.map fun c => (c, a), ⟨a, .text⟩) := by
  induction t with
  | nil => rfl
  | cons c t ih =>
    simp only [List.mem_cons, not_or] at h
    have hc : ¬ c = Char.ofNat 27 := fun e => h.1 (by rw [e]; rfl)
    simp only [shows, step, if_neg hc, ih h.2, List.map_cons, Option.toList_some, List.singleton_append]

theorem shows_control (a : Attr) (l t : List Char) (h : 'm' ∉ t) :
    shows ⟨a, .control l⟩ (t ++ ['m']) = ([], ⟨setAttrs a (numbers 0 (l ++ t)), .text⟩) := by
  induction t generalizing l with
  | nil => simp [shows, step]
  | cons c t ih =>
    simp only [List.mem_cons, not_or] at h
    have hc : ¬ c = 'm' := fun e => h.1 e.symm
    simp only [List.cons_append, shows, step, if_neg hc, Option.toList_none, List.nil_append]
    rw [ih _ h.2]; simp

theorem shows_seq (a : Attr) (t : List Char) (h : 'm' ∉ t) : shows ⟨a, .text⟩ (seq t) = ([], ⟨setAttrs a (numbers 0 t), .text⟩) := by
  have h1 : shows ⟨a, .text⟩ (seq t) = shows ⟨a, .control []⟩ (t ++ ['m']) := by
    simp [seq, shows, step, esc]
  rw [h1, shows_control a [] t h]; simp

theorem chr_digit {n : Nat} (h : 48 ≤ n ∧ n ≤ 57) : (Char.ofNat n).toNat = n := by
  have : n.isValidChar := by left; omega
  simp [Char.ofNat, this, Char.ofNatAux, Char.toNat]

theorem numbers_digits (l : List Nat) (h : IsDigits l) (k : Nat) :
    numbers k (l.map Char.ofNat) = [l.foldl (fun acc c => 10 * acc + (c - 48)) k] := by
  induction l generalizing k with
  | nil => rfl
  | cons c l ih =>
    have hc := h c (by simp)
    have e := chr_digit hc
    have hs : Char.ofNat c ≠ ';' := by
      intro e2; rw [e2] at e
      have : (';' : Char).toNat = 59 := rfl
      omega
    simp only [List.map_cons, List.foldl_cons]
    rw [numbers, if_neg hs, e, ih (fun d hd => h d (by simp [hd]))]

theorem no_m (l : List Nat) (h : IsDigits l) : 'm' ∉ l.map Char.ofNat := by
  intro hm
  rw [List.mem_map] at hm
  obtain ⟨n, hn, e⟩ := hm
  have := chr_digit (h n hn)
  rw [e] at this
  have h2 : ('m' : Char).toNat = 109 := rfl
  have := h n hn
  omega

theorem code_nat (c : Color) (h : Proper c) : c.code = ((16 + 36 * c.r.toNat + 6 * c.g.toNat + c.b.toNat : Nat) : Int) := by
  obtain ⟨h1, -, h3, -, h5, -⟩ := h
  unfold Color.code; omega

theorem shows_code (a : Attr) (c : Color) (h : Proper c) :
    shows ⟨a, .text⟩ (seq ('3' :: '8' :: ';' :: '5' :: ';' :: decInt c.code)) =
      ([], ⟨{ a with color := some (16 + 36 * c.r.toNat + 6 * c.g.toNat + c.b.toNat) }, .text⟩) := by
  rw [code_nat c h]
  have hd : IsDigits (decimal (16 + 36 * c.r.toNat + 6 * c.g.toNat + c.b.toNat)) := isDigits_decimal _
  have hv := readDecimal_decimal (16 + 36 * c.r.toNat + 6 * c.g.toNat + c.b.toNat)
  have e : decInt ((16 + 36 * c.r.toNat + 6 * c.g.toNat + c.b.toNat : Nat) : Int) =
    (decimal (16 + 36 * c.r.toNat + 6 * c.g.toNat + c.b.toNat)).map Char.ofNat := rfl
  rw [e, shows_seq]
  · have e1 : numbers 0 ('3' :: '8' :: ';' :: '5' :: ';' :: (decimal (16 + 36 * c.r.toNat + 6 * c.g.toNat + c.b.toNat)).map Char.ofNat) =
        [38, 5, 16 + 36 * c.r.toNat + 6 * c.g.toNat + c.b.toNat] := by
      have := numbers_digits _ hd 0
      unfold readDecimal at hv
      rw [hv] at this
      simp [numbers, this]
    rw [e1]; simp [setAttrs]
  · have := no_m _ hd
    simp only [List.mem_cons, not_or]
    exact ⟨by decide, by decide, by decide, by decide, by decide, this⟩

/-- The attributes of a colour, put on top of those that are set. -/
def attrOf (c : Color) : Attr := ⟨c.bold, c.italic, some (16 + 36 * c.r.toNat + 6 * c.g.toNat + c.b.toNat)⟩

theorem shows_style (c : Color) : shows ready (styleText c) = ([], ⟨⟨c.bold, c.italic, none⟩, .text⟩) := by
  have h1 : ∀ a, shows ⟨a, .text⟩ (seq ['1']) = ([], ⟨{ a with bold := true }, .text⟩) := fun a => by
    rw [shows_seq a ['1'] (by decide)]; simp [numbers, setAttrs, setAttr]
  have h3 : ∀ a, shows ⟨a, .text⟩ (seq ['3']) = ([], ⟨{ a with italic := true }, .text⟩) := fun a => by
    rw [shows_seq a ['3'] (by decide)]; simp [numbers, setAttrs, setAttr]
  have h0 : ∀ a, shows ⟨a, .text⟩ (seq ['0']) = ([], ⟨plain, .text⟩) := fun a => by
    rw [shows_seq a ['0'] (by decide)]; simp [numbers, setAttrs, setAttr]
  unfold styleText ready
  rcases Bool.eq_false_or_eq_true c.bold with hb | hb <;> rcases Bool.eq_false_or_eq_true c.italic with hi | hi <;>
    simp [hb, hi, shows_append, h1, h3, h0, plain]

theorem shows_colorize (s : List Char) (c : Color) (h : Proper c) (hs : esc ∉ s) :
    shows ready (colorize s (some c)) = (s.map fun x => (x, attrOf c), ready) := by
  have h0 : ∀ a, shows ⟨a, .text⟩ (seq ['0']) = ([], ⟨plain, .text⟩) := fun a => by
    rw [shows_seq a ['0'] (by decide)]; simp [numbers, setAttrs, setAttr]
  simp only [colorize, shows_append, shows_style, shows_code _ c h, shows_text _ s hs, h0, List.nil_append, List.append_nil]
  rfl

theorem wanted_iff (c : Color) (h : Proper c) (a : Attr) : Wanted c a ↔ a = attrOf c := by
  obtain ⟨-, -, -, -, -, -, h1, h2⟩ := h
  have hb : c.bold = true ↔ c.style = 1 ∨ c.style = 3 := by unfold Color.bold; rw [decide_eq_true_iff]; omega
  have hi : c.italic = true ↔ c.style = 2 ∨ c.style = 3 := by unfold Color.italic; rw [decide_eq_true_iff]; omega
  unfold Wanted attrOf
  rw [← hb, ← hi]
  constructor
  · rintro ⟨x, y, z⟩
    rcases a with ⟨ab, ai, ac⟩
    simp only at x y z
    have e1 : ab = c.bold := by rw [Bool.eq_iff_iff]; exact x
    have e2 : ai = c.italic := by rw [Bool.eq_iff_iff]; exact y
    subst e1; subst e2; rw [z]
  · rintro rfl
    exact ⟨Iff.rfl, Iff.rfl, rfl⟩

/-- **C87** A coloured text is shown character by character, each in exactly the colour and style given, and afterwards the terminal is as before: whatever is printed
next is shown without colour. -/
theorem C87_shown (s : List Char) (c : Color) (h : Proper c) (hs : Char.ofNat 27 ∉ s) :
    (shows ready (colorize s (some c))).1.map (·.1) = s ∧
    (∀ x ∈ (shows ready (colorize s (some c))).1, Wanted c x.2) ∧
    (shows ready (colorize s (some c))).2 = ready := by
  rw [shows_colorize s c h hs]
  refine ⟨by simp [Function.comp_def], fun x hx => ?_, rfl⟩
  rw [List.mem_map] at hx
  obtain ⟨y, -, rfl⟩ := hx
  exact (wanted_iff c h _).2 rfl

/-- **C87** Without a colour, a text is left as it is. -/
theorem C87_none (s : List Char) : colorize s none = s := rfl

/-- **C87** Different colours look different: attributes that two colours both stand for belong to one colour. -/
theorem C87_distinct (c d : Color) (hc : Proper c) (hd : Proper d) (a : Attr) (h1 : Wanted c a) (h2 : Wanted d a) : c = d := by
  obtain ⟨c1, c2, c3, c4, c5, c6, c7, c8⟩ := hc
  obtain ⟨d1, d2, d3, d4, d5, d6, d7, d8⟩ := hd
  obtain ⟨a1, a2, a3⟩ := h1
  obtain ⟨b1, b2, b3⟩ := h2
  rw [a3] at b3
  simp only [Option.some.injEq] at b3
  have e1 := a1.symm.trans b1
  have e2 := a2.symm.trans b2
  rcases c with ⟨cr, cg, cb, cs⟩
  rcases d with ⟨dr, dg, db, ds⟩
  simp only at *
  have : cr = dr := by omega
  have : cg = dg := by omega
  have : cb = db := by omega
  have : cs = ds := by omega
  simp_all

/-- **C87** A colour gives no message if and only if it is as documented; its code is then one of the 216 of the palette's colour cube, and each of them has its colour. -/
theorem C87_codes (c : Color) :
    (c.complains = false ↔ Proper c) ∧ (Proper c → 16 ≤ c.code ∧ c.code ≤ 231) ∧
    (∀ n : Int, 16 ≤ n → n ≤ 231 → ∃ d : Color, Proper d ∧ d.style = 0 ∧ d.code = n) := by
  refine ⟨?_, ?_, ?_⟩
  · unfold Color.complains Proper
    simp only [Bool.or_eq_false_iff, decide_eq_false_iff_not]
    omega
  · intro h
    unfold Proper at h
    unfold Color.code
    omega
  · intro n h1 h2
    refine ⟨⟨(n - 16) / 36, (n - 16) % 36 / 6, (n - 16) % 6, 0⟩, ?_, rfl, ?_⟩
    · unfold Proper; simp only; omega
    · unfold Color.code; simp only; omega

/-- **C87 is false** for colours that are not as documented: they are not refused, only complained about, and are shown as other colours are. -/
theorem C87_false_range : ∃ c d : Color, ¬ Proper c ∧ Proper d ∧ c.complains = true ∧
    ∀ s, colorize s (some c) = colorize s (some d) :=
  ⟨⟨0, 0, 6, 0⟩, ⟨0, 1, 0, 0⟩, by decide, by decide, by decide, fun _ => rfl⟩

/-- **C87 is false** for text of which a part is coloured already: what follows that part is shown without colour. -/
theorem C87_false_nested (s t u : List Char) (c d : Color) (hc : Proper c) (hd : Proper d) (hs : Char.ofNat 27 ∉ s) (ht : Char.ofNat 27 ∉ t) (hu : Char.ofNat 27 ∉ u)
    (hd0 : d.style = 0) :
    (shows ready (colorize (s ++ colorize t (some d) ++ u) (some c))).1 =
      s.map (fun x => (x, attrOf c)) ++ t.map (fun x => (x, attrOf d)) ++ u.map (fun x => (x, plain)) := by
  have h0 : ∀ a, shows ⟨a, .text⟩ (seq ['0']) = ([], ⟨plain, .text⟩) := fun a => by
    rw [shows_seq a ['0'] (by decide)]; simp [numbers, setAttrs, setAttr]
  have hb : d.bold = false := by simp [Color.bold, hd0]
  have hi : d.italic = false := by simp [Color.italic, hd0]
  have hst : styleText d = seq ['0'] := by simp [styleText, hb, hi]
  simp only [colorize, shows_append, shows_style, shows_code _ c hc, shows_code _ d hd, shows_text _ s hs, shows_text _ t ht, shows_text _ u hu, h0, hst, List.nil_append, List.append_nil]
  simp [attrOf, hb, hi, plain]

/-- The hypotheses can be met: the version in the default prompt. -/
example : Proper ⟨0, 2, 3, 1⟩ ∧ Char.ofNat 27 ∉ "0.26".toList ∧
    (shows ready (colorize "M".toList (some ⟨0, 2, 3, 1⟩))).1 = [('M', ⟨true, false, some 31⟩)] := by decide +kernel

end Marcel.Color
