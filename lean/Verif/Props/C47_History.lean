import Verif.Model.History
/-! # C47: history numbers commands consistently -/

namespace Marcel.History

/-! ## Specification -/

/-- The commands in the order in which they were entered, numbered from 0. -/
def numbered (h : List Text) : List (Nat × Text) := (h.reverse.zipIdx).map fun x => (x.2, x.1)

/-- The last `n` elements. -/
def lastN {α : Type} (n : Nat) (l : List α) : List α := l.drop (l.length - n)

/-- Whether a command is selected by the option `-c`. -/
def Selected (pattern : Option Text) (c : Text) : Prop := ∀ p, pattern = some p → ∃ a b, c = a ++ p ++ b

/-! ## Proofs -/

theorem hasSub_iff (p c : Text) : hasSub p c = true ↔ ∃ a b, c = a ++ p ++ b := by
  induction c with
  | nil =>
    simp only [hasSub, List.isPrefixOf_iff_prefix]
    constructor
    · rintro ⟨b, hb⟩; exact ⟨[], b, by simpa using hb.symm⟩
    · rintro ⟨a, b, h⟩
      have : p = [] := by
        have := congrArg List.length h
        simp at this
        exact List.eq_nil_of_length_eq_zero (by omega)
      rw [this]; exact ⟨[], rfl⟩
  | cons x c ih =>
    simp only [hasSub, Bool.or_eq_true, List.isPrefixOf_iff_prefix, ih]
    constructor
    · rintro (⟨b, hb⟩ | ⟨a, b, h⟩)
      · exact ⟨[], b, by simpa using hb.symm⟩
      · exact ⟨x :: a, b, by rw [h]; rfl⟩
    · rintro ⟨a, b, h⟩
      cases a with
      | nil => left; exact ⟨b, by simpa using h.symm⟩
      | cons y a =>
        right
        simp only [List.cons_append, List.cons.injEq] at h
        exact ⟨a, b, h.2⟩

theorem sel_iff (pattern : Option Text) (c : Text) : sel pattern c = true ↔ Selected pattern c := by
  unfold sel Selected
  cases pattern with
  | none => simp
  | some p => simp [hasSub_iff]

theorem select_eq (total : Nat) (pattern : Option Text) (cs : List Text) :
    ∀ (i : Nat) (n : Option Nat), n ≠ some 0 →
      select total pattern cs i n =
        (match n with
          | none => (((cs.zipIdx i).map fun x => (total - 1 - x.2, x.1)).filter fun x => sel pattern x.2)
          | some n => (((cs.zipIdx i).map fun x => (total - 1 - x.2, x.1)).filter fun x => sel pattern x.2).take n) := by
  induction cs with
  | nil => intro i n _; cases n <;> simp [select]
  | cons c cs ih =>
    intro i n hn
    unfold select
    cases hs : sel pattern c with
    | false =>
      simp only [Bool.false_eq_true, if_false]
      rw [ih (i + 1) n hn]
      cases n <;> simp [List.zipIdx_cons, hs]
    | true =>
      simp only [if_true]
      cases n with
      | none =>
        rw [if_neg (by simp), Option.map_none, ih (i + 1) none (by simp)]
        simp [List.zipIdx_cons, hs]
      | some n =>
        match n with
        | 0 => exact absurd rfl hn
        | 1 => simp [List.zipIdx_cons, hs]
        | n + 2 =>
          rw [if_neg (by simp), Option.map_some, ih (i + 1) (some (n + 2 - 1)) (by simp)]
          simp [List.zipIdx_cons, hs]

theorem numbered_eq (h : List Text) :
    ((h.zipIdx 0).map fun x => (h.length - 1 - x.2, x.1)).reverse = numbered h := by
  unfold numbered
  apply List.ext_getElem
  · simp
  · intro i h1 h2
    simp only [List.length_reverse, List.length_map, List.length_zipIdx] at h1 h2
    simp only [List.getElem_reverse, List.getElem_map, List.getElem_zipIdx, List.length_map, List.length_zipIdx]
    refine Prod.ext ?_ ?_
    · simp; omega
    · simp

theorem reverse_take {α : Type} (l : List α) (n : Nat) : (l.take n).reverse = lastN n l.reverse := by
  unfold lastN
  rw [List.drop_reverse]
  congr 1
  simp only [List.length_reverse]
  rw [List.take_eq_take_iff]
  omega

/-- **C47**. What is shown: the commands containing the pattern, in the order in which they were entered, with consecutive numbers
starting from 0 for the oldest command; the most recent `n` of them (20 if no number is given), or all. -/
theorem C47_shown (h : List Text) (pattern : Option Text) (all : Bool) (n : Option Int) (out : List (Nat × Text))
    (hout : history h pattern all n = some out) :
    ∃ qualifying : List (Nat × Text),
      (qualifying.Sublist (numbered h) ∧ ∀ x ∈ numbered h, x ∈ qualifying ↔ Selected pattern x.2) ∧
      out = (if all ∧ n = none then qualifying else lastN (n.getD 20).toNat qualifying) := by
  refine ⟨(numbered h).filter fun x => sel pattern x.2, ⟨List.filter_sublist, ?_⟩, ?_⟩
  · intro x hx
    rw [List.mem_filter, sel_iff]
    simp [hx]
  · have key : ∀ m : Option Nat, m ≠ some 0 → (select h.length pattern h 0 m).reverse =
        (match m with
          | none => (numbered h).filter fun x => sel pattern x.2
          | some k => lastN k ((numbered h).filter fun x => sel pattern x.2)) := by
      intro m hm
      rw [select_eq _ _ _ _ _ hm]
      cases m with
      | none => simp only; rw [← List.filter_reverse, numbered_eq]
      | some k => simp only; rw [reverse_take, ← List.filter_reverse, numbered_eq]
    unfold history at hout
    cases n with
    | none =>
      cases all with
      | true =>
        simp only [Bool.not_true, Bool.false_and, Bool.false_eq_true, if_false, Option.some.injEq] at hout
        rw [← hout, key none (by simp)]; simp
      | false =>
        simp only [Bool.not_false, Option.isNone_none, Bool.and_self, if_true] at hout
        rw [if_neg (by decide)] at hout
        cases hout
        rw [key (some _) (by decide)]; simp
    | some k =>
      simp only [Option.isNone_some, Bool.and_false, Bool.false_eq_true, if_false] at hout
      split at hout
      · cases hout
      · rename_i hk
        cases hout
        rw [key (some _) (by simp; omega)]; simp

/-- A number that is not positive is refused, and nothing else is. -/
theorem C47_refused (h : List Text) (pattern : Option Text) (all : Bool) (n : Option Int) :
    history h pattern all n = none ↔ ∃ k, n = some k ∧ k < 1 := by
  unfold history
  cases n with
  | none => cases all <;> simp
  | some k => simp

theorem mem_numbered {h : List Text} {k : Nat} {c : Text} :
    (k, c) ∈ numbered h ↔ k < h.length ∧ h[h.length - 1 - k]? = some c := by
  unfold numbered
  simp only [List.mem_map, Prod.mk.injEq, Prod.exists]
  constructor
  · rintro ⟨a, b, hm, rfl, rfl⟩
    rw [List.mem_zipIdx_iff_getElem?] at hm
    simp only at hm
    have hl : b < h.length := by
      have := (List.getElem?_eq_some_iff.mp hm).1; simpa using this
    rw [List.getElem?_reverse (by simpa using hl)] at hm
    exact ⟨hl, hm⟩
  · rintro ⟨hl, hc⟩
    refine ⟨c, k, ?_, rfl, rfl⟩
    rw [List.mem_zipIdx_iff_getElem?]
    simp only
    rw [List.getElem?_reverse (by simpa using hl)]
    exact hc

theorem words_one (ws : Char → Bool) (w : Text) (hw : ∀ c ∈ w, ws c = false) (hne : w ≠ []) (post : Text)
    (hpost : ∀ c ∈ post, ws c = true) : words ws (w ++ post) = [w] := by
  have hp : words ws post = [] := by
    induction post with
    | nil => rfl
    | cons c cs ih =>
      unfold words
      rw [if_pos (hpost c (by simp))]
      exact ih (fun d hd => hpost d (by simp [hd]))
  induction w with
  | nil => exact absurd rfl hne
  | cons c w ih =>
    have hc := hw c (by simp)
    simp only [List.cons_append]
    unfold words
    rw [if_neg (by rw [hc]; simp)]
    cases w with
    | nil =>
      cases post with
      | nil => rfl
      | cons d ds =>
        simp only [List.nil_append]
        rw [if_pos (hpost d (by simp)), hp]
    | cons d ds =>
      simp only [List.cons_append]
      rw [if_neg (by rw [hw d (by simp)]; simp)]
      have := ih (fun x hx => hw x (by simp [hx])) (by simp)
      simp only [List.cons_append] at this
      rw [this]

theorem words_skip (ws : Char → Bool) (pre t : Text) (hpre : ∀ c ∈ pre, ws c = true) :
    words ws (pre ++ t) = words ws t := by
  induction pre with
  | nil => rfl
  | cons c cs ih =>
    simp only [List.cons_append]
    conv => lhs; unfold words
    rw [if_pos (hpre c (by simp))]
    exact ih (fun d hd => hpre d (by simp [hd]))

theorem lstrip_skip (ws : Char → Bool) (pre t : Text) (hpre : ∀ c ∈ pre, ws c = true) (ht : ∀ c r, t = c :: r → ws c = false) :
    lstrip ws (pre ++ t) = t := by
  unfold lstrip
  induction pre with
  | nil =>
    cases t with
    | nil => rfl
    | cons c r => simp [ht c r rfl]
  | cons c cs ih =>
    simp only [List.cons_append, List.dropWhile_cons, hpre c (by simp), if_true]
    exact ih (fun d hd => hpre d (by simp [hd]))

/-- **C47**. If `history` (with whatever arguments) shows a command with number `k`, then entering `! k` runs that command. `w` is any way to
write `k`; there may be space before and after. -/
theorem C47_recall (ws : Char → Bool) (num : Text → Option Int) (h : List Text) (pattern : Option Text) (all : Bool)
    (n : Option Int) (out : List (Nat × Text)) (hout : history h pattern all n = some out) (k : Nat) (c : Text)
    (hk : (k, c) ∈ out) (hc : c ≠ []) (hws : ws '!' = false)
    (w : Text) (hw : num w = some (k : Int)) (hwne : w ≠ []) (hwb : w.head? ≠ some '!') (hww : ∀ x ∈ w, ws x = false)
    (s1 s2 s3 : Text) (h1 : ∀ x ∈ s1, ws x = true) (h2 : ∀ x ∈ s2, ws x = true) (h3 : ∀ x ∈ s3, ws x = true) :
    entered ws num h (s1 ++ '!' :: (s2 ++ (w ++ s3))) = c := by
  have hmem : (k, c) ∈ numbered h := by
    obtain ⟨q, ⟨hq, _⟩, ho⟩ := C47_shown h pattern all n out hout
    have : (k, c) ∈ q := by
      rw [ho] at hk
      split at hk
      · exact hk
      · exact List.mem_of_mem_drop hk
    exact hq.subset this
  rw [mem_numbered] at hmem
  have hwords : words ws (s2 ++ (w ++ s3)) = [w] := by
    rw [words_skip ws s2 _ h2, words_one ws w hww hwne s3 h3]
  have hcmd : commandById h (k : Int) = c := by
    unfold commandById
    rw [if_neg (by omega), if_neg (by omega)]
    simp [hmem.2]
  have hrec : recall ws num h (s1 ++ '!' :: (s2 ++ (w ++ s3))) = some c := by
    unfold recall
    rw [lstrip_skip ws s1 _ h1 (by intro a r e; cases e; exact hws)]
    split
    · rename_i r e
      exfalso
      simp only [List.cons.injEq, true_and] at e
      cases s2 with
      | nil =>
        cases w with
        | nil => exact hwne rfl
        | cons a w => simp only [List.nil_append, List.cons_append, List.cons.injEq] at e; simp [e.1] at hwb
      | cons a s2 =>
        simp only [List.cons_append, List.cons.injEq] at e
        have := h2 a (by simp)
        rw [e.1, hws] at this; cases this
    · rename_i r e hne
      simp only [List.cons.injEq, true_and] at hne
      subst hne
      simp only [hwords, hw, Option.map_some, hcmd]
    · rename_i hno
      exact absurd rfl (hno _)
  unfold entered
  rw [hrec]
  simp [hc]

/-- **C47**. `!!` runs the last command shown by `history`. -/
theorem C47_last (ws : Char → Bool) (num : Text → Option Int) (h : List Text) (c : Text) (hl : h.head? = some c) (hc : c ≠ [])
    (hws : ws '!' = false) : entered ws num h ['!', '!'] = c := by
  cases h with
  | nil => cases hl
  | cons x xs =>
    cases hl
    have hcmd : commandById (c :: xs) (((c :: xs).length : Int) - 1) = c := by
      unfold commandById
      rw [if_neg (by simp), if_neg (by omega)]
      have : ((((c :: xs).length : Int) - 1).toNat) = (c :: xs).length - 1 := by omega
      rw [this]
      simp
    unfold entered recall lstrip
    simp only [List.dropWhile_cons, hws, Bool.false_eq_true, if_false]
    simp only [words, if_true, hcmd]
    simp [hc]

/-- What is stored, after some commands have been entered and the history has been looked at in between: `true` marks looking. -/
inductive Session : Reader → List Text → Prop
  | start (f : List Text) : Session ⟨f, []⟩ f
  | enter {r h} (c : Text) (hc : c ≠ []) (hne : h.head? ≠ some c) : Session r h → Session (r.enter c) (c :: h)
  | again {r h} (c : Text) (hc : c = [] ∨ h.head? = some c) : Session r h → Session (r.enter c) h
  | look {r h} : Session r h → Session r.history.2 h

/-- **C47**. In a session, what `history` and `!` use is always the complete history: what was there at the start, and the commands entered
since then. -/
theorem C47_session {r : Reader} {h : List Text} (hs : Session r h) : r.history.1 = h := by
  have key : r.file = h ∧ ∃ l, h = l ++ r.cache := by
    induction hs with
    | start f => exact ⟨rfl, f, by simp⟩
    | enter c hc hne _ ih =>
      obtain ⟨e, l, hl⟩ := ih
      unfold Reader.enter
      rw [if_neg (by rw [e]; simp [hc, hne])]
      exact ⟨by simp [e], c :: l, by simp [hl]⟩
    | again c hc _ ih =>
      obtain ⟨e, l, hl⟩ := ih
      unfold Reader.enter
      rw [if_pos (by rw [e]; exact hc)]
      exact ⟨e, l, hl⟩
    | look _ ih =>
      obtain ⟨e, l, hl⟩ := ih
      unfold Reader.history
      split
      · exact ⟨e, [], by simp [e]⟩
      · exact ⟨e, l, hl⟩
  obtain ⟨e, l, hl⟩ := key
  unfold Reader.history
  split
  · exact e
  · rename_i hlt
    rw [e] at hlt
    have : l = [] := by
      rw [hl, List.length_append] at hlt
      exact List.eq_nil_of_length_eq_zero (by omega)
    rw [hl, this]; rfl

/-- **C47**. Numbers are never reused: entering a command leaves the numbers of the earlier ones as they are. -/
theorem C47_stable (h new : List Text) : ∃ more, numbered (new ++ h) = numbered h ++ more := by
  unfold numbered
  rw [List.reverse_append, List.zipIdx_append, List.map_append]
  exact ⟨_, rfl⟩

/-! ### Non-vacuity -/

def exHist : List Text := ["ls -l".toList, "pwd".toList, "ls".toList]

example : history exHist (some "ls".toList) false (some 2) = some [(0, "ls".toList), (2, "ls -l".toList)] := by
  decide +kernel

/-- `ws` and `num` for the examples: a space, and one digit. -/
def exWs (c : Char) : Bool := c = ' '
def exNum : Text → Option Int
  | ['0'] => some 0
  | ['1'] => some 1
  | ['2'] => some 2
  | _ => none

example : entered exWs exNum exHist " ! 1 ".toList = "pwd".toList := by decide +kernel

example : Session (((⟨exHist, []⟩ : Reader).history.2).enter "new".toList) ("new".toList :: exHist) :=
  .enter _ (by decide +kernel) (by decide +kernel) (.look (.start _))

/-- A command that is not the recall of another one is run as it is. -/
example : entered exWs exNum exHist "ps".toList = "ps".toList := by decide +kernel

end Marcel.History
