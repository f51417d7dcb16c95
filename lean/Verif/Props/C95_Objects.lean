import Verif.Spec.Objects
import Verif.Props.C06_Sort
/-! # C95: objects in a stream are compared, sorted and told apart by what identifies them -/

namespace Marcel.Objects

open Op

/-! ## Lexicographic order -/

theorem before_nil_right {κ : Type} (r : κ → κ → Prop) (xs : List κ) : ¬ Before r xs [] := by
  rintro (⟨b, bs, h⟩ | ⟨pre, a, as, b, bs, _, h, _⟩)
  · simp at h
  · simp at h

theorem before_nil_left {κ : Type} (r : κ → κ → Prop) (b : κ) (bs : List κ) : Before r [] (b :: bs) :=
  Or.inl ⟨b, bs, rfl⟩

theorem before_cons {κ : Type} (r : κ → κ → Prop) (a b : κ) (as bs : List κ) :
    Before r (a :: as) (b :: bs) ↔ (a = b ∧ Before r as bs) ∨ r a b := by
  constructor
  · rintro (⟨c, cs, h⟩ | ⟨pre, c, cs, d, ds, h1, h2, h3⟩)
    · simp only [List.cons_append, List.cons.injEq] at h
      exact Or.inl ⟨h.1.symm, Or.inl ⟨c, cs, h.2⟩⟩
    · rcases pre with _ | ⟨p, pre⟩
      · simp only [List.nil_append, List.cons.injEq] at h1 h2
        exact Or.inr (by rw [h1.1, h2.1]; exact h3)
      · simp only [List.cons_append, List.cons.injEq] at h1 h2
        exact Or.inl ⟨by rw [h1.1, h2.1], Or.inr ⟨pre, c, cs, d, ds, h1.2, h2.2, h3⟩⟩
  · rintro (⟨rfl, ⟨c, cs, h⟩ | ⟨pre, c, cs, d, ds, h1, h2, h3⟩⟩ | h)
    · exact Or.inl ⟨c, cs, by rw [h]; rfl⟩
    · exact Or.inr ⟨a :: pre, c, cs, d, ds, by rw [h1]; rfl, by rw [h2]; rfl, h3⟩
    · exact Or.inr ⟨[], a, as, b, bs, rfl, rfl, h⟩

/-- A strict total order. -/
structure Strict {κ : Type} (r : κ → κ → Prop) : Prop where
  irrefl : ∀ a, ¬ r a a
  trans : ∀ a b c, r a b → r b c → r a c
  tri : ∀ a b, r a b ∨ a = b ∨ r b a

theorem Strict.before {κ : Type} {r : κ → κ → Prop} (h : Strict r) : Strict (Before r) := by
  refine ⟨?_, ?_, ?_⟩
  · intro xs
    induction xs with
    | nil => exact before_nil_right r []
    | cons a as ih =>
      rw [before_cons]
      rintro (⟨_, h1⟩ | h1)
      · exact ih h1
      · exact h.irrefl a h1
  · intro xs
    induction xs with
    | nil =>
      intro ys zs h1 h2
      rcases zs with _ | ⟨c, cs⟩
      · exact absurd h2 (before_nil_right r ys)
      · exact before_nil_left r c cs
    | cons a as ih =>
      intro ys zs h1 h2
      rcases ys with _ | ⟨b, bs⟩
      · exact absurd h1 (before_nil_right r _)
      · rcases zs with _ | ⟨c, cs⟩
        · exact absurd h2 (before_nil_right r _)
        · rw [before_cons] at h1 h2 ⊢
          rcases h1 with ⟨rfl, h1⟩ | h1
          · rcases h2 with ⟨rfl, h2⟩ | h2
            · exact Or.inl ⟨rfl, ih bs cs h1 h2⟩
            · exact Or.inr h2
          · rcases h2 with ⟨rfl, h2⟩ | h2
            · exact Or.inr h1
            · exact Or.inr (h.trans a b c h1 h2)
  · intro xs
    induction xs with
    | nil =>
      intro ys
      rcases ys with _ | ⟨b, bs⟩
      · exact Or.inr (Or.inl rfl)
      · exact Or.inl (before_nil_left r b bs)
    | cons a as ih =>
      intro ys
      rcases ys with _ | ⟨b, bs⟩
      · exact Or.inr (Or.inr (before_nil_left r a as))
      · rw [before_cons, before_cons]
        rcases h.tri a b with h1 | rfl | h1
        · exact Or.inl (Or.inr h1)
        · rcases ih bs with h2 | rfl | h2
          · exact Or.inl (Or.inl ⟨rfl, h2⟩)
          · exact Or.inr (Or.inl rfl)
          · exact Or.inr (Or.inr (Or.inl ⟨rfl, h2⟩))
        · exact Or.inr (Or.inr (Or.inr h1))

theorem strict_char : Strict (fun c d : Char => c.toNat < d.toNat) := by
  refine ⟨fun a h => Nat.lt_irrefl _ h, fun a b c h1 h2 => Nat.lt_trans h1 h2, ?_⟩
  intro a b
  rcases Nat.lt_trichotomy a.toNat b.toNat with h | h | h
  · exact Or.inl h
  · exact Or.inr (Or.inl (Char.ext (UInt32.toNat_inj.mp h)))
  · exact Or.inr (Or.inr h)

theorem strict_str : Strict StrBefore := strict_char.before
theorem strict_path : Strict PathBefore := strict_str.before

theorem lexLt_iff {κ : Type} [DecidableEq κ] {lt : κ → κ → Bool} {r : κ → κ → Prop} (hr : Strict r)
    (h : ∀ a b, lt a b = true ↔ r a b) : ∀ xs ys, lexLt lt xs ys = true ↔ Before r xs ys := by
  intro xs
  induction xs with
  | nil =>
    intro ys
    rcases ys with _ | ⟨b, bs⟩
    · simp [lexLt, before_nil_right]
    · simp [lexLt, before_nil_left]
  | cons a as ih =>
    intro ys
    rcases ys with _ | ⟨b, bs⟩
    · simp [lexLt, before_nil_right]
    · rw [before_cons]
      unfold lexLt
      by_cases hab : a = b
      · subst hab
        simp only [if_true, ih]
        constructor
        · exact fun h => Or.inl ⟨by trivial, h⟩
        · rintro (⟨_, h1⟩ | h1)
          · exact h1
          · exact absurd h1 (hr.irrefl a)
      · rw [if_neg hab, h]
        exact ⟨Or.inr, fun h => h.resolve_left (fun h => hab h.1)⟩

theorem strLt_iff (s t : Str) : strLt s t = true ↔ StrBefore s t :=
  lexLt_iff strict_char (fun a b => by simp) s t

theorem pathLt_iff (p q : List Str) : pathLt p q = true ↔ PathBefore p q :=
  lexLt_iff strict_str strLt_iff p q

/-! ## Comparison -/

/-- **C95.** Two objects are equal (`==`) exactly if both are files with the same path, processes with the same pid, history records with the same
number, the same number, string or `None`, or the same object. -/
theorem C95_equal (a b : Obj) : pyCmp .eq a b = .ok true ↔ Same a b := by
  constructor
  · intro h
    cases a <;> cases b <;> simp [pyCmp, method, Cmp.swap, intCmp, strCmp, fileCmp, procCmp, histCmp] at h <;>
      first
        | (subst h; constructor)
        | constructor
  · intro h
    cases h <;> simp [pyCmp, method, intCmp, strCmp, fileCmp, procCmp, histCmp]

/-- An operator applied to two objects. -/
def Yields (c : Cmp) (a b : Obj) (p : Prop) : Prop := (pyCmp c a b = .ok true ∧ p) ∨ (pyCmp c a b = .ok false ∧ ¬ p)

theorem yields_of_decide {c : Cmp} {a b : Obj} {v : Bool} {p : Prop} (h : pyCmp c a b = .ok v) (hv : v = true ↔ p) :
    Yields c a b p := by
  cases v with
  | true => exact Or.inl ⟨h, hv.mp rfl⟩
  | false => exact Or.inr ⟨h, fun hp => by have := hv.mpr hp; cases this⟩

theorem same_iff (a b : Obj) : Same a b ↔ a.key = b.key := by
  constructor
  · intro h; cases h <;> rfl
  · intro h
    cases a <;> cases b <;> simp [Obj.key] at h <;> first | (subst h; constructor) | constructor

/-- **C95.** For two objects of the same kind that has an order, each comparison gives what is to be expected, and never fails. -/
theorem C95_compare (a b : Obj) (hk : a.kind = b.kind) (ho : a.kind.Ordered) :
    Yields .eq a b (Same a b) ∧ Yields .ne a b (¬ Same a b) ∧ Yields .lt a b (Precedes a b) ∧
    Yields .gt a b (Precedes b a) ∧ Yields .le a b (Precedes a b ∨ Same a b) ∧ Yields .ge a b (Precedes b a ∨ Same a b) := by
  cases a <;> cases b <;> first | (cases hk; done) | (exact absurd ho id) | skip
  case int.int m n =>
    have hs : Same (.int m) (.int n) ↔ m = n := by rw [same_iff]; simp [Obj.key]
    have hp : ∀ m n, Precedes (.int m) (.int n) ↔ m < n := fun m n => ⟨fun h => by cases h; assumption, Precedes.int⟩
    rw [hs, hp, hp]
    refine ⟨yields_of_decide rfl ?_, yields_of_decide rfl ?_, yields_of_decide rfl ?_, yields_of_decide rfl ?_,
      yields_of_decide rfl ?_, yields_of_decide rfl ?_⟩ <;> simp only [intCmp, decide_eq_true_eq] <;> omega
  case proc.proc m r n r' =>
    have hs : Same (.proc m r) (.proc n r') ↔ m = n := by rw [same_iff]; simp [Obj.key]
    have hp : ∀ m r n r', Precedes (.proc m r) (.proc n r') ↔ m < n :=
      fun m r n r' => ⟨fun h => by cases h; assumption, Precedes.proc r r'⟩
    rw [hs, hp, hp]
    refine ⟨yields_of_decide rfl ?_, yields_of_decide rfl ?_, yields_of_decide rfl ?_, yields_of_decide rfl ?_,
      yields_of_decide rfl ?_, yields_of_decide rfl ?_⟩ <;> simp only [procCmp, decide_eq_true_eq] <;> omega
  case hist.hist m r n r' =>
    have hs : Same (.hist m r) (.hist n r') ↔ m = n := by rw [same_iff]; simp [Obj.key]
    have hp : ∀ m r n r', Precedes (.hist m r) (.hist n r') ↔ m < n :=
      fun m r n r' => ⟨fun h => by cases h; assumption, Precedes.hist r r'⟩
    rw [hs, hp, hp]
    refine ⟨yields_of_decide rfl ?_, yields_of_decide rfl ?_, yields_of_decide rfl ?_, yields_of_decide rfl ?_,
      yields_of_decide rfl ?_, yields_of_decide rfl ?_⟩ <;> simp only [histCmp, decide_eq_true_eq] <;> omega
  case str.str s t =>
    have hs : Same (.str s) (.str t) ↔ s = t := by rw [same_iff]; simp [Obj.key]
    have hp : ∀ s t, Precedes (.str s) (.str t) ↔ StrBefore s t := fun s t => ⟨fun h => by cases h; assumption, Precedes.str⟩
    rw [hs, hp, hp]
    refine ⟨yields_of_decide rfl ?_, yields_of_decide rfl ?_, yields_of_decide rfl ?_, yields_of_decide rfl ?_,
      yields_of_decide rfl ?_, yields_of_decide rfl ?_⟩ <;>
      simp only [strCmp, decide_eq_true_eq, Bool.or_eq_true, strLt_iff, ne_eq] <;> exact or_comm
  case file.file p r q r' =>
    have hs : Same (.file p r) (.file q r') ↔ p = q := by rw [same_iff]; simp [Obj.key]
    have hp : ∀ p r q r', Precedes (.file p r) (.file q r') ↔ PathBefore p q :=
      fun p r q r' => ⟨fun h => by cases h; assumption, Precedes.file r r'⟩
    rw [hs, hp, hp]
    refine ⟨yields_of_decide rfl ?_, yields_of_decide rfl ?_, yields_of_decide rfl ?_, yields_of_decide rfl ?_,
      yields_of_decide rfl ?_, yields_of_decide rfl ?_⟩ <;>
      simp only [fileCmp, decide_eq_true_eq, Bool.or_eq_true, pathLt_iff, ne_eq] <;> exact or_comm

/-- **C95.** The order of objects of one kind is total. -/
theorem C95_order :
    (∀ a, ¬ Precedes a a) ∧ (∀ a b c, Precedes a b → Precedes b c → Precedes a c) ∧
    (∀ a b, a.kind = b.kind → a.kind.Ordered → Precedes a b ∨ Same a b ∨ Precedes b a) ∧
    (∀ a b, Precedes a b → ¬ Same a b) ∧
    (∀ a a' b b', Same a a' → Same b b' → Precedes a b → Precedes a' b') := by
  refine ⟨?_, ?_, ?_, ?_, ?_⟩
  · intro a h
    cases h with
    | int h => omega
    | str h => exact strict_str.irrefl _ h
    | file _ _ h => exact strict_path.irrefl _ h
    | proc _ _ h => omega
    | hist _ _ h => omega
  · intro a b c h1 h2
    cases h1 with
    | int h => cases h2 with | int h' => exact .int (by omega)
    | str h => cases h2 with | str h' => exact .str (strict_str.trans _ _ _ h h')
    | file _ _ h => cases h2 with | file _ _ h' => exact .file _ _ (strict_path.trans _ _ _ h h')
    | proc _ _ h => cases h2 with | proc _ _ h' => exact .proc _ _ (by omega)
    | hist _ _ h => cases h2 with | hist _ _ h' => exact .hist _ _ (by omega)
  · intro a b hk ho
    cases a <;> cases b <;> first | (cases hk; done) | (exact absurd ho id) | skip
    case int.int m n =>
      rcases Int.lt_trichotomy m n with h | rfl | h
      · exact Or.inl (.int h)
      · exact Or.inr (Or.inl (.int _))
      · exact Or.inr (Or.inr (.int h))
    case proc.proc m r n r' =>
      rcases Int.lt_trichotomy m n with h | rfl | h
      · exact Or.inl (.proc _ _ h)
      · exact Or.inr (Or.inl (.proc _ _ _))
      · exact Or.inr (Or.inr (.proc _ _ h))
    case hist.hist m r n r' =>
      rcases Int.lt_trichotomy m n with h | rfl | h
      · exact Or.inl (.hist _ _ h)
      · exact Or.inr (Or.inl (.hist _ _ _))
      · exact Or.inr (Or.inr (.hist _ _ h))
    case str.str m n =>
      rcases strict_str.tri m n with h | rfl | h
      · exact Or.inl (.str h)
      · exact Or.inr (Or.inl (.str _))
      · exact Or.inr (Or.inr (.str h))
    case file.file p r q r' =>
      rcases strict_path.tri p q with h | rfl | h
      · exact Or.inl (.file _ _ h)
      · exact Or.inr (Or.inl (.file _ _ _))
      · exact Or.inr (Or.inr (.file _ _ h))
  · intro a b h hs
    cases hs <;> cases h
    case int h => omega
    case str h => exact strict_str.irrefl _ h
    case file h => exact strict_path.irrefl _ h
    case proc h => omega
    case hist h => omega
  · intro a a' b b' h1 h2 h
    cases h <;> cases h1 <;> cases h2 <;> constructor <;> assumption

/-- **C95.** Equal objects have equal hashes. -/
theorem C95_hash (H : Hashes) (a b : Obj) (h : Same a b) : a.hash H = b.hash H := by
  cases h <;> rfl

/-! ## Items -/

theorem itemEq_testable : ∀ x y : Item, Testable x y → itemEq x y = .ok (decide (ident x = ident y)) := by
  intro x
  induction x with
  | nil => intro y _; cases y <;> simp [itemEq, ident]
  | cons a as ih =>
    intro y h
    rcases y with _ | ⟨b, bs⟩
    · simp [itemEq, ident]
    · obtain ⟨h1, h2⟩ := h
      have he : ∃ v, pyCmp .eq a b = .ok v := by
        cases a <;> cases b <;> simp [Obj.kind, Kind.Builtin] at h1 <;>
          simp [pyCmp, method, Cmp.swap, intCmp, strCmp, fileCmp, procCmp, histCmp]
      obtain ⟨v, hv⟩ := he
      have hs := C95_equal a b
      rw [hv, same_iff] at hs
      unfold itemEq
      rw [hv]
      cases v with
      | true =>
        have hab := hs.mp rfl
        simp only [ih bs h2]
        have : (ident (a :: as) = ident (b :: bs)) ↔ ident as = ident bs := by simp [ident, hab]
        by_cases hi : ident as = ident bs
        · rw [decide_eq_true hi, decide_eq_true (this.mpr hi)]
        · rw [decide_eq_false hi, decide_eq_false (fun h => hi (this.mp h))]
      | false =>
        have hab : a.key ≠ b.key := fun h => by have := hs.mpr h; cases this
        simp [ident, hab]

theorem hash_key (H : Hashes) (a : Obj) : a.key.hash H = a.hash H := by cases a <;> rfl

theorem hashes_ident (H : Hashes) (x : Item) : hashes H (ident x) = hashes H x := by
  induction x with
  | nil => rfl
  | cons a as ih =>
    show hashes H (a.key :: ident as) = _
    unfold hashes
    rw [hash_key, ih]

theorem itemHash_ident (H : Hashes) (x : Item) : itemHash H (ident x) = itemHash H x := by
  unfold itemHash; rw [hashes_ident]

theorem itemHash_congr (H : Hashes) {x y : Item} (h : ident x = ident y) : itemHash H x = itemHash H y := by
  rw [← itemHash_ident, h, itemHash_ident]

theorem search_eq (H : Hashes) (h : Int) (x : Item) (hx : itemHash H x = some h) (ys : List Item)
    (ht : ∀ y ∈ ys, itemHash H y = itemHash H x → Testable y x) :
    search H h x ys = .ok (decide (ident x ∈ ys.map ident)) := by
  induction ys with
  | nil => simp [search]
  | cons y ys ih =>
    have ih := ih (fun z hz => ht z (List.mem_cons_of_mem _ hz))
    unfold search
    by_cases hy : itemHash H y = some h
    · rw [if_pos hy, itemEq_testable y x (ht y (List.mem_cons_self ..) (by rw [hy, hx]))]
      by_cases hi : ident y = ident x
      · simp [hi]
      · simp only [hi, decide_false, ih]
        simp [Ne.symm hi]
    · rw [if_neg hy, ih]
      have hi : ident y ≠ ident x := fun hi => hy (by rw [itemHash_congr H hi, hx])
      simp [Ne.symm hi]

/-- **C95.** Whether an item is in a set (as used by unique, difference, intersect, filter, join and red with grouping) depends on what identifies it. The
condition: no two items with the same hash have a file, process or history record where the other has something of another kind. -/
theorem C95_set (H : Hashes) (seen : List Item) (x : Item) (hx : (itemHash H x).isSome)
    (ht : ∀ y ∈ seen, itemHash H y = itemHash H x → Testable y x) :
    setHas H seen x = .ok (decide (ident x ∈ seen.map ident)) := by
  obtain ⟨h, hh⟩ := Option.isSome_iff_exists.mp hx
  unfold setHas
  rw [hh]
  exact search_eq H h x hh seen ht

theorem unique_objs (H : Hashes) (xs : List Item) (hh : ∀ x ∈ xs, (itemHash H x).isSome) : ∀ seen,
    (∀ x ∈ xs, ∀ y ∈ seen ++ xs, itemHash H y = itemHash H x → Testable y x) →
    ((uniqueObj H).feed seen (ofItems xs)).exn = none ∧
    ((uniqueObj H).feed seen (ofItems xs)).out = ofItems (firsts (seen.map ident) xs) := by
  induction xs with
  | nil => intro seen _; exact ⟨rfl, rfl⟩
  | cons x xs ih =>
    intro seen ht
    have hs := C95_set H seen x (hh x (List.mem_cons_self ..))
      (fun y hy => ht x (List.mem_cons_self ..) y (List.mem_append_left _ hy))
    have ih := ih (fun z hz => hh z (List.mem_cons_of_mem _ hz))
    have hstep : (uniqueObj H).step seen (.item x) = catchKare (uniqueItem H seen x) := rfl
    rw [ofItems_cons, feed_cons, hstep]
    unfold uniqueItem
    rw [hs]
    unfold firsts
    by_cases hm : ident x ∈ seen.map ident
    · rw [if_pos hm, decide_eq_true hm]
      obtain ⟨g1, g2⟩ := ih seen (fun z hz y hy => ht z (List.mem_cons_of_mem _ hz) y (by
        rcases List.mem_append.mp hy with hy | hy
        · exact List.mem_append_left _ hy
        · exact List.mem_append_right _ (List.mem_cons_of_mem _ hy)))
      simp [catchKare, g1, g2]
    · rw [if_neg hm, decide_eq_false hm]
      obtain ⟨g1, g2⟩ := ih (x :: seen) (fun z hz y hy => ht z (List.mem_cons_of_mem _ hz) y (by
        rw [List.cons_append, List.mem_cons] at hy
        rcases hy with rfl | hy
        · exact List.mem_append_right _ (List.mem_cons_self ..)
        · rcases List.mem_append.mp hy with hy | hy
          · exact List.mem_append_left _ hy
          · exact List.mem_append_right _ (List.mem_cons_of_mem _ hy)))
      rw [List.map_cons] at g2
      simp [catchKare, g1, g2, ofItems_cons]

/-- **C95.** `unique` outputs, of the items with the same identity, the first. -/
theorem C95_unique (H : Hashes) (xs : List Item) (hh : ∀ x ∈ xs, (itemHash H x).isSome)
    (ht : ∀ x ∈ xs, ∀ y ∈ xs, itemHash H y = itemHash H x → Testable y x) :
    (uniqueObj H).run (ofItems xs) = (ofItems (firsts [] xs) ++ [.flush], none) := by
  obtain ⟨h1, h2⟩ := unique_objs H xs hh [] (by simpa using ht)
  rw [run_ofItems _ _ h1]
  show (((uniqueObj H).feed [] (ofItems xs)).out ++ _, _) = _
  rw [h2]
  rfl

theorem testable_shape : ∀ x y : Item, shape x = shape y → Testable x y := by
  intro x
  induction x with
  | nil => intro y _; cases y <;> trivial
  | cons a as ih =>
    intro y h
    rcases y with _ | ⟨b, bs⟩
    · trivial
    · simp only [shape, List.map_cons, List.cons.injEq] at h
      exact ⟨Or.inl h.1, ih bs h.2⟩

theorem hashes_isSome (H : Hashes) (x : Item) (h : ∀ a ∈ x, a.kind ≠ .hist) : (itemHash H x).isSome := by
  have : ∃ hs, hashes H x = some hs := by
    induction x with
    | nil => exact ⟨[], rfl⟩
    | cons a as ih =>
      obtain ⟨hs, h1⟩ := ih (fun b hb => h b (List.mem_cons_of_mem _ hb))
      have ha := h a (List.mem_cons_self ..)
      unfold hashes
      rw [h1]
      cases a <;> first | exact ⟨_, rfl⟩ | exact absurd rfl ha
  obtain ⟨hs, h1⟩ := this
  unfold itemHash
  rw [h1]
  rfl

/-- **C95.** In particular, if all items have the same kinds of components (such as the output of `ls` or `ps`), none of them a history record. -/
theorem C95_unique_shape (H : Hashes) (xs : List Item) (k : List Kind) (hs : ∀ x ∈ xs, shape x = k)
    (hk : Kind.hist ∉ k) :
    (uniqueObj H).run (ofItems xs) = (ofItems (firsts [] xs) ++ [.flush], none) := by
  refine C95_unique H xs ?_ ?_
  · intro x hx
    refine hashes_isSome H x ?_
    intro a ha he
    refine hk ?_
    rw [← hs x hx, ← he]
    exact List.mem_map_of_mem ha
  · intro x hx y hy _
    exact testable_shape y x (by rw [hs x hx, hs y hy])

/-! ## Sorting -/

theorem itemLt_shape : ∀ x y : Item, shape x = shape y → (∀ a ∈ x, a.kind.Ordered) →
    (itemLt x y = .ok true ∧ ItemBefore x y) ∨ (itemLt x y = .ok false ∧ ¬ ItemBefore x y) := by
  intro x
  induction x with
  | nil =>
    intro y h _
    rcases y with _ | ⟨b, bs⟩
    · exact Or.inr ⟨rfl, fun h => by cases h⟩
    · simp [shape] at h
  | cons a as ih =>
    intro y h ho
    rcases y with _ | ⟨b, bs⟩
    · simp [shape] at h
    · simp only [shape, List.map_cons, List.cons.injEq] at h
      obtain ⟨e1, _, e3, _⟩ := C95_compare a b h.1 (ho a (List.mem_cons_self ..))
      unfold itemLt
      rcases e1 with ⟨e1, hs⟩ | ⟨e1, hs⟩
      · rw [e1]
        rcases ih bs h.2 (fun c hc => ho c (List.mem_cons_of_mem _ hc)) with ⟨g1, g2⟩ | ⟨g1, g2⟩
        · exact Or.inl ⟨g1, .there hs g2⟩
        · refine Or.inr ⟨g1, ?_⟩
          intro hb
          cases hb with
          | here _ _ hp => exact C95_order.2.2.2.1 _ _ hp hs
          | there _ hb => exact g2 hb
      · rw [e1]
        rcases e3 with ⟨e3, hp⟩ | ⟨e3, hp⟩
        · exact Or.inl ⟨e3, .here _ _ hp⟩
        · refine Or.inr ⟨e3, ?_⟩
          intro hb
          cases hb with
          | here _ _ h => exact hp h
          | there h _ => exact hs h

theorem Same.symm {a b : Obj} (h : Same a b) : Same b a := by cases h <;> constructor
theorem Same.trans {a b c : Obj} (h : Same a b) (h' : Same b c) : Same a c := by cases h <;> cases h' <;> constructor
theorem Same.refl (a : Obj) : Same a a := by cases a <;> constructor

theorem ItemBefore.trans : ∀ {x y z : Item}, ItemBefore x y → ItemBefore y z → ItemBefore x z := by
  intro x y z h1 h2
  induction h1 generalizing z with
  | shorter b bs => cases h2 <;> exact .shorter _ _
  | here as bs hp =>
    cases h2 with
    | here _ _ hq => exact .here _ _ (C95_order.2.1 _ _ _ hp hq)
    | there hs _ => exact .here _ _ (C95_order.2.2.2.2 _ _ _ _ (Same.refl _) hs hp)
  | there hs _ ih =>
    cases h2 with
    | here _ _ hq => exact .here _ _ (C95_order.2.2.2.2 _ _ _ _ hs.symm (Same.refl _) hq)
    | there hs' hb => exact .there (hs.trans hs') (ih hb)

theorem ItemBefore.irrefl : ∀ x : Item, ¬ ItemBefore x x := by
  intro x
  induction x with
  | nil => intro h; cases h
  | cons a as ih =>
    intro h
    cases h with
    | here _ _ hp => exact C95_order.1 a hp
    | there _ hb => exact ih hb

theorem itemBefore_tri : ∀ x y : Item, shape x = shape y → (∀ a ∈ x, a.kind.Ordered) →
    ItemBefore x y ∨ ident x = ident y ∨ ItemBefore y x := by
  intro x
  induction x with
  | nil =>
    intro y h _
    rcases y with _ | ⟨b, bs⟩
    · exact Or.inr (Or.inl rfl)
    · exact Or.inl (.shorter _ _)
  | cons a as ih =>
    intro y h ho
    rcases y with _ | ⟨b, bs⟩
    · exact Or.inr (Or.inr (.shorter _ _))
    · simp only [shape, List.map_cons, List.cons.injEq] at h
      rcases C95_order.2.2.1 a b h.1 (ho a (List.mem_cons_self ..)) with hp | hs | hp
      · exact Or.inl (.here _ _ hp)
      · rcases ih bs h.2 (fun c hc => ho c (List.mem_cons_of_mem _ hc)) with g | g | g
        · exact Or.inl (.there hs g)
        · refine Or.inr (Or.inl ?_)
          show a.key :: ident as = b.key :: ident bs
          rw [(same_iff a b).mp hs, g]
        · exact Or.inr (Or.inr (.there hs.symm g))
      · exact Or.inr (Or.inr (.here _ _ hp))

theorem ItemBefore.congr_left : ∀ {x x' y : Item}, ident x = ident x' → ItemBefore x y → ItemBefore x' y := by
  intro x x' y h hb
  induction hb generalizing x' with
  | shorter b bs =>
    rcases x' with _ | ⟨c, cs⟩
    · exact .shorter _ _
    · simp [ident] at h
  | here as bs hp =>
    rcases x' with _ | ⟨c, cs⟩
    · simp [ident] at h
    · simp only [ident, List.map_cons, List.cons.injEq] at h
      exact .here _ _ (C95_order.2.2.2.2 _ _ _ _ ((same_iff _ _).mpr h.1) (Same.refl _) hp)
  | there hs _ ih =>
    rcases x' with _ | ⟨c, cs⟩
    · simp [ident] at h
    · simp only [ident, List.map_cons, List.cons.injEq] at h
      exact .there (((same_iff _ _).mpr h.1.symm).trans hs) (ih h.2)

theorem shape_ident (x : Item) : shape (ident x) = shape x := by
  induction x with
  | nil => rfl
  | cons a as ih =>
    show a.key.kind :: shape (ident as) = a.kind :: shape as
    rw [ih]
    cases a <;> rfl

/-- **C95.** `sort` sorts items with the same kinds of components: files by path, processes by pid, history records by number; items with the same
identity stay in the order in which they came. -/
theorem C95_sort (xs : List Item) (k : List Kind) (hs : ∀ x ∈ xs, shape x = k) (hk : ∀ c ∈ k, c.Ordered) :
    ∃ ys, sortObj.run (ofItems xs) = (ofItems ys ++ [.flush], none) ∧ ys.Perm xs ∧
      ys.Pairwise (fun a b => ¬ ItemBefore b a) ∧
      ∀ c, ys.filter (fun a => decide (ident a = ident c)) = xs.filter (fun a => decide (ident a = ident c)) := by
  have hord : ∀ x, shape x = k → ∀ a ∈ x, a.kind.Ordered := by
    intro x hx a ha
    exact hk _ (by rw [← hx]; exact List.mem_map_of_mem ha)
  let le : Item → Item → Prop := fun x y => shape x = k ∧ shape y = k ∧ ¬ ItemBefore y x
  haveI : DecidableRel le := fun x y => Classical.propDecidable _
  have hO : OrderedOn (fun c => ∃ x ∈ xs, id x = c) (fun a b => (itemLt a b).toOption) le := by
    refine ⟨?_, ?_, ?_⟩
    · rintro _ _ ⟨a, ha, rfl⟩ ⟨b, hb, rfl⟩
      have ha := hs a ha
      have hb := hs b hb
      rcases itemLt_shape a b (ha.trans hb.symm) (hord a ha) with ⟨h1, h2⟩ | ⟨h1, h2⟩
      · exact Or.inl ⟨by show (itemLt a b).toOption = _; rw [h1]; rfl, fun h => h.2.2 h2⟩
      · exact Or.inr ⟨by show (itemLt a b).toOption = _; rw [h1]; rfl, hb, ha, h2⟩
    · rintro _ _ ⟨a, ha, rfl⟩ ⟨b, hb, rfl⟩
      have ha := hs a ha
      have hb := hs b hb
      by_cases h : ItemBefore b a
      · exact Or.inr ⟨hb, ha, fun h' => ItemBefore.irrefl _ (h.trans h')⟩
      · exact Or.inl ⟨ha, hb, h⟩
    · rintro a b c ⟨ha, hb, h1⟩ ⟨_, hc, h2⟩
      refine ⟨ha, hc, fun h => ?_⟩
      rcases itemBefore_tri b c (hb.trans hc.symm) (hord b hb) with g | g | g
      · exact h1 (g.trans h)
      · exact h1 (ItemBefore.congr_left g.symm h)
      · exact h2 g
  obtain ⟨_, ys, h1, h2, h3, h4⟩ := C06_sort (fun x => .ok x) id _ le xs hO (fun _ _ => rfl)
  refine ⟨ys, h1, h2, h3.imp (fun h => h.2.2), ?_⟩
  intro c
  have hys : ∀ y ∈ ys, shape y = k := fun y hy => hs y (h2.mem_iff.mp hy)
  by_cases hc : shape c = k
  · have key : ∀ a, shape a = k → (decide (le (id a) c ∧ le c (id a)) = decide (ident a = ident c)) := by
      intro a ha
      refine decide_eq_decide.mpr ⟨?_, ?_⟩
      · rintro ⟨⟨_, _, g1⟩, ⟨_, _, g2⟩⟩
        rcases itemBefore_tri a c (ha.trans hc.symm) (hord a ha) with g | g | g
        · exact absurd g g2
        · exact g
        · exact absurd g g1
      · intro hi
        refine ⟨⟨ha, hc, fun h => ItemBefore.irrefl a (ItemBefore.congr_left hi.symm h)⟩,
          hc, ha, fun h => ItemBefore.irrefl c (ItemBefore.congr_left hi h)⟩
    have := h4 c
    rw [List.filter_congr (fun a ha => key a (hys a ha)), List.filter_congr (fun a ha => key a (hs a ha))] at this
    exact this
  · have none_ : ∀ zs : List Item, (∀ z ∈ zs, shape z = k) → zs.filter (fun a => decide (ident a = ident c)) = [] := by
      intro zs hz
      rw [List.filter_eq_nil_iff]
      intro a ha hd
      refine hc ?_
      rw [← shape_ident c, ← of_decide_eq_true hd, shape_ident, hz a ha]
    rw [none_ ys hys, none_ xs hs]

/-! ## `unique --consecutive` -/

theorem consecutive_feed (xs : List Item) : ∀ last : Option Item,
    (∀ x ∈ xs, ∀ y ∈ last.toList ++ xs, Testable y x) →
    (consecutiveObj.feed last (ofItems xs)).exn = none ∧
    (consecutiveObj.feed last (ofItems xs)).out = ofItems (runs last xs) := by
  induction xs with
  | nil => intro last _; exact ⟨rfl, rfl⟩
  | cons x xs ih =>
    intro last ht
    have hstep : consecutiveObj.step last (.item x) = catchKare (consecutiveItem last x) := rfl
    rw [ofItems_cons, feed_cons, hstep]
    unfold consecutiveItem runs
    have hd : differs last x = .ok (!decide (last.map ident = some (ident x))) := by
      cases last with
      | none => rfl
      | some y =>
        have := itemEq_testable y x (ht x (List.mem_cons_self ..) y (by simp))
        simp only [differs, this]
        simp
    rw [hd]
    by_cases hm : last.map ident = some (ident x)
    · rw [if_pos hm, decide_eq_true hm]
      obtain ⟨g1, g2⟩ := ih last (fun z hz y hy => ht z (List.mem_cons_of_mem _ hz) y (by
        rcases List.mem_append.mp hy with hy | hy
        · exact List.mem_append_left _ hy
        · exact List.mem_append_right _ (List.mem_cons_of_mem _ hy)))
      simp [catchKare, g1, g2]
    · rw [if_neg hm, decide_eq_false hm]
      obtain ⟨g1, g2⟩ := ih (some x) (fun z hz y hy => ht z (List.mem_cons_of_mem _ hz) y
        (List.mem_append_right _ (by simpa using hy)))
      simp [catchKare, g1, g2, ofItems_cons]

/-- **C95.** `unique --consecutive` outputs, of consecutive items with the same identity, the first; history records are no problem here. -/
theorem C95_consecutive (xs : List Item) (ht : ∀ x ∈ xs, ∀ y ∈ xs, Testable y x) :
    consecutiveObj.run (ofItems xs) = (ofItems (runs none xs) ++ [.flush], none) := by
  obtain ⟨h1, h2⟩ := consecutive_feed xs none (by simpa using ht)
  rw [run_ofItems _ _ h1]
  show ((consecutiveObj.feed none (ofItems xs)).out ++ _, _) = _
  rw [h2]
  rfl

/-! ## What is wrong -/

/-- **C95, false.** A file, process or history record cannot even be tested for equality with anything else: every comparison, in either order of
the operands, raises an `AttributeError`, if the other one is of another kind. -/
theorem C95_false_other (c : Cmp) (a b : Obj) (ha : ¬ a.kind.Builtin) (hk : a.kind ≠ b.kind) :
    pyCmp c a b = .error .attr ∧ pyCmp c b a = .error .attr := by
  cases a <;> cases b <;>
    first
    | exact absurd trivial ha
    | exact absurd rfl hk
    | (cases c <;> exact ⟨rfl, rfl⟩)

/-- **C95, false.** `unique` is killed by its first item with a history record in it. -/
theorem C95_false_history (H : Hashes) (x : Item) (a : Obj) (ha : a ∈ x) (hk : a.kind = .hist) (xs : List Item) :
    (uniqueObj H).run (ofItems (x :: xs)) = ([], some .kill) := by
  have hx : itemHash H x = none := by
    have : hashes H x = none := by
      induction x with
      | nil => cases ha
      | cons b bs ih =>
        unfold hashes
        rcases List.mem_cons.mp ha with rfl | h
        · cases a <;> first | rfl | cases hk
        · rw [ih h]; cases b.hash H <;> rfl
    unfold itemHash; rw [this]; rfl
  have h1 : ((uniqueObj H).step [] (.item x)) = ⟨[], [], some .kill⟩ := by
    show catchKare (uniqueItem H [] x) = _
    unfold uniqueItem setHas
    rw [hx]; rfl
  unfold Op.run Op.obs
  rw [ofItems_cons, List.cons_append, feed_cons]
  rw [show (uniqueObj H).init = [] from rfl, h1]
  simp

/-- **C95, false.** A process and the integer that is its pid have the same hash: `unique` on these crashes. -/
theorem C95_false_mixed (H : Hashes) (n : Int) (r : Nat) :
    (uniqueObj H).run (ofItems [[.proc n r], [.int n]]) = ([.item [.proc n r]], some .crash) ∧
    (uniqueObj H).run (ofItems [[.int n], [.proc n r]]) = ([.item [.int n]], some .crash) := by
  constructor <;>
  simp [Op.run, Op.obs, Op.feed, ofItems, Op.step, uniqueObj, uniqueItem, setHas, itemHash, hashes, Obj.hash, search, catchKare, itemEq, pyCmp, method]

/-- **C95, false.** `unique --consecutive` on a file followed by a string crashes. -/
theorem C95_false_consecutive (p : List Str) (r : Nat) (s : Str) :
    consecutiveObj.run (ofItems [[.file p r], [.str s]]) = ([.item [.file p r]], some .crash) := rfl

/-! ## The hypotheses can be met -/

example : ∃ (xs : List Item) (k : List Kind), (∀ x ∈ xs, shape x = k) ∧ Kind.hist ∉ k ∧ (∀ c ∈ k, c.Ordered) ∧
    firsts [] xs = [[.file ["b".toList] 1, .int 2], [.file ["a".toList] 1, .int 2]] ∧ xs.length = 3 :=
  ⟨[[.file ["b".toList] 1, .int 2], [.file ["a".toList] 1, .int 2], [.file ["b".toList] 7, .int 2]], [.file, .int],
    by decide, by decide, (by simp [Kind.Ordered]), by decide, rfl⟩

example : ItemBefore [.file ["a".toList] 1, .int 2] [.file ["b".toList] 1, .int 2] :=
  .here _ _ (.file _ _ (Or.inr ⟨[], "a".toList, [], "b".toList, [], rfl, rfl, Or.inr ⟨[], 'a', [], 'b', [], rfl, rfl, by decide⟩⟩))

example : runs none [[.hist 1 0], [.hist 1 4], [.hist 2 0], [.hist 1 0]] = [[.hist 1 0], [.hist 2 0], [.hist 1 0]] := by decide

end Marcel.Objects
