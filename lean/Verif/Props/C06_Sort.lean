import Verif.Model.Ops
import Verif.Lemmas.Stream

/-! C06: sort. -/

namespace Marcel
open Op

variable {α κ : Type}

/-- `lt` is a comparison that succeeds on the keys for which `P` holds and orders them by the total preorder `le`. -/
structure OrderedOn (P : κ → Prop) (lt : κ → κ → Option Bool) (le : κ → κ → Prop) : Prop where
  lt_iff : ∀ a b, P a → P b → (lt a b = some true ∧ ¬ le b a) ∨ (lt a b = some false ∧ le b a)
  total : ∀ a b, P a → P b → le a b ∨ le b a
  trans : ∀ a b c, le a b → le b c → le a c

theorem pyInsert_spec {P : κ → Prop} {lt : κ → κ → Option Bool} {le : κ → κ → Prop} (H : OrderedOn P lt le)
    (x : κ × α) (ys : List (κ × α)) (hP : ∀ y ∈ x :: ys, P y.1) (hs : ys.Pairwise (fun a b => le a.1 b.1)) :
    ∃ zs, pyInsert lt x ys = some zs ∧ zs.Perm (x :: ys) ∧ zs.Pairwise (fun a b => le a.1 b.1) ∧
      ∀ (k : κ) [DecidablePred fun a : κ × α => le a.1 k ∧ le k a.1],
        zs.filter (fun a => le a.1 k ∧ le k a.1) = (ys ++ [x]).filter (fun a => le a.1 k ∧ le k a.1) := by
  induction ys with
  | nil => exact ⟨[x], rfl, List.Perm.refl _, by simp, by simp⟩
  | cons y ys ih =>
    rw [List.pairwise_cons] at hs
    simp only [pyInsert]
    rcases H.lt_iff x.1 y.1 (hP x (by simp)) (hP y (by simp)) with ⟨h1, h2⟩ | ⟨h1, h2⟩
    · rw [h1]
      refine ⟨_, rfl, List.Perm.refl _, ?_, ?_⟩
      · rw [List.pairwise_cons]
        refine ⟨?_, List.pairwise_cons.2 hs⟩
        have hxy : le x.1 y.1 := (H.total x.1 y.1 (hP x (by simp)) (hP y (by simp))).resolve_right h2
        intro b hb
        rcases List.mem_cons.1 hb with rfl | hb
        · exact hxy
        · exact H.trans _ _ _ hxy (hs.1 b hb)
      · intro k _
        by_cases hx : le x.1 k ∧ le k x.1
        · have hnone : (y :: ys).filter (fun a => decide (le a.1 k ∧ le k a.1)) = [] := by
            rw [List.filter_eq_nil_iff]
            intro b hb
            simp only [decide_eq_true_eq, not_and]
            intro hbk _
            have hbx : le b.1 x.1 := H.trans _ _ _ hbk hx.2
            apply h2
            rcases List.mem_cons.1 hb with rfl | hb
            · exact hbx
            · exact H.trans _ _ _ (hs.1 b hb) hbx
          rw [List.filter_append, List.filter_cons_of_pos (by simpa using hx), hnone]
          simp [hx]
        · rw [List.filter_append, List.filter_cons_of_neg (a := x) (by simpa using hx)]
          rw [List.filter_cons_of_neg (a := x) (by simpa using hx)]
          simp
    · rw [h1]
      obtain ⟨zs, hz1, hz2, hz3, hz4⟩ := ih (fun a ha => hP a (by
        rcases List.mem_cons.1 ha with rfl | ha
        · simp
        · simp [ha])) hs.2
      rw [hz1]
      refine ⟨y :: zs, rfl, ?_, ?_, ?_⟩
      · exact (hz2.cons y).trans (List.Perm.swap _ _ _)
      · rw [List.pairwise_cons]
        refine ⟨?_, hz3⟩
        intro b hb
        rcases List.mem_cons.1 (hz2.mem_iff.1 hb) with rfl | hb
        · exact h2
        · exact hs.1 b hb
      · intro k _
        rw [List.cons_append, List.filter_cons, List.filter_cons, hz4 k]

theorem pySort_spec {P : κ → Prop} {lt : κ → κ → Option Bool} {le : κ → κ → Prop} (H : OrderedOn P lt le)
    (xs acc : List (κ × α)) (hP : ∀ y ∈ acc ++ xs, P y.1) (hs : acc.Pairwise (fun a b => le a.1 b.1)) :
    ∃ zs, pySort lt acc xs = some zs ∧ zs.Perm (acc ++ xs) ∧ zs.Pairwise (fun a b => le a.1 b.1) ∧
      ∀ (k : κ) [DecidablePred fun a : κ × α => le a.1 k ∧ le k a.1],
        zs.filter (fun a => le a.1 k ∧ le k a.1) = (acc ++ xs).filter (fun a => le a.1 k ∧ le k a.1) := by
  induction xs generalizing acc with
  | nil => exact ⟨acc, rfl, by simp, hs, by simp⟩
  | cons x xs ih =>
    obtain ⟨ys, h1, h2, h3, h4⟩ := pyInsert_spec H x acc (fun y hy => hP y (by
      rcases List.mem_cons.1 hy with rfl | hy
      · simp
      · simp [hy])) hs
    obtain ⟨zs, g1, g2, g3, g4⟩ := ih ys (fun y hy => hP y (by
      rcases List.mem_append.1 hy with hy | hy
      · rcases List.mem_cons.1 (h2.mem_iff.1 hy) with rfl | hy
        · simp
        · simp [hy]
      · simp [hy])) h3
    refine ⟨zs, by simp only [pySort, h1]; exact g1, ?_, g3, ?_⟩
    · refine g2.trans ?_
      refine (h2.append_right xs).trans ?_
      exact (List.perm_append_comm (l₁ := [x]) (l₂ := acc)).append_right xs |>.trans (by simp)
    · intro k _
      rw [g4 k, List.filter_append, h4 k, ← List.filter_append]
      simp

theorem withKeys_ok (key : α → Except Msg κ) (k : α → κ) (xs : List α) (h : ∀ x ∈ xs, key x = .ok (k x)) :
    withKeys key xs = .ok (xs.map fun x => (k x, x)) := by
  induction xs with
  | nil => rfl
  | cons x xs ih =>
    simp only [withKeys, h x (by simp), ih (fun y hy => h y (by simp [hy]))]
    rfl

theorem withKeys_error (key : α → Except Msg κ) (xs : List α) (x : α) (hx : x ∈ xs) (m : Msg)
    (h : key x = .error m) : ∃ m', withKeys key xs = .error m' ∧ ∃ y ∈ xs, key y = .error m' := by
  induction xs with
  | nil => simp at hx
  | cons y ys ih =>
    simp only [withKeys]
    cases hy : key y with
    | error m' => exact ⟨m', rfl, y, by simp, hy⟩
    | ok k =>
      rcases List.mem_cons.1 hx with rfl | hx
      · rw [h] at hy; cases hy
      · obtain ⟨m', h1, z, hz, h2⟩ := ih hx
        exact ⟨m', by rw [h1], z, by simp [hz], h2⟩

theorem sort_feed (key : α → Except Msg κ) (lt) (xs : List α) :
    let r := (sortOp key lt).feed (sortOp key lt).init (ofItems xs)
    r.exn = none ∧ r.out = [] ∧ r.st = some xs := by
  have := (sortOp key lt).feed_inv (fun xs s out => out = [] ∧ s = some xs) ⟨rfl, rfl⟩
    (by rintro xs s out x ⟨rfl, rfl⟩; simp [sortOp, catchKare]) xs
  exact ⟨this.1, this.2⟩

/-- **C06.** If the key function succeeds on all items and the keys of the items are comparable with each other, `sort` emits
nothing before the end, and then a permutation of the input (`Perm`), in key order (`Pairwise`), in
which items with equivalent keys keep their input order (the subsequences of items with keys
equivalent to `c` are equal). -/
theorem C06_sort (key : α → Except Msg κ) (k : α → κ) (lt : κ → κ → Option Bool) (le : κ → κ → Prop)
    [DecidableRel le] (xs : List α) (H : OrderedOn (fun c => ∃ x ∈ xs, k x = c) lt le) (hk : ∀ x ∈ xs, key x = .ok (k x)) :
    (sortOp key lt).obs (ofItems xs) = ([], none) ∧
    ∃ ys : List α, (sortOp key lt).run (ofItems xs) = (ofItems ys ++ [.flush], none) ∧
      ys.Perm xs ∧ ys.Pairwise (fun a b => le (k a) (k b)) ∧
      ∀ c : κ, ys.filter (fun a => le (k a) c ∧ le c (k a)) = xs.filter (fun a => le (k a) c ∧ le c (k a)) := by
  obtain ⟨h1, h2, h3⟩ := sort_feed key lt xs
  refine ⟨Prod.ext h2 h1, ?_⟩
  have hw := withKeys_ok key k xs hk
  obtain ⟨zs, g1, g2, g3, g4⟩ := pySort_spec H (xs.map fun x => (k x, x)) [] (by
    intro y hy
    simp only [List.nil_append, List.mem_map] at hy
    obtain ⟨x, hx, rfl⟩ := hy
    exact ⟨x, hx, rfl⟩) List.Pairwise.nil
  rw [List.nil_append] at g2
  have hmem : ∀ z ∈ zs, z.1 = k z.2 := by
    intro z hz
    have := g2.mem_iff.1 hz
    simp at this
    obtain ⟨a, _, rfl⟩ := this
    rfl
  refine ⟨zs.map (·.2), ?_, ?_, ?_, ?_⟩
  · rw [run_ofItems _ _ h1, h2, h3]
    simp only [sortOp, hw, g1, List.nil_append]
  · have := g2.map (·.2)
    simpa [Function.comp_def] using this
  · rw [List.pairwise_map]
    refine g3.imp_of_mem ?_
    intro a b ha hb hab
    rw [← hmem a ha, ← hmem b hb]; exact hab
  · intro c
    have hc := g4 c
    have e1 : (zs.map (·.2)).filter (fun a => decide (le (k a) c ∧ le c (k a))) =
        (zs.filter (fun z => decide (le z.1 c ∧ le c z.1))).map (·.2) := by
      rw [List.filter_map]
      congr 1
      apply List.filter_congr
      intro z hz
      simp [hmem z hz]
    rw [e1, hc, List.nil_append, List.filter_map, List.map_map]
    simp [Function.comp_def]

/-- **C06.** If the key function fails on some item, no item is emitted: the command ends with the error of the first such item. -/
theorem C06_sort_failure (key : α → Except Msg κ) (lt : κ → κ → Option Bool) (pre post : List α) (x : α) (m : Msg)
    (hpre : ∀ y ∈ pre, ∃ k, key y = .ok k) (hx : key x = .error m) :
    (sortOp key lt).run (ofItems (pre ++ x :: post)) = ([.err m], some .kare) := by
  obtain ⟨h1, h2, h3⟩ := sort_feed key lt (pre ++ x :: post)
  rw [run_ofItems _ _ h1, h2, h3]
  have hw : withKeys key (pre ++ x :: post) = .error m := by
    clear h1 h2 h3
    induction pre with
    | nil => simp only [List.nil_append, withKeys, hx]
    | cons y ys ih =>
      obtain ⟨k, hk⟩ := hpre y (by simp)
      simp only [List.cons_append, withKeys, hk, ih (fun z hz => hpre z (by simp [hz]))]
  simp [sortOp, hw]

/-- Incomparable neighbours are noticed: a two-item stream with incomparable keys is killed. -/
theorem C06_sort_incomparable (key : α → Except Msg κ) (lt : κ → κ → Option Bool) (x y : α) (kx ky : κ)
    (hx : key x = .ok kx) (hy : key y = .ok ky) (h : lt ky kx = none) :
    (sortOp key lt).run (ofItems [x, y]) = ([], some .kill) := by
  obtain ⟨h1, h2, h3⟩ := sort_feed key lt [x, y]
  rw [run_ofItems _ _ h1, h2, h3]
  simp [sortOp, withKeys, hx, hy, pySort, pyInsert, h]

/-- Neighbours have been compared with each other. -/
def Neighbours (lt : κ → κ → Option Bool) (zs : List (κ × α)) : Prop :=
  ∀ pre a b post, zs = pre ++ a :: b :: post → lt b.1 a.1 = some false ∨ lt a.1 b.1 = some true

theorem neighbours_cons {lt : κ → κ → Option Bool} {y : κ × α} {zs : List (κ × α)} (h : Neighbours lt zs)
    (hy : ∀ z, zs.head? = some z → lt z.1 y.1 = some false ∨ lt y.1 z.1 = some true) : Neighbours lt (y :: zs) := by
  intro pre a b post he
  rcases pre with _ | ⟨p, pre⟩
  · simp only [List.nil_append, List.cons.injEq] at he
    obtain ⟨rfl, rfl⟩ := he
    exact hy b rfl
  · simp only [List.cons_append, List.cons.injEq] at he
    exact h pre a b post he.2

theorem neighbours_tail {lt : κ → κ → Option Bool} {y : κ × α} {zs : List (κ × α)} (h : Neighbours lt (y :: zs)) :
    Neighbours lt zs := fun pre a b post he => h (y :: pre) a b post (by rw [he]; rfl)

theorem pyInsert_neighbours (lt : κ → κ → Option Bool) (x : κ × α) (ys zs : List (κ × α)) (h : Neighbours lt ys)
    (hz : pyInsert lt x ys = some zs) :
    Neighbours lt zs ∧ zs.Perm (x :: ys) ∧ ∀ z, zs.head? = some z → z = x ∨ ys.head? = some z := by
  induction ys generalizing zs with
  | nil =>
    simp only [pyInsert, Option.some.injEq] at hz
    subst hz
    refine ⟨neighbours_cons h (by simp), List.Perm.refl _, by simp⟩
  | cons y ys ih =>
    simp only [pyInsert] at hz
    rcases hl : lt x.1 y.1 with _ | _ | _
    · rw [hl] at hz; simp at hz
    · rw [hl] at hz
      simp only at hz
      rcases hr : pyInsert lt x ys with _ | zs'
      · rw [hr] at hz; simp at hz
      · rw [hr] at hz
        simp only [Option.map_some, Option.some.injEq] at hz
        subst hz
        obtain ⟨h1, h2, h3⟩ := ih zs' (neighbours_tail h) hr
        refine ⟨neighbours_cons h1 ?_, (h2.cons y).trans (List.Perm.swap _ _ _), by intro z hz; right; simpa using hz⟩
        intro z hz
        rcases h3 z hz with rfl | h4
        · exact .inl hl
        · rcases ys with _ | ⟨w, ws⟩
          · simp at h4
          · simp only [List.head?_cons, Option.some.injEq] at h4
            subst h4
            exact h [] y w ws rfl
    · rw [hl] at hz
      simp only [Option.some.injEq] at hz
      subst hz
      refine ⟨neighbours_cons h ?_, List.Perm.refl _, by intro z hz; left; simpa using hz.symm⟩
      intro z hz
      simp only [List.head?_cons, Option.some.injEq] at hz
      subst hz
      exact .inr hl

theorem pySort_neighbours (lt : κ → κ → Option Bool) (xs : List (κ × α)) : ∀ acc zs : List (κ × α), Neighbours lt acc →
    pySort lt acc xs = some zs → Neighbours lt zs ∧ zs.Perm (acc ++ xs) := by
  induction xs with
  | nil =>
    intro acc zs h hz
    simp only [pySort, Option.some.injEq] at hz
    subst hz
    exact ⟨h, by simp⟩
  | cons x xs ih =>
    intro acc zs h hz
    simp only [pySort] at hz
    rcases hr : pyInsert lt x acc with _ | s
    · rw [hr] at hz; simp at hz
    · rw [hr] at hz
      obtain ⟨h1, h2, _⟩ := pyInsert_neighbours lt x acc s h hr
      obtain ⟨h3, h4⟩ := ih s zs h1 hz
      refine ⟨h3, h4.trans ((h2.append_right xs).trans ?_)⟩
      exact (List.perm_middle (a := x) (l₁ := acc) (l₂ := xs)).symm

/-- **C06.** Whatever the keys and however they compare (no order is assumed, comparisons may fail), if the key function succeeds, `sort`
does one of two things: it ends the command without having emitted anything; or it emits a permutation of its input, in which any two
neighbours can be compared, the second one not being less than the first. -/
theorem C06_sort_outcomes (key : α → Except Msg κ) (k : α → κ) (lt : κ → κ → Option Bool) (xs : List α)
    (hk : ∀ x ∈ xs, key x = .ok (k x)) :
    (sortOp key lt).run (ofItems xs) = ([], some .kill) ∨
    ∃ ys : List α, (sortOp key lt).run (ofItems xs) = (ofItems ys ++ [.flush], none) ∧ ys.Perm xs ∧
      ∀ pre a b post, ys = pre ++ a :: b :: post → lt (k b) (k a) = some false ∨ lt (k a) (k b) = some true := by
  obtain ⟨h1, h2, h3⟩ := sort_feed key lt xs
  have hw := withKeys_ok key k xs hk
  rcases hs : pySort lt [] (xs.map fun x => (k x, x)) with _ | zs
  · left
    rw [run_ofItems _ _ h1, h2, h3]
    simp only [sortOp, hw, hs, List.nil_append]
  · right
    obtain ⟨g1, g2⟩ := pySort_neighbours lt _ [] zs (by intro pre a b post he; simp at he) hs
    refine ⟨zs.map (·.2), ?_, ?_, ?_⟩
    · rw [run_ofItems _ _ h1, h2, h3]
      simp only [sortOp, hw, hs, List.nil_append]
    · have := g2.map (·.2)
      simpa [Function.comp_def] using this
    · intro pre a b post he
      have hmem : ∀ z ∈ zs, z.1 = k z.2 := by
        intro z hz
        have := g2.mem_iff.1 hz
        simp only [List.nil_append, List.mem_map] at this
        obtain ⟨x, _, rfl⟩ := this
        rfl
      obtain ⟨p', r', e1, e2, e3⟩ := List.map_eq_append_iff.1 he
      obtain ⟨a', r2, e4, e5, e6⟩ := List.map_eq_cons_iff.1 e3
      obtain ⟨b', r3, e7, e8, e9⟩ := List.map_eq_cons_iff.1 e6
      subst e4 e7
      have := g1 p' a' b' r3 e1
      rw [hmem a' (by simp [e1]), hmem b' (by simp [e1]), e5, e8] at this
      exact this

/-- **C06.** If two keys are not comparable, no item is emitted at all and the command is killed, however many items there are and wherever
the two are. Keys are of kinds (numbers, strings, ...): two of the same kind can be compared, two of different kinds cannot. -/
theorem C06_sort_kinds {K : Type} (key : α → Except Msg κ) (k : α → κ) (lt : κ → κ → Option Bool) (kind : κ → K) (xs : List α)
    (hk : ∀ x ∈ xs, key x = .ok (k x))
    (hkind : ∀ x ∈ xs, ∀ y ∈ xs, kind (k x) ≠ kind (k y) → lt (k x) (k y) = none)
    (x y : α) (hx : x ∈ xs) (hy : y ∈ xs) (hne : kind (k x) ≠ kind (k y)) :
    (sortOp key lt).run (ofItems xs) = ([], some .kill) := by
  rcases C06_sort_outcomes key k lt xs hk with h | ⟨ys, _, hp, hn⟩
  · exact h
  · exfalso
    have hall : ∀ (zs : List α), (∀ z ∈ zs, z ∈ xs) →
        (∀ pre a b post, zs = pre ++ a :: b :: post → lt (k b) (k a) = some false ∨ lt (k a) (k b) = some true) →
        ∀ a ∈ zs, ∀ b, zs.head? = some b → kind (k a) = kind (k b) := by
      intro zs
      induction zs with
      | nil => intro _ _ a ha; simp at ha
      | cons c cs ih =>
        intro hm hc a ha b hb
        simp only [List.head?_cons, Option.some.injEq] at hb
        subst hb
        rcases List.mem_cons.1 ha with rfl | ha
        · rfl
        · rcases cs with _ | ⟨d, ds⟩
          · simp at ha
          · have h1 := ih (fun z hz => hm z (List.mem_cons_of_mem _ hz))
              (fun pre a b post he => hc (c :: pre) a b post (by rw [he]; rfl)) a ha d rfl
            rw [h1]
            have hd : d ∈ xs := hm d (by simp)
            have hcx : c ∈ xs := hm c (by simp)
            apply Classical.byContradiction
            intro hdc
            rcases hc [] c d ds rfl with h | h
            · rw [hkind d hd c hcx hdc] at h; cases h
            · rw [hkind c hcx d hd (fun e => hdc e.symm)] at h; cases h
    have hx' : x ∈ ys := hp.mem_iff.2 hx
    have hy' : y ∈ ys := hp.mem_iff.2 hy
    rcases hys : ys with _ | ⟨z, zs⟩
    · rw [hys] at hx'; simp at hx'
    · have hm : ∀ z ∈ ys, z ∈ xs := fun z hz => hp.mem_iff.1 hz
      have e1 := hall ys hm hn x hx' z (by rw [hys]; rfl)
      have e2 := hall ys hm hn y hy' z (by rw [hys]; rfl)
      exact hne (e1.trans e2.symm)

/-- Non-vacuity: pairs sorted by first component, with ties. -/
def natLt (a b : Nat) : Option Bool := some (decide (a < b))

theorem natLt_ordered (P : Nat → Prop) : OrderedOn P natLt (· ≤ ·) where
  lt_iff := by
    intro a b _ _
    by_cases h : a < b
    · exact .inl ⟨by simp [natLt, h], by omega⟩
    · exact .inr ⟨by simp [natLt, h], by omega⟩
  total := by intro a b _ _; omega
  trans := by intro a b c; omega

/-- Keys of which only some can be compared: numbers with each other, and truth values not at all. -/
def mixedLt : Nat ⊕ Bool → Nat ⊕ Bool → Option Bool
  | .inl a, .inl b => some (decide (a < b))
  | _, _ => none

example : (sortOp (fun p : Nat ⊕ Bool => .ok p) mixedLt).run (ofItems [.inl 3, .inl 1]) = (ofItems [.inl 1, .inl 3] ++ [.flush], none) := by decide
example : (sortOp (fun p : Nat ⊕ Bool => .ok p) mixedLt).run (ofItems [.inl 3, .inr true]) = ([], some .kill) := by decide
theorem mixedLt_ordered : OrderedOn (fun c => ∃ x ∈ [(Sum.inl 3 : Nat ⊕ Bool), .inl 1], x = c) mixedLt (fun a b => ∃ m n, a = .inl m ∧ b = .inl n ∧ m ≤ n) where
  lt_iff := by
    rintro a b ⟨x, hx, rfl⟩ ⟨y, hy, rfl⟩
    simp only [List.mem_cons, List.not_mem_nil, or_false] at hx hy
    rcases hx with rfl | rfl <;> rcases hy with rfl | rfl <;> simp [mixedLt]
  total := by
    rintro a b ⟨x, hx, rfl⟩ ⟨y, hy, rfl⟩
    simp only [List.mem_cons, List.not_mem_nil, or_false] at hx hy
    rcases hx with rfl | rfl <;> rcases hy with rfl | rfl <;> simp
  trans := by
    rintro a b c ⟨m, n, rfl, rfl, h⟩ ⟨m', n', h1, rfl, h2⟩
    cases h1
    exact ⟨m, n', rfl, rfl, by omega⟩

/-- Non-vacuity of `C06_sort_kinds`: numbers and truth values, mixed. -/
def kindLt : Nat ⊕ Bool → Nat ⊕ Bool → Option Bool
  | .inl a, .inl b => some (decide (a < b))
  | .inr a, .inr b => some (!a && b)
  | _, _ => none

example : (sortOp (fun p : Nat ⊕ Bool => .ok p) kindLt).run (ofItems [.inl 3, .inl 1, .inr true, .inl 2]) = ([], some .kill) :=
  C06_sort_kinds (fun p : Nat ⊕ Bool => .ok p) id kindLt (fun p => p.isLeft) _ (fun _ _ => rfl)
    (by intro x _ y _ h; cases x <;> cases y <;> simp_all [kindLt]) (.inl 1) (.inr true) (by simp) (by simp) (by simp)

example : ((sortOp (fun p : Nat × Nat => .ok p.1) natLt).run
      (ofItems [(3, 0), (1, 1), (3, 2), (1, 3), (2, 4)])).1 =
    ofItems [(1, 1), (1, 3), (2, 4), (3, 0), (3, 2)] ++ [.flush] := by decide
example : ((sortOp (fun p : Nat => if p = 7 then .error "bad" else .ok p) natLt).run (ofItems [3, 7, 1])) =
    ([.err "bad"], some .kare) := by decide

end Marcel
