import Verif.Model.Ops
import Verif.Lemmas.Stream
import Verif.Lemmas.Lists

/-! C08, C09, C10: windows. -/

namespace Marcel
open Op

variable {α β : Type}

/-! ### Overlapping windows -/

/-- Specification: the window at position `i` of `ys` with size `n`: items `i, .., i+n-1`, `none`
beyond the end. -/
def windowAt (ys : List β) (n i : Nat) : List (Option β) :=
  (List.range n).map fun j => ys[i + j]?

theorem windowAt_length (ys : List β) (n i : Nat) : (windowAt ys n i).length = n := by
  simp [windowAt]

theorem windowAt_eq (ys : List β) (n i : Nat) (h : i + n ≤ ys.length) :
    windowAt ys n i = ((ys.drop i).take n).map some := by
  apply List.ext_getElem?
  intro j
  simp only [windowAt, List.getElem?_map]
  by_cases hj : j < n
  · simp [hj, List.getElem?_eq_getElem (show i + j < ys.length by omega)]
  · rw [List.getElem?_eq_none (by simp; omega), List.getElem?_eq_none (by simp; omega)]
    rfl

theorem windowAt_pad (ys : List β) (n i : Nat) (h : ys.length - i ≤ n) :
    windowAt ys n i = (ys.drop i).map some ++ List.replicate (n - (ys.length - i)) none := by
  apply List.ext_getElem?
  intro j
  simp only [windowAt]
  by_cases hj : j < n
  · by_cases hij : i + j < ys.length
    · rw [List.getElem?_append_left (by simp; omega)]
      simp [hj, List.getElem?_eq_getElem hij]
    · rw [List.getElem?_append_right (by simp; omega)]
      simp [hj, List.getElem?_replicate]
      omega
  · rw [List.getElem?_append_right (by simp; omega)]
    simp [hj, List.getElem?_replicate]
    omega

theorem windowAt_shift (ys : List β) (n i : Nat) (hn : 0 < n) (h : ys.length ≤ i + n) :
    (windowAt ys n i).drop 1 ++ [none] = windowAt ys n (i + 1) := by
  apply List.ext_getElem?
  intro j
  by_cases hj : j + 1 < n
  · rw [List.getElem?_append_left (by simp [windowAt]; omega)]
    simp only [windowAt, List.getElem?_map, List.getElem?_drop]
    rw [List.getElem?_range (by omega), List.getElem?_range (by omega)]
    simp only [Option.map_some]
    rw [show i + (1 + j) = i + 1 + j by omega]
  · rw [List.getElem?_append_right (by simp [windowAt]; omega)]
    by_cases hjn : j < n
    · have : j - ((windowAt ys n i).drop 1).length = 0 := by simp [windowAt]; omega
      rw [this]
      simp [windowAt, hjn]
      omega
    · rw [List.getElem?_eq_none (by simp [windowAt]; omega)]
      simp [windowAt, hjn]

theorem overlapLoop_spec (ys : List β) (n k i : Nat) (hn : 0 < n) (h : ys.length ≤ i + n) :
    overlapLoop k (windowAt ys n i) =
      (windowAt ys n (i + k), (List.range k).map fun j => windowAt ys n (i + 1 + j)) := by
  induction k generalizing i with
  | zero => simp [overlapLoop]
  | succ k ih =>
    simp only [overlapLoop, windowAt_shift ys n i hn h]
    rw [ih (i + 1) (by omega)]
    simp only [List.range_succ_eq_map, List.map_cons, List.map_map]
    refine Prod.ext (by simp; congr 1; omega) ?_
    simp only [List.cons.injEq]
    refine ⟨by simp, ?_⟩
    apply List.map_congr_left
    intro j _
    simp only [Function.comp]
    congr 1
    omega

/-- Invariant: the window holds the last `n` items; one window per complete position was sent. -/
theorem overlap_feed (un : α → β) (n : Nat) (hn : 0 < n) (xs : List α) :
    let ys := xs.map un
    let r := (overlapWindowOp un n).feed (overlapWindowOp un n).init (ofItems xs)
    r.exn = none ∧ r.st = (ys.drop (ys.length - n)).map some ∧
      r.out = ofItems ((List.range (ys.length + 1 - n)).map (windowAt ys n)) := by
  have := (overlapWindowOp un n).feed_inv
    (fun xs s out => s = ((xs.map un).drop ((xs.map un).length - n)).map some ∧
      out = ofItems ((List.range ((xs.map un).length + 1 - n)).map (windowAt (xs.map un) n)))
    ⟨by simp [overlapWindowOp], by simp [show 1 - n = 0 by omega]⟩
    (by
      rintro xs s out x ⟨rfl, rfl⟩
      generalize hys : xs.map un = ys
      rw [List.map_append, hys]
      simp only [List.map_cons, List.map_nil, overlapWindowOp, catchKare_exn]
      have hlen : (((ys.drop (ys.length - n)).map some)).length = min n ys.length := by
        simp; omega
      have hw2 : (if ((ys.drop (ys.length - n)).map some).length = n
            then ((ys.drop (ys.length - n)).map some).drop 1
            else ((ys.drop (ys.length - n)).map some)) ++ [some (un x)] =
          ((ys ++ [un x]).drop ((ys ++ [un x]).length - n)).map some := by
        rw [hlen]
        by_cases hc : n ≤ ys.length
        · rw [if_pos (by omega), List.drop_append_of_le_length (by simp; omega), ← List.map_drop,
            List.drop_drop]
          simp only [List.length_append, List.length_singleton, List.map_append]
          rw [show ys.length - n + 1 = ys.length + 1 - n by omega]
          rfl
        · rw [if_neg (by omega)]
          simp [show ys.length - n = 0 by omega, show ys.length + 1 - n = 0 by omega]
      rw [hw2]
      have hl2 : (((ys ++ [un x]).drop ((ys ++ [un x]).length - n)).map some).length =
          min n (ys.length + 1) := by simp; omega
      rw [hl2]
      have hold : (List.range (ys.length + 1 - n)).map (windowAt (ys ++ [un x]) n) =
          (List.range (ys.length + 1 - n)).map (windowAt ys n) := by
        apply List.map_congr_left
        intro i hi
        rw [List.mem_range] at hi
        rw [windowAt_eq _ _ _ (by simp; omega), windowAt_eq _ _ _ (by omega)]
        rw [List.drop_append_of_le_length (by omega), List.take_append_of_le_length (by simp; omega)]
      by_cases hc : min n (ys.length + 1) = n
      · rw [if_pos hc]
        refine ⟨by simp, rfl, ?_⟩
        rw [List.length_append, List.length_singleton, show ys.length + 1 + 1 - n = (ys.length + 1 - n) + 1 by omega,
          List.range_succ, List.map_append, hold, ofItems_append]
        congr 1
        simp only [List.map_cons, List.map_nil, ofItems_cons, ofItems_nil]
        rw [windowAt_eq _ _ _ (by simp; omega), List.take_of_length_le (by simp; omega)]
      · rw [if_neg hc]
        refine ⟨by simp, rfl, ?_⟩
        simp [show ys.length + 1 - n = 0 by omega, show ys.length + 1 + 1 - n = 0 by omega]) xs
  exact ⟨this.1, this.2⟩

/-- **C08.** `window -o n` (`n ≥ 1`) on a non-empty stream: exactly the windows at the positions
`0 .. max(n, length) - 1`, where window `i` consists of the items `i .. i+n-1`, None being put for the
missing ones; then end of stream. -/
theorem C08_overlap (un : α → β) (n : Nat) (hn : 0 < n) (xs : List α) (hx : xs ≠ []) :
    (overlapWindowOp un n).run (ofItems xs) =
      (ofItems ((List.range (max n xs.length)).map (windowAt (xs.map un) n)) ++ [.flush], none) := by
  obtain ⟨h1, h2, h3⟩ := overlap_feed un n hn xs
  rw [run_ofItems _ _ h1, h2, h3]
  generalize hys : xs.map un = ys at *
  have hpos : 0 < ys.length := by rw [← hys]; simpa using List.length_pos_iff.2 hx
  rw [show xs.length = ys.length by rw [← hys]; simp]
  have hl : (((ys.drop (ys.length - n)).map some)).length = min n ys.length := by simp; omega
  have hpad : padTo n ((ys.drop (ys.length - n)).map some) = windowAt ys n (ys.length - n) := by
    rw [windowAt_pad _ _ _ (by omega), padTo, hl]
    congr 2
    omega
  simp only [overlapWindowOp, hl, hpad]
  rw [if_pos (by omega), overlapLoop_spec _ _ _ _ hn (by omega)]
  refine Prod.ext ?_ rfl
  simp only
  rw [← List.append_assoc, ← List.append_assoc, ← ofItems_append, ← ofItems_append]
  congr 2
  by_cases hc : ys.length < n
  · rw [if_pos (by omega)]
    simp only [show ys.length + 1 - n = 0 by omega, show ys.length - n = 0 by omega, Nat.max_eq_left (Nat.le_of_lt hc)]
    obtain ⟨k, rfl⟩ : ∃ k, n = k + 1 := ⟨n - 1, by omega⟩
    rw [List.range_succ_eq_map (n := k)]
    simp only [List.range_zero, List.map_nil, List.nil_append, List.map_cons, List.map_map, Nat.add_sub_cancel]
    simp [Function.comp_def, Nat.add_comm]
  · rw [if_neg (by omega), List.append_nil, Nat.max_eq_right (by omega)]
    rw [show (List.range ys.length) = List.range ((ys.length + 1 - n) + (n - 1)) by congr 1; omega,
      List.range_add, List.map_append, List.map_map]
    congr 1
    apply List.map_congr_left
    intro j _
    simp only [Function.comp]
    congr 1
    omega

/-- **C08**, the number of windows equals the number of items as soon as there are `n` of them. (For
`0 < length < n` there are `n` windows: the surplus ones consist of None only.) -/
theorem C08_overlap_count (un : α → β) (n : Nat) (hn : 0 < n) (xs : List α) (hx : n ≤ xs.length) :
    (items ((overlapWindowOp un n).run (ofItems xs)).1).length = xs.length := by
  rw [C08_overlap un n hn xs (by rintro rfl; simp at hx; omega)]
  simp; omega

/-- **C08**: windows are emitted as soon as they are complete. -/
theorem C08_overlap_streaming (un : α → β) (n : Nat) (hn : 0 < n) (xs : List α) :
    (overlapWindowOp un n).obs (ofItems xs) =
      (ofItems ((List.range (xs.length + 1 - n)).map (windowAt (xs.map un) n)), none) := by
  obtain ⟨h1, h2, h3⟩ := overlap_feed un n hn xs
  refine Prod.ext (h3.trans ?_) h1
  simp

/-- **C08** on the empty stream: no window (and no end of stream either, see C21). -/
theorem C08_overlap_empty (un : α → β) (n : Nat) :
    (overlapWindowOp un n).run (ofItems []) = ([], none) := rfl

example : (items ((overlapWindowOp (id : Nat → Nat) 3).run (ofItems [1, 2, 3, 4])).1) =
    [[some 1, some 2, some 3], [some 2, some 3, some 4], [some 3, some 4, none], [some 4, none, none]] := by
  decide
/-- The surplus windows for a stream shorter than `n`. -/
example : (items ((overlapWindowOp (id : Nat → Nat) 3).run (ofItems [1])).1) =
    [[some 1, none, none], [none, none, none], [none, none, none]] := by decide

/-! ### Disjoint windows -/

theorem disjoint_feed (un : α → β) (n : Nat) (hn : 0 < n) (xs : List α) :
    let r := (disjointWindowOp un n).feed (disjointWindowOp un n).init (ofItems xs)
    r.exn = none ∧ r.st.length < n ∧
      ∃ ws : List (List (Option β)), r.out = ofItems ws ∧ (∀ w ∈ ws, w.length = n) ∧
        ws.flatten ++ r.st = xs.map (some ∘ un) := by
  have := (disjointWindowOp un n).feed_inv
    (fun xs s out => s.length < n ∧ ∃ ws : List (List (Option β)), out = ofItems ws ∧
      (∀ w ∈ ws, w.length = n) ∧ ws.flatten ++ s = xs.map (some ∘ un))
    ⟨by simpa [disjointWindowOp] using hn, [], rfl, by simp, by simp [disjointWindowOp]⟩
    (by
      rintro xs s out x ⟨hs, ws, rfl, hw, hf⟩
      simp only [disjointWindowOp, catchKare_exn]
      by_cases h : (s ++ [some (un x)]).length = n
      · simp only [h, if_true]
        refine ⟨by simp, by simpa using hn, ws ++ [s ++ [some (un x)]], by simp, ?_, ?_⟩
        · intro w hw'
          rcases List.mem_append.1 hw' with h' | h'
          · exact hw w h'
          · rw [List.mem_singleton] at h'; rw [h', h]
        · simp [← hf]
      · simp only [h, if_false]
        refine ⟨by simp, by simp at h ⊢; omega, ws, by simp, hw, ?_⟩
        simp [← hf]) xs
  exact ⟨this.1, this.2⟩

/-- **C09.** `window -d n` (`n ≥ 1`): blocks of exactly `n`, whose concatenation is the input followed
by fewer than `n` None's; a block is emitted as soon as it is complete; then end of stream. -/
theorem C09_disjoint (un : α → β) (n : Nat) (hn : 0 < n) (xs : List α) :
    ∃ ws : List (List (Option β)), ∃ k < n,
      (disjointWindowOp un n).run (ofItems xs) = (ofItems ws ++ [.flush], none) ∧
      (∀ w ∈ ws, w.length = n) ∧ ws.flatten = xs.map (some ∘ un) ++ List.replicate k none ∧
      (disjointWindowOp un n).obs (ofItems xs) = (ofItems (ws.take (xs.length / n)), none) := by
  obtain ⟨h1, h2, ws, h3, h4, h5⟩ := disjoint_feed un n hn xs
  rw [run_ofItems _ _ h1, h3]
  generalize hst : ((disjointWindowOp un n).feed (disjointWindowOp un n).init (ofItems xs)).st = s at *
  have hobs : (disjointWindowOp un n).obs (ofItems xs) = (ofItems ws, none) := Prod.ext h3 h1
  have hcount : xs.length / n = ws.length := by
    have hl := congrArg List.length h5
    rw [List.length_append, List.length_flatten, List.length_map] at hl
    have : (ws.map List.length).sum = n * ws.length := by
      clear h3 h5 hl hobs
      induction ws with
      | nil => rfl
      | cons w ws ih =>
        simp only [List.map_cons, List.sum_cons, List.length_cons]
        rw [ih (fun w' hw' => h4 w' (by simp [hw'])), h4 w (by simp), Nat.mul_add]; omega
    rw [this] at hl
    rw [← hl, Nat.mul_add_div hn, Nat.div_eq_of_lt h2]; rfl
  rw [hcount]
  by_cases hs : s.length > 0
  · refine ⟨ws ++ [padTo n s], n - s.length, by omega, ?_, ?_, ?_, ?_⟩
    · simp [disjointWindowOp, hs]
    · intro w hw
      rcases List.mem_append.1 hw with h | h
      · exact h4 w h
      · rw [List.mem_singleton] at h
        rw [h]; simp [padTo]; omega
    · rw [← h5]; simp [padTo]
    · rw [hobs]; simp
  · have hs0 : s = [] := by cases s with | nil => rfl | cons a b => simp at hs
    subst hs0
    refine ⟨ws, 0, hn, ?_, h4, ?_, ?_⟩
    · simp [disjointWindowOp]
    · simpa using h5
    · rw [hobs]; simp

/-- **C09**, `window -d 0` does not divide at all: one window with the whole input. -/
theorem C09_disjoint_zero (un : α → β) (xs : List α) (hx : xs ≠ []) :
    (disjointWindowOp un 0).run (ofItems xs) = ([.item (xs.map (some ∘ un)), .flush], none) := by
  have := (disjointWindowOp un 0).feed_inv (fun xs s out => out = [] ∧ s = xs.map (some ∘ un))
    ⟨rfl, rfl⟩ (by rintro xs s out x ⟨rfl, rfl⟩; simp [disjointWindowOp, catchKare]) xs
  rw [run_ofItems _ _ this.1, this.2.1, this.2.2]
  have : 0 < xs.length := List.length_pos_iff.2 hx
  simp [disjointWindowOp, padTo, this]

example : (items ((disjointWindowOp (id : Nat → Nat) 3).run (ofItems [1, 2, 3, 4])).1) =
    [[some 1, some 2, some 3], [some 4, none, none]] := by decide

/-! ### Predicate windows -/

/-- Specification: `ws` divides `ys` into blocks according to the predicate `p`. -/
structure Blocks (p : β → Bool) (ys : List β) (ws : List (List β)) : Prop where
  nonempty : ∀ w ∈ ws, w ≠ []
  concat : ws.flatten = ys
  /-- inside a block, `p` is false after the first item -/
  inside : ∀ w ∈ ws, ∀ y ∈ w.tail, p y = false
  /-- every block but the first starts with an item satisfying `p` -/
  starts : ∀ w ∈ ws.tail, ∃ y ∈ w.head?, p y = true

theorem Blocks.start_snoc {p : β → Bool} {ys : List β} {ws : List (List β)} (h : Blocks p ys ws) (y : β)
    (hp : ws ≠ [] → p y = true) : Blocks p (ys ++ [y]) (ws ++ [[y]]) where
  nonempty := by
    intro w hw
    rcases List.mem_append.1 hw with hw | hw
    · exact h.nonempty w hw
    · simp at hw; simp [hw]
  concat := by simp [h.concat]
  inside := by
    intro w hw
    rcases List.mem_append.1 hw with hw | hw
    · exact h.inside w hw
    · simp at hw; simp [hw]
  starts := by
    intro w hw
    cases ws with
    | nil => simp at hw
    | cons a ws =>
      rw [List.cons_append, List.tail_cons] at hw
      rcases List.mem_append.1 hw with hw | hw
      · exact h.starts w hw
      · simp at hw; subst hw; exact ⟨y, by simp, hp (by simp)⟩

theorem Blocks.extend_last {p : β → Bool} {ys : List β} {ws : List (List β)} {w : List β}
    (h : Blocks p ys (ws ++ [w])) (y : β) (hp : p y = false) :
    Blocks p (ys ++ [y]) (ws ++ [w ++ [y]]) where
  nonempty := by
    intro v hv
    rcases List.mem_append.1 hv with hv | hv
    · exact h.nonempty v (by simp [hv])
    · simp at hv; simp [hv]
  concat := by have := h.concat; simp at this ⊢; simp [← this]
  inside := by
    intro v hv
    rcases List.mem_append.1 hv with hv | hv
    · exact h.inside v (by simp [hv])
    · simp at hv; subst hv
      intro z hz
      have hw := h.nonempty w (by simp)
      rw [List.tail_append_of_ne_nil hw] at hz
      rcases List.mem_append.1 hz with hz | hz
      · exact h.inside w (by simp) z hz
      · simp at hz; rw [hz]; exact hp
  starts := by
    intro v hv
    cases ws with
    | nil => simp at hv
    | cons a ws =>
      rw [List.cons_append, List.tail_cons] at hv
      rcases List.mem_append.1 hv with hv | hv
      · exact h.starts v (by simp [hv])
      · simp at hv; subst hv
        have hw := h.nonempty w (by simp)
        obtain ⟨z, hz, hpz⟩ := h.starts w (by simp)
        refine ⟨z, ?_, hpz⟩
        cases w with
        | nil => exact absurd rfl hw
        | cons b w => simpa using hz

/-- **C10.** `window P`, `P` not failing on any item (failures are C02): the windows emitted divide
the input into the blocks described by `Blocks`; then end of stream. -/
theorem C10_predicate (p : α → Except Msg Bool) (pb : α → Bool) (xs : List α)
    (hp : ∀ x ∈ xs, p x = .ok (pb x)) :
    ∃ ws, (predWindowOp id p).run (ofItems xs) = (ofItems ws ++ [.flush], none) ∧ Blocks pb xs ws := by
  suffices H : ∀ (ys pre : List α) (s : List α) (vs : List (List α)), (∀ x ∈ ys, p x = .ok (pb x)) →
      (if s = [] then vs = [] ∧ pre = [] else Blocks pb pre (vs ++ [s])) →
      ((predWindowOp id p).feed s (ofItems ys)).exn = none ∧
      ∃ vs' s', ((predWindowOp id p).feed s (ofItems ys)).st = s' ∧
        ((predWindowOp id p).feed s (ofItems ys)).out = ofItems vs' ∧
        (if s' = [] then vs ++ vs' = [] ∧ pre ++ ys = [] else Blocks pb (pre ++ ys) (vs ++ vs' ++ [s'])) by
    obtain ⟨h1, vs', s', h2, h3, h4⟩ := H xs [] [] [] hp (by simp)
    rw [run_ofItems _ _ h1]
    rw [show (predWindowOp id p).init = [] from rfl, h2, h3]
    by_cases hs : s' = []
    · rw [if_pos hs] at h4
      simp at h4
      refine ⟨[], ?_, ?_⟩
      · subst hs; simp [predWindowOp, h4.1]
      · rw [h4.2]; exact ⟨by simp, by simp, by simp, by simp⟩
    · rw [if_neg hs] at h4
      refine ⟨vs' ++ [s'], ?_, by simpa using h4⟩
      have : s'.length > 0 := List.length_pos_iff.2 hs
      simp [predWindowOp, this]
  intro ys
  induction ys with
  | nil => intro pre s vs _ h; exact ⟨rfl, [], s, rfl, rfl, by simpa using h⟩
  | cons y ys ih =>
    intro pre s vs hy h
    have hpy := hy y (by simp)
    have hrest : ∀ x ∈ ys, p x = .ok (pb x) := fun x hx => hy x (by simp [hx])
    rw [ofItems_cons, feed_cons]
    simp only [step_item]
    cases hb : pb y with
    | true =>
      rw [hb] at hpy
      by_cases hs : s = []
      · subst hs
        simp only [if_true] at h
        obtain ⟨rfl, rfl⟩ := h
        have hitem : (predWindowOp id p).item [] y = ⟨[y], [], none⟩ := by simp [predWindowOp, hpy]
        simp only [hitem, catchKare]
        obtain ⟨i1, vs', s', i2, i3, i4⟩ := ih [y] [y] [] hrest (by
          simp
          exact ⟨by simp, by simp, by simp, by simp⟩)
        refine ⟨by simpa using i1, vs', s', by simpa using i2, by simpa using i3, by simpa using i4⟩
      · rw [if_neg hs] at h
        have hl : s.length > 0 := List.length_pos_iff.2 hs
        have hitem : (predWindowOp id p).item s y = ⟨[y], [.item s], none⟩ := by
          simp [predWindowOp, hpy, hl]
        simp only [hitem, catchKare]
        obtain ⟨i1, vs', s', i2, i3, i4⟩ := ih (pre ++ [y]) [y] (vs ++ [s]) hrest (by
          simp only [List.cons_ne_self, if_false]
          exact h.start_snoc y (fun _ => hb))
        refine ⟨by simpa using i1, s :: vs', s', by simpa using i2, by simpa using i3, by simpa using i4⟩
    | false =>
      rw [hb] at hpy
      have hitem : (predWindowOp id p).item s y = ⟨s ++ [y], [], none⟩ := by simp [predWindowOp, hpy]
      simp only [hitem, catchKare]
      obtain ⟨i1, vs', s', i2, i3, i4⟩ := ih (pre ++ [y]) (s ++ [y]) vs hrest (by
        by_cases hs : s = []
        · subst hs
          simp only [if_true] at h
          obtain ⟨rfl, rfl⟩ := h
          simp
          exact ⟨by simp, by simp, by simp, by simp⟩
        · rw [if_neg hs] at h
          simp only [List.append_eq_nil_iff, hs, false_and, if_false]
          exact h.extend_last y hb)
      refine ⟨by simpa using i1, vs', s', by simpa using i2, by simpa using i3, by simpa using i4⟩

example : (items ((predWindowOp id (fun x : Nat => .ok (x % 3 = 0))).run (ofItems [1, 2, 3, 4, 5, 6, 9])).1) =
    [[1, 2], [3, 4, 5], [6], [9]] := by decide

/-- `Blocks` determines the windows. -/
theorem C10_blocks_unique (p : β → Bool) (ys : List β) (ws vs : List (List β))
    (hw : Blocks p ys ws) (hv : Blocks p ys vs) : ws = vs := by
  induction ws generalizing ys vs with
  | nil =>
    have : ys = [] := by simpa using hw.concat.symm
    subst this
    cases vs with
    | nil => rfl
    | cons v vs =>
      have := hv.concat
      simp at this
      exact absurd this.1 (hv.nonempty v (by simp))
  | cons w ws ih =>
    cases vs with
    | nil =>
      have : ys = [] := by simpa using hv.concat.symm
      subst this
      have := hw.concat
      simp at this
      exact absurd this.1 (hw.nonempty w (by simp))
    | cons v vs =>
      have key : ∀ (a b : List β) (as bs : List (List β)), a ≠ [] → b ≠ [] →
          a ++ as.flatten = b ++ bs.flatten → (∀ y ∈ a.tail, p y = false) → (∀ y ∈ b.tail, p y = false) →
          (∀ w ∈ as, ∃ y ∈ w.head?, p y = true) → (∀ w ∈ bs, ∃ y ∈ w.head?, p y = true) →
          a.length ≤ b.length → a = b := by
        intro a b as bs ha hb hab hia hib hsa hsb hle
        rcases Nat.lt_or_ge a.length b.length with hlt | hge
        · exfalso
          -- the item of `b` at position `a.length` starts a block of `as`
          have hpre : a = b.take a.length := by
            have := congrArg (List.take a.length) hab
            rw [List.take_left, List.take_append_of_le_length hle] at this
            exact this
          have hdrop : as.flatten = b.drop a.length ++ bs.flatten := by
            have := congrArg (List.drop a.length) hab
            rw [List.drop_left, List.drop_append_of_le_length hle] at this
            exact this
          have hbd : b.drop a.length = b[a.length] :: b.drop (a.length + 1) := List.drop_eq_getElem_cons hlt
          have hmem : b[a.length] ∈ b.tail := by
            have : 0 < a.length := List.length_pos_iff.2 ha
            rw [List.mem_iff_getElem]
            refine ⟨a.length - 1, by simp; omega, ?_⟩
            rw [List.getElem_tail]
            congr 1
            omega
          have hf := hib _ hmem
          cases as with
          | nil => rw [hbd] at hdrop; simp only [List.flatten_nil] at hdrop; cases hdrop
          | cons c as =>
            obtain ⟨y, hy, hpy⟩ := hsa c (by simp)
            cases c with
            | nil => simp at hy
            | cons d c =>
              rw [hbd] at hdrop
              simp only [List.flatten_cons, List.cons_append, List.cons.injEq] at hdrop
              simp at hy
              rw [← hdrop.1, hy, hpy] at hf
              cases hf
        · have := List.append_inj_left hab (by omega)
          exact this
      have hcw := hw.concat
      have hcv := hv.concat
      rw [List.flatten_cons] at hcw hcv
      have heq : w = v := by
        rcases Nat.le_total w.length v.length with hle | hle
        · exact key w v ws vs (hw.nonempty w (by simp)) (hv.nonempty v (by simp)) (hcw.trans hcv.symm)
            (hw.inside w (by simp)) (hv.inside v (by simp)) hw.starts hv.starts hle
        · exact (key v w vs ws (hv.nonempty v (by simp)) (hw.nonempty w (by simp)) (hcv.trans hcw.symm)
            (hv.inside v (by simp)) (hw.inside w (by simp)) hv.starts hw.starts hle).symm
      subst heq
      congr 1
      have hrest : ws.flatten = vs.flatten := List.append_cancel_left (hcw.trans hcv.symm)
      refine ih ws.flatten vs ⟨fun u hu => hw.nonempty u (by simp [hu]), rfl, fun u hu => hw.inside u (by simp [hu]),
        fun u hu => hw.starts u (List.mem_of_mem_tail hu)⟩
        ⟨fun u hu => hv.nonempty u (by simp [hu]), hrest.symm, fun u hu => hv.inside u (by simp [hu]),
        fun u hu => hv.starts u (List.mem_of_mem_tail hu)⟩

/-- Specification of the arguments of `window`: exactly one of them is given (the argument parser checks this, see C37). -/
inductive WindowArgs : Option (α → Except Msg Bool) → Option Int → Option Int → Option (WindowKind α) → Prop
  | pred (p) : WindowArgs (some p) none none (some (.pred p))
  | overlap (n : Nat) (h : 0 < n) : WindowArgs none (some n) none (some (.overlap n))
  | disjoint (n : Nat) : WindowArgs none none (some n) (some (.disjoint n))
  | badOverlap (n : Int) (h : n ≤ 0) : WindowArgs none (some n) none none
  | badDisjoint (n : Int) (h : n < 0) : WindowArgs none none (some n) none

/-- **C08-C10.** The arguments decide the kind of window: a predicate, `--overlap n` for positive `n`, `--disjoint n` for `n` not negative;
other numbers kill the command before it runs. -/
theorem C08_setup (p : Option (α → Except Msg Bool)) (o d : Option Int) (k : Option (WindowKind α)) (h : WindowArgs p o d k) :
    windowSetup p o d = match k with | some k => .ok k | none => .error .kill := by
  cases h with
  | pred p => rfl
  | overlap n h =>
    have h1 : (n : Int) ≠ 0 := by omega
    have h2 : (n : Int) ≥ 0 := by omega
    simp [windowSetup, h1]
    omega
  | disjoint n => simp [windowSetup]
  | badOverlap n h =>
    by_cases h0 : n = 0
    · simp [windowSetup, h0]
    · have h1 : ¬ (0 ≤ n) := by omega
      simp [windowSetup, h0, h1]
  | badDisjoint n h =>
    have h1 : ¬ (0 ≤ n) := by omega
    simp [windowSetup, h1]

/-- Every choice of exactly one argument is covered. -/
theorem C08_setup_total (p : Option (α → Except Msg Bool)) (o d : Option Int)
    (h : (p.isSome.toNat + o.isSome.toNat + d.isSome.toNat) = 1) : ∃ k, WindowArgs p o d k := by
  cases p <;> cases o <;> cases d <;> simp at h
  · rename_i d
    by_cases hd : d < 0
    · exact ⟨_, .badDisjoint d hd⟩
    · obtain ⟨n, rfl⟩ := Int.eq_ofNat_of_zero_le (by omega : 0 ≤ d)
      exact ⟨_, .disjoint n⟩
  · rename_i o
    by_cases ho : o ≤ 0
    · exact ⟨_, .badOverlap o ho⟩
    · obtain ⟨n, rfl⟩ := Int.eq_ofNat_of_zero_le (by omega : 0 ≤ o)
      exact ⟨_, .overlap n (by omega)⟩
  · exact ⟨_, .pred _⟩

example : windowSetup (α := Nat) none (some 3) none = .ok (.overlap 3) := C08_setup _ _ _ _ (.overlap 3 (by omega))

end Marcel
