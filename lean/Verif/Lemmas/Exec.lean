import Verif.Spec.Exec
import Verif.Props.C01_Staging
import Verif.Props.C04_Tail
import Verif.Props.C06_Sort

/-! # Lemmas for C72: the operators on streams with errors -/

namespace Marcel.Exec

open Op

set_option linter.unusedSectionVars false

variable {V : Type} [DecidableEq V]

def toEv : Shown V → Ev V
  | .item x => .item x
  | .error m => .err m

def evs (s : List (Shown V)) : List (Ev V) := s.map toEv

theorem evs_nil : evs ([] : List (Shown V)) = [] := rfl
theorem evs_item (x : V) (s) : evs (.item x :: s) = .item x :: evs s := rfl
theorem evs_error (m) (s : List (Shown V)) : evs (.error m :: s) = .err m :: evs s := rfl
theorem evs_append (s t : List (Shown V)) : evs (s ++ t) = evs s ++ evs t := by simp [evs]
theorem evs_items (xs : List V) : evs (xs.map .item) = ofItems xs := by
  induction xs with
  | nil => rfl
  | cons x xs ih => simp only [List.map_cons, evs_item, ih]; rfl

theorem shown_append (a b : List (Ev V)) : shown (a ++ b) = shown a ++ shown b := by
  induction a with
  | nil => rfl
  | cons e a ih => cases e <;> simp [shown, ih]
theorem shown_evs (s : List (Shown V)) : shown (evs s) = s := by
  induction s with
  | nil => rfl
  | cons e s ih => cases e <;> simp [evs_item, evs_error, shown, ih]
theorem shown_flushes (k : Nat) : shown (List.replicate k (Ev.flush : Ev V)) = [] := by
  induction k with
  | zero => rfl
  | succ k ih => simpa [List.replicate_succ, shown] using ih

/-- A stream as events that an operator is told, and the exception that ended it. -/
def Carries (s : Stream V) (es : List (Ev V)) (x : Option Exn) : Prop :=
  ∃ k, es = evs s.sent ++ List.replicate k .flush ∧
    match s.how with
    | .finished => 0 < k ∧ x = none
    | .running => k = 0 ∧ x = none
    | .stopped e => k = 0 ∧ x = some e

/-- An operator does what the relation says. -/
def Implements (o : AnyOp V) (R : Stream V → Stream V → Prop) : Prop :=
  ∀ s es x, Carries s es x → ∃ t, R s t ∧ Carries t (o.2.obs es).1 ((o.2.obs es).2 <|> x)

/-! ## Operators that pass everything on -/

variable {σ : Type}

theorem flush_many (o : Op σ V V) (hf : ∀ s, o.flush s = ⟨s, [.flush], none⟩) (k : Nat) (s : σ) :
    o.feed s (List.replicate k .flush) = ⟨s, List.replicate k .flush, none⟩ := by
  induction k with
  | zero => rfl
  | succ k ih => rw [List.replicate_succ, feed_cons, step_flush, hf]; simp [ih]

theorem passes_of (o : Op σ V V) (f : List (Shown V) → List (Shown V)) (hf : ∀ s, o.flush s = ⟨s, [.flush], none⟩)
    (h : ∀ s, (o.feed o.init (evs s)).exn = none ∧ (o.feed o.init (evs s)).out = evs (f s)) : Implements ⟨σ, o⟩ (Passes f) := by
  intro s es x ⟨k, he, hk⟩
  refine ⟨⟨f s.sent, s.how⟩, rfl, k, ?_, ?_⟩
  · subst he
    simp only [obs]
    rw [feed_append, (h s.sent).1, flush_many o hf]
    simp [(h s.sent).2]
  · subst he
    simp only [obs]
    rw [feed_append, (h s.sent).1, flush_many o hf]
    simpa using hk

theorem feed_item {o : Op σ V V} {s s' : σ} {x : V} {out : List (Ev V)} {e : Option Exn} (h : o.item s x = ⟨s', out, e⟩) (he : e = none ∨ e = some .kare) (es : List (Ev V)) :
    o.feed s (.item x :: es) = ⟨(o.feed s' es).st, out ++ (o.feed s' es).out, (o.feed s' es).exn⟩ := by
  rw [feed_cons, step_item, h]
  rcases he with rfl | rfl <;> simp [catchKare]

theorem feed_err (o : Op σ V V) (s : σ) (m : Msg) (es : List (Ev V)) :
    o.feed s (.err m :: es) = ⟨(o.feed s es).st, .err m :: (o.feed s es).out, (o.feed s es).exn⟩ := by
  rw [feed_cons, step_err]; simp

theorem feed_flush {o : Op σ V V} {s s' : σ} {out : List (Ev V)} (h : o.flush s = ⟨s', out, none⟩) (es : List (Ev V)) :
    o.feed s (.flush :: es) = ⟨(o.feed s' es).st, out ++ (o.feed s' es).out, (o.feed s' es).exn⟩ := by
  rw [feed_cons, step_flush, h]; simp

theorem map_feed (f : V → Except Msg V) (g : V → List (Shown V)) (hg : ∀ x, g x = match f x with | .ok y => [.item y] | .error m => [.error m]) (s : List (Shown V)) :
    (mapOp f).feed () (evs s) = ⟨(), evs (s.flatMap (forItem g)), none⟩ := by
  induction s with
  | nil => rfl
  | cons e s ih =>
    cases e with
    | error m => rw [evs_error, feed_err, ih]; rfl
    | item x =>
      have := hg x
      cases h : f x with
      | ok y =>
        rw [h] at this
        rw [evs_item, feed_item (s' := ()) (out := [.item y]) (e := none) (by simp [mapOp, h]) (.inl rfl), ih, List.flatMap_cons, forItem, this]; rfl
      | error m =>
        rw [h] at this
        rw [evs_item, feed_item (s' := ()) (out := [.err m]) (e := some .kare) (by simp [mapOp, h, fatal]) (.inr rfl), ih, List.flatMap_cons, forItem, this]; rfl

theorem select_feed (f : V → Except Msg Bool) (g : V → List (Shown V))
    (hg : ∀ x, g x = match f x with | .ok true => [.item x] | .ok false => [] | .error m => [.error m]) (s : List (Shown V)) :
    (selectOp f).feed () (evs s) = ⟨(), evs (s.flatMap (forItem g)), none⟩ := by
  induction s with
  | nil => rfl
  | cons e s ih =>
    cases e with
    | error m => rw [evs_error, feed_err, ih]; rfl
    | item x =>
      have := hg x
      rcases h : f x with m | ⟨_ | _⟩
      · rw [h] at this
        rw [evs_item, feed_item (s' := ()) (out := [.err m]) (e := some .kare) (by simp [selectOp, h, fatal]) (.inr rfl), ih, List.flatMap_cons, forItem, this]; rfl
      · rw [h] at this
        rw [evs_item, feed_item (s' := ()) (out := []) (e := none) (by simp [selectOp, h]) (.inl rfl), ih, List.flatMap_cons, forItem, this]; rfl
      · rw [h] at this
        rw [evs_item, feed_item (s' := ()) (out := [.item x]) (e := none) (by simp [selectOp, h]) (.inl rfl), ih, List.flatMap_cons, forItem, this]; rfl

theorem headKeep_feed (n : Nat) (s : List (Shown V)) : ∀ r, ((headKeep n).feed r (evs s)).exn = none ∧ ((headKeep n).feed r (evs s)).out = evs (firstItems (n - r) s) := by
  induction s with
  | nil => intro r; simp [evs_nil, feed_nil, firstItems]
  | cons e s ih =>
    intro r
    cases e with
    | error m => rw [evs_error, feed_cons, step_err]; have := ih r; simp [this, evs_error, firstItems]
    | item x =>
      rw [evs_item, feed_cons, step_item]
      by_cases h : n ≥ r + 1
      · have e1 : (headKeep n).item r x = ⟨r + 1, [.item x], none⟩ := by simp only [headKeep]; rw [if_pos h]
        have := ih (r + 1)
        have e2 : n - r = (n - (r + 1)) + 1 := by omega
        rw [e2]
        simp [e1, catchKare, firstItems, evs_item, this]
      · have e1 : (headKeep n).item r x = ⟨r + 1, [], none⟩ := by simp only [headKeep]; rw [if_neg h]
        have := ih (r + 1)
        have e2 : n - r = 0 := by omega
        have e3 : n - (r + 1) = 0 := by omega
        rw [e3] at this
        rw [e2]
        simp [e1, catchKare, firstItems, this]

theorem headSkip_feed (n : Nat) (s : List (Shown V)) : ∀ r, ((headSkip n).feed r (evs s)).exn = none ∧ ((headSkip n).feed r (evs s)).out = evs (afterItems (n - r) s) := by
  induction s with
  | nil => intro r; simp [evs_nil, feed_nil, afterItems]
  | cons e s ih =>
    intro r
    cases e with
    | error m => rw [evs_error, feed_cons, step_err]; have := ih r; simp [this, evs_error, afterItems]
    | item x =>
      rw [evs_item, feed_cons, step_item]
      by_cases h : n < r + 1
      · have e1 : (headSkip n).item r x = ⟨r + 1, [.item x], none⟩ := by simp only [headSkip]; rw [if_pos h]
        have := ih (r + 1)
        have e2 : n - r = 0 := by omega
        have e3 : n - (r + 1) = 0 := by omega
        rw [e3] at this
        rw [e2]
        simp [e1, catchKare, afterItems, evs_item, this]
      · have e1 : (headSkip n).item r x = ⟨r + 1, [], none⟩ := by simp only [headSkip]; rw [if_neg h]
        have := ih (r + 1)
        have e2 : n - r = (n - (r + 1)) + 1 := by omega
        rw [e2]
        simp [e1, catchKare, afterItems, this]

theorem consecutive_feed (s : List (Shown V)) : ∀ c, (uniqueConsecutiveOp.feed c (evs s)).exn = none ∧ (uniqueConsecutiveOp.feed c (evs s)).out = evs (changedItems c s) := by
  induction s with
  | nil => intro c; simp [evs_nil, feed_nil, changedItems]
  | cons e s ih =>
    intro c
    cases e with
    | error m => rw [evs_error, feed_err]; have := ih c; simp [this, evs_error, changedItems]
    | item x =>
      by_cases h : c = some x
      · rw [evs_item, feed_item (s' := c) (out := []) (e := none) (by simp only [uniqueConsecutiveOp]; rw [if_neg (by simpa using h)]) (.inl rfl)]
        have := ih c
        rw [changedItems, if_pos h]
        simpa using this
      · rw [evs_item, feed_item (s' := some x) (out := [.item x]) (e := none) (by simp only [uniqueConsecutiveOp]; rw [if_pos h]) (.inl rfl)]
        have := ih (some x)
        rw [changedItems, if_neg h]
        simpa [evs_item] using this

theorem tailSkip_feed (n : Nat) (s : List (Shown V)) : ∀ (xs : List V) (st : TailSt V), TailInv n xs st →
    ((tailSkip n).feed st (evs s)).exn = none ∧ ((tailSkip n).feed st (evs s)).out = evs (delayed n (xs.drop (xs.length - n)) s) := by
  induction s with
  | nil => intro xs st _; simp [evs_nil, feed_nil, delayed]
  | cons e s ih =>
    intro xs st hi
    cases e with
    | error m => rw [evs_error, feed_err]; have := ih xs st hi; simp [this, evs_error, delayed]
    | item x =>
      have hlen := hi.len
      by_cases h : st.queue.length < n
      · rw [evs_item, feed_item (s' := ⟨st.queue ++ [x], st.end⟩) (out := []) (e := none) (by simp only [tailSkip]; rw [if_pos h]) (.inl rfl)]
        have := ih _ _ (hi.grow x h)
        rw [delayed, if_pos (by simp; omega)]
        have e1 : (xs ++ [x]).drop ((xs ++ [x]).length - n) = xs.drop (xs.length - n) ++ [x] := by
          rw [show (xs ++ [x]).length - n = 0 by simp; omega, show xs.length - n = 0 by omega]; simp
        rw [e1] at this
        simpa using this
      · rw [evs_item, feed_item (s' := ⟨st.queue.set st.end x, (st.end + 1) % n⟩) (out := ofItems st.queue[st.end]?.toList) (e := none)
          (by simp only [tailSkip]; rw [if_neg h]) (.inl rfl)]
        obtain ⟨h1, h2⟩ := hi.full x h
        have := ih _ _ h1
        have hlt : st.end < st.queue.length := by have := hi.end_lt; omega
        rw [List.getElem?_eq_getElem hlt] at h2 ⊢
        simp only [Option.toList_some, List.cons_append, List.nil_append] at h2
        rw [delayed, if_neg (by simp; omega), ← h2]
        simp only [List.cons_append, List.take_succ_cons, List.take_zero, List.drop_succ_cons, List.drop_zero, List.map_cons, List.map_nil, List.nil_append]
        have e1 : (xs ++ [x]).drop ((xs ++ [x]).length - n) = xs.drop (xs.length + 1 - n) ++ [x] := by
          rw [List.drop_append_of_le_length (by simp; omega)]; simp
        rw [e1] at this
        simp [evs_item, this]

/-! ## Operators that collect items -/

theorem collects_of (o : Op σ V V) (st : List V → σ) (f : List V → Stream V → Prop)
    (h : ∀ s, o.feed o.init (evs s) = ⟨st (itemsOf s), evs (errorsOf s), none⟩)
    (hf : ∀ xs k, ∃ t x, f xs t ∧ Carries t (o.feed (st xs) (List.replicate (k + 1) .flush)).out x ∧ (o.feed (st xs) (List.replicate (k + 1) .flush)).exn = x) :
    Implements ⟨σ, o⟩ (Collects f) := by
  intro s es x ⟨k, he, hk⟩
  subst he
  simp only [obs, feed_append, h, Option.isSome_none, Bool.false_eq_true, if_false]
  by_cases hd : s.how = .finished
  · rw [hd] at hk
    obtain ⟨hk, rfl⟩ := hk
    obtain ⟨k, rfl⟩ : ∃ j, k = j + 1 := ⟨k - 1, by omega⟩
    obtain ⟨t, x, h1, ⟨j, h2, h2'⟩, h3⟩ := hf (itemsOf s.sent) k
    refine ⟨⟨errorsOf s.sent ++ t.sent, t.how⟩, ?_, j, ?_, ?_⟩
    · unfold Collects; rw [if_pos hd]; exact ⟨t, h1, rfl⟩
    · simp only []; rw [h2, evs_append, List.append_assoc]
    · simp only []
      rw [h3]
      cases hx : t.how with
      | finished => rw [hx] at h2'; simp [h2']
      | running => rw [hx] at h2'; simp [h2']
      | stopped e => rw [hx] at h2'; simp [h2']
  · have h0 : k = 0 := by
      cases hx : s.how with
      | finished => exact absurd hx hd
      | running => rw [hx] at hk; exact hk.1
      | stopped e => rw [hx] at hk; exact hk.1
    subst h0
    refine ⟨⟨errorsOf s.sent, s.how⟩, ?_, 0, ?_, ?_⟩
    · unfold Collects; rw [if_neg hd]
    · simp [feed_nil]
    · simpa [feed_nil] using hk

theorem itemsOf_item (x : V) (s) : itemsOf (.item x :: s) = x :: itemsOf s := rfl
theorem itemsOf_error (m) (s : List (Shown V)) : itemsOf (.error m :: s) = itemsOf s := rfl
theorem errorsOf_item (x : V) (s) : errorsOf (.item x :: s) = errorsOf s := rfl
theorem errorsOf_error (m) (s : List (Shown V)) : errorsOf (.error m :: s) = .error m :: errorsOf s := rfl

theorem reverse_feed' (s : List (Shown V)) : ∀ c : List V, reverseOp.feed (some c) (evs s) = ⟨some (c ++ itemsOf s), evs (errorsOf s), none⟩ := by
  induction s with
  | nil => intro c; simp [evs_nil, feed_nil, itemsOf, errorsOf]
  | cons e s ih =>
    intro c
    cases e with
    | error m => rw [evs_error, feed_err, ih]; rfl
    | item x => rw [evs_item, feed_item (s' := some (c ++ [x])) (out := []) (e := none) rfl (.inl rfl), ih, itemsOf_item, errorsOf_item]; simp

theorem sort_feed' (key : V → Except Msg V) (lt) (s : List (Shown V)) : ∀ c : List V, (sortOp key lt).feed (some c) (evs s) = ⟨some (c ++ itemsOf s), evs (errorsOf s), none⟩ := by
  induction s with
  | nil => intro c; simp [evs_nil, feed_nil, itemsOf, errorsOf]
  | cons e s ih =>
    intro c
    cases e with
    | error m => rw [evs_error, feed_err, ih]; rfl
    | item x => rw [evs_item, feed_item (s' := some (c ++ [x])) (out := []) (e := none) rfl (.inl rfl), ih, itemsOf_item, errorsOf_item]; simp

theorem flush_none {o : Op (Option (List V)) V V} (h : o.flush none = ⟨none, [.flush], none⟩) (k : Nat) :
    o.feed none (List.replicate k .flush) = ⟨none, List.replicate k .flush, none⟩ := by
  induction k with
  | zero => rfl
  | succ k ih => rw [List.replicate_succ, feed_flush h, ih]; rfl

theorem reverse_does : Implements ⟨_, (reverseOp : Op _ V V)⟩ (Collects fun xs t => t = ⟨xs.reverse.map .item, .finished⟩) := by
  refine collects_of _ some _ (fun s => by have := reverse_feed' s []; rw [List.nil_append] at this; exact this) ?_
  intro xs k
  refine ⟨_, none, rfl, ?_⟩
  rw [List.replicate_succ, feed_flush (s' := none) (out := ofItems xs.reverse ++ [.flush]) rfl, flush_none rfl]
  refine ⟨⟨k + 1, ?_, by simp⟩, rfl⟩
  simp only [evs_items, List.replicate_succ]; simp

/-! ### sort -/

theorem withKeys_first (key : V → Except Msg V) (xs : List V) (m : Msg) (h : withKeys key xs = .error m) :
    ∃ ys x zs, xs = ys ++ x :: zs ∧ (∀ y ∈ ys, ∃ k, key y = .ok k) ∧ key x = .error m := by
  induction xs with
  | nil => simp [withKeys] at h
  | cons y ys ih =>
    simp only [withKeys] at h
    cases hy : key y with
    | error m' =>
      rw [hy] at h; cases h
      exact ⟨[], y, ys, rfl, by simp, hy⟩
    | ok k =>
      rw [hy] at h
      cases hw : withKeys key ys with
      | ok r => rw [hw] at h; cases h
      | error m' =>
        rw [hw] at h; cases h
        obtain ⟨as, x, zs, h1, h2, h3⟩ := ih hw
        refine ⟨y :: as, x, zs, by simp [h1], ?_, h3⟩
        intro a ha
        rcases List.mem_cons.1 ha with rfl | ha
        · exact ⟨k, hy⟩
        · exact h2 a ha

/-- The key, where it can be computed. -/
def keyVal (key : V → Except Msg V) (x : V) : V :=
  match key x with
  | .ok y => y
  | .error _ => x

theorem withKeys_all (key : V → Except Msg V) (xs : List V) (kc : List (V × V)) (h : withKeys key xs = .ok kc) :
    (∀ x ∈ xs, key x = .ok (keyVal key x)) ∧ kc = xs.map fun x => (keyVal key x, x) := by
  induction xs generalizing kc with
  | nil => simp [withKeys] at h; simp [← h]
  | cons y ys ih =>
    simp only [withKeys] at h
    cases hy : key y with
    | error m' => rw [hy] at h; cases h
    | ok k =>
      rw [hy] at h
      cases hw : withKeys key ys with
      | error m' => rw [hw] at h; cases h
      | ok r =>
        rw [hw] at h; cases h
        obtain ⟨h1, rfl⟩ := ih _ hw
        have hk : keyVal key y = k := by simp [keyVal, hy]
        refine ⟨?_, by simp [hk]⟩
        intro x hx
        rcases List.mem_cons.1 hx with rfl | hx
        · rw [hk]; exact hy
        · exact h1 x hx

theorem pyInsert_perm (lt : V → V → Option Bool) (x : V × V) (ys : List (V × V)) :
    (∀ zs, pyInsert lt x ys = some zs → zs.Perm (x :: ys)) ∧ (pyInsert lt x ys = none → ∃ y ∈ ys, lt x.1 y.1 = none) := by
  induction ys with
  | nil => simp [pyInsert]
  | cons y ys ih =>
    rcases h : lt x.1 y.1 with _ | _ | _
    · refine ⟨by simp [pyInsert, h], fun _ => ⟨y, by simp, h⟩⟩
    · simp only [pyInsert, h]
      refine ⟨?_, ?_⟩
      · intro zs hz
        rw [Option.map_eq_some_iff] at hz
        obtain ⟨ws, hw, rfl⟩ := hz
        exact ((ih.1 ws hw).cons y).trans (List.Perm.swap _ _ _)
      · intro hz
        rw [Option.map_eq_none_iff] at hz
        obtain ⟨a, ha, hl⟩ := ih.2 hz
        exact ⟨a, by simp [ha], hl⟩
    · simp [pyInsert, h]

theorem pySort_perm (lt : V → V → Option Bool) (xs : List (V × V)) : ∀ acc : List (V × V),
    (∀ zs, pySort lt acc xs = some zs → zs.Perm (acc ++ xs)) ∧
    (pySort lt acc xs = none → ∃ a ∈ acc ++ xs, ∃ b ∈ acc ++ xs, lt a.1 b.1 = none) := by
  induction xs with
  | nil => intro acc; simp [pySort]
  | cons x xs ih =>
    intro acc
    have hi := pyInsert_perm lt x acc
    cases h : pyInsert lt x acc with
    | none =>
      obtain ⟨y, hy, hl⟩ := hi.2 h
      refine ⟨by simp [pySort, h], fun _ => ⟨x, by simp, y, by simp [hy], hl⟩⟩
    | some ys =>
      have hp := hi.1 ys h
      obtain ⟨i1, i2⟩ := ih ys
      have hp2 : (ys ++ xs).Perm (acc ++ x :: xs) :=
        (hp.append_right xs).trans ((List.perm_append_comm (l₁ := [x]) (l₂ := acc)).append_right xs |>.trans (by simp))
      simp only [pySort, h]
      refine ⟨fun zs hz => (i1 zs hz).trans hp2, fun hz => ?_⟩
      obtain ⟨a, ha, b, hb, hl⟩ := i2 hz
      exact ⟨a, hp2.mem_iff.1 ha, b, hp2.mem_iff.1 hb, hl⟩

theorem sort_does (w : World V) (key : Option FnRef) : Implements ⟨_, sortOp (keyOf w key) w.lt⟩ (Collects (Sorts w key)) := by
  refine collects_of _ some _ (fun s => by have := sort_feed' (keyOf w key) w.lt s []; rw [List.nil_append] at this; exact this) ?_
  intro xs k
  cases hw : withKeys (keyOf w key) xs with
  | error m =>
    obtain ⟨ys, x, zs, h1, h2, h3⟩ := withKeys_first _ _ _ hw
    refine ⟨_, some .kare, .failure ys zs x m h1 h2 h3, ?_⟩
    have e1 : (sortOp (keyOf w key) w.lt).flush (some xs) = ⟨some xs, [.err m], some .kare⟩ := by simp only [sortOp, hw]
    rw [List.replicate_succ, feed_cons, step_flush, e1]
    exact ⟨⟨0, rfl, rfl, rfl⟩, rfl⟩
  | ok kc =>
    obtain ⟨h1, rfl⟩ := withKeys_all _ _ _ hw
    obtain ⟨p1, p2⟩ := pySort_perm w.lt (xs.map fun x => (keyVal (keyOf w key) x, x)) []
    cases hs : pySort w.lt [] (xs.map fun x => (keyVal (keyOf w key) x, x)) with
    | none =>
      obtain ⟨a, ha, b, hb, hl⟩ := p2 hs
      simp only [List.nil_append, List.mem_map] at ha hb
      obtain ⟨x, hx, rfl⟩ := ha
      obtain ⟨y, hy, rfl⟩ := hb
      refine ⟨_, some .kill, .killed (keyVal (keyOf w key)) h1 ⟨x, hx, y, hy, hl⟩, ?_⟩
      have e1 : (sortOp (keyOf w key) w.lt).flush (some xs) = ⟨some xs, [], some .kill⟩ := by simp only [sortOp, hw, hs]
      rw [List.replicate_succ, feed_cons, step_flush, e1]
      exact ⟨⟨0, rfl, rfl, rfl⟩, rfl⟩
    | some zs =>
      have hp := p1 zs hs
      rw [List.nil_append] at hp
      have hmem : ∀ z ∈ zs, z.1 = keyVal (keyOf w key) z.2 := by
        intro z hz
        have := hp.mem_iff.1 hz
        simp only [List.mem_map] at this
        obtain ⟨a, _, rfl⟩ := this
        rfl
      have hperm : (zs.map (·.2)).Perm xs := by
        have := hp.map (·.2)
        simpa [Function.comp_def] using this
      refine ⟨_, none, .sorted (keyVal (keyOf w key)) (zs.map (·.2)) h1 hperm ?_, ?_⟩
      · intro le htr hlt
        have H : OrderedOn (fun c => ∃ x ∈ xs, keyVal (keyOf w key) x = c) w.lt le := by
          refine ⟨?_, ?_, htr⟩
          · rintro _ _ ⟨x, hx, rfl⟩ ⟨y, hy, rfl⟩
            rcases hlt x hx y hy with ⟨h, _, h'⟩ | ⟨h, h'⟩
            · exact .inl ⟨h, h'⟩
            · exact .inr ⟨h, h'⟩
          · rintro _ _ ⟨x, hx, rfl⟩ ⟨y, hy, rfl⟩
            rcases hlt x hx y hy with ⟨_, h, _⟩ | ⟨_, h⟩
            · exact .inl h
            · exact .inr h
        obtain ⟨zs', g1, g2, g3, g4⟩ := pySort_spec H (xs.map fun x => (keyVal (keyOf w key) x, x)) [] (by
          intro y hy
          simp only [List.nil_append, List.mem_map] at hy
          obtain ⟨x, hx, rfl⟩ := hy
          exact ⟨x, hx, rfl⟩) List.Pairwise.nil
        rw [hs] at g1
        cases g1
        refine ⟨?_, ?_⟩
        · rw [List.pairwise_map]
          refine g3.imp_of_mem ?_
          intro a b ha hb hab
          rw [← hmem a ha, ← hmem b hb]; exact hab
        · intro c inst
          have : DecidablePred fun a : V × V => le a.1 c ∧ le c a.1 := fun _ => Classical.propDecidable _
          have hc := g4 c
          have e1 : (zs.map (·.2)).filter (fun a => decide (le (keyVal (keyOf w key) a) c ∧ le c (keyVal (keyOf w key) a))) =
              (zs.filter (fun z => decide (le z.1 c ∧ le c z.1))).map (·.2) := by
            rw [List.filter_map]
            congr 1
            apply List.filter_congr
            intro z hz
            simp [hmem z hz]
          rw [e1, hc, List.nil_append, List.filter_map, List.map_map]
          simp only [Function.comp_def, List.map_id_fun', id]
          exact List.filter_congr fun _ _ => decide_eq_decide.2 Iff.rfl
      · have e1 : (sortOp (keyOf w key) w.lt).flush (some xs) = ⟨none, ofItems (zs.map (·.2)) ++ [.flush], none⟩ := by simp only [sortOp, hw, hs]
        rw [List.replicate_succ, feed_flush e1, flush_none rfl]
        refine ⟨⟨k + 1, ?_, by simp⟩, rfl⟩
        simp only [evs_items, List.replicate_succ]; simp

/-! ### tail, unique -/

theorem silent_feed (o : Op σ V V) (h : ∀ s x, (o.item s x).out = [] ∧ (o.item s x).exn = none) (es : List (Shown V)) : ∀ s,
    o.feed s (evs es) = ⟨(o.feed s (ofItems (itemsOf es))).st, evs (errorsOf es), none⟩ := by
  induction es with
  | nil => intro s; rfl
  | cons e es ih =>
    intro s
    cases e with
    | error m => rw [evs_error, feed_err, ih]; rfl
    | item x =>
      have e1 : o.item s x = ⟨(o.item s x).st, [], none⟩ := by
        have := h s x
        cases hr : o.item s x with
        | mk a b c => rw [hr] at this; simp at this; simp [this]
      rw [evs_item, feed_item e1 (.inl rfl), ih, itemsOf_item, ofItems_cons, feed_item e1 (.inl rfl), errorsOf_item]; rfl

theorem tailKeep_flushes (n : Nat) (e : Nat) (k : Nat) : ((tailKeep n : Op _ V V).feed ⟨[], e⟩ (List.replicate k .flush)).exn = none ∧
    ∃ j, ((tailKeep n : Op _ V V).feed ⟨[], e⟩ (List.replicate k .flush)).out = List.replicate j .flush := by
  induction k with
  | zero => exact ⟨rfl, 0, rfl⟩
  | succ k ih =>
    have e1 : (tailKeep n : Op _ V V).flush ⟨[], e⟩ = ⟨⟨[], e⟩, [.flush, .flush], none⟩ := by simp [tailKeep, tailLoop]
    rw [List.replicate_succ, feed_flush e1]
    obtain ⟨h1, j, h2⟩ := ih
    exact ⟨h1, j + 2, by rw [h2]; simp [List.replicate_succ]⟩

theorem tailKeep_does (n : Nat) (hn : 0 < n) :
    Implements ⟨_, (tailKeep n : Op _ V V)⟩ (Collects fun xs t => t = ⟨(xs.drop (xs.length - n)).map .item, .finished⟩) := by
  refine collects_of _ (fun xs => ((tailKeep n : Op _ V V).feed (tailKeep n : Op _ V V).init (ofItems xs)).st) _
    (fun s => silent_feed _ (by intro s x; simp only [tailKeep]; split <;> exact ⟨rfl, rfl⟩) s _) ?_
  intro xs k
  obtain ⟨h1, h2, h3⟩ := Marcel.tailKeep_feed n hn xs
  refine ⟨_, none, rfl, ?_⟩
  have e1 := tailKeep_flush n ((tailKeep n : Op _ V V).feed (tailKeep n : Op _ V V).init (ofItems xs)).st
  rw [h3.loop] at e1
  obtain ⟨g1, j, g2⟩ := tailKeep_flushes (V := V) n ((tailKeep n : Op _ V V).feed (tailKeep n : Op _ V V).init (ofItems xs)).st.end k
  simp only [List.replicate_succ]
  rw [feed_flush e1]
  refine ⟨⟨j + 2, ?_, by simp⟩, g1⟩
  simp only [g2, evs_items, List.replicate_succ]; simp

theorem unique_feed' (h : V → Bool) (s : List (Shown V)) (hs : ∀ x ∈ itemsOf s, h x = true) : ∀ seen,
    ((uniqueOp h).feed seen (evs s)).exn = none ∧ ((uniqueOp h).feed seen (evs s)).out = evs (newItems seen s) := by
  induction s with
  | nil => intro seen; simp [evs_nil, feed_nil, newItems]
  | cons e s ih =>
    intro seen
    cases e with
    | error m =>
      rw [evs_error, feed_err]; have := ih hs seen; simp [this, evs_error, newItems]
    | item x =>
      have hx : h x = true := hs x (by rw [itemsOf_item]; simp)
      have ih := ih (fun y hy => hs y (by rw [itemsOf_item]; simp [hy]))
      by_cases hm : x ∈ seen
      · rw [evs_item, feed_item (s' := seen) (out := []) (e := none) (by simp only [uniqueOp, hx, if_true]; rw [if_pos hm]) (.inl rfl), newItems, if_pos hm]
        simpa using ih seen
      · rw [evs_item, feed_item (s' := x :: seen) (out := [.item x]) (e := none) (by simp only [uniqueOp, hx, if_true]; rw [if_neg hm]) (.inl rfl), newItems, if_neg hm]
        simpa [evs_item] using ih (x :: seen)

theorem unhashable_split (h : V → Bool) (s : List (Shown V)) : (∀ x ∈ itemsOf s, h x = true) ∨
    ∃ a b x, s = a ++ .item x :: b ∧ (∀ y ∈ itemsOf a, h y = true) ∧ h x = false := by
  induction s with
  | nil => left; simp [itemsOf]
  | cons e s ih =>
    cases e with
    | error m =>
      rcases ih with ih | ⟨a, b, x, h1, h2, h3⟩
      · exact .inl ih
      · exact .inr ⟨.error m :: a, b, x, by simp [h1], by rw [itemsOf_error]; exact h2, h3⟩
    | item y =>
      cases hy : h y with
      | false => exact .inr ⟨[], s, y, rfl, by simp [itemsOf], hy⟩
      | true =>
        rcases ih with ih | ⟨a, b, x, h1, h2, h3⟩
        · left; intro z hz; rw [itemsOf_item] at hz
          rcases List.mem_cons.1 hz with rfl | hz
          · exact hy
          · exact ih z hz
        · refine .inr ⟨.item y :: a, b, x, by simp [h1], ?_, h3⟩
          intro z hz; rw [itemsOf_item] at hz
          rcases List.mem_cons.1 hz with rfl | hz
          · exact hy
          · exact h2 z hz

theorem unique_does (w : World V) : Implements ⟨_, uniqueOp w.hashable⟩ (Unifies w) := by
  intro s es x hc
  rcases unhashable_split w.hashable s.sent with h | ⟨a, b, y, h1, h2, h3⟩
  · obtain ⟨k, rfl, hk⟩ := hc
    have hu := unique_feed' w.hashable s.sent h []
    refine ⟨_, .all h, k, ?_, ?_⟩
    · simp only [obs]
      rw [feed_append, show (uniqueOp w.hashable).init = ([] : List V) from rfl, hu.1, flush_many _ (fun _ => rfl)]
      simp [hu.2]
    · simp only [obs]
      rw [feed_append, show (uniqueOp w.hashable).init = ([] : List V) from rfl, hu.1, flush_many _ (fun _ => rfl)]
      simpa using hk
  · obtain ⟨k, rfl, hk⟩ := hc
    have hu := unique_feed' w.hashable a h2 []
    have e1 : (uniqueOp w.hashable).obs (evs s.sent ++ List.replicate k .flush) = (evs (newItems [] a), some .kill) := by
      rw [h1, evs_append, List.append_assoc, evs_item]
      simp only [obs]
      rw [feed_append, show (uniqueOp w.hashable).init = ([] : List V) from rfl, hu.1]
      have e2 : ∀ s, (uniqueOp w.hashable).item s y = ⟨s, [], some .kill⟩ := by intro s; simp [uniqueOp, h3]
      simp only [List.cons_append]
      rw [feed_cons, step_item, e2]
      simp [catchKare, hu.2]
    refine ⟨_, .killed a b y h1 h2 h3, 0, ?_, ?_⟩
    · rw [e1]; simp
    · rw [e1]; simp

/-! ## Stages -/

theorem map_does (w : World V) (src : FnRef) (f : V → Except Msg V) (hf : ∀ x, f x = (w.fn src x).map w.wrap) :
    Implements ⟨_, mapOp f⟩ ((Stage.map src).Does w) := by
  refine passes_of _ _ (fun _ => rfl) fun s => ?_
  have := map_feed f (fun x => [applied w src x]) (by
    intro x
    rw [hf]
    unfold applied
    cases w.fn src x <;> rfl) s
  rw [show (mapOp f).init = () from rfl, this]
  exact ⟨rfl, rfl⟩

theorem select_does (w : World V) (src : FnRef) (f : V → Except Msg Bool) (hf : ∀ x, f x = (w.fn src x).map w.truth) :
    Implements ⟨_, selectOp f⟩ ((Stage.select src).Does w) := by
  refine passes_of _ _ (fun _ => rfl) fun s => ?_
  have := select_feed f (chosen w src) (by
    intro x
    rw [hf]
    unfold chosen
    cases h : w.fn src x with
    | error m => rfl
    | ok y => cases hy : w.truth y <;> simp [Except.map, hy]) s
  rw [show (selectOp f).init = () from rfl, this]
  exact ⟨rfl, rfl⟩

theorem head_does (w : World V) (n : Num) (k : Int) (h : n.eval w = some k) (hk : k ≠ 0) :
    ∃ o : Op Nat V V, headOp k = .ok o ∧ (∀ s x, (o.item s x).exn = none) ∧ Implements ⟨_, o⟩ ((Stage.head n).Does w) := by
  rcases Int.lt_or_gt_of_ne hk with hk | hk
  · refine ⟨headSkip (-k).toNat, by simp [headOp, show ¬ k > 0 by omega, show k ≠ 0 by omega], ?_, ?_⟩
    · intro s x; simp only [headSkip]; split <;> rfl
    · intro s es x hc
      obtain ⟨t, h1, h2⟩ := passes_of (headSkip (-k).toNat : Op _ V V) (afterItems (-k).toNat) (fun _ => rfl)
        (fun s => by have := headSkip_feed (-k).toNat s 0; rw [Nat.sub_zero] at this; exact this) s es x hc
      exact ⟨t, ⟨k, h, .inr ⟨hk, h1⟩⟩, h2⟩
  · refine ⟨headKeep k.toNat, by simp [headOp, hk, show k ≠ 0 by omega], ?_, ?_⟩
    · intro s x; simp only [headKeep]; split <;> rfl
    · intro s es x hc
      obtain ⟨t, h1, h2⟩ := passes_of (headKeep k.toNat : Op _ V V) (firstItems k.toNat) (fun _ => rfl)
        (fun s => by have := headKeep_feed k.toNat s 0; rw [Nat.sub_zero] at this; exact this) s es x hc
      exact ⟨t, ⟨k, h, .inl ⟨by omega, h1⟩⟩, h2⟩

theorem tail_does (w : World V) (n : Num) (k : Int) (h : n.eval w = some k) (hk : k ≠ 0) :
    ∃ o : Op (TailSt V) V V, tailOp k = .ok o ∧ (∀ s x, (o.item s x).exn = none) ∧ Implements ⟨_, o⟩ ((Stage.tail n).Does w) := by
  rcases Int.lt_or_gt_of_ne hk with hk | hk
  · refine ⟨tailSkip (-k).toNat, by simp [tailOp, show ¬ k > 0 by omega, show k ≠ 0 by omega], ?_, ?_⟩
    · intro s x; simp only [tailSkip]; split <;> rfl
    · intro s es x hc
      obtain ⟨t, h1, h2⟩ := passes_of (tailSkip (-k).toNat : Op _ V V) (delayed (-k).toNat []) (fun _ => rfl)
        (fun s => by have := tailSkip_feed (-k).toNat s [] ⟨[], 0⟩ (TailInv.init (by omega)); rw [List.drop_nil] at this; exact this) s es x hc
      exact ⟨t, ⟨k, h, .inr ⟨hk, h1⟩⟩, h2⟩
  · refine ⟨tailKeep k.toNat, by simp [tailOp, hk, show k ≠ 0 by omega], ?_, ?_⟩
    · intro s x; simp only [tailKeep]; split <;> rfl
    · intro s es x hc
      obtain ⟨t, h1, h2⟩ := tailKeep_does k.toNat (by omega) s es x hc
      exact ⟨t, ⟨k, h, .inl ⟨by omega, h1⟩⟩, h2⟩

theorem consecutive_does (w : World V) : Implements ⟨_, (uniqueConsecutiveOp : Op _ V V)⟩ ((Stage.unique true).Does w) :=
  passes_of _ _ (fun _ => rfl) fun s => consecutive_feed s none

/-! ## Pipelines -/

/-- Operators for stages. -/
inductive AllImplement (w : World V) : List Stage → List (AnyOp V) → Prop
  | nil : AllImplement w [] []
  | cons (st : Stage) (sts : List Stage) (o : AnyOp V) (os : List (AnyOp V)) : Implements o (st.Does w) → AllImplement w sts os → AllImplement w (st :: sts) (o :: os)

theorem chain_runs (w : World V) (sts : List Stage) (os : List (AnyOp V)) (h : AllImplement w sts os) : ∀ s es x, Carries s es x →
    ∃ t, Runs w sts s t ∧ Carries t ((chain os).2.obs es).1 (((chain os).2.obs es).2 <|> x) := by
  induction h with
  | nil => intro s es x hc; refine ⟨s, .nil s, ?_⟩; simp only [chain, obs_pass]; simpa using hc
  | cons st sts o os ho _ ih =>
    intro s es x hc
    obtain ⟨t, h1, h2⟩ := ho s es x hc
    obtain ⟨u, h3, h4⟩ := ih t _ _ h2
    refine ⟨u, .cons st sts s t u h1 h3, ?_⟩
    simp only [chain, C01_obs, staged]
    revert h4
    cases ((chain os).2.obs (o.2.obs es).1).2 <;> simp

theorem Passes.how {f : List (Shown V) → List (Shown V)} {s t : Stream V} (h : Passes f s t) : t.how = s.how := by rw [h]

theorem Collects.how {f : List V → Stream V → Prop} {s t : Stream V} (hf : ∀ xs u, f xs u → u.how = .finished ∨ ∃ e, u.how = .stopped e) (h : Collects f s t) :
    t.how = s.how ∨ ∃ e, t.how = .stopped e := by
  unfold Collects at h
  by_cases hd : s.how = .finished
  · rw [if_pos hd] at h
    obtain ⟨u, h1, rfl⟩ := h
    rw [hd]
    exact hf (itemsOf s.sent) u h1
  · rw [if_neg hd] at h
    subst h
    exact .inl rfl

theorem Sorts.how {w : World V} {key : Option FnRef} {xs : List V} {t : Stream V} (h : Sorts w key xs t) : t.how = .finished ∨ ∃ e, t.how = .stopped e := by
  cases h with
  | failure => exact .inr ⟨_, rfl⟩
  | sorted => exact .inl rfl
  | killed => exact .inr ⟨_, rfl⟩

theorem Ends.how {inp out : Stream V} {s t : List (Shown V)} (h : Ends inp out s t) : out.how = inp.how := by
  rw [h]
  split
  · rename_i h; rw [h]
  · rfl

theorem does_how (w : World V) (st : Stage) (s t : Stream V) (h : st.Does w s t) : t.how = s.how ∨ ∃ e, t.how = .stopped e := by
  cases st with
  | gen c s => exact h.elim
  | map src => exact .inl (Passes.how h)
  | select src => exact .inl (Passes.how h)
  | head n =>
    obtain ⟨k, _, ⟨_, h⟩ | ⟨_, h⟩⟩ := h
    · exact .inl (Passes.how h)
    · exact .inl (Passes.how h)
  | tail n =>
    obtain ⟨k, _, ⟨_, h⟩ | ⟨_, h⟩⟩ := h
    · refine Collects.how ?_ h; rintro xs t rfl; exact .inl rfl
    · exact .inl (Passes.how h)
  | reverse => unfold Stage.Does at h; refine Collects.how ?_ h; rintro xs t rfl; exact .inl rfl
  | sort key => unfold Stage.Does at h; exact Collects.how (fun _ _ => Sorts.how) h
  | unique b =>
    cases b with
    | true => unfold Stage.Does at h; exact .inl (Passes.how h)
    | false =>
      unfold Stage.Does at h
      cases h with
      | all h => exact .inl rfl
      | killed => exact .inr ⟨_, rfl⟩
  | windowBy f => obtain ⟨_, _, _, h⟩ := h; exact .inl h.how
  | disjoint n => obtain ⟨_, _, _, _, _, h⟩ := h; exact .inl h.how
  | squish f => exact .inl (Passes.how h)
  | expand n =>
    obtain ⟨_, _, e, _, _, rfl⟩ := h
    cases e with
    | none => exact .inl rfl
    | some e => exact .inr ⟨e, rfl⟩
  | red i fs => obtain ⟨_, _, _, h⟩ := h; exact .inl h.how

theorem runs_how (w : World V) (sts : List Stage) (s t : Stream V) (h : Runs w sts s t) : t.how = s.how ∨ ∃ e, t.how = .stopped e := by
  induction h with
  | nil s => exact .inl rfl
  | cons st sts s t u h1 h2 ih =>
    rcases ih with ih | ih
    · rw [ih]; exact does_how w st s t h1
    · exact .inr ih

theorem Carries.shown {t : Stream V} {es : List (Ev V)} {x : Option Exn} (h : Carries t es x) : Exec.shown es = t.sent := by
  obtain ⟨k, rfl, _⟩ := h
  rw [shown_append, shown_evs, shown_flushes, List.append_nil]

theorem Carries.ending {t : Stream V} {es : List (Ev V)} {x : Option Exn} (h : Carries t es x) (hr : t.how ≠ .running) : Exec.ending x = t.how := by
  obtain ⟨k, rfl, hk⟩ := h
  cases ht : t.how with
  | finished => rw [ht] at hk; rw [hk.2]; rfl
  | running => exact absurd ht hr
  | stopped e => rw [ht] at hk; rw [hk.2]; rfl

theorem Carries.running {t : Stream V} {es : List (Ev V)} {x : Option Exn} (h : Carries t es x) (hr : t.how ≠ .finished) :
    (if x = none then End.running else Exec.ending x) = t.how := by
  obtain ⟨k, rfl, hk⟩ := h
  cases ht : t.how with
  | finished => exact absurd ht hr
  | running => rw [ht] at hk; rw [hk.2]; rfl
  | stopped e => rw [ht] at hk; rw [hk.2]; rfl

/-! ## Starting -/

theorem genLoop_some (k : Nat) : ∀ (x : Int) (c : Int), genLoop none (some (x + c)) k x =
    ((List.range (min k c.toNat)).map fun i : Nat => GenOut.num (x + i), decide (c ≤ k)) := by
  induction k with
  | zero => intro x c; simp [genLoop]; omega
  | succ k ih =>
    intro x c
    simp only [genLoop]
    by_cases h : c ≤ 0
    · rw [if_pos (by omega), show min (k + 1) c.toNat = 0 by omega]
      simp; omega
    · rw [if_neg (by omega), show x + c = (x + 1) + (c - 1) by omega, ih, show min (k + 1) c.toNat = min k (c - 1).toNat + 1 by omega, List.range_succ_eq_map]
      simp only [List.map_cons, List.map_map]
      refine Prod.ext ?_ (by simp; omega)
      simp only [genFormat]
      congr 1
      · simp
      · refine List.map_congr_left fun i _ => ?_
        simp only [Function.comp, Nat.succ_eq_add_one]
        congr 1; omega

theorem genLoop_none (k : Nat) : ∀ (x : Int), genLoop none none k x = ((List.range k).map fun i : Nat => GenOut.num (x + i), false) := by
  induction k with
  | zero => intro x; simp [genLoop]
  | succ k ih =>
    intro x
    simp only [genLoop, ih, List.range_succ_eq_map, List.map_cons, List.map_map]
    refine Prod.ext ?_ rfl
    simp only [genFormat]
    congr 1
    · simp
    · refine List.map_congr_left fun i _ => ?_
      simp only [Function.comp, Nat.succ_eq_add_one]
      congr 1; omega

/-- What an operator that is first does, and what follows does. -/
theorem run_first (w : World V) (steps : Nat) (o : AnyOp V) (rs : List (Ready V)) (es : List (Ev V)) (x : Option Exn)
    (h : (∃ e, (o.2.item o.2.init w.empty).exn = some e ∧ es = (o.2.item o.2.init w.empty).out ∧ x = some e) ∨
      ((o.2.item o.2.init w.empty).exn = none ∧ es = (o.2.item o.2.init w.empty).out ++ (o.2.flush (o.2.item o.2.init w.empty).st).out ∧
        x = (o.2.flush (o.2.item o.2.init w.empty).st).exn)) :
    runReady w steps (.stage false o :: rs) =
      ⟨((chain (stages rs)).2.obs es).1, ending (((chain (stages rs)).2.obs es).2 <|> x)⟩ := by
  simp only [runReady, chain, comp, obs]
  rcases h with ⟨e, h1, rfl, rfl⟩ | ⟨h1, rfl, rfl⟩
  · rw [h1]
    cases hq : ((chain (stages rs)).2.feed (chain (stages rs)).2.init (o.2.item o.2.init w.empty).out).exn <;> simp [ending]
  · rw [h1, feed_append]
    cases hq : ((chain (stages rs)).2.feed (chain (stages rs)).2.init (o.2.item o.2.init w.empty).out).exn with
    | none => simp
    | some e => simp [ending, hq]

end Marcel.Exec
