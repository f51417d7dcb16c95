import Verif.Lemmas.Exec
import Verif.Lemmas.Dict

/-! # Lemmas for C72: window, squish, expand, red on streams with errors -/

namespace Marcel.Exec

open Op

set_option linter.unusedSectionVars false

variable {V : Type} [DecidableEq V] {σ : Type}

/-- An operator that sends something for what it receives, and something at the end. -/
theorem ends_of (o : Op σ V V) (P : List (Shown V) → List (Shown V) → List (Shown V) → Prop)
    (h : ∀ s, ∃ t g st st', o.feed o.init (evs s) = ⟨st, evs t, none⟩ ∧ o.flush st = ⟨st', evs g ++ [.flush], none⟩ ∧ o.flush st' = ⟨st', [.flush], none⟩ ∧ P s t g) :
    Implements ⟨σ, o⟩ (fun inp out => ∃ t g, P inp.sent t g ∧ Ends inp out t g) := by
  intro s es x ⟨k, he, hk⟩
  subst he
  obtain ⟨t, g, st, st', h1, h2, h3, h4⟩ := h s.sent
  have hmany : ∀ k, o.feed st' (List.replicate k .flush) = ⟨st', List.replicate k .flush, none⟩ := by
    intro k
    induction k with
    | zero => rfl
    | succ k ih => rw [List.replicate_succ, feed_flush h3, ih]; rfl
  refine ⟨if s.how = .finished then ⟨t ++ g, .finished⟩ else ⟨t, s.how⟩, ⟨t, g, h4, rfl⟩, ?_⟩
  simp only [obs, feed_append, h1, Option.isSome_none, Bool.false_eq_true, if_false]
  by_cases hd : s.how = .finished
  · rw [hd] at hk
    obtain ⟨hk, rfl⟩ := hk
    obtain ⟨k, rfl⟩ : ∃ j, k = j + 1 := ⟨k - 1, by omega⟩
    rw [if_pos hd, List.replicate_succ, feed_flush h2, hmany]
    refine ⟨k + 1, ?_, by simp⟩
    simp only [evs_append, List.replicate_succ]; simp
  · rw [if_neg hd]
    have h0 : k = 0 := by
      cases hx : s.how with
      | finished => exact absurd hx hd
      | running => rw [hx] at hk; exact hk.1
      | stopped e => rw [hx] at hk; exact hk.1
    subst h0
    refine ⟨0, by simp [feed_nil], ?_⟩
    simpa [feed_nil] using hk

theorem unwrapOut_single (w : World V) (x : V) : unwrapOut w x = single w x := rfl

/-! ## window -/

theorem windowBy_feed (w : World V) (f : FnRef) (p : V → Except Msg Bool) (hp : ∀ x, p x = (w.fn f x).map w.truth) (s : List (Shown V)) : ∀ cur,
    ∃ t last, (viaOp id w.seq (predWindowOp (unwrapOut w) p)).feed cur (evs s) = ⟨last, evs t, none⟩ ∧ Cuts w f cur s t last := by
  induction s with
  | nil => intro cur; exact ⟨[], cur, rfl, .nil cur⟩
  | cons e s ih =>
    intro cur
    cases e with
    | error m =>
      obtain ⟨t, last, h1, h2⟩ := ih cur
      exact ⟨.error m :: t, last, by rw [evs_error, feed_err, h1]; rfl, .error _ _ _ _ _ h2⟩
    | item x =>
      cases hf : w.fn f x with
      | error m =>
        obtain ⟨t, last, h1, h2⟩ := ih cur
        have e1 : (viaOp id w.seq (predWindowOp (unwrapOut w) p)).item cur x = ⟨cur, [.err m], some .kare⟩ := by
          simp [viaOp, predWindowOp, hp, hf, Except.map, fatal, evMap]
        exact ⟨.error m :: t, last, by rw [evs_item, feed_item e1 (.inr rfl), h1]; rfl, .fails _ _ _ _ _ _ hf h2⟩
      | ok y =>
        rcases Bool.eq_false_or_eq_true (w.truth y) with hy | hy
        · obtain ⟨t, last, h1, h2⟩ := ih [single w x]
          cases cur with
          | nil =>
            have e1 : (viaOp id w.seq (predWindowOp (unwrapOut w) p)).item [] x = ⟨[single w x], [], none⟩ := by
              simp [viaOp, predWindowOp, hp, hf, Except.map, hy, unwrapOut_single]
            exact ⟨t, last, by rw [evs_item, feed_item e1 (.inl rfl), h1]; rfl, .first _ _ _ _ _ hf hy h2⟩
          | cons c cur =>
            have e1 : (viaOp id w.seq (predWindowOp (unwrapOut w) p)).item (c :: cur) x = ⟨[single w x], [.item (w.seq (c :: cur))], none⟩ := by
              simp [viaOp, predWindowOp, hp, hf, Except.map, hy, unwrapOut_single, evMap]
            exact ⟨.item (w.seq (c :: cur)) :: t, last, by rw [evs_item, feed_item e1 (.inl rfl), h1]; rfl, .cut _ _ _ _ _ _ _ hf hy h2⟩
        · obtain ⟨t, last, h1, h2⟩ := ih (cur ++ [single w x])
          have e1 : (viaOp id w.seq (predWindowOp (unwrapOut w) p)).item cur x = ⟨cur ++ [single w x], [], none⟩ := by
            simp [viaOp, predWindowOp, hp, hf, Except.map, hy, unwrapOut_single]
          exact ⟨t, last, by rw [evs_item, feed_item e1 (.inl rfl), h1]; rfl, .stays _ _ _ _ _ _ hf hy h2⟩

theorem windowBy_does (w : World V) (f : FnRef) (p : V → Except Msg Bool) (hp : ∀ x, p x = (w.fn f x).map w.truth) :
    Implements ⟨_, viaOp id w.seq (predWindowOp (unwrapOut w) p)⟩ ((Stage.windowBy f).Does w) := by
  intro s es x hc
  obtain ⟨out, ⟨t, g, ⟨last, h1, h2⟩, h3⟩, h4⟩ := ends_of (viaOp id w.seq (predWindowOp (unwrapOut w) p))
    (fun s t g => ∃ last, Cuts w f [] s t last ∧ g = if last = [] then [] else [.item (w.seq last)]) (by
      intro s
      obtain ⟨t, last, h1, h2⟩ := windowBy_feed w f p hp s []
      refine ⟨t, _, last, [], h1, ?_, rfl, last, h2, rfl⟩
      cases last with
      | nil => rfl
      | cons c cs => rfl) s es x hc
  subst h2
  exact ⟨out, ⟨t, last, h1, h3⟩, h4⟩

def padded (w : World V) (l : List (Option V)) : V := w.seq (l.map (·.getD w.none0))

theorem disjoint_feed (w : World V) (n : Int) (_hn : 0 ≤ n) (s : List (Shown V)) : ∀ cur : List V,
    ∃ t last, (viaOp id (padded w) (disjointWindowOp (unwrapOut w) n.toNat)).feed (cur.map some) (evs s) = ⟨last.map some, evs t, none⟩ ∧ Fills w n cur s t last := by
  induction s with
  | nil => intro cur; exact ⟨[], cur, rfl, .nil cur⟩
  | cons e s ih =>
    intro cur
    cases e with
    | error m =>
      obtain ⟨t, last, h1, h2⟩ := ih cur
      exact ⟨.error m :: t, last, by rw [evs_error, feed_err, h1]; rfl, .error _ _ _ _ _ h2⟩
    | item x =>
      by_cases hl : (cur.length + 1 : Int) = n
      · obtain ⟨t, last, h1, h2⟩ := ih []
        have e1 : (viaOp id (padded w) (disjointWindowOp (unwrapOut w) n.toNat)).item (cur.map some) x = ⟨[], [.item (w.seq (cur ++ [single w x]))], none⟩ := by
          have : cur.length + 1 = n.toNat := by omega
          simp only [viaOp, disjointWindowOp, id, List.length_append, List.length_map, List.length_singleton, this, if_true, List.map_cons, List.map_nil, evMap, padded, unwrapOut_single, List.map_append, List.map_map]
          congr 4
          simp [Function.comp_def]
        exact ⟨.item (w.seq (cur ++ [single w x])) :: t, last, by rw [evs_item, feed_item e1 (.inl rfl)]; rw [List.map_nil] at h1; rw [h1]; rfl, .full _ _ _ _ _ hl h2⟩
      · obtain ⟨t, last, h1, h2⟩ := ih (cur ++ [single w x])
        have e1 : (viaOp id (padded w) (disjointWindowOp (unwrapOut w) n.toNat)).item (cur.map some) x = ⟨(cur ++ [single w x]).map some, [], none⟩ := by
          have : cur.length + 1 ≠ n.toNat := by omega
          simp only [viaOp, disjointWindowOp, id, List.length_append, List.length_map, List.length_singleton, this, if_false, unwrapOut_single, List.map_append, List.map_cons, List.map_nil]
        exact ⟨t, last, by rw [evs_item, feed_item e1 (.inl rfl), h1]; rfl, .grows _ _ _ _ _ hl h2⟩

theorem disjoint_does (w : World V) (n : Num) (k : Int) (hk : n.eval w = some k) (h0 : 0 ≤ k) :
    Implements ⟨_, viaOp id (padded w) (disjointWindowOp (unwrapOut w) k.toNat)⟩ ((Stage.disjoint n).Does w) := by
  intro s es x hc
  obtain ⟨out, ⟨t, g, ⟨last, h1, h2⟩, h3⟩, h4⟩ := ends_of (viaOp id (padded w) (disjointWindowOp (unwrapOut w) k.toNat))
    (fun s t g => ∃ last, Fills w k [] s t last ∧ g = if last = [] then [] else [.item (w.seq (last ++ List.replicate (k.toNat - last.length) w.none0))]) (by
      intro s
      obtain ⟨t, last, h1, h2⟩ := disjoint_feed w k h0 s []
      refine ⟨t, _, last.map some, [], h1, ?_, rfl, last, h2, rfl⟩
      cases last with
      | nil => rfl
      | cons c cs =>
        have e1 : (disjointWindowOp (unwrapOut w) k.toNat).flush (some c :: cs.map some) = ⟨[], [.item (padTo k.toNat (some c :: cs.map some)), .flush], none⟩ := rfl
        simp only [viaOp, List.map_cons, List.map_nil, evMap, e1]
        rw [if_neg (by simp)]
        have e2 : padded w (padTo k.toNat ((c :: cs).map some)) = w.seq ((c :: cs) ++ List.replicate (k.toNat - (c :: cs).length) w.none0) := by
          simp [padded, padTo, Function.comp_def]
        rw [List.map_cons] at e2
        rw [e2]; rfl) s es x hc
  subst h2
  exact ⟨out, ⟨k, t, last, hk, h1, h3⟩, h4⟩

/-! ## squish -/

theorem squish_feed (w : World V) (f : FnRef) (s : List (Shown V)) :
    (squishXOp w f).feed () (evs s) = ⟨(), evs (s.flatMap (forItem fun x => [combined w f x])), none⟩ := by
  induction s with
  | nil => rfl
  | cons e s ih =>
    cases e with
    | error m => rw [evs_error, feed_err, ih]; rfl
    | item x =>
      cases h : (w.elems x).foldlM (w.fn2 f) w.none0 with
      | ok y =>
        rw [evs_item, feed_item (s' := ()) (out := [.item (w.wrap y)]) (e := none) (by simp [squishXOp, h]) (.inl rfl), ih, List.flatMap_cons, forItem, combined, h]; rfl
      | error m =>
        rw [evs_item, feed_item (s' := ()) (out := [.err m]) (e := some .kare) (by simp [squishXOp, h, fatal]) (.inr rfl), ih, List.flatMap_cons, forItem, combined, h]; rfl

theorem squish_does (w : World V) (f : Option FnRef) : Implements ⟨_, squishXOp w (f.getD (.named ['+']))⟩ ((Stage.squish f).Does w) := by
  refine passes_of _ _ (fun _ => rfl) fun s => ?_
  rw [show (squishXOp w (f.getD (.named ['+']))).init = () from rfl, squish_feed]
  exact ⟨rfl, rfl⟩

/-! ## expand -/

theorem expandV_contents (w : World V) (xs : List V) : expandV w xs = contents w xs := by
  match xs with
  | [] => rfl
  | [y] =>
    simp only [expandV, contents]
    cases w.elements y <;> rfl
  | y :: z :: r => rfl

/-- One item. -/
theorem expand_item (w : World V) (p : Option Int) (x : V) :
    (∃ ys, (expandXOp w p).item () x = ⟨(), ofItems ys, none⟩ ∧ Expanded w x p (some ys)) ∨
    ((expandXOp w p).item () x = ⟨(), [], some .crash⟩ ∧ Expanded w x p none) := by
  cases p with
  | none => exact .inl ⟨_, rfl, by rw [expandV_contents]; exact .whole⟩
  | some p =>
    by_cases h1 : p ≥ (w.elems x).length
    · exact .inl ⟨[x], by simp only [expandXOp]; rw [if_pos h1]; rfl, .beyond p h1⟩
    · by_cases h2 : p < 0
      · exact .inr ⟨by simp only [expandXOp]; rw [if_neg h1, if_pos h2], .negative p h2⟩
      · have hlt : p.toNat < (w.elems x).length := by omega
        have hg : (w.elems x)[p.toNat]? = some (w.elems x)[p.toNat] := List.getElem?_eq_getElem hlt
        refine .inl ⟨_, by simp only [expandXOp]; rw [if_neg h1, if_neg h2, hg], ?_⟩
        have hs : w.elems x = (w.elems x).take p.toNat ++ (w.elems x)[p.toNat] :: (w.elems x).drop (p.toNat + 1) := by
          rw [List.getElem_cons_drop, List.take_append_drop]
        have := Expanded.inside (w := w) (x := x) _ _ _ hs
        rw [show (((w.elems x).take p.toNat).length : Int) = p by rw [List.length_take]; omega] at this
        rw [expandV_contents]
        simpa using this

theorem expand_feed (w : World V) (p : Option Int) (s : List (Shown V)) :
    ∃ t e, (expandXOp w p).feed () (evs s) = ⟨(), evs t, e⟩ ∧ Expands w p s t e := by
  induction s with
  | nil => exact ⟨[], none, rfl, .nil⟩
  | cons e s ih =>
    obtain ⟨t, e', h1, h2⟩ := ih
    cases e with
    | error m => exact ⟨.error m :: t, e', by rw [evs_error, feed_err, h1]; rfl, .error _ _ _ _ h2⟩
    | item x =>
      rcases expand_item w p x with ⟨ys, h3, h4⟩ | ⟨h3, h4⟩
      · exact ⟨ys.map .item ++ t, e', by rw [evs_item, feed_item h3 (.inl rfl), h1, evs_append, evs_items], .item _ _ _ _ _ h4 h2⟩
      · exact ⟨[], some .crash, by rw [evs_item, feed_cons, step_item, h3]; simp [catchKare, evs_nil], .crash _ _ h4⟩

theorem expand_does (w : World V) (n : Option Num) (p : Option Int) (hp : match n with | none => p = none | some n => ∃ k, n.eval w = some k ∧ p = some k) :
    Implements ⟨_, expandXOp w p⟩ ((Stage.expand n).Does w) := by
  intro s es x ⟨k, he, hk⟩
  subst he
  obtain ⟨t, e, h1, h2⟩ := expand_feed w p s.sent
  cases e with
  | none =>
    refine ⟨⟨t, s.how⟩, ⟨p, t, none, hp, h2, rfl⟩, k, ?_, ?_⟩
    · simp only [obs]
      rw [feed_append, show (expandXOp w p).init = () from rfl, h1, flush_many _ (fun _ => rfl)]; rfl
    · simp only [obs]
      rw [feed_append, show (expandXOp w p).init = () from rfl, h1, flush_many _ (fun _ => rfl)]
      simpa using hk
  | some e =>
    refine ⟨⟨t, .stopped e⟩, ⟨p, t, some e, hp, h2, rfl⟩, 0, ?_, ?_⟩
    · simp only [obs]
      rw [feed_append, show (expandXOp w p).init = () from rfl, h1]; simp
    · simp only [obs]
      rw [feed_append, show (expandXOp w p).init = () from rfl, h1]; simp

/-! ## red -/

theorem redFn_dot (w : World V) : redFn w dot = .group := by simp [redFn, dot]

theorem redFn_fn (w : World V) (f : FnRef) (h : f ≠ dot) : redFn w f = .fn (f = count) (w.fn2 f) := by
  unfold redFn
  have h : ¬ f = FnRef.named ['.'] := h
  rw [if_neg h]; rfl

theorem redLoop_reduced (w : World V) (fs : List FnRef) : ∀ acc xs : List V, acc.length = fs.length → fs.length ≤ xs.length →
    Reduced w fs acc xs (redLoop (fs.map (redFn w)) acc xs).1 (redLoop (fs.map (redFn w)) acc xs).2 ∧ (redLoop (fs.map (redFn w)) acc xs).1.length = fs.length := by
  induction fs with
  | nil => intro acc xs h1 _; exact ⟨.done acc xs, h1⟩
  | cons f fs ih =>
    intro acc xs h1 h2
    match acc, xs with
    | [], _ => simp at h1
    | _ :: _, [] => simp at h2
    | a :: acc, x :: xs =>
      simp only [List.length_cons] at h1 h2
      obtain ⟨h3, h4⟩ := ih acc xs (by omega) (by omega)
      rw [List.map_cons]
      by_cases hd : f = dot
      · subst hd
        rw [redFn_dot]
        simp only [redLoop]
        exact ⟨.group _ _ _ _ _ _ _ h3, by simp [h4]⟩
      · rw [redFn_fn w f hd]
        simp only [redLoop]
        cases hf : w.fn2 f a x with
        | error m => exact ⟨.failure _ _ _ _ _ _ _ hd hf, by simp; omega⟩
        | ok a' => exact ⟨.ok _ _ _ _ _ _ _ _ _ hd hf h3, by simp [h4]⟩

theorem groupOf_kept (w : World V) (fs : List FnRef) : ∀ xs : List V, groupOf (fs.map (redFn w)) xs = keptAt fs xs := by
  induction fs with
  | nil => intro xs; cases xs <;> rfl
  | cons f fs ih =>
    intro xs
    cases xs with
    | nil => rw [List.map_cons]; cases redFn w f <;> rfl
    | cons x xs =>
      rw [List.map_cons]
      have e : keptAt (f :: fs) (x :: xs) = if f = dot then x :: keptAt fs xs else keptAt fs xs := by
        by_cases hd : f = dot <;> simp [keptAt, hd]
      rw [e]
      by_cases hd : f = dot
      · rw [if_pos hd, hd, redFn_dot, groupOf, ih]
      · rw [if_neg hd, redFn_fn w f hd, groupOf, ih]

theorem dataOf_data (w : World V) (fs : List FnRef) : ∀ xs : List V, dataOf (fs.map (redFn w)) xs = dataAt fs xs := by
  induction fs with
  | nil => intro xs; cases xs <;> rfl
  | cons f fs ih =>
    intro xs
    cases xs with
    | nil => rw [List.map_cons]; cases redFn w f <;> rfl
    | cons x xs =>
      rw [List.map_cons]
      have e : dataAt (f :: fs) (x :: xs) = if f = dot then dataAt fs xs else x :: dataAt fs xs := by
        by_cases hd : f = dot <;> simp [dataAt, hd]
      rw [e]
      by_cases hd : f = dot
      · rw [if_pos hd, hd, redFn_dot, dataOf, ih]
      · rw [if_neg hd, redFn_fn w f hd, dataOf, ih]

theorem keptAt_none (fs : List FnRef) (h : dot ∉ fs) (xs : List V) : keptAt fs xs = [] := by
  unfold keptAt
  rw [List.filter_eq_nil_iff.mpr, List.map_nil]
  intro p hp hd
  have hd : p.1 = dot := by simpa using hd
  exact h (hd ▸ (List.of_mem_zip (a := p.1) (b := p.2) hp).1)

theorem dataAt_all (fs : List FnRef) (h : dot ∉ fs) : ∀ xs : List V, xs.length = fs.length → dataAt fs xs = xs := by
  induction fs with
  | nil => intro xs hl; cases xs with
    | nil => rfl
    | cons x xs => simp at hl
  | cons f fs ih =>
    intro xs hl
    cases xs with
    | nil => simp at hl
    | cons x xs =>
      have hf : f ≠ dot := fun e => h (by simp [e])
      have := ih (fun hm => h (List.mem_cons_of_mem _ hm)) xs (by simpa using hl)
      have e : dataAt (f :: fs) (x :: xs) = x :: dataAt fs xs := by simp [dataAt, hf]
      rw [e, this]

theorem isGrouping_iff (w : World V) (fs : List FnRef) : redIsGrouping (fs.map (redFn w)) = true ↔ dot ∈ fs := by
  induction fs with
  | nil => simp [redIsGrouping]
  | cons f fs ih =>
    have e : redIsGrouping ((f :: fs).map (redFn w)) = ((match redFn w f with | .group => true | .fn _ _ => false) || redIsGrouping (fs.map (redFn w))) := rfl
    rw [e, Bool.or_eq_true, ih, List.mem_cons]
    by_cases hd : f = dot
    · subst hd; rw [redFn_dot]; simp
    · rw [redFn_fn w f hd]; simp [Ne.symm hd]

/-- The accumulators of a group, and changing them. -/
theorem get_accOf (w : World V) (fs : List FnRef) (g : List V) (d : Dict (List V) (List V)) :
    (Dict.get? d g).getD (List.replicate fs.length w.none0) = accOf w fs g d := by
  have h0 : List.replicate fs.length w.none0 = fs.map fun _ => w.none0 := by rw [List.map_const']
  rw [h0]
  unfold accOf
  induction d with
  | nil => rfl
  | cons p d ih =>
    obtain ⟨k, v⟩ := p
    rw [Dict.get?_cons, List.find?_cons]
    by_cases hk : k = g
    · simp [hk]
    · simp only [if_neg hk, decide_eq_false hk]; exact ih

theorem map_same (g acc : List V) (d : List (List V × List V)) (h : g ∉ d.map (·.1)) : (d.map fun p => if p.1 = g then (g, acc) else p) = d := by
  induction d with
  | nil => rfl
  | cons p d ih =>
    simp only [List.map_cons, List.mem_cons, not_or] at h
    rw [List.map_cons, if_neg (Ne.symm h.1), ih h.2]

theorem set_withAcc (g acc : List V) (d : Dict (List V) (List V)) (h : (Dict.keys d).Nodup) : Dict.set d g acc = withAcc g acc d := by
  unfold withAcc
  induction d with
  | nil => rfl
  | cons p d ih =>
    obtain ⟨k, v⟩ := p
    have h' := List.nodup_cons.mp h
    have ih := ih h'.2
    simp only [Dict.set, List.map_cons, List.mem_cons]
    by_cases hk : k = g
    · subst hk
      rw [if_pos (Or.inl rfl)]
      simp only [if_true]
      rw [map_same _ _ _ h'.1]
    · by_cases hm : g ∈ d.map (·.1)
      · rw [if_neg hk, if_pos (Or.inr hm), ih, if_pos hm]; simp [hk]
      · rw [if_neg hk, if_neg (fun e => e.elim (fun e => hk e.symm) hm), ih, if_neg hm]; rfl

/-- What holds of the groups. -/
def GroupsOk (fs : List FnRef) (gs : List (List V × List V)) : Prop := (gs.map (·.1)).Nodup ∧ ∀ p ∈ gs, p.2.length = fs.length

theorem accOf_length (w : World V) (fs : List FnRef) (g : List V) (gs : List (List V × List V)) (h : GroupsOk fs gs) : (accOf w fs g gs).length = fs.length := by
  unfold accOf
  cases hf : gs.find? (·.1 = g) with
  | none => simp
  | some p => exact h.2 p (List.mem_of_find?_eq_some hf)

theorem withAcc_ok (fs : List FnRef) (g acc : List V) (gs : List (List V × List V)) (h : GroupsOk fs gs) (hl : acc.length = fs.length) : GroupsOk fs (withAcc g acc gs) := by
  unfold withAcc
  by_cases hm : g ∈ gs.map (·.1)
  · rw [if_pos hm]
    have e : (gs.map fun p => if p.1 = g then (g, acc) else p).map (·.1) = gs.map (·.1) := by
      rw [List.map_map]
      apply List.map_congr_left
      intro p _
      by_cases hp : p.1 = g <;> simp [hp]
    refine ⟨by rw [e]; exact h.1, ?_⟩
    intro p hp
    obtain ⟨q, hq, rfl⟩ := List.mem_map.mp hp
    by_cases hg : q.1 = g
    · rw [if_pos hg]; exact hl
    · rw [if_neg hg]; exact h.2 q hq
  · rw [if_neg hm]
    refine ⟨?_, ?_⟩
    · rw [List.map_append, List.nodup_append]
      refine ⟨h.1, by simp, ?_⟩
      intro a ha b hb
      simp only [List.map_cons, List.map_nil, List.mem_singleton] at hb
      subst hb
      exact fun e => hm (e ▸ ha)
    · intro p hp
      rcases List.mem_append.mp hp with hp | hp
      · exact h.2 p hp
      · simp only [List.mem_singleton] at hp; subst hp; exact hl

theorem red_step (w : World V) (inc : Bool) (fs : List FnRef) (gs gs' : List (List V × List V)) (x : V) (s t : List (Shown V)) (hl : fs.length ≤ (w.elems x).length) (hg : GroupsOk fs gs)
    (h : Reduces w inc fs (withAcc (keptAt fs (w.elems x)) (redLoop (fs.map (redFn w)) (accOf w fs (keptAt fs (w.elems x)) gs) (w.elems x)).1 gs) s t gs') :
    Reduces w inc fs gs (.item x :: s)
      (match (redLoop (fs.map (redFn w)) (accOf w fs (keptAt fs (w.elems x)) gs) (w.elems x)).2 with
      | some m => .error m :: t
      | none => (if inc then [.item (w.seq (w.elems x ++ dataAt fs (redLoop (fs.map (redFn w)) (accOf w fs (keptAt fs (w.elems x)) gs) (w.elems x)).1))] else []) ++ t) gs' := by
  obtain ⟨h1, h2⟩ := redLoop_reduced w fs (accOf w fs (keptAt fs (w.elems x)) gs) (w.elems x) (accOf_length w fs _ gs hg) hl
  rcases he : redLoop (fs.map (redFn w)) (accOf w fs (keptAt fs (w.elems x)) gs) (w.elems x) with ⟨acc', _ | m⟩
  · rw [he] at h h1; exact .ok _ _ _ _ _ _ hl h1 h
  · rw [he] at h h1; exact .failure _ _ _ _ _ _ _ hl h1 h

/-- With grouping. -/
theorem redGroup_feed (w : World V) (inc : Bool) (fs : List FnRef) (s : List (Shown V)) : ∀ gs : Dict (List V) (List V), GroupsOk fs gs →
    ∃ t gs', (viaOp w.elems w.seq (redGroupOp w.none0 inc (fs.map (redFn w)))).feed (some gs) (evs s) = ⟨some gs', evs t, none⟩ ∧ Reduces w inc fs gs s t gs' := by
  induction s with
  | nil => intro gs _; exact ⟨[], gs, rfl, .nil gs⟩
  | cons e s ih =>
    intro gs hg
    cases e with
    | error m =>
      obtain ⟨t, gs', h1, h2⟩ := ih gs hg
      exact ⟨.error m :: t, gs', by rw [evs_error, feed_err, h1]; rfl, .error _ _ _ _ _ h2⟩
    | item x =>
      by_cases hl : (w.elems x).length < fs.length
      · obtain ⟨t, gs', h1, h2⟩ := ih gs hg
        have e1 : (viaOp w.elems w.seq (redGroupOp w.none0 inc (fs.map (redFn w)))).item (some gs) x = ⟨some gs, [.err "Input too short."], some .kare⟩ := by
          simp only [viaOp, redGroupOp, List.length_map, hl, if_true, fatal, List.map_cons, List.map_nil, evMap]
        exact ⟨.error _ :: t, gs', by rw [evs_item, feed_item e1 (.inr rfl), h1]; rfl, .short _ _ _ _ _ hl h2⟩
      · have hl' : fs.length ≤ (w.elems x).length := by omega
        have hlen := (redLoop_reduced w fs (accOf w fs (keptAt fs (w.elems x)) gs) (w.elems x) (accOf_length w fs _ gs hg) hl').2
        obtain ⟨t, gs', h1, h2⟩ := ih (withAcc (keptAt fs (w.elems x)) (redLoop (fs.map (redFn w)) (accOf w fs (keptAt fs (w.elems x)) gs) (w.elems x)).1 gs) (withAcc_ok fs _ _ gs hg hlen)
        refine ⟨_, gs', ?_, red_step w inc fs gs gs' x s t hl' hg h2⟩
        have e0 : (viaOp w.elems w.seq (redGroupOp w.none0 inc (fs.map (redFn w)))).item (some gs) x =
            ⟨some (withAcc (keptAt fs (w.elems x)) (redLoop (fs.map (redFn w)) (accOf w fs (keptAt fs (w.elems x)) gs) (w.elems x)).1 gs),
              match (redLoop (fs.map (redFn w)) (accOf w fs (keptAt fs (w.elems x)) gs) (w.elems x)).2 with
              | some m => [.err m]
              | none => if inc then [.item (w.seq (w.elems x ++ dataAt fs (redLoop (fs.map (redFn w)) (accOf w fs (keptAt fs (w.elems x)) gs) (w.elems x)).1))] else [],
              match (redLoop (fs.map (redFn w)) (accOf w fs (keptAt fs (w.elems x)) gs) (w.elems x)).2 with
              | some _ => some .kare
              | none => none⟩ := by
          simp only [viaOp, redGroupOp, List.length_map, hl, if_false, groupOf_kept, get_accOf]
          rcases he : redLoop (fs.map (redFn w)) (accOf w fs (keptAt fs (w.elems x)) gs) (w.elems x) with ⟨acc', _ | m⟩
          · simp only [dataOf_data, set_withAcc _ _ _ hg.1]
            cases inc <;> simp [evMap]
          · simp only [fatal, set_withAcc _ _ _ hg.1, List.map_cons, List.map_nil, evMap]
        rw [evs_item]
        rcases he : redLoop (fs.map (redFn w)) (accOf w fs (keptAt fs (w.elems x)) gs) (w.elems x) with ⟨acc', _ | m⟩
        · rw [he] at e0 h1
          rw [feed_item e0 (.inl rfl), h1]
          cases inc <;> simp [evs, toEv]
        · rw [he] at e0 h1
          rw [feed_item e0 (.inr rfl), h1]
          simp [evs_error]

/-- Without grouping. -/
theorem red_feed (w : World V) (inc : Bool) (fs : List FnRef) (hd : dot ∉ fs) (s : List (Shown V)) : ∀ acc : List V, acc.length = fs.length →
    ∃ t acc', (viaOp w.elems w.seq (redOp w.none0 w.zero inc (fs.map (redFn w)))).feed (some acc) (evs s) = ⟨some acc', evs t, none⟩ ∧ Reduces w inc fs [([], acc)] s t [([], acc')] := by
  induction s with
  | nil => intro acc _; exact ⟨[], acc, rfl, .nil _⟩
  | cons e s ih =>
    intro acc hg
    cases e with
    | error m =>
      obtain ⟨t, gs', h1, h2⟩ := ih acc hg
      exact ⟨.error m :: t, gs', by rw [evs_error, feed_err, h1]; rfl, .error _ _ _ _ _ h2⟩
    | item x =>
      by_cases hl : (w.elems x).length < fs.length
      · obtain ⟨t, gs', h1, h2⟩ := ih acc hg
        have e1 : (viaOp w.elems w.seq (redOp w.none0 w.zero inc (fs.map (redFn w)))).item (some acc) x = ⟨some acc, [.err "Input too short."], some .kare⟩ := by
          simp only [viaOp, redOp, List.length_map, hl, if_true, fatal, List.map_cons, List.map_nil, evMap]
        exact ⟨.error _ :: t, gs', by rw [evs_item, feed_item e1 (.inr rfl), h1]; rfl, .short _ _ _ _ _ hl h2⟩
      · have hl' : fs.length ≤ (w.elems x).length := by omega
        have hk : accOf w fs (keptAt fs (w.elems x)) [([], acc)] = acc := by rw [keptAt_none fs hd]; simp [accOf]
        have hgs : GroupsOk fs [([], acc)] := ⟨by simp, by intro p hp; simp only [List.mem_singleton] at hp; subst hp; exact hg⟩
        have hstep := fun t gs' => red_step w inc fs [([], acc)] gs' x s t hl' hgs
        rw [hk] at hstep
        have hlen := (redLoop_reduced w fs acc (w.elems x) hg hl').2
        obtain ⟨t, acc'', h1, h2⟩ := ih (redLoop (fs.map (redFn w)) acc (w.elems x)).1 hlen
        refine ⟨_, acc'', ?_, hstep t _ (by rw [keptAt_none fs hd]; simpa [withAcc] using h2)⟩
        have e0 : (viaOp w.elems w.seq (redOp w.none0 w.zero inc (fs.map (redFn w)))).item (some acc) x =
            ⟨some (redLoop (fs.map (redFn w)) acc (w.elems x)).1,
              match (redLoop (fs.map (redFn w)) acc (w.elems x)).2 with
              | some m => [.err m]
              | none => if inc then [.item (w.seq (w.elems x ++ dataAt fs (redLoop (fs.map (redFn w)) acc (w.elems x)).1))] else [],
              match (redLoop (fs.map (redFn w)) acc (w.elems x)).2 with
              | some _ => some .kare
              | none => none⟩ := by
          simp only [viaOp, redOp, List.length_map, hl, if_false, dataAt_all fs hd _ hlen]
          rcases he : redLoop (fs.map (redFn w)) acc (w.elems x) with ⟨acc', _ | m⟩
          · cases inc <;> simp [evMap]
          · simp only [fatal, List.map_cons, List.map_nil, evMap]
        rw [evs_item]
        rcases he : redLoop (fs.map (redFn w)) acc (w.elems x) with ⟨acc', _ | m⟩
        · rw [he] at e0 h1
          rw [feed_item e0 (.inl rfl), h1]
          cases inc <;> simp [evs, toEv]
        · rw [he] at e0 h1
          rw [feed_item e0 (.inr rfl), h1]
          simp [evs_error]

/-- What `red` is set up to. -/
def redReady (w : World V) (inc : Bool) (fs : List FnRef) : AnyOp V :=
  if redIsGrouping (fs.map (redFn w)) then ⟨_, viaOp w.elems w.seq (redGroupOp w.none0 inc (fs.map (redFn w)))⟩
  else ⟨_, viaOp w.elems w.seq (redOp w.none0 w.zero inc (fs.map (redFn w)))⟩

theorem red_ends (w : World V) (inc : Bool) (fs : List FnRef) (s : List (Shown V)) : ∃ t g st st', (redReady w inc fs).2.feed (redReady w inc fs).2.init (evs s) = ⟨st, evs t, none⟩ ∧
    (redReady w inc fs).2.flush st = ⟨st', evs g ++ [.flush], none⟩ ∧ (redReady w inc fs).2.flush st' = ⟨st', [.flush], none⟩ ∧ ∃ gs, Reduces w inc fs (startGroups w fs) s t gs ∧ g = totals w inc gs := by
  unfold redReady
  by_cases hd : dot ∈ fs
  · rw [if_pos ((isGrouping_iff w fs).mpr hd)]
    obtain ⟨t, gs, h1, h2⟩ := redGroup_feed w inc fs s [] ⟨by simp, by simp⟩
    refine ⟨t, _, some gs, ?_, h1, ?_, ?_, gs, by rw [startGroups, if_pos hd]; exact h2, rfl⟩
    · exact if inc then some gs else if List.isEmpty gs then some gs else none
    · cases inc with
      | true => rfl
      | false =>
        cases gs with
        | nil => rfl
        | cons p gs =>
          simp [viaOp, redGroupOp, totals, ofItems, evs, toEv, evMap, Function.comp_def]
    · cases inc with
      | true => rfl
      | false =>
        cases gs with
        | nil => rfl
        | cons p gs => rfl
  · rw [if_neg (fun h => hd ((isGrouping_iff w fs).mp h))]
    obtain ⟨t, acc, h1, h2⟩ := red_feed w inc fs hd s (fs.map fun f => if f = count then w.zero else w.none0) (by simp)
    have hi : (viaOp w.elems w.seq (redOp w.none0 w.zero inc (fs.map (redFn w)))).init = some (fs.map fun f => if f = count then w.zero else w.none0) := by
      simp only [viaOp, redOp, List.map_map]
      congr 1
      apply List.map_congr_left
      intro f hf
      have : f ≠ dot := fun e => hd (e ▸ hf)
      rw [Function.comp, redFn_fn w f this]
      by_cases hc : f = count <;> simp [RedFn.start, hc]
    dsimp only
    rw [hi]
    refine ⟨t, _, some acc, if inc then some acc else none, h1, ?_, ?_, [([], acc)], by rw [startGroups, if_neg hd]; exact h2, rfl⟩
    · cases inc <;> rfl
    · cases inc <;> rfl

theorem red_does (w : World V) (inc : Bool) (fs : List FnRef) : Implements (redReady w inc fs) ((Stage.red inc fs).Does w) := by
  intro s es x hc
  obtain ⟨out, ⟨t, g, ⟨gs, h1, h2⟩, h3⟩, h4⟩ := ends_of (redReady w inc fs).2 (fun s t g => ∃ gs, Reduces w inc fs (startGroups w fs) s t gs ∧ g = totals w inc gs) (red_ends w inc fs) s es x hc
  subst h2
  exact ⟨out, ⟨t, gs, h1, h3⟩, h4⟩

/-- For one item: an error, which ends a command if it is first; or no error. -/
theorem red_item (w : World V) (inc : Bool) (fs : List FnRef) (x : V) :
    (((redReady w inc fs).2.item (redReady w inc fs).2.init x).exn = some .kare ∧ ∃ m, ((redReady w inc fs).2.item (redReady w inc fs).2.init x).out = [.err m]) ∨
    (((redReady w inc fs).2.item (redReady w inc fs).2.init x).exn = none ∧ ¬ ∃ m, ((redReady w inc fs).2.item (redReady w inc fs).2.init x).out = [.err m]) := by
  unfold redReady
  by_cases hd : redIsGrouping (fs.map (redFn w)) = true
  · rw [if_pos hd]
    by_cases hl : (w.elems x).length < fs.length
    · refine .inl ⟨?_, "Input too short.", ?_⟩ <;> simp [viaOp, redGroupOp, hl, fatal, evMap]
    · simp only [viaOp, redGroupOp, List.length_map, hl, if_false]
      split
      · exact .inl ⟨rfl, _, rfl⟩
      · refine .inr ⟨rfl, ?_⟩
        cases inc <;> simp [evMap]
  · rw [if_neg hd]
    by_cases hl : (w.elems x).length < fs.length
    · refine .inl ⟨?_, "Input too short.", ?_⟩ <;> simp [viaOp, redOp, hl, fatal, evMap]
    · simp only [viaOp, redOp, List.length_map, hl, if_false]
      split
      · exact .inl ⟨rfl, _, rfl⟩
      · refine .inr ⟨rfl, ?_⟩
        cases inc <;> simp [evMap]

end Marcel.Exec
