import Verif.Model.Red
import Verif.Model.PyVal
import Verif.Model.SetOps
import Verif.Props.C01_Staging

/-!
# C21: every operator hears the end of the stream exactly once

False of the code: `tail`, `args` and `union` signal it twice, `window -o` on an empty input not at all. The theorems
`C21_false_*` prove this for all inputs and show two visible consequences; `C21_partial` is the property
for chains built from the other operators.
-/

namespace Marcel
open Op

variable {σ τ α β γ κ V : Type}

/-- Specification: the events end with the only end-of-stream signal among them. -/
def EndsOnce (es : List (Ev α)) : Prop := ∃ body, es = body ++ [.flush] ∧ Ev.flush ∉ body

theorem EndsOnce.flushes {es : List (Ev α)} (h : EndsOnce es) : flushes es = 1 := by
  obtain ⟨b, rfl, hb⟩ := h
  simp [flushes_eq_zero_of_not_mem b hb]

/-- The operator, told once that the stream ends, passes that on once, whatever state it is in. -/
def SignalsOnce (o : Op σ α β) : Prop := ∀ s, (o.flush s).exn = none → EndsOnce (o.flush s).out

theorem feed_endsOnce (o : Op σ α β) (ho : SignalsOnce o) (s : σ) (es : List (Ev α)) (he : EndsOnce es)
    (hx : (o.feed s es).exn = none) : EndsOnce (o.feed s es).out := by
  obtain ⟨b, rfl, hb⟩ := he
  rw [feed_append] at hx ⊢
  by_cases h : (o.feed s b).exn.isSome
  · rw [if_pos h] at hx; simp [hx] at h
  · rw [if_neg h] at hx ⊢
    simp only [feed_cons, feed_nil, step_flush] at hx ⊢
    have hf : (o.flush (o.feed s b).st).exn = none := by
      by_cases h2 : (o.flush (o.feed s b).st).exn.isSome
      · simp only [h2, if_true] at hx; exact hx
      · simpa using h2
    obtain ⟨b2, e2, hb2⟩ := ho _ hf
    simp only [hf, Option.isSome_none, Bool.false_eq_true, if_false, List.append_nil]
    refine ⟨(o.feed s b).out ++ b2, by rw [e2, List.append_assoc], ?_⟩
    simp only [List.mem_append, not_or]
    exact ⟨o.feed_no_flush s b hb, hb2⟩

theorem chain_endsOnce (os : List (AnyOp α)) (hos : ∀ o ∈ os, SignalsOnce o.2) (es : List (Ev α))
    (he : EndsOnce es) (hx : ((chain os).2.obs es).2 = none) : EndsOnce ((chain os).2.obs es).1 := by
  induction os generalizing es with
  | nil => simpa only [chain, obs_pass] using he
  | cons o os ih =>
    simp only [chain, C01_obs, staged] at hx ⊢
    have h1 : ((chain os).2.obs (o.2.obs es).1).2 = none := by
      cases h : ((chain os).2.obs (o.2.obs es).1).2 with
      | none => rfl
      | some y => simp [h] at hx
    have h2 : (o.2.obs es).2 = none := by simpa [h1] using hx
    exact ih (fun o' ho' => hos o' (by simp [ho'])) _ (feed_endsOnce o.2 (hos o (by simp)) _ es he h2) h1

/-- **C21, partial.** In a chain of operators that pass the signal on once (see the list below), whatever the
source sends, if the command is not ended by an exception then every operator of the chain, and the
receiver at the end, hears end of stream exactly once, after everything else. What operator `k` hears is what the
operators before it send (`C01_chain`). Missing: `tail`, `args`, `union`, `window -o`, for which it is false. -/
theorem C21_partial (os : List (AnyOp α)) (hos : ∀ o ∈ os, SignalsOnce o.2) (xs : List (Ev α))
    (hxs : Ev.flush ∉ xs) (hx : ((chain os).2.run xs).2 = none) (k : Nat) :
    EndsOnce ((chain (os.take k)).2.run xs).1 := by
  refine chain_endsOnce _ (fun o ho => hos o (List.mem_of_mem_take ho)) _ ⟨xs, rfl, hxs⟩ ?_
  have h := C01_chain (os.take k) (os.drop k) (xs ++ [.flush])
  rw [List.take_append_drop] at h
  simp only [run] at hx
  rw [h] at hx
  simp only [staged] at hx
  cases h2 : ((chain (os.drop k)).2.obs ((chain (os.take k)).2.obs (xs ++ [.flush])).1).2 with
  | none => simpa [h2] using hx
  | some y => simp [h2] at hx

/-! ### The operators that pass the signal on once -/

theorem endsOnce_flush : EndsOnce ([.flush] : List (Ev α)) := ⟨[], rfl, by simp⟩
theorem endsOnce_item (x : α) : EndsOnce ([.item x, .flush] : List (Ev α)) := ⟨[.item x], rfl, by simp⟩
theorem endsOnce_items (xs : List α) : EndsOnce (ofItems xs ++ [.flush] : List (Ev α)) :=
  ⟨ofItems xs, rfl, by simp [ofItems]⟩

theorem signalsOnce_map (f : α → Except Msg β) : SignalsOnce (mapOp f) := fun _ _ => endsOnce_flush
theorem signalsOnce_select (f : α → Except Msg Bool) : SignalsOnce (selectOp f) := fun _ _ => endsOnce_flush
theorem signalsOnce_head (n : Int) (o : Op Nat α α) (h : headOp n = .ok o) : SignalsOnce o := by
  simp only [headOp] at h
  split at h
  · cases h
  · split at h <;> (cases h; exact fun _ _ => endsOnce_flush)
theorem signalsOnce_tail_neg (n : Int) (hn : n < 0) (o : Op (TailSt α) α α) (h : tailOp n = .ok o) :
    SignalsOnce o := by
  simp only [tailOp, if_neg (show ¬ n = 0 by omega), if_neg (show ¬ n > 0 by omega)] at h
  cases h; exact fun _ _ => endsOnce_flush
theorem signalsOnce_reverse : SignalsOnce (reverseOp : Op _ α α) := by
  intro s _
  cases s with
  | none => exact endsOnce_flush
  | some c => exact endsOnce_items _
theorem signalsOnce_sort (key : α → Except Msg κ) (lt : κ → κ → Option Bool) : SignalsOnce (sortOp key lt) := by
  intro s h
  cases s with
  | none => exact endsOnce_flush
  | some c =>
    simp only [sortOp] at h ⊢
    split
    · rename_i hk; simp [hk] at h
    · rename_i kc hk
      simp only [hk] at h
      split
      · rename_i hs; simp [hs] at h
      · exact endsOnce_items _
theorem signalsOnce_unique [DecidableEq α] (hashable : α → Bool) : SignalsOnce (uniqueOp hashable) :=
  fun _ _ => endsOnce_flush
theorem signalsOnce_unique_consecutive [DecidableEq α] : SignalsOnce (uniqueConsecutiveOp : Op _ α α) :=
  fun _ _ => endsOnce_flush
theorem signalsOnce_window_pred (u : α → β) (p : α → Except Msg Bool) : SignalsOnce (predWindowOp u p) := by
  intro s _
  simp only [predWindowOp]
  split
  · exact endsOnce_item _
  · exact endsOnce_flush
theorem signalsOnce_window_disjoint (u : α → β) (n : Nat) : SignalsOnce (disjointWindowOp u n) := by
  intro s _
  simp only [disjointWindowOp]
  split
  · exact endsOnce_item _
  · exact endsOnce_flush
theorem signalsOnce_expand (p : Option Int) : SignalsOnce (expandOp p) := fun _ _ => endsOnce_flush
theorem signalsOnce_squish (f : PyVal → PyVal → Except Msg PyVal) : SignalsOnce (squishOp f) :=
  fun _ _ => endsOnce_flush
theorem signalsOnce_red (n0 z : V) (inc : Bool) (fs : List (RedFn V)) : SignalsOnce (redOp n0 z inc fs) := by
  intro s _
  cases s with
  | none => exact endsOnce_flush
  | some c =>
    simp only [redOp]
    split
    · exact endsOnce_flush
    · exact endsOnce_item _
theorem signalsOnce_red_group [DecidableEq V] (n0 : V) (inc : Bool) (fs : List (RedFn V)) :
    SignalsOnce (redGroupOp n0 inc fs) := by
  intro s _
  cases s with
  | none => exact endsOnce_flush
  | some c =>
    simp only [redGroupOp]
    split
    · exact endsOnce_flush
    · exact endsOnce_items _
theorem signalsOnce_difference [DecidableEq α] (h : α → Bool) (a : ArgRun α) : SignalsOnce (diffOp h a) :=
  fun _ _ => endsOnce_flush
theorem signalsOnce_intersect [DecidableEq α] (h : α → Bool) (a : List (ArgRun α)) :
    SignalsOnce (intersectOp h a) := fun _ _ => endsOnce_flush
theorem signalsOnce_join [DecidableEq V] (h : V → Bool) (k : Bool) (a : ArgRun (List V)) :
    SignalsOnce (joinOp h k a) := fun _ _ => endsOnce_flush
theorem signalsOnce_filter [DecidableEq κ] (h : κ → Bool) (c : α → Except Msg κ) (d : Bool) (a : ArgRun κ) :
    SignalsOnce (filterOp h c d a) := fun _ _ => endsOnce_flush

theorem caseFlush_no_flush {σ : Nat → Type} (pipe : (i : Nat) → Op (σ i) α β) (n i : Nat) (s : (i : Nat) → σ i) :
    Ev.flush ∉ (caseFlush pipe i n s).out := by
  induction n generalizing i s with
  | zero => simp [caseFlush]
  | succ n ih =>
    simp only [caseFlush]
    split
    · exact flush_not_mem_dropFlush _
    · simp only [List.mem_append, not_or]
      exact ⟨flush_not_mem_dropFlush _, ih _ _⟩

/-- For `case` this holds whatever the branches are, even branches ending in `tail`. -/
theorem signalsOnce_case {σ : Nat → Type} (preds : List (α → Except Msg Bool)) (d : Bool)
    (pipe : (i : Nat) → Op (σ i) α β) : SignalsOnce (caseOp preds d pipe) := by
  intro s h
  have hn := caseFlush_no_flush pipe (if d then preds.length + 1 else preds.length) 0 s
  simp only [caseOp] at h ⊢
  generalize caseFlush pipe 0 (if d then preds.length + 1 else preds.length) s = r at h hn ⊢
  by_cases hh : r.exn.isSome
  · rw [if_pos hh] at h; simp [h] at hh
  · rw [if_neg hh]; exact ⟨_, rfl, hn⟩
theorem signalsOnce_union_no_args : SignalsOnce (unionOp ([] : List (ArgRun α))) := fun _ _ => endsOnce_flush

/-- Pipelines of such operators are such operators, so they can in turn be part of bigger ones. -/
theorem signalsOnce_comp (p : Op σ α β) (q : Op τ β γ) (hp : SignalsOnce p) (hq : SignalsOnce q) :
    SignalsOnce (p.comp q) := by
  rintro ⟨s, t⟩ h
  simp only [comp] at h ⊢
  have h1 : (q.feed t (p.flush s).out).exn = none := by
    cases hh : (q.feed t (p.flush s).out).exn with
    | none => rfl
    | some y => simp [hh] at h
  have h2 : (p.flush s).exn = none := by simpa [h1] using h
  exact feed_endsOnce q hq t _ (hp s h2) h1

/-! ### The operators that do not -/

theorem flush_tailKeep (n : Nat) (s : TailSt α) : flushes ((tailKeep n).flush s).out = 2 := by
  simp [tailKeep]

theorem flushes_feed_tailKeep (n : Nat) (s : TailSt α) (es : List (Ev α)) :
    ((tailKeep n).feed s es).exn = none ∧ flushes ((tailKeep n).feed s es).out = 2 * flushes es := by
  induction es generalizing s with
  | nil => simp [feed_nil]
  | cons e es ih =>
    rw [feed_cons]
    have hx : ((tailKeep n).step s e).exn = none := by
      cases e with
      | item x =>
        simp only [step_item, catchKare_exn, tailKeep]
        split <;> split <;> simp_all
      | err m => rfl
      | flush => rfl
    simp only [hx, Option.isSome_none, Bool.false_eq_true, if_false, flushes_append, (ih _).1, (ih _).2, true_and]
    cases e with
    | item x =>
      rw [flushes_eq_zero_of_not_mem _ ((tailKeep n).step_no_flush s (by simp))]; simp
    | err m => simp [step_err]
    | flush => rw [step_flush, flush_tailKeep]; simp; omega

/-- **C21 is false for `tail n`:** whatever the input, what follows `tail n` is told twice that the stream has
ended, and after `k` `tail`s in a row `2 ^ k` times. -/
theorem C21_false_tail (ns : List Nat) (xs : List (Ev α)) (hxs : Ev.flush ∉ xs) :
    flushes ((chain (ns.map fun n => (⟨_, tailKeep n⟩ : AnyOp α))).2.run xs).1 = 2 ^ ns.length := by
  have H : ∀ (es : List (Ev α)), flushes ((chain (ns.map fun n => (⟨_, tailKeep n⟩ : AnyOp α))).2.obs es).1 =
      2 ^ ns.length * flushes es := by
    induction ns with
    | nil =>
      intro es
      change flushes ((pass : Op Unit α α).obs es).1 = _
      rw [obs_pass]; simp
    | cons n ns ih =>
      intro es
      change flushes (((tailKeep n).comp (chain (ns.map fun n => (⟨_, tailKeep n⟩ : AnyOp α))).2).obs es).1 = _
      rw [C01_obs]
      simp only [staged]
      rw [ih]
      simp only [obs, (flushes_feed_tailKeep n _ es).2, List.length_cons, Nat.pow_succ, Nat.mul_assoc]
  rw [run, H]
  simp [flushes_eq_zero_of_not_mem xs hxs]

/-- **C21 is false for `args`:** if there is an incomplete last batch (or -a and some input) and its run succeeds,
end of stream is signalled twice; here, after any number of items that is not a multiple of the number of
parameters. -/
theorem C21_false_args {ρ : Type} (n : Nat) (all : Bool) (unwrap : α → V) (none0 : V) (asList : List V → V) (env0 : ρ)
    (body : ρ → List V → Res ρ β) (s : ArgsSt V ρ) (hs : s.args ≠ [])
    (hb : ∀ e b, (body e b).exn = none) :
    flushes ((argsOp n all unwrap none0 asList env0 body).flush s).out = 2 := by
  have hl : s.args.length > 0 := List.length_pos_iff.2 hs
  simp only [argsOp, if_pos hl, hb, Option.isSome_none, Bool.false_eq_true, if_false, flushes_append]
  rw [flushes_eq_zero_of_not_mem _ (flush_not_mem_dropFlush _)]
  simp

/-- **C21 is false for `union`:** with argument pipelines that run normally, each signalling end of stream once,
`union` signals it twice. -/
theorem C21_false_union (args : List (ArgRun α)) (hne : args ≠ [])
    (h : ∀ a ∈ args, a.exn = none ∧ EndsOnce a.out) (xs : List α) :
    flushes ((unionOp args).run (ofItems xs)).1 = 2 := by
  have H : ∀ args : List (ArgRun α), args ≠ [] → (∀ a ∈ args, a.exn = none ∧ EndsOnce a.out) →
      (unionFlush args).exn = none ∧ flushes (unionFlush args).out = 1 := by
    intro args
    induction args with
    | nil => simp
    | cons a as ih =>
      intro _ h
      cases as with
      | nil => simp only [unionFlush]; exact ⟨(h a (by simp)).1, (h a (by simp)).2.flushes⟩
      | cons b as =>
        have hi := ih (by simp) (fun c hc => h c (by simp [hc]))
        simp only [unionFlush, (h a (by simp)).1, Option.isSome_none, Bool.false_eq_true, if_false, flushes_append,
          flushes_eq_zero_of_not_mem _ (flush_not_mem_dropFlush _), hi]
        simp
  obtain ⟨hx, hf⟩ := H args hne h
  have hfeed : ∀ xs : List α, (unionOp args).feed () (ofItems xs) = ⟨(), ofItems xs, none⟩ := by
    intro xs
    induction xs with
    | nil => rfl
    | cons x xs ih =>
      rw [ofItems_cons, feed_cons, step_item]
      simp only [unionOp, catchKare] at ih ⊢
      simp [ih]
  have h0 := hfeed xs
  have hr := run_ofItems (unionOp args) xs (by rw [show (unionOp args).init = () from rfl, h0])
  rw [hr, show (unionOp args).init = () from rfl, h0]
  simp only [unionOp, hx, Option.isSome_none, Bool.false_eq_true, if_false, flushes_append, flushes_ofItems, hf]
  rfl

/-- **C21 is false for `window -o` on an empty input:** what follows never hears the end. -/
theorem C21_false_overlap (u : α → β) (n : Nat) : ((overlapWindowOp u n).run ([] : List (Ev α))) = ([], none) := by
  simp [run, obs, feed_cons, feed_nil, step_flush, overlapWindowOp]

/-- A visible consequence: `... | window -o 2 | red count` should print 0 for an empty input, and prints nothing. -/
theorem C21_false_visible_missing :
    ((overlapWindowOp (fun x : Nat => x) 2).comp
        (redOp (none : Option Nat) (some 0) false [.fn true fun a _ => .ok (a.map (· + 1))])).run [] = ([], none) := by
  decide

/-- A visible consequence: in `gen 2 | tail 2 | window -o 2`, windows of nothing but padding appear, which would not be
there without the second signal. -/
theorem C21_false_visible_extra :
    ((tailKeep 2).comp (overlapWindowOp (fun x : Nat => x) 2)).run (ofItems [1, 2]) =
      ([.item [some 1, some 2], .item [some 2, none], .flush, .item [none, none], .flush], none) ∧
    (overlapWindowOp (fun x : Nat => x) 2).run (ofItems [1, 2]) =
      ([.item [some 1, some 2], .item [some 2, none], .flush], none) := by
  decide

-- Non-vacuity of `C21_partial`: `... | map | reverse | unique` and `head 2 | sort`.
example : ∃ os : List (AnyOp Nat), os.length = 3 ∧ (∀ o ∈ os, SignalsOnce o.2) ∧
    (chain os).2.run (ofItems [3, 4, 3]) = ([.item 4, .item 5, .flush], none) :=
  ⟨[⟨_, mapOp fun x => .ok (x + 1)⟩, ⟨_, reverseOp⟩, ⟨_, uniqueOp fun _ => true⟩],
    rfl,
    by
      intro o ho
      simp only [List.mem_cons, List.not_mem_nil, or_false] at ho
      rcases ho with h | h | h
      · rw [h]; exact signalsOnce_map fun x => .ok (x + 1)
      · rw [h]; exact signalsOnce_reverse
      · rw [h]; exact signalsOnce_unique fun _ => true,
    by decide⟩

end Marcel
