import Verif.Model.SetOps
import Verif.Lemmas.Stream
import Verif.Lemmas.Lists
import Verif.Props.C15_SetOps

/-! C19: args. -/

namespace Marcel
open Op

variable {α β V ρ : Type}

/-- Specification: the complete groups of `n` consecutive elements. -/
def fullBatches (n : Nat) (as : List V) : List (List V) :=
  (List.range (as.length / n)).map fun k => (as.drop (k * n)).take n

/-- Specification: what is left after the complete groups. -/
def leftOver (n : Nat) (as : List V) : List V := as.drop (as.length / n * n)

/-- Specification: the pipeline is run on one group after the other (each run sees what the earlier ones did to
`ρ`); the items and errors emitted. `none` if one of the runs raises. -/
def runBatches (body : ρ → List V → Res ρ β) : ρ → List (List V) → Option (ρ × List (Ev β))
  | env, [] => some (env, [])
  | env, b :: bs =>
    if (body env b).exn = none then
      (runBatches body (body env b).st bs).map fun r => (r.1, dropFlush (body env b).out ++ r.2)
    else none

theorem runBatches_snoc (body : ρ → List V → Res ρ β) (env : ρ) (bs : List (List V)) (b : List V) (r : ρ × List (Ev β))
    (h : runBatches body env (bs ++ [b]) = some r) :
    ∃ r0, runBatches body env bs = some r0 ∧ (body r0.1 b).exn = none ∧
      r = ((body r0.1 b).st, r0.2 ++ dropFlush (body r0.1 b).out) := by
  induction bs generalizing env r with
  | nil =>
    simp only [List.nil_append, runBatches] at h
    by_cases he : (body env b).exn = none
    · simp only [he, if_true, Option.map_some, Option.some.injEq] at h
      exact ⟨(env, []), rfl, he, by rw [← h]; simp⟩
    · simp [he] at h
  | cons a bs ih =>
    simp only [List.cons_append, runBatches] at h
    by_cases he : (body env a).exn = none
    · simp only [he, if_true] at h
      rcases h' : runBatches body (body env a).st (bs ++ [b]) with _ | r'
      · rw [h'] at h; simp at h
      · rw [h'] at h
        simp at h
        obtain ⟨r0, h1, h2, h3⟩ := ih _ _ h'
        refine ⟨(r0.1, dropFlush (body env a).out ++ r0.2), by simp [runBatches, he, h1], h2, ?_⟩
        rw [← h, h3]; simp
    · simp [he] at h

theorem batch_facts (n : Nat) (hn : n ≥ 1) (as : List V) :
    as.length / n * n ≤ as.length ∧ as.length < as.length / n * n + n := by
  have h1 := Nat.div_add_mod as.length n
  have h2 := Nat.mod_lt as.length hn
  rw [Nat.mul_comm] at h1
  omega

theorem fullBatches_snoc (n : Nat) (hn : n ≥ 1) (as : List V) (a : V) :
    (if (leftOver n as ++ [a]).length = n then
      fullBatches n (as ++ [a]) = fullBatches n as ++ [leftOver n as ++ [a]] ∧ leftOver n (as ++ [a]) = []
    else
      fullBatches n (as ++ [a]) = fullBatches n as ∧ leftOver n (as ++ [a]) = leftOver n as ++ [a]) := by
  have hf := batch_facts n hn as
  generalize hq : as.length / n = q at *
  have hlo : (leftOver n as ++ [a]).length = as.length - q * n + 1 := by
    simp [leftOver, hq]
  have hcong : ∀ k, k < q → ((as ++ [a]).drop (k * n)).take n = (as.drop (k * n)).take n := by
    intro k hk
    have : (k + 1) * n ≤ q * n := Nat.mul_le_mul_right n hk
    rw [Nat.add_mul, Nat.one_mul] at this
    rw [List.drop_append_of_le_length (by omega), List.take_append_of_le_length (by rw [List.length_drop]; omega)]
  rw [hlo]
  by_cases h : as.length - q * n + 1 = n
  · have hdiv : (as ++ [a]).length / n = q + 1 := by
      rw [List.length_append, List.length_singleton]
      have : as.length + 1 = (q + 1) * n := by rw [Nat.add_mul, Nat.one_mul]; omega
      rw [this, Nat.mul_div_cancel _ hn]
    simp only [h, if_true, fullBatches, leftOver, hdiv, hq]
    constructor
    · rw [List.range_succ, List.map_append]
      congr 1
      · apply List.map_congr_left
        intro k hk; exact hcong k (List.mem_range.1 hk)
      · simp only [List.map_cons, List.map_nil]
        rw [List.drop_append_of_le_length (by omega), List.take_of_length_le]
        rw [List.length_append, List.length_drop]; simp; omega
    · rw [List.drop_eq_nil_iff]
      rw [List.length_append, List.length_singleton, Nat.add_mul, Nat.one_mul]; omega
  · have hdiv : (as ++ [a]).length / n = q := by
      rw [List.length_append, List.length_singleton]
      rw [Nat.div_eq_iff (by omega)]
      omega
    simp only [h, if_false, fullBatches, leftOver, hdiv, hq]
    constructor
    · apply List.map_congr_left
      intro k hk; exact hcong k (List.mem_range.1 hk)
    · rw [List.drop_append_of_le_length (by omega)]

theorem args_feed (n : Nat) (hn : n ≥ 1) (unwrap : α → V) (none0 : V) (asList : List V → V) (env0 : ρ)
    (body : ρ → List V → Res ρ β) (xs : List α) (r : ρ × List (Ev β))
    (hr : runBatches body env0 (fullBatches n (xs.map unwrap)) = some r) :
    let o := argsOp n false unwrap none0 asList env0 body
    (o.feed o.init (ofItems xs)).exn = none ∧
    (o.feed o.init (ofItems xs)).st = ⟨leftOver n (xs.map unwrap), r.1⟩ ∧
    (o.feed o.init (ofItems xs)).out = r.2 := by
  intro o
  induction xs using snoc_induction generalizing r with
  | nil =>
    simp [fullBatches, runBatches] at hr
    subst hr
    simp [feed_nil, o, argsOp, leftOver]
  | snoc xs x ih =>
    rw [List.map_append, List.map_singleton] at hr ⊢
    have hs := fullBatches_snoc n hn (xs.map unwrap) (unwrap x)
    rw [ofItems_append, feed_append]
    have hitem : ∀ s : ArgsSt V ρ, o.item s x =
      if (s.args ++ [unwrap x]).length = n then
        ⟨⟨[], (body s.env (s.args ++ [unwrap x])).st⟩, dropFlush (body s.env (s.args ++ [unwrap x])).out,
          (body s.env (s.args ++ [unwrap x])).exn⟩
      else ⟨⟨s.args ++ [unwrap x], s.env⟩, [], none⟩ := by
      intro s
      simp only [o, argsOp, true_and]
    by_cases hc : (leftOver n (xs.map unwrap) ++ [unwrap x]).length = n
    · rw [if_pos hc] at hs
      rw [hs.1] at hr
      obtain ⟨r0, h1, h2, h3⟩ := runBatches_snoc body env0 _ _ r hr
      obtain ⟨e1, e2, e3⟩ := ih r0 h1
      simp only [e1, e2, e3, Option.isSome_none, Bool.false_eq_true, if_false, ofItems_cons, ofItems_nil, feed_cons,
        feed_nil, step_item, hitem, hc, if_true, catchKare_exn, catchKare_out, catchKare_st, h2, hs.2, h3]
      simp
    · rw [if_neg hc] at hs
      rw [hs.1] at hr
      obtain ⟨e1, e2, e3⟩ := ih r hr
      simp only [e1, e2, e3, Option.isSome_none, Bool.false_eq_true, if_false, ofItems_cons, ofItems_nil, feed_cons,
        feed_nil, step_item, hitem, hc, catchKare_exn, catchKare_out, catchKare_st, hs.2]
      simp

/-- **C19.** `args` with n ≥ 1 parameters: the pipeline is run once for each complete group of n consecutive (unwrapped)
input items, with the i-th parameter bound to the i-th item of the group, and as soon as the group is complete; at
the end, if items are left over, once more on these, padded with None; nothing else is emitted. Only the items and
errors are described here; for end-of-stream see C21. -/
theorem C19_args (n : Nat) (hn : n ≥ 1) (unwrap : α → V) (none0 : V) (asList : List V → V) (env0 : ρ)
    (body : ρ → List V → Res ρ β) (xs : List α) (r : ρ × List (Ev β))
    (hr : runBatches body env0 (fullBatches n (xs.map unwrap)) = some r) :
    let o := argsOp n false unwrap none0 asList env0 body
    let rest := leftOver n (xs.map unwrap)
    let last := body r.1 (rest ++ List.replicate (n - rest.length) none0)
    o.obs (ofItems xs) = (r.2, none) ∧
    (rest = [] → o.run (ofItems xs) = (r.2 ++ [.flush], none)) ∧
    (rest ≠ [] → dropFlush (o.run (ofItems xs)).1 = r.2 ++ dropFlush last.out ∧ (o.run (ofItems xs)).2 = last.exn) := by
  intro o rest last
  obtain ⟨h1, h2, h3⟩ := args_feed n hn unwrap none0 asList env0 body xs r hr
  have hdr : dropFlush r.2 = r.2 := by
    have : Ev.flush ∉ r.2 := by rw [← h3]; exact o.feed_no_flush _ _ (flush_not_mem_ofItems xs)
    generalize r.2 = l at this
    induction l with
    | nil => rfl
    | cons e l ih =>
      rw [List.mem_cons, not_or] at this
      cases e with
      | item y => simp [dropFlush, ih this.2]
      | err y => simp [dropFlush, ih this.2]
      | flush => simp at this
  have hdd : ∀ l : List (Ev β), dropFlush (dropFlush l) = dropFlush l := by
    intro l
    induction l with
    | nil => rfl
    | cons e l ih => cases e <;> simp [dropFlush, ih]
  refine ⟨Prod.ext h3 h1, ?_, ?_⟩
  · intro he
    rw [run_ofItems _ _ h1]
    have h2' : (o.feed o.init (ofItems xs)).st = ⟨[], r.1⟩ := by rw [h2]; simp only [rest] at he; rw [he]
    rw [h3, h2']
    simp [o, argsOp]
  · intro he
    rw [run_ofItems _ _ h1, h3, h2]
    have hpos : (leftOver n (xs.map unwrap)).length > 0 := List.length_pos_iff.2 he
    have hfl : o.flush ⟨leftOver n (xs.map unwrap), r.1⟩ =
        if last.exn.isSome then ⟨⟨[], last.st⟩, dropFlush last.out ++ [.flush], last.exn⟩
        else ⟨⟨[], last.st⟩, dropFlush last.out ++ [.flush, .flush], none⟩ := by
      simp only [o, argsOp, hpos, if_true, Bool.false_eq_true, if_false]
      rfl
    rw [hfl]
    by_cases hx : last.exn.isSome
    · simp [hx, hdr, hdd, dropFlush]
    · have : last.exn = none := by simpa using hx
      simp [this, hdr, hdd, dropFlush]

/-- **C19.** `args --all` (one parameter): nothing happens before the end; then the pipeline is run exactly once,
on the list of all items, if there are any, and not at all otherwise. -/
theorem C19_args_all (n : Nat) (unwrap : α → V) (none0 : V) (asList : List V → V) (env0 : ρ)
    (body : ρ → List V → Res ρ β) (xs : List α) :
    let o := argsOp n true unwrap none0 asList env0 body
    let only := body env0 [asList (xs.map unwrap)]
    o.obs (ofItems xs) = ([], none) ∧
    (xs = [] → o.run (ofItems xs) = ([.flush], none)) ∧
    (xs ≠ [] → dropFlush (o.run (ofItems xs)).1 = dropFlush only.out ∧ (o.run (ofItems xs)).2 = only.exn) := by
  intro o only
  have h := o.feed_inv (fun xs s out => s = ⟨xs.map unwrap, env0⟩ ∧ out = []) (by simp [o, argsOp])
    (by rintro xs s out x ⟨rfl, rfl⟩; simp [o, argsOp, catchKare]) xs
  obtain ⟨h1, h2, h3⟩ := h
  have hdd : ∀ l : List (Ev β), dropFlush (dropFlush l) = dropFlush l := by
    intro l
    induction l with
    | nil => rfl
    | cons e l ih => cases e <;> simp [dropFlush, ih]
  refine ⟨Prod.ext h3 h1, ?_, ?_⟩
  · intro he
    rw [run_ofItems _ _ h1, h2, h3]
    simp [o, argsOp, he]
  · intro he
    rw [run_ofItems _ _ h1, h2, h3]
    have hpos : (xs.map unwrap).length > 0 := by
      rw [List.length_map]; exact List.length_pos_iff.2 he
    have hfl : o.flush ⟨xs.map unwrap, env0⟩ =
        if only.exn.isSome then ⟨⟨[], only.st⟩, dropFlush only.out ++ [.flush], only.exn⟩
        else ⟨⟨[], only.st⟩, dropFlush only.out ++ [.flush, .flush], none⟩ := by
      simp only [o, argsOp, hpos, if_true]
      rfl
    rw [hfl]
    by_cases hx : only.exn.isSome
    · simp [hx, hdd, dropFlush]
    · have : only.exn = none := by simpa using hx
      simp [this, hdd, dropFlush]

/-- **C19.** A pipeline without parameters, or --all with other than one, is rejected before anything runs. -/
theorem C19_args_setup (n : Nat) (all : Bool) :
    argsSetup n all = .ok () ↔ (if all then n = 1 else n ≥ 1) := by
  cases all <;> simp [argsSetup]
  · cases n <;> simp
  · by_cases h : n = 1
    · simp [h]
    · simp [h]

/-- The groups are what they should be: of length `n`, and together with the rest they make up the input. -/
theorem C19_batches (n : Nat) (hn : n ≥ 1) (as : List V) :
    (fullBatches n as).flatten ++ leftOver n as = as ∧ (∀ b ∈ fullBatches n as, b.length = n) ∧
      (leftOver n as).length < n := by
  have hf := batch_facts n hn as
  refine ⟨?_, ?_, ?_⟩
  · induction as using snoc_induction with
    | nil => simp [fullBatches, leftOver]
    | snoc as a ih =>
      have hs := fullBatches_snoc n hn as a
      have ih := ih (batch_facts n hn as)
      by_cases hc : (leftOver n as ++ [a]).length = n
      · rw [if_pos hc] at hs
        rw [hs.1, hs.2]
        simp only [List.flatten_append, List.flatten_cons, List.flatten_nil, List.append_nil]
        rw [← List.append_assoc, ih]
      · rw [if_neg hc] at hs
        rw [hs.1, hs.2, ← List.append_assoc, ih]
  · intro b hb
    simp only [fullBatches, List.mem_map, List.mem_range] at hb
    obtain ⟨k, hk, rfl⟩ := hb
    have : (k + 1) * n ≤ as.length / n * n := Nat.mul_le_mul_right n hk
    rw [Nat.add_mul, Nat.one_mul] at this
    rw [List.length_take, List.length_drop]; omega
  · simp only [leftOver, List.length_drop]; omega

example : ((argsOp 2 false id 0 (fun _ => 0) () (fun _ bs => ⟨(), [.item bs.sum, .flush], none⟩)).run
    (ofItems [1, 2, 3, 4, 5])).1 = [.item 3, .item 7, .item 5, .flush, .flush] := by decide
example : runBatches (fun _ bs => ⟨(), [.item bs.sum, .flush], none⟩) () (fullBatches 2 [1, 2, 3, 4, 5]) =
    some ((), [.item 3, .item 7]) := by decide

end Marcel
