import Verif.Lemmas.Rerun
import Verif.Lemmas.Dict
/-! # C80: a pipeline does the same each time it is run -/

namespace Marcel.Rerun

open Op

variable {ρ α β κ σ : Type}

/-! ## Operators without state, and with an object made by `setup` -/

theorem sim_stateless (copies : Bool) (f : ρ → α → Res Unit β) (o : ρ → Op Unit α β)
    (hi : ∀ r x, f r x = (o r).item () x) (hf : ∀ r, (o r).flush () = ⟨(), [.flush], none⟩) :
    Sim copies anyInput (statelessCls f) (fun r => .ok ⟨Unit, o r⟩) := by
  refine ⟨fun _ => True, trivial, ?_⟩
  intro s _ r
  refine ⟨fun e he => (by cases he), ?_⟩
  intro oo hoo
  cases hoo
  refine ⟨(), fun _ _ => True, rfl, trivial, ⟨fun _ _ _ => trivial, ?_⟩⟩
  intro t x _ e _
  cases e with
  | item y =>
    have : (statelessCls f).step r t (.item y) = catchKare ((o r).item () y) := by
      rw [← hi]; rfl
    rw [this]
    exact ⟨rfl, rfl, fun _ => trivial, trivial⟩
  | err m => exact ⟨rfl, rfl, fun _ => trivial, trivial⟩
  | flush =>
    have h1 : (statelessCls f).step r t .flush = ⟨(), [.flush], none⟩ := rfl
    have h2 : (o r).step x .flush = ⟨(), [.flush], none⟩ := hf r
    rw [h1, h2]
    exact ⟨rfl, rfl, fun _ => trivial, trivial⟩

theorem sim_impl (copies : Bool) (kind : ρ → Except Exn κ) (impl : κ → Op σ α β) :
    Sim copies anyInput (implCls kind impl) (fun r => match kind r with
      | .error e => .error e
      | .ok k => .ok ⟨σ, impl k⟩) := by
  refine ⟨fun _ => True, trivial, ?_⟩
  rintro ⟨s1, s2⟩ _ r
  constructor
  · intro e he
    cases hk : kind r with
    | error e' =>
      simp only [hk, Except.error.injEq] at he
      subst he
      refine ⟨(s1, s2), ?_, trivial⟩
      simp only [implCls, hk]
    | ok k => simp [hk] at he
  · intro o ho
    cases hk : kind r with
    | error e' => simp [hk] at ho
    | ok k =>
      simp only [hk, Except.ok.injEq] at ho
      subst ho
      refine ⟨(some s2.length, s2 ++ [(k, (impl k).init)]),
        fun (t : Option Nat × List (κ × σ)) x => ∃ a, t.1 = some a ∧ t.2[a]? = some (k, x), ?_, ?_, ⟨fun _ _ _ => trivial, ?_⟩⟩
      · simp only [implCls, hk]
      · exact ⟨s2.length, rfl, by simp⟩
      · rintro ⟨t1, t2⟩ x ⟨a, rfl, ha⟩ e _
        simp only at ha
        have hl : a < t2.length := (List.getElem?_eq_some_iff.mp ha).1
        cases e with
        | item y =>
          have h1 : (implCls kind impl).step r (some a, t2) (.item y) = catchKare
              ⟨(some a, t2.set a (k, ((impl k).item x y).st)), ((impl k).item x y).out, ((impl k).item x y).exn⟩ := by
            simp only [Cls.step, implCls, Option.bind_some, ha, Option.map_some]
          have h2 : (impl k).step x (.item y) = catchKare ((impl k).item x y) := rfl
          rw [h1, h2, catchKare_out, catchKare_out, catchKare_exn, catchKare_exn, catchKare_st, catchKare_st]
          refine ⟨rfl, rfl, fun _ => ⟨a, rfl, ?_⟩, trivial⟩
          simp [hl]
        | err m => exact ⟨rfl, rfl, fun _ => ⟨a, rfl, ha⟩, trivial⟩
        | flush =>
          have h1 : (implCls kind impl).step r (some a, t2) .flush =
              ⟨(some a, t2.set a (k, ((impl k).flush x).st)), ((impl k).flush x).out, ((impl k).flush x).exn⟩ := by
            simp only [Cls.step, implCls, Option.bind_some, ha, Option.map_some]
          have h2 : (impl k).step x .flush = (impl k).flush x := rfl
          rw [h1, h2]
          refine ⟨rfl, rfl, fun _ => ⟨a, rfl, ?_⟩, trivial⟩
          simp [hl]

theorem Repeats.congr {copies : Bool} {P : Ev α → Prop} {c : Cls ρ α β} {sp sp' : Spec ρ α β}
    (h : Repeats copies P c sp) (he : ∀ run, once sp run = once sp' run) : Repeats copies P c sp' := by
  intro rs hp
  rw [h rs hp]
  exact List.map_congr_left (fun run _ => he run)

/-- **C80.** `map` does the same each time (of the object, and of copies of it). -/
theorem C80_map (copies : Bool) (f : ρ → α → Except Msg β) :
    Repeats copies anyInput (mapCls f) (fun r => .ok ⟨Unit, mapOp (f r)⟩) := by
  refine (sim_stateless copies _ _ ?_ ?_).repeats
  · intro r x; rfl
  · intro r; rfl

/-- **C80.** `select` does the same each time. -/
theorem C80_select (copies : Bool) (f : ρ → α → Except Msg Bool) :
    Repeats copies anyInput (selectCls f) (fun r => .ok ⟨Unit, selectOp (f r)⟩) := by
  refine (sim_stateless copies _ _ ?_ ?_).repeats
  · intro r x; rfl
  · intro r; rfl

/-- `head` with the argument `n`. -/
def headSpec (n : Int) : Except Exn (Σ σ : Type, Op σ α α) :=
  match headOp n with
  | .error e => .error e
  | .ok o => .ok ⟨Nat, o⟩

/-- `tail` with the argument `n`. -/
def tailSpec (n : Int) : Except Exn (Σ σ : Type, Op σ α α) :=
  match tailOp n with
  | .error e => .error e
  | .ok o => .ok ⟨TailSt α, o⟩

/-- **C80.** `head`. -/
theorem C80_head (copies : Bool) (n : ρ → Int) :
    Repeats copies anyInput (headCls n : Cls ρ α α) (fun r => headSpec (n r)) := by
  refine (sim_impl copies _ _).repeats.congr ?_
  rintro ⟨r, es⟩
  unfold once headSpec headOp
  by_cases h0 : n r = 0
  · simp only [h0, if_true]
  · by_cases h1 : n r > 0 <;> simp [h0, h1]

/-- **C80.** `tail`. -/
theorem C80_tail (copies : Bool) (n : ρ → Int) :
    Repeats copies anyInput (tailCls n : Cls ρ α α) (fun r => tailSpec (n r)) := by
  refine (sim_impl copies _ _).repeats.congr ?_
  rintro ⟨r, es⟩
  unfold once tailSpec tailOp
  by_cases h0 : n r = 0
  · simp only [h0, if_true]
  · by_cases h1 : n r > 0 <;> simp [h0, h1]

/-- **C80.** `unique`. -/
theorem C80_unique [DecidableEq α] (copies : Bool) (hashable : α → Bool) :
    Repeats copies anyInput (uniqueCls hashable : Cls ρ α α) (fun _ => .ok ⟨List α, uniqueOp hashable⟩) :=
  (sim_impl copies _ _).repeats

/-- **C80.** `unique --consecutive`. -/
theorem C80_unique_consecutive [DecidableEq α] (copies : Bool) :
    Repeats copies anyInput (uniqueConsecutiveCls : Cls ρ α α) (fun _ => .ok ⟨Option α, uniqueConsecutiveOp⟩) :=
  (sim_impl copies _ _).repeats

/-- **C80.** `window` with a predicate. -/
theorem C80_window_predicate (copies : Bool) (unwrap : α → β) (p : ρ → α → Except Msg Bool) :
    Repeats copies anyInput (predWindowCls unwrap p) (fun r => .ok ⟨List β, predWindowOp unwrap (p r)⟩) :=
  (sim_impl copies _ _).repeats

/-- **C80.** `window --overlap`. -/
theorem C80_window_overlap (copies : Bool) (unwrap : α → β) (n : ρ → Nat) :
    Repeats copies anyInput (overlapWindowCls unwrap n) (fun r =>
      if n r = 0 then .error .kill else .ok ⟨List (Option β), overlapWindowOp unwrap (n r)⟩) := by
  refine (sim_impl copies _ _).repeats.congr ?_
  rintro ⟨r, es⟩
  unfold once
  by_cases h0 : n r = 0 <;> simp [h0]

/-- **C80.** `window --disjoint`. -/
theorem C80_window_disjoint (copies : Bool) (unwrap : α → β) (n : ρ → Nat) :
    Repeats copies anyInput (disjointWindowCls unwrap n) (fun r => .ok ⟨List (Option β), disjointWindowOp unwrap (n r)⟩) :=
  (sim_impl copies _ _).repeats

/-- **C80.** `red`. -/
theorem C80_red {V : Type} (copies : Bool) (none0 zero : V) (incremental : Bool) (fs : List (RedFn V)) :
    Repeats copies anyInput (redCls none0 zero incremental fs : Cls ρ (List V) (List V))
      (fun _ => .ok ⟨Option (List V), redOp none0 zero incremental fs⟩) :=
  (sim_impl copies _ _).repeats

/-- **C80.** `red` with grouping. -/
theorem C80_red_group {V : Type} [DecidableEq V] (copies : Bool) (none0 : V) (incremental : Bool) (fs : List (RedFn V)) :
    Repeats copies anyInput (redGroupCls none0 incremental fs : Cls ρ (List V) (List V))
      (fun _ => .ok ⟨Option (Dict (List V) (List V)), redGroupOp none0 incremental fs⟩) :=
  (sim_impl copies _ _).repeats

/-! ## sort -/

/-- **C80.** `sort`. -/
theorem C80_sort {K : Type} (copies : Bool) (key : ρ → α → Except Msg K) (lt : K → K → Option Bool) :
    Repeats copies anyInput (sortCls key lt) (fun r => .ok ⟨Option (List α), sortOp (key r) lt⟩) := by
  refine Sim.repeats ⟨fun _ => True, trivial, ?_⟩
  rintro ⟨s1, s2⟩ _ r
  refine ⟨fun e he => (by cases he), ?_⟩
  intro o ho
  cases ho
  refine ⟨(some s2.length, s2 ++ [[]]),
    fun (t : Option Nat × List (List α)) x => (∃ a c, x = some c ∧ t.1 = some a ∧ t.2[a]? = some c) ∨ (x = none ∧ t.1 = none),
    rfl, Or.inl ⟨s2.length, [], rfl, rfl, by simp⟩, ⟨fun _ _ _ => trivial, ?_⟩⟩
  rintro ⟨t1, t2⟩ x (⟨a, c, rfl, ht, ha⟩ | ⟨rfl, ht⟩) e _
  · simp only at ht ha
    subst ht
    have hl : a < t2.length := (List.getElem?_eq_some_iff.mp ha).1
    cases e with
    | item y =>
      have h1 : (sortCls key lt).step r (some a, t2) (.item y) = ⟨(some a, t2.set a (c ++ [y])), [], none⟩ := by
        simp [Cls.step, sortCls, ha, catchKare]
      have h2 : (sortOp (key r) lt).step (some c) (.item y) = ⟨some (c ++ [y]), [], none⟩ := by
        simp [Op.step, sortOp, catchKare]
      rw [h1, h2]
      exact ⟨rfl, rfl, fun _ => Or.inl ⟨a, c ++ [y], rfl, rfl, by simp [hl]⟩, trivial⟩
    | err m => exact ⟨rfl, rfl, fun _ => Or.inl ⟨a, c, rfl, rfl, ha⟩, trivial⟩
    | flush =>
      simp only [Cls.step, Op.step, sortCls, sortOp, ha, Option.getD_some]
      cases withKeys (key r) c with
      | error m => exact ⟨rfl, rfl, fun h => by simp at h, trivial⟩
      | ok kc =>
        simp only
        cases pySort lt [] kc with
        | none => exact ⟨rfl, rfl, fun h => by simp at h, trivial⟩
        | some sorted => exact ⟨rfl, rfl, fun _ => Or.inr ⟨rfl, rfl⟩, trivial⟩
  · simp only at ht
    subst ht
    cases e with
    | item y =>
      refine ⟨rfl, rfl, fun _ => Or.inr ⟨rfl, rfl⟩, trivial⟩
    | err m => exact ⟨rfl, rfl, fun _ => Or.inr ⟨rfl, rfl⟩, trivial⟩
    | flush => exact ⟨rfl, rfl, fun _ => Or.inr ⟨rfl, rfl⟩, trivial⟩

/-! ## args -/

theorem redirects_flushes (n : Nat) (es : List (Ev β)) :
    redirects n (es.filter isFlush) = [] := by
  induction n generalizing es with
  | zero => rfl
  | succ n ih =>
    unfold redirects
    rw [ih, List.append_nil, List.filter_filter]
    rw [List.filter_eq_nil_iff]
    intro e _
    cases isFlush e <;> simp

theorem dropFlush_eq (es : List (Ev β)) : dropFlush es = es.filter (fun e => !isFlush e) := by
  induction es with
  | nil => rfl
  | cons e es ih => cases e <;> simp [dropFlush, isFlush, ih]

theorem redirects_eq (n : Nat) (es : List (Ev β)) : redirects (n + 1) es = dropFlush es := by
  unfold redirects
  rw [redirects_flushes, List.append_nil, dropFlush_eq]

/-- **C80.** `args`. -/
theorem C80_args {V : Type} (copies : Bool) (n : Nat) (all : Bool) (unwrap : α → V) (none0 : V) (asList : List V → V)
    (body : ρ → List V → ArgRun β) :
    Repeats copies anyInput (argsCls n all unwrap none0 asList body) (fun r =>
      match argsSetup n all with
      | .error e => .error e
      | .ok _ => .ok ⟨ArgsSt V Unit, argsOp n all unwrap none0 asList ()
          (fun _ bs => ⟨(), (body r bs).out, (body r bs).exn⟩)⟩) := by
  refine Sim.repeats ⟨fun _ => True, trivial, ?_⟩
  rintro ⟨⟨s1, m⟩, s2⟩ _ r
  by_cases hk : (all = true ∧ n ≠ 1) ∨ n = 0
  · have hs : argsSetup n all = .error .kill := by
      unfold argsSetup
      by_cases h1 : all = true ∧ n ≠ 1
      · rw [if_pos h1]
      · rw [if_neg h1, if_pos (hk.resolve_left h1)]
    have hc : (argsCls n all unwrap none0 asList body).setup r ((s1, m), s2) = (((s1, m), s2), some .kill) := by
      show (if all = true ∧ n ≠ 1 then _ else _) = _
      by_cases h1 : all = true ∧ n ≠ 1
      · exact if_pos h1
      · exact (if_neg h1).trans (if_pos (hk.resolve_left h1))
    simp only [hs]
    refine ⟨?_, fun o ho => (by cases ho)⟩
    intro e he
    cases he
    exact ⟨((s1, m), s2), hc, trivial⟩
  · rw [not_or] at hk
    have hs : argsSetup n all = .ok () := by
      unfold argsSetup
      rw [if_neg hk.1, if_neg hk.2]
    have hc : (argsCls n all unwrap none0 asList body).setup r ((s1, m), s2) =
        (((some s2.length, m + 1), s2 ++ [[]]), none) := by
      show (if all = true ∧ n ≠ 1 then _ else _) = _
      exact (if_neg hk.1).trans (if_neg hk.2)
    simp only [hs]
    refine ⟨fun e he => (by cases he), ?_⟩
    intro o ho
    cases ho
    refine ⟨((some s2.length, m + 1), s2 ++ [[]]),
      fun (t : (Option Nat × Nat) × List (List V)) (x : ArgsSt V Unit) =>
        ∃ a k, t.1 = (some a, k + 1) ∧ t.2[a]? = some x.args, hc, ⟨s2.length, m, rfl, by simp [argsOp]⟩,
      ⟨fun _ _ _ => trivial, ?_⟩⟩
    rintro ⟨t1, t2⟩ ⟨args, env⟩ ⟨a, k, ht, ha⟩ e _
    simp only at ht ha
    subst ht
    have hl : a < t2.length := (List.getElem?_eq_some_iff.mp ha).1
    cases e with
    | item y =>
      simp only [Cls.step, Op.step, argsCls, argsOp, ha, Option.getD_some, redirects_eq]
      by_cases hc : all = false ∧ (args ++ [unwrap y]).length = n
      · rw [if_pos hc, if_pos hc]
        simp only [catchKare_out, catchKare_st, catchKare_exn]
        exact ⟨by trivial, by trivial, fun _ => ⟨a, k, rfl, by simp [hl]⟩, trivial⟩
      · rw [if_neg hc, if_neg hc]
        simp only [catchKare_out, catchKare_st, catchKare_exn]
        exact ⟨by trivial, by trivial, fun _ => ⟨a, k, rfl, by simp [hl]⟩, trivial⟩
    | err m => exact ⟨by trivial, by trivial, fun _ => ⟨a, k, rfl, ha⟩, trivial⟩
    | flush =>
      simp only [Cls.step, Op.step, argsCls, argsOp, ha, Option.getD_some, redirects_eq]
      by_cases hc : args.length > 0
      · rw [if_pos hc, if_pos hc]
        cases all with
        | false =>
          simp only [Bool.false_eq_true, if_false]
          by_cases hx : (body r (args ++ List.replicate (n - args.length) none0)).exn.isSome = true
          · rw [if_pos hx, if_pos hx]
            exact ⟨by trivial, by trivial, fun _ => ⟨a, k, rfl, by simp [hl]⟩, trivial⟩
          · rw [if_neg hx, if_neg hx]
            exact ⟨by trivial, by trivial, fun _ => ⟨a, k, rfl, by simp [hl]⟩, trivial⟩
        | true =>
          simp only [if_true]
          by_cases hx : (body r [asList args]).exn.isSome = true
          · rw [if_pos hx, if_pos hx]
            exact ⟨by trivial, by trivial, fun _ => ⟨t2.length, k, rfl, by simp⟩, trivial⟩
          · rw [if_neg hx, if_neg hx]
            exact ⟨by trivial, by trivial, fun _ => ⟨t2.length, k, rfl, by simp⟩, trivial⟩
      · rw [if_neg hc, if_neg hc]
        exact ⟨by trivial, by trivial, fun _ => ⟨a, k, rfl, ha⟩, trivial⟩

/-! ## union -/

theorem propagates_true (n : Nat) (es : List (Ev α)) : propagates true n es = es := by
  induction n generalizing es with
  | zero => rfl
  | succ n ih =>
    unfold propagates
    rw [ih, List.filter_eq_self]
    intro e _
    cases e <;> rfl

theorem propagates_false (n : Nat) (es : List (Ev α)) : propagates false (n + 1) es = dropFlush es := by
  induction n generalizing es with
  | zero =>
    unfold propagates propagates
    rw [dropFlush_eq]
    congr 1
    funext e
    cases e <;> rfl
  | succ n ih =>
    unfold propagates
    rw [ih, dropFlush_eq, dropFlush_eq, List.filter_filter]
    congr 1
    funext e
    cases e <;> rfl

theorem unionFlushN_eq (n : Nat) (as : List (ArgRun α)) : unionFlushN (n + 1) as = unionFlush as := by
  induction as with
  | nil => rfl
  | cons a as ih =>
    cases as with
    | nil =>
      unfold unionFlushN
      rw [show ([] : List (ArgRun α)).isEmpty = true from rfl, propagates_true]
      obtain ⟨out, exn⟩ := a
      cases exn <;> simp [unionFlushN, unionFlush]
    | cons b bs =>
      unfold unionFlushN
      rw [show (b :: bs).isEmpty = false from rfl, propagates_false, ih]
      rfl

/-- **C80.** `union`. -/
theorem C80_union (copies : Bool) (args : ρ → List (ArgRun α)) :
    Repeats copies anyInput (unionCls args) (fun r => .ok ⟨Unit, unionOp (args r)⟩) := by
  refine Sim.repeats ⟨fun _ => True, trivial, ?_⟩
  intro (s : Nat) _ r
  refine ⟨fun e he => (by cases he), ?_⟩
  intro o ho
  cases ho
  refine ⟨(s + 1 : Nat), fun (t : Nat) _ => ∃ k, t = k + 1, rfl, ⟨s, rfl⟩, ⟨fun _ _ _ => trivial, ?_⟩⟩
  rintro t x ⟨k, rfl⟩ e _
  cases e with
  | item y => exact ⟨by trivial, by trivial, fun _ => ⟨k, rfl⟩, trivial⟩
  | err m => exact ⟨by trivial, by trivial, fun _ => ⟨k, rfl⟩, trivial⟩
  | flush =>
    simp only [Cls.step, Op.step, unionCls, unionOp, unionFlushN_eq]
    by_cases hx : (unionFlush (args r)).exn.isSome = true
    · simp only [hx, if_true]
      exact ⟨by trivial, by trivial, fun _ => ⟨k, rfl⟩, trivial⟩
    · simp only [hx]
      exact ⟨by trivial, by trivial, fun _ => ⟨k, rfl⟩, trivial⟩

/-! ## difference and filter: items other than `None` -/

/-- Input other than the item `None`. -/
def notNone (none1 : α) (e : Ev α) : Prop := e ≠ .item none1

/-- Equal counts for everything but `None`. -/
def Agree [DecidableEq α] (none1 : α) (d d' : Dict α Nat) : Prop :=
  d.keys.Nodup ∧ d'.keys.Nodup ∧ ∀ x, x ≠ none1 → d.get? x = d'.get? x

theorem Agree.set [DecidableEq α] {none1 : α} {d d' : Dict α Nat} (h : Agree none1 d d') (x : α) (n : Nat) :
    Agree none1 (d.set x n) (d'.set x n) := by
  refine ⟨Dict.nodup_keys_set _ _ _ h.1, Dict.nodup_keys_set _ _ _ h.2.1, ?_⟩
  intro y hy
  rw [Dict.get?_set, Dict.get?_set, h.2.2 y hy]

theorem Agree.erase [DecidableEq α] {none1 : α} {d d' : Dict α Nat} (h : Agree none1 d d') (x : α) :
    Agree none1 (d.erase x) (d'.erase x) := by
  refine ⟨Dict.nodup_keys_erase _ _ h.1, Dict.nodup_keys_erase _ _ h.2.1, ?_⟩
  intro y hy
  rw [Dict.get?_erase _ _ _ h.1, Dict.get?_erase _ _ _ h.2.1, h.2.2 y hy]

theorem Agree.nones [DecidableEq α] {none1 : α} (n : Nat) : ∀ {d d' : Dict α Nat}, Agree none1 d d' →
    Agree none1 (nones none1 n d) d' := by
  induction n with
  | zero => intro d d' h; exact h
  | succ n ih =>
    intro d d' h
    unfold Rerun.nones
    refine ih ⟨Dict.nodup_keys_set _ _ _ h.1, h.2.1, ?_⟩
    intro y hy
    unfold count1
    rw [Dict.get?_set, if_neg (fun he => hy he.symm), h.2.2 y hy]

theorem Agree.count1 [DecidableEq α] {none1 : α} {d d' : Dict α Nat} (h : Agree none1 d d') (x : α) :
    Agree none1 (count1 d x) (d'.set x (match d'.get? x with | none => 1 | some n => n + 1)) := by
  by_cases hx : x = none1
  · subst hx
    refine ⟨Dict.nodup_keys_set _ _ _ h.1, Dict.nodup_keys_set _ _ _ h.2.1, ?_⟩
    intro y hy
    unfold Rerun.count1
    rw [Dict.get?_set, Dict.get?_set, if_neg (fun he => hy he.symm), if_neg (fun he => hy he.symm), h.2.2 y hy]
  · unfold Rerun.count1
    rw [h.2.2 x hx]
    exact h.set x _

theorem loadN_agree [DecidableEq α] (hashable : α → Bool) (none1 : α) (n : Nat) (es : List (Ev α)) (e : Option Exn) :
    ∀ d d' : Dict α Nat, Agree none1 d d' →
    Agree none1 (loadN hashable none1 n d es e).1 (loadCounts hashable d' es e).1 ∧
    (loadN hashable none1 n d es e).2 = (loadCounts hashable d' es e).2 := by
  induction es with
  | nil => intro d d' h; exact ⟨h, rfl⟩
  | cons a es ih =>
    intro d d' h
    cases a with
    | item x =>
      unfold loadN loadCounts
      by_cases hx : hashable x = true
      · rw [if_pos hx, if_pos hx]
        exact ih _ _ ((h.count1 x).nones n)
      · rw [if_neg hx, if_neg hx]
        exact ⟨h, rfl⟩
    | err m => unfold loadN loadCounts; exact ih d d' h
    | flush => unfold loadN loadCounts; exact ih d d' h

theorem diffItem_agree [DecidableEq α] (hashable : α → Bool) (none1 : α) (d d' : Dict α Nat) (h : Agree none1 d d')
    (x : α) (hx : x ≠ none1) :
    (diffItem hashable d x).out = (diffItem hashable d' x).out ∧
    (diffItem hashable d x).exn = (diffItem hashable d' x).exn ∧
    (diffItem hashable d x).st.first = false ∧ (diffItem hashable d' x).st.first = false ∧
    Agree none1 (diffItem hashable d x).st.right (diffItem hashable d' x).st.right := by
  unfold diffItem
  rw [h.2.2 x hx]
  split
  · split
    · split
      · exact ⟨rfl, rfl, rfl, rfl, h.erase x⟩
      · exact ⟨rfl, rfl, rfl, rfl, h.set x _⟩
    · exact ⟨rfl, rfl, rfl, rfl, h⟩
  · exact ⟨rfl, rfl, rfl, rfl, h⟩

/-- **C80.** `difference`, if its input does not contain the item `None`. -/
theorem C80_difference [DecidableEq α] (copies : Bool) (hashable : α → Bool) (none1 : α) (arg : ρ → ArgRun α) :
    Repeats copies (notNone none1) (diffCls hashable none1 arg) (fun r => .ok ⟨DiffSt α, diffOp hashable (arg r)⟩) := by
  refine Sim.repeats ⟨fun _ => True, trivial, ?_⟩
  rintro s _ r
  refine ⟨fun e he => (by cases he), ?_⟩
  intro o ho
  cases ho
  refine ⟨⟨true, [], s.maps + 1⟩,
    fun (t : DiffObj α) (x : DiffSt α) => t.first = x.first ∧ Agree none1 t.right x.right, rfl,
    ⟨rfl, by simp [diffOp, Agree, Dict.keys]⟩, ⟨fun _ _ _ => trivial, ?_⟩⟩
  rintro ⟨f, right, maps⟩ ⟨f', right'⟩ ⟨hf, ha⟩ e he
  simp only at hf ha
  subst hf
  cases e with
  | err m => exact ⟨by trivial, by trivial, fun _ => ⟨rfl, ha⟩, trivial⟩
  | flush => exact ⟨by trivial, by trivial, fun _ => ⟨rfl, ha⟩, trivial⟩
  | item y =>
    have hy : y ≠ none1 := fun h => he (by rw [h])
    simp only [Cls.step, Op.step, diffCls, diffOp]
    cases f with
    | false =>
      simp only [Bool.false_eq_true, if_false]
      obtain ⟨g1, g2, g3, g4, g5⟩ := diffItem_agree hashable none1 right right' ha y hy
      simp only [catchKare_out, catchKare_st, catchKare_exn, g1, g2, g3, g4]
      exact ⟨by trivial, by trivial, fun _ => ⟨by trivial, g5⟩, trivial⟩
    | true =>
      simp only [if_true]
      obtain ⟨l1, l2⟩ := loadN_agree hashable none1 (maps - 1) (arg r).out (arg r).exn right right' ha
      rcases hA : loadN hashable none1 (maps - 1) right (arg r).out (arg r).exn with ⟨d, ex⟩
      rcases hB : loadCounts hashable right' (arg r).out (arg r).exn with ⟨d', ex'⟩
      rw [hA, hB] at l1 l2
      simp only at l1 l2
      subst l2
      cases ex with
      | some e =>
        simp only [catchKare_out, catchKare_st, catchKare_exn]
        exact ⟨by trivial, by trivial, fun _ => ⟨by trivial, l1⟩, trivial⟩
      | none =>
        obtain ⟨g1, g2, g3, g4, g5⟩ := diffItem_agree hashable none1 d d' l1 y hy
        simp only [catchKare_out, catchKare_st, catchKare_exn, g1, g2, g3, g4]
        exact ⟨by trivial, by trivial, fun _ => ⟨by trivial, g5⟩, trivial⟩

/-! ## join: items whose first component is not `None` -/

/-- Input other than items whose first component is `None`. -/
def firstNotNone {V : Type} (none0 : V) (e : Ev (List V)) : Prop := ∀ x, e ≠ .item (none0 :: x)

/-- The same matches for everything but `None`. -/
def JAgree {V : Type} [DecidableEq V] (none0 : V) (d d' : Dict V (JoinVal V)) : Prop :=
  ∀ x, x ≠ none0 → d.get? x = d'.get? x

theorem JAgree.nones {V : Type} [DecidableEq V] {none0 : V} (n : Nat) : ∀ {d d' : Dict V (JoinVal V)}, JAgree none0 d d' →
    JAgree none0 (joinNones none0 n d) d' := by
  induction n with
  | zero => intro d d' h; exact h
  | succ n ih =>
    intro d d' h
    unfold joinNones
    refine ih ?_
    intro y hy
    unfold joinAdd
    rw [Dict.get?_set, if_neg (fun he => hy he.symm), h y hy]

theorem JAgree.add {V : Type} [DecidableEq V] {none0 : V} {d d' : Dict V (JoinVal V)} (h : JAgree none0 d d') (k : V)
    (x : List V) : JAgree none0 (joinAdd d k x) (joinAdd d' k x) := by
  intro y hy
  unfold joinAdd
  rw [Dict.get?_set, Dict.get?_set]
  by_cases hk : k = y
  · subst hk; rw [h k hy]
  · rw [if_neg hk, if_neg hk, h y hy]

theorem joinLoadN_agree {V : Type} [DecidableEq V] (hashable : V → Bool) (none0 : V) (n : Nat) (es : List (Ev (List V)))
    (e : Option Exn) : ∀ d d' : Dict V (JoinVal V), JAgree none0 d d' →
    JAgree none0 (joinLoadN hashable none0 n d es e).1 (joinLoad hashable d' es e).1 ∧
    (joinLoadN hashable none0 n d es e).2 = (joinLoad hashable d' es e).2 := by
  induction es with
  | nil => intro d d' h; exact ⟨h, rfl⟩
  | cons a es ih =>
    intro d d' h
    cases a with
    | item x =>
      cases x with
      | nil => unfold joinLoadN joinLoad; exact ih d d' h
      | cons k x =>
        unfold joinLoadN joinLoad
        by_cases hx : hashable k = true
        · rw [if_pos hx, if_pos hx]
          exact ih _ _ ((h.add k x).nones n)
        · rw [if_neg hx, if_neg hx]
          exact ⟨h, rfl⟩
    | err m => unfold joinLoadN joinLoad; exact ih d d' h
    | flush => unfold joinLoadN joinLoad; exact ih d d' h

theorem joinItem_agree {V : Type} [DecidableEq V] (hashable : V → Bool) (keep : Bool) (none0 : V)
    (d d' : Dict V (JoinVal V)) (h : JAgree none0 d d') (x : List V) (hx : ∀ y, x ≠ none0 :: y) :
    (joinItem hashable keep d x).out = (joinItem hashable keep d' x).out ∧
    (joinItem hashable keep d x).exn = (joinItem hashable keep d' x).exn ∧
    (joinItem hashable keep d x).st = ⟨false, d⟩ ∧ (joinItem hashable keep d' x).st = ⟨false, d'⟩ := by
  cases x with
  | nil => exact ⟨rfl, rfl, rfl, rfl⟩
  | cons k x =>
    have hk : k ≠ none0 := fun he => hx x (by rw [he])
    unfold joinItem
    simp only
    rw [h k hk]
    by_cases hh : hashable k = true
    · rw [if_pos hh, if_pos hh]
      rcases d'.get? k with _ | _ | _ <;> exact ⟨rfl, rfl, rfl, rfl⟩
    · rw [if_neg hh, if_neg hh]
      exact ⟨rfl, rfl, rfl, rfl⟩

/-- **C80.** `join`, if its input does not contain items whose first component is `None`. -/
theorem C80_join {V : Type} [DecidableEq V] (copies : Bool) (hashable : V → Bool) (none0 : V) (keep : Bool)
    (arg : ρ → ArgRun (List V)) :
    Repeats copies (firstNotNone none0) (joinCls hashable none0 keep arg)
      (fun r => .ok ⟨JoinSt V, joinOp hashable keep (arg r)⟩) := by
  refine Sim.repeats ⟨fun _ => True, trivial, ?_⟩
  rintro s _ r
  refine ⟨fun e he => (by cases he), ?_⟩
  intro o ho
  cases ho
  refine ⟨⟨true, [], s.maps + 1⟩,
    fun (t : JoinObj V) (x : JoinSt V) => t.first = x.first ∧ JAgree none0 t.inner x.inner, rfl,
    ⟨rfl, fun _ _ => rfl⟩, ⟨fun _ _ _ => trivial, ?_⟩⟩
  rintro ⟨f, inner, maps⟩ ⟨f', inner'⟩ ⟨hf, ha⟩ e he
  simp only at hf ha
  subst hf
  cases e with
  | err m => exact ⟨by trivial, by trivial, fun _ => ⟨rfl, ha⟩, trivial⟩
  | flush => exact ⟨by trivial, by trivial, fun _ => ⟨rfl, ha⟩, trivial⟩
  | item y =>
    have hy : ∀ z, y ≠ none0 :: z := fun z h => he z (by rw [h])
    simp only [Cls.step, Op.step, joinCls, joinOp]
    cases f with
    | false =>
      simp only [Bool.false_eq_true, if_false]
      obtain ⟨g1, g2, g3, g4⟩ := joinItem_agree hashable keep none0 inner inner' ha y hy
      simp only [catchKare_out, catchKare_st, catchKare_exn, g1, g2, g3, g4]
      exact ⟨by trivial, by trivial, fun _ => ⟨by trivial, ha⟩, trivial⟩
    | true =>
      simp only [if_true]
      obtain ⟨l1, l2⟩ := joinLoadN_agree hashable none0 (maps - 1) (arg r).out (arg r).exn inner inner' ha
      rcases hA : joinLoadN hashable none0 (maps - 1) inner (arg r).out (arg r).exn with ⟨d, ex⟩
      rcases hB : joinLoad hashable inner' (arg r).out (arg r).exn with ⟨d', ex'⟩
      rw [hA, hB] at l1 l2
      simp only at l1 l2
      subst l2
      cases ex with
      | some e =>
        simp only [catchKare_out, catchKare_st, catchKare_exn]
        exact ⟨by trivial, by trivial, fun _ => ⟨by trivial, l1⟩, trivial⟩
      | none =>
        obtain ⟨g1, g2, g3, g4⟩ := joinItem_agree hashable keep none0 d d' l1 y hy
        simp only [catchKare_out, catchKare_st, catchKare_exn, g1, g2, g3, g4]
        exact ⟨by trivial, by trivial, fun _ => ⟨by trivial, l1⟩, trivial⟩

/-! ## filter -/

theorem filterLoadN_agree [DecidableEq α] (hashable : α → Bool) (none1 : α) (n : Nat) (es : List (Ev α)) (e : Option Exn) :
    ∀ d d' : List α, (∀ x, x ≠ none1 → (x ∈ d ↔ x ∈ d')) →
    (∀ x, x ≠ none1 → (x ∈ (filterLoadN hashable none1 n d es e).1 ↔ x ∈ (filterLoad hashable d' es e).1)) ∧
    (filterLoadN hashable none1 n d es e).2 = (filterLoad hashable d' es e).2 := by
  induction es with
  | nil => intro d d' h; exact ⟨h, rfl⟩
  | cons a es ih =>
    intro d d' h
    cases a with
    | item x =>
      unfold filterLoadN filterLoad
      by_cases hx : hashable x = true
      · rw [if_pos hx, if_pos hx]
        apply ih
        intro y hy
        simp [h y hy, hy]
      · rw [if_neg hx, if_neg hx]
        exact ⟨h, rfl⟩
    | err m => unfold filterLoadN filterLoad; exact ih d d' h
    | flush => unfold filterLoadN filterLoad; exact ih d d' h

/-- **C80.** `filter` (without --compare), if its input does not contain the item `None`. -/
theorem C80_filter [DecidableEq α] (copies : Bool) (hashable : α → Bool) (none1 : α) (discard : Bool) (arg : ρ → ArgRun α) :
    Repeats copies (notNone none1) (filterCls hashable none1 discard arg)
      (fun r => .ok ⟨Option (List α), filterOp hashable (fun x => .ok x) discard (arg r)⟩) := by
  refine Sim.repeats ⟨fun _ => True, trivial, ?_⟩
  rintro ⟨s1, s2⟩ _ r
  refine ⟨fun e he => (by cases he), ?_⟩
  intro o ho
  cases ho
  refine ⟨(none, s2),
    fun (t : Option (List α) × Nat) (x : Option (List α)) => (t.1 = none ∧ x = none) ∨
      ∃ d d', t.1 = some d ∧ x = some d' ∧ ∀ y, y ≠ none1 → (y ∈ d ↔ y ∈ d'), rfl,
    Or.inl ⟨rfl, rfl⟩, ⟨fun _ _ _ => trivial, ?_⟩⟩
  have fin : ∀ (n : Nat) (d d' : List α) (y : α), y ≠ none1 → (∀ y, y ≠ none1 → (y ∈ d ↔ y ∈ d')) →
      let A := catchKare (filterItem hashable discard n d y)
      let B := catchKare (if hashable y then
          if decide (y ∈ d') = !discard then (⟨some d', [.item y], none⟩ : Res (Option (List α)) α) else ⟨some d', [], none⟩
        else ⟨some d', [], some .kill⟩)
      A.out = B.out ∧ A.exn = B.exn ∧ A.st.1 = some d ∧ B.st = some d' := by
    intro n d d' y hy h
    have : decide (y ∈ d) = decide (y ∈ d') := by
      rw [Bool.eq_iff_iff]; simpa using h y hy
    simp only [filterItem, catchKare_out, catchKare_exn, catchKare_st]
    by_cases hh : hashable y = true
    · simp only [hh, if_true]
      rw [this]
      by_cases hd : decide (y ∈ d') = !discard
      · simp only [hd, if_true]; exact ⟨trivial, trivial, trivial, trivial⟩
      · simp only [hd, if_false]; exact ⟨trivial, trivial, trivial, trivial⟩
    · simp only [hh]; exact ⟨rfl, rfl, rfl, rfl⟩
  rintro ⟨t1, n⟩ x hR e he
  cases e with
  | err m => exact ⟨by trivial, by trivial, fun _ => hR, trivial⟩
  | flush => exact ⟨by trivial, by trivial, fun _ => hR, trivial⟩
  | item y =>
    have hy : y ≠ none1 := fun h => he (by rw [h])
    rcases hR with ⟨h1, rfl⟩ | ⟨d, d', h1, rfl, h⟩
    · simp only at h1
      subst h1
      simp only [Cls.step, Op.step, filterCls, filterOp]
      obtain ⟨l1, l2⟩ := filterLoadN_agree hashable none1 n (arg r).out (arg r).exn [] [] (fun _ _ => Iff.rfl)
      rcases hA : filterLoadN hashable none1 n [] (arg r).out (arg r).exn with ⟨d, ex⟩
      rcases hB : filterLoad hashable [] (arg r).out (arg r).exn with ⟨d', ex'⟩
      rw [hA, hB] at l1 l2
      simp only at l1 l2
      subst l2
      cases ex with
      | some e =>
        simp only [catchKare_out, catchKare_st, catchKare_exn]
        exact ⟨by trivial, by trivial, fun _ => Or.inr ⟨d, d', rfl, rfl, l1⟩, trivial⟩
      | none =>
        obtain ⟨g1, g2, g3, g4⟩ := fin (n + 1) d d' y hy l1
        exact ⟨g1, g2, fun _ => Or.inr ⟨d, d', g3, g4, l1⟩, trivial⟩
    · simp only at h1
      subst h1
      simp only [Cls.step, Op.step, filterCls, filterOp]
      obtain ⟨g1, g2, g3, g4⟩ := fin n d d' y hy h
      exact ⟨g1, g2, fun _ => Or.inr ⟨d, d', g3, g4, h⟩, trivial⟩

/-! ## Operators that do so only if copies are run -/

/-- **C80.** `intersect`, if copies are run. -/
theorem C80_intersect_copies [DecidableEq α] (hashable : α → Bool) (args : ρ → List (ArgRun α)) :
    Repeats true anyInput (intersectCls hashable args)
      (fun r => .ok ⟨Option (Dict α Nat), intersectOp hashable (args r)⟩) := by
  refine Sim.repeats ⟨fun s => s = none, rfl, ?_⟩
  rintro s rfl r
  refine ⟨fun e he => (by cases he), ?_⟩
  intro o ho
  cases ho
  refine ⟨none, fun (t x : Option (Dict α Nat)) => t = x, rfl, rfl, ⟨fun _ _ _ => rfl, ?_⟩⟩
  rintro t x rfl e _
  cases e <;> exact ⟨by trivial, by trivial, fun _ => rfl, rfl⟩

/-- `map` with a function that uses the position of the item. -/
def mapPosOp (f : Int → α → Except Msg β) : Op Int α β where
  init := 0
  item := fun i x =>
    match f i x with
    | .ok y => ⟨i + 1, [.item y], none⟩
    | .error m => ⟨i + 1, [.err m], some .kare⟩
  flush := fun i => ⟨i, [.flush], none⟩
  no_flush := by intro s x; cases f s x <;> simp

/-- **C80.** Functions that use `pos()` get the position in the input of this run, if copies are run. -/
theorem C80_pos_copies (f : ρ → Int → α → Except Msg β) :
    Repeats true anyInput (mapPosCls f) (fun r => .ok ⟨Int, mapPosOp (f r)⟩) := by
  refine Sim.repeats ⟨fun s => s = (-1 : Int), rfl, ?_⟩
  rintro s rfl r
  refine ⟨fun e he => (by cases he), ?_⟩
  intro o ho
  cases ho
  refine ⟨(-1 : Int), fun (t x : Int) => x = t + 1, rfl, rfl, ⟨fun _ _ _ => rfl, ?_⟩⟩
  rintro (t : Int) x rfl e _
  cases e with
  | item y =>
    simp only [Cls.step, Op.step, mapPosCls, mapPosOp]
    cases hf : f r (t + 1) y with
    | ok z => exact ⟨by trivial, by trivial, fun _ => rfl, rfl⟩
    | error m => exact ⟨by trivial, by trivial, fun _ => rfl, rfl⟩
  | err m => exact ⟨by trivial, by trivial, fun _ => rfl, rfl⟩
  | flush => exact ⟨by trivial, by trivial, fun _ => rfl, rfl⟩

/-! ## case: branches without state -/

theorem stateless_map (f : ρ → α → Except Msg β) : Stateless (mapCls f) (fun r => mapOp (f r)) := by
  refine ⟨fun _ _ => rfl, ?_, fun _ _ _ => ⟨rfl, rfl⟩⟩
  intro r s x y
  simp only [mapCls, mapOp, statelessCls, fatal]
  cases f r y <;> exact ⟨by trivial, by trivial⟩

theorem stateless_select (f : ρ → α → Except Msg Bool) : Stateless (selectCls f) (fun r => selectOp (f r)) := by
  refine ⟨fun _ _ => rfl, ?_, fun _ _ _ => ⟨rfl, rfl⟩⟩
  intro r s x y
  simp only [selectCls, selectOp, statelessCls, fatal]
  rcases f r y with _ | ⟨_ | _⟩ <;> exact ⟨by trivial, by trivial⟩

theorem Stateless.step {σ : Type} {c : Cls ρ α β} {o : ρ → Op σ α β} (h : Stateless c o) (r : ρ) (s : c.S) (x : σ) (e : Ev α) :
    (c.step r s e).out = ((o r).step x e).out ∧ (c.step r s e).exn = ((o r).step x e).exn := by
  cases e with
  | item y =>
    obtain ⟨h1, h2⟩ := h.2.1 r s x y
    simp only [Cls.step, Op.step, catchKare_out, catchKare_exn, h1, h2]
    exact ⟨by trivial, by trivial⟩
  | err m => exact ⟨rfl, rfl⟩
  | flush => exact h.2.2 r s x

theorem Stateless.feed {σ : Type} {c : Cls ρ α β} {o : ρ → Op σ α β} (h : Stateless c o) (r : ρ) (es : List (Ev α)) :
    ∀ s x, (c.feed r s es).out = ((o r).feed x es).out ∧ (c.feed r s es).exn = ((o r).feed x es).exn := by
  induction es with
  | nil => intro s x; exact ⟨rfl, rfl⟩
  | cons e es ih =>
    intro s x
    obtain ⟨h1, h2⟩ := h.step r s x e
    rw [Cls.feed_cons, Op.feed_cons, h2]
    by_cases hx : ((o r).step x e).exn.isSome = true
    · rw [if_pos hx, if_pos hx]; exact ⟨h1, h2⟩
    · rw [if_neg hx, if_neg hx]
      obtain ⟨g1, g2⟩ := ih (c.step r s e).st ((o r).step x e).st
      exact ⟨by rw [h1, g1], g2⟩

/-- A pipeline of operators without state has none. -/
theorem Stateless.comp {σ τ : Type} {p : Cls ρ α β} {q : Cls ρ β γ} {o1 : ρ → Op σ α β} {o2 : ρ → Op τ β γ}
    (hp : Stateless p o1) (hq : Stateless q o2) : Stateless (p.comp q) (fun r => (o1 r).comp (o2 r)) := by
  refine ⟨?_, ?_, ?_⟩
  · intro r s
    have h1 := hp.1 r s.1
    show (match p.setup r s.1 with
      | (s1, some e) => (((s1, s.2), some e) : (p.S × q.S) × Option Exn)
      | (s1, none) => ((s1, (q.setup r s.2).1), (q.setup r s.2).2)).2 = none
    rcases h : p.setup r s.1 with ⟨s1, _ | e⟩
    · exact hq.1 r s.2
    · rw [h] at h1; cases h1
  · intro r s t x
    obtain ⟨h1, h2⟩ := hp.2.1 r s.1 t.1 x
    simp only [Cls.comp, Op.comp, h1, h2]
    obtain ⟨g1, g2⟩ := hq.feed r ((o1 r).item t.1 x).out s.2 t.2
    exact ⟨g1, by rw [g2]⟩
  · intro r s t
    obtain ⟨h1, h2⟩ := hp.2.2 r s.1 t.1
    simp only [Cls.comp, Op.comp, h1, h2]
    obtain ⟨g1, g2⟩ := hq.feed r ((o1 r).flush t.1).out s.2 t.2
    exact ⟨g1, by rw [g2]⟩

/-- Setting up succeeds. -/
theorem caseSetup_ok {pipe : (i : Nat) → Cls ρ α β} (h : ∀ i r s, ((pipe i).setup r s).2 = none) (r : ρ) (n : Nat) :
    ∀ i s, ∃ t, caseSetup pipe r i n s = (t, none) := by
  induction n with
  | zero => intro i s; exact ⟨s, rfl⟩
  | succ n ih =>
    intro i s
    unfold caseSetup
    by_cases hs : (s i).1 = true
    · rw [if_pos hs]; exact ih _ _
    · rw [if_neg hs]
      have h1 := h i r (s i).2
      rcases hq : (pipe i).setup r (s i).2 with ⟨t, _ | e⟩
      · exact ih _ _
      · rw [hq] at h1; cases h1

/-- **C80.** If a pipeline of a branch cannot be set up, for whatever reason, then the command is killed. -/
theorem C80_case_refused (preds : List (ρ → α → Except Msg Bool)) (hasDefault : Bool) (pipe : (i : Nat) → Cls ρ α β) (r : ρ)
    (es : List (Ev α)) (h : ∃ i, i < preds.length ∧ ((pipe i).setup r (pipe i).new).2 ≠ none) :
    (((caseCls preds hasDefault pipe).run r (caseCls preds hasDefault pipe).new es).out,
      ((caseCls preds hasDefault pipe).run r (caseCls preds hasDefault pipe).new es).exn) = ([], some .kill) := by
  have H : ∀ n i s, (∃ j, i ≤ j ∧ j < i + n ∧ s j = (false, (pipe j).new) ∧ ((pipe j).setup r (pipe j).new).2 ≠ none) →
      ∃ t, caseSetup pipe r i n s = (t, some .kill) := by
    intro n
    induction n with
    | zero => rintro i s ⟨j, h1, h2, _⟩; omega
    | succ n ih =>
      rintro i s ⟨j, h1, h2, h3, h4⟩
      have hn : ∀ (v : Bool × (pipe i).S), i ≠ j →
          ∃ t, caseSetup pipe r (i + 1) n (setAt (σ := fun i => Bool × (pipe i).S) s i v) = (t, some .kill) := by
        intro v hij
        refine ih _ _ ⟨j, by omega, by omega, ?_, h4⟩
        unfold setAt
        rw [dif_neg hij]
        exact h3
      unfold caseSetup
      by_cases hs : (s i).1 = true
      · rw [if_pos hs]
        have hij : i ≠ j := by rintro rfl; rw [h3] at hs; cases hs
        exact ih _ _ ⟨j, by omega, by omega, h3, h4⟩
      · rw [if_neg hs]
        rcases hq : (pipe i).setup r (s i).2 with ⟨t, _ | e⟩
        · have hij : i ≠ j := by rintro rfl; rw [h3] at hq; rw [hq] at h4; exact h4 rfl
          exact hn _ hij
        · exact ⟨_, rfl⟩
  obtain ⟨i, h1, h2⟩ := h
  obtain ⟨t, ht⟩ := H (if hasDefault then preds.length + 1 else preds.length) 0 (fun i => (false, (pipe i).new))
    ⟨i, Nat.zero_le _, by split <;> omega, rfl, h2⟩
  have hr : (caseCls preds hasDefault pipe).setup r (caseCls preds hasDefault pipe).new = (t, some .kill) := ht
  unfold Cls.run
  rw [hr]

theorem caseFlushN_eq {σ : Nat → Type} {pipe : (i : Nat) → Cls ρ α β} {ops : (i : Nat) → ρ → Op (σ i) α β}
    (h : ∀ i, Stateless (pipe i) (ops i)) (r : ρ) (n : Nat) : ∀ i s x,
    (caseFlushN pipe r i n s).out = (caseFlush (fun i => ops i r) i n x).out ∧
    (caseFlushN pipe r i n s).exn = (caseFlush (fun i => ops i r) i n x).exn := by
  induction n with
  | zero => intro i s x; exact ⟨rfl, rfl⟩
  | succ n ih =>
    intro i s x
    obtain ⟨h1, h2⟩ := (h i).2.2 r (s i).2 (x i)
    unfold caseFlushN caseFlush
    simp only [h1, h2]
    by_cases hx : ((ops i r).flush (x i)).exn.isSome = true
    · rw [if_pos hx, if_pos hx]; exact ⟨rfl, rfl⟩
    · rw [if_neg hx, if_neg hx]
      obtain ⟨g1, g2⟩ := ih (i + 1) (setAt (σ := fun i => Bool × (pipe i).S) s i ((s i).1, ((pipe i).flush r (s i).2).st))
        (setAt x i ((ops i r).flush (x i)).st)
      exact ⟨by rw [g1], g2⟩

/-- **C80.** `case`, if the pipelines of its branches have no state (as for pipelines of `map` and `select`). -/
theorem C80_case {σ : Nat → Type} (copies : Bool) (preds : List (ρ → α → Except Msg Bool)) (hasDefault : Bool)
    (pipe : (i : Nat) → Cls ρ α β) (ops : (i : Nat) → ρ → Op (σ i) α β) (h : ∀ i, Stateless (pipe i) (ops i)) :
    Repeats copies anyInput (caseCls preds hasDefault pipe)
      (fun r => .ok ⟨(i : Nat) → σ i, caseOp (preds.map (fun p => p r)) hasDefault (fun i => ops i r)⟩) := by
  refine Sim.repeats ⟨fun _ => True, trivial, ?_⟩
  rintro s _ r
  refine ⟨fun e he => (by cases he), ?_⟩
  intro o ho
  cases ho
  obtain ⟨t, ht⟩ := caseSetup_ok (fun i => (h i).1) r (if hasDefault then preds.length + 1 else preds.length) 0 s
  refine ⟨t, fun _ _ => True, ht, trivial, ⟨fun _ _ _ => trivial, ?_⟩⟩
  rintro t x _ e _
  have hl : (preds.map (fun p => p r)).length = preds.length := List.length_map _
  suffices H : ((caseCls preds hasDefault pipe).step r t e).out =
      ((caseOp (preds.map (fun p => p r)) hasDefault (fun i => ops i r)).step x e).out ∧
      ((caseCls preds hasDefault pipe).step r t e).exn =
      ((caseOp (preds.map (fun p => p r)) hasDefault (fun i => ops i r)).step x e).exn from
    ⟨H.1, H.2, fun _ => trivial, trivial⟩
  cases e with
  | err m => exact ⟨rfl, rfl⟩
  | item y =>
    suffices H : ((caseCls preds hasDefault pipe).item r t y).out =
        ((caseOp (preds.map (fun p => p r)) hasDefault (fun i => ops i r)).item x y).out ∧
        ((caseCls preds hasDefault pipe).item r t y).exn =
        ((caseOp (preds.map (fun p => p r)) hasDefault (fun i => ops i r)).item x y).exn by
      simp only [Cls.step, Op.step, catchKare_out, catchKare_exn, H.1, H.2]
      exact ⟨by trivial, by trivial⟩
    simp only [caseCls, caseOp]
    generalize caseMatch (preds.map (fun p => p r)) y = q
    rcases q with m | _ | i
    · simp only [fatal]
      exact ⟨by trivial, by trivial⟩
    · cases hasDefault with
      | false => exact ⟨by trivial, by trivial⟩
      | true =>
        simp only [if_true, caseSend]
        generalize (preds.map (fun p => p r)).length = m at hl
        subst hl
        exact (h preds.length).step r (t preds.length).2 (x preds.length) (.item y)
    · exact (h i).step r (t i).2 (x i) (.item y)
  | flush =>
    simp only [Cls.step, Op.step, caseCls, caseOp, hl]
    obtain ⟨g1, g2⟩ := caseFlushN_eq h r (if hasDefault then preds.length + 1 else preds.length) 0 t x
    simp only [g2]
    by_cases hx : (caseFlush (fun i => ops i r) 0 (if hasDefault then preds.length + 1 else preds.length) x).exn.isSome = true
    · rw [if_pos hx, if_pos hx]; exact ⟨g1, g2⟩
    · rw [if_neg hx, if_neg hx]; exact ⟨by rw [g1], rfl⟩

/-! ## Pipelines -/

/-- **C80.** If each operator of a pipeline does the same each time it is run, then so does the pipeline: in every series of runs, each
run is a first run. -/
theorem C80_pipeline (copies : Bool) (s : Stage ρ α) (ts : List (Stage ρ α))
    (h : ∀ t ∈ s :: ts, Repeats copies anyInput t.cls t.spec) :
    Repeats copies anyInput (pipelineCls s ts) (pipelineSpec s ts) := by
  induction ts generalizing s with
  | nil => exact h s (List.mem_cons_self ..)
  | cons t ts ih =>
    exact Repeats.comp (h s (List.mem_cons_self ..)) (ih t (fun u hu => h u (List.mem_cons_of_mem _ hu)))

/-- The same for a pipeline that begins with an operator for which it is true of some input only. -/
theorem C80_pipeline_first (copies : Bool) (P : Ev α → Prop) (c : Cls ρ α α) (sp : Spec ρ α α)
    (s : Stage ρ α) (ts : List (Stage ρ α)) (h0 : Repeats copies P c sp)
    (h : ∀ t ∈ s :: ts, Repeats copies anyInput t.cls t.spec) :
    Repeats copies P (c.comp (pipelineCls s ts)) (sp.comp (pipelineSpec s ts)) :=
  Repeats.comp h0 (C80_pipeline copies s ts h)

/-! ## What is false -/

theorem reverse_feed (r : ρ) (xs : List α) : ∀ (c : List α) (s : (reverseCls : Cls ρ α α).S), s = (some 0, [c]) →
    ∃ s' : (reverseCls : Cls ρ α α).S, s' = (none, [(c ++ xs).reverse]) ∧
      (reverseCls : Cls ρ α α).feed r s (ofItems xs ++ [.flush]) = ⟨s', ofItems (c ++ xs).reverse ++ [.flush], none⟩ := by
  induction xs with
  | nil =>
    rintro c s rfl
    refine ⟨_, rfl, ?_⟩
    simp [Cls.feed, Cls.step, reverseCls, ofItems]
  | cons x xs ih =>
    intro c s hs
    obtain ⟨s1, hs1, h1⟩ : ∃ s1 : (reverseCls : Cls ρ α α).S, s1 = (some 0, [c ++ [x]]) ∧
        (reverseCls : Cls ρ α α).step r s (.item x) = ⟨s1, [], none⟩ := by
      subst hs
      exact ⟨_, rfl, by simp [Cls.step, reverseCls, catchKare]⟩
    obtain ⟨s2, hs2, h2⟩ := ih (c ++ [x]) s1 hs1
    refine ⟨s2, by rw [hs2, List.append_assoc]; rfl, ?_⟩
    rw [ofItems_cons, List.cons_append, Cls.feed_cons, h1]
    simp only [Option.isSome_none, Bool.false_eq_true, if_false, List.nil_append]
    rw [h2]
    simp

theorem reverse_run (r : ρ) (s : (reverseCls : Cls ρ α α).S) (es : List (Ev α)) :
    (reverseCls : Cls ρ α α).run r s es = (reverseCls : Cls ρ α α).feed r s es := rfl

/-- **C80 is false for `reverse`, in a pipeline variable**: the second run also outputs, once more, all that the first run did get. -/
theorem C80_false_reverse (r : ρ) (xs ys : List α) :
    (reverseCls : Cls ρ α α).runs true reverseCls.new [(r, ofItems xs ++ [.flush]), (r, ofItems ys ++ [.flush])] =
      [(ofItems xs.reverse ++ [.flush], none), (ofItems (ys.reverse ++ xs) ++ [.flush], none)] := by
  obtain ⟨s1, hs1, h1⟩ := reverse_feed r xs [] (reverseCls : Cls ρ α α).new rfl
  obtain ⟨s2, hs2, h2⟩ := reverse_feed r ys xs.reverse ((reverseCls : Cls ρ α α).after true (reverseCls : Cls ρ α α).new s1)
    (by subst hs1; rfl)
  rw [runs_cons, runs_cons, reverse_run, h1, reverse_run, h2]
  simp [Cls.runs]

/-- **C80 is false for `reverse`, in the argument of `args`**: the second run fails (with an exception that is not one of marcel's) on
its first item. -/
theorem C80_false_reverse_args (r : ρ) (xs : List α) (y : α) (ys : List α) :
    (reverseCls : Cls ρ α α).runs false reverseCls.new [(r, ofItems xs ++ [.flush]), (r, ofItems (y :: ys) ++ [.flush])] =
      [(ofItems xs.reverse ++ [.flush], none), ([], some .crash)] := by
  obtain ⟨s1, hs1, h1⟩ := reverse_feed r xs [] (reverseCls : Cls ρ α α).new rfl
  obtain ⟨s2, h2⟩ : ∃ s2, (reverseCls : Cls ρ α α).feed r
      ((reverseCls : Cls ρ α α).after false (reverseCls : Cls ρ α α).new s1) (ofItems (y :: ys) ++ [.flush]) =
        ⟨s2, [], some .crash⟩ := by
    subst hs1
    exact ⟨_, rfl⟩
  rw [runs_cons, runs_cons, reverse_run, h1, reverse_run, h2]
  simp [Cls.runs]

/-- **C80 is false for `intersect`, in the argument of `args`**: `args (| x: gen 3 1 | intersect (| gen 2 1 |) |)`. The second run
outputs nothing, because the first one has used up the items of the argument. -/
theorem C80_false_intersect :
    (intersectCls (ρ := Unit) (fun _ : Nat => true) (fun _ => [⟨[.item 1, .item 2, .flush], none⟩])).runs false none
        [((), [.item 1, .item 2, .item 3, .flush]), ((), [.item 1, .item 2, .item 3, .flush])] =
      [([.item 1, .item 2, .flush], none), ([.flush], none)] := by
  decide +kernel

/-- **C80 is false for `difference` with items `None`** (here 0), in the argument of `args`: the argument pipeline outputs 1 and 2; the first
run outputs the items `None` of its input, the second one does not. -/
theorem C80_false_difference :
    (diffCls (ρ := Unit) (fun _ : Nat => true) 0 (fun _ => ⟨[.item 1, .item 2, .flush], none⟩)).runs false ⟨true, [], 0⟩
        [((), [.item 0, .item 1, .item 3, .flush]), ((), [.item 0, .item 1, .item 3, .flush])] =
      [([.item 0, .item 3, .flush], none), ([.item 3, .flush], none)] := by
  decide +kernel

/-- **C80 is false for `join` with `None`** (here 0) **as the first component**, in the argument of `args`: the second run joins the item with
what the argument pipeline does not output. -/
theorem C80_false_join :
    (joinCls (ρ := Unit) (V := Nat) (fun _ => true) 0 false (fun _ => ⟨[.item [1, 10], .item [2, 20], .flush], none⟩)).runs false
        ⟨true, [], 0⟩
        [((), [.item [0, 5], .item [1, 6], .flush]), ((), [.item [0, 5], .item [1, 6], .flush])] =
      [([.item [1, 6, 10], .flush], none), ([.item [0, 5], .item [0, 5], .item [1, 6, 10], .flush], none)] := by
  decide +kernel

/-- **C80 is false for `case`**, in a pipeline variable and in the argument of `args`: `case (x: True) (| head 2 |)`. The second run
outputs nothing, because the `head` is not set up again, and has had its items. -/
theorem C80_false_case (copies : Bool) :
    (caseCls (ρ := Unit) (α := Nat) (β := Nat) [fun _ _ => .ok true] false (fun _ => headCls (fun _ => 2))).runs copies
        (fun _ => (false, (none, [])))
        [((), [.item 5, .item 6, .item 7, .flush]), ((), [.item 5, .item 6, .item 7, .flush])] =
      [([.item 5, .item 6, .flush], none), ([.flush], none)] := by
  cases copies <;> decide +kernel

/-- **C80 is false for `case`** also in that the values of variables are those of the first run: `case (x: True) (| head (n) |)`, with
`n` 2 in the first run, and 3 in the second one. -/
theorem C80_false_case_variable (copies : Bool) :
    (caseCls (ρ := Int) (α := Nat) (β := Nat) [fun _ _ => .ok true] false (fun _ => headCls id)).runs copies
        (fun _ => (false, (none, [])))
        [(2, [.flush]), (3, [.item 5, .item 6, .item 7, .flush])] =
      [([.flush], none), ([.item 5, .item 6, .flush], none)] := by
  cases copies <;> decide +kernel

/-- **C80 is false for `filter` with items `None`** (here 0), in the argument of `args`: the second run keeps an item which the argument
pipeline does not output. -/
theorem C80_false_filter :
    (filterCls (ρ := Unit) (fun _ : Nat => true) 0 false (fun _ => ⟨[.item 1, .item 2, .flush], none⟩)).runs false (none, 0)
        [((), [.item 0, .item 1, .item 3, .flush]), ((), [.item 0, .item 1, .item 3, .flush])] =
      [([.item 1, .flush], none), ([.item 0, .item 1, .flush], none)] := by
  decide +kernel

/-- **C80 is false for `sudo`**: it can be run once only, also if copies are run. -/
theorem C80_false_sudo {P : Type} (copies : Bool) (p : P) (run : ρ → P → ArgRun β) (r : ρ) (es : List (Ev α)) :
    ∃ first, (sudoCls (α := α) p run).runs copies (sudoCls (α := α) p run).new [(r, [.flush]), (r, es)] =
      [first, ([], some .kill)] := by
  refine ⟨((run r p).out, (run r p).exn), ?_⟩
  cases h : run r p with
  | mk out exn => cases copies <;> cases exn <;> simp [Cls.runs, Cls.run, Cls.feed, Cls.step, sudoCls, h]

/-- **C80 is false for `pos()`**, in the argument of `args`: the positions go on from those of the run before. -/
theorem C80_false_pos :
    (mapPosCls (ρ := Unit) (α := Nat) (fun _ i _ => .ok i)).runs false (-1 : Int)
        [((), [.item 7, .item 7, .flush]), ((), [.item 7, .item 7, .flush])] =
      [([.item 0, .item 1, .flush], none), ([.item 2, .item 3, .flush], none)] := by
  decide +kernel

/-! ## Non-vacuity -/

/-- `head (n) | unique`, with `n` a variable: three runs with different values of it, the second one killed. -/
example : (pipelineCls (ρ := Int) (α := Nat) ⟨headCls id, fun r => headSpec r⟩
      [⟨uniqueCls (fun _ => true), fun _ => .ok ⟨List Nat, uniqueOp (fun _ => true)⟩⟩]).runs true
      (pipelineCls (ρ := Int) (α := Nat) ⟨headCls id, fun r => headSpec r⟩
      [⟨uniqueCls (fun _ => true), fun _ => .ok ⟨List Nat, uniqueOp (fun _ => true)⟩⟩]).new
      [(2, [.item 5, .item 5, .item 6, .flush]), (0, [.item 5]), (3, [.item 5, .item 5, .item 6, .flush])] =
    [([.item 5, .flush], none), ([], some .kill), ([.item 5, .item 6, .flush], none)] := by
  decide +kernel

/-- `case (x: x > 4) (| map (x: x + 1) | select (x: x != 7) |)` meets the condition of `C80_case`. -/
example (copies : Bool) : Repeats (ρ := Unit) copies anyInput
    (caseCls [fun _ x => .ok (decide (x > 4))] false
      (fun _ => (mapCls (fun _ (x : Nat) => .ok (x + 1))).comp (selectCls (fun _ x => .ok (x != 7)))))
    (fun _ => .ok ⟨(_ : Nat) → Unit × Unit, caseOp [fun x => .ok (decide (x > 4))] false
      (fun _ => (mapOp (fun (x : Nat) => .ok (x + 1))).comp (selectOp (fun x => .ok (x != 7))))⟩) :=
  C80_case copies _ _ _ _ (fun _ => (stateless_map _).comp (stateless_select _))

/-- `case (x: x > 4) (| head 0 |)` meets the condition of `C80_case_refused`. -/
example : ∃ i, i < [fun (_ : Unit) (x : Nat) => (Except.ok (decide (x > 4)) : Except Msg Bool)].length ∧
    (((fun _ => headCls (fun _ => 0) : Nat → Cls Unit Nat Nat) i).setup () ((fun _ => headCls (fun _ => 0) : Nat → Cls Unit Nat Nat) i).new).2 ≠
      none := ⟨0, by decide, by decide⟩

example (copies : Bool) : ∀ t ∈ ([⟨headCls id, fun r => headSpec r⟩,
      ⟨uniqueCls (fun _ => true), fun _ => .ok ⟨List Nat, uniqueOp (fun _ => true)⟩⟩] : List (Stage Int Nat)),
    Repeats copies anyInput t.cls t.spec := by
  intro t ht
  simp only [List.mem_cons, List.not_mem_nil, or_false] at ht
  rcases ht with rfl | rfl
  · exact C80_head copies id
  · exact C80_unique copies _

end Marcel.Rerun
