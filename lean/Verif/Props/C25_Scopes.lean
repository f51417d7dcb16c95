import Verif.Lemmas.Scopes

/-!
# C25, C26, C46: variables and pipeline parameters

All three are false of the code in corner cases (`_false` theorems); the `_partial` theorems are what holds.
Missing in the partial theorems: parameters that have the name of a global variable (the code loses the global
variable), deleting a parameter inside its pipeline (KeyError), and arguments that are pipelines without source (assertion
failure that leaves a scope behind).
-/

namespace Marcel

variable {ν V : Type} [DecidableEq ν]

/-! ### C25 -/

/-- **C25, partial.** Running a pipeline with parameters from the command line (no pipeline is running yet), where no
name is used both as a global variable and as a parameter: whatever the pipeline does - assign, delete, fail, run other
pipelines - afterwards every variable that it does not itself write has its old value, in particular every name
used as one of its parameters is as unbound as before; and the scopes are gone. -/
theorem C25_partial (wrappable : V → Bool) (none0 : V) (G : ν → Prop) (s : NS ν V) (h0 : s.inner = [])
    (hn : s.dict.keys.Nodup) (hG : ∀ x, (s.dict.get? x).isSome = true → G x)
    (bs : List (ν × (Env ν V → V))) (p : Prog ν V) (hd : (Prog.call bs p).Disciplined wrappable G []) :
    let r := (Prog.call bs p).exec wrappable none0 s
    (∀ x, ¬ (x ∉ bs.map (·.1) ∧ p.writes x) → r.1.dict.get? x = s.dict.get? x) ∧ r.1.inner = [] := by
  have ha : Agree s ⟨s.dict.get?, []⟩ := ⟨hn, fun _ => rfl, by rw [h0]; trivial⟩
  have hA : Apart G (⟨s.dict.get?, []⟩ : SEnv ν V) := ⟨hG, by simp⟩
  obtain ⟨a1, _, _, _, a5⟩ := exec_refines_spec wrappable none0 G (.call bs p) [] s _ hd ha hA (by simp)
  refine ⟨fun x hx => ?_, ?_⟩
  · rw [a1.see]
    exact ((spec_sameBut wrappable G (.call bs p) [] _ hd hA (by simp)).look x hx).symm
  · rw [h0] at a5; exact List.eq_nil_of_length_eq_zero a5

/-- **C25, partial, nested.** The same for a pipeline run inside of others (`σ`: the variables and parameters as they
should be). -/
theorem C25_nested_partial (wrappable : V → Bool) (none0 : V) (G : ν → Prop) (s : NS ν V) (σ : SEnv ν V)
    (ps : List ν) (ha : Agree s σ) (hA : Apart G σ) (hps : ∀ x ∈ ps, ∃ f ∈ σ.frames, (f x).isSome = true)
    (bs : List (ν × (Env ν V → V))) (p : Prog ν V) (hd : (Prog.call bs p).Disciplined wrappable G ps) (x : ν)
    (hx : ¬ (x ∉ bs.map (·.1) ∧ p.writes x)) :
    ((Prog.call bs p).exec wrappable none0 s).1.dict.get? x = s.dict.get? x := by
  obtain ⟨a1, _⟩ := exec_refines_spec wrappable none0 G (.call bs p) ps s _ hd ha hA hps
  rw [a1.see, ha.see]
  exact ((spec_sameBut wrappable G (.call bs p) ps _ hd hA hps).look x hx).symm

/-- **C25 is false:** running a pipeline whose parameter has the name of a global variable, from the command line,
leaves that variable unbound - for every global variable and value, and although the pipeline does nothing. -/
theorem C25_false (wrappable : V → Bool) (none0 : V) (s : NS ν V) (h0 : s.inner = []) (hn : s.dict.keys.Nodup)
    (x : ν) (e : Env ν V → V) (hw : ∀ env, wrappable (e env) = true) :
    ((Prog.call [(x, e)] .skip).exec wrappable none0 s).1.dict.get? x = none := by
  have ha : Agree s ⟨s.dict.get?, []⟩ := ⟨hn, fun _ => rfl, by rw [h0]; trivial⟩
  obtain ⟨s1, e1, a1, _⟩ := ha.push wrappable none0 (Prog.evalArgs [(x, e)] s.dict.get?)
    (by simp [Prog.evalArgs, Dict.set, Dict.keys]) (by simp [Prog.evalArgs, Dict.set, hw])
  have hi : ∃ sc, s1.inner = [sc] := by
    have := a1.scopes.length
    match h : s1.inner with
    | [] => rw [h] at this; simp at this
    | [sc] => exact ⟨sc, rfl⟩
    | _ :: _ :: _ => rw [h] at this; simp at this
  obtain ⟨sc, hi⟩ := hi
  have hsc := a1.scopes
  rw [hi] at hsc
  obtain ⟨⟨hn', hg, hp⟩, _⟩ := hsc
  have hfr : ∀ y, (Dict.get? (Prog.evalArgs [(x, e)] s.dict.get?) y).isSome = true ↔ y = x := by
    intro y
    simp only [Prog.evalArgs, List.foldl_cons, List.foldl_nil, Dict.set, Dict.get?]
    by_cases h : x = y
    · simp [h]
    · simp [h]; exact fun hc => h hc.symm
  obtain ⟨d', d1, d2, d3⟩ := delKeys_spec sc.vals.keys s1.dict hn' a1.nodup (by
    intro k hk
    rw [a1.see]
    have : (sc.vals.get? k).isSome = true := (Dict.get?_isSome_iff _ _).2 hk
    rw [hg] at this
    simp only [SEnv.visible, SEnv.look]
    cases hh : Dict.get? (Prog.evalArgs [(x, e)] s.dict.get?) k with
    | none => simp [hh] at this
    | some v => simp)
  have hmem : x ∈ sc.vals.keys := by
    rw [← Dict.get?_isSome_iff, hg]; exact (hfr x).2 rfl
  simp only [Prog.exec, e1, if_true, NS.pop, hi, d1, NS.restore]
  rw [d3]; simp [hmem]

/-- **C25 is false** also in this way: deleting a parameter inside its pipeline makes leaving the pipeline fail with
a KeyError (`delvar` removes it from the namespace but not from the scope). -/
theorem C25_false_delete (wrappable : V → Bool) (none0 : V) (s : NS ν V) (hn : s.dict.keys.Nodup)
    (x : ν) (e : Env ν V → V) (hw : ∀ env, wrappable (e env) = true) :
    ((Prog.call [(x, e)] (.del x)).exec wrappable none0 s).2 = some .crash := by
  have hk : NS.push wrappable none0 s (Prog.evalArgs [(x, e)] s.dict.get?) =
      (⟨s.dict.set x (e s.dict.get?), s.top, ⟨[x], [(x, e s.dict.get?)]⟩ :: s.inner⟩, none) := by
    simp [NS.push, Prog.evalArgs, Dict.set, Dict.keys, NS.pushLoop, hw, NS.assign, NS.storeItem]
  have hs : (s.dict.set x (e s.dict.get?)).get? x = some (e s.dict.get?) := by simp [Dict.get?_set]
  have he : ((s.dict.set x (e s.dict.get?)).erase x).get? x = none := by
    rw [Dict.get?_erase _ _ _ (Dict.nodup_keys_set _ _ _ hn)]; simp
  simp only [Prog.exec, hk, hs, NS.pop, Dict.keys, List.map_cons, List.map_nil, NS.delKeys, he]

/-! ### C26 -/

/-- **C26, partial.** For programs in which no name is used both as a global variable and as a parameter, executing on
marcel's namespace is the same as executing on an environment of frames, where the innermost binding wins and
assignment changes exactly that binding: same exception, same visible values. Programs may record and test
what they see at any moment. -/
theorem C26_partial (wrappable : V → Bool) (none0 : V) (G : ν → Prop) (s : NS ν V) (h0 : s.inner = [])
    (hn : s.dict.keys.Nodup) (hG : ∀ x, (s.dict.get? x).isSome = true → G x)
    (p : Prog ν V) (hd : p.Disciplined wrappable G []) :
    (∀ x, (p.exec wrappable none0 s).1.dict.get? x = (p.spec ⟨s.dict.get?, []⟩).1.visible x) ∧
    (p.exec wrappable none0 s).2 = (p.spec ⟨s.dict.get?, []⟩).2 := by
  have ha : Agree s ⟨s.dict.get?, []⟩ := ⟨hn, fun _ => rfl, by rw [h0]; trivial⟩
  have hA : Apart G (⟨s.dict.get?, []⟩ : SEnv ν V) := ⟨hG, by simp⟩
  obtain ⟨a1, a2, _⟩ := exec_refines_spec wrappable none0 G p [] s _ hd ha hA (by simp)
  exact ⟨a1.see, a2⟩

/-- **C26 (entering).** Without any restriction on names: right after entering a pipeline, its parameters have the argument
values, and every other name is seen as before. -/
theorem C26_enter (wrappable : V → Bool) (none0 : V) (s : NS ν V) (σ : SEnv ν V) (ha : Agree s σ) (bs : Dict ν V)
    (hb : bs.keys.Nodup) (hw : ∀ b ∈ bs, wrappable b.2 = true) :
    ∃ s', s.push wrappable none0 bs = (s', none) ∧ Agree s' ⟨σ.global, bs.get? :: σ.frames⟩ ∧
      ∀ x, s'.dict.get? x = match bs.get? x with
        | some v => some v
        | none => s.dict.get? x := by
  obtain ⟨s', h1, h2, _⟩ := ha.push wrappable none0 bs hb hw
  refine ⟨s', h1, h2, fun x => ?_⟩
  rw [h2.see, ha.see]; rfl

/-- **C26 (assigning).** Without any restriction on names: assignment changes the binding in the innermost pipeline that
has the name as a parameter, else the global one, and nothing else. -/
theorem C26_assign (s : NS ν V) (σ : SEnv ν V) (ha : Agree s σ) (x : ν) (v : V) :
    Agree (s.assign x v) (σ.change x (some v)) ∧
    ∀ y, (s.assign x v).dict.get? y = if x = y then some v else s.dict.get? y :=
  ⟨ha.assign x v, fun y => by simp [NS.assign, Dict.get?_set]⟩

/-- **C26 is false:** after leaving a pipeline that has the parameter `x`, the global `x`, which should be visible, is
not. -/
theorem C26_false (wrappable : V → Bool) (none0 : V) (s : NS ν V) (h0 : s.inner = []) (hn : s.dict.keys.Nodup)
    (x : ν) (v : V) (hx : s.dict.get? x = some v) (e : Env ν V → V) (hw : ∀ env, wrappable (e env) = true) :
    ((Prog.call [(x, e)] .skip).exec wrappable none0 s).1.dict.get? x = none ∧
    ((Prog.call [(x, e)] .skip).spec ⟨s.dict.get?, []⟩).1.visible x = some v :=
  ⟨C25_false wrappable none0 s h0 hn x e hw, by simp [Prog.spec, SEnv.visible, SEnv.look, hx]⟩

/-! ### C46 -/

/-- No argument of any pipeline is a pipeline without source. -/
def Prog.ArgsOk (wrappable : V → Bool) : Prog ν V → Prop
  | .ite _ p q => p.ArgsOk wrappable ∧ q.ArgsOk wrappable
  | .seq p q => p.ArgsOk wrappable ∧ q.ArgsOk wrappable
  | .guard p => p.ArgsOk wrappable
  | .call bs p => (∀ b ∈ bs, ∀ env, wrappable (b.2 env) = true) ∧ p.ArgsOk wrappable
  | _ => True

theorem pop_inner (s : NS ν V) : s.pop.1.inner = s.inner.tail := by
  simp only [NS.pop]
  split
  · rename_i h; simp [h]
  · rename_i sc r h
    rcases NS.delKeys sc.vals.keys s.dict with ⟨d, _ | e⟩ <;> simp [h]

/-- **C46, partial.** Whatever a command does to variables (including deleting parameters, shadowing), whatever it raises
and catches, on every nesting level the number of scopes is afterwards what it was before. -/
theorem C46_partial (wrappable : V → Bool) (none0 : V) (p : Prog ν V) (s : NS ν V) (hp : p.ArgsOk wrappable) :
    (p.exec wrappable none0 s).1.nScopes = s.nScopes := by
  suffices H : (p.exec wrappable none0 s).1.inner.length = s.inner.length by simp [NS.nScopes, H]
  have hstore : ∀ (x : ν) (v : V) (r : List (Scope ν V)) (top : Dict ν V),
      (NS.storeItem x v r top).1.length = r.length := by
    intro x v r top
    induction r with
    | nil => rfl
    | cons sc r ih => simp only [NS.storeItem]; split <;> simp [ih]
  induction p generalizing s with
  | skip => rfl
  | raise e => rfl
  | assign x e => exact hstore _ _ _ _
  | perm x e => rfl
  | del x => simp only [Prog.exec]; cases s.dict.get? x <;> rfl
  | ite c p q ihp ihq =>
    simp only [Prog.exec]
    cases c s.dict.get? with
    | true => exact ihp s hp.1
    | false => exact ihq s hp.2
  | seq p q ihp ihq =>
    have h := ihp s hp.1
    simp only [Prog.exec]
    rcases hr : p.exec wrappable none0 s with ⟨s1, _ | e⟩
    · rw [hr] at h; exact (ihq s1 hp.2).trans h
    · rw [hr] at h; exact h
  | guard p ih =>
    have h := ih s hp
    simp only [Prog.exec]
    rcases hr : p.exec wrappable none0 s with ⟨s1, _ | ⟨_ | _ | _⟩⟩ <;> (rw [hr] at h; exact h)
  | call bs p ih =>
    simp only [Prog.exec]
    have hpush : ∃ s1, s.push wrappable none0 (Prog.evalArgs bs s.dict.get?) = (s1, none) ∧
        s1.inner.length = s.inner.length + 1 := by
      obtain ⟨s1, e1, e2, _⟩ := pushLoop_spec wrappable (Prog.evalArgs bs s.dict.get?)
        { s with inner := ⟨_, (Dict.keys (Prog.evalArgs bs s.dict.get?)).map fun k => (k, none0)⟩ :: s.inner } _ _ rfl
        (fun b hb => List.mem_map.2 ⟨b, hb, rfl⟩)
        (evalArgs_wrappable wrappable bs _ (fun b hb => hp.1 b hb _) [] (by simp))
      exact ⟨s1, e1, by rw [e2]; rfl⟩
    obtain ⟨s1, e1, l1⟩ := hpush
    rw [e1]
    have h := ih s1 hp.2
    simp only
    rcases hr : p.exec wrappable none0 s1 with ⟨s2, x2⟩
    rw [hr] at h
    have hpop := pop_inner s2
    simp only at h ⊢
    rcases hq : s2.pop with ⟨s4, _ | e4⟩ <;> (rw [hq] at hpop; simp only at hpop ⊢; rw [hpop]; simp; omega)

/-- **C46 is false:** an argument that is a pipeline without source (one that was computed, not written as a pipeline)
makes entering the pipeline fail after the scope has been added: it is never removed. -/
theorem C46_false (wrappable : V → Bool) (none0 : V) (s : NS ν V) (x : ν) (e : Env ν V → V) (p : Prog ν V)
    (hw : wrappable (e s.dict.get?) = false) :
    ((Prog.call [(x, e)] p).exec wrappable none0 s).1.nScopes = s.nScopes + 1 ∧
    ((Prog.call [(x, e)] p).exec wrappable none0 s).2 = some .crash := by
  simp [Prog.exec, NS.push, Prog.evalArgs, Dict.set, NS.pushLoop, hw, NS.nScopes]

/-! ### Non-vacuity -/

/-- `x` (a parameter name: numbers below 10) in a nested run, a global (10) assigned from the parameter, an
exception in the inner pipeline that the outer one survives. -/
def exProg : Prog Nat Nat :=
  .call [(1, fun _ => 7)] (.seq (.assign 10 fun env => (env 1).getD 0)
    (.guard (.call [(2, fun env => (env 1).getD 0 + 1)] (.seq (.assign 1 fun env => (env 2).getD 0) (.raise .kare)))))

example : exProg.Disciplined (fun _ => true) (fun x => 10 ≤ x) [] := by
  simp [exProg, Prog.Disciplined]
example : exProg.exec (fun _ => true) 0 ⟨[(11, 5)], [(11, 5)], []⟩ =
    (⟨[(11, 5), (10, 7)], [(11, 5), (10, 7)], []⟩, none) := by rfl
-- the hypotheses of the refutations are met by an ordinary state
example : ((Prog.call [(11, fun _ => 3)] .skip).exec (fun _ => true) 0
    (⟨[(11, 5)], [(11, 5)], []⟩ : NS Nat Nat)).1.dict = [] := by rfl

end Marcel
