import Verif.Model.PyVal
import Verif.Lemmas.Stream

/-! C14: expand and squish. -/

namespace Marcel
open Op

/-- Specification: which values are sequences, and their elements in order: a tuple, list, set or generator has its elements, a
dict or Struct its (key, value) pairs. -/
inductive Elements : PyVal → List PyVal → Prop
  | tup (xs) : Elements (.tup xs) xs
  | lst (xs) : Elements (.lst xs) xs
  | set (xs) : Elements (.set xs) xs
  | gen (xs) : Elements (.gen xs) xs
  | dict (kvs) : Elements (.dict kvs) (kvs.map fun kv => .tup [kv.1, kv.2])

/-- Specification: the item (its components) that a value becomes when it is sent. -/
inductive ItemOf : PyVal → List PyVal → Prop
  | tup (xs) : ItemOf (.tup xs) xs
  | lst (xs) : ItemOf (.lst xs) xs
  | other (v) (h : ∀ xs, v ≠ .tup xs ∧ v ≠ .lst xs) : ItemOf v [v]

theorem elements_iff (v : PyVal) (es : List PyVal) : v.elements = some es ↔ Elements v es := by
  constructor
  · intro h
    cases v <;> simp only [PyVal.elements, Option.some.injEq, reduceCtorEq] at h <;> subst h <;> constructor
  · intro h
    cases h <;> rfl

theorem elements_none_iff (v : PyVal) : v.elements = none ↔ ∀ es, ¬ Elements v es := by
  constructor
  · intro h es he
    rw [(elements_iff v es).2 he] at h; cases h
  · intro h
    cases hv : v.elements with
    | none => rfl
    | some es => exact absurd ((elements_iff v es).1 hv) (h es)

theorem wrap_itemOf {v : PyVal} {x : List PyVal} (h : ItemOf v x) : v.wrap = x := by
  cases h with
  | tup => rfl
  | lst => rfl
  | other v h => cases v <;> first | rfl | exact absurd rfl (h _).1 | exact absurd rfl (h _).2

/-- Specification of `expand` on one item: the elements of the single component if that is a
sequence, the components otherwise. -/
def ExpandsTo (x ys : List PyVal) : Prop :=
  (∃ v es, x = [v] ∧ Elements v es ∧ ys = es) ∨
  ((∀ v es, x = [v] → ¬ Elements v es) ∧ ys = x)

theorem expandSeq_spec (x ys : List PyVal) : expandSeq x = ys ↔ ExpandsTo x ys := by
  unfold ExpandsTo
  simp only [← elements_iff]
  match x with
  | [] => simp [expandSeq, eq_comm]
  | [v] =>
    simp only [expandSeq]
    cases h : v.elements with
    | none =>
      constructor
      · rintro rfl; right; refine ⟨?_, rfl⟩; rintro v' es hv; cases hv; rw [h]; nofun
      · rintro (⟨v', es, hv, he, _⟩ | ⟨_, rfl⟩)
        · cases hv; rw [h] at he; cases he
        · rfl
    | some es =>
      constructor
      · rintro rfl; left; exact ⟨v, es, rfl, h, rfl⟩
      · rintro (⟨v', es', hv, he, rfl⟩ | ⟨hn, rfl⟩)
        · cases hv; rw [h] at he; exact Option.some.inj he
        · exact absurd h (hn v es rfl)
  | a :: b :: l => simp [expandSeq, eq_comm]

/-- **C14.** `expand` without a position: for each item, in order, its components or, if it has a single component
that is a sequence, the elements of that; each wrapped as an item. -/
theorem C14_expand (xs : List (List PyVal)) (E : List PyVal → List PyVal) (hE : ∀ x ∈ xs, ExpandsTo x (E x))
    (I : PyVal → List PyVal) (hI : ∀ v, ItemOf v (I v)) :
    (expandOp none).run (ofItems xs) =
      (ofItems (xs.flatMap fun x => (E x).map I) ++ [.flush], none) := by
  obtain rfl : PyVal.wrap = I := funext fun v => wrap_itemOf (hI v)
  have h := obs_ofItems_unit (expandOp none) (by intro x; simp [expandOp, catchKare]) xs
  simp only [obs, Prod.mk.injEq] at h
  rw [run_ofItems _ _ h.2, h.1]
  rw [show (expandOp none).flush _ = ⟨(), [.flush], none⟩ from rfl]
  congr 2
  clear h
  induction xs with
  | nil => rfl
  | cons x xs ih =>
    rw [List.flatMap_cons, List.flatMap_cons, ofItems_append, ih (fun y hy => hE y (by simp [hy]))]
    congr 1
    simp only [expandOp]
    rw [(expandSeq_spec x (E x)).2 (hE x (by simp))]

/-- **C14.** Every value becomes an item in exactly one way. -/
theorem C14_item (v : PyVal) : ItemOf v v.wrap ∧ ∀ x, ItemOf v x → x = v.wrap := by
  refine ⟨?_, fun x h => (wrap_itemOf h).symm⟩
  cases v <;> first | exact .tup _ | exact .lst _ | exact .other _ (by intro xs; constructor <;> simp)

/-- **C14.** The expansion of an item exists and is unique. -/
theorem C14_expand_exists (x : List PyVal) : ∃ ys, ExpandsTo x ys ∧ ∀ zs, ExpandsTo x zs → zs = ys :=
  ⟨expandSeq x, (expandSeq_spec x _).1 rfl, fun _ h => ((expandSeq_spec x _).2 h).symm⟩

/-- **C14.** `expand k` (k ≥ 0): an item without a component k passes; an item `pre ++ [v] ++ post` with
`k` components in `pre` is replaced by `pre ++ [e] ++ post` for each element `e` of `v` in order
(so by nothing if `v` is empty), and passes if `v` is not a sequence. -/
theorem C14_expand_position (k : Nat) (xs : List (List PyVal)) (E : List PyVal → List (List PyVal))
    (hshort : ∀ x ∈ xs, x.length ≤ k → E x = [x])
    (hseq : ∀ pre v post es, pre ++ [v] ++ post ∈ xs → pre.length = k → Elements v es →
      E (pre ++ [v] ++ post) = es.map fun e => pre ++ [e] ++ post)
    (hatom : ∀ pre v post, pre ++ [v] ++ post ∈ xs → pre.length = k → (∀ es, ¬ Elements v es) →
      E (pre ++ [v] ++ post) = [pre ++ [v] ++ post]) :
    (expandOp (some k)).run (ofItems xs) = (ofItems (xs.flatMap E) ++ [.flush], none) := by
  have key : ∀ x, ∃ ys, (expandOp (some (k : Int))).item () x = ⟨(), ofItems ys, none⟩ ∧
      (x ∈ xs → ys = E x) := by
    intro x
    by_cases hs : x.length ≤ k
    · refine ⟨[x], ?_, fun hx => (hshort x hx hs).symm⟩
      have : (k : Int) ≥ x.length := by omega
      simp only [expandOp, this, if_true]; rfl
    · have hk : k < x.length := by omega
      have hsplit : x = x.take k ++ [x[k]] ++ x.drop (k + 1) := by
        rw [List.append_assoc, List.singleton_append, ← List.drop_eq_getElem_cons hk, List.take_append_drop]
      have h1 : ¬ ((k : Int) ≥ x.length) := by omega
      have h2 : ¬ ((k : Int) < 0) := by omega
      refine ⟨(expandSeq [x[k]]).map fun y => x.take k ++ [y] ++ x.drop (k + 1), ?_, ?_⟩
      · simp only [expandOp, h1, h2, if_false, Int.toNat_natCast, List.getElem?_eq_getElem hk]
      · intro hx
        have hlen : (x.take k).length = k := by rw [List.length_take]; omega
        cases he : (x[k]).elements with
        | none =>
          have := hatom (x.take k) x[k] (x.drop (k+1)) (by rw [← hsplit]; exact hx) hlen ((elements_none_iff _).1 he)
          rw [← hsplit] at this
          rw [this]
          simp only [expandSeq, he, List.map_cons, List.map_nil]
          rw [← hsplit]
        | some es =>
          have := hseq (x.take k) x[k] (x.drop (k+1)) es (by rw [← hsplit]; exact hx) hlen ((elements_iff _ _).1 he)
          rw [← hsplit] at this
          rw [this]
          simp only [expandSeq, he]
  have h := obs_ofItems_unit (expandOp (some (k : Int)))
    (by intro x; obtain ⟨ys, h, _⟩ := key x; rw [h]; rfl) xs
  simp only [obs, Prod.mk.injEq] at h
  rw [run_ofItems _ _ h.2, h.1]
  rw [show (expandOp (some (k : Int))).flush _ = ⟨(), [.flush], none⟩ from rfl]
  congr 2
  clear h
  suffices H : ∀ zs : List (List PyVal), (∀ z ∈ zs, z ∈ xs) →
      (zs.flatMap fun x => ((expandOp (some (k : Int))).item () x).out) = ofItems (zs.flatMap E) from
    H xs (fun _ h => h)
  intro zs
  induction zs with
  | nil => intro _; rfl
  | cons x zs ih =>
    intro hz
    rw [List.flatMap_cons, List.flatMap_cons, ofItems_append, ih (fun y hy => hz y (by simp [hy]))]
    congr 1
    obtain ⟨ys, h, he⟩ := key x
    rw [h, he (hz x (by simp))]

/-- **C14.** A negative position ends the command with an assertion failure on the first item. -/
theorem C14_expand_negative (p : Int) (hp : p < 0) (x : List PyVal) (es : List (Ev (List PyVal))) :
    (expandOp (some p)).run (.item x :: es) = ([], some .crash) := by
  have h1 : ¬ (p ≥ x.length) := by omega
  simp only [run, obs, List.cons_append, feed_cons, step_item]
  simp [expandOp, h1, hp, catchKare]

/-- **C14.** `squish f`: each item is replaced by the fold of its components (starting from None), or by an
error if `f` raises on the way. -/
theorem C14_squish (f : PyVal → PyVal → Except Msg PyVal) (xs : List (List PyVal))
    (I : PyVal → List PyVal) (hI : ∀ v, ItemOf v (I v)) :
    (squishOp f).run (ofItems xs) =
      (xs.map (fun x => match x.foldlM f PyVal.none with
        | .ok v => Ev.item (I v)
        | .error m => .err m) ++ [.flush], none) := by
  obtain rfl : PyVal.wrap = I := funext fun v => wrap_itemOf (hI v)
  have h := obs_ofItems_unit (squishOp f)
    (by intro x; simp only [squishOp, catchKare_exn]; cases x.foldlM f PyVal.none <;> simp [fatal]) xs
  simp only [obs, Prod.mk.injEq] at h
  rw [run_ofItems _ _ h.2, h.1]
  rw [show (squishOp f).flush _ = ⟨(), [.flush], none⟩ from rfl]
  congr 2
  clear h
  induction xs with
  | nil => rfl
  | cons x xs ih =>
    rw [List.flatMap_cons, List.map_cons, ih]
    simp only [squishOp]
    cases x.foldlM f PyVal.none <;> simp [fatal]

/-- ('a', [1, 2], 'f'), ('c', [], 'z'), (8,) from the documentation of expand. -/
def expandDemo : List (List PyVal) :=
  [[.atom 10, .lst [.atom 1, .atom 2], .atom 11], [.atom 12, .lst [], .atom 13], [.atom 8]]

example : (expandOp (some 1)).run (ofItems expandDemo) =
    ([.item [.atom 10, .atom 1, .atom 11], .item [.atom 10, .atom 2, .atom 11], .item [.atom 8], .flush], none) := rfl
example : (expandOp none).run (ofItems [[.lst [.atom 1, .tup [.atom 2, .atom 3]]], [.atom 5, .atom 6]]) =
    ([.item [.atom 1], .item [.atom 2, .atom 3], .item [.atom 5], .item [.atom 6], .flush], none) := rfl
example : ExpandsTo [.lst [.atom 1, .atom 2]] [.atom 1, .atom 2] := Or.inl ⟨_, _, rfl, .lst _, rfl⟩
example : ExpandsTo [.atom 1, .atom 2] [.atom 1, .atom 2] := Or.inr ⟨by intro v es h; simp at h, rfl⟩

end Marcel
