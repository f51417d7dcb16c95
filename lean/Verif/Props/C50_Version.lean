import Verif.Model.Version
/-! # C50: the version file -/

namespace Marcel.Version

/-! ## Specification -/

/-- A version: its numbers, each given by its decimal digits. -/
abbrev Ver := List (List (Fin 10))

/-- The value of a number. -/
def val (ds : List (Fin 10)) : Nat := ds.foldl (fun n d => 10 * n + d.val) 0

/-- A version is smaller than another: at the first number where they differ. -/
def Older : List Nat → List Nat → Prop
  | [], [] => False
  | [], _ :: _ => True
  | _ :: _, [] => False
  | a :: v, b :: w => a < b ∨ (a = b ∧ Older v w)

/-- The version as a string: the numbers, with `.` between them. -/
def render : Ver → Str
  | [] => []
  | [n] => n.map fun d => 48 + d.val
  | n :: m :: v => (n.map fun d => 48 + d.val) ++ 46 :: render (m :: v)

/-- Two versions have as many numbers, of the same lengths. -/
def SameWidth (v w : Ver) : Prop := v.map List.length = w.map List.length

/-! ## Proofs -/

theorem foldl_val (ds : List (Fin 10)) (n : Nat) :
    ds.foldl (fun n d => 10 * n + d.val) n = n * 10 ^ ds.length + val ds := by
  unfold val
  induction ds generalizing n with
  | nil => simp
  | cons d ds ih =>
    simp only [List.foldl_cons, List.length_cons]
    rw [ih (10 * n + d.val), ih (10 * 0 + d.val), Nat.pow_succ, Nat.mul_comm (10 ^ ds.length) 10]
    simp only [Nat.mul_zero, Nat.zero_add, Nat.add_mul]
    rw [Nat.mul_comm 10 n, Nat.mul_assoc]
    omega

theorem val_cons (d : Fin 10) (ds : List (Fin 10)) : val (d :: ds) = d.val * 10 ^ ds.length + val ds := by
  have := foldl_val ds d.val
  simpa [val] using this

theorem val_lt (ds : List (Fin 10)) : val ds < 10 ^ ds.length := by
  induction ds with
  | nil => simp [val]
  | cons d ds ih =>
    rw [val_cons, List.length_cons, Nat.pow_succ]
    have := d.isLt
    have h : d.val * 10 ^ ds.length ≤ 9 * 10 ^ ds.length := Nat.mul_le_mul_right _ (by omega)
    omega

/-- Comparing two numbers of the same length, followed by the rest. -/
theorem strLt_num (a b : List (Fin 10)) (h : a.length = b.length) (s t : Str) :
    strLt ((a.map fun d => 48 + d.val) ++ s) ((b.map fun d => 48 + d.val) ++ t) = true ↔
      val a < val b ∨ (val a = val b ∧ strLt s t = true) := by
  induction a generalizing b with
  | nil =>
    cases b with
    | nil => simp
    | cons y b => simp at h
  | cons x a ih =>
    cases b with
    | nil => simp at h
    | cons y b =>
      simp only [List.length_cons, Nat.add_right_cancel_iff] at h
      simp only [List.map_cons, List.cons_append, strLt]
      rw [val_cons, val_cons, h]
      have ha := val_lt a
      have hb := val_lt b
      rw [h] at ha
      have hxy : ∀ u v : Nat, u < v → u * 10 ^ b.length + 10 ^ b.length ≤ v * 10 ^ b.length := by
        intro u v huv
        rw [← Nat.succ_mul]
        exact Nat.mul_le_mul_right _ huv
      by_cases h1 : x.val < y.val
      · rw [if_pos (by omega)]
        have := hxy _ _ h1
        simp only [true_iff]
        left; omega
      · rw [if_neg (by omega)]
        by_cases h2 : y.val < x.val
        · rw [if_pos (by omega)]
          have := hxy _ _ h2
          simp only [Bool.false_eq_true, false_iff, not_or, not_and]
          constructor
          · omega
          · intro e; omega
        · rw [if_neg (by omega), ih b h]
          have : x.val = y.val := by omega
          rw [this]
          constructor
          · rintro (h | ⟨h, h'⟩)
            · left; omega
            · right; exact ⟨by omega, h'⟩
          · rintro (h | ⟨h, h'⟩)
            · left; omega
            · right; exact ⟨by omega, h'⟩

/-- **C50**. The comparison of version strings is the comparison of the versions, for versions with numbers of the same lengths. -/
theorem C50_partial (v w : Ver) (h : SameWidth v w) : strLt (render v) (render w) = true ↔ Older (v.map val) (w.map val) := by
  unfold SameWidth at h
  induction v generalizing w with
  | nil => cases w <;> simp [render, strLt, Older] at h ⊢
  | cons a v ih =>
    cases w with
    | nil => simp at h
    | cons b w =>
      simp only [List.map_cons, List.cons.injEq] at h
      cases v with
      | nil =>
        cases w with
        | nil =>
          have := strLt_num a b h.1 [] []
          simp only [List.append_nil] at this
          simp only [render, List.map_cons, List.map_nil, Older]
          rw [this]
          simp [strLt]
        | cons _ _ => simp at h
      | cons a' v =>
        cases w with
        | nil => simp at h
        | cons b' w =>
          rw [render, render, strLt_num a b h.1]
          simp only [List.map_cons, Older]
          have := ih (b' :: w) h.2
          simp only [List.map_cons, Older] at this
          rw [← this]
          simp [strLt]

/-- **C50**. The same for a version with further numbers: 0.3 is older than 0.3.1, and 0.3.1 is not older than 0.3. -/
theorem C50_extended_partial (v w : Ver) (hne : v ≠ []) (h : v.map List.length <+: w.map List.length) :
    (strLt (render v) (render w) = true ↔ Older (v.map val) (w.map val)) ∧
    (strLt (render w) (render v) = true ↔ Older (w.map val) (v.map val)) := by
  induction v generalizing w with
  | nil => exact absurd rfl hne
  | cons a v ih =>
    cases w with
    | nil => simp at h
    | cons b w =>
      simp only [List.map_cons, List.cons_prefix_cons] at h
      cases v with
      | nil =>
        cases w with
        | nil =>
          have h1 := strLt_num a b h.1 [] []
          have h2 := strLt_num b a h.1.symm [] []
          simp only [List.append_nil] at h1 h2
          simp only [render, List.map_cons, List.map_nil, Older]
          rw [h1, h2]
          simp [strLt]
        | cons b' w =>
          have h1 := strLt_num a b h.1 [] (46 :: render (b' :: w))
          have h2 := strLt_num b a h.1.symm (46 :: render (b' :: w)) []
          simp only [List.append_nil] at h1 h2
          simp only [render, List.map_cons, List.map_nil, Older]
          rw [h1, h2]
          simp [strLt]
      | cons a' v =>
        cases w with
        | nil => simp at h
        | cons b' w =>
          rw [render, render, strLt_num a b h.1, strLt_num b a h.1.symm]
          simp only [List.map_cons, Older]
          have := ih (b' :: w) (by simp) h.2
          simp only [List.map_cons, Older] at this
          rw [← this.1, ← this.2]
          simp [strLt]

example : ([[0], [3]] : Ver).map List.length <+: ([[0], [3], [1]] : Ver).map List.length ∧ Older (([[0], [3]] : Ver).map val) (([[0], [3], [1]] : Ver).map val) := by
  refine ⟨by decide, by simp [Older]⟩

/-- **C50**. Without a version file, the version file is written if the running version is newer than 0.0.0, and not otherwise. -/
theorem C50_first_partial (v : Ver) (h : SameWidth [[0], [0], [0]] v ∨ SameWidth [[0], [0, 0], [0]] v) :
    (Older [0, 0, 0] (v.map val) → start (render v) none = some (render v)) ∧
    (SameWidth [[0], [0], [0]] v → ¬ Older [0, 0, 0] (v.map val) → start (render v) none = none) := by
  have hz : zero = render [[0], [0], [0]] := by decide
  have h0 : ([[0], [0], [0]] : Ver).map val = [0, 0, 0] := by decide
  constructor
  · intro ho
    unfold start installed
    simp only [Option.getD_none]
    rw [if_pos]
    rcases h with h | h
    · rw [hz, C50_partial _ v h, h0]; exact ho
    · match v, h with
      | [[a], [b, c], [d]], _ =>
        simp only [List.map_cons, List.map_nil, Older, val, List.foldl_cons, List.foldl_nil] at ho
        simp only [zero, render, List.map_cons, List.map_nil, List.cons_append, List.nil_append, strLt]
        by_cases ha : 0 < a.val
        · rw [if_pos (by omega)]
        · rw [if_neg (by omega), if_neg (by omega), if_neg (by omega), if_neg (by omega)]
          by_cases hb : 0 < b.val
          · rw [if_pos (by omega)]
          · rw [if_neg (by omega), if_neg (by omega)]
            rw [if_pos (by omega)]
  · intro h ho
    unfold start installed
    simp only [Option.getD_none]
    rw [if_neg]
    rw [hz, C50_partial _ v h, h0]; exact ho

example : SameWidth [[0], [0, 0], [0]] [[0], [3, 8], [0]] ∧ Older [0, 0, 0] (([[0], [3, 8], [0]] : Ver).map val) := by
  refine ⟨rfl, ?_⟩
  simp [Older, val]
  decide

theorem older_irrefl : ∀ v, ¬ Older v v
  | [] => id
  | a :: v => by
    simp only [Older, not_or, not_and]
    exact ⟨by omega, fun _ => older_irrefl v⟩

theorem older_trans : ∀ u v w, u.length = v.length → v.length = w.length → Older u v → Older v w → Older u w
  | [], [], w, _, _, h, _ => absurd h id
  | [], _ :: _, _, h, _, _, _ => by simp at h
  | _ :: _, [], _, h, _, _, _ => by simp at h
  | _ :: _, _ :: _, [], _, h, _, _ => by simp at h
  | a :: u, b :: v, c :: w, h1, h2, h3, h4 => by
    simp only [Older] at h3 h4 ⊢
    simp only [List.length_cons, Nat.add_right_cancel_iff] at h1 h2
    rcases h3 with h3 | ⟨h3, h3'⟩ <;> rcases h4 with h4 | ⟨h4, h4'⟩
    · left; omega
    · left; omega
    · left; omega
    · right; exact ⟨by omega, older_trans u v w h1 h2 h3' h4'⟩

theorem older_total : ∀ u v, u.length = v.length → ¬ Older u v → u = v ∨ Older v u
  | [], [], _, _ => .inl rfl
  | [], _ :: _, h, _ => by simp at h
  | _ :: _, [], h, _ => by simp at h
  | a :: u, b :: v, h, hn => by
    simp only [Older, not_or, not_and] at hn ⊢
    simp only [List.length_cons, Nat.add_right_cancel_iff] at h
    by_cases hab : a = b
    · subst hab
      rcases older_total u v h (hn.2 rfl) with e | e
      · left; rw [e]
      · right; right; exact ⟨rfl, e⟩
    · right; left; omega

/-- **C50**. After any sequence of starts of marcel, with versions of the same width, the version file contains the newest version that was
started: none of them is newer. -/
theorem C50_history_partial (v0 : Ver) (vs : List Ver) (hw : ∀ v ∈ vs, SameWidth v0 v) :
    ∃ m ∈ v0 :: vs, vs.foldl (fun f v => start (render v) f) (some (render v0)) = some (render m) ∧
      ∀ v ∈ v0 :: vs, ¬ Older (m.map val) (v.map val) := by
  have hlen : ∀ {a b : Ver}, SameWidth a b → (a.map val).length = (b.map val).length := by
    intro a b h
    have := congrArg List.length h
    simpa using this
  induction vs generalizing v0 with
  | nil => exact ⟨v0, by simp, rfl, fun v hv => by simp at hv; subst hv; exact older_irrefl _⟩
  | cons v vs ih =>
    have hv : SameWidth v0 v := hw v (by simp)
    rw [List.foldl_cons]
    by_cases hlt : Older (v0.map val) (v.map val)
    · have hs : start (render v) (some (render v0)) = some (render v) := by
        unfold start installed
        simp only [Option.getD_some]
        rw [if_pos ((C50_partial v0 v hv).mpr hlt)]
      rw [hs]
      obtain ⟨m, hm, e, hmax⟩ := ih v (fun x hx => hv.symm.trans (hw x (by simp [hx])))
      have hmw : SameWidth v m := by
        rcases List.mem_cons.mp hm with rfl | hm
        · rfl
        · exact hv.symm.trans (hw m (by simp [hm]))
      refine ⟨m, List.mem_cons_of_mem _ hm, e, fun x hx => ?_⟩
      rcases List.mem_cons.mp hx with rfl | hx
      · intro h
        exact hmax v (by simp) (older_trans _ _ _ (hlen (hv.trans hmw)).symm (hlen hv) h hlt)
      · exact hmax x hx
    · have hs : start (render v) (some (render v0)) = some (render v0) := by
        unfold start installed
        simp only [Option.getD_some]
        rw [if_neg (by rw [C50_partial v0 v hv]; exact hlt)]
      rw [hs]
      obtain ⟨m, hm, e, hmax⟩ := ih v0 (fun x hx => hw x (by simp [hx]))
      have hmw : SameWidth v0 m := by
        rcases List.mem_cons.mp hm with rfl | hm
        · rfl
        · exact hw m (by simp [hm])
      refine ⟨m, ?_, e, fun x hx => ?_⟩
      · rcases List.mem_cons.mp hm with rfl | hm
        · simp
        · simp [hm]
      · rcases List.mem_cons.mp hx with rfl | hx
        · exact hmax x (by simp)
        · rcases List.mem_cons.mp hx with rfl | hx
          · intro h
            rcases older_total _ _ (hlen hv) hlt with e | h'
            · rw [← e] at h; exact hmax v0 (by simp) h
            · exact hmax v0 (by simp) (older_trans _ _ _ ((hlen hmw).symm.trans (hlen hv)) (hlen hv).symm h h')
          · exact hmax x (by simp [hx])

/-! ### Non-vacuity, and where the property fails -/

/-- 0.37.3 and 0.38.0 -/
example : SameWidth [[0], [3, 7], [3]] [[0], [3, 8], [0]] ∧ Older ([[0], [3, 7], [3]].map val) ([[0], [3, 8], [0]].map val) := by
  refine ⟨rfl, ?_⟩
  simp [Older, val]
  decide

/-- **C50 is false** in general: 0.10.0 is newer than 0.9.0, but smaller as a string, so the version file is not updated; and it is
overwritten with the older version when this is started again. -/
theorem C50_false : Older ([[0], [9], [0]].map val) ([[0], [1, 0], [0]].map val) ∧
    start (render [[0], [1, 0], [0]]) (some (render [[0], [9], [0]])) = some (render [[0], [9], [0]]) ∧
    start (render [[0], [9], [0]]) (some (render [[0], [1, 0], [0]])) = some (render [[0], [9], [0]]) := by
  refine ⟨by simp [Older, val], by decide, by decide⟩

end Marcel.Version
