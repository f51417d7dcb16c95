import Verif.Model.PyDict

/-! Lemmas about dictionaries. -/
namespace Marcel
namespace Dict
variable {κ ν : Type} [DecidableEq κ]

@[simp] theorem get?_nil (k : κ) : get? ([] : Dict κ ν) k = none := rfl
theorem get?_cons (k' : κ) (v : ν) (d : Dict κ ν) (k : κ) :
    get? ((k', v) :: d) k = if k' = k then some v else get? d k := rfl

theorem get?_set (d : Dict κ ν) (k k' : κ) (v : ν) :
    (d.set k v).get? k' = if k = k' then some v else d.get? k' := by
  induction d with
  | nil => simp [set, get?_cons]
  | cons a d ih =>
    obtain ⟨ka, va⟩ := a
    simp only [set]
    split
    · rename_i h; subst h; simp only [get?_cons]; split <;> rfl
    · rename_i h
      simp only [get?_cons, ih]
      by_cases h1 : ka = k'
      · subst h1; simp [Ne.symm h]
      · simp [h1]

theorem get?_isSome_iff (d : Dict κ ν) (k : κ) : (d.get? k).isSome ↔ k ∈ d.keys := by
  induction d with
  | nil => simp [keys]
  | cons a d ih =>
    obtain ⟨ka, va⟩ := a
    simp only [get?_cons, keys, List.map_cons, List.mem_cons] at ih ⊢
    by_cases h : ka = k
    · simp [h]
    · simp [h, Ne.symm h, ih]

theorem get?_eq_none_iff (d : Dict κ ν) (k : κ) : d.get? k = none ↔ k ∉ d.keys := by
  rw [← get?_isSome_iff]; cases d.get? k <;> simp

theorem keys_set (d : Dict κ ν) (k : κ) (v : ν) :
    (d.set k v).keys = if k ∈ d.keys then d.keys else d.keys ++ [k] := by
  induction d with
  | nil => simp [set, keys]
  | cons a d ih =>
    obtain ⟨ka, va⟩ := a
    simp only [set]
    by_cases h : ka = k
    · simp [h, keys]
    · simp only [h, if_false, keys, List.map_cons, List.mem_cons, Ne.symm h, false_or] at ih ⊢
      rw [ih]; by_cases hk : k ∈ List.map (fun x => x.1) d <;> simp [hk]

theorem nodup_keys_set (d : Dict κ ν) (k : κ) (v : ν) (h : d.keys.Nodup) : (d.set k v).keys.Nodup := by
  rw [keys_set]; split
  · exact h
  · rename_i hk
    rw [List.nodup_append]
    refine ⟨h, by simp, ?_⟩
    intro a ha b hb
    simp at hb; subst hb
    rintro rfl; exact hk ha

theorem get?_erase (d : Dict κ ν) (k k' : κ) (h : d.keys.Nodup) :
    (d.erase k).get? k' = if k = k' then none else d.get? k' := by
  induction d with
  | nil => simp [erase]
  | cons a d ih =>
    obtain ⟨ka, va⟩ := a
    simp only [keys, List.map_cons, List.nodup_cons] at h
    simp only [erase]
    by_cases h1 : ka = k
    · subst h1
      simp only [if_true, get?_cons]
      by_cases h2 : ka = k'
      · subst h2; simp only [if_true]; rw [get?_eq_none_iff]; exact h.1
      · simp [h2]
    · simp only [h1, if_false, get?_cons, ih h.2]
      by_cases h2 : ka = k'
      · subst h2; simp [Ne.symm h1]
      · simp [h2]

theorem keys_erase_sublist (d : Dict κ ν) (k : κ) : (d.erase k).keys.Sublist d.keys := by
  induction d with
  | nil => simp [erase, keys]
  | cons a d ih =>
    obtain ⟨ka, va⟩ := a
    simp only [erase]
    split
    · exact List.sublist_cons_self _ _
    · exact ih.cons_cons ka

theorem nodup_keys_erase (d : Dict κ ν) (k : κ) (h : d.keys.Nodup) : (d.erase k).keys.Nodup :=
  h.sublist (keys_erase_sublist d k)

theorem mem_of_get? (d : Dict κ ν) (k : κ) (v : ν) (h : d.get? k = some v) : (k, v) ∈ d := by
  induction d with
  | nil => simp at h
  | cons a d ih =>
    obtain ⟨ka, va⟩ := a
    rw [get?_cons] at h
    split at h
    · rename_i hk; subst hk; simp at h; simp [h]
    · simp [ih h]

theorem get?_of_mem (d : Dict κ ν) (k : κ) (v : ν) (hn : d.keys.Nodup) (h : (k, v) ∈ d) :
    d.get? k = some v := by
  induction d with
  | nil => simp at h
  | cons a d ih =>
    obtain ⟨ka, va⟩ := a
    simp only [keys, List.map_cons, List.nodup_cons] at hn
    rw [get?_cons]
    rcases List.mem_cons.1 h with h | h
    · cases h; simp
    · have : ka ≠ k := by
        rintro rfl; exact hn.1 (List.mem_map.2 ⟨_, h, rfl⟩)
      simp [this, ih hn.2 h]

/-- A dictionary computed from a duplicate-free list of keys. -/
theorem get?_map_key (ks : List κ) (f : κ → ν) (k : κ) :
    get? (ks.map fun k => (k, f k)) k = if k ∈ ks then some (f k) else none := by
  induction ks with
  | nil => simp
  | cons a ks ih =>
    simp only [List.map_cons, get?_cons, ih, List.mem_cons]
    by_cases h : a = k
    · subst h; simp
    · simp [h, Ne.symm h]

theorem set_map_key (ks : List κ) (f : κ → ν) (k : κ) (v : ν) (hn : ks.Nodup) :
    set (ks.map fun k => (k, f k)) k v =
      (if k ∈ ks then ks else ks ++ [k]).map fun k' => (k', if k' = k then v else f k') := by
  induction ks with
  | nil => simp [set]
  | cons a ks ih =>
    rw [List.nodup_cons] at hn
    simp only [List.map_cons, set]
    by_cases h : a = k
    · subst h
      simp only [if_true, List.mem_cons, true_or, List.map_cons]
      congr 1
      apply List.map_congr_left
      intro b hb
      have : b ≠ a := by rintro rfl; exact hn.1 hb
      simp [this]
    · simp only [h, if_false, ih hn.2, List.mem_cons, Ne.symm h, false_or]
      split <;> simp [h]

end Dict
end Marcel
