import Verif.Model.Color
/-! # C89: A color scheme holds colours under the documented names only -/

namespace Marcel.Color

/-- The documented names (`help color`). -/
def documented : List String :=
  ["file_file", "file_dir", "file_link", "file_link_broken", "file_executable", "file_extension", "process_pid", "process_ppid", "process_status",
   "process_user", "process_command", "error", "help_reference", "help_bold", "help_italic", "help_name", "history_id", "history_command",
   "color_scheme_key", "color_scheme_value"]

/-- Values that can be used: nothing, a colour, or colours for extensions. -/
inductive Usable : Val → Prop
  | none : Usable .none
  | color (c : Color) : Usable (.color c)
  | dict (d : List (Text × Option Color)) (h : ∀ e ∈ d, ∃ c, e.2 = some c) : Usable (.dict d)

theorem accepted_iff (v : Val) : v.accepted = true ↔ Usable v := by
  cases v with
  | none => simp only [Val.accepted, true_iff]; exact .none
  | color c => simp only [Val.accepted, true_iff]; exact .color c
  | other => simp only [Val.accepted, Bool.false_eq_true, false_iff]; intro h; cases h
  | dict d =>
    simp only [Val.accepted, List.all_eq_true, Option.isSome_iff_exists]
    exact ⟨fun h => .dict d h, fun h => by cases h with | dict _ h => exact h⟩

theorem keys_iff (k : Text) : keys.contains k = true ↔ ∃ n ∈ documented, n.toList = k := by
  rw [List.contains_iff_mem]
  have h1 : ∀ x ∈ keys, ∃ n ∈ documented, n.toList = x := by decide +kernel
  have h2 : ∀ n ∈ documented, n.toList ∈ keys := by decide +kernel
  exact ⟨h1 k, fun ⟨n, hn, e⟩ => e ▸ h2 n hn⟩

theorem get_put (s : Scheme) (k x : Text) (v : Val) :
    (s.put k v).get? x = if x = k then (s.get? k).map fun _ => v else s.get? x := by
  induction s with
  | nil => simp [Scheme.put, Scheme.get?]
  | cons e s ih =>
    obtain ⟨k', v'⟩ := e
    have e1 : Scheme.put ((k', v') :: s) k v = (if k' = k then (k, v) else (k', v')) :: Scheme.put s k v := rfl
    rw [e1]
    by_cases h1 : k' = k
    · rw [if_pos h1]
      by_cases h2 : x = k
      · subst h2; simp [Scheme.get?, h1]
      · simp only [Scheme.get?, if_neg h2, h1, if_neg (show ¬ k = x from fun e => h2 e.symm)]
        rw [ih, if_neg h2]
    · rw [if_neg h1]
      by_cases h2 : x = k
      · subst h2
        simp only [Scheme.get?, if_neg h1, if_true]
        rw [ih, if_pos rfl]
      · by_cases h3 : k' = x
        · simp [Scheme.get?, h3, h2]
        · simp only [Scheme.get?, if_neg h3, if_neg h2]
          rw [ih, if_neg h2]

/-- Attributes are set one after the other; what is refused ends the shell. -/
def setAll : Scheme → List (Text × Val) → Option Scheme
  | s, [] => some s
  | s, (k, v) :: l => match s.setattr k v with
    | some s' => setAll s' l
    | none => none

/-- A color scheme as the code may leave it: a value under each documented name, nothing else. -/
def Sound (s : Scheme) : Prop :=
  (∀ n ∈ documented, ∃ v, s.get? n.toList = some v ∧ Usable v) ∧ ∀ k v, s.get? k = some v → ∃ n ∈ documented, n.toList = k

theorem sound_put (s : Scheme) (h : Sound s) (k : Text) (v : Val) (hv : Usable v) : Sound (s.put k v) := by
  constructor
  · intro n hn
    rw [get_put]
    obtain ⟨w, hw, hu⟩ := h.1 n hn
    split
    · next e => rw [← e, hw]; exact ⟨v, rfl, hv⟩
    · exact ⟨w, hw, hu⟩
  · intro x w hx
    rw [get_put] at hx
    split at hx
    · next e =>
      cases hg : s.get? k with
      | none => rw [hg] at hx; simp at hx
      | some u => rw [e]; exact h.2 k u hg
    · exact h.2 x w hx

theorem sound_new : Sound Scheme.new := by
  have e : ∀ (l : List Text) (k : Text), Scheme.get? (l.map fun x => (x, Val.none)) k = if l.contains k then some .none else Option.none := by
    intro l k
    induction l with
    | nil => rfl
    | cons a l ih =>
      simp only [List.map_cons, Scheme.get?, List.contains_cons]
      by_cases h : a = k
      · simp [h]
      · rw [if_neg h, ih]
        have : (k == a) = false := by simpa using fun x => h x.symm
        simp [this]
  constructor
  · intro n hn
    refine ⟨.none, ?_, .none⟩
    rw [Scheme.new, e, if_pos ((keys_iff _).2 ⟨n, hn, rfl⟩)]
  · intro k v hk
    rw [Scheme.new, e] at hk
    split at hk
    · next h => exact (keys_iff k).1 h
    · cases hk

/-- **C89** Setting an attribute is accepted exactly for documented names and usable values. Then that attribute has the value, and all others are as before. -/
theorem C89_set (s : Scheme) (hs : Sound s) (k : Text) (v : Val) :
    ((∃ s', s.setattr k v = some s') ↔ (∃ n ∈ documented, n.toList = k) ∧ Usable v) ∧
    ∀ s', s.setattr k v = some s' → s'.get? k = some v ∧ ∀ x, x ≠ k → s'.get? x = s.get? x := by
  have hc : (keys.contains k && v.accepted) = true ↔ (∃ n ∈ documented, n.toList = k) ∧ Usable v := by
    rw [Bool.and_eq_true, keys_iff, accepted_iff]
  constructor
  · rw [← hc]
    unfold Scheme.setattr
    split
    · next h => exact ⟨fun _ => h, fun _ => ⟨_, rfl⟩⟩
    · next h => exact ⟨(fun ⟨_, e⟩ => nomatch e), fun x => absurd x h⟩
  · intro s' h
    unfold Scheme.setattr at h
    split at h
    · next hcond =>
      cases h
      obtain ⟨⟨n, hn, e⟩, -⟩ := hc.1 hcond
      obtain ⟨w, hw, -⟩ := hs.1 n hn
      rw [e] at hw
      refine ⟨by rw [get_put, if_pos rfl, hw]; rfl, fun x hx => by rw [get_put, if_neg hx]⟩
    · cases h

/-- **C89** However often attributes are set, a color scheme has a usable value under each documented name and nothing else. -/
theorem C89_sound (l : List (Text × Val)) (s : Scheme) (h : setAll Scheme.new l = some s) : Sound s := by
  have key : ∀ (l : List (Text × Val)) (a : Scheme), Sound a → setAll a l = some s → Sound s := by
    intro l
    induction l with
    | nil => intro a ha h; cases h; exact ha
    | cons e l ih =>
      obtain ⟨k, v⟩ := e
      intro a ha h
      unfold setAll at h
      split at h
      · next s' hs' =>
        unfold Scheme.setattr at hs'
        split at hs'
        · next hcond =>
          cases hs'
          rw [Bool.and_eq_true, accepted_iff] at hcond
          exact ih _ (sound_put a ha k v hcond.2) h
        · cases hs'
      · cases h
  exact key l _ sound_new h

theorem setEntry_colors (d : List (Text × Option Color)) (h : ∀ e ∈ d, ∃ c, e.2 = some c) (ext : Text) (c : Color) :
    ∀ e ∈ setEntry d ext (some c), ∃ c, e.2 = some c := by
  induction d with
  | nil => intro e he; simp only [setEntry, List.mem_singleton] at he; exact ⟨c, by rw [he]⟩
  | cons a d ih =>
    obtain ⟨k, v⟩ := a
    unfold setEntry
    split
    · intro e he
      rcases List.mem_cons.1 he with rfl | he
      · exact ⟨c, rfl⟩
      · exact h e (by simp [he])
    · intro e he
      rcases List.mem_cons.1 he with rfl | he
      · exact h _ (by simp)
      · exact ih (fun x hx => h x (by simp [hx])) e he

theorem find_setEntry (d : List (Text × Option Color)) (ext x : Text) (v : Option Color) :
    (setEntry d ext v).lookup x = if x = ext then some v else d.lookup x := by
  induction d with
  | nil =>
    by_cases h : x = ext
    · simp [setEntry, List.lookup, h]
    · have : (x == ext) = false := by simpa using h
      simp [setEntry, List.lookup, h, this]
  | cons a d ih =>
    obtain ⟨k, w⟩ := a
    unfold setEntry
    split
    · next h =>
      subst h
      by_cases hx : x = k
      · subst hx; simp
      · have : (x == k) = false := by simpa using hx
        simp [List.lookup, this, hx]
    · next h =>
      by_cases hx : x = k
      · subst hx; simp [List.lookup, h]
      · have : (x == k) = false := by simpa using hx
        simp [List.lookup, this, ih]

/-- **C89** If there are colours for extensions, setting another one keeps the scheme sound and changes only this extension's colour. -/
theorem C89_extension (s : Scheme) (hs : Sound s) (d : List (Text × Option Color)) (hd : s.get? "file_extension".toList = some (.dict d)) (ext : Text) (c : Color) :
    ∃ s' d', s.setExtension ext (some c) = some s' ∧ Sound s' ∧ s'.get? "file_extension".toList = some (.dict d') ∧
      (∀ x, d'.lookup x = if x = ext then some (some c) else d.lookup x) ∧ ∀ k, k ≠ "file_extension".toList → s'.get? k = s.get? k := by
  refine ⟨s.put "file_extension".toList (.dict (setEntry d ext (some c))), setEntry d ext (some c), ?_, ?_, ?_, ?_, ?_⟩
  · simp only [Scheme.setExtension, hd]
  · apply sound_put s hs
    obtain ⟨v, hv, hu⟩ := hs.1 "file_extension" (by decide)
    rw [hd] at hv
    cases hv
    cases hu with
    | dict _ h => exact .dict _ (setEntry_colors d h ext c)
  · rw [get_put, if_pos rfl, hd]; rfl
  · exact fun x => find_setEntry d ext x (some c)
  · intro k hk; rw [get_put, if_neg hk]

/-- **C89 is false** for extensions: in a new color scheme no extension can be given a colour that way (the attempt is a Python error)… -/
theorem C89_false_new (ext : Text) (c : Color) : Scheme.new.setExtension ext (some c) = Option.none := by
  have : Scheme.new.get? "file_extension".toList = some .none := by decide +kernel
  unfold Scheme.setExtension
  rw [this]

theorem mem_setEntry (d : List (Text × Option Color)) (k : Text) (v : Option Color) : (k, v) ∈ setEntry d k v := by
  induction d with
  | nil => simp [setEntry]
  | cons a d ih =>
    by_cases hk : a.1 = k
    · simp [setEntry, hk]
    · simp only [setEntry, hk, if_false]
      exact List.mem_cons_of_mem _ ih

/-- … and where it can, it can be given something that is no colour. -/
theorem C89_false_unchecked (s : Scheme) (d : List (Text × Option Color)) (hd : s.get? "file_extension".toList = some (.dict d)) (ext : Text) :
    ∃ s', s.setExtension ext Option.none = some s' ∧ ¬ Sound s' := by
  refine ⟨s.put "file_extension".toList (.dict (setEntry d ext Option.none)), by simp only [Scheme.setExtension, hd], fun h => ?_⟩
  obtain ⟨v, hv, hu⟩ := h.1 "file_extension" (by decide)
  rw [get_put, if_pos rfl, hd] at hv
  simp only [Option.map_some, Option.some.injEq] at hv
  subst hv
  cases hu with
  | dict _ h =>
    have := mem_setEntry d ext Option.none
    obtain ⟨c, hc⟩ := h _ this
    cases hc

/-- The hypotheses can be met. -/
example : ∃ s, setAll Scheme.new [("error".toList, .color ⟨5, 0, 0, 1⟩), ("file_extension".toList, .dict [("py".toList, some ⟨0, 5, 0, 0⟩)])] = some s ∧
    s.get? "file_extension".toList = some (.dict [("py".toList, some ⟨0, 5, 0, 0⟩)]) := by
  refine ⟨(setAll Scheme.new [("error".toList, .color ⟨5, 0, 0, 1⟩), ("file_extension".toList, .dict [("py".toList, some ⟨0, 5, 0, 0⟩)])]).getD [], ?_, ?_⟩ <;> decide +kernel

end Marcel.Color
