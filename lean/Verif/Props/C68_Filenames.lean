import Verif.Spec.Filenames

/-! # C68: file name arguments give the existing files that they stand for -/

namespace Marcel.Filenames

theorem magic_eq (c : Str) : magic c = special c := by
  unfold magic special
  rw [Bool.eq_iff_iff]
  simp only [List.any_eq_true, Bool.or_eq_true, beq_iff_eq, List.contains_iff_mem]
  constructor
  · rintro ⟨x, hx, (rfl | rfl) | rfl⟩
    · exact .inl (.inl hx)
    · exact .inl (.inr hx)
    · exact .inr hx
  · rintro ((h | h) | h)
    · exact ⟨_, h, .inl (.inl rfl)⟩
    · exact ⟨_, h, .inl (.inr rfl)⟩
    · exact ⟨_, h, .inr rfl⟩

theorem place_eq (q : Path) : place q = canon q := rfl

/-! ## Splitting -/

theorem splitOn_ne (s : Str) : splitOn s ≠ [] := by
  cases s with
  | nil => simp [splitOn]
  | cons c s =>
    unfold splitOn
    split
    · simp
    · split <;> simp

theorem splitOn_name (c : Str) (h : '/' ∉ c) : splitOn c = [c] := by
  induction c with
  | nil => rfl
  | cons x c ih =>
    simp only [List.mem_cons, not_or] at h
    simp [splitOn, Ne.symm h.1, ih h.2]

theorem splitOn_slash (c s : Str) (h : '/' ∉ c) : splitOn (c ++ '/' :: s) = c :: splitOn s := by
  induction c with
  | nil => simp [splitOn]
  | cons x c ih =>
    simp only [List.mem_cons, not_or] at h
    simp [splitOn, Ne.symm h.1, ih h.2]

theorem splitOn_join (cs : List Str) (h : ∀ c ∈ cs, '/' ∉ c) (hne : cs ≠ []) : splitOn (join cs) = cs := by
  induction cs with
  | nil => exact absurd rfl hne
  | cons c cs ih =>
    cases cs with
    | nil => exact splitOn_name c (h c (by simp))
    | cons d cs =>
      show splitOn (c ++ '/' :: join (d :: cs)) = _
      rw [splitOn_slash _ _ (h c (by simp)), ih (fun x hx => h x (by simp [hx])) (by simp)]

theorem resolve_join {cs : List Str} (h : ∀ c ∈ cs, '\\' ∉ c) : '\\' ∉ join cs := by
  induction cs with
  | nil => simp [join]
  | cons c cs ih =>
    cases cs with
    | nil => exact h c (by simp)
    | cons d cs =>
      show '\\' ∉ c ++ '/' :: join (d :: cs)
      have := ih fun x hx => h x (by simp [hx])
      simp only [List.mem_append, List.mem_cons, not_or]
      exact ⟨h c (by simp), by decide, this⟩

theorem unescape_plain (s : Str) (h : '\\' ∉ s) : Tab.resolveEscapes s = s := by
  induction s with
  | nil => rfl
  | cons c s ih =>
    simp only [List.mem_cons, not_or] at h
    have hc : c ≠ '\\' := Ne.symm h.1
    cases s with
    | nil => simp [Tab.resolveEscapes, hc]
    | cons d s => rw [Tab.resolveEscapes.eq_3, if_neg hc, ih h.2]

/-! ## Going through names -/

/-- Neither nothing, nor `.`, nor `..`. -/
def Real (c : Str) : Prop := c ≠ [] ∧ c ≠ ['.'] ∧ c ≠ dotdot

theorem resolve_append (p : Path) (a b : List Str) : resolve p (a ++ b) = resolve (resolve p a) b := by simp [resolve, List.foldl_append]

theorem resolve_nil (p : Path) : resolve p [] = p := rfl

theorem resolve_cons (p : Path) (c : Str) (cs : List Str) : resolve p (c :: cs) = resolve (if c = [] ∨ c = ['.'] then p else if c = dotdot then p.dropLast else p ++ [c]) cs := rfl

theorem resolve_real (p : Path) (cs : List Str) (h : ∀ c ∈ cs, Real c) : resolve p cs = p ++ cs := by
  induction cs generalizing p with
  | nil => simp [resolve_nil]
  | cons c cs ih =>
    have hc := h c (by simp)
    rw [resolve_cons, if_neg (by simp [hc.1, hc.2.1]), if_neg hc.2.2, ih _ fun x hx => h x (by simp [hx])]
    simp

theorem canon_eq (p : Path) (h : ∀ c ∈ p, c ≠ [] ∧ c ≠ ['.']) : canon p = resolve [] p := by
  unfold canon resolve
  suffices ∀ q : Path, p.foldl (fun q c => if c = dotdot then q.dropLast else q ++ [c]) q =
      p.foldl (fun q c => if c = [] ∨ c = ['.'] then q else if c = dotdot then q.dropLast else q ++ [c]) q from this []
  induction p with
  | nil => intro q; rfl
  | cons c p ih =>
    intro q
    have hc := h c (by simp)
    simp only [List.foldl_cons]
    rw [ih fun x hx => h x (by simp [hx])]
    simp [hc]

theorem canon_append_real (p ns : Path) (h : ∀ c ∈ ns, c ≠ dotdot) : canon (p ++ ns) = canon p ++ ns := by
  unfold canon
  rw [List.foldl_append]
  generalize p.foldl _ [] = q
  induction ns generalizing q with
  | nil => simp
  | cons c ns ih =>
    rw [List.foldl_cons, if_neg (h c (by simp)), ih (fun x hx => h x (by simp [hx]))]
    simp

theorem canon_real (ns : Path) (h : ∀ c ∈ ns, c ≠ dotdot) : canon ns = ns := canon_append_real [] ns h

/-! ## Normalization of the text -/

theorem normLoop_abs (cs acc : List Str) (h : ∀ c ∈ acc, Real c) : normLoop true acc cs = resolve acc.reverse cs ∧ ∀ c ∈ normLoop true acc cs, Real c := by
  induction cs generalizing acc with
  | nil => exact ⟨by simp [normLoop, resolve_nil], by simpa [normLoop] using h⟩
  | cons c cs ih =>
    rw [resolve_cons]
    by_cases h1 : c = [] ∨ c = ['.']
    · rw [if_pos h1]
      have : normLoop true acc (c :: cs) = normLoop true acc cs := by simp [normLoop, h1]
      rw [this]
      exact ih acc h
    · rw [if_neg h1]
      have hh : acc.head? ≠ some dotdot := fun he => (h dotdot (List.mem_of_mem_head? he)).2.2 rfl
      by_cases h2 : c = dotdot
      · have : normLoop true acc (c :: cs) = normLoop true acc.tail cs := by
          subst h2
          simp [normLoop, dotdot] at hh ⊢
          exact fun he => absurd he hh
        rw [if_pos h2, this, List.dropLast_reverse]
        exact ih acc.tail fun x hx => h x (List.mem_of_mem_tail hx)
      · have : normLoop true acc (c :: cs) = normLoop true (c :: acc) cs := by simp [normLoop, h1, h2]
        rw [if_neg h2, this]
        have := ih (c :: acc) fun x hx => by
          rcases List.mem_cons.mp hx with rfl | hx
          · exact ⟨fun e => h1 (.inl e), fun e => h1 (.inr e), h2⟩
          · exact h x hx
        simpa using this

/-- `..` only at the beginning. -/
def UpFirst (l : List Str) : Prop := (l.Pairwise fun a b => b = dotdot → a = dotdot) ∧ ∀ c ∈ l, c ≠ [] ∧ c ≠ ['.']

theorem UpFirst.split {l : List Str} (h : UpFirst l) : ∃ k ns, l = List.replicate k dotdot ++ ns ∧ ∀ c ∈ ns, Real c := by
  induction l with
  | nil => exact ⟨0, [], rfl, by simp⟩
  | cons c l ih =>
    obtain ⟨h1, h2⟩ := h
    rw [List.pairwise_cons] at h1
    by_cases hc : c = dotdot
    · obtain ⟨k, ns, rfl, hns⟩ := ih ⟨h1.2, fun x hx => h2 x (by simp [hx])⟩
      exact ⟨k + 1, ns, by simp [List.replicate_succ, hc], hns⟩
    · refine ⟨0, c :: l, rfl, fun x hx => ?_⟩
      have hx2 := h2 x hx
      refine ⟨hx2.1, hx2.2, ?_⟩
      rcases List.mem_cons.mp hx with rfl | hx
      · exact hc
      · exact fun e => hc (h1.1 x hx e)

theorem normLoop_rel (cs acc : List Str) (h : UpFirst acc.reverse) :
    UpFirst (normLoop false acc cs) ∧ ∀ p, resolve p (normLoop false acc cs) = resolve (resolve p acc.reverse) cs := by
  induction cs generalizing acc with
  | nil => exact ⟨by simpa [normLoop] using h, fun p => by simp [normLoop, resolve_nil]⟩
  | cons c cs ih =>
    by_cases h1 : c = [] ∨ c = ['.']
    · have : normLoop false acc (c :: cs) = normLoop false acc cs := by simp [normLoop, h1]
      rw [this]
      obtain ⟨i1, i2⟩ := ih acc h
      exact ⟨i1, fun p => by rw [i2, resolve_cons, if_pos h1]⟩
    · have hreal : c ≠ [] ∧ c ≠ ['.'] := ⟨fun e => h1 (.inl e), fun e => h1 (.inr e)⟩
      have push : (c = dotdot → ∀ x ∈ acc, x = dotdot) → normLoop false acc (c :: cs) = normLoop false (c :: acc) cs →
          UpFirst (normLoop false acc (c :: cs)) ∧ ∀ p, resolve p (normLoop false acc (c :: cs)) = resolve (resolve p acc.reverse) (c :: cs) := by
        intro hall he
        rw [he]
        obtain ⟨i1, i2⟩ := ih (c :: acc) (by
          rw [List.reverse_cons]
          refine ⟨?_, ?_⟩
          · rw [List.pairwise_append]
            refine ⟨h.1, by simp, fun a ha b hb hbd => ?_⟩
            rw [List.mem_singleton] at hb
            subst hb
            exact hall hbd a (List.mem_reverse.mp ha)
          · intro x hx
            rcases List.mem_append.mp hx with hx | hx
            · exact h.2 x hx
            · rw [List.mem_singleton] at hx; subst hx; exact hreal)
        refine ⟨i1, fun p => ?_⟩
        rw [i2, List.reverse_cons, resolve_append]
        rfl
      by_cases h2 : c = dotdot
      · cases acc with
        | nil => exact push (fun _ => by simp) (by simp [normLoop, h1])
        | cons a acc =>
          by_cases ha : a = dotdot
          · refine push (fun _ x hx => ?_) (by subst ha; simp [normLoop, h1])
            rcases List.mem_cons.mp hx with rfl | hx
            · exact ha
            · have := h.1
              rw [List.reverse_cons, List.pairwise_append] at this
              exact this.2.2 x (List.mem_reverse.mpr hx) a (by simp) ha
          · have he : normLoop false (a :: acc) (c :: cs) = normLoop false acc cs := by
              rw [normLoop]
              rw [if_neg (by simpa using h1), if_neg (by simp [h2, ha])]
              rfl
            rw [he]
            have ha2 := h.2 a (by simp)
            have hu : UpFirst acc.reverse := by
              refine ⟨?_, fun x hx => h.2 x (by rw [List.reverse_cons]; exact List.mem_append.mpr (.inl hx))⟩
              have := h.1
              rw [List.reverse_cons, List.pairwise_append] at this
              exact this.1
            obtain ⟨i1, i2⟩ := ih acc hu
            refine ⟨i1, fun p => ?_⟩
            rw [i2, List.reverse_cons, resolve_append, resolve_cons (cs := cs), if_neg h1, if_pos h2, resolve_cons, if_neg (by simp [ha2]), if_neg ha, resolve_nil, List.dropLast_concat]
      · exact push (fun e => absurd e h2) (by simp [normLoop, h1, h2])

/-! ## Globbing -/

variable {t : Tree} {fnm : Str → Str → Bool}

theorem Tree.OK.noDots_list (ht : t.OK) (p d : Path) (h : t.kind (p ++ d) ≠ none) : ∀ c ∈ d, Real c := by
  suffices ∀ r : Path, t.kind (p ++ r.reverse) ≠ none → ∀ c ∈ r, Real c by
    intro c hc
    exact this d.reverse (by simpa using h) c (by simpa using hc)
  intro r
  induction r with
  | nil => simp
  | cons x r ih =>
    intro hk c hc
    rw [List.reverse_cons, ← List.append_assoc] at hk
    rcases List.mem_cons.mp hc with rfl | hc
    · have := ht.noDots _ _ hk
      exact ⟨this.2.1, this.2.2, this.1⟩
    · refine ih ?_ c hc
      rw [ht.parent _ _ hk]
      simp

theorem Tree.OK.dir_prefix (ht : t.OK) (p d : Path) (hd : d ≠ []) (h : t.kind (p ++ d) ≠ none) : t.kind p = some .dir := by
  suffices ∀ r : Path, r ≠ [] → t.kind (p ++ r.reverse) ≠ none → t.kind p = some .dir by
    exact this d.reverse (by simpa using hd) (by simpa using h)
  intro r
  induction r with
  | nil => intro h; exact absurd rfl h
  | cons x r ih =>
    intro _ hk
    rw [List.reverse_cons, ← List.append_assoc] at hk
    have := ht.parent _ _ hk
    cases r with
    | nil => simpa using this
    | cons y r => exact ih (by simp) (by rw [this]; simp)

theorem matches_nil {cs : List Str} (h : Matches fnm cs []) : cs = [] ∨ cs.getLast? = some ['*', '*'] := by
  generalize hp : ([] : Path) = p at h
  induction h with
  | nil => exact .inl rfl
  | name => cases hp
  | @deep cs p q _ ih =>
    have := List.append_eq_nil_iff.mp hp.symm
    right
    rcases ih this.2.symm with h | h
    · rw [h, this.2]; rfl
    · cases cs with
      | nil => rfl
      | cons c cs => simpa using h

/-- Globbing gives the paths that exist and match. -/
theorem mem_glob (ht : t.OK) (cs : List Str) (hcs : dotdot ∉ cs) (base : Path) (hb : t.kind (canon base) = some .dir) (q : Path) :
    q ∈ glob t fnm base cs ↔ ∃ rel, q = base ++ rel ∧ Matches fnm cs rel ∧ t.kind (canon base ++ rel) ≠ none ∧ (cs.getLast? = some ['*', '*'] → t.kind (canon base ++ rel) = some .dir) := by
  induction cs generalizing base q with
  | nil =>
    rw [glob, List.mem_singleton]
    constructor
    · rintro rfl
      exact ⟨[], by simp, .nil, by simp [hb], by simp⟩
    · rintro ⟨rel, rfl, hm, _⟩
      cases hm
      simp
  | cons c cs ih =>
    simp only [List.mem_cons, not_or] at hcs
    have hc : c ≠ dotdot := Ne.symm hcs.1
    have ih := ih hcs.2
    rw [glob, if_neg hc]
    by_cases hdeep : c = ['*', '*']
    · subst hdeep
      rw [if_pos rfl, List.mem_flatMap]
      constructor
      · rintro ⟨d, hd, hq⟩
        have hk := (ht.below_ _ d hb).mp hd
        have hdots := ht.noDots_list (canon base) d (by rw [hk]; simp)
        have hcb : canon (base ++ d) = canon base ++ d := canon_append_real base d fun x hx => (hdots x hx).2.2
        obtain ⟨rel, rfl, hm, hk2, hl⟩ := (ih (base ++ d) (by rw [hcb]; exact hk) q).mp hq
        rw [hcb, List.append_assoc] at hk2 hl
        refine ⟨d ++ rel, by simp, .deep hm, hk2, fun hl' => ?_⟩
        cases cs with
        | nil => cases hm; simpa using hk
        | cons c' cs => exact hl (by simpa using hl')
      · rintro ⟨rel, rfl, hm, hk, hl⟩
        cases hm with
        | name h _ _ => exact absurd rfl h
        | @deep _ p q' hm =>
          have hkp : t.kind (canon base ++ p) = some .dir := by
            by_cases hq : q' = []
            · subst hq
              rw [List.append_nil] at hl hk
              apply hl
              rcases matches_nil hm with rfl | h
              · rfl
              · cases cs with
                | nil => rfl
                | cons c' cs => simpa using h
            · exact ht.dir_prefix (canon base ++ p) q' hq (by rwa [List.append_assoc])
          have hdots := ht.noDots_list (canon base) p (by rw [hkp]; simp)
          have hcb : canon (base ++ p) = canon base ++ p := canon_append_real base p fun x hx => (hdots x hx).2.2
          refine ⟨p, (ht.below_ _ p hb).mpr hkp, ?_⟩
          refine (ih (base ++ p) (by rw [hcb]; exact hkp) _).mpr ⟨q', by simp, hm, ?_, ?_⟩
          · rw [hcb, List.append_assoc]; exact hk
          · intro h
            rw [hcb, List.append_assoc]
            apply hl
            cases cs with
            | nil => simp at h
            | cons c' cs => simpa using h
    · rw [if_neg hdeep]
      -- one name at a time
      have step : ∀ n : Str, n ≠ dotdot → ∀ q, ((if cs.isEmpty then t.exists_ (base ++ [n]) else t.isDir (base ++ [n])) = true ∧ q ∈ glob t fnm (base ++ [n]) cs) ↔
          ∃ rel, q = base ++ n :: rel ∧ Matches fnm cs rel ∧ t.kind (canon base ++ n :: rel) ≠ none ∧ (cs.getLast? = some ['*', '*'] → t.kind (canon base ++ n :: rel) = some .dir) := by
        intro n hn q
        have hcb : canon (base ++ [n]) = canon base ++ [n] := canon_append_real base [n] (by simpa using hn)
        cases cs with
        | nil =>
          simp only [List.isEmpty_nil, if_true, glob, List.mem_singleton]
          constructor
          · rintro ⟨he, rfl⟩
            unfold Tree.exists_ at he
            rw [hcb] at he
            exact ⟨[], rfl, .nil, by simpa [Option.isSome_iff_ne_none] using he, by simp⟩
          · rintro ⟨rel, rfl, hm, hk, _⟩
            cases hm
            unfold Tree.exists_
            rw [hcb]
            exact ⟨by simpa [Option.isSome_iff_ne_none] using hk, rfl⟩
        | cons c' cs =>
          simp only [List.isEmpty_cons, Bool.false_eq_true, if_false]
          have hd : t.isDir (base ++ [n]) = true ↔ t.kind (canon base ++ [n]) = some .dir := by
            unfold Tree.isDir
            rw [hcb, beq_iff_eq]
          constructor
          · rintro ⟨he, hq⟩
            have hk := hd.mp he
            obtain ⟨rel, rfl, hm, hk2, hl⟩ := (ih (base ++ [n]) (by rw [hcb]; exact hk) q).mp hq
            rw [hcb, List.append_assoc] at hk2 hl
            exact ⟨rel, by simp, hm, hk2, hl⟩
          · rintro ⟨rel, rfl, hm, hk, hl⟩
            have hk1 : t.kind (canon base ++ [n]) = some .dir := by
              by_cases hr : rel = []
              · subst hr
                rcases matches_nil hm with h | h
                · simp at h
                · exact hl h
              · exact ht.dir_prefix (canon base ++ [n]) rel hr (by rwa [List.append_assoc])
            refine ⟨hd.mpr hk1, (ih (base ++ [n]) (by rw [hcb]; exact hk1) _).mpr ⟨rel, by simp, hm, ?_, ?_⟩⟩
            · rw [hcb, List.append_assoc]; exact hk
            · rw [hcb, List.append_assoc]; exact hl
      have hlast : ∀ rel n, ((c :: cs).getLast? = some ['*', '*'] → t.kind (canon base ++ n :: rel) = some .dir) ↔ (cs.getLast? = some ['*', '*'] → t.kind (canon base ++ n :: rel) = some .dir) := by
        intro rel n
        cases cs with
        | nil => simp [hdeep]
        | cons c' cs => simp
      rw [magic_eq]
      rcases Bool.eq_false_or_eq_true (special c) with hm | hm
      · rw [if_pos hm, List.mem_flatMap]
        constructor
        · rintro ⟨n, hn, hq⟩
          rw [List.mem_filter] at hn
          obtain ⟨hn1, hn2⟩ := hn
          simp only [Bool.and_eq_true, Bool.or_eq_true] at hn2
          have hkn := (ht.names_ _ n hb).mp hn1
          have hnd := (ht.noDots _ _ hkn).1
          have hcb : canon (base ++ [n]) = canon base ++ [n] := canon_append_real base [n] (by simpa using hnd)
          have hcond : (if cs.isEmpty then t.exists_ (base ++ [n]) else t.isDir (base ++ [n])) = true := by
            rcases Bool.eq_false_or_eq_true cs.isEmpty with h | h
            · rw [if_pos h]
              unfold Tree.exists_
              rw [hcb]
              simpa [Option.isSome_iff_ne_none] using hkn
            · rw [if_neg (by simp [h])]
              rcases hn2.2 with h' | h'
              · rw [h] at h'; cases h'
              · exact h'
          obtain ⟨rel, h1, h2, h3, h4⟩ := (step n hnd q).mp ⟨hcond, hq⟩
          exact ⟨n :: rel, h1, .name hdeep (by rw [if_pos hm]; exact hn2.1) h2, h3, (hlast rel n).mpr h4⟩
        · rintro ⟨rel', h1, h2, h3, h4⟩
          cases h2 with
          | deep => exact absurd rfl hdeep
          | @name _ n _ rel _ hf h2 =>
            rw [if_pos hm] at hf
            have hkn : t.kind (canon base ++ [n]) ≠ none := by
              by_cases hr : rel = []
              · subst hr; exact h3
              · rw [ht.dir_prefix (canon base ++ [n]) rel hr (by rwa [List.append_assoc])]
                simp
            have hnd := (ht.noDots _ _ hkn).1
            obtain ⟨hcond, hq⟩ := (step n hnd q).mpr ⟨rel, h1, h2, h3, (hlast rel n).mp h4⟩
            refine ⟨n, List.mem_filter.mpr ⟨(ht.names_ _ n hb).mpr hkn, ?_⟩, hq⟩
            simp only [Bool.and_eq_true, Bool.or_eq_true]
            refine ⟨hf, ?_⟩
            rcases Bool.eq_false_or_eq_true cs.isEmpty with h | h
            · exact .inl h
            · right
              rwa [if_neg (by simp [h])] at hcond
      · rw [if_neg (by simp [hm])]
        constructor
        · intro hq
          by_cases hcond : (if cs.isEmpty then t.exists_ (base ++ [c]) else t.isDir (base ++ [c])) = true
          · rw [if_pos hcond] at hq
            obtain ⟨rel, h1, h2, h3, h4⟩ := (step c hc q).mp ⟨hcond, hq⟩
            exact ⟨c :: rel, h1, .name hdeep (by rw [if_neg (by simp [hm])]) h2, h3, (hlast rel c).mpr h4⟩
          · rw [if_neg hcond] at hq
            simp at hq
        · rintro ⟨rel', h1, h2, h3, h4⟩
          cases h2 with
          | deep => exact absurd rfl hdeep
          | @name _ n _ rel _ hf h2 =>
            rw [if_neg (by simp [hm])] at hf
            subst hf
            obtain ⟨hcond, hq⟩ := (step n hc q).mpr ⟨rel, h1, h2, h3, (hlast rel n).mp h4⟩
            rw [if_pos hcond]
            exact hq

theorem matches_literal {lit cs : List Str} (h : ∀ c ∈ lit, special c = false) (p : Path) : Matches fnm (lit ++ cs) p ↔ ∃ rel, p = lit ++ rel ∧ Matches fnm cs rel := by
  induction lit generalizing p with
  | nil => simp
  | cons c lit ih =>
    have hc := h c (by simp)
    have ih := ih fun x hx => h x (by simp [hx])
    have hne : c ≠ ['*', '*'] := by rintro rfl; exact absurd hc (by decide)
    constructor
    · intro hm
      generalize hl : c :: lit ++ cs = l at hm
      cases hm with
      | nil => simp at hl
      | deep => simp at hl; exact absurd hl.1 hne
      | name _ hf hm =>
        simp at hl
        obtain ⟨rfl, rfl⟩ := hl
        rw [if_neg (by simp [hc])] at hf
        subst hf
        obtain ⟨rel, rfl, hm'⟩ := (ih _).mp hm
        exact ⟨rel, rfl, hm'⟩
    · rintro ⟨rel, rfl, hm⟩
      exact .name hne (by rw [if_neg (by simp [hc])]) ((ih _).mpr ⟨rel, rfl, hm⟩)

/-- Globbing through a directory that exists, and up. -/
theorem glob_literal (ht : t.OK) (lit : Path) (cs : List Str) (hl : Literal lit) (base : Path) (hd : t.kind (canon base ++ lit) = some .dir) :
    glob t fnm base (lit ++ cs) = glob t fnm (base ++ lit) cs := by
  induction lit generalizing base with
  | nil => simp
  | cons c lit ih =>
    have hc := hl c (by simp)
    have hcb : canon (base ++ [c]) = canon base ++ [c] := canon_append_real base [c] (by simpa using hc.2.1)
    have hk : t.kind (canon base ++ [c]) = some .dir := by
      by_cases hlit : lit = []
      · subst hlit; exact hd
      · exact ht.dir_prefix (canon base ++ [c]) lit hlit (by rw [List.append_assoc]; show t.kind (canon base ++ c :: lit) ≠ none; rw [hd]; simp)
    have hcond : (if (lit ++ cs).isEmpty then t.exists_ (base ++ [c]) else t.isDir (base ++ [c])) = true := by
      unfold Tree.exists_ Tree.isDir
      rw [hcb, hk]
      split <;> rfl
    rw [List.cons_append, glob, if_neg hc.2.1, if_neg (by rintro rfl; exact absurd hc.1 (by decide)), if_neg (by simp [magic_eq, hc.1]), if_pos hcond,
      ih (fun x hx => hl x (by simp [hx])) (base ++ [c]) (by rw [hcb, List.append_assoc]; exact hd)]
    simp

theorem glob_up (k : Nat) (cs : List Str) (base : Path) : glob t fnm base (List.replicate k dotdot ++ cs) = glob t fnm (base ++ List.replicate k dotdot) cs := by
  induction k generalizing base with
  | zero => simp
  | succ k ih =>
    rw [List.replicate_succ, List.cons_append, glob, if_pos rfl, ih]
    simp

/-! ## Arguments -/

/-- What an argument becomes: a directory that exists, some `..`, and the rest. -/
theorem normalizePath_arg {cwd : Path} {home : Str → Option Path} {a : Arg} (ht : t.OK) (hcwd : Literal cwd) (hd : t.kind cwd = some .dir) (ha : a.OK home) :
    ∃ lit k ns, normalizePath cwd home a.text = some (1, lit ++ List.replicate k dotdot ++ ns) ∧ Literal lit ∧ t.kind lit = some .dir ∧ (∀ c ∈ ns, Real c) ∧
      a.pattern cwd home = canon (lit ++ List.replicate k dotdot) ++ ns ∧ (dotdot ∉ a.comps → k = 0) := by
  have hnilLit : Literal [] := by intro c hc; simp at hc
  obtain ⟨start, comps⟩ := a
  cases start with
  | root =>
    have hs := ha.slash
    have hsome := ha.some_ (by simp)
    have hesc : '\\' ∉ Arg.text ⟨.root, comps⟩ := by
      show '\\' ∉ '/' :: join comps
      simp only [List.mem_cons, not_or]
      exact ⟨by decide, resolve_join ha.escape⟩
    have hne : comps ≠ [] := by
      rcases hsome with h | ⟨c, cs, h, _⟩ <;> (simp only at h; rw [h]; simp)
    have hinit : initialSlashes ('/' :: join comps) = 1 := by
      have : ∀ s, join comps ≠ '/' :: s := by
        intro s
        rcases hsome with h | ⟨c, cs, h, hc⟩
        · simp only at h; subst h; simp [join]
        · simp only at h; subst h
          cases c with
          | nil => exact absurd rfl hc
          | cons x c =>
            have hx : x ≠ '/' := fun e => hs (x :: c) (by simp) (by simp [e])
            cases cs with
            | nil => simp [join, hx]
            | cons d cs => simp [join, hx]
      unfold initialSlashes
      split
      · rfl
      · rename_i h; simp at h; exact absurd h (this _)
      · rfl
      · rename_i h1 h2 h3; exact absurd rfl (h3 _)
    have hsplit : splitOn ('/' :: join comps) = [] :: comps := by
      rw [show '/' :: join comps = [] ++ '/' :: join comps from rfl, splitOn_slash _ _ (by simp), splitOn_join comps hs hne]
    obtain ⟨h1, h2⟩ := normLoop_abs ([] :: comps) [] (by simp)
    refine ⟨[], 0, normLoop true [] ([] :: comps), ?_, hnilLit, ht.root, h2, ?_, fun _ => rfl⟩
    · unfold normalizePath
      rw [unescape_plain _ hesc]
      show (match expanduser home (normpath ('/' :: join comps)).1 (normpath ('/' :: join comps)).2 with
        | none => none | some (0, cs) => some (1, cwd ++ cs) | some (n, cs) => some (n, cs)) = _
      unfold normpath
      simp only [hinit, hsplit]
      simp [expanduser]
    · show resolve [] comps = _
      rw [h1]
      rfl
  | here =>
    have hs := ha.slash
    have hsome := ha.some_ (by simp)
    have hesc : '\\' ∉ Arg.text ⟨.here, comps⟩ := resolve_join ha.escape
    have hne : comps ≠ [] := by
      rcases hsome with h | ⟨c, cs, h, _⟩ <;> (simp only at h; rw [h]; simp)
    have hinit : initialSlashes (join comps) = 0 := by
      have : ∀ s, join comps ≠ '/' :: s := by
        intro s
        rcases hsome with h | ⟨c, cs, h, hc⟩
        · simp only at h; subst h; simp [join]
        · simp only at h; subst h
          cases c with
          | nil => exact absurd rfl hc
          | cons x c =>
            have hx : x ≠ '/' := fun e => hs (x :: c) (by simp) (by simp [e])
            cases cs with
            | nil => simp [join, hx]
            | cons d cs => simp [join, hx]
      unfold initialSlashes
      split
      · rename_i h; exact absurd h (this _)
      · rename_i h; exact absurd h (this _)
      · rename_i h; exact absurd h (this _)
      · rfl
    have hsplit : splitOn (join comps) = comps := splitOn_join comps hs hne
    obtain ⟨h1, h2⟩ := normLoop_rel comps [] ⟨by simp, by simp⟩
    obtain ⟨k, ns, hk, hns⟩ := h1.split
    have hmem : ∀ (cs acc : List Str), ∀ x ∈ normLoop false acc cs, x ∈ cs ∨ x ∈ acc := by
      intro cs
      induction cs with
      | nil => intro acc x hx; simp [normLoop] at hx; exact .inr hx
      | cons c cs ih =>
        intro acc x hx
        unfold normLoop at hx
        split at hx
        · exact (ih acc x hx).imp (fun h => by simp [h]) id
        · split at hx
          · rcases ih _ x hx with h | h
            · simp [h]
            · rcases List.mem_cons.mp h with rfl | h
              · simp
              · exact .inr h
          · exact (ih _ x hx).imp (fun h => by simp [h]) List.mem_of_mem_tail
    refine ⟨cwd, k, ns, ?_, hcwd, hd, hns, ?_, ?_⟩
    · unfold normalizePath
      rw [unescape_plain _ hesc]
      show (match expanduser home (normpath (join comps)).1 (normpath (join comps)).2 with
        | none => none | some (0, cs) => some (1, cwd ++ cs) | some (n, cs) => some (n, cs)) = _
      unfold normpath
      simp only [hinit, hsplit]
      have hexp : expanduser home 0 (normLoop false [] comps) = some (0, normLoop false [] comps) := by
        unfold expanduser
        split
        · rename_i user cs0 _ hu
          rcases hmem comps [] ('~' :: user) (by rw [hu]; simp) with hm | hm
          · exact absurd (show ('~' :: user).head? = some '~' from rfl) (ha.tilde rfl _ hm)
          · simp at hm
        · rfl
      simp only [ne_eq, not_true_eq_false, decide_false]
      rw [hexp, hk]
      simp
    · show resolve cwd comps = _
      have h3 := h2 cwd
      rw [show resolve cwd ([] : List Str).reverse = cwd from rfl] at h3
      rw [← h3, hk]
      have hcw : resolve [] cwd = cwd := by
        rw [resolve_real [] cwd fun c hc => ⟨(hcwd c hc).2.2.1, (hcwd c hc).2.2.2, (hcwd c hc).2.1⟩]
        simp
      rw [← canon_append_real _ ns fun c hc => (hns c hc).2.2, canon_eq, List.append_assoc, resolve_append [], hcw]
      intro c hc
      rw [List.append_assoc] at hc
      rcases List.mem_append.mp hc with h | h
      · exact ⟨(hcwd c h).2.2.1, (hcwd c h).2.2.2⟩
      · exact h1.2 c (by rw [hk]; exact h)
    · intro hnd
      cases k with
      | zero => rfl
      | succ k =>
        rcases hmem comps [] dotdot (by rw [hk]; simp [List.replicate_succ]) with h | h
        · exact absurd h hnd
        · simp at h
  | home u =>
    obtain ⟨hu1, hu2, hnd, h, hh, hlit⟩ := ha.home_ u rfl
    have hs : ∀ c ∈ ('~' :: u) :: comps, '/' ∉ c := by
      intro c hc
      rcases List.mem_cons.mp hc with rfl | hc
      · simp only [List.mem_cons, not_or]; exact ⟨by decide, hu1⟩
      · exact ha.slash c hc
    have hesc : '\\' ∉ join (('~' :: u) :: comps) := resolve_join fun c hc => by
      rcases List.mem_cons.mp hc with rfl | hc
      · simp only [List.mem_cons, not_or]; exact ⟨by decide, hu2⟩
      · exact ha.escape c hc
    have hsplit := splitOn_join _ hs (by simp)
    have hinit : initialSlashes (join (('~' :: u) :: comps)) = 0 := by
      have : ∃ s, join (('~' :: u) :: comps) = '~' :: s := by
        cases comps with
        | nil => exact ⟨u, rfl⟩
        | cons d cs => exact ⟨_, rfl⟩
      obtain ⟨s, hs⟩ := this
      rw [hs]
      rfl
    have hloop : ∀ (cs acc : List Str), dotdot ∉ cs → (∀ c ∈ acc, Real c) → ∃ ns, normLoop false acc cs = acc.reverse ++ ns ∧ (∀ c ∈ ns, Real c) ∧ ∀ p, resolve p cs = p ++ ns := by
      intro cs
      induction cs with
      | nil => intro acc _ _; exact ⟨[], by simp [normLoop], by simp, fun p => by simp [resolve_nil]⟩
      | cons c cs ih =>
        intro acc hn hacc
        simp only [List.mem_cons, not_or] at hn
        by_cases h1 : c = [] ∨ c = ['.']
        · obtain ⟨ns, i1, i2, i3⟩ := ih acc hn.2 hacc
          exact ⟨ns, by rw [← i1]; simp [normLoop, h1], i2, fun p => by rw [resolve_cons, if_pos h1, i3]⟩
        · have hr : Real c := ⟨fun e => h1 (.inl e), fun e => h1 (.inr e), Ne.symm hn.1⟩
          obtain ⟨ns, i1, i2, i3⟩ := ih (c :: acc) hn.2 (by
            intro x hx
            rcases List.mem_cons.mp hx with rfl | hx
            · exact hr
            · exact hacc x hx)
          refine ⟨c :: ns, ?_, ?_, fun p => ?_⟩
          · have : normLoop false acc (c :: cs) = normLoop false (c :: acc) cs := by simp [normLoop, h1, Ne.symm hn.1]
            rw [this, i1]; simp
          · intro x hx
            rcases List.mem_cons.mp hx with rfl | hx
            · exact hr
            · exact i2 x hx
          · rw [resolve_cons, if_neg h1, if_neg (Ne.symm hn.1), i3]; simp
    have htr : Real ('~' :: u) := ⟨by simp, by simp, by simp [dotdot]⟩
    obtain ⟨ns, i1, i2, i3⟩ := hloop comps ['~' :: u] hnd (by simpa using htr)
    have hstep : normLoop false [] (('~' :: u) :: comps) = ('~' :: u) :: ns := by
      have : normLoop false [] (('~' :: u) :: comps) = normLoop false ['~' :: u] comps := by
        rw [normLoop, if_neg (by simp), if_pos (by simp)]
      rw [this, i1]
      rfl
    have hhr : ∀ c ∈ h, Real c := fun c hc => ⟨(hlit c hc).2.2.1, (hlit c hc).2.2.2, (hlit c hc).2.1⟩
    refine ⟨[], 0, h ++ ns, ?_, hnilLit, ht.root, ?_, ?_, fun _ => rfl⟩
    · unfold normalizePath
      show (match expanduser home (normpath (Tab.resolveEscapes (join (('~' :: u) :: comps)))).1 (normpath (Tab.resolveEscapes (join (('~' :: u) :: comps)))).2 with
        | none => none | some (0, cs) => some (1, cwd ++ cs) | some (n, cs) => some (n, cs)) = _
      rw [unescape_plain _ hesc]
      unfold normpath
      simp only [hinit, hsplit, ne_eq, not_true_eq_false, decide_false, hstep]
      simp [expanduser, hh]
    · intro c hc
      rcases List.mem_append.mp hc with hc | hc
      · exact hhr c hc
      · exact i2 c hc
    · show resolve ((home u).getD []) comps = _
      rw [hh, Option.getD_some, i3]
      rfl

theorem getLast?_append_ne_nil {α : Type} (l : List α) {m : List α} (h : m ≠ []) : (l ++ m).getLast? = m.getLast? := by
  rcases List.eq_nil_or_concat m with rfl | ⟨m', x, rfl⟩
  · exact absurd rfl h
  · rw [List.concat_eq_append, ← List.append_assoc]
    simp

/-- The paths that an argument gives. -/
theorem mem_glob_arg {cwd : Path} {home : Str → Option Path} {a : Arg} (ht : t.OK) (hcwd : Literal cwd) (hd : t.kind cwd = some .dir) (ha : a.OK home) :
    ∃ p, normalizePath cwd home a.text = some (1, p) ∧
      (∀ place, (∃ q ∈ glob t fnm [] p, canon q = place) ↔
        t.kind place ≠ none ∧ Matches fnm (a.pattern cwd home) place ∧ ((a.pattern cwd home).getLast? = some ['*', '*'] → t.kind place = some .dir)) ∧
      (dotdot ∉ a.comps → ∀ q ∈ glob t fnm [] p, canon q = q) := by
  obtain ⟨lit, k, ns, h1, hlit, hkl, hns, hpat, hk⟩ := normalizePath_arg ht hcwd hd ha
  have hlr : ∀ c ∈ lit, Real c := fun c hc => ⟨(hlit c hc).2.2.1, (hlit c hc).2.2.2, (hlit c hc).2.1⟩
  have hcl : canon lit = lit := canon_real lit fun c hc => (hlr c hc).2.2
  have hg : glob t fnm [] (lit ++ List.replicate k dotdot ++ ns) = glob t fnm (lit ++ List.replicate k dotdot) ns := by
    rw [List.append_assoc, glob_literal ht lit _ hlit [] (by simpa [canon] using hkl), List.nil_append, glob_up]
  -- going up from a directory
  have hup : ∀ k, t.kind (canon (lit ++ List.replicate k dotdot)) = some .dir ∧ ∃ s, lit = canon (lit ++ List.replicate k dotdot) ++ s := by
    intro k
    induction k with
    | zero => simp [hcl, hkl]
    | succ k ih =>
      obtain ⟨i1, s, i2⟩ := ih
      have : canon (lit ++ List.replicate (k + 1) dotdot) = (canon (lit ++ List.replicate k dotdot)).dropLast := by
        rw [List.replicate_succ', ← List.append_assoc]
        conv => lhs; unfold canon
        rw [List.foldl_append]
        rfl
      rw [this]
      generalize canon (lit ++ List.replicate k dotdot) = d at i1 i2
      rcases List.eq_nil_or_concat d with rfl | ⟨d', x, rfl⟩
      · exact ⟨i1, s, i2⟩
      · rw [List.concat_eq_append] at i1 i2 ⊢
        rw [List.dropLast_concat]
        exact ⟨ht.parent _ _ (by rw [i1]; simp), x :: s, by rw [i2]; simp⟩
  obtain ⟨hdir, s, hls⟩ := hup k
  have hmag : ∀ c ∈ canon (lit ++ List.replicate k dotdot), special c = false := fun c hc => (hlit c (by rw [hls]; simp [hc])).1
  have hmem := fun q => mem_glob (fnm := fnm) ht ns (fun hm => (hns _ hm).2.2 rfl) (lit ++ List.replicate k dotdot) hdir q
  refine ⟨_, h1, fun place => ?_, fun hnd q hq => ?_⟩
  · rw [hg, hpat]
    constructor
    · rintro ⟨q, hq, rfl⟩
      obtain ⟨rel, rfl, hm, hk2, hl⟩ := (hmem q).mp hq
      have hrel := ht.noDots_list _ rel hk2
      rw [canon_append_real _ rel fun c hc => (hrel c hc).2.2]
      refine ⟨hk2, (matches_literal hmag _).mpr ⟨rel, rfl, hm⟩, fun h => ?_⟩
      by_cases hns0 : ns = []
      · subst hns0
        cases hm
        simpa using hdir
      · apply hl
        rwa [getLast?_append_ne_nil _ hns0] at h
    · rintro ⟨hk2, hm, hl⟩
      obtain ⟨rel, rfl, hm'⟩ := (matches_literal hmag _).mp hm
      have hrel := ht.noDots_list _ rel hk2
      refine ⟨_, (hmem _).mpr ⟨rel, rfl, hm', hk2, fun h => hl ?_⟩, canon_append_real _ rel fun c hc => (hrel c hc).2.2⟩
      have hns0 : ns ≠ [] := by rintro rfl; simp at h
      rwa [getLast?_append_ne_nil _ hns0]
  · rw [hg] at hq
    obtain ⟨rel, rfl, hm, hk2, hl⟩ := (hmem q).mp hq
    have hrel := ht.noDots_list _ rel hk2
    have hk0 := hk hnd
    subst hk0
    rw [canon_append_real _ rel fun c hc => (hrel c hc).2.2]
    simp [hcl]

/-! ## Collecting -/

/-- What has been recorded is what is there, except for `/`. -/
structure Roots.OK (r : Roots) : Prop where
  once : (r.roots.filter (· ≠ [])).Nodup
  seen : ∀ p, p ∈ r.seen → p ∈ r.roots
  all : ∀ p, p ∈ r.roots → p ≠ [] → p ∈ r.seen

theorem addNew_ok {r : Roots} (h : r.OK) (ps : List Path) : (addNew r ps).OK ∧ ∀ p, p ∈ (addNew r ps).roots ↔ p ∈ r.roots ∨ p ∈ ps := by
  induction ps generalizing r with
  | nil => exact ⟨h, by simp [addNew]⟩
  | cons x ps ih =>
    unfold addNew
    by_cases hx : x ∈ r.seen
    · rw [if_pos (by simpa using hx)]
      obtain ⟨i1, i2⟩ := ih h
      refine ⟨i1, fun p => (i2 p).trans ?_⟩
      constructor
      · rintro (h' | h')
        · exact .inl h'
        · exact .inr (by simp [h'])
      · rintro (h' | h')
        · exact .inl h'
        · rcases List.mem_cons.mp h' with rfl | h'
          · exact .inl (h.seen _ hx)
          · exact .inr h'
    · rw [if_neg (by simpa using hx)]
      have hok : Roots.OK ⟨r.roots ++ [x], x :: r.seen⟩ := by
        refine ⟨?_, ?_, ?_⟩
        · rw [List.filter_append, List.nodup_append]
          refine ⟨h.once, ?_, ?_⟩
          · exact (show [x].Nodup by simp).filter _
          · intro a ha b hb he
            subst he
            rw [List.mem_filter] at ha hb
            rw [List.mem_singleton] at hb
            rw [hb.1] at ha
            exact hx (h.all x ha.1 (by simpa using ha.2))
        · intro p hp
          rcases List.mem_cons.mp hp with rfl | hp
          · simp
          · simp [h.seen p hp]
        · intro p hp hne
          rcases List.mem_append.mp hp with hp | hp
          · exact List.mem_cons.mpr (.inr (h.all p hp hne))
          · rw [List.mem_singleton] at hp; simp [hp]
      obtain ⟨i1, i2⟩ := ih hok
      refine ⟨i1, fun p => (i2 p).trans ?_⟩
      simp only [List.mem_append, List.mem_cons, List.not_mem_nil, or_false]
      constructor
      · rintro ((h' | h') | h')
        · exact .inl h'
        · exact .inr (.inl h')
        · exact .inr (.inr h')
      · rintro (h' | h' | h')
        · exact .inl (.inl h')
        · exact .inl (.inr h')
        · exact .inr h'

theorem collect_ok {r : Roots} (h : r.OK) (ps : List (Nat × Path)) (h1 : ∀ p ∈ ps, p.1 = 1) :
    ∃ r', collect t fnm r ps = some r' ∧ r'.OK ∧ ∀ q, q ∈ r'.roots ↔ q ∈ r.roots ∨ ∃ p ∈ ps, q ∈ glob t fnm [] p.2 := by
  induction ps generalizing r with
  | nil => exact ⟨r, rfl, h, by simp⟩
  | cons x ps ih =>
    obtain ⟨n, p⟩ := x
    have hn : n = 1 := h1 (n, p) (by simp)
    have h1' : ∀ p ∈ ps, p.1 = 1 := fun p hp => h1 p (by simp [hp])
    unfold collect
    rw [if_neg (by simp [hn])]
    by_cases hp : p = []
    · subst hp
      rw [if_pos rfl]
      obtain ⟨r', i1, i2, i3⟩ := ih (r := ⟨r.roots ++ [[]], r.seen⟩) ⟨by rw [List.filter_append]; simpa using h.once, fun p hp => by simp [h.seen p hp], fun p hp hne => by
        rcases List.mem_append.mp hp with hp | hp
        · exact h.all p hp hne
        · rw [List.mem_singleton] at hp; exact absurd hp hne⟩ h1'
      refine ⟨r', i1, i2, fun q => (i3 q).trans ?_⟩
      simp only [List.mem_append, List.mem_singleton]
      constructor
      · rintro ((h' | h') | ⟨p, hp, hq⟩)
        · exact .inl h'
        · exact .inr ⟨(n, []), by simp, by simp [glob, h']⟩
        · exact .inr ⟨p, by simp [hp], hq⟩
      · rintro (h' | ⟨p, hp, hq⟩)
        · exact .inl (.inl h')
        · rcases List.mem_cons.mp hp with rfl | hp
          · exact .inl (.inr (by simpa [glob] using hq))
          · exact .inr ⟨p, hp, hq⟩
    · rw [if_neg hp]
      obtain ⟨a1, a2⟩ := addNew_ok h (glob t fnm [] p)
      obtain ⟨r', i1, i2, i3⟩ := ih a1 h1'
      refine ⟨r', i1, i2, fun q => (i3 q).trans ?_⟩
      rw [a2]
      constructor
      · rintro ((h' | h') | ⟨p, hp, hq⟩)
        · exact .inl h'
        · exact .inr ⟨(n, p), by simp, h'⟩
        · exact .inr ⟨p, by simp [hp], hq⟩
      · rintro (h' | ⟨p, hp, hq⟩)
        · exact .inl (.inl h')
        · rcases List.mem_cons.mp hp with rfl | hp
          · exact .inl (.inr hq)
          · exact .inr ⟨p, hp, hq⟩

/-- **C68**: the arguments give exactly the places that exist and match one of them, each path (other than `/`) once; and the paths are without `..` if the arguments are.
Missing: arguments with backslashes, `~` elsewhere than at the beginning, `..` after `~`, or two slashes at the beginning (`Arg.OK`), and pattern characters in the name of the current directory (`Literal`):
see the theorems C68_false_... -/
theorem C68_paths_partial {cwd : Path} {home : Str → Option Path} (ht : t.OK) (hcwd : Literal cwd) (hd : t.kind cwd = some .dir) (args : List Arg) (ha : ∀ a ∈ args, a.OK home) :
    ∃ roots, normalize t fnm cwd home (args.map Arg.text) = some roots ∧
      (∀ x, (∃ q ∈ roots, place q = x) ↔ Denoted t fnm cwd home args x) ∧
      (roots.filter (· ≠ [])).Nodup ∧ ((∀ a ∈ args, dotdot ∉ a.comps) → ∀ q ∈ roots, place q = q) := by
  have hnp : ∃ ps, normalizePaths cwd home (args.map Arg.text) = some ps ∧ (∀ p ∈ ps, p.1 = 1) ∧
      (∀ place, (∃ p ∈ ps, ∃ q ∈ glob t fnm [] p.2, canon q = place) ↔ Denoted t fnm cwd home args place) ∧
      ((∀ a ∈ args, dotdot ∉ a.comps) → ∀ p ∈ ps, ∀ q ∈ glob t fnm [] p.2, canon q = q) := by
    induction args with
    | nil => exact ⟨[], rfl, by simp, by simp [Denoted], by simp⟩
    | cons a args ih =>
      obtain ⟨ps, i1, i2, i3, i4⟩ := ih fun b hb => ha b (by simp [hb])
      obtain ⟨p, h1, h2, h3⟩ := mem_glob_arg (fnm := fnm) ht hcwd hd (ha a (by simp))
      refine ⟨(1, p) :: ps, ?_, ?_, ?_, ?_⟩
      · simp [normalizePaths, h1, i1]
      · intro x hx
        rcases List.mem_cons.mp hx with rfl | hx
        · rfl
        · exact i2 x hx
      · intro place
        constructor
        · rintro ⟨x, hx, hq⟩
          rcases List.mem_cons.mp hx with rfl | hx
          · obtain ⟨j1, j2⟩ := (h2 place).mp hq
            exact ⟨j1, a, by simp, j2⟩
          · obtain ⟨j1, b, hb, j2⟩ := (i3 place).mp ⟨x, hx, hq⟩
            exact ⟨j1, b, by simp [hb], j2⟩
        · rintro ⟨j1, b, hb, j2⟩
          rcases List.mem_cons.mp hb with rfl | hb
          · exact ⟨(1, p), by simp, (h2 place).mpr ⟨j1, j2⟩⟩
          · obtain ⟨x, hx, hq⟩ := (i3 place).mpr ⟨j1, b, hb, j2⟩
            exact ⟨x, by simp [hx], hq⟩
      · intro hnd x hx q hq
        rcases List.mem_cons.mp hx with rfl | hx
        · exact h3 (hnd a (by simp)) q hq
        · exact i4 (fun b hb => hnd b (by simp [hb])) x hx q hq
  obtain ⟨ps, h1, h2, h3, h4⟩ := hnp
  obtain ⟨r, c1, c2, c3⟩ := collect_ok (t := t) (fnm := fnm) (r := {}) ⟨by simp, by simp, by simp⟩ ps h2
  refine ⟨r.roots, by unfold normalize; rw [h1]; simp only [c1]; rfl, fun place => ?_, c2.once, fun hnd q hq => ?_⟩
  · rw [← h3 place]
    constructor
    · rintro ⟨q, hq, he⟩
      rcases (c3 q).mp hq with h | ⟨p, hp, hg⟩
      · simp at h
      · exact ⟨p, hp, q, hg, he⟩
    · rintro ⟨p, hp, q, hg, he⟩
      exact ⟨q, (c3 q).mpr (.inr ⟨p, hp, hg⟩), he⟩
  · rcases (c3 q).mp hq with h | ⟨p, hp, hg⟩
    · simp at h
    · exact h4 hnd p hp q hg

theorem matches_plain {cs : List Str} (h : ∀ c ∈ cs, special c = false) (p : Path) : Matches fnm cs p ↔ p = cs := by
  have := matches_literal (fnm := fnm) (cs := []) h p
  rw [List.append_nil] at this
  rw [this]
  constructor
  · rintro ⟨rel, rfl, hm⟩
    cases hm
    simp
  · rintro rfl
    exact ⟨[], by simp, .nil⟩

/-- **C68**, a name without pattern characters gives the file with this name, if it exists, and otherwise nothing. -/
theorem C68_name_partial {cwd : Path} {home : Str → Option Path} (ht : t.OK) (hcwd : Literal cwd) (hd : t.kind cwd = some .dir) (a : Arg) (ha : a.OK home) (hlit : ∀ c ∈ a.pattern cwd home, special c = false)
    (hnd : dotdot ∉ a.comps) :
    normalize t fnm cwd home [a.text] = some (if (t.kind (a.pattern cwd home)).isSome then [a.pattern cwd home] else []) := by
  obtain ⟨roots, h1, h2, h3, h4⟩ := C68_paths_partial (fnm := fnm) ht hcwd hd [a] (by simpa using ha)
  have h4 := h4 (by simpa using hnd)
  rw [show [a.text] = [a].map Arg.text from rfl, h1]
  have hlast : (a.pattern cwd home).getLast? ≠ some ['*', '*'] := fun h => by
    have := hlit _ (List.mem_of_getLast? h)
    exact absurd this (by decide)
  have key : ∀ q, q ∈ roots ↔ q = a.pattern cwd home ∧ t.kind q ≠ none := by
    intro q
    constructor
    · intro hq
      obtain ⟨j1, b, hb, j2, _⟩ := (h2 q).mp ⟨q, hq, h4 q hq⟩
      rw [List.mem_singleton] at hb
      subst hb
      exact ⟨(matches_plain hlit q).mp j2, j1⟩
    · rintro ⟨rfl, hk⟩
      obtain ⟨q, hq, he⟩ := (h2 (a.pattern cwd home)).mpr ⟨hk, a, by simp, (matches_plain hlit _).mpr rfl, fun h => absurd h hlast⟩
      rwa [← he, h4 q hq]
  congr 1
  cases hk : t.kind (a.pattern cwd home) with
  | none =>
    rw [if_neg (by simp)]
    refine List.eq_nil_iff_forall_not_mem.mpr fun q hq => ?_
    obtain ⟨rfl, h⟩ := (key q).mp hq
    exact h hk
  | some x =>
    simp only [Option.isSome_some, if_true]
    by_cases hp : a.pattern cwd home = []
    · -- one argument: `/` once
      obtain ⟨p, n1, n2, _⟩ := mem_glob_arg (fnm := fnm) ht hcwd hd ha
      have hpe : p = [] := by
        obtain ⟨lit, k, ns, m1, hl, _, _, m5, m6⟩ := normalizePath_arg ht hcwd hd ha
        rw [n1] at m1
        injection m1 with m1
        injection m1 with _ m1
        have hk0 := m6 hnd
        subst hk0
        rw [hp, List.replicate_zero, List.append_nil] at m5
        rw [m1]
        obtain ⟨m5, rfl⟩ := List.append_eq_nil_iff.mp m5.symm
        simp only [List.replicate_zero, List.append_nil]
        rw [canon_real lit fun c hc => (hl c hc).2.1] at m5
        simpa using m5
      have : normalize t fnm cwd home [a.text] = some [[]] := by
        unfold normalize
        simp [normalizePaths, n1, hpe, collect]
      rw [show [a.text] = [a].map Arg.text from rfl, h1] at this
      rw [hp]
      exact Option.some.inj this
    · have hr : roots.filter (· ≠ []) = roots := List.filter_eq_self.mpr fun q hq => by
        obtain ⟨rfl, _⟩ := (key q).mp hq
        simpa using hp
      rw [hr] at h3
      cases roots with
      | nil => exact absurd ((key (a.pattern cwd home)).mpr ⟨rfl, by rw [hk]; simp⟩) (by simp)
      | cons q roots =>
        obtain ⟨rfl, _⟩ := (key q).mp (by simp)
        cases roots with
        | nil => rfl
        | cons q2 roots =>
          obtain ⟨e, _⟩ := (key q2).mp (by simp)
          rw [List.nodup_cons] at h3
          exact absurd (by simp [e]) h3.1

/-! ## A tree, to show that the hypotheses are met -/

/-- A tree given by its files and directories other than `/`. -/
def kindIn (l : List (Path × Kind)) (p : Path) : Option Kind := if p = [] then some .dir else (l.find? fun e => e.1 == p).map (·.2)

def treeOf (l : List (Path × Kind)) : Tree where
  kind := kindIn l
  names := fun p => l.filterMap fun e => if e.1.dropLast = p then e.1.getLast? else none
  below := fun p => [] :: l.filterMap fun e => if p.isPrefixOf e.1 && kindIn l e.1 == some .dir then some (e.1.drop p.length) else none

theorem kindIn_ne_none (l : List (Path × Kind)) (p : Path) (hp : p ≠ []) : kindIn l p ≠ none ↔ ∃ e ∈ l, e.1 = p := by
  unfold kindIn
  rw [if_neg hp]
  simp [Option.map_eq_none_iff, List.find?_eq_none]

theorem treeOf_ok (l : List (Path × Kind)) (h : ∀ e ∈ l, kindIn l e.1.dropLast = some .dir ∧ e.1.getLast? ≠ none ∧ e.1.getLast? ≠ some dotdot ∧ e.1.getLast? ≠ some [] ∧ e.1.getLast? ≠ some ['.']) :
    (treeOf l).OK where
  root := by simp [treeOf, kindIn]
  parent := by
    intro p n hk
    obtain ⟨e, he, h1⟩ := (kindIn_ne_none l _ (by simp)).mp hk
    have := (h e he).1
    rw [h1, List.dropLast_concat] at this
    exact this
  names_ := by
    intro p n _
    show n ∈ l.filterMap _ ↔ kindIn l _ ≠ none
    rw [kindIn_ne_none l _ (by simp), List.mem_filterMap]
    constructor
    · rintro ⟨e, he, h1⟩
      refine ⟨e, he, ?_⟩
      by_cases hd : e.1.dropLast = p
      · rw [if_pos hd] at h1
        obtain ⟨ys, hy⟩ := List.getLast?_eq_some_iff.mp h1
        rw [hy, List.dropLast_concat] at hd
        rw [hy, hd]
      · rw [if_neg hd] at h1
        cases h1
    · rintro ⟨e, he, h1⟩
      exact ⟨e, he, by rw [h1]; simp⟩
  below_ := by
    intro p d hp
    show d ∈ [] :: l.filterMap _ ↔ kindIn l _ = _
    rw [List.mem_cons, List.mem_filterMap]
    constructor
    · rintro (rfl | ⟨e, he, h1⟩)
      · rw [List.append_nil]; exact hp
      · by_cases hc : (p.isPrefixOf e.1 && kindIn l e.1 == some .dir) = true
        · rw [if_pos hc] at h1
          rw [Bool.and_eq_true, List.isPrefixOf_iff_prefix] at hc
          obtain ⟨⟨s, hs⟩, hk⟩ := hc
          injection h1 with h1
          rw [← hs, List.drop_left] at h1
          rw [← h1, hs]
          simpa using hk
        · rw [if_neg hc] at h1
          cases h1
    · intro hk
      by_cases hd : p ++ d = []
      · exact .inl (List.append_eq_nil_iff.mp hd).2
      · obtain ⟨e, he, h1⟩ := (kindIn_ne_none l _ hd).mp (by rw [hk]; simp)
        refine .inr ⟨e, he, ?_⟩
        rw [if_pos (by
          rw [Bool.and_eq_true, List.isPrefixOf_iff_prefix, h1]
          exact ⟨⟨d, rfl⟩, by rw [hk]; rfl⟩), h1, List.drop_left]
  noDots := by
    intro p n hk
    obtain ⟨e, he, h1⟩ := (kindIn_ne_none l _ (by simp)).mp hk
    obtain ⟨_, _, h2, h3, h4⟩ := h e he
    rw [h1, List.getLast?_concat] at h2 h3 h4
    exact ⟨fun h => h2 (by rw [h]), fun h => h3 (by rw [h]), fun h => h4 (by rw [h])⟩

/-- `/u` with a file `x` and a directory `w`, in which there are files `x` and `y`; `/[z]` with a file `x`; a file `/u/ab` and a file `/u/a\b`, a file `/u/~v`; `/x`. -/
def exFiles : List (Path × Kind) :=
  [([['u']], .dir), ([['u'], ['x']], .file), ([['u'], ['w']], .dir), ([['u'], ['w'], ['x']], .file), ([['u'], ['w'], ['y']], .file),
   ([['[', 'z', ']']], .dir), ([['[', 'z', ']'], ['x']], .file), ([['u'], ['a', 'b']], .file), ([['u'], ['a', '\\', 'b']], .file), ([['u'], ['~', 'v']], .file), ([['x']], .file)]

theorem exFiles_ok : (treeOf exFiles).OK := treeOf_ok _ (by decide)

/-- `*` and names: a matching of names for the examples (`*` matches all, `[z]` matches `z`). -/
def exMatch (c n : Str) : Bool := c == ['*'] || (c == ['[', 'z', ']'] && n == ['z'])

/-- The home directory of this user is `/u`; there is no other. -/
def exHome : Str → Option Path := fun u => if u = [] then some [['u']] else none

def exCwd : Path := [['u'], ['w']]

/-- `..`, `.`, patterns, a home directory: `ls ../*  ~/./w/y  **  nothing`. -/
def exArgs : List Arg := [⟨.here, [['.', '.'], ['*']]⟩, ⟨.home [], [['.'], ['w'], ['y']]⟩, ⟨.root, [['*', '*'], ['y']]⟩, ⟨.here, [['n']]⟩]

theorem exArgs_ok : ∀ a ∈ exArgs, a.OK exHome := by
  have hh : ∀ u : Str, Start.home [] = Start.home u → u = [] := fun u h => by injection h with h; exact h.symm
  intro a ha
  simp only [exArgs, List.mem_cons, List.not_mem_nil, or_false] at ha
  rcases ha with rfl | rfl | rfl | rfl
  · exact ⟨by decide, by decide, fun _ => .inr ⟨_, _, rfl, by decide⟩, fun _ => by decide, fun u h => by cases h⟩
  · refine ⟨by decide, by decide, fun h => absurd rfl (h []), (fun h => by cases h), fun u h => ?_⟩
    rw [hh u h]
    exact ⟨by decide, by decide, by decide, [['u']], by decide, by simp [Literal, special, dotdot]⟩
  · exact ⟨by decide, by decide, fun _ => .inr ⟨_, _, rfl, by decide⟩, (fun h => by cases h), fun u h => by cases h⟩
  · exact ⟨by decide, by decide, fun _ => .inr ⟨_, _, rfl, by decide⟩, fun _ => by decide, fun u h => by cases h⟩

/-- The hypotheses of C68 hold of these, and the result is not trivial. -/
theorem C68_example : ∃ roots, normalize (treeOf exFiles) exMatch exCwd exHome (exArgs.map Arg.text) = some roots ∧ roots.length = 6 ∧
    ∀ x, (∃ q ∈ roots, place q = x) ↔ Denoted (treeOf exFiles) exMatch exCwd exHome exArgs x := by
  obtain ⟨roots, h1, h2, _⟩ := C68_paths_partial (t := treeOf exFiles) (fnm := exMatch) (cwd := exCwd) (home := exHome) exFiles_ok (by simp [Literal, exCwd, special, dotdot]) (by decide) exArgs exArgs_ok
  refine ⟨roots, h1, ?_, h2⟩
  have : (normalize (treeOf exFiles) exMatch exCwd exHome (exArgs.map Arg.text)).map List.length = some 6 := by decide +kernel
  rw [h1] at this
  injection this

/-! ## Where the code differs from the claim -/

/-- "Eliminate duplicates": `ls / /` lists `/` twice. -/
theorem C68_false_root_twice : normalize (treeOf exFiles) exMatch exCwd exHome [['/'], ['/']] = some [[], []] := by decide +kernel

/-- The same file twice, by two paths: `ls ../x /u/x` in `/u/w`. -/
theorem C68_false_same_file_twice : normalize (treeOf exFiles) exMatch exCwd exHome [['.', '.', '/', 'x'], ['/', 'u', '/', 'x']] = some [[['u'], ['w'], dotdot, ['x']], [['u'], ['x']]] ∧
    place [['u'], ['w'], dotdot, ['x']] = place [['u'], ['x']] := by decide +kernel

/-- In a directory with pattern characters in its name, `ls x` does not find the file `x`. -/
theorem C68_false_cwd_pattern : (treeOf exFiles).kind ([['[', 'z', ']']] ++ [['x']]) = some .file ∧ normalize (treeOf exFiles) exMatch [['[', 'z', ']']] exHome [['x']] = some [] := by decide +kernel

/-- A backslash in a value is taken for an escape once more: `ls (r'a\b')`, or `ls 'a\b'`, finds the other file `ab`. -/
theorem C68_false_backslash : (treeOf exFiles).kind [['u'], ['a', '\\', 'b']] = some .file ∧ normalize (treeOf exFiles) exMatch [['u']] exHome [['a', '\\', 'b']] = some [[['u'], ['a', 'b']]] := by decide +kernel

/-- A file whose name starts with `~` cannot be given as `./~v`, which fails (with an exception) although the file exists. -/
theorem C68_false_tilde_name : (treeOf exFiles).kind [['u'], ['~', 'v']] = some .file ∧ normalize (treeOf exFiles) exMatch [['u']] exHome [['.', '/', '~', 'v']] = none := by decide +kernel

/-- `~/../x` is not the file next to the home directory, but the file `x` in the current directory. -/
theorem C68_false_home_up : normalize (treeOf exFiles) exMatch exCwd exHome [['~', '/', '.', '.', '/', 'x']] = some [[['u'], ['w'], ['x']]] ∧
    (Arg.mk (.home []) [['.', '.'], ['x']]).pattern exCwd exHome = [['x']] ∧ (treeOf exFiles).kind [['x']] = some .file := by decide +kernel

/-- `ls //x` fails (with an exception), although `//x` is `/x`, which exists. -/
theorem C68_false_two_slashes : (treeOf exFiles).kind [['x']] = some .file ∧ normalize (treeOf exFiles) exMatch exCwd exHome [['/', '/', 'x']] = none := by decide +kernel

end Marcel.Filenames
