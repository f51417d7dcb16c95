import Verif.Props.C42_Pickle
/-! # C43: store then load gives back the stream -/

namespace Marcel.PickleFile

variable {V : Type}

/-! ## Writing and reading one object -/

theorem exec_save_shared (env : Nat → Val V) (o : Obj V) :
    ∀ (m : List Nat) (_ : ∀ p ∈ o.parts, env p.1 = p.2) (r : List (Instr V)) (st : List (Val V)),
      exec ((save o m).1 ++ r) st (m.map env) = exec r (o.value :: st) ((save o m).2.map env) := by
  have hget : ∀ (m : List Nat) (i : Nat), i ∈ m → (m.map env)[m.idxOf i]? = some (env i) := by
    intro m i hi
    have hl := List.idxOf_lt_length_of_mem hi
    rw [List.getElem?_map, List.getElem?_eq_getElem hl, List.getElem_idxOf]; rfl
  induction o with
  | lit v => intro m _ r st; rfl
  | str i v =>
    intro m hp r st
    have he : env i = .lit v := hp (i, .lit v) (by simp [Obj.parts])
    unfold save
    split
    · rename_i hi
      simp only [List.cons_append, List.nil_append, exec, hget m i hi, he]
      rfl
    · simp [exec, Obj.value, he]
  | pair i a b iha ihb =>
    intro m hp r st
    have he : env i = .pair a.value b.value := hp (i, .pair a.value b.value) (by simp [Obj.parts])
    unfold save
    split
    · rename_i hi
      simp only [List.cons_append, List.nil_append, exec, hget m i hi, he]
      rfl
    · simp only [List.append_assoc]
      rw [iha m (fun p h => hp p (by simp [Obj.parts, h]))]
      rw [ihb (save a m).2 (fun p h => hp p (by simp [Obj.parts, h]))]
      simp [exec, Obj.value, he]

theorem exec_save_fresh (o : Obj V) :
    ∀ (m : List Nat) (_ : (o.parts.map (·.1)).Nodup) (_ : ∀ i ∈ o.parts.map (·.1), i ∉ m)
      (r : List (Instr V)) (st M : List (Val V)),
      exec ((save o m).1 ++ r) st M = exec r (o.value :: st) (M ++ o.parts.map (·.2)) ∧
      (save o m).2 = m ++ o.parts.map (·.1) := by
  induction o with
  | lit v => intro m _ _ r st M; simp [save, exec, Obj.value, Obj.parts]
  | str i v =>
    intro m _ hf r st M
    have hi : i ∉ m := hf i (by simp [Obj.parts])
    simp [save, hi, exec, Obj.value, Obj.parts]
  | pair i a b iha ihb =>
    intro m hn hf r st M
    have hi : i ∉ m := hf i (by simp [Obj.parts])
    simp only [Obj.parts, List.map_append] at hn hf
    rw [List.nodup_append] at hn
    have hnab := hn.1
    rw [List.nodup_append] at hnab
    have ha := iha m hnab.1 (fun j hj => hf j (by simp at hj ⊢; exact Or.inl hj))
    have hb := ihb (save a m).2 hnab.2.1 (by
      intro j hj
      rw [(ha [] [] []).2]
      rw [List.mem_append]
      rintro (c | c)
      · exact hf j (by simp at hj ⊢; exact Or.inr (Or.inl hj)) c
      · exact hnab.2.2 j c j hj rfl)
    unfold save
    rw [if_neg hi]
    simp only [List.append_assoc]
    constructor
    · rw [(ha _ _ _).1, (hb _ _ _).1]
      simp [exec, Obj.value, Obj.parts]
    · rw [(hb [] [] []).2, (ha [] [] []).2]
      simp [Obj.parts]

/-- `code`, read with the unpickler's memo `M`, consists of pickles of the values `vs`; afterwards the memo is `M'`. -/
inductive Reads : List (Instr V) → List (Val V) → List (Val V) → List (Val V) → Prop
  | nil {M} : Reads [] M [] M
  | cons {c cs M v M1 vs M2} : c ≠ [] → (∀ r, exec (c ++ r) [] M = .ok v r M1) → Reads cs M1 vs M2 →
      Reads (c ++ cs) M (v :: vs) M2

theorem Reads.append {a b : List (Instr V)} {M M1 M2 vs ws} (h : Reads a M vs M1) (h2 : Reads b M1 ws M2) :
    Reads (a ++ b) M (vs ++ ws) M2 := by
  induction h with
  | nil => exact h2
  | cons hc he _ ih => rw [List.append_assoc]; exact Reads.cons hc he (ih h2)

theorem Reads.length {a : List (Instr V)} {M M1 vs} (h : Reads a M vs M1) : vs.length ≤ a.length := by
  induction h with
  | nil => simp
  | cons hc he _ ih =>
    rename_i c cs _ _ _ _ _ _
    have : 0 < c.length := List.length_pos_iff.mpr hc
    simp; omega

theorem Reads.empty {a : List (Instr V)} {M M1} (h : Reads a M [] M1) : a = [] ∧ M1 = M := by
  cases h; exact ⟨rfl, rfl⟩

/-- A sequence of `dump`s by one pickler. -/
def dumpAll : List (Obj V) → List Nat → List (Instr V) × List Nat
  | [], m => ([], m)
  | o :: os, m => ((dump o m).1 ++ (dumpAll os (dump o m).2).1, (dumpAll os (dump o m).2).2)

theorem dumpAll_append (a b : List (Obj V)) (m : List Nat) :
    dumpAll (a ++ b) m = ((dumpAll a m).1 ++ (dumpAll b (dumpAll a m).2).1, (dumpAll b (dumpAll a m).2).2) := by
  induction a generalizing m with
  | nil => simp [dumpAll]
  | cons o os ih => simp [dumpAll, ih]

theorem reads_shared (env : Nat → Val V) (xs : List (Obj V)) (m : List Nat)
    (h : ∀ p ∈ parts xs, env p.1 = p.2) :
    Reads (dumpAll xs m).1 (m.map env) (xs.map Obj.value) ((dumpAll xs m).2.map env) := by
  induction xs generalizing m with
  | nil => exact Reads.nil
  | cons o os ih =>
    refine Reads.cons (by simp [dump]) ?_ (ih _ (fun p hp => h p (by simp [parts] at hp ⊢; exact Or.inr hp)))
    intro r
    simp only [dump, List.append_assoc]
    rw [exec_save_shared env o m (fun p hp => h p (by simp [parts]; exact Or.inl hp))]
    rfl

theorem reads_fresh (xs : List (Obj V)) (m : List Nat) (M : List (Val V))
    (hn : ((parts xs).map (·.1)).Nodup) (hf : ∀ i ∈ (parts xs).map (·.1), i ∉ m) :
    Reads (dumpAll xs m).1 M (xs.map Obj.value) (M ++ (parts xs).map (·.2)) := by
  induction xs generalizing m M with
  | nil => simp [parts]; exact Reads.nil
  | cons o os ih =>
    have hpo : parts (o :: os) = o.parts ++ parts os := by simp [parts]
    rw [hpo, List.map_append] at hn hf
    rw [List.nodup_append] at hn
    have hs := exec_save_fresh o m hn.1 (fun i hi => hf i (by rw [List.mem_append]; exact Or.inl hi))
    have hrest := ih (dump o m).2 (M ++ o.parts.map (·.2)) hn.2.1 (by
      intro i hi
      show i ∉ (save o m).2
      rw [(hs [] [] []).2, List.mem_append]
      rintro (c | c)
      · exact hf i (by rw [List.mem_append]; exact Or.inr hi) c
      · exact hn.2.2 i c i hi rfl)
    rw [hpo, List.map_append, ← List.append_assoc]
    refine Reads.cons (by simp [dump]) ?_ hrest
    intro r
    simp only [dump, List.append_assoc]
    rw [(hs _ _ _).1]
    rfl

/-- A coherent stream written by one pickler and read by one unpickler. -/
theorem reads_coherent (xs : List (Obj V)) (h : Coherent xs) :
    ∃ M, Reads (dumpAll xs []).1 [] (xs.map Obj.value) M := by
  cases xs with
  | nil => exact ⟨[], Reads.nil⟩
  | cons o os =>
    let env : Nat → Val V := fun i => (((parts (o :: os)).find? (fun p => p.1 == i)).map (·.2)).getD o.value
    have henv : ∀ p ∈ parts (o :: os), env p.1 = p.2 := by
      intro p hp
      have : ((parts (o :: os)).find? (fun q => q.1 == p.1)).isSome := by
        rw [List.find?_isSome]; exact ⟨p, hp, by simp⟩
      obtain ⟨q, hq⟩ := Option.isSome_iff_exists.mp this
      have hk := List.find?_some hq
      simp only [beq_iff_eq] at hk
      show (((parts (o :: os)).find? (fun q => q.1 == p.1)).map (·.2)).getD o.value = p.2
      rw [hq]
      exact h q p (List.mem_of_find?_eq_some hq) hp hk
    exact ⟨_, reads_shared env (o :: os) [] henv⟩

/-! ## Reading a file -/

theorem exec_suffix (c : List (Instr V)) : ∀ st m v r m', exec c st m = .ok v r m' →
    ∃ u, u ≠ [] ∧ c = u ++ r := by
  induction c with
  | nil => intro st m v r m' h; simp [exec] at h
  | cons i c ih =>
    intro st m v r m' h
    have go : ∀ st m, exec c st m = .ok v r m' → ∃ u, u ≠ [] ∧ i :: c = u ++ r := by
      intro st m h
      obtain ⟨u, _, hu⟩ := ih _ _ _ _ _ h
      exact ⟨i :: u, by simp, by rw [hu]; rfl⟩
    cases i with
    | push w => exact go _ _ h
    | memoize => cases st with
      | nil => simp [exec] at h
      | cons x st => exact go _ _ h
    | get k =>
      simp only [exec] at h
      split at h
      · exact go _ _ h
      · cases h
    | tuple2 => match st, h with
      | [], h => simp [exec] at h
      | [_], h => simp [exec] at h
      | _ :: _ :: _, h => exact go _ _ h
    | stop => cases st with
      | nil => simp [exec] at h
      | cons x st =>
        simp only [exec, Load.ok.injEq] at h
        exact ⟨[.stop], by simp, by rw [h.2.1]; rfl⟩

theorem exec_more (c q : List (Instr V)) : ∀ st m v r m', exec c st m = .ok v r m' →
    exec (c ++ q) st m = .ok v (r ++ q) m' := by
  induction c with
  | nil => intro st m v r m' h; simp [exec] at h
  | cons i c ih =>
    intro st m v r m' h
    cases i with
    | push w => exact ih _ _ _ _ _ h
    | memoize => cases st with
      | nil => simp [exec] at h
      | cons x st => exact ih _ _ _ _ _ h
    | get k =>
      cases hx : m[k]? with
      | some x =>
        simp only [exec, hx] at h
        simp only [exec, List.cons_append, hx]
        exact ih _ _ _ _ _ h
      | none => simp [exec, hx] at h
    | tuple2 => match st, h with
      | [], h => simp [exec] at h
      | [_], h => simp [exec] at h
      | _ :: _ :: _, h => exact ih _ _ _ _ _ h
    | stop => cases st with
      | nil => simp [exec] at h
      | cons x st =>
        simp only [exec, Load.ok.injEq] at h
        simp [exec, h.1, h.2.1, h.2.2]

theorem load1_suffix {c : List (Instr V)} {m v r m'} (h : load1 c m = .ok v r m') : ∃ u, u ≠ [] ∧ c = u ++ r := by
  cases c with
  | nil => cases h
  | cons i c => exact exec_suffix _ _ _ _ _ _ h

/-- Reading until the end of the file. -/
def readAll : Nat → List (Instr V) → List (Val V) → List (Val V) × Bool
  | 0, _, _ => ([], false)
  | n + 1, c, M => match load1 c M with
    | .ok v r M' => (v :: (readAll n r M').1, (readAll n r M').2)
    | .eof => ([], true)
    | .err => ([], false)

theorem readAll_reads {a : List (Instr V)} {M M1 vs} (h : Reads a M vs M1) :
    ∀ n, vs.length < n → readAll n a M = (vs, true) := by
  induction h with
  | nil => intro n hn; cases n with
    | zero => simp at hn
    | succ n => rfl
  | cons hc he _ ih =>
    intro n hn
    cases n with
    | zero => simp at hn
    | succ n =>
      rename_i c cs M v M1 vs M2 hr
      simp only [readAll]
      have : load1 (c ++ cs) M = .ok v cs M1 := by
        cases c with
        | nil => exact absurd rfl hc
        | cons i c => exact he cs
      simp only [this, ih n (by simp at hn; exact hn)]

/-- A file that was cut off is read up to some item. -/
theorem readAll_take {a : List (Instr V)} {M M1 vs} (h : Reads a M vs M1) :
    ∀ n k, (a.take k).length < n → ∃ j b, readAll n (a.take k) M = (vs.take j, b) := by
  induction h with
  | nil => intro n k hn; cases n with
    | zero => simp at hn
    | succ n => exact ⟨0, true, by simp [readAll, load1]⟩
  | cons hc he _ ih =>
    intro n k hn
    cases n with
    | zero => simp at hn
    | succ n =>
      rename_i c cs M v M1 vs M2 hr
      by_cases hk : c.length ≤ k
      · have ht : (c ++ cs).take k = c ++ cs.take (k - c.length) := by
          rw [List.take_append, List.take_of_length_le hk]
        have hcl : 0 < c.length := List.length_pos_iff.mpr hc
        obtain ⟨j, b, hj⟩ := ih n (k - c.length) (by rw [ht, List.length_append] at hn; omega)
        refine ⟨j + 1, b, ?_⟩
        have : load1 (c ++ cs.take (k - c.length)) M = .ok v (cs.take (k - c.length)) M1 := by
          cases c with
          | nil => exact absurd rfl hc
          | cons i c => exact he _
        rw [ht]
        simp only [readAll, this, hj, List.take_succ_cons]
      · have ht : (c ++ cs).take k = c.take k := by
          rw [List.take_append_of_le_length (by omega)]
        rw [ht]
        cases k with
        | zero => exact ⟨0, true, by simp [readAll, load1]⟩
        | succ k =>
          refine ⟨0, false, ?_⟩
          have hex : ∀ w r m', exec (c.take (k + 1)) [] M ≠ .ok w r m' := by
            intro w r m' hx
            have h1 := exec_more _ (c.drop (k + 1)) _ _ _ _ _ hx
            rw [List.take_append_drop] at h1
            have h2 := he []
            rw [List.append_nil, h1] at h2
            simp only [Load.ok.injEq, List.append_eq_nil_iff, List.drop_eq_nil_iff] at h2
            omega
          cases c with
          | nil => exact absurd rfl hc
          | cons i c =>
            simp only [List.take_succ_cons] at hex ⊢
            simp only [readAll, load1]
            have hne : ∀ (c : List (Instr V)) st M, exec c st M ≠ .eof := by
              intro c
              induction c with
              | nil => intro st M; simp [exec]
              | cons i c ih =>
                intro st M
                cases i with
                | push w => exact ih _ _
                | memoize => cases st with
                  | nil => simp [exec]
                  | cons x st => exact ih _ _
                | get k => simp only [exec]; split
                           · exact ih _ _
                           · simp
                | tuple2 => match st with
                  | [] => simp [exec]
                  | [_] => simp [exec]
                  | _ :: _ :: _ => exact ih _ _
                | stop => cases st with
                  | nil => simp [exec]
                  | cons x st => simp [exec]
            cases hx : exec (i :: c.take k) [] M with
            | ok w r m' => exact absurd hx (hex w r m')
            | eof => exact absurd hx (hne _ _ _)
            | err => simp

/-- Nobody uses the file. -/
def Idle (s : PF V) : Prop := s.reader = none ∧ s.writer = none

theorem closed_reader {s : PF V} {h : Nat} {x : Handle V} (e : s.handles[h]? = some x) (ho : x.isOpen = true)
    (hx : x.isWriter = false) (hr : s.reader = some h) (hw : s.writer = none) :
    Idle s.close ∧ s.close.disk = s.disk ∧ s.close.close = s.close := by
  have h1 : s.close.reader = none := by
    unfold PF.close; rw [hr]; exact closeFile_reader _ _
  have h2 : s.close.writer = none := by
    unfold PF.close; rw [hr]; exact (closeFile_writer _ _).trans hw
  refine ⟨⟨h1, h2⟩, ?_, ?_⟩
  · have hk : ({ s with reader := none } : PF V).kinds[h]? = some (false, true) := by
      show s.kinds[h]? = _
      unfold PF.kinds; rw [List.getElem?_map, e]; simp [ho, hx]
    unfold PF.close; rw [hr]; exact disk_closeFile_reader _ h hk
  · have : ∀ t : PF V, t.reader = none → t.writer = none → t.close = t := by
      intro t a b; unfold PF.close; rw [a, b]
    exact this _ h1 h2

theorem loadLoop_eq (n : Nat) : ∀ (s : PF V) (h : Nat) (x : Handle V) (d : List (Instr V)),
    s.disk = some d → s.handles[h]? = some x → x.isOpen = true → x.isWriter = false →
    s.reader = some h → s.writer = none → (d.drop x.pos).length < n →
    ∃ t, loadLoop n s h = ((readAll n (d.drop x.pos) x.rmemo).1, (readAll n (d.drop x.pos) x.rmemo).2, t) ∧
      Idle t ∧ t.disk = some d := by
  induction n with
  | zero => intro s h x d _ _ _ _ _ _ hn; simp at hn
  | succ n ih =>
    intro s h x d hd e ho hx hr hw hn
    have hcl := closed_reader e ho hx hr hw
    have hnext : s.next h = match load1 (d.drop x.pos) x.rmemo with
      | .ok v rest m => (.item v, s.setHandle h { x with pos := d.length - rest.length, rmemo := m })
      | .eof => (.stop, s.close)
      | .err => (.raised, s.close) := by
      unfold PF.next
      simp only [e, ho, hx, hd, Option.getD_some]
      cases load1 (d.drop x.pos) x.rmemo <;> rfl
    simp only [loadLoop, readAll]
    cases hl : load1 (d.drop x.pos) x.rmemo with
    | eof =>
      simp only [hnext, hl]
      exact ⟨s.close, by rw [hcl.2.2], hcl.1, hcl.2.1.trans hd⟩
    | err =>
      simp only [hnext, hl]
      exact ⟨s.close, by rw [hcl.2.2], hcl.1, hcl.2.1.trans hd⟩
    | ok v r m =>
      simp only [hnext, hl]
      obtain ⟨u, hu, hur⟩ := load1_suffix hl
      have hup : 0 < u.length := List.length_pos_iff.mpr hu
      have hdr : d.drop (d.length - r.length) = r := by
        have hs : d = (d.take x.pos ++ u) ++ r := by
          rw [List.append_assoc, ← hur, List.take_append_drop]
        generalize d.take x.pos ++ u = a at hs
        rw [hs]
        simp
      have hlen : r.length < n := by
        rw [hur, List.length_append] at hn; omega
      obtain ⟨t, ht, hi, htd⟩ := ih (s.setHandle h { x with pos := d.length - r.length, rmemo := m }) h
        { x with pos := d.length - r.length, rmemo := m } d hd
        (by
          have : h < s.handles.length := by rw [List.getElem?_eq_some_iff] at e; exact e.1
          show (s.handles.set h _)[h]? = _
          rw [List.getElem?_set_self this])
        ho hx hr hw (by simp only [hdr]; exact hlen)
      simp only [hdr] at ht
      exact ⟨t, by rw [ht], hi, htd⟩

/-- `load` of an idle file gives what is on disk, and changes nothing. -/
theorem load_eq {s : PF V} {d : List (Instr V)} (hi : Idle s) (hd : s.disk = some d) :
    ∃ t, s.load = some ((readAll (d.length + 1) d []).1, (readAll (d.length + 1) d []).2, t) ∧ Idle t ∧
      t.disk = some d := by
  unfold PF.load PF.openReader
  rw [if_pos ⟨hi.2, by rw [hd]; simp⟩]
  obtain ⟨t, ht, h1, h2⟩ := loadLoop_eq (d.length + 1)
    { s with disk := some d, reader := some s.handles.length, handles := s.handles ++ [⟨false, true, 0, [], [], []⟩] }
    s.handles.length ⟨false, true, 0, [], [], []⟩ d rfl
    (by show (s.handles ++ _)[_]? = _; simp)
    rfl rfl rfl hi.2 (by simp)
  refine ⟨t, ?_, h1, h2⟩
  simp only [Option.map_some, hd, Option.getD_some]
  rw [ht]
  rfl

/-! ## Writing a file -/

/-- The writer `h` is in use; of what it was given, `code` in all was added to the file's content `base`. -/
structure WState (s : PF V) (h : Nat) (base code : List (Instr V)) (m : List Nat) : Prop where
  ex : ∃ x d, s.handles[h]? = some x ∧ x.isOpen = true ∧ x.isWriter = true ∧ x.wmemo = m ∧ s.disk = some d ∧
    d ++ x.buf = base ++ code ∧ ∃ f, d = base ++ f
  nr : s.reader = none
  w : s.writer = some h

theorem WState.write {s : PF V} {h base code m} (hs : WState s h base code m) (o : Obj V) :
    WState (s.write h o) h base (code ++ (dump o m).1) (dump o m).2 := by
  obtain ⟨x, d, e, ho, hx, hm, hd, hb, f, hf⟩ := hs.ex
  have hl : h < s.handles.length := by rw [List.getElem?_eq_some_iff] at e; exact e.1
  have hw : s.write h o =
      s.setHandle h { x with buf := x.buf ++ (dump o x.wmemo).1, wmemo := (dump o x.wmemo).2 } := by
    unfold PF.write; simp [e, ho, hx]
  rw [hw]
  refine ⟨⟨{ x with buf := x.buf ++ (dump o x.wmemo).1, wmemo := (dump o x.wmemo).2 }, d, ?_, ho, hx, ?_, hd, ?_,
    f, hf⟩, hs.nr, hs.w⟩
  · show (s.handles.set h _)[h]? = _
    rw [List.getElem?_set_self hl]
  · simp only [hm]
  · simp only [hm, ← List.append_assoc, hb]

theorem WState.flush {s : PF V} {h base code m} (hs : WState s h base code m) : WState (s.flush h) h base code m := by
  obtain ⟨x, d, e, ho, hx, hm, hd, hb, f, hf⟩ := hs.ex
  have hl : h < s.handles.length := by rw [List.getElem?_eq_some_iff] at e; exact e.1
  refine ⟨⟨{ x with buf := [] }, d ++ x.buf, ?_, ho, hx, hm, ?_, ?_, f ++ x.buf, by rw [hf, List.append_assoc]⟩, (flush_reader s h).trans hs.nr,
    (flush_writer s h).trans hs.w⟩
  · unfold PF.flush
    simp only [e, ho, hx, Bool.and_self, if_true]
    rw [List.getElem?_set_self hl]
  · unfold PF.flush
    simp [e, ho, hx, hd]
  · simpa using hb

theorem WState.writing {h : Nat} {xs : List (Obj V)} {ws : List (Ev V)} (hw : Writing h xs ws) :
    ∀ {s : PF V} {base code m}, WState s h base code m →
      WState (s.run ws) h base (code ++ (dumpAll xs m).1) (dumpAll xs m).2 := by
  induction hw with
  | nil => intro s base code m hs; simp only [dumpAll, List.append_nil]; exact hs
  | write _ ih =>
    intro s base code m hs
    rename_i o _ _ _
    have := ih (hs.write o)
    simp only [dumpAll]
    rw [← List.append_assoc]
    exact this
  | flush _ ih =>
    intro s base code m hs
    exact ih hs.flush

theorem WState.open {s : PF V} (hi : Idle s) (a : Bool) :
    WState (s.step (.openWriter a)) s.handles.length (if a then s.disk.getD [] else []) [] [] := by
  have : s.step (.openWriter a) =
      { s with
        disk := some (if a then s.disk.getD [] else [])
        writer := some s.handles.length
        handles := s.handles ++ [⟨true, true, 0, [], [], []⟩] } := by
    show (s.openWriter a).getD s = _
    unfold PF.openWriter
    rw [if_pos ⟨hi.1, hi.2⟩]; rfl
  rw [this]
  exact ⟨⟨⟨true, true, 0, [], [], []⟩, _, by simp, rfl, rfl, rfl, rfl, by simp, [], by simp⟩, hi.1, rfl⟩

theorem WState.close {s : PF V} {h base code m} (hs : WState s h base code m) :
    Idle s.close ∧ s.close.disk = some (base ++ code) := by
  obtain ⟨x, d, e, ho, hx, hm, hd, hb, f, hf⟩ := hs.ex
  have hl : h < s.handles.length := by rw [List.getElem?_eq_some_iff] at e; exact e.1
  unfold PF.close
  rw [hs.nr, hs.w]
  refine ⟨⟨closeFile_reader _ _, closeFile_writer _ _⟩, ?_⟩
  simp only
  unfold PF.closeFile
  have hfl : ({ s with reader := none, writer := none } : PF V).flush h =
      { s with reader := none, writer := none, disk := some (d ++ x.buf), handles := s.handles.set h { x with buf := [] } } := by
    unfold PF.flush; simp [e, ho, hx, hd]
  rw [hfl]
  simp only [List.getElem?_set_self hl, PF.setHandle, hb]

theorem store_eq {s : PF V} (hi : Idle s) (a : Bool) {xs : List (Obj V)} {ws : List (Ev V)}
    (hw : Writing s.handles.length xs ws) :
    Idle (s.run (storeEvents a s.handles.length ws)) ∧
    (s.run (storeEvents a s.handles.length ws)).disk =
      some ((if a then s.disk.getD [] else []) ++ (dumpAll xs []).1) := by
  unfold storeEvents
  rw [run_append, run_append]
  have h1 := WState.writing hw (WState.open hi a)
  have h2 := h1.close
  rw [List.nil_append] at h2
  exact h2

/-! ## The property -/

theorem contents_snoc (runs : List (Bool × List (Obj V))) (a : Bool) (xs : List (Obj V)) :
    contents (runs ++ [(a, xs)]) = if a then contents runs ++ xs.map Obj.value else xs.map Obj.value := by
  unfold contents; rw [List.foldl_append]; rfl

theorem Clean.init {runs : List (Bool × List (Obj V))} {r} (h : Clean (runs ++ [r])) : Clean runs := by
  intro pre q post e
  exact h pre q (post ++ [r]) (by rw [e]; simp)

/-- How the file's content is read after one more store: first what is kept, then what was added. -/
theorem run_reads {runs : List (Bool × List (Obj V))} {disk : Option (List (Instr V))} {a : Bool} {xs : List (Obj V)}
    (hc : Clean (runs ++ [(a, xs)]))
    (hd : (runs = [] ∧ disk = none) ∨ (runs ≠ [] ∧ ∃ d M, disk = some d ∧ Reads d [] (contents runs) M)) :
    ∃ M M', Reads (if a then disk.getD [] else []) [] (if a then contents runs else []) M ∧
      Reads (dumpAll xs []).1 M (xs.map Obj.value) M' := by
  have hcl := hc runs (a, xs) [] rfl
  obtain ⟨M1, hM1⟩ := reads_coherent xs hcl.1
  cases a with
  | false => exact ⟨[], M1, Reads.nil, hM1⟩
  | true =>
    simp only [if_true]
    rcases hd with ⟨he, hn⟩ | ⟨_, d, M, hdd, hr⟩
    · rw [he, hn]; exact ⟨[], M1, Reads.nil, hM1⟩
    · rw [hdd]
      by_cases hne : contents runs = []
      · have hr' := hr
        rw [hne] at hr'
        have := hr'.empty
        exact ⟨M, M1, hr, by rw [this.2]; exact hM1⟩
      · have hu := hcl.2 rfl hne
        exact ⟨M, _, hr, reads_fresh xs [] M hu (by simp)⟩

/-- What is on disk after some stores. -/
theorem stored_disk {runs : List (Bool × List (Obj V))} {t : PF V} (h : Stored runs t) (hc : Clean runs) :
    Idle t ∧ ((runs = [] ∧ t.disk = none) ∨
      (runs ≠ [] ∧ ∃ d M, t.disk = some d ∧ Reads d [] (contents runs) M)) := by
  induction h with
  | nil => exact ⟨⟨rfl, rfl⟩, Or.inl ⟨rfl, rfl⟩⟩
  | store hs hw ih =>
    rename_i runs t a xs ws
    obtain ⟨hi, hd⟩ := ih hc.init
    obtain ⟨hi', hd'⟩ := store_eq hi a hw
    obtain ⟨M, M', h1, h2⟩ := run_reads hc hd
    refine ⟨hi', Or.inr ⟨by simp, _, M', hd', ?_⟩⟩
    have := h1.append h2
    rw [contents_snoc]
    cases a <;> simpa using this
  | load hs hl ih =>
    rename_i runs t vs b t'
    obtain ⟨hi, hd⟩ := ih hc
    rcases hd with ⟨he, hn⟩ | ⟨hne, d, M, hdd, hr⟩
    · unfold PF.load PF.openReader at hl
      simp [hn] at hl
    · obtain ⟨t2, ht2, hi2, hd2⟩ := load_eq hi hdd
      rw [ht2] at hl
      cases hl
      exact ⟨hi2, Or.inr ⟨hne, d, M, hd2, hr⟩⟩

/-- **C43**. After any sequence of stores and appends (with loads in between, and however writing is buffered), `load` gives
what was stored, in order, and ends without an error; it leaves the file as it is, and can be repeated. Missing: streams
which are appended to a non-empty variable and contain the same object twice: `C43_false_append`. -/
theorem C43_partial {runs : List (Bool × List (Obj V))} {t : PF V} (h : Stored runs t) (hc : Clean runs)
    (hne : runs ≠ []) :
    ∃ t', t.load = some (contents runs, true, t') ∧ t'.disk = t.disk ∧ Stored runs t' := by
  obtain ⟨hi, hd⟩ := stored_disk h hc
  rcases hd with ⟨he, _⟩ | ⟨_, d, M, hdd, hr⟩
  · exact absurd he hne
  · obtain ⟨t2, ht2, _, hd2⟩ := load_eq hi hdd
    have hrd := readAll_reads hr (d.length + 1) (by have := hr.length; omega)
    rw [hrd] at ht2
    exact ⟨t2, ht2, hd2.trans hdd.symm, h.load ht2⟩

/-- `load` of a variable to which nothing was stored fails. -/
theorem C43_not_stored : (PF.new (V := V) none).load = none := rfl

/-- A store without append replaces what was there, and needs no condition on the sharing of objects, whatever the stores
before it were. -/
theorem C43_store_load (s : PF V) (hi : s.reader = none ∧ s.writer = none) (xs : List (Obj V))
    (hx : Coherent xs) {ws : List (Ev V)} (hw : Writing s.handles.length xs ws) :
    ∃ t', (s.run (storeEvents false s.handles.length ws)).load = some (xs.map Obj.value, true, t') := by
  obtain ⟨hi', hd'⟩ := store_eq hi false hw
  obtain ⟨M, hM⟩ := reads_coherent xs hx
  obtain ⟨t2, ht2, _, _⟩ := load_eq hi' hd'
  have hrd := readAll_reads hM ((dumpAll xs []).1.length + 1) (by have := hM.length; omega)
  simp only [Bool.false_eq_true, if_false, List.nil_append] at ht2
  rw [hrd] at ht2
  exact ⟨t2, ht2⟩

theorem readAll_append {a : List (Instr V)} {M M1 vs} (h : Reads a M vs M1) (c : List (Instr V)) (n : Nat) :
    readAll (vs.length + n) (a ++ c) M = (vs ++ (readAll n c M1).1, (readAll n c M1).2) := by
  induction h with
  | nil => simp
  | cons hc he _ ih =>
    rename_i c' cs M v M1 vs M2 hr
    rw [show (v :: vs).length + n = (vs.length + n) + 1 by simp; omega]
    simp only [readAll]
    have : load1 (c' ++ cs ++ c) M = .ok v (cs ++ c) M1 := by
      rw [List.append_assoc]
      cases c' with
      | nil => exact absurd rfl hc
      | cons i c => exact he _
    simp only [this, ih, List.cons_append]

/-- **C43**, crashes. The process dies at any point of a store, and any part of what had not been flushed has reached the
disk: the file can be loaded, and gives what had been stored before (if appending) and a prefix of the new stream. -/
theorem C43_crash {runs : List (Bool × List (Obj V))} {t : PF V} (h : Stored runs t) (a : Bool)
    (xs : List (Obj V)) (hc : Clean (runs ++ [(a, xs)])) {ws : List (Ev V)} (hw : Writing t.handles.length xs ws)
    (k : Nat) :
    ∃ j b t', ((t.run (.openWriter a :: ws)).crashAt t.handles.length k).load =
      some ((if a then contents runs else []) ++ (xs.map Obj.value).take j, b, t') := by
  obtain ⟨hi, hd⟩ := stored_disk h hc.init
  have hws := WState.writing hw (WState.open hi a)
  obtain ⟨x, d, e, ho, hx, hm, hdd, hb, f, hf⟩ := hws.ex
  have hdisk : ((t.run (.openWriter a :: ws)).crashAt t.handles.length k).disk = some (d ++ x.buf.take k) := by
    show Option.map _ ((t.step (.openWriter a)).run ws).disk = _
    rw [hdd]
    show some (d ++ _) = _
    have : ((t.run (.openWriter a :: ws)).handles[t.handles.length]?) = some x := e
    rw [this]; rfl
  obtain ⟨M, M', h1, h2⟩ := run_reads hc hd
  rw [hf, List.append_assoc, List.append_cancel_left_eq, List.nil_append] at hb
  have hcut : d ++ x.buf.take k = (if a then t.disk.getD [] else []) ++ (dumpAll xs []).1.take (f.length + k) := by
    rw [hf, List.append_assoc, ← hb, List.take_append]
    simp [List.take_of_length_le]
  obtain ⟨t', ht', _, _⟩ := load_eq (s := (t.run (.openWriter a :: ws)).crashAt t.handles.length k) ⟨rfl, rfl⟩ hdisk
  rw [hcut] at ht'
  have hl1 := h1.length
  obtain ⟨n, hn, hn2⟩ : ∃ n, ((if a then t.disk.getD [] else []) ++ (dumpAll xs []).1.take (f.length + k)).length + 1 =
      (if a then contents runs else []).length + n ∧ ((dumpAll xs []).1.take (f.length + k)).length < n := by
    refine ⟨((if a then t.disk.getD [] else []) ++ (dumpAll xs []).1.take (f.length + k)).length + 1 -
      (if a then contents runs else []).length, ?_⟩
    rw [List.length_append]
    generalize ((dumpAll xs []).1.take (f.length + k)).length = y
    omega
  rw [hn, readAll_append h1] at ht'
  obtain ⟨j, b, hj⟩ := readAll_take h2 n (f.length + k) hn2
  rw [hj] at ht'
  exact ⟨j, b, t', ht'⟩

theorem Writing.append {h : Nat} {xs ys : List (Obj V)} {ws vs : List (Ev V)} (h1 : Writing h xs ws) (h2 : Writing h ys vs) :
    Writing h (xs ++ ys) (ws ++ vs) := by
  induction h1 with
  | nil => exact h2
  | write _ ih => exact .write ih
  | flush _ ih => exact .flush ih

/-- Everything written so far counts as the base after a flush. -/
theorem WState.flushed {s : PF V} {h base code m} (hs : WState s h base code m) : WState (s.flush h) h (base ++ code) [] m := by
  obtain ⟨x, d, e, ho, hx, hm, hd, hb, f, hf⟩ := hs.ex
  have hl : h < s.handles.length := by rw [List.getElem?_eq_some_iff] at e; exact e.1
  refine ⟨⟨{ x with buf := [] }, d ++ x.buf, ?_, ho, hx, hm, ?_, ?_, [], by simpa using hb⟩, (flush_reader s h).trans hs.nr,
    (flush_writer s h).trans hs.w⟩
  · unfold PF.flush
    simp only [e, ho, hx, Bool.and_self, if_true]
    rw [List.getElem?_set_self hl]
  · unfold PF.flush
    simp [e, ho, hx, hd]
  · simpa using hb

/-- **C43**, crashes: what had been flushed before the process died is loaded. -/
theorem C43_crash_flushed {runs : List (Bool × List (Obj V))} {t : PF V} (h : Stored runs t) (a : Bool)
    (xs ys : List (Obj V)) (hc : Clean (runs ++ [(a, xs ++ ys)])) {ws vs : List (Ev V)} (hw : Writing t.handles.length xs ws)
    (hv : Writing t.handles.length ys vs) (k : Nat) :
    ∃ j b t', ((t.run (.openWriter a :: (ws ++ .flush t.handles.length :: vs))).crashAt t.handles.length k).load =
      some ((if a then contents runs else []) ++ xs.map Obj.value ++ (ys.map Obj.value).take j, b, t') := by
  obtain ⟨j, b, t', hj⟩ := C43_crash h a (xs ++ ys) hc (hw.append hv.flush) k
  obtain ⟨hi, hd⟩ := stored_disk h hc.init
  have hcx : Clean (runs ++ [(a, xs)]) := by
    intro pre r post e
    rw [List.append_eq_append_iff] at e
    rcases e with ⟨l, rfl, e⟩ | ⟨l, e1, e2⟩
    · cases l with
      | nil =>
        simp only [List.nil_append, List.cons.injEq] at e
        obtain ⟨rfl, rfl⟩ := e
        obtain ⟨c1, c2⟩ := hc runs (a, xs ++ ys) [] rfl
        refine ⟨fun p q hp hq => c1 p q (by simp [parts] at hp ⊢; exact .inl hp) (by simp [parts] at hq ⊢; exact .inl hq), ?_⟩
        intro h1 h2
        have := c2 h1 (by simpa using h2)
        unfold Unshared at this ⊢
        simp only [parts, List.flatMap_append, List.map_append] at this ⊢
        rw [List.nodup_append] at this
        exact this.1
      | cons x l => simp at e
    · cases l with
      | nil =>
        simp only [List.nil_append] at e2
        simp only [List.append_nil] at e1
        cases e2
        obtain ⟨c1, c2⟩ := hc runs (a, xs ++ ys) [] rfl
        refine ⟨fun p q hp hq => c1 p q (by simp [parts] at hp ⊢; exact .inl hp) (by simp [parts] at hq ⊢; exact .inl hq), ?_⟩
        intro h1 h2
        have := c2 h1 (by rw [e1]; exact h2)
        unfold Unshared at this ⊢
        simp only [parts, List.flatMap_append, List.map_append] at this ⊢
        rw [List.nodup_append] at this
        exact this.1
      | cons x l =>
        simp only [List.cons_append, List.cons.injEq] at e2
        obtain ⟨rfl, rfl⟩ := e2
        exact hc pre r (l ++ [(a, xs ++ ys)]) (by rw [e1]; simp)
  have hws := WState.writing hv (WState.writing hw (WState.open hi a)).flushed
  obtain ⟨x, d, e, ho, hx, hm, hdd, hb, f, hf⟩ := hws.ex
  have erun : t.run (.openWriter a :: (ws ++ .flush t.handles.length :: vs)) =
      ((((t.step (.openWriter a)).run ws).flush t.handles.length).run vs) := by
    simp only [PF.run, List.foldl_cons, List.foldl_append]; rfl
  have hdisk : ((t.run (.openWriter a :: (ws ++ .flush t.handles.length :: vs))).crashAt t.handles.length k).disk = some (d ++ x.buf.take k) := by
    rw [erun]
    show Option.map _ _ = _
    rw [hdd]
    show some (d ++ _) = _
    rw [e]; rfl
  obtain ⟨M, M', h1, h2⟩ := run_reads hcx hd
  obtain ⟨t2, ht2, _, _⟩ := load_eq (s := (t.run (.openWriter a :: (ws ++ .flush t.handles.length :: vs))).crashAt t.handles.length k) ⟨rfl, rfl⟩ hdisk
  rw [hj, hf, List.nil_append] at ht2
  have hr := h1.append h2
  have hlen := hr.length
  obtain ⟨n, hn⟩ : ∃ n, ((if a then t.disk.getD [] else []) ++ (dumpAll xs []).1 ++ f ++ x.buf.take k).length + 1 =
      ((if a then contents runs else []) ++ xs.map Obj.value).length + n := by
    refine ⟨((if a then t.disk.getD [] else []) ++ (dumpAll xs []).1 ++ f ++ x.buf.take k).length + 1 -
      ((if a then contents runs else []) ++ xs.map Obj.value).length, ?_⟩
    rw [List.append_assoc ((if a then t.disk.getD [] else []) ++ (dumpAll xs []).1), List.length_append]
    omega
  rw [hn, List.append_assoc ((if a then t.disk.getD [] else []) ++ (dumpAll xs []).1), readAll_append hr] at ht2
  simp only [Option.some.injEq, Prod.mk.injEq] at ht2
  have heq := ht2.1
  rw [List.append_assoc, List.append_cancel_left_eq, List.map_append] at heq
  refine ⟨j - xs.length, b, t', ?_⟩
  rw [hj]
  congr 2
  rw [List.append_assoc, List.append_cancel_left_eq, List.map_append, List.take_append]
  have hl2 := congrArg List.length heq
  simp only [List.length_take, List.length_append, List.length_map] at hl2
  rw [List.take_of_length_le (by simp; omega), List.length_map]

/-! ### Non-vacuity -/

/-- A stream with shared objects is stored, then one without is appended. -/
def exRuns : List (Bool × List (Obj Nat)) :=
  [(false, [.pair 1 (.str 0 5) (.str 0 5), .str 0 5, .lit 3]), (true, [.pair 8 (.str 7 6) (.lit 6)])]

example : Clean exRuns := by
  intro pre r post h
  rcases pre with _ | ⟨a, _ | ⟨b, pre⟩⟩
  · simp only [exRuns, List.nil_append, List.cons.injEq] at h
    rw [← h.1]
    refine ⟨?_, by simp⟩
    intro p q hp hq
    simp [parts, Obj.parts, Obj.value] at hp hq
    rcases hp with rfl | rfl | rfl <;> rcases hq with rfl | rfl | rfl <;> simp
  · simp only [exRuns, List.cons_append, List.nil_append, List.cons.injEq] at h
    rw [← h.2.1]
    refine ⟨?_, fun _ _ => by simp [Unshared, parts, Obj.parts]⟩
    intro p q hp hq
    simp [parts, Obj.parts, Obj.value] at hp hq
    rcases hp with rfl | rfl <;> rcases hq with rfl | rfl <;> simp
  · simp only [exRuns, List.cons_append, List.cons.injEq] at h
    have := h.2.2
    simp at this

example : ∃ t, Stored exRuns t :=
  ⟨_, Stored.store (Stored.store (a := false) Stored.nil (.write (.flush (.write (.write .nil)))))
    (a := true) (.write .nil)⟩

/-! ### Where it fails -/

/-- **C43** is false of the code: the pair ("b", "b") of one and the same string is appended to a variable that contains the
string "a". It is loaded as ("b", "a"): the unpickler takes the reference written by the second pickler to be one to an
object written by the first. -/
theorem C43_false_append :
    ∃ (runs : List (Bool × List (Obj String))) (t : PF String), Stored runs t ∧
      (∀ r ∈ runs, Coherent r.2) ∧
      contents runs = [.lit "a", .pair (.lit "b") (.lit "b")] ∧
      (t.load).map (fun r => (r.1, r.2.1)) = some ([.lit "a", .pair (.lit "b") (.lit "a")], true) := by
  refine ⟨[(false, [.str 0 "a"]), (true, [.pair 1 (.str 0 "b") (.str 0 "b")])], _,
    Stored.store (Stored.store (a := false) Stored.nil (.write .nil)) (a := true) (.write .nil), ?_, rfl, rfl⟩
  intro r hr
  simp at hr
  rcases hr with rfl | rfl
  · intro p q hp hq
    simp [parts, Obj.parts] at hp hq
    rw [hp, hq]; simp
  · intro p q hp hq
    simp [parts, Obj.parts, Obj.value] at hp hq
    rcases hp with rfl | rfl <;> rcases hq with rfl | rfl <;> simp

/-- **C43** is false of the code for failing stores: the first item cannot be pickled (or the command is killed before it);
what had been stored before is lost. -/
theorem C43_false_failed :
    ∃ (runs : List (Bool × List (Obj Nat))) (t : PF Nat), Stored runs t ∧ contents runs = [.lit 7] ∧
      ((t.run [.openWriter false, .writeFail 1, .close 1]).load).map (fun r => (r.1, r.2.1)) = some ([], true) :=
  ⟨[(false, [.lit 7])], _, Stored.store (a := false) Stored.nil (.write .nil), rfl, rfl⟩

end Marcel.PickleFile
