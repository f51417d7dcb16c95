import Verif.Model.Write
/-! # C58: `write` writes one line for each item and error, and passes each item on -/

namespace Marcel.WriteOp

open Marcel.Read (Text)

/-! ## Specification -/

def inItems {α : Type} : List (In α) → List α
  | [] => []
  | .item x :: es => x :: inItems es
  | .error _ :: es => inItems es

def outItems {α : Type} : List (Out α) → List α
  | [] => []
  | .item x :: es => x :: outItems es
  | .failed _ :: es => outItems es

/-- The text to be written: a line for each error, and for each item that can be formatted. -/
def Written {α : Type} (fmt : α → Option Text) : List (In α) → Text → Prop
  | [], t => t = []
  | .error m :: es, t => ∃ r, t = m ++ ['\n'] ++ r ∧ Written fmt es r
  | .item x :: es, t => match fmt x with
    | some l => ∃ r, t = l ++ ['\n'] ++ r ∧ Written fmt es r
    | none => Written fmt es t

/-- What is to be sent: each item, after an error if it cannot be formatted; no errors that are received. -/
def passed {α : Type} (fmt : α → Option Text) (es : List (In α)) : List (Out α) :=
  (inItems es).flatMap fun x => if (fmt x).isSome then [.item x] else [.failed x, .item x]

/-- What there is before the first line is written. -/
def base {α : Type} (c : Cfg α) (old : Option Text) : Text := if c.toFile && !c.append then [] else old.getD []

/-! ## What is written and sent -/

def lineOf {α : Type} (fmt : α → Option Text) : In α → Text
  | .error m => m ++ ['\n']
  | .item x => match fmt x with
    | some l => l ++ ['\n']
    | none => []

theorem written_flat {α : Type} (fmt : α → Option Text) (es : List (In α)) : Written fmt es (es.flatMap (lineOf fmt)) := by
  induction es with
  | nil => rfl
  | cons e es ih =>
    cases e with
    | error m => exact ⟨_, by simp [lineOf], ih⟩
    | item x =>
      unfold Written
      cases h : fmt x with
      | some l => exact ⟨_, by simp [lineOf, h], ih⟩
      | none => simpa [lineOf, h] using ih

theorem written_eq {α : Type} (fmt : α → Option Text) (es : List (In α)) (t : Text) (h : Written fmt es t) : t = es.flatMap (lineOf fmt) := by
  induction es generalizing t with
  | nil => exact h
  | cons e es ih =>
    cases e with
    | error m => obtain ⟨r, h1, h2⟩ := h; rw [h1, ih r h2]; simp [lineOf]
    | item x =>
      unfold Written at h
      cases hx : fmt x with
      | some l => rw [hx] at h; obtain ⟨r, h1, h2⟩ := h; rw [h1, ih r h2]; simp [lineOf, hx]
      | none => rw [hx] at h; rw [ih t h]; simp [lineOf, hx]

/-- Nothing has been opened, and nothing changed; or it is open. -/
def Ready {α : Type} (c : Cfg α) (old : Option Text) (done : Text) (s : St α) : Prop :=
  (s.opened = false ∧ s.target = old ∧ done = []) ∨ (s.opened = true ∧ s.target.getD [] = base c old ++ done ∧ (c.toFile = true ∨ done ≠ [] → s.target.isSome = true))

theorem output_ok {α : Type} {c : Cfg α} {old : Option Text} {done : Text} {s : St α} (ho : c.toFile = true → c.opening = .ok) (r : Ready c old done s) :
    ∃ s', output c s = (s', .ok) ∧ s'.opened = true ∧ s'.target.getD [] = base c old ++ done ∧ s'.sent = s.sent ∧ (c.toFile = true ∨ done ≠ [] → s'.target.isSome = true) := by
  unfold output
  rcases r with ⟨h1, h2, h3⟩ | ⟨h1, h2, h3⟩
  · rw [if_neg (by simp [h1])]
    by_cases hf : c.toFile
    · rw [if_pos hf, ho hf]
      refine ⟨_, rfl, rfl, ?_, rfl, ?_⟩
      · simp only [base, hf, h3, h2]
        cases c.append <;> simp
      · intro _
        simp only
        cases c.append <;> simp
    · rw [if_neg hf]
      refine ⟨_, rfl, rfl, by simp [base, hf, h2, h3], rfl, ?_⟩
      intro hh
      rcases hh with hh | hh
      · exact absurd hh hf
      · exact absurd h3 hh
  · rw [if_pos h1]
    exact ⟨s, rfl, h1, h2, rfl, h3⟩

theorem writeLine_ok {α : Type} {c : Cfg α} {old : Option Text} {done : Text} {s : St α} (t : Text) (ho : c.toFile = true → c.opening = .ok) (r : Ready c old done s) :
    ∃ s', writeLine c t s = (s', .ok) ∧ Ready c old (done ++ (t ++ ['\n'])) s' ∧ s'.sent = s.sent := by
  obtain ⟨s1, h1, h2, h3, h4, _⟩ := output_ok ho r
  unfold writeLine
  rw [h1]
  exact ⟨_, rfl, .inr ⟨h2, by simp [h3], by simp⟩, h4⟩

theorem ready_send {α : Type} {c : Cfg α} {old : Option Text} {done : Text} {s : St α} (o : List (Out α)) (r : Ready c old done s) : Ready c old done (s.send o) := r

theorem feed_ok {α : Type} (c : Cfg α) (old : Option Text) (ho : c.toFile = true → c.opening = .ok) (es : List (In α))
    (he : c.kind = .default ∨ ∀ m, In.error m ∉ es) (s : St α) (done : Text) (r : Ready c old done s) :
    ∃ s', feed c es s = (s', none) ∧ Ready c old (done ++ es.flatMap (lineOf c.fmt)) s' ∧ s'.sent = s.sent ++ passed c.fmt es := by
  induction es generalizing s done with
  | nil => exact ⟨s, rfl, by simpa using r, by simp [passed, inItems]⟩
  | cons e es ih =>
    have he' : c.kind = .default ∨ ∀ m, In.error m ∉ es := he.imp id fun h m hm => h m (by simp [hm])
    cases e with
    | error m =>
      have hk : c.kind = .default := by
        rcases he with h | h
        · exact h
        · exact absurd (by simp) (h m)
      obtain ⟨s1, h1, h2, h3⟩ := writeLine_ok m ho r
      obtain ⟨s2, g1, g2, g3⟩ := ih he' s1 _ h2
      refine ⟨s2, ?_, ?_, ?_⟩
      · unfold feed step receiveError fmtError
        rw [hk]
        simp only [h1]
        exact g1
      · simpa [lineOf, List.append_assoc] using g2
      · rw [g3, h3]; rfl
    | item x =>
      cases hx : c.fmt x with
      | none =>
        obtain ⟨s2, g1, g2, g3⟩ := ih he' (s.send [.failed x, .item x]) _ (ready_send _ r)
        refine ⟨s2, ?_, ?_, ?_⟩
        · unfold feed step receive
          simp only [hx]
          exact g1
        · simpa [lineOf, hx] using g2
        · rw [g3]; simp [St.send, passed, inItems, hx]
      | some t =>
        obtain ⟨s1, h1, h2, h3⟩ := writeLine_ok t ho r
        obtain ⟨s2, g1, g2, g3⟩ := ih he' (s1.send [.item x]) _ (ready_send _ h2)
        refine ⟨s2, ?_, ?_, ?_⟩
        · unfold feed step receive
          simp only [hx, h1]
          exact g1
        · simpa [lineOf, hx, List.append_assoc] using g2
        · rw [g3]; simp [St.send, passed, inItems, hx, h3]

/-- **C58**: if the file can be opened, and there are no errors or no formatting option: the command succeeds; the file, or what was written to stdout before, is followed
by a line for each item that can be formatted and each error, in order; the file is emptied first unless it is appended to, and exists in any case; each item is passed on, once, in order,
after an error if it cannot be formatted; errors are not passed on. -/
theorem C58_partial {α : Type} (c : Cfg α) (ho : c.toFile = true → c.opening = .ok) (old : Option Text) (es : List (In α))
    (he : c.kind = .default ∨ ∀ m, In.error m ∉ es) :
    ∃ s t, run c old es = (s, none) ∧ Written c.fmt es t ∧ s.target.getD [] = base c old ++ t ∧ (c.toFile = true → s.target.isSome = true) ∧ s.sent = passed c.fmt es := by
  obtain ⟨s1, h1, h2, h3⟩ := feed_ok c old ho es he ⟨false, old, []⟩ [] (.inl ⟨rfl, rfl, rfl⟩)
  obtain ⟨s2, g1, _, g3, g4, g5⟩ := output_ok ho h2
  refine ⟨s2, _, ?_, written_flat c.fmt es, by simpa using g3, fun h => g5 (.inl h), ?_⟩
  · unfold run cleanup
    simp only [h1, g1]
  · rw [g4, h3]; rfl

/-- What is written is determined. -/
theorem C58_unique {α : Type} (fmt : α → Option Text) (es : List (In α)) (a b : Text) (ha : Written fmt es a) (hb : Written fmt es b) : a = b := by
  rw [written_eq fmt es a ha, written_eq fmt es b hb]

/-- Appending: two commands write what one would write. -/
theorem C58_append {α : Type} (c : Cfg α) (hf : c.toFile = true) (ho : c.opening = .ok) (old : Option Text) (es es' : List (In α))
    (he : c.kind = .default ∨ ∀ m, In.error m ∉ es ++ es') :
    (run { c with append := true } (run c old es).1.target es').1.target = (run c old (es ++ es')).1.target := by
  have hu : c.kind = .default ∨ ∀ m, In.error m ∉ es := he.imp id fun h m hm => h m (by simp [hm])
  have hv : c.kind = .default ∨ ∀ m, In.error m ∉ es' := he.imp id fun h m hm => h m (by simp [hm])
  obtain ⟨s1, t1, r1, w1, e1, i1, _⟩ := C58_partial c (fun _ => ho) old es hu
  obtain ⟨s2, t2, r2, w2, e2, i2, _⟩ := C58_partial { c with append := true } (fun _ => ho) s1.target es' hv
  obtain ⟨s3, t3, r3, w3, e3, i3, _⟩ := C58_partial c (fun _ => ho) old (es ++ es') he
  rw [r1, r2, r3]
  simp only
  have := written_eq _ _ _ w1
  have := written_eq _ _ _ w2
  have := written_eq _ _ _ w3
  have hsome := i2 hf
  have hsome3 := i3 hf
  cases h2 : s2.target with
  | none => rw [h2] at hsome; cases hsome
  | some x =>
    cases h3 : s3.target with
    | none => rw [h3] at hsome3; cases hsome3
    | some y =>
      rw [h2] at e2
      rw [h3] at e3
      simp only [Option.getD_some] at e2 e3
      rw [e2, e3]
      simp_all [base]

/-! ## Items, whatever happens -/

theorem outItems_append {α : Type} (a b : List (Out α)) : outItems (a ++ b) = outItems a ++ outItems b := by
  induction a with
  | nil => rfl
  | cons x a ih => cases x <;> simp [outItems, ih]

theorem output_sent {α : Type} (c : Cfg α) (s : St α) : (output c s).1.sent = s.sent := by
  unfold output
  split
  · rfl
  · split
    · split <;> rfl
    · rfl

theorem cleanup_sent {α : Type} (c : Cfg α) (s : St α) : (cleanup c s).1.sent = s.sent := by
  unfold cleanup
  have := output_sent c s
  split <;> rename_i h <;> rw [h] at this <;> exact this

theorem writeLine_sent {α : Type} (c : Cfg α) (t : Text) (s : St α) : (writeLine c t s).1.sent = s.sent := by
  unfold writeLine
  have := output_sent c s
  split
  · rename_i s' h; rw [h] at this; simpa using this
  · exact this

theorem receive_sent {α : Type} (c : Cfg α) (s : St α) (x : α) : outItems (receive c s x).1.sent = outItems s.sent ++ [x] := by
  unfold receive
  split
  · simp [St.send, outItems_append, outItems]
  · rename_i t _
    have := writeLine_sent c t s
    split <;> rename_i h <;> rw [h] at this <;> simp only at this <;> simp [St.send, outItems_append, outItems, this]

theorem receiveError_sent {α : Type} (c : Cfg α) (s : St α) (m : Text) : (receiveError c s m).1.sent = s.sent := by
  unfold receiveError
  split
  · rfl
  · rename_i t _
    have := writeLine_sent c t s
    split <;> rename_i h <;> rw [h] at this <;> exact this

theorem feed_items {α : Type} (c : Cfg α) (es : List (In α)) (s : St α) :
    ∃ done rest, es = done ++ rest ∧ outItems (feed c es s).1.sent = outItems s.sent ++ inItems done ∧ ((feed c es s).2 = none → rest = []) ∧
      ((feed c es s).2 ≠ none → done ≠ []) := by
  induction es generalizing s with
  | nil => exact ⟨[], [], rfl, by simp [feed, inItems], fun _ => rfl, by simp [feed]⟩
  | cons e es ih =>
    have hs : outItems (step c s e).1.sent = outItems s.sent ++ inItems [e] := by
      cases e with
      | item x => exact receive_sent c s x
      | error m => simp [step, receiveError_sent, inItems]
    unfold feed
    split
    · rename_i s' h
      rw [h] at hs
      obtain ⟨done, rest, h1, h2, h3, h4⟩ := ih s'
      refine ⟨e :: done, rest, by simp [h1], ?_, h3, by simp⟩
      rw [h2, hs]
      cases e <;> simp [inItems]
    · rename_i r hr
      refine ⟨[e], es, rfl, hs, ?_, by simp⟩
      intro h0
      exact (hr (step c s e).1 (Prod.ext rfl h0)).elim

/-- **C58**, for all formats, also if the file cannot be opened and if there are errors that cannot be written: each item received has been passed on, once, in order, also the one
at which the command was ended. -/
theorem C58_items {α : Type} (c : Cfg α) (old : Option Text) (es : List (In α)) :
    ∃ done rest, es = done ++ rest ∧ outItems (run c old es).1.sent = inItems done ∧ ((run c old es).2 = none → rest = []) := by
  obtain ⟨done, rest, h1, h2, h3, _⟩ := feed_items c es ⟨false, old, []⟩
  refine ⟨done, rest, h1, ?_, ?_⟩
  · unfold run
    split
    rename_i s e hf
    rw [hf] at h2
    have := cleanup_sent c s
    simp only at h2
    split
    · rename_i h; rw [h] at this; simp only at this ⊢; rw [this, h2]; simp [outItems]
    · rw [this, h2]; simp [outItems]
  · intro hn
    apply h3
    unfold run at hn
    split at hn
    rename_i s e hf
    rw [hf]
    split at hn
    · exact hn
    · rename_i r hr
      exact (hr (cleanup c s).1 (Prod.ext rfl hn)).elim

/-- A file that is refused ends the command with the first item to be written, which is passed on; with a message, not by crashing. -/
theorem C58_refused_first {α : Type} (c : Cfg α) (hf : c.toFile = true) (ho : c.opening = .refused) (old : Option Text) (x : α) (hx : (c.fmt x).isSome = true) (es : List (In α)) :
    run c old (.item x :: es) = (⟨false, old, [.item x]⟩, some .kill) := by
  obtain ⟨t, ht⟩ := Option.isSome_iff_exists.mp hx
  have hstep : step c ⟨false, old, []⟩ (.item x) = (⟨false, old, [.item x]⟩, some .kill) := by
    simp [step, receive, ht, writeLine, output, hf, ho, St.send]
  unfold run feed
  rw [hstep]
  simp [cleanup, output, hf, ho]

/-- A file that cannot be opened is not changed, and the command fails. -/
theorem C58_refused {α : Type} (c : Cfg α) (hf : c.toFile = true) (ho : c.opening ≠ .ok) (old : Option Text) (es : List (In α)) :
    (run c old es).2 ≠ none ∧ (run c old es).1.target = old := by
  have hout : ∀ s : St α, s.opened = false → output c s = (s, c.opening) := by
    intro s hs
    unfold output
    rw [if_neg (by simp [hs]), if_pos hf]
    cases h : c.opening with
    | ok => exact absurd h ho
    | refused => rfl
    | fails => rfl
  have hline : ∀ (s : St α) t, s.opened = false → writeLine c t s = (s, c.opening) := by
    intro s t hs
    unfold writeLine
    rw [hout s hs]
    cases h : c.opening with
    | ok => exact absurd h ho
    | refused => rfl
    | fails => rfl
  have hstep : ∀ (s : St α) e, s.opened = false → (step c s e).1.opened = false ∧ (step c s e).1.target = s.target := by
    intro s e hs
    cases e with
    | item x =>
      unfold step receive
      simp only
      split
      · exact ⟨hs, rfl⟩
      · rw [hline s _ hs]
        cases h : c.opening with
        | ok => exact absurd h ho
        | refused => exact ⟨hs, rfl⟩
        | fails => exact ⟨hs, rfl⟩
    | error m =>
      unfold step receiveError
      simp only
      split
      · exact ⟨hs, rfl⟩
      · rw [hline s _ hs]
        cases h : c.opening with
        | ok => exact absurd h ho
        | refused => exact ⟨hs, rfl⟩
        | fails => exact ⟨hs, rfl⟩
  have hfeed : ∀ (es : List (In α)) (s : St α), s.opened = false → (feed c es s).1.opened = false ∧ (feed c es s).1.target = s.target := by
    intro es
    induction es with
    | nil => intro s hs; exact ⟨hs, rfl⟩
    | cons e es ih =>
      intro s hs
      have := hstep s e hs
      unfold feed
      split
      · rename_i s' h
        rw [h] at this
        exact ⟨(ih s' this.1).1, (ih s' this.1).2.trans this.2⟩
      · exact this
  have := hfeed es ⟨false, old, []⟩ rfl
  unfold run cleanup
  split
  rename_i s e hfe
  rw [hfe] at this
  rw [hout s this.1]
  cases h : c.opening with
  | ok => exact absurd h ho
  | refused => exact ⟨by simp, this.2⟩
  | fails => exact ⟨by simp, this.2⟩

/-- Appending to stdout is refused, everything else accepted. -/
theorem C58_accepted {α : Type} (c : Cfg α) : c.accepted = false ↔ c.append = true ∧ c.toFile = false := by
  unfold Cfg.accepted
  cases c.append <;> cases c.toFile <;> simp

/-! ## What fails -/

/-- **C58 is false** with a formatting option: an error ends the command, and what comes after it is neither written nor passed on. -/
theorem C58_false_error {α : Type} (c : Cfg α) (hk : c.kind ≠ .default) (ho : c.toFile = true → c.opening = .ok) (old : Option Text) (m : Text) (es : List (In α)) :
    (run c old (.error m :: es)).2 = some .crash ∧ (run c old (.error m :: es)).1.sent = [] := by
  have hf : fmtError c.kind m = none := by
    unfold fmtError
    cases h : c.kind with
    | default => exact absurd h hk
    | csv => rfl
    | tsv => rfl
    | format => rfl
  have h1 : feed c (.error m :: es) ⟨false, old, []⟩ = (⟨false, old, []⟩, some .crash) := by
    unfold feed step receiveError
    simp only [hf]
  obtain ⟨s2, g1, _, _, g4, _⟩ := output_ok (s := ⟨false, old, []⟩) ho (.inl ⟨rfl, rfl, rfl⟩ : Ready c old [] _)
  unfold run cleanup
  simp only [h1, g1]
  exact ⟨trivial, g4⟩

/-! ## The hypotheses can be met -/

/-- Numbers below 10 can be formatted. -/
def exCfg : Cfg Nat := ⟨.default, true, false, .ok, fun n => if n < 10 then some [Char.ofNat (48 + n)] else none⟩

example : run exCfg (some "old\n".toList) [.item 1, .error "Error: e".toList, .item 12, .item 2] =
    (⟨true, some "1\nError: e\n2\n".toList, [.item 1, .failed 12, .item 12, .item 2]⟩, none) := by decide +kernel

example : (run { exCfg with opening := .refused } (some ['x']) [.item 12, .item 1, .item 2]).2 = some .kill := by decide +kernel

example : (run { exCfg with kind := .csv } none [.item 1, .error [], .item 2]).2 = some .crash := by decide +kernel

end Marcel.WriteOp
