import Verif.Model.Remote
import Verif.Props.C43_Store
/-! # C79: the output of a pipeline run by `remote` or `sudo` arrives -/

namespace Marcel.Remote

open Marcel.PickleFile

variable {V : Type}

/-! ## Specification -/

/-- The objects that a pipeline outputs: items and errors. -/
def outputs : List (Sent V) → List (Obj (Lit V))
  | [] => []
  | .item x :: r => .pair x.id (.lit (if x.isList then .list else .tuple)) x.body :: outputs r
  | .error e :: r =>
    .pair e.id (.lit .error) (.pair e.dictId (.str e.msgId (.val e.msg))
      (.lit (match e.label with | some l => .val l | none => .tuple))) :: outputs r
  | .flush :: r => outputs r
  | .text _ :: r => outputs r

/-- The pipeline prints nothing. -/
def Silent (ss : List (Sent V)) : Prop := ∀ b, Sent.text b ∉ ss

/-- All that a run of a pipeline outputs: at the end, the error for the exception that it raised. -/
def PipelineRun.all (p : PipelineRun V) : List (Sent V) := p.sent ++ p.raised.toList.map .error

/-- What `remote` should send for these outputs of a host. -/
def labelled (host : V) : List (Sent V) → List (Out V)
  | [] => []
  | .item x :: r => .item x.isList (.pair (.lit (.val host)) x.body.value) :: labelled host r
  | .error e :: r => .error (some host) e.msg :: labelled host r
  | .flush :: r => labelled host r
  | .text _ :: r => labelled host r

/-- What `sudo` should send. -/
def plain : List (Sent V) → List (Out V)
  | [] => []
  | .item x :: r => .item x.isList x.body.value :: plain r
  | .error e :: r => .error e.label e.msg :: plain r
  | .flush :: r => plain r
  | .text _ :: r => plain r

/-- What `sudo` does send: an error is an item, a 1-tuple. -/
def asItems : List (Sent V) → List (Out V)
  | [] => []
  | .item x :: r => .item x.isList x.body.value :: asItems r
  | .error e :: r => .item false (.pair (.pair (.lit .error) (.pair (.lit (.val e.msg))
      (.lit (match e.label with | some l => .val l | none => .tuple)))) (.lit .tuple)) :: asItems r
  | .flush :: r => asItems r
  | .text _ :: r => asItems r

/-! ## Proofs -/

/-- Text that is not an instruction comes next. -/
def cutOff : List (Sent V) → Bool
  | .text false :: _ => true
  | _ => false

def sentObj : Sent V → Option (Obj (Lit V))
  | .item x => some x.obj
  | .error e => some e.obj
  | _ => none

theorem outputs_eq (ss : List (Sent V)) : outputs ss = ss.filterMap sentObj := by
  induction ss with
  | nil => rfl
  | cons s ss ih =>
    cases s with
    | item x => simp [outputs, sentObj, ih, Item.obj]
    | error e =>
      simp only [outputs, ih]
      cases e with
      | mk a b c d l => cases l <;> simp [labelObj, sentObj, Error.obj]
    | flush => rw [List.filterMap_cons]; exact ih
    | text b => rw [List.filterMap_cons]; exact ih

theorem instrs_map (a : List (Instr (Lit V))) (r : List (Chunk V)) :
    instrs (a.map .instr ++ r) = (a ++ (instrs r).1, (instrs r).2) := by
  induction a with
  | nil => rfl
  | cons i a ih => simp [instrs, ih]

/-- Output of a pipeline that prints after `a`, if at all. -/
theorem instrs_silent (a : List (Sent V)) (h : Silent a) (r : List (Sent V))
    (hr : r = [] ∨ ∃ b r', r = .text b :: r') : ∀ m,
    instrs (pickleOutput (a ++ r) m) =
      ((dumpAll (outputs a) m).1, match r with | .text b :: _ => some b | _ => none) := by
  induction a with
  | nil =>
    intro m
    rcases hr with rfl | ⟨b, r', rfl⟩ <;> rfl
  | cons s a ih =>
    have h' : Silent a := fun b hb => h b (List.mem_cons_of_mem _ hb)
    intro m
    rw [outputs_eq] at *
    cases s with
    | item x =>
      simp only [List.cons_append, pickleOutput, instrs_map, ih h', List.filterMap_cons, sentObj, dumpAll]
    | error e =>
      simp only [List.cons_append, pickleOutput, instrs_map, ih h', List.filterMap_cons, sentObj, dumpAll]
    | flush =>
      simp only [List.cons_append, pickleOutput, ih h', List.filterMap_cons, sentObj]
    | text b => exact absurd (List.mem_cons_self ..) (h b)

theorem loads_reads {a : List (Instr (Lit V))} {M M1 vs} (h : Reads a M vs M1) (tail : Option Bool) :
    ∀ n, vs.length < n → loads n a tail M = (vs, if tail = some false then .raised else .eof) := by
  induction h with
  | nil => intro n hn; cases n with
    | zero => simp at hn
    | succ n =>
      simp only [loads, loadOut, load1]
      rcases tail with _ | _ | _ <;> rfl
  | cons hc he _ ih =>
    intro n hn
    cases n with
    | zero => simp at hn
    | succ n =>
      rename_i c cs M v M1 vs M2 hr
      have : load1 (c ++ cs) M = .ok v cs M1 := by
        cases c with
        | nil => exact absurd rfl hc
        | cons i c => exact he cs
      simp only [loads, loadOut, this, ih n (by simp at hn; exact hn)]

theorem readOutput_eq (a r : List (Sent V)) (h : Silent a) (hc : Coherent (outputs a))
    (hr : r = [] ∨ ∃ b r', r = .text b :: r') :
    readOutput (pickleOutput (a ++ r) []) =
      ((outputs a).map Obj.value, if cutOff r then .raised else .eof) := by
  obtain ⟨M, hM⟩ := reads_coherent _ hc
  unfold readOutput
  rw [instrs_silent a h r hr []]
  rw [loads_reads hM _ _ (Nat.lt_succ_of_le hM.length)]
  rcases hr with rfl | ⟨b, r', rfl⟩
  · rfl
  · cases b <;> rfl

theorem sends_labelled (host : V) (a : List (Sent V)) :
    (((outputs a).map Obj.value).map runRemoteSends).map (labelThread host) = labelled host a := by
  induction a with
  | nil => rfl
  | cons s a ih =>
    cases s with
    | item x =>
      obtain ⟨i, l, b⟩ := x
      simp only [outputs, labelled, List.map_cons, ih]
      cases l <;> rfl
    | error e =>
      obtain ⟨i, d, mi, m, l⟩ := e
      simp only [outputs, labelled, List.map_cons, ih]
      cases l <;> rfl
    | flush => exact ih
    | text b => exact ih

theorem sends_asItems (a : List (Sent V)) :
    ((outputs a).map Obj.value).map wrap = asItems a := by
  induction a with
  | nil => rfl
  | cons s a ih =>
    cases s with
    | item x =>
      obtain ⟨i, l, b⟩ := x
      simp only [outputs, asItems, List.map_cons, ih]
      cases l <;> rfl
    | error e =>
      obtain ⟨i, d, mi, m, l⟩ := e
      simp only [outputs, asItems, List.map_cons, ih]
      cases l <;> rfl
    | flush => exact ih
    | text b => exact ih

theorem runnerSends_eq (p : PipelineRun V) : runnerSends p = p.all := by
  unfold runnerSends PipelineRun.all
  cases p.raised <;> rfl

/-- Everything that the pipeline outputs before it prints something (if it does). -/
theorem remote_prefix (host : V) (p : PipelineRun V) (a r : List (Sent V)) (hp : p.all = a ++ r)
    (h : Silent a) (hc : Coherent (outputs a)) (hr : r = [] ∨ ∃ b r', r = .text b :: r') :
    remoteHost host true true p =
      labelled host a ++ if cutOff r then [] else [.flush] := by
  unfold remoteHost runRemote farcel
  simp only [Bool.and_self, if_true]
  rw [runnerSends_eq, hp, readOutput_eq a r h hc hr]
  simp only [List.map_append, sends_labelled]
  congr 1
  cases cutOff r <;> rfl

/-- **C79.** For every host, and every run of the remote pipeline which prints nothing: everything that the pipeline outputs is
sent on, each item with the host in front, each error with the host as its label, in the same order; if the pipeline
failed with an exception, an error for that comes last; and then the stream is flushed. (`Coherent`: an object which is output
more than once has not changed in between.) -/
theorem C79_remote (host : V) (p : PipelineRun V) (h : Silent p.all) (hc : Coherent (outputs p.all)) :
    remoteHost host true true p = labelled host p.all ++ [.flush] := by
  rw [remote_prefix host p p.all [] (by simp) h hc (Or.inl rfl)]
  simp [cutOff]

/-- **C79.** `sudo`, of a pipeline without errors: its items, in order, then flush; and no exception. -/
theorem C79_sudo (p : PipelineRun V) (h : Silent p.all) (hc : Coherent (outputs p.all))
    (he : ∀ e, Sent.error e ∉ p.all) :
    sudo true p = (plain p.all ++ [.flush], false) := by
  have hx : asItems p.all = plain p.all := by
    generalize p.all = a at he
    induction a with
    | nil => rfl
    | cons s a ih =>
      have ih := ih (fun e hm => he e (List.mem_cons_of_mem _ hm))
      cases s with
      | item x => simp only [asItems, plain, ih]
      | error e => exact absurd (List.mem_cons_self ..) (he e)
      | flush => exact ih
      | text b => exact ih
  have := readOutput_eq p.all [] h hc (Or.inl rfl)
  rw [List.append_nil] at this
  unfold sudo farcel
  simp only [if_true]
  rw [runnerSends_eq, this, sends_asItems, hx]
  rfl

/-- In general `sudo` sends errors as items. -/
theorem C79_sudo_general (p : PipelineRun V) (h : Silent p.all) (hc : Coherent (outputs p.all)) :
    sudo true p = (asItems p.all ++ [.flush], false) := by
  have := readOutput_eq p.all [] h hc (Or.inl rfl)
  rw [List.append_nil] at this
  unfold sudo farcel
  simp only [if_true]
  rw [runnerSends_eq, this, sends_asItems]
  rfl

/-- **C79 is false for `sudo`**: whatever error the pipeline outputs, or raises, arrives as an item; no error does, in no run. -/
theorem C79_false_sudo (reached : Bool) (p : PipelineRun V) :
    ∀ l m, Out.error l m ∉ (sudo reached p).1 := by
  intro l m hm
  unfold sudo at hm
  simp only [List.mem_append, List.mem_map] at hm
  rcases hm with ⟨v, _, hv⟩ | hm
  · unfold wrap at hv
    split at hv <;> cases hv
  · split at hm <;> simp at hm

/-- **C79 is false if the remote pipeline prints something.** Whatever it outputs after the text is lost, and (unless the text
happens to read as an unfinished instruction) the stream is not flushed. -/
theorem C79_false_print (host : V) (p : PipelineRun V) (a r : List (Sent V)) (hp : p.all = a ++ .text false :: r)
    (h : Silent a) (hc : Coherent (outputs a)) :
    remoteHost host true true p = labelled host a := by
  rw [remote_prefix host p a _ hp h hc (Or.inr ⟨_, _, rfl⟩)]
  simp [cutOff]

/-- The same, for a text that reads as an unfinished instruction: the loss cannot be noticed. -/
theorem C79_false_swallow (host : V) (p : PipelineRun V) (a r : List (Sent V)) (hp : p.all = a ++ .text true :: r)
    (h : Silent a) (hc : Coherent (outputs a)) :
    remoteHost host true true p = labelled host a ++ [.flush] := by
  rw [remote_prefix host p a _ hp h hc (Or.inr ⟨_, _, rfl⟩)]
  simp [cutOff]

/-- **C79 is false if the pipeline cannot be pickled, or the host cannot be reached**: then the operator outputs nothing, not
even an error, and flushes, as for a pipeline without output. -/
theorem C79_false_unreached (host : V) (pickled reached : Bool) (h : (pickled && reached) = false) (p : PipelineRun V) :
    remoteHost host pickled reached p = [.flush] := by
  unfold remoteHost
  rw [h]; rfl

/-- **C79 is false if an object is changed after it was output**: a list is output, then a number is appended to it and it is output
again, now `[1, 2]`. What arrives the second time is `[1]`. -/
theorem C79_false_changed :
    remoteHost 7 true true (V := Nat)
        ⟨[.item ⟨0, true, .lit (.val 1)⟩, .item ⟨0, true, .pair 1 (.lit (.val 1)) (.lit (.val 2))⟩, .flush], none⟩ =
      [.item true (.pair (.lit (.val 7)) (.lit (.val 1))), .item true (.pair (.lit (.val 7)) (.lit (.val 1))), .flush] := by
  decide +kernel

/-- **C79 is false for a first operator that fails**: `fatal_error` (core.py 136-149) sends an error and raises an exception with the same
message, for which another error is sent. -/
theorem C79_false_twice (host m : V) :
    remoteHost host true true ⟨[.error ⟨0, 1, 2, m, none⟩], some ⟨3, 4, 5, m, none⟩⟩ =
      [.error (some host) m, .error (some host) m, .flush] := by
  refine (C79_remote host _ ?_ ?_).trans rfl
  · intro b hb; simp [PipelineRun.all] at hb
  · intro p q hp hq hpq
    simp [PipelineRun.all, outputs, parts, Obj.parts, Obj.value] at hp hq
    rcases hp with rfl | rfl | rfl | rfl | rfl | rfl <;> rcases hq with rfl | rfl | rfl | rfl | rfl | rfl <;>
      first | rfl | (simp at hpq)

/-- Non-vacuity: a pipeline that outputs a tuple, the same string twice, an error, and then fails. -/
example : remoteHost 7 true true (V := Nat)
      ⟨[.item ⟨0, false, .pair 1 (.str 2 (.val 5)) (.str 2 (.val 5))⟩, .error ⟨3, 4, 5, 6, some 9⟩], some ⟨6, 7, 8, 8, none⟩⟩ =
    [.item false (.pair (.lit (.val 7)) (.pair (.lit (.val 5)) (.lit (.val 5)))), .error (some 7) 6, .error (some 7) 8, .flush] := by
  decide +kernel

example : Coherent (outputs (V := Nat)
    [.item ⟨0, false, .pair 1 (.str 2 (.val 5)) (.str 2 (.val 5))⟩, .item ⟨0, false, .pair 1 (.str 2 (.val 5)) (.str 2 (.val 5))⟩]) := by
  intro p q hp hq hpq
  simp [outputs, parts, Obj.parts, Obj.value] at hp hq
  rcases hp with rfl | rfl | rfl | rfl | rfl | rfl <;> rcases hq with rfl | rfl | rfl | rfl | rfl | rfl <;>
    first | rfl | (simp at hpq)

end Marcel.Remote
