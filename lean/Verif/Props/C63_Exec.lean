import Verif.Props.C62_Resolve

/-! # C63: an executable gets its arguments as typed -/

namespace Marcel

/-- The ways to ask the `bash` operator for an interactive process: `--interactive`, `-i`, `-ii`, ... -/
def InteractiveFlag (s : Str) : Prop := s = "--interactive".toList ∨ ∃ k, s = '-' :: 'i' :: List.replicate k 'i'

/-- A name that doesn't look like a flag. -/
def ProperName (s : Str) : Prop := ∀ c cs, s ≠ '-' :: c :: cs

/-! ## Lemmas -/

theorem bash_symbol (s : Str) : (bashDecl.findFlag (.str s : BashArg)).isSome = true ↔ s = ['-', 'i'] ∨ s = "--interactive".toList := by
  show (List.find? (fun f : FlagDecl BashArg => f.symbol s) bashDecl.flags).isSome = true ↔ _
  simp only [bashDecl, List.find?_cons, FlagDecl.symbol, List.find?_nil]
  constructor
  · intro h
    split at h
    · rename_i h'
      simp only [Bool.or_eq_true, decide_eq_true_eq, Option.some.injEq] at h'
      rcases h' with h' | h'
      · exact .inl h'.symm
      · exact .inr h'.symm
    · cases h
  · rintro (rfl | rfl) <;> rfl

theorem bash_findFlag_none {s : Str} (h : ¬ (s = ['-', 'i'] ∨ s = "--interactive".toList)) : bashDecl.findFlag (.str s : BashArg) = none := by
  cases hf : bashDecl.findFlag (.str s : BashArg) with
  | none => rfl
  | some f => exact absurd ((bash_symbol s).mp (by rw [hf]; rfl)) h

theorem all_i (cs : List Char) : (cs.all fun l => (bashDecl.findFlag (.str ['-', l] : BashArg)).isSome) = true ↔ cs = List.replicate cs.length 'i' := by
  rw [List.all_eq_true, List.eq_replicate_iff]
  simp only [true_and]
  constructor
  · intro h l hl
    have := (bash_symbol ['-', l]).mp (h l hl)
    rcases this with h | h
    · injection h with _ h; injection h
    · exact absurd h (by simp)
  · intro h l hl
    rw [h l hl]
    decide

/-- What a string becomes before flags are looked for. -/
theorem bash_expand (s : Str) : (¬ InteractiveFlag s → bashDecl.expand (.str s : BashArg) = [.str s] ∧ bashDecl.findFlag (.str s : BashArg) = none) ∧
    (InteractiveFlag s → ∃ t ts, bashDecl.expand (.str s : BashArg) = .str t :: ts ∧ (bashDecl.findFlag (.str t : BashArg)).isSome = true) := by
  constructor
  · intro h
    have hn : ¬ (s = ['-', 'i'] ∨ s = "--interactive".toList) := by
      rintro (rfl | rfl)
      · exact h (.inr ⟨0, rfl⟩)
      · exact h (.inl rfl)
    refine ⟨?_, bash_findFlag_none hn⟩
    unfold ArgsDecl.expand
    show (match some s with | some ('-' :: c :: d' :: cs) => _ | _ => _) = _
    split
    · rename_i c d' cs e
      cases e
      split
      · rw [if_neg]
        intro hall
        have := (all_i _).mp hall
        apply h
        refine .inr ⟨(d' :: cs).length, ?_⟩
        rw [this]
        simp [List.replicate_succ]
      · rfl
    · rfl
  · rintro (rfl | ⟨k, rfl⟩)
    · exact ⟨"--interactive".toList, [], rfl, by decide⟩
    · cases k with
      | zero => exact ⟨['-', 'i'], [], rfl, by decide⟩
      | succ k =>
        refine ⟨['-', 'i'], (List.replicate (k + 1) 'i').map (fun l => .str ['-', l]), ?_, by decide⟩
        unfold ArgsDecl.expand
        show (if 'i' ≠ '-' then if _ then _ else _ else _) = _
        rw [if_pos (by decide), if_pos]
        · rfl
        · exact (all_i ('i' :: 'i' :: List.replicate k 'i')).mpr (by simp [List.replicate_succ])

/-- An argument that is not a string, or not an interactive flag. -/
def BashArg.Plain : BashArg → Prop
  | .str s => ¬ InteractiveFlag s
  | .fn _ => True
  | .true_ => False

/-- The state once there are anonymous arguments. -/
def bashSt (vs : List BashArg) : ArgState BashArg := { anonList := vs, flagOk := false }

theorem bash_step (vs : List BashArg) (x : BashArg) (h : x.Plain) : (bashDecl.expand x).foldlM bashDecl.step (bashSt vs) = some (bashSt (vs ++ [x])) := by
  cases x with
  | true_ => exact h.elim
  | fn src => rfl
  | str s =>
    obtain ⟨h1, h2⟩ := (bash_expand s).1 h
    rw [h1]
    show (bashDecl.step (bashSt vs) (.str s) >>= fun st => some st) = _
    unfold ArgsDecl.step
    rw [h2]
    simp only [bashSt, Bool.and_false, Bool.false_eq_true, if_false]
    rfl

theorem bash_step_flag (vs : List BashArg) (s : Str) (h : InteractiveFlag s) : (bashDecl.expand (.str s : BashArg)).foldlM bashDecl.step (bashSt vs) = none := by
  obtain ⟨t, ts, h1, h2⟩ := (bash_expand s).2 h
  rw [h1, List.foldlM_cons]
  unfold ArgsDecl.step
  cases hf : bashDecl.findFlag (.str t : BashArg) with
  | none => rw [hf] at h2; cases h2
  | some f => rfl

theorem bash_extract (xs : List BashArg) : ∀ vs, (∀ x ∈ xs, x.Plain) → bashDecl.extract (bashSt vs) xs = some (bashSt (vs ++ xs)) := by
  induction xs with
  | nil => intro vs _; simp [ArgsDecl.extract]
  | cons x xs ih =>
    intro vs h
    rw [ArgsDecl.extract, bash_step vs x (h x (by simp))]
    simp only
    rw [ih _ (fun y hy => h y (by simp [hy]))]
    simp

theorem bash_extract_flag (xs : List BashArg) (s : Str) (hs : InteractiveFlag s) : ∀ vs, (∀ x ∈ xs, x ≠ .true_) → .str s ∈ xs → bashDecl.extract (bashSt vs) xs = none := by
  induction xs with
  | nil => intro vs _ h; cases h
  | cons x xs ih =>
    intro vs hb h
    rw [ArgsDecl.extract]
    by_cases hx : x.Plain
    · rw [bash_step vs x hx]
      simp only
      refine ih _ (fun y hy => hb y (by simp [hy])) ?_
      rcases List.mem_cons.mp h with rfl | h
      · exact absurd hs hx
      · exact h
    · cases x with
      | true_ => exact absurd rfl (hb _ (by simp))
      | fn src => exact absurd True.intro hx
      | str t =>
        have ht : InteractiveFlag t := Classical.not_not.mp hx
        rw [bash_step_flag vs t ht]

theorem bash_name (name : Str) (hn : ProperName name) (xs : List BashArg) :
    bashDecl.extract { flagOk := decide (bashDecl.flags.length > 0) } (.str name :: xs) = bashDecl.extract (bashSt [.str name]) xs := by
  have hi : ¬ InteractiveFlag name := by
    rintro (h | ⟨k, h⟩)
    · exact hn _ _ h
    · exact hn _ _ h
  obtain ⟨h1, h2⟩ := (bash_expand name).1 hi
  rw [ArgsDecl.extract, h1]
  have hp : plausible (.str name : BashArg) = false := by
    show (match some name with | some s => 2 ≤ s.length && s.head? = some '-' | none => false) = false
    match name, hn with
    | [], _ => rfl
    | [c], _ => rfl
    | c :: d :: cs, hn =>
      simp only
      have : c ≠ '-' := fun e => hn d cs (by rw [e])
      simp [this]
  have hst : [(.str name : BashArg)].foldlM bashDecl.step { flagOk := decide (bashDecl.flags.length > 0) } = some (bashSt [.str name]) := by
    show (bashDecl.step _ (.str name) >>= fun st => some st) = _
    unfold ArgsDecl.step
    rw [h2, hp]
    rfl
  rw [hst]

theorem bash_parse (xs : List BashArg) (name : Str) (hn : ProperName name) (h : ∀ x ∈ xs, x.Plain) :
    ∃ op, bashDecl.parse (.str name :: xs) [] = some op ∧ op.get? "args_arg".toList = some (.list (.str name :: xs)) := by
  unfold ArgsDecl.parse
  rw [bash_name name hn, bash_extract xs [.str name] h]
  exact ⟨_, rfl, rfl⟩

theorem bash_parse_flag (xs : List BashArg) (name s : Str) (hn : ProperName name) (hb : ∀ x ∈ xs, x ≠ .true_) (hs : InteractiveFlag s) (h : .str s ∈ xs) :
    bashDecl.parse (.str name :: xs) [] = none := by
  unfold ArgsDecl.parse
  rw [bash_name name hn, bash_extract_flag xs s hs _ hb h]
  rfl

/-! ## Written commands -/

/-- The argument is not one of the flags of the `bash` operator. -/
def SArg.NotInteractive : SArg → Prop
  | .word w => ¬ InteractiveFlag w.raw
  | _ => True

/-- An argument as the executable's command line has it: a word as typed, an expression replaced by its value. -/
def SArg.hostText (value : Str → Str) : SArg → Str
  | .word w => w.raw
  | .expr src => value src
  | .pipe _ => []

/-- A text without blanks at its beginning and end. -/
def Trimmed (s : Str) : Prop := (∀ c cs, s = c :: cs → isspace c = false) ∧ ∀ c cs, s.reverse = c :: cs → isspace c = false

theorem pyStrip_trimmed {s : Str} (h : Trimmed s) : pyStrip s = s := by
  have aux : ∀ l : Str, (∀ c cs, l = c :: cs → isspace c = false) → l.dropWhile isspace = l := by
    intro l hl
    cases l with
    | nil => rfl
    | cons c cs => rw [List.dropWhile_cons, hl c cs rfl]; rfl
  unfold pyStrip
  rw [aux s h.1, aux s.reverse h.2, List.reverse_reverse]

theorem bashArgs_of (n : Names) (shell : Bool) (args : List SArg) (cs : List CArg) (h : ArgsMean n shell args cs) (hs : ∀ a ∈ args, a.simple) (value : Str → Str) :
    (cs.map CArg.bashArg).map (BashArg.text value) = args.map (fun a => pyStrip (a.hostText value)) ∧
    (∀ x ∈ cs.map CArg.bashArg, x ≠ .true_) ∧
    ((∀ a ∈ args, a.NotInteractive) → ∀ x ∈ cs.map CArg.bashArg, x.Plain) ∧
    (∀ w, .word w ∈ args → .str w.raw ∈ cs.map CArg.bashArg) := by
  induction args generalizing cs with
  | nil =>
    cases h
    exact ⟨rfl, by simp, by simp, by simp⟩
  | cons a as ih =>
    cases h with
    | cons _ _ _ c cs h1 h2 =>
      obtain ⟨i1, i2, i3, i4⟩ := ih cs h2 (fun b hb => hs b (by simp [hb]))
      have key : BashArg.text value c.bashArg = pyStrip (a.hostText value) ∧ c.bashArg ≠ .true_ ∧ (a.NotInteractive → c.bashArg.Plain) ∧
          (∀ w, a = .word w → c.bashArg = .str w.raw) := by
        cases h1 with
        | word _ w => exact ⟨rfl, by simp [CArg.bashArg, Word.tok], fun h => h, by rintro w' ⟨⟩; rfl⟩
        | expr _ src => exact ⟨rfl, by simp [CArg.bashArg], fun h => h, by rintro w' ⟨⟩⟩
        | pipe _ p q _ => exact (hs (.pipe p) (by simp)).elim
      obtain ⟨k1, k2, k3, k4⟩ := key
      refine ⟨by simp only [List.map_cons, k1, i1], ?_, ?_, ?_⟩
      · intro x hx
        rcases List.mem_cons.mp hx with rfl | hx
        · exact k2
        · exact i2 x hx
      · intro hni x hx
        rcases List.mem_cons.mp hx with rfl | hx
        · exact k3 (hni a (by simp))
        · exact i3 (fun b hb => hni b (by simp [hb])) x hx
      · intro w hw
        rcases List.mem_cons.mp hw with rfl | hw
        · rw [List.map_cons, k4 w rfl]
          exact List.mem_cons_self
        · exact List.mem_cons_of_mem _ (i4 w hw)

/-- What is executed for a command that is one executable with arguments. -/
theorem exec_resolved (n : Names) (w : Word) (args : List SArg) (hd : n.defined w.kept = false) (hop : w.kept ∉ operatorNames) (he : n.executable w.kept = true)
    (hwf : (SOp.named w args).WF n.shellArgs) (text : Str) (hw : (SCmd.pipeline (.mk [] none [.named w args] none)).WrittenAs text) :
    ∃ cs, ArgsMean n true args cs ∧ (∀ a ∈ args, a.simple) ∧ resolve n text = .ok (.pipeline (.mk [] [.external w.kept cs])) := by
  have hop : w.kept ∉ publicOps := mt (operators_public _).mpr hop
  have hsh : n.shellArgs w.kept = true := by
    rw [shellArgs_eq, style_op hop, hd, (isOp_false _).mpr hop, he]; rfl
  have hsimple := hwf.2.2 hsh
  unfold resolve
  rw [C33_roundtrip n.shellArgs (.pipeline (.mk [] none [.named w args] none)) ⟨by simp, by simp, ⟨hwf, True.intro⟩, by simp, by simp⟩ text hw]
  have hk := hwf.1.original
  have hcs : ∀ as : List SArg, (∀ a ∈ as, a.simple) → ∃ cs, createArgs n (argsMeaning n.shellArgs true as) = .ok cs ∧ ArgsMean n true as cs := by
    intro as
    induction as with
    | nil => intro _; exact ⟨[], rfl, .nil _⟩
    | cons a as ih =>
      intro hs
      obtain ⟨cs, h1, h2⟩ := ih (fun b hb => hs b (by simp [hb]))
      cases a with
      | word w => exact ⟨_, createArgs_ok.mpr ⟨_, cs, rfl, h1, rfl⟩, .cons _ _ _ _ _ (.word _ _) h2⟩
      | expr src => exact ⟨_, createArgs_ok.mpr ⟨_, cs, rfl, h1, rfl⟩, .cons _ _ _ _ _ (.expr _ _) h2⟩
      | pipe p => exact (hs (.pipe p) (by simp)).elim
  obtain ⟨cs, h1, h2⟩ := hcs args hsimple
  refine ⟨cs, h2, hsimple, ?_⟩
  have ho : isOpName w.kept = false := (isOp_false _).mpr hop
  have hp : createPOp n (.mk (.word w.lit w.raw) (argsMeaning n.shellArgs true args)) = .ok (.external w.kept cs) :=
    createPOp_ok.mpr ⟨cs, h1, by simp only [createOp, OpTok.isVar, OpTok.opName, OpTok.isExecutable, OpTok.name, hd, ho, he, hk, Bool.false_eq_true, if_false, if_true]⟩
  have hops : createOps n [.mk (.word w.lit w.raw) (argsMeaning n.shellArgs true args)] = .ok [.external w.kept cs] :=
    createOps_ok.mpr ⟨_, [], hp, rfl, rfl⟩
  simp only [SCmd.meaning, SPipe.meaning, opsMeaning, SOp.meaning, inpOps, outOps, List.nil_append, List.append_nil, createCmd, createPipe, hsh]
  rw [hops]
  rfl

/-- What a command line that is one executable makes the host shell execute. -/
def hostCommandOf (n : Names) (value : Str → Str) (text : Str) : Option Str :=
  match resolve n text with
  | .ok (.pipeline (.mk _ [c])) => c.hostCommand value
  | _ => none

/-- **C63, the part that holds.** If a command is the name of an executable and arguments, none of which is `-i` (`-ii`, ...) or `--interactive`, and none of which begins or ends with a blank,
then, however it is spaced, the host shell executes exactly the name and the arguments as they were typed (expressions being replaced by their values), with a blank between them. -/
theorem C63_typed_partial (n : Names) (value : Str → Str) (w : Word) (args : List SArg) (hd : n.defined w.kept = false) (hop : w.kept ∉ operatorNames)
    (he : n.executable w.kept = true) (hwf : (SOp.named w args).WF n.shellArgs)
    (hname : ProperName w.lit.string ∧ Trimmed w.lit.string)
    (hni : ∀ a ∈ args, a.NotInteractive) (htr : ∀ a ∈ args, Trimmed (a.hostText value)) (text : Str)
    (hw : (SCmd.pipeline (.mk [] none [.named w args] none)).WrittenAs text) :
    hostCommandOf n value text = some (List.intercalate [' '] (w.lit.string :: args.map (SArg.hostText value))) := by
  obtain ⟨cs, h1, h2, h3⟩ := exec_resolved n w args hd hop he hwf text hw
  obtain ⟨i1, _, i3, _⟩ := bashArgs_of n true args cs h1 h2 value
  have hlv : literalValue w.kept = w.lit.string := by
    unfold literalValue
    rw [(Word.lit_of hwf.1.weak).1]
  obtain ⟨op, p1, p2⟩ := bash_parse (cs.map CArg.bashArg) w.lit.string hname.1 (i3 hni)
  unfold hostCommandOf
  rw [h3]
  simp only [Created.hostCommand, bashCommand, hlv, p1, p2]
  rw [List.map_cons, i1]
  have e1 : BashArg.text value (.str w.lit.string) = w.lit.string := pyStrip_trimmed hname.2
  have e2 : args.map (fun a => pyStrip (a.hostText value)) = args.map (SArg.hostText value) :=
    List.map_congr_left fun a ha => pyStrip_trimmed (htr a ha)
  rw [e1, e2]

/-- An argument `-i`, `-ii`, ... or `--interactive`, anywhere, makes marcel refuse the command (`sed -i ...`, `rm -i ...`, `git rebase --interactive`). -/
theorem C63_false_interactive (n : Names) (value : Str → Str) (w : Word) (args : List SArg) (hd : n.defined w.kept = false) (hop : w.kept ∉ operatorNames)
    (he : n.executable w.kept = true) (hwf : (SOp.named w args).WF n.shellArgs)
    (hname : ProperName w.lit.string) (v : Word) (hv : .word v ∈ args) (hi : InteractiveFlag v.raw) (text : Str)
    (hw : (SCmd.pipeline (.mk [] none [.named w args] none)).WrittenAs text) :
    hostCommandOf n value text = none := by
  obtain ⟨cs, h1, h2, h3⟩ := exec_resolved n w args hd hop he hwf text hw
  obtain ⟨_, i2, _, i4⟩ := bashArgs_of n true args cs h1 h2 value
  have hlv : literalValue w.kept = w.lit.string := by
    unfold literalValue
    rw [(Word.lit_of hwf.1.weak).1]
  unfold hostCommandOf
  rw [h3]
  simp only [Created.hostCommand, bashCommand, hlv]
  rw [bash_parse_flag _ _ v.raw hname i2 hi (i4 v hv)]

/-! ## Non-vacuity, and what fails -/

theorem cat_facts (args : List SArg) (ha : argsWF exampleNames.shellArgs true args) (hs : ∀ a ∈ args, a.simple) :
    exampleNames.defined (plainWord "cat".toList).kept = false ∧ (plainWord "cat".toList).kept ∉ operatorNames ∧ exampleNames.executable (plainWord "cat".toList).kept = true ∧
    (SOp.named (plainWord "cat".toList) args).WF exampleNames.shellArgs ∧ ProperName (plainWord "cat".toList).lit.string ∧ Trimmed (plainWord "cat".toList).lit.string := by
  have hl : (plainWord "cat".toList).lit.string = "cat".toList := by
    rw [plainWord_lit _ (by decide) (plainChar_of _ (by decide))]
  refine ⟨by decide, by decide, by decide, ?_, ?_, ?_⟩
  · exact named_wf _ _ (by decide) (by decide) _ hs (by rw [show exampleNames.shellArgs "cat".toList = true by decide]; exact ha)
  · rw [hl]
    intro c cs e
    exact absurd e (by simp)
  · rw [hl]
    exact ⟨by intro c cs e; cases e; unfold isspace; decide, by intro c cs e; cases e; unfold isspace; decide⟩

/-- `cat   a=b (x)|  ` is not such a command, but `cat   a=b (x) # and a comment` is. -/
example : hostCommandOf exampleNames (fun _ => "42".toList) "cat   a=b (x) # and a comment".toList = some "cat a=b 42".toList := by
  have ha : argsWF exampleNames.shellArgs true [.word (plainWord "a=b".toList), .expr "x".toList] := ⟨shellWord_ab, exprWF_x, True.intro⟩
  have hs : ∀ a ∈ [SArg.word (plainWord "a=b".toList), .expr "x".toList], a.simple := by
    intro a ha
    simp only [List.mem_cons, List.not_mem_nil, or_false] at ha
    rcases ha with rfl | rfl <;> exact True.intro
  obtain ⟨h1, h2, h3, h4, h5, h6⟩ := cat_facts _ ha hs
  have hb : ∀ k, Blanks (List.replicate k ' ') := by
    intro k c hc
    rw [List.mem_replicate] at hc
    rw [hc.2]
    unfold isspace; decide
  refine C63_typed_partial exampleNames (fun _ => "42".toList) (plainWord "cat".toList) _ h1 h2 h3 h4 ⟨h5, h6⟩ ?_ ?_ _ ?_
  · intro a ha
    simp only [List.mem_cons, List.not_mem_nil, or_false] at ha
    rcases ha with rfl | rfl
    · rintro (h | ⟨k, h⟩)
      · exact absurd h (by decide)
      · exact absurd h (by simp [plainWord, Word.raw, Piece.raw])
    · exact True.intro
  · intro a ha
    simp only [List.mem_cons, List.not_mem_nil, or_false] at ha
    rcases ha with rfl | rfl
    · exact ⟨by intro c cs e; cases e; unfold isspace; decide, by intro c cs e; cases e; unfold isspace; decide⟩
    · exact ⟨by intro c cs e; cases e; unfold isspace; decide, by intro c cs e; cases e; unfold isspace; decide⟩
  · refine ⟨[], _, hb 0, ?_, rfl⟩
    refine Written.cons (.word (plainWord "cat".toList)) (.word (plainWord "a=b".toList)) _ [' ', ' ', ' '] "a=b (x) # and a comment".toList (hb 3) (by simp) ?_
    refine Written.cons (.word (plainWord "a=b".toList)) (.expr "x".toList) _ [' '] "(x) # and a comment".toList (hb 1) (by simp) ?_
    exact Written.last (.expr "x".toList) " # and a comment".toList (.comment [' '] " and a comment".toList (hb 1) (by simp))

/-- An argument ending in an escaped blank loses it: from `cat a\  b` (the arguments `a` with a blank after it, and `b`) the host shell gets `cat a\ b`, which has the one argument `a b`. -/
theorem C63_false_blank : ∃ (n : Names) (value : Str → Str), n.Usual ∧ n.executable "cat".toList = true ∧
    hostCommandOf n value "cat a\\  b ".toList = some "cat a\\ b".toList := by
  refine ⟨exampleNames, fun _ => [], exampleNames_usual, by decide, ?_⟩
  have hw1 : Word.ShellWF [.plain 'a', .escaped ' '] := by
    refine ⟨?_, ⟨'a', _, rfl, by unfold isspace; decide, by decide⟩, ⟨_, rfl, rfl⟩⟩
    intro p hp
    simp only [List.mem_cons, List.not_mem_nil, or_false] at hp
    rcases hp with rfl | rfl
    · exact ⟨by unfold isspace; decide, by decide, by decide⟩
    · exact True.intro
  have hb : (plainWord "b".toList).ShellWF := (pw "b".toList (by decide) (by decide)).weak
  have ha : argsWF exampleNames.shellArgs true [.word [.plain 'a', .escaped ' '], .word (plainWord "b".toList)] := ⟨hw1, hb, True.intro⟩
  have hs : ∀ a ∈ [SArg.word [.plain 'a', .escaped ' '], .word (plainWord "b".toList)], a.simple := by
    intro a ha
    simp only [List.mem_cons, List.not_mem_nil, or_false] at ha
    rcases ha with rfl | rfl <;> exact True.intro
  obtain ⟨h1, h2, h3, h4, h5, h6⟩ := cat_facts _ ha hs
  have hwf : (SCmd.pipeline (.mk [] none [.named (plainWord "cat".toList) [.word [.plain 'a', .escaped ' '], .word (plainWord "b".toList)]] none)).WF exampleNames.shellArgs :=
    ⟨by simp, by simp, ⟨h4, True.intro⟩, by simp, by simp⟩
  obtain ⟨cs, r1, r2, r3⟩ := exec_resolved exampleNames _ _ h1 h2 h3 h4 _ (SCmd.writtenAs_text _ _ hwf)
  obtain ⟨i1, _, i3, _⟩ := bashArgs_of exampleNames true _ cs r1 r2 (fun _ => [])
  have hni : ∀ a ∈ [SArg.word [.plain 'a', .escaped ' '], .word (plainWord "b".toList)], a.NotInteractive := by
    intro a ha
    simp only [List.mem_cons, List.not_mem_nil, or_false] at ha
    rcases ha with rfl | rfl
    · rintro (h | ⟨k, h⟩)
      · exact absurd h (by decide)
      · exact absurd h (by simp [Word.raw, Piece.raw])
    · rintro (h | ⟨k, h⟩)
      · exact absurd h (by decide)
      · exact absurd h (by simp [plainWord, Word.raw, Piece.raw])
  have hl : literalValue (plainWord "cat".toList).kept = "cat".toList := by
    unfold literalValue
    rw [plainWord_kept, StrLit.of_plain _ (by decide) (plainChar_of _ (by decide))]
  have hproper : ProperName "cat".toList := by intro c cs e; exact absurd e (by simp)
  obtain ⟨op, p1, p2⟩ := bash_parse (cs.map CArg.bashArg) "cat".toList hproper (i3 hni)
  have ht : "cat a\\  b ".toList = (SCmd.pipeline (.mk [] none [.named (plainWord "cat".toList) [.word [.plain 'a', .escaped ' '], .word (plainWord "b".toList)]] none)).text := rfl
  unfold hostCommandOf
  rw [ht, r3]
  simp only [Created.hostCommand, bashCommand, hl, p1, p2]
  rw [List.map_cons, i1]
  have s1 : pyStrip "cat".toList = "cat".toList := pyStrip_trimmed ⟨by intro c cs e; cases e; unfold isspace; decide, by intro c cs e; cases e; unfold isspace; decide⟩
  have s2 : pyStrip "b".toList = "b".toList := pyStrip_trimmed ⟨by intro c cs e; cases e; unfold isspace; decide, by intro c cs e; cases e; unfold isspace; decide⟩
  have s3 : pyStrip ['a', '\\', ' '] = ['a', '\\'] := by
    have e1 : isspace 'a' = false := by unfold isspace; decide
    have e2 : isspace '\\' = false := by unfold isspace; decide
    have e3 : isspace ' ' = true := by unfold isspace; decide
    simp [pyStrip, List.dropWhile_cons, e1, e2, e3]
  show some (List.intercalate [' '] [pyStrip "cat".toList, pyStrip ['a', '\\', ' '], pyStrip "b".toList]) = _
  rw [s1, s2, s3]
  rfl

end Marcel
