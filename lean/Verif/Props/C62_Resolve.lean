import Verif.Model.Resolve
import Verif.Props.C33_Parser

/-! # C62: what the name of a command denotes

The specification is the relation `OpMeans` (with `ArgMeans`, `PipeMeans`, `CmdMeans`): a name denotes the variable of that name, if one is defined; otherwise the marcel operator
of that name, if there is one; otherwise the executable of that name, if there is one; otherwise the variable that will have that name when the command is executed. -/

namespace Marcel

/-- The operators, by what they are about (cf. `help`). -/
def operatorNames : List Str :=
  (["cd", "dirs", "ls", "popd", "pushd", "pwd",
    "read", "write", "load", "store", "upload", "download", "sql", "ps",
    "args", "case", "cast", "expand", "filter", "gen", "head", "join", "map", "red", "reverse", "select", "sort", "squish", "tail", "unique", "window",
    "difference", "intersect", "union",
    "bash", "fork", "remote", "sudo", "timer",
    "bg", "fg", "jobs",
    "edit", "history", "run",
    "assign", "env", "exit", "help", "import", "trace", "version", "ws"] : List String).map String.toList

/-- How the operators are called whose arguments are written as those of executables are. -/
def shellStyle : List Str := ["ls".toList, "read".toList, "bash".toList]

mutual
/-- What an argument means; `shell` says whether it is written as an argument of an executable. -/
inductive ArgMeans (n : Names) : Bool → SArg → CArg → Prop
  | word (shell : Bool) (w : Word) : ArgMeans n shell (.word w) (.tok (w.tok shell))
  | expr (shell : Bool) (src : Str) : ArgMeans n shell (.expr src) (.tok (.expr src))
  | pipe (shell : Bool) (p : SPipe) (q : CPipe) : PipeMeans n p q → ArgMeans n shell (.pipe p) (.pipe q)
inductive ArgsMean (n : Names) : Bool → List SArg → List CArg → Prop
  | nil (shell : Bool) : ArgsMean n shell [] []
  | cons (shell : Bool) (a : SArg) (as : List SArg) (c : CArg) (cs : List CArg) : ArgMeans n shell a c → ArgsMean n shell as cs → ArgsMean n shell (a :: as) (c :: cs)
/-- What a command means. -/
inductive OpMeans (n : Names) : SOp → Created → Prop
  | userVar (w : Word) (args : List SArg) (cs : List CArg) : n.defined w.kept = true →
      (∀ a ∈ args, a.simple) → ArgsMean n false args cs → OpMeans n (.named w args) (.call w.kept cs)
  | operator (w : Word) (args : List SArg) (cs : List CArg) : n.defined w.kept = false → w.kept ∈ operatorNames →
      ArgsMean n (decide (w.kept ∈ shellStyle)) args cs → OpMeans n (.named w args) (.builtin w.kept cs)
  | executable (w : Word) (args : List SArg) (cs : List CArg) : n.defined w.kept = false → w.kept ∉ operatorNames → n.executable w.kept = true →
      ArgsMean n true args cs → OpMeans n (.named w args) (.external w.kept cs)
  | later (w : Word) (args : List SArg) (cs : List CArg) : n.defined w.kept = false → w.kept ∉ operatorNames → n.executable w.kept = false →
      (∀ a ∈ args, a.simple) → ArgsMean n false args cs → OpMeans n (.named w args) (.call w.kept cs)
  | remote (args : List SArg) (cs : List CArg) : ArgsMean n false args cs → OpMeans n (.remote args) (.builtin "remote".toList cs)
  | run (b : Bool) (args : List SArg) (cs : List CArg) : ArgsMean n false args cs → OpMeans n (.run b args) (.builtin "run".toList cs)
  | bare (src : Str) : OpMeans n (.bare src) (.builtin "map".toList [.tok (.expr src)])
inductive OpsMean (n : Names) : List SOp → List Created → Prop
  | nil : OpsMean n [] []
  | cons (o : SOp) (os : List SOp) (c : Created) (cs : List Created) : OpMeans n o c → OpsMean n os cs → OpsMean n (o :: os) (c :: cs)
/-- What a pipeline means: an input is `read` or `load`, an output is `write` or `store`. -/
inductive PipeMeans (n : Names) : SPipe → CPipe → Prop
  | mk (params : List Word) (inp : Option (Bool × Word)) (ops : List SOp) (out : Option (Bool × Bool × Word)) (cs : List Created) :
      OpsMean n ops cs →
      PipeMeans n (.mk params inp ops out) (.mk (params.map Word.kept)
        ((match inp with
          | none => []
          | some (v, w) => [.builtin (if v then "load".toList else "read".toList) [.tok (w.tok false)]]) ++ cs ++
         (match out with
          | none => []
          | some (v, a, w) => [.builtin (if v then "store".toList else "write".toList) ((if a then [.flag "--append".toList] else []) ++ [.tok (w.tok false)])])))
end

inductive CmdMeans (n : Names) : SCmd → CCmd → Prop
  | assign (w : Word) (a : SArg) (c : CArg) : ArgMeans n false a c → CmdMeans n (.assign w a) (.assign w.kept c)
  | pipeline (p : SPipe) (q : CPipe) : PipeMeans n p q → CmdMeans n (.pipeline p) (.pipeline q)

/-- No variable has the name of an operator whose arguments are written as those of executables are, or that is
implied by a bare expression or a redirection. -/
def Names.Usual (n : Names) : Prop :=
  ∀ x ∈ ["ls".toList, "read".toList, "bash".toList, "map".toList, "load".toList, "write".toList, "store".toList], n.defined x = false

/-! ## Lemmas -/

theorem contains_iff (xs : List Str) (s : Str) : xs.contains s = true ↔ s ∈ xs := by simp

theorem operators_public (s : Str) : s ∈ operatorNames ↔ s ∈ publicOps :=
  ⟨(show ∀ s ∈ operatorNames, s ∈ publicOps by decide +kernel) s, (show ∀ s ∈ publicOps, s ∈ operatorNames by decide +kernel) s⟩

theorem isOp_iff (s : Str) : isOpName s = true ↔ s ∈ publicOps := contains_iff _ _

theorem isOp_false (s : Str) : isOpName s = false ↔ s ∉ publicOps := by
  rw [← Bool.not_eq_true, isOp_iff]

theorem shellStyle_public : ∀ s ∈ shellStyle, s ∈ publicOps ∧ s ∈ allOps ∧ s ∈ bashyOps := by decide

theorem bashy_shellStyle : ∀ s ∈ bashyOps, s ∈ shellStyle := by decide

theorem bashy_iff (s : Str) : (allOps.contains s && bashyOps.contains s) = decide (s ∈ shellStyle) := by
  by_cases h : s ∈ shellStyle
  · obtain ⟨_, h2, h3⟩ := shellStyle_public s h
    rw [(contains_iff _ _).mpr h2, (contains_iff _ _).mpr h3, decide_eq_true h]
    rfl
  · have : bashyOps.contains s = false := by
      rw [← Bool.not_eq_true, contains_iff]
      exact fun h' => h (bashy_shellStyle s h')
    rw [this, decide_eq_false h, Bool.and_false]

theorem Names.Usual.not_style {n : Names} (hn : n.Usual) {s : Str} (h : n.defined s = true) : s ∉ shellStyle := by
  intro hs
  have := hn s (by
    simp only [shellStyle, List.mem_cons, List.not_mem_nil, or_false] at hs
    rcases hs with rfl | rfl | rfl <;> simp)
  rw [h] at this
  cases this

theorem shellArgs_eq (n : Names) (s : Str) :
    n.shellArgs s = (decide (s ∈ shellStyle) || (!n.defined s && !isOpName s && n.executable s)) := by
  unfold Names.shellArgs
  rw [bashy_iff]

theorem style_op {s : Str} (h : s ∉ publicOps) : decide (s ∈ shellStyle) = false :=
  decide_eq_false fun h' => h (shellStyle_public s h').1

theorem opName_word (w : Word) : (OpTok.word w.lit w.raw).opName = if isOpName w.lit.original then some w.lit.original else none := rfl

theorem Word.WF.original {w : Word} (h : w.WF) : w.lit.original = w.kept := StrLit.of_original (Word.lit_of h.weak).1

theorem hasValue_iff (isShell : Str → Bool) (shell : Bool) (args : List SArg) : (argsMeaning isShell shell args).all PArg.hasValue = true ↔ ∀ a ∈ args, a.simple := by
  induction args with
  | nil => simp [argsMeaning]
  | cons a as ih =>
    rw [argsMeaning, List.all_cons, Bool.and_eq_true, ih]
    constructor
    · intro ⟨h1, h2⟩ b hb
      rcases List.mem_cons.mp hb with rfl | hb
      · cases b with
        | pipe p => cases h1
        | _ => exact True.intro
      · exact h2 b hb
    · intro h
      refine ⟨?_, fun b hb => h b (List.mem_cons_of_mem _ hb)⟩
      cases a with
      | pipe p => exact (h _ List.mem_cons_self).elim
      | _ => rfl

theorem except_map_ok {ε α β : Type} {f : α → β} {x : Except ε α} {y : β} : x.map f = .ok y ↔ ∃ z, x = .ok z ∧ f z = y := by
  cases x with
  | error e => simp [Except.map]
  | ok z => simp [Except.map]

theorem createArgs_ok {n : Names} {a : PArg} {as : List PArg} {r : List CArg} :
    createArgs n (a :: as) = .ok r ↔ ∃ c cs, createArg n a = .ok c ∧ createArgs n as = .ok cs ∧ r = c :: cs := by
  rw [createArgs]
  cases h : createArg n a with
  | error e => simp
  | ok c =>
    simp only [except_map_ok]
    constructor
    · rintro ⟨cs, h1, rfl⟩
      exact ⟨c, cs, rfl, h1, rfl⟩
    · rintro ⟨c', cs, h1, h2, rfl⟩
      cases h1
      exact ⟨cs, h2, rfl⟩

theorem createOps_ok {n : Names} {a : POp} {as : List POp} {r : List Created} :
    createOps n (a :: as) = .ok r ↔ ∃ c cs, createPOp n a = .ok c ∧ createOps n as = .ok cs ∧ r = c :: cs := by
  rw [createOps]
  cases h : createPOp n a with
  | error e => simp
  | ok c =>
    simp only [except_map_ok]
    constructor
    · rintro ⟨cs, h1, rfl⟩
      exact ⟨c, cs, rfl, h1, rfl⟩
    · rintro ⟨c', cs, h1, h2, rfl⟩
      cases h1
      exact ⟨cs, h2, rfl⟩

theorem createPOp_ok {n : Names} {op : OpTok} {args : List PArg} {r : Created} :
    createPOp n (.mk op args) = .ok r ↔ ∃ cs, createArgs n args = .ok cs ∧ createOp n op args cs = .ok r := by
  rw [createPOp]
  cases h : createArgs n args with
  | error e => simp
  | ok cs => simp

theorem createOps_append {n : Names} (xs ys : List POp) {r : List Created} :
    createOps n (xs ++ ys) = .ok r ↔ ∃ a b, createOps n xs = .ok a ∧ createOps n ys = .ok b ∧ r = a ++ b := by
  induction xs generalizing r with
  | nil =>
    simp only [List.nil_append, createOps, Except.ok.injEq]
    constructor
    · intro h; exact ⟨[], r, rfl, h, rfl⟩
    · rintro ⟨a, b, rfl, h, rfl⟩; exact h
  | cons x xs ih =>
    rw [List.cons_append, createOps_ok]
    constructor
    · rintro ⟨c, cs, h1, h2, rfl⟩
      obtain ⟨a, b, h3, h4, rfl⟩ := ih.mp h2
      exact ⟨c :: a, b, createOps_ok.mpr ⟨c, a, h1, h3, rfl⟩, h4, rfl⟩
    · rintro ⟨a, b, h1, h2, rfl⟩
      obtain ⟨c, cs, h3, h4, rfl⟩ := createOps_ok.mp h1
      exact ⟨c, cs ++ b, h3, ih.mpr ⟨cs, b, h4, h2, rfl⟩, rfl⟩

/-- An operator implied by the syntax, no variable having its name. -/
theorem createPOp_made {n : Names} (name : Str) (hd : n.defined name = false) (hop : name ∈ publicOps) (args : List PArg) (cs : List CArg)
    (h : createArgs n args = .ok cs) : createPOp n (.mk (.made name) args) = .ok (.builtin name cs) := by
  rw [createPOp, h]
  simp only [createOp, OpTok.isVar, hd, Bool.false_eq_true, if_false, OpTok.opName, (isOp_iff name).mpr hop, if_true]

theorem createInp {n : Names} (hn : n.Usual) (inp : Option (Bool × Word)) :
    createOps n (inpOps inp) = .ok (match inp with
      | none => []
      | some (v, w) => [.builtin (if v then "load".toList else "read".toList) [.tok (w.tok false)]]) := by
  cases inp with
  | none => rfl
  | some x =>
    obtain ⟨v, w⟩ := x
    cases v with
    | true =>
      show createOps n [.mk (.made "load".toList) [.tok (w.tok false)]] = _
      exact createOps_ok.mpr ⟨_, [], createPOp_made _ (hn _ (by simp)) (by decide) _ [.tok (w.tok false)] rfl, rfl, rfl⟩
    | false =>
      show createOps n [.mk (.made "read".toList) [.tok (w.tok false)]] = _
      exact createOps_ok.mpr ⟨_, [], createPOp_made _ (hn _ (by simp)) (by decide) _ [.tok (w.tok false)] rfl, rfl, rfl⟩

theorem createOut {n : Names} (hn : n.Usual) (out : Option (Bool × Bool × Word)) :
    createOps n (outOps out) = .ok (match out with
      | none => []
      | some (v, a, w) => [.builtin (if v then "store".toList else "write".toList) ((if a then [.flag "--append".toList] else []) ++ [.tok (w.tok false)])]) := by
  cases out with
  | none => rfl
  | some x =>
    obtain ⟨v, a, w⟩ := x
    cases v <;> cases a
    · show createOps n [.mk (.made "write".toList) [.tok (w.tok false)]] = _
      exact createOps_ok.mpr ⟨_, [], createPOp_made _ (hn _ (by simp)) (by decide) _ [.tok (w.tok false)] rfl, rfl, rfl⟩
    · show createOps n [.mk (.made "write".toList) [.flag "--append".toList, .tok (w.tok false)]] = _
      exact createOps_ok.mpr ⟨_, [], createPOp_made _ (hn _ (by simp)) (by decide) _ [.flag "--append".toList, .tok (w.tok false)] rfl, rfl, rfl⟩
    · show createOps n [.mk (.made "store".toList) [.tok (w.tok false)]] = _
      exact createOps_ok.mpr ⟨_, [], createPOp_made _ (hn _ (by simp)) (by decide) _ [.tok (w.tok false)] rfl, rfl, rfl⟩
    · show createOps n [.mk (.made "store".toList) [.flag "--append".toList, .tok (w.tok false)]] = _
      exact createOps_ok.mpr ⟨_, [], createPOp_made _ (hn _ (by simp)) (by decide) _ [.flag "--append".toList, .tok (w.tok false)] rfl, rfl, rfl⟩

mutual
theorem arg_means {n : Names} (hn : n.Usual) (shell : Bool) : ∀ (a : SArg), a.WF n.shellArgs shell → ∀ c,
    createArg n (a.meaning n.shellArgs shell) = .ok c ↔ ArgMeans n shell a c
  | .word w, _, c => by
    constructor
    · intro h; cases h; exact .word shell w
    · intro h; cases h; rfl
  | .expr src, _, c => by
    constructor
    · intro h; cases h; exact .expr shell src
    · intro h; cases h; rfl
  | .pipe p, hwf, c => by
    have ih := pipe_means hn p hwf
    rw [SArg.meaning, createArg, except_map_ok]
    constructor
    · rintro ⟨q, h, rfl⟩; exact .pipe shell p q ((ih q).mp h)
    · intro h; cases h with | pipe _ _ q h => exact ⟨q, (ih q).mpr h, rfl⟩
theorem args_mean {n : Names} (hn : n.Usual) (shell : Bool) : ∀ (as : List SArg), argsWF n.shellArgs shell as → ∀ cs,
    createArgs n (argsMeaning n.shellArgs shell as) = .ok cs ↔ ArgsMean n shell as cs
  | [], _, cs => by
    constructor
    · intro h; cases h; exact .nil shell
    · intro h; cases h; rfl
  | a :: as, hwf, cs => by
    have ih1 := arg_means hn shell a hwf.1
    have ih2 := args_mean hn shell as hwf.2
    rw [argsMeaning, createArgs_ok]
    constructor
    · rintro ⟨c, cs, h1, h2, rfl⟩
      exact .cons shell a as c cs ((ih1 c).mp h1) ((ih2 cs).mp h2)
    · intro h
      cases h with
      | cons _ _ _ c cs h1 h2 => exact ⟨c, cs, (ih1 c).mpr h1, (ih2 cs).mpr h2, rfl⟩
theorem op_means {n : Names} (hn : n.Usual) : ∀ (o : SOp), o.WF n.shellArgs → ∀ c,
    createPOp n (o.meaning n.shellArgs) = .ok c ↔ OpMeans n o c
  | .named w args, hwf, c => by
    have ih := args_mean hn (n.shellArgs w.kept) args hwf.2.1
    have hk := hwf.1.original
    have hv := hasValue_iff n.shellArgs (n.shellArgs w.kept) args
    rw [SOp.meaning, createPOp_ok]
    unfold createOp createVariable
    simp only [opName_word, OpTok.isVar, OpTok.isExecutable, OpTok.name, hk]
    have hsh := shellArgs_eq n w.kept
    rcases Bool.eq_false_or_eq_true (n.defined w.kept) with hd | hd
    · have hsh' : n.shellArgs w.kept = false := by
        rw [hsh, decide_eq_false (hn.not_style hd), hd]; rfl
      rw [hd]
      simp only [if_true]
      rw [hsh'] at ih hv ⊢
      constructor
      · rintro ⟨cs, h1, h2⟩
        split at h2
        · cases h2
          rename_i h3
          exact .userVar w args cs hd (hv.mp h3) ((ih cs).mp h1)
        · cases h2
      · intro h
        cases h with
        | userVar _ _ cs _ h2 h3 => exact ⟨cs, (ih cs).mpr h3, if_pos (hv.mpr h2)⟩
        | operator _ _ cs h1 => rw [hd] at h1; cases h1
        | executable _ _ cs h1 => rw [hd] at h1; cases h1
        | later _ _ cs h1 => rw [hd] at h1; cases h1
    · rw [hd]
      simp only [Bool.false_eq_true, if_false]
      by_cases hop : w.kept ∈ publicOps
      · have hsh' : n.shellArgs w.kept = decide (w.kept ∈ shellStyle) := by
          rw [hsh, (isOp_iff _).mpr hop]; simp
        rw [(isOp_iff _).mpr hop]
        simp only [if_true]
        rw [hsh'] at ih hv ⊢
        constructor
        · rintro ⟨cs, h1, h2⟩
          cases h2
          exact .operator w args cs hd ((operators_public _).mpr hop) ((ih cs).mp h1)
        · intro h
          cases h with
          | userVar _ _ cs h1 => rw [hd] at h1; cases h1
          | operator _ _ cs h1 h2 h3 => exact ⟨cs, (ih cs).mpr h3, rfl⟩
          | executable _ _ cs h1 h2 => exact absurd ((operators_public _).mpr hop) h2
          | later _ _ cs h1 h2 => exact absurd ((operators_public _).mpr hop) h2
      · rw [(isOp_false _).mpr hop]
        simp only [Bool.false_eq_true, if_false]
        rcases Bool.eq_false_or_eq_true (n.executable w.kept) with he | he
        · have hsh' : n.shellArgs w.kept = true := by
            rw [hsh, style_op hop, hd, (isOp_false _).mpr hop, he]; rfl
          rw [he]
          simp only [if_true]
          rw [hsh'] at ih hv ⊢
          constructor
          · rintro ⟨cs, h1, h2⟩
            cases h2
            exact .executable w args cs hd (mt (operators_public _).mp hop) he ((ih cs).mp h1)
          · intro h
            cases h with
            | userVar _ _ cs h1 => rw [hd] at h1; cases h1
            | operator _ _ cs h1 h2 h3 => exact absurd ((operators_public _).mp h2) hop
            | executable _ _ cs h1 h2 h3 h4 => exact ⟨cs, (ih cs).mpr h4, rfl⟩
            | later _ _ cs h1 h2 h3 => rw [he] at h3; cases h3
        · have hsh' : n.shellArgs w.kept = false := by
            rw [hsh, style_op hop, he]; simp
          rw [he]
          simp only [Bool.false_eq_true, if_false]
          rw [hsh'] at ih hv ⊢
          constructor
          · rintro ⟨cs, h1, h2⟩
            split at h2
            · cases h2
              rename_i h3
              exact .later w args cs hd (mt (operators_public _).mp hop) he (hv.mp h3) ((ih cs).mp h1)
            · cases h2
          · intro h
            cases h with
            | userVar _ _ cs h1 => rw [hd] at h1; cases h1
            | operator _ _ cs h1 h2 h3 => exact absurd ((operators_public _).mp h2) hop
            | executable _ _ cs h1 h2 h3 => rw [he] at h3; cases h3
            | later _ _ cs h1 h2 h3 h4 h5 => exact ⟨cs, (ih cs).mpr h5, if_pos (hv.mpr h4)⟩
  | .remote args, hwf, c => by
    have ih := args_mean hn false args hwf
    rw [SOp.meaning, createPOp_ok]
    constructor
    · rintro ⟨cs, h1, h2⟩
      cases h2
      exact .remote args cs ((ih cs).mp h1)
    · intro h
      cases h with
      | remote _ cs h1 => exact ⟨cs, (ih cs).mpr h1, rfl⟩
  | .run b args, hwf, c => by
    have ih := args_mean hn false args hwf
    rw [SOp.meaning, createPOp_ok]
    constructor
    · rintro ⟨cs, h1, h2⟩
      cases h2
      exact .run b args cs ((ih cs).mp h1)
    · intro h
      cases h with
      | run _ _ cs h1 => exact ⟨cs, (ih cs).mpr h1, rfl⟩
  | .bare src, hwf, c => by
    have h0 := createPOp_made "map".toList (hn _ (by simp)) (by decide) [.tok (.expr src)] [.tok (.expr src)] rfl
    rw [SOp.meaning, h0]
    constructor
    · intro h; cases h; exact .bare src
    · intro h; cases h; rfl
theorem ops_mean {n : Names} (hn : n.Usual) : ∀ (os : List SOp), opsWF n.shellArgs os → ∀ cs,
    createOps n (opsMeaning n.shellArgs os) = .ok cs ↔ OpsMean n os cs
  | [], _, cs => by
    constructor
    · intro h; cases h; exact .nil
    · intro h; cases h; rfl
  | o :: os, hwf, cs => by
    have ih1 := op_means hn o hwf.1
    have ih2 := ops_mean hn os hwf.2
    rw [opsMeaning, createOps_ok]
    constructor
    · rintro ⟨c, cs, h1, h2, rfl⟩
      exact .cons o os c cs ((ih1 c).mp h1) ((ih2 cs).mp h2)
    · intro h
      cases h with
      | cons _ _ c cs h1 h2 => exact ⟨c, cs, (ih1 c).mpr h1, (ih2 cs).mpr h2, rfl⟩
theorem pipe_means {n : Names} (hn : n.Usual) : ∀ (p : SPipe), p.WF n.shellArgs → ∀ q,
    createPipe n (p.meaning n.shellArgs) = .ok q ↔ PipeMeans n p q
  | .mk params inp ops out, hwf, q => by
    have ih := ops_mean hn ops hwf.2.2.1
    rw [SPipe.meaning, createPipe, except_map_ok]
    constructor
    · rintro ⟨r, h, rfl⟩
      obtain ⟨a, b, h1, h2, rfl⟩ := (createOps_append _ _).mp h
      obtain ⟨b, c, h2', h3, rfl⟩ := (createOps_append _ _).mp h2
      rw [createInp hn] at h1
      rw [createOut hn] at h3
      cases h1
      cases h3
      rw [← List.append_assoc]
      exact .mk params inp ops out b ((ih b).mp h2')
    · intro h
      cases h with
      | mk _ _ _ _ cs h =>
        refine ⟨_, (createOps_append _ _).mpr ⟨_, _, createInp hn inp, (createOps_append _ _).mpr ⟨cs, _, (ih cs).mpr h, createOut hn out, rfl⟩, rfl⟩, ?_⟩
        rw [← List.append_assoc]
end

/-- **C62, the part that holds.** If no variable has one of the seven names of `Names.Usual`, then, however a well-formed command is written, what is executed is exactly what
the specification says: each name denotes the variable, operator, executable or later variable, in that order of preference, and its arguments are written as those of an executable
exactly if it denotes an executable or is `ls`, `read` or `bash`. -/
theorem C62_names_partial (n : Names) (hn : n.Usual) (c : SCmd) (hc : c.WF n.shellArgs) (text : Str) (hw : c.WrittenAs text) (r : CCmd) :
    resolve n text = .ok r ↔ CmdMeans n c r := by
  unfold resolve
  rw [C33_roundtrip n.shellArgs c hc text hw]
  cases c with
  | assign w a =>
    have ih := arg_means hn false a hc.2
    rw [SCmd.meaning]
    simp only [createCmd, except_map_ok]
    constructor
    · rintro ⟨x, h, rfl⟩; exact .assign w a x ((ih x).mp h)
    · intro h; cases h with | assign _ _ x h => exact ⟨x, (ih x).mpr h, rfl⟩
  | pipeline p =>
    have ih := pipe_means hn p hc
    rw [SCmd.meaning]
    simp only [createCmd, except_map_ok]
    constructor
    · rintro ⟨x, h, rfl⟩; exact .pipeline p x ((ih x).mp h)
    · intro h; cases h with | pipeline _ x h => exact ⟨x, (ih x).mpr h, rfl⟩

/-! ## Non-vacuity -/

/-- `foo` is a variable; `cat`, `sort` and `ls` are executables. -/
def exampleNames : Names := ⟨fun s => s == "foo".toList, fun s => ["cat".toList, "sort".toList, "ls".toList].contains s⟩

theorem exampleNames_usual : exampleNames.Usual := by
  intro x hx
  simp only [List.mem_cons, List.not_mem_nil, or_false] at hx
  rcases hx with rfl | rfl | rfl | rfl | rfl | rfl | rfl <;> decide

/-- `foo a | cat a=b | sort | (x) | bar > f` -/
def exampleNamed : SCmd :=
  .pipeline (.mk [] none
    [.named (plainWord "foo".toList) [.word (plainWord "a".toList)],
     .named (plainWord "cat".toList) [.word (plainWord "a=b".toList)],
     .named (plainWord "sort".toList) [], .bare "x".toList, .named (plainWord "bar".toList) []]
    (some (false, false, plainWord "f".toList)))

theorem named_wf (isShell : Str → Bool) (name : Str) (hne : name ≠ []) (h : name.all (fun c => c.isAlpha || c = '-') = true) (args : List SArg)
    (hs : ∀ a ∈ args, a.simple) (ha : argsWF isShell (isShell name) args) : (SOp.named (plainWord name) args).WF isShell := by
  have hk := plainWord_kept name
  exact ⟨pw name hne h, by rw [hk]; exact ha, fun _ => hs⟩

theorem shellWord_ab : (plainWord "a=b".toList).ShellWF :=
  plainWord_shellWF 'a' "=b".toList (plainChar_of ['a'] (by decide) 'a' (by simp)) (by
    intro d hd
    have hd : d = '=' ∨ d = 'b' := by simpa using hd
    rcases hd with rfl | rfl
    · exact .inr (by decide)
    · exact .inl (plainChar_of ['b'] (by decide) 'b' (by simp)))

theorem exprWF_x : ExprWF "x".toList :=
  ⟨.chr 'x' [] (by decide) (by decide) (by decide) (by decide) .nil, by decide⟩

theorem exampleNamed_wf : exampleNamed.WF exampleNames.shellArgs := by
  refine ⟨by simp, by simp, ⟨?_, ?_, ?_, ?_, ?_, True.intro⟩, ?_, by simp⟩
  · exact named_wf _ _ (by decide) (by decide) _ (by intro a ha; simp at ha; subst ha; exact True.intro)
      ⟨Word.WF.arg (pw _ (by decide) (by decide)) _, True.intro⟩
  · refine named_wf _ _ (by decide) (by decide) _ (by intro a ha; simp at ha; subst ha; exact True.intro) ⟨?_, True.intro⟩
    rw [show exampleNames.shellArgs "cat".toList = true by decide]
    exact shellWord_ab
  · exact named_wf _ _ (by decide) (by decide) _ (by intro a ha; cases ha) True.intro
  · exact exprWF_x
  · exact named_wf _ _ (by decide) (by decide) _ (by intro a ha; cases ha) True.intro
  · intro v a w e
    cases e
    exact pw _ (by decide) (by decide)

def wordArg (shell : Bool) (s : Str) : CArg := .tok ((plainWord s).tok shell)

/-- The hypotheses of `C62_names_partial` are met, and this is what the command means. -/
example : resolve exampleNames "foo a | cat a=b | sort | (x) | bar > f ".toList = .ok (.pipeline (.mk [] [
    .call "foo".toList [wordArg false "a".toList], .external "cat".toList [wordArg true "a=b".toList], .builtin "sort".toList [],
    .builtin "map".toList [.tok (.expr "x".toList)], .call "bar".toList [], .builtin "write".toList [wordArg false "f".toList]])) := by
  refine (C62_names_partial exampleNames exampleNames_usual exampleNamed exampleNamed_wf _
    (SCmd.writtenAs_text _ exampleNamed exampleNamed_wf) _).mpr ?_
  refine .pipeline _ _ (.mk [] none _ (some (false, false, plainWord "f".toList)) [_, _, _, _, _] ?_)
  refine .cons _ _ _ _ ?_ (.cons _ _ _ _ ?_ (.cons _ _ _ _ ?_ (.cons _ _ _ _ ?_ (.cons _ _ _ _ ?_ .nil))))
  · exact .userVar (plainWord "foo".toList) _ _ (by decide) (by intro a ha; simp at ha; subst ha; exact True.intro)
      (.cons _ _ _ _ _ (.word _ _) (.nil _))
  · exact .executable (plainWord "cat".toList) _ _ (by decide) (by decide) (by decide) (.cons _ _ _ _ _ (.word _ _) (.nil _))
  · exact .operator (plainWord "sort".toList) _ _ (by decide) (by decide) (.nil _)
  · exact .bare _
  · exact .later (plainWord "bar".toList) _ _ (by decide) (by decide) (by decide) (by intro a ha; cases ha) (.nil _)

/-! ## What fails -/

theorem resolve_written (n : Names) (c : SCmd) (hc : c.WF n.shellArgs) : resolve n c.text = createCmd n (c.meaning n.shellArgs) := by
  unfold resolve
  rw [C33_roundtrip n.shellArgs c hc _ (SCmd.writtenAs_text _ c hc)]

mutual
theorem createArg_err {n : Names} : ∀ (a : PArg) (e : LexErr), createArg n a = .error e → e = .attributeError
  | .tok t, e, h => by cases h
  | .flag s, e, h => by cases h
  | .pipe p, e, h => by
    rw [createArg] at h
    cases hc : createPipe n p with
    | ok q => rw [hc] at h; cases h
    | error e' => rw [hc] at h; cases h; exact createPipe_err p _ hc
theorem createArgs_err {n : Names} : ∀ (as : List PArg) (e : LexErr), createArgs n as = .error e → e = .attributeError
  | [], e, h => by cases h
  | a :: as, e, h => by
    rw [createArgs] at h
    cases hc : createArg n a with
    | error e' => rw [hc] at h; cases h; exact createArg_err a _ hc
    | ok c =>
      rw [hc] at h
      cases hd : createArgs n as with
      | ok q => rw [hd] at h; cases h
      | error e' => rw [hd] at h; cases h; exact createArgs_err as _ hd
theorem createPipe_err {n : Names} : ∀ (p : PPipe) (e : LexErr), createPipe n p = .error e → e = .attributeError
  | .mk params ops, e, h => by
    rw [createPipe] at h
    cases hc : createOps n ops with
    | ok q => rw [hc] at h; cases h
    | error e' => rw [hc] at h; cases h; exact createOps_err ops _ hc
theorem createOps_err {n : Names} : ∀ (os : List POp) (e : LexErr), createOps n os = .error e → e = .attributeError
  | [], e, h => by cases h
  | a :: as, e, h => by
    rw [createOps] at h
    cases hc : createPOp n a with
    | error e' => rw [hc] at h; cases h; exact createPOp_err a _ hc
    | ok c =>
      rw [hc] at h
      cases hd : createOps n as with
      | ok q => rw [hd] at h; cases h
      | error e' => rw [hd] at h; cases h; exact createOps_err as _ hd
theorem createPOp_err {n : Names} : ∀ (o : POp) (e : LexErr), createPOp n o = .error e → e = .attributeError
  | .mk op args, e, h => by
    rw [createPOp] at h
    cases hc : createArgs n args with
    | error e' => rw [hc] at h; cases h; exact createArgs_err args _ hc
    | ok cs =>
      rw [hc] at h
      simp only [createOp, createVariable] at h
      repeat' split at h
      all_goals cases h
      all_goals rfl
end

/-- A pipeline cannot be passed to a pipeline: whatever the variable, if an argument is a pipeline, there is an internal error. -/
theorem C62_false_pipeline_arg (n : Names) (w : Word) (args : List SArg) (hv : n.defined w.kept = true)
    (hwf : (SOp.named w args).WF n.shellArgs) (p : SPipe) (hp : .pipe p ∈ args) (text : Str)
    (hw : (SCmd.pipeline (.mk [] none [.named w args] none)).WrittenAs text) : resolve n text = .error .attributeError := by
  unfold resolve
  rw [C33_roundtrip n.shellArgs (.pipeline (.mk [] none [.named w args] none)) ⟨by simp, by simp, ⟨hwf, True.intro⟩, by simp, by simp⟩ text hw]
  have hk := hwf.1.original
  have hval := hasValue_iff n.shellArgs (n.shellArgs w.kept) args
  have hf : (argsMeaning n.shellArgs (n.shellArgs w.kept) args).all PArg.hasValue = false := by
    rw [← Bool.not_eq_true, hval]
    exact fun h => h _ hp
  simp only [SCmd.meaning, SPipe.meaning, opsMeaning, SOp.meaning, inpOps, outOps, List.nil_append, List.append_nil, createCmd, createPipe, createOps, createPOp]
  cases hc : createArgs n (argsMeaning n.shellArgs (n.shellArgs w.kept) args) with
  | error e =>
    cases createArgs_err _ e hc
    rfl
  | ok cs =>
    simp only [createOp, createVariable, OpTok.isVar, hk, hv, hf, if_true, Bool.false_eq_true, if_false]
    rfl

/-- A variable called `ls` is preferred to the operator, but its arguments are still taken to be written as those of an executable: `a=b` is one word. -/
theorem C62_false_syntax : ∃ n : Names, n.defined "ls".toList = true ∧
    resolve n "ls a=b ".toList = .ok (.pipeline (.mk [] [.call "ls".toList [wordArg true "a=b".toList]])) := by
  let n : Names := ⟨fun s => s == "ls".toList, fun _ => false⟩
  refine ⟨n, rfl, ?_⟩
  have hwf : (SCmd.pipeline (.mk [] none [.named (plainWord "ls".toList) [.word (plainWord "a=b".toList)]] none)).WF n.shellArgs := by
    refine ⟨by simp, by simp, ⟨?_, True.intro⟩, by simp, by simp⟩
    refine named_wf _ _ (by decide) (by decide) _ (by intro a ha; simp at ha; subst ha; exact True.intro) ⟨?_, True.intro⟩
    rw [show n.shellArgs "ls".toList = true by decide]
    exact shellWord_ab
  exact resolve_written n _ hwf

/-- The operators implied by the syntax are looked up by name: if there is a variable called `map`, a bare expression runs that. -/
theorem C62_false_hijack : ∃ n : Names, n.defined "map".toList = true ∧
    resolve n "(x) ".toList = .ok (.pipeline (.mk [] [.call "map".toList [.tok (.expr "x".toList)]])) := by
  let n : Names := ⟨fun s => s == "map".toList, fun _ => false⟩
  refine ⟨n, rfl, ?_⟩
  have hwf : (SCmd.pipeline (.mk [] none [.bare "x".toList] none)).WF n.shellArgs :=
    ⟨by simp, by simp, ⟨exprWF_x, True.intro⟩, by simp, by simp⟩
  exact resolve_written n _ hwf

/-- If there is a variable called `write`, appending to a file is an internal error. -/
theorem C62_false_append : ∃ n : Names, n.defined "write".toList = true ∧ resolve n "(x) >> f ".toList = .error .attributeError := by
  let n : Names := ⟨fun s => s == "write".toList, fun _ => false⟩
  refine ⟨n, rfl, ?_⟩
  have hwf : (SCmd.pipeline (.mk [] none [.bare "x".toList] (some (false, true, plainWord "f".toList)))).WF n.shellArgs :=
    ⟨by simp, by simp, ⟨exprWF_x, True.intro⟩, by intro v a w e; cases e; exact pw _ (by decide) (by decide), by simp⟩
  exact resolve_written n _ hwf

/-- Quotes are part of the name: `'sort'` is not the operator, but a variable that will not be found. -/
theorem C62_false_quoted : ∃ n : Names, n.Usual ∧ n.executable "sort".toList = true ∧
    resolve n "'sort' ".toList = .ok (.pipeline (.mk [] [.call "'sort'".toList []])) := by
  let n : Names := ⟨fun _ => false, fun s => s == "sort".toList⟩
  refine ⟨n, fun _ _ => rfl, rfl, ?_⟩
  have hw : Word.WF [.single "sort".toList] := by
    refine ⟨?_, ⟨'\'', _, rfl, by unfold isspace; decide, by decide⟩, ⟨_, rfl, rfl⟩⟩
    intro p hp
    simp only [List.mem_singleton] at hp
    subst hp
    exact (by decide : '\'' ∉ "sort".toList)
  have hwf : (SCmd.pipeline (.mk [] none [.named [.single "sort".toList] []] none)).WF n.shellArgs :=
    ⟨by simp, by simp, ⟨⟨hw, True.intro, by intro _ a ha; cases ha⟩, True.intro⟩, by simp, by simp⟩
  exact resolve_written n _ hwf

end Marcel
