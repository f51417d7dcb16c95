import Verif.Props.C87_Color
/-! # C88: The prompt is shown as defined, and names the current directory -/

namespace Marcel.Color
open Terminal

/-- The text of a component, if it has one. -/
def Piece.says : Piece → Option Text
  | .color _ => none
  | .text t => some t
  | .fn (.ok (some t)) => some t
  | .fn (.ok none) => some []
  | _ => none

/-- A component that is as it should be: a proper colour, a text without escape characters, or a function that returns one (or nothing). -/
def Piece.Good : Piece → Prop
  | .color c => Proper c
  | .text t => Char.ofNat 27 ∉ t
  | .fn (.ok (some t)) => Char.ofNat 27 ∉ t
  | .fn (.ok none) => True
  | .fn (.error _) => False
  | .other => False

/-- How a character looks when this colour (or none) is in force. -/
def Look (c : Option Color) (a : Attr) : Prop :=
  match c with
  | none => a = plain
  | some c => Wanted c a

/-- What is to be seen: the texts of the components, one after the other, each in the colour that precedes it most closely. -/
def Seen (c : Option Color) : List Piece → List (Char × Attr) → Prop
  | [], out => out = []
  | .color d :: ps, out => Seen (some d) ps out
  | p :: ps, out => ∃ o1 o2, out = o1 ++ o2 ∧ p.says = some (o1.map (·.1)) ∧ (∀ x ∈ o1, Look c x.2) ∧ Seen c ps o2

/-- The current colour is none, or proper. -/
def ProperOpt (c : Option Color) : Prop := ∀ d, c = some d → Proper d

theorem shows_piece (c : Option Color) (hc : ProperOpt c) (t : Text) (ht : Char.ofNat 27 ∉ t) :
    ∃ o, shows ready (colorize t c) = (o, ready) ∧ o.map (·.1) = t ∧ ∀ x ∈ o, Look c x.2 := by
  cases c with
  | none =>
    refine ⟨_, shows_text plain t ht, by simp [Function.comp_def], ?_⟩
    intro x hx; rw [List.mem_map] at hx; obtain ⟨y, -, rfl⟩ := hx; rfl
  | some c =>
    refine ⟨_, shows_colorize t c (hc c rfl) ht, by simp [Function.comp_def], ?_⟩
    intro x hx; rw [List.mem_map] at hx; obtain ⟨y, -, rfl⟩ := hx
    exact (wanted_iff c (hc c rfl) _).2 rfl

theorem build_seen (ps : List Piece) (hp : ∀ p ∈ ps, p.Good) (c : Option Color) (hc : ProperOpt c) (buffer : Text)
    (hb : (shows ready buffer).2 = ready) :
    ∃ t out, build buffer c ps = .text t ∧ shows ready t = ((shows ready buffer).1 ++ out, ready) ∧ Seen c ps out := by
  induction ps generalizing c buffer with
  | nil =>
    refine ⟨buffer, [], rfl, ?_, rfl⟩
    rw [List.append_nil, ← hb]
    rw [hb]
    exact Prod.ext rfl hb
  | cons p ps ih =>
    have hps : ∀ q ∈ ps, q.Good := fun q hq => hp q (by simp [hq])
    have hg := hp p (by simp)
    have key : ∀ t : Text, Char.ofNat 27 ∉ t → p.says = some t → (∀ d, p ≠ .color d) →
        ∃ t' out, build (addPiece buffer c t) c ps = .text t' ∧ shows ready t' = ((shows ready buffer).1 ++ out, ready) ∧ Seen c (p :: ps) out := by
      intro t ht hs hnc
      obtain ⟨o, h1, h2, h3⟩ := shows_piece c hc t ht
      have e : shows ready (addPiece buffer c t) = ((shows ready buffer).1 ++ o, ready) := by
        rw [addPiece, shows_append, hb, h1]
      obtain ⟨t', out, b1, b2, b3⟩ := ih hps c hc (addPiece buffer c t) (by rw [e])
      refine ⟨t', o ++ out, b1, by rw [b2, e]; simp, ?_⟩
      have : Seen c (p :: ps) (o ++ out) ↔ ∃ o1 o2, o ++ out = o1 ++ o2 ∧ p.says = some (o1.map (·.1)) ∧ (∀ x ∈ o1, Look c x.2) ∧ Seen c ps o2 := by
        cases p with
        | color d => exact absurd rfl (hnc d)
        | text _ => rfl
        | fn _ => rfl
        | other => rfl
      rw [this]
      exact ⟨o, out, rfl, by rw [hs, h2], h3, b3⟩
    have skip : p.says = some [] → (∀ d, p ≠ .color d) →
        ∃ t' out, build buffer c ps = .text t' ∧ shows ready t' = ((shows ready buffer).1 ++ out, ready) ∧ Seen c (p :: ps) out := by
      intro hs hnc
      obtain ⟨t', out, b1, b2, b3⟩ := ih hps c hc buffer hb
      refine ⟨t', out, b1, b2, ?_⟩
      have : Seen c (p :: ps) out ↔ ∃ o1 o2, out = o1 ++ o2 ∧ p.says = some (o1.map (·.1)) ∧ (∀ x ∈ o1, Look c x.2) ∧ Seen c ps o2 := by
        cases p with
        | color d => exact absurd rfl (hnc d)
        | text _ => rfl
        | fn _ => rfl
        | other => rfl
      rw [this]
      exact ⟨[], out, rfl, by rw [hs]; rfl, by simp, b3⟩
    cases p with
    | color d =>
      obtain ⟨t', out, b1, b2, b3⟩ := ih hps (some d) (by rintro _ ⟨⟩; exact hg) buffer hb
      exact ⟨t', out, b1, b2, b3⟩
    | text t =>
      cases t with
      | nil => exact skip rfl (by simp)
      | cons x t => exact key (x :: t) hg rfl (by simp)
    | fn r =>
      cases r with
      | error _ => exact absurd hg (by simp [Piece.Good])
      | ok o =>
        cases o with
        | none => exact skip rfl (by simp)
        | some t => exact key t hg rfl (by simp)
    | other => exact absurd hg (by simp [Piece.Good])

/-- **C88** A prompt made of proper components is shown with each of their texts in the colour that precedes it; what is typed after it has no colour. -/
theorem C88_prompt (default_ : Text) (ps : List Piece) (hp : ∀ p ∈ ps, p.Good) :
    ∃ t, promptString default_ (some ps) = some t ∧ Seen none ps (shows ready t).1 ∧ (shows ready t).2 = ready := by
  obtain ⟨t, out, h1, h2, h3⟩ := build_seen ps hp none (by rintro _ ⟨⟩) [] rfl
  refine ⟨t, by simp [promptString, h1], ?_, by rw [h2]⟩
  rw [h2]
  simpa [shows] using h3

theorem build_good (ps rest : List Piece) (hp : ∀ p ∈ ps, p.Good) (c : Option Color) (buffer : Text) :
    ∃ b d, build buffer c (ps ++ rest) = build b d rest := by
  induction ps generalizing c buffer with
  | nil => exact ⟨buffer, c, rfl⟩
  | cons p ps ih =>
    have hps : ∀ q ∈ ps, q.Good := fun q hq => hp q (by simp [hq])
    have hg := hp p (by simp)
    cases p with
    | color d => exact ih hps _ _
    | text t => exact ih hps _ _
    | fn r =>
      cases r with
      | error _ => exact absurd hg (by simp [Piece.Good])
      | ok o =>
        cases o with
        | none => exact ih hps _ _
        | some t => exact ih hps _ _
    | other => exact absurd hg (by simp [Piece.Good])

/-- **C88** If a function in the prompt fails, the default prompt is shown; so is it if `PROMPT` is no sequence at all. -/
theorem C88_default (default_ : Text) (ps rest : List Piece) (hp : ∀ p ∈ ps, p.Good) (e : Unit) :
    promptString default_ (some (ps ++ .fn (.error e) :: rest)) = some default_ ∧ promptString default_ none = some default_ := by
  obtain ⟨b, d, h⟩ := build_good ps (.fn (.error e) :: rest) hp none []
  exact ⟨by simp [promptString, h, build], rfl⟩

/-- **C88 is false** for a prompt with a component that is neither colour nor text nor function, e.g. a number: there is no prompt, the shell ends. -/
theorem C88_false_kill (default_ : Text) (ps rest : List Piece) (hp : ∀ p ∈ ps, p.Good) :
    promptString default_ (some (ps ++ .other :: rest)) = none := by
  obtain ⟨b, d, h⟩ := build_good ps (.other :: rest) hp none []
  simp [promptString, h, build]

/-! ## The directory -/

/-- **C88** In the default workspace, below the home directory `PROMPT_DIR` is `~` and the rest of the path; outside it is the path, if it does not begin as the home directory does. -/
theorem C88_dir (home rest pwd : Text) :
    promptDirDefault home home = ['~'] ∧
    promptDirDefault (home ++ '/' :: rest) home = '~' :: '/' :: rest ∧
    ((∀ r, pwd ≠ home ++ r) → promptDirDefault pwd home = pwd) := by
  refine ⟨?_, ?_, ?_⟩
  · simp [promptDirDefault]
  · simp [promptDirDefault]
  · intro h
    unfold promptDirDefault
    rw [if_neg]
    intro hp
    rw [List.isPrefixOf_iff_prefix] at hp
    obtain ⟨r, hr⟩ := hp
    exact h r hr.symm

/-- **C88** Different directories are shown differently. -/
theorem C88_dir_distinct (home p q : Text) (hp : p.head? = some '/') (hq : q.head? = some '/')
    (h : promptDirDefault p home = promptDirDefault q home) : p = q := by
  have key : ∀ x : Text, home.isPrefixOf x = true → home ++ x.drop home.length = x := by
    intro x hx
    rw [List.isPrefixOf_iff_prefix] at hx
    obtain ⟨r, rfl⟩ := hx
    simp
  unfold promptDirDefault at h
  by_cases h1 : home.isPrefixOf p = true <;> by_cases h2 : home.isPrefixOf q = true
  · rw [if_pos h1, if_pos h2] at h
    rw [← key p h1, ← key q h2, (List.cons.inj h).2]
  · rw [if_pos h1, if_neg h2] at h
    rw [← h] at hq; simp at hq
  · rw [if_neg h1, if_pos h2] at h
    rw [h] at hp; simp at hp
  · rw [if_neg h1, if_neg h2] at h; exact h

/-- **C88 is false** in the default workspace for directories whose path begins with the text of the home directory without being below it: with `/home/jo` as home, `/home/john` is
shown as `~hn`, which means another directory. -/
theorem C88_false_prefix (home : Text) (c : Char) (rest : Text) : promptDirDefault (home ++ c :: rest) home = '~' :: c :: rest := by
  simp [promptDirDefault]

theorem after_some (h p rel : List Text) : after h p = some rel ↔ p = h ++ rel := by
  induction h generalizing p with
  | nil => simp [after, eq_comm]
  | cons a h ih =>
    cases p with
    | nil => simp [after]
    | cons b p =>
      simp only [after, List.cons_append, List.cons.injEq]
      by_cases e : a = b
      · rw [if_pos e, ih]; simp [e]
      · rw [if_neg e]; simp [show ¬ b = a from fun x => e x.symm]

/-- A component of a path. -/
def Name (x : Text) : Prop := x ≠ [] ∧ '/' ∉ x ∧ x ≠ ['.']

theorem joined_path (x : Text) (xs : List Text) : '/' :: joined (x :: xs) = pathText (x :: xs) := by
  induction xs generalizing x with
  | nil => simp [joined, pathText]
  | cons y ys ih =>
    have := ih y
    simp only [pathText, List.flatMap_cons] at this ⊢
    simp only [joined, List.cons_append, this]

theorem joined_ne_dot (x : Text) (xs : List Text) (hx : Name x) : joined (x :: xs) ≠ ['.'] := by
  cases xs with
  | nil => exact hx.2.2
  | cons y ys =>
    simp only [joined]
    intro h
    rcases x with _ | ⟨a, x⟩
    · exact hx.1 rfl
    · simp at h

/-- **C88**, in the root directory the prompt shows a slash. -/
theorem C88_root (x : Text) (home : List Text) : promptDirNamed [] none = .str ['/'] ∧ (promptDirNamed [] (some (x :: home))).shown = ['/'] := ⟨rfl, rfl⟩

/-- **C88** In a workspace with a home directory, `PROMPT_DIR` is the path from there, and empty in the home directory itself; outside, and if there is no home directory,
it is the whole path. -/
theorem C88_dir_workspace (home rel pwd : List Text) (x : Text) (hx : Name x) :
    promptDirNamed home (some home) = .str [] ∧
    (∃ t, promptDirNamed (home ++ x :: rel) (some home) = .str t ∧ pathText (home ++ x :: rel) = home.flatMap (fun y => '/' :: y) ++ '/' :: t) ∧
    ((∀ r, pwd ≠ home ++ r) → (promptDirNamed pwd (some home)).shown = pathText pwd) ∧
    promptDirNamed pwd none = .str (pathText pwd) := by
  refine ⟨?_, ⟨joined (x :: rel), ?_, ?_⟩, ?_, rfl⟩
  · have : after home home = some [] := (after_some _ _ _).2 (by simp)
    simp [promptDirNamed, this, joined]
  · have : after home (home ++ x :: rel) = some (x :: rel) := (after_some _ _ _).2 rfl
    simp only [promptDirNamed, this, if_neg (joined_ne_dot x rel hx)]
  · rw [joined_path]
    cases home with
    | nil => simp [pathText]
    | cons a h => simp [pathText]
  · intro h
    have : after home pwd = none := by
      cases e : after home pwd with
      | none => rfl
      | some r => exact absurd ((after_some _ _ _).1 e) (h r)
    simp [promptDirNamed, this, DirVal.shown]

/-- **C88 is false** in one respect for workspaces with a home directory: elsewhere `PROMPT_DIR` is a string, but outside of that directory it is not, so that a prompt that works
within (`lambda: PROMPT_DIR + ' '`) fails. -/
theorem C88_false_type (home pwd : List Text) :
    (∃ t, promptDirNamed pwd (some home) = .path t) ↔ ∀ r, pwd ≠ home ++ r := by
  constructor
  · rintro ⟨t, ht⟩ r rfl
    have : after home (home ++ r) = some r := (after_some _ _ _).2 rfl
    simp only [promptDirNamed, this] at ht
    split at ht <;> cases ht
  · intro h
    have : after home pwd = none := by
      cases e : after home pwd with
      | none => rfl
      | some r => exact absurd ((after_some _ _ _).1 e) (h r)
    exact ⟨pathText pwd, by simp [promptDirNamed, this]⟩

/-- A prompt like the one that marcel is installed with. -/
def examplePrompt : List Piece :=
  [.color ⟨0, 5, 5, 1⟩, .text "M ".toList, .fn (.ok none), .color ⟨2, 5, 4, 1⟩, .fn (.ok (some "~/src".toList)), .text "$ ".toList]

example : (∀ p ∈ examplePrompt, p.Good) := by
  intro p hp
  simp only [examplePrompt, List.mem_cons, List.not_mem_nil, or_false] at hp
  rcases hp with rfl | rfl | rfl | rfl | rfl | rfl <;> simp only [Piece.Good] <;> decide +kernel

example : promptDirDefault "/home/john".toList "/home/jo".toList = "~hn".toList := by decide +kernel
example : promptDirNamed ["w".toList, "a".toList, "b".toList] (some ["w".toList]) = .str "a/b".toList ∧ Name "a".toList := by
  unfold Name; decide +kernel

end Marcel.Color
