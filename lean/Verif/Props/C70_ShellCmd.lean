import Verif.Model.ShellCmd
import Verif.Spec.Shell
import Verif.Props.C30_Words
import Verif.Props.C63_Exec

/-! # C70: the shell of the host reads the commands of upload, download, remote and sudo as intended -/

namespace Marcel.Shell

open Marcel.ShellCmd

/-! ## Reading commands -/

theorem active_squote : Active '\'' := by unfold Active; decide
theorem active_dquote : Active '"' := by unfold Active; decide
theorem active_bs : Active '\\' := by unfold Active; decide

/-- A text up to the first occurrence of a character. -/
theorem upto_unique {q : Char} : ∀ {s s' r r' : Str}, q ∉ s → q ∉ s' → s ++ q :: r = s' ++ q :: r' → s = s' ∧ r = r'
  | [], [], r, r', _, _, h => by simpa using h
  | [], c :: s', r, r', _, h', h => by
    simp only [List.nil_append, List.cons_append, List.cons.injEq] at h
    exact absurd (by simp [h.1]) h'
  | c :: s, [], r, r', h0, _, h => by
    simp only [List.nil_append, List.cons_append, List.cons.injEq] at h
    exact absurd (by simp [h.1]) h0
  | c :: s, d :: s', r, r', h0, h', h => by
    simp only [List.cons_append, List.cons.injEq] at h
    simp only [List.mem_cons, not_or] at h0 h'
    obtain ⟨e1, e2⟩ := upto_unique h0.2 h'.2 h.2
    exact ⟨by rw [h.1, e1], e2⟩

theorem double_noquote {s : Str} (h : ∀ c ∈ s, c ∉ ['"', '\\', '$', '`', '!']) : '"' ∉ s := by
  intro hm
  exact h _ hm (by decide)

theorem Part.unique {t v t' v' r r' : Str} (h : Part t v) (h' : Part t' v') (e : t ++ r = t' ++ r') : t = t' ∧ v = v' ∧ r = r' := by
  cases h with
  | plain c hb ha =>
    cases h' with
    | plain c' hb' ha' => simp only [List.cons_append, List.nil_append, List.cons.injEq] at e; simp [e]
    | escaped c' hc' => simp only [List.cons_append, List.nil_append, List.cons.injEq] at e; exact absurd (e.1 ▸ active_bs) ha
    | single s hs => simp only [List.cons_append, List.nil_append, List.cons.injEq] at e; exact absurd (e.1 ▸ active_squote) ha
    | double s hs => simp only [List.cons_append, List.nil_append, List.cons.injEq] at e; exact absurd (e.1 ▸ active_dquote) ha
  | escaped c hc =>
    cases h' with
    | plain c' hb' ha' => simp only [List.cons_append, List.nil_append, List.cons.injEq] at e; exact absurd (e.1 ▸ active_bs) ha'
    | escaped c' hc' => simp only [List.cons_append, List.nil_append, List.cons.injEq, true_and] at e; simp [e]
    | single s hs => simp at e
    | double s hs => simp at e
  | single s hs =>
    cases h' with
    | plain c' hb' ha' => simp only [List.cons_append, List.nil_append, List.cons.injEq] at e; exact absurd (e.1 ▸ active_squote) ha'
    | escaped c' hc' => simp at e
    | single s' hs' =>
      simp only [List.cons_append, List.append_assoc, List.nil_append, List.cons.injEq, true_and] at e
      obtain ⟨e1, e2⟩ := upto_unique hs hs' e
      exact ⟨by rw [e1], e1, e2⟩
    | double s' hs' => simp at e
  | double s hs =>
    cases h' with
    | plain c' hb' ha' => simp only [List.cons_append, List.nil_append, List.cons.injEq] at e; exact absurd (e.1 ▸ active_dquote) ha'
    | escaped c' hc' => simp at e
    | single s' hs' => simp at e
    | double s' hs' =>
      simp only [List.cons_append, List.append_assoc, List.nil_append, List.cons.injEq, true_and] at e
      obtain ⟨e1, e2⟩ := upto_unique (double_noquote hs) (double_noquote hs') e
      exact ⟨by rw [e1], e1, e2⟩

/-- The end of a word. -/
def AtEnd (r : Str) : Prop := ∀ c cs, r = c :: cs → blank c

theorem blank_not_part {c : Char} (hc : blank c) {t v r cs : Str} (h : Part t v) (e : t ++ r = c :: cs) : False := by
  cases h with
  | plain c' hb ha => simp only [List.cons_append, List.nil_append, List.cons.injEq] at e; exact hb (e.1 ▸ hc)
  | escaped c' => simp only [List.cons_append, List.nil_append, List.cons.injEq] at e; rcases hc with h | h <;> rw [h] at e <;> exact absurd e.1 (by decide)
  | single s => simp only [List.cons_append, List.cons.injEq] at e; rcases hc with h | h <;> rw [h] at e <;> exact absurd e.1 (by decide)
  | double s => simp only [List.cons_append, List.cons.injEq] at e; rcases hc with h | h <;> rw [h] at e <;> exact absurd e.1 (by decide)

theorem Part.ne_nil {t v : Str} (h : Part t v) : t ≠ [] := by cases h <;> simp

theorem Word.starts {t v : Str} (h : Word t v) : ∃ p w u, Part p w ∧ t = p ++ u := by
  cases h with
  | one h => exact ⟨_, _, [], h, by simp⟩
  | cons h _ => exact ⟨_, _, _, h, rfl⟩

theorem Word.not_end {t v r : Str} (h : Word t v) : ¬ AtEnd (t ++ r) := by
  intro he
  obtain ⟨p, w, u, hp, rfl⟩ := h.starts
  cases hpp : p with
  | nil => exact hp.ne_nil hpp
  | cons c cs =>
    have hb := he c (cs ++ u ++ r) (by simp [hpp])
    exact blank_not_part hb hp (r := []) (cs := cs) (by simp [hpp])

theorem Word.unique {t v : Str} (h : Word t v) : ∀ {t' v' r r' : Str}, Word t' v' → AtEnd r → AtEnd r' → t ++ r = t' ++ r' → v = v' ∧ r = r' := by
  induction h with
  | one hp =>
    intro t' v' r r' h' hr hr' e
    cases h' with
    | one hp' => exact (Part.unique hp hp' e).2
    | cons hp' hw' =>
      rw [List.append_assoc] at e
      obtain ⟨_, _, e3⟩ := Part.unique hp hp' e
      exact absurd (e3 ▸ hr) hw'.not_end
  | cons hp hw ih =>
    intro t' v' r r' h' hr hr' e
    rw [List.append_assoc] at e
    cases h' with
    | one hp' =>
      obtain ⟨_, _, e3⟩ := Part.unique hp hp' e
      exact absurd (e3 ▸ hr') hw.not_end
    | cons hp' hw' =>
      rw [List.append_assoc] at e
      obtain ⟨_, e2, e3⟩ := Part.unique hp hp' e
      obtain ⟨e4, e5⟩ := ih hw' hr hr' e3
      exact ⟨by rw [e2, e4], e5⟩

theorem Command.starts {t : Str} {ws : List Str} (h : Command t ws) : ∃ p w u, Part p w ∧ t = p ++ u := by
  cases h with
  | one h => exact h.starts
  | @cons t1 v1 b t2 ws2 h hb _ _ =>
    obtain ⟨p, w, u, hp, rfl⟩ := h.starts
    exact ⟨p, w, u ++ b ++ t2, hp, by simp only [List.append_assoc]⟩

theorem atEnd_blanks {b r : Str} (h0 : b ≠ []) (hb : ∀ c ∈ b, blank c) : AtEnd (b ++ r) := by
  intro c cs e
  cases b with
  | nil => exact absurd rfl h0
  | cons d b => simp only [List.cons_append, List.cons.injEq] at e; exact e.1 ▸ hb d (by simp)

/-- Blanks, and then something that is not blank. -/
theorem blanks_unique : ∀ {b b' t t' : Str}, (∀ c ∈ b, blank c) → (∀ c ∈ b', blank c) → (∀ c cs, t = c :: cs → ¬ blank c) → (∀ c cs, t' = c :: cs → ¬ blank c) →
    t ≠ [] → t' ≠ [] → b ++ t = b' ++ t' → t = t'
  | [], [], t, t', _, _, _, _, _, _, e => by simpa using e
  | [], c :: b', t, t', _, hb', ht, _, h0, _, e => by
    simp only [List.nil_append, List.cons_append] at e
    exact absurd (hb' c (by simp)) (ht c _ e)
  | c :: b, [], t, t', hb, _, _, ht', _, _, e => by
    simp only [List.nil_append, List.cons_append] at e
    exact absurd (hb c (by simp)) (ht' c _ e.symm)
  | c :: b, d :: b', t, t', hb, hb', ht, ht', h0, h0', e => by
    simp only [List.cons_append, List.cons.injEq] at e
    exact blanks_unique (fun x hx => hb x (by simp [hx])) (fun x hx => hb' x (by simp [hx])) ht ht' h0 h0' e.2

theorem Command.head_not_blank {t : Str} {ws : List Str} (h : Command t ws) : t ≠ [] ∧ ∀ c cs, t = c :: cs → ¬ blank c := by
  obtain ⟨p, w, u, hp, rfl⟩ := h.starts
  refine ⟨by simp [hp.ne_nil], ?_⟩
  intro c cs e hb
  exact blank_not_part hb hp e

/-- **C70**: there is at most one way to read a command. -/
theorem C70_unambiguous {t : Str} {ws ws' : List Str} (h : Command t ws) (h' : Command t ws') : ws = ws' := by
  induction h generalizing ws' with
  | one hw =>
    cases h' with
    | one hw' => rw [(Word.unique hw hw' (r := []) (r' := []) (by intro c cs e; simp at e) (by intro c cs e; simp at e) rfl).1]
    | @cons t1 v1 b t2 ws2 hw' hb0 hb hc =>
      have := (Word.unique hw hw' (r := []) (r' := b ++ t2) (by intro c cs e; simp at e) (atEnd_blanks hb0 hb) (by simp)).2
      exact absurd this.symm (by simp [hb0])
  | @cons t1 v1 b t2 ws2 hw hb0 hb hc ih =>
    generalize hT : t1 ++ b ++ t2 = T at h'
    cases h' with
    | one hw' =>
      have := (Word.unique hw hw' (r := b ++ t2) (r' := []) (atEnd_blanks hb0 hb) (by intro c cs e; simp at e) (by simp [← hT])).2
      exact absurd this (by simp [hb0])
    | @cons t1' v1' b' t2' ws2' hw' hb0' hb' hc' =>
      simp only [List.append_assoc] at hT
      obtain ⟨e1, e2⟩ := Word.unique hw hw' (atEnd_blanks hb0 hb) (atEnd_blanks hb0' hb') hT
      have h1 := hc.head_not_blank
      have h2 := hc'.head_not_blank
      have e3 := blanks_unique hb hb' h1.2 h2.2 h1.1 h2.1 e2
      rw [e1, ih (e3 ▸ hc')]

theorem Command.append {t t' : Str} {ws ws' : List Str} (h : Command t ws) (h' : Command t' ws') : Command (t ++ ' ' :: t') (ws ++ ws') := by
  induction h with
  | one hw => simpa using Command.cons (b := [' ']) hw (by simp) (by simp [blank]) h'
  | @cons t1 v1 b t2 ws2 hw hb0 hb hc ih =>
    have := Command.cons hw hb0 hb ih
    simpa using this

theorem unwords_command : ∀ l : List (Str × List Str), l ≠ [] → (∀ x ∈ l, Command x.1 x.2) → Command (unwords (l.map Prod.fst)) (l.flatMap Prod.snd)
  | [], h0, _ => absurd rfl h0
  | [x], _, h => by simpa [unwords] using h x (by simp)
  | x :: y :: l, _, h => by
    have := Command.append (h x (by simp)) (unwords_command (y :: l) (by simp) (fun z hz => h z (by simp [hz])))
    simpa [unwords] using this

theorem isspace_blank : isspace ' ' = true ∧ isspace '\t' = true := by unfold isspace; decide

theorem word_of_chars : ∀ {s : Str}, s ≠ [] → (∀ c ∈ s, ¬ blank c ∧ ¬ Active c) → Word s s
  | [], h, _ => absurd rfl h
  | [c], _, h => .one (.plain c (h c (by simp)).1 (h c (by simp)).2)
  | c :: d :: s, _, h =>
    .cons (t := [c]) (v := [c]) (.plain c (h c (by simp)).1 (h c (by simp)).2) (word_of_chars (by simp) (fun x hx => h x (by simp [hx])))

theorem Plain.char {s : Str} (h : Plain s) : ∀ c ∈ s, ¬ blank c ∧ ¬ Active c := by
  intro c hc
  refine ⟨?_, (h.2 c hc).2⟩
  intro hb
  have := (h.2 c hc).1
  rcases hb with rfl | rfl
  · rw [isspace_blank.1] at this; cases this
  · rw [isspace_blank.2] at this; cases this

theorem Plain.word {s : Str} (h : Plain s) : Word s s := word_of_chars h.1 h.char

theorem Plain.append {s t : Str} (h : Plain s) (h' : ∀ c ∈ t, isspace c = false ∧ ¬ Active c) : Plain (s ++ t) := by
  refine ⟨by simp [h.1], ?_⟩
  intro c hc
  rcases List.mem_append.mp hc with hc | hc
  · exact h.2 c hc
  · exact h' c hc

theorem Word.append {t v t' v' : Str} (h : Word t v) (h' : Word t' v') : Word (t ++ t') (v ++ v') := by
  induction h with
  | one hp => exact .cons hp h'
  | cons hp _ ih => simpa using Word.cons hp ih

/-! ## quote -/

theorem safe_ok {c : Char} (h : safeChar c = true) : ¬ blank c ∧ ¬ Active c := by
  constructor
  · rintro (rfl | rfl) <;> exact absurd h (by decide)
  · intro ha
    unfold Active at ha
    simp only [List.mem_cons, List.not_mem_nil, or_false] at ha
    rcases ha with rfl | rfl | rfl | rfl | rfl | rfl | rfl | rfl | rfl | rfl | rfl | rfl | rfl | rfl | rfl | rfl | rfl | rfl | rfl | rfl | rfl | rfl | rfl <;>
      exact absurd h (by decide)

theorem quoted_word (s : Str) : ∀ pre : Str, '\'' ∉ pre → Word ('\'' :: pre ++ escapeQuotes s ++ ['\'']) (pre ++ s) := by
  induction s with
  | nil => intro pre hp; simpa [escapeQuotes] using Word.one (.single pre hp)
  | cons c s ih =>
    intro pre hp
    by_cases hc : c = '\''
    · subst hc
      have h1 : Part ('\'' :: pre ++ ['\'']) pre := .single pre hp
      have h2 : Part ('"' :: ['\''] ++ ['"']) ['\''] := .double ['\''] (by decide)
      have h3 := ih [] (by simp)
      have := Word.cons h1 (Word.cons h2 h3)
      simpa [escapeQuotes] using this
    · have := ih (pre ++ [c]) (by simp [hp, Ne.symm hc])
      simpa [escapeQuotes, hc] using this

/-- **C70**: whatever characters a name contains, the shell reads what `quote_files` makes of it as that name. -/
theorem C70_quote (s : Str) : Word (quote s) s := by
  unfold quote
  split
  · rename_i h
    have : s = [] := by simpa using h
    subst this
    exact .one (.single [] (by simp))
  · split
    · rename_i h0 h
      exact word_of_chars (by intro e; simp [e] at h0) (fun c hc => safe_ok (List.all_eq_true.mp h c hc))
    · simpa using quoted_word s [] (by simp)

theorem C70_files (files : List Str) (h : files ≠ []) : Command (quoteFiles files) files := by
  have := unwords_command (files.map fun f => (quote f, [f])) (by simpa using h) (by
    intro x hx
    obtain ⟨f, _, rfl⟩ := List.mem_map.mp hx
    exact .one (C70_quote f))
  have e1 : (files.map fun f => (quote f, [f])).map Prod.fst = files.map quote := by simp [List.map_map, Function.comp_def]
  have e2 : (files.map fun f => (quote f, [f])).flatMap Prod.snd = files := by
    rw [List.flatMap_map]; simp
  rw [e1, e2] at this
  exact this

/-! ## The commands -/

theorem digit_plain (p : Nat) : Plain (portWord p) := by
  refine ⟨Nat.toDigits_ne_nil, ?_⟩
  intro c hc
  have hd := Nat.isDigit_of_mem_toDigits (by decide) (by decide) hc
  have : c ∈ ['0', '1', '2', '3', '4', '5', '6', '7', '8', '9'] := by
    simp only [Char.isDigit, Bool.and_eq_true, decide_eq_true_eq] at hd
    have h1 : 48 ≤ c.toNat := hd.1
    have h2 : c.toNat ≤ 57 := hd.2
    have hofn : Char.ofNat c.toNat = c := Char.ofNat_toNat c
    rw [← hofn]
    generalize c.toNat = n at h1 h2
    rcases (show n = 48 ∨ n = 49 ∨ n = 50 ∨ n = 51 ∨ n = 52 ∨ n = 53 ∨ n = 54 ∨ n = 55 ∨ n = 56 ∨ n = 57 by omega) with
      rfl | rfl | rfl | rfl | rfl | rfl | rfl | rfl | rfl | rfl <;> decide
  simp only [List.mem_cons, List.not_mem_nil, or_false] at this
  rcases this with rfl | rfl | rfl | rfl | rfl | rfl | rfl | rfl | rfl | rfl <;> exact ⟨by unfold isspace; decide, by unfold Active; decide⟩

theorem active_colon : isspace ':' = false ∧ ¬ Active ':' := ⟨by unfold isspace; decide, by unfold Active; decide⟩
theorem active_at : isspace '@' = false ∧ ¬ Active '@' := ⟨by unfold isspace; decide, by unfold Active; decide⟩
theorem active_slash : isspace '/' = false ∧ ¬ Active '/' := ⟨by unfold isspace; decide, by unfold Active; decide⟩

theorem plain_lit (s : Str) (h0 : s ≠ [])
    (h : s.all (fun c => !isspace c && !['|', '&', ';', '<', '>', '(', ')', '$', '`', '\\', '"', '\'', '*', '?', '[', ']', '#', '~', '!', '{', '}', '^', '\n'].contains c) = true) :
    Plain s := by
  refine ⟨h0, ?_⟩
  intro c hc
  have h1 := List.all_eq_true.mp h c hc
  simp only [Bool.and_eq_true, Bool.not_eq_true'] at h1
  refine ⟨h1.1, ?_⟩
  intro ha
  unfold Active at ha
  have := h1.2
  rw [List.contains_iff_mem.mpr ha] at this
  cases this

theorem unwords_snoc : ∀ (l : List Str) (w : Str), ∃ pre, unwords (l ++ [w]) = pre ++ w
  | [], w => ⟨[], by simp [unwords]⟩
  | [x], w => ⟨x ++ [' '], by simp [unwords]⟩
  | x :: y :: l, w => by
    obtain ⟨pre, h⟩ := unwords_snoc (y :: l) w
    refine ⟨x ++ ' ' :: pre, ?_⟩
    simp only [List.cons_append] at h
    simp [unwords, h]

theorem unwords_starts (x : Str) (l : List Str) : ∃ post, unwords (x :: l) = x ++ post := by
  cases l with
  | nil => exact ⟨[], by simp [unwords]⟩
  | cons y l => exact ⟨' ' :: unwords (y :: l), by simp [unwords]⟩

/-- Such a command has nothing to strip. -/
theorem bashText_unwords (c : Char) (x : Str) (l : List Str) (w : Str) (hc : isspace c = false) (h0 : w ≠ []) (hw : ∀ d, w.getLast? = some d → isspace d = false) :
    bashText (unwords ((c :: x) :: l ++ [w])) = unwords ((c :: x) :: l ++ [w]) := by
  apply pyStrip_trimmed
  constructor
  · intro d ds e
    obtain ⟨post, hp⟩ := unwords_starts (c :: x) (l ++ [w])
    rw [List.cons_append, hp] at e
    simp only [List.cons_append, List.cons.injEq] at e
    exact e.1 ▸ hc
  · intro d ds e
    obtain ⟨pre, hp⟩ := unwords_snoc ((c :: x) :: l) w
    rw [hp, List.reverse_append] at e
    apply hw
    rw [List.getLast?_eq_head?_reverse]
    cases hr : w.reverse with
    | nil => exact absurd (List.reverse_eq_nil_iff.mp hr) h0
    | cons a as => rw [hr] at e; simp only [List.cons_append, List.cons.injEq] at e; simp [e.1]

theorem getLast_mem {w : Str} {d : Char} (h : w.getLast? = some d) : d ∈ w := List.mem_of_getLast? h

/-- The texts that are joined, with the words they are read as. -/
def scpParts : Str × List Str := (['s', 'c', 'p', ' ', '-', 'C', 'p', 'q', 'r'], ["scp".toList, "-Cpqr".toList])

theorem scp_command : Command scpParts.1 scpParts.2 := by
  have h1 : Word "scp".toList "scp".toList := (plain_lit _ (by decide) (by decide +kernel)).word
  have h2 : Word "-Cpqr".toList "-Cpqr".toList := (plain_lit _ (by decide) (by decide +kernel)).word
  exact Command.append (.one h1) (.one h2)

/-- What a cluster can be configured with: user, address and identity are names that the shell takes as they are. -/
structure HostOK (h : Host) : Prop where
  user : Plain h.user
  addr : Plain h.addr
  identity : h.identity = [] ∨ Plain h.identity

/-- The option for the identity file, if there is one. -/
def identityOption (h : Host) : List Str := if h.identity = [] then [] else ["-i".toList, h.identity]

/-- An option for the port, if there is one. -/
def portOption (flag : Str) (h : Host) : List Str :=
  match h.port with
  | none => []
  | some p => [flag, (toString p).toList]

theorem identity_words (h : Host) (ok : HostOK h) : identityWords h = identityOption h ∧ ∀ w ∈ identityOption h, Plain w := by
  unfold identityWords identityOption
  by_cases hi : h.identity = []
  · simp [hi]
  · have hp := ok.identity.resolve_left hi
    simp only [hi, List.isEmpty_iff, if_false]
    refine ⟨rfl, ?_⟩
    intro w hw
    simp only [List.mem_cons, List.not_mem_nil, or_false] at hw
    rcases hw with rfl | rfl
    · exact plain_lit _ (by decide) (by decide +kernel)
    · exact hp

theorem port_words (flag : Str) (hf : Plain flag) (h : Host) :
    portWords flag h = portOption flag h ∧ ∀ w ∈ portOption flag h, Plain w := by
  unfold portOption portWords
  cases h.port with
  | none => simp
  | some p =>
    have e : (toString p).toList = portWord p := by rw [Nat.toString_eq_ofList_toDigits]; simp [portWord]
    simp only [e]
    refine ⟨trivial, ?_⟩
    intro w hw
    simp only [List.mem_cons, List.not_mem_nil, or_false] at hw
    rcases hw with rfl | rfl
    · exact hf
    · exact digit_plain p

theorem at_plain {u a t : Str} (hu : Plain u) (ha : Plain a) (ht : ∀ c ∈ t, isspace c = false ∧ ¬ Active c) : Plain (u ++ '@' :: a ++ t) := by
  refine (hu.append ?_).append ht
  intro c hc
  rcases List.mem_cons.mp hc with rfl | hc
  · exact active_at
  · exact ha.2 c hc

/-- Plain words as texts to be joined. -/
theorem plain_command (l : List Str) (h : ∀ w ∈ l, Plain w) : ∀ x ∈ l.map (fun w => (w, [w])), Command x.1 x.2 := by
  intro x hx
  obtain ⟨w, hw, rfl⟩ := List.mem_map.mp hx
  exact .one (h w hw).word

theorem map_fst (l : List Str) : (l.map fun w => (w, [w])).map Prod.fst = l := by simp [List.map_map, Function.comp_def]
theorem flatMap_snd (l : List Str) : (l.map fun w => (w, [w])).flatMap Prod.snd = l := by rw [List.flatMap_map]; simp

/-- **C70**, upload. For every host and whatever characters the names of the files contain, the shell runs `scp` with exactly these arguments: the options, each file as one argument,
and the destination. What is missing: the destination, the identity file and the user must not contain characters that mean something to the shell (`C70_upload_false`). -/
theorem C70_upload_partial (h : Host) (ok : HostOK h) (files : List Str) (hf : files ≠ []) (dest : Str) (hd : Plain dest) :
    Command (bashText (uploadCommand h files dest))
      (["scp".toList, "-Cpqr".toList] ++ identityOption h ++ portOption "-P".toList h ++ files ++ [h.user ++ '@' :: h.addr ++ ':' :: dest]) := by
  obtain ⟨i1, i2⟩ := identity_words h ok
  obtain ⟨p1, p2⟩ := port_words "-P".toList (plain_lit _ (by decide) (by decide +kernel)) h
  have hw : Plain (h.user ++ '@' :: h.addr ++ ':' :: dest) := at_plain ok.user ok.addr (by
    intro c hc
    rcases List.mem_cons.mp hc with rfl | hc
    · exact active_colon
    · exact hd.2 c hc)
  have e : uploadCommand h files dest =
      unwords ((['s', 'c', 'p', ' ', '-', 'C', 'p', 'q', 'r'] :: (identityOption h ++ portOption "-P".toList h ++ [quoteFiles files])) ++ [h.user ++ '@' :: h.addr ++ ':' :: dest]) := by
    unfold uploadCommand
    rw [i1, ← p1]
    simp only [List.cons_append, List.nil_append, List.append_assoc]
    rfl
  rw [e, bashText_unwords _ _ _ _ (by unfold isspace; decide) hw.1 (fun d hd' => (hw.2 d (getLast_mem hd')).1)]
  have := unwords_command ([scpParts] ++ (identityOption h ++ portOption "-P".toList h).map (fun w => (w, [w])) ++ [(quoteFiles files, files)]
      ++ [h.user ++ '@' :: h.addr ++ ':' :: dest].map (fun w => (w, [w]))) (by simp) (by
    intro x hx
    simp only [List.mem_append, List.mem_singleton] at hx
    rcases hx with ((rfl | hx) | rfl) | hx
    · exact scp_command
    · exact plain_command _ (by
        intro w hw'
        rcases List.mem_append.mp hw' with hw' | hw'
        · exact i2 w hw'
        · exact p2 w hw') x hx
    · exact C70_files files hf
    · exact plain_command _ (by simpa using hw) x hx)
  rw [List.map_append, List.map_append, List.map_append, map_fst, map_fst, List.flatMap_append, List.flatMap_append, List.flatMap_append, flatMap_snd, flatMap_snd] at this
  simpa [scpParts] using this

/-- A destination with a blank: `scp` gets two arguments in place of it. As its last argument is a local name, the files are not copied to the host at all: the first part of the
destination is one more file to be copied, from the host. -/
theorem C70_upload_false (h : Host) (ok : HostOK h) (files : List Str) (hf : files ≠ []) (d1 d2 : Str) (h1 : Plain d1) (h2 : Plain d2) :
    Command (bashText (uploadCommand h files (d1 ++ ' ' :: d2)))
      (["scp".toList, "-Cpqr".toList] ++ identityOption h ++ portOption "-P".toList h ++ files ++ [h.user ++ '@' :: h.addr ++ ':' :: d1, d2]) := by
  have := Command.append (C70_upload_partial h ok files hf d1 h1) (.one h2.word)
  obtain ⟨pre, hp⟩ := unwords_snoc ([['s', 'c', 'p', ' ', '-', 'C', 'p', 'q', 'r']] ++ identityWords h
    ++ portWords ['-', 'P'] h ++ [quoteFiles files]) (h.user ++ '@' :: h.addr ++ ':' :: d1)
  obtain ⟨i1, i2⟩ := identity_words h ok
  have key : ∀ (l : List Str) (a b : Str), unwords (l ++ [a ++ ' ' :: b]) = unwords (l ++ [a]) ++ ' ' :: b := by
    intro l a b
    induction l with
    | nil => simp [unwords]
    | cons x l ih =>
      cases l with
      | nil => simp [unwords]
      | cons y l =>
        simp only [List.cons_append] at ih
        simp [unwords, ih]
  have hw : ∀ d : Str, Plain d → Plain (h.user ++ '@' :: h.addr ++ ':' :: d) := fun d hd => at_plain ok.user ok.addr (by
    intro c hc
    rcases List.mem_cons.mp hc with rfl | hc
    · exact active_colon
    · exact hd.2 c hc)
  have hb : ∀ d : Str, d ≠ [] → (∀ c, d.getLast? = some c → isspace c = false) → bashText (uploadCommand h files d) = uploadCommand h files d := by
    intro d h0 hd
    have e : uploadCommand h files d =
        unwords ((['s', 'c', 'p', ' ', '-', 'C', 'p', 'q', 'r'] :: (identityWords h ++ portWords ['-', 'P'] h ++ [quoteFiles files]))
          ++ [h.user ++ '@' :: h.addr ++ ':' :: d]) := by
      unfold uploadCommand
      simp only [List.cons_append, List.nil_append, List.append_assoc]
    rw [e]
    apply bashText_unwords _ _ _ _ (by unfold isspace; decide) (by simp)
    intro c hc
    apply hd
    rw [List.getLast?_append, List.getLast?_cons, Option.some_or] at hc
    cases hg : d.getLast? with
    | none => exact absurd (List.getLast?_eq_none_iff.mp hg) h0
    | some a => simpa [hg] using hc
  have e2 : uploadCommand h files (d1 ++ ' ' :: d2) = uploadCommand h files d1 ++ ' ' :: d2 := by
    unfold uploadCommand
    rw [show h.user ++ '@' :: h.addr ++ ':' :: (d1 ++ ' ' :: d2) = (h.user ++ '@' :: h.addr ++ ':' :: d1) ++ ' ' :: d2 by simp]
    have := key ([['s', 'c', 'p', ' ', '-', 'C', 'p', 'q', 'r']] ++ identityWords h
      ++ portWords ['-', 'P'] h ++ [quoteFiles files]) (h.user ++ '@' :: h.addr ++ ':' :: d1) d2
    simpa using this
  have hl2 : ∀ c, (d1 ++ ' ' :: d2).getLast? = some c → isspace c = false := by
    intro c hc
    rw [List.getLast?_append, List.getLast?_cons, Option.some_or] at hc
    cases hg : d2.getLast? with
    | none => exact absurd (List.getLast?_eq_none_iff.mp hg) h2.1
    | some a =>
      rw [hg] at hc
      simp only [Option.getD_some, Option.some.injEq] at hc
      exact hc ▸ (h2.2 a (getLast_mem hg)).1
  rw [hb d1 h1.1 (fun c hc => (h1.2 c (getLast_mem hc)).1)] at this
  rw [hb _ (by simp) hl2, e2]
  simpa using this

/-- **C70**, download: `scp` gets each remote file as one argument, whatever characters its name contains, and the directory of the host. What is missing: the port of the host is
ignored (`C70_download_false`), and the local directory must not contain characters that mean something to the shell. -/
theorem C70_download_partial (h : Host) (ok : HostOK h) (hn : Plain h.name) (files : List Str) (dest : Str) (hd : Plain dest) :
    Command (bashText (downloadCommand h files dest))
      (["scp".toList, "-Cpqr".toList] ++ identityOption h ++ files.map (fun f => h.user ++ '@' :: h.addr ++ ':' :: f) ++ [dest ++ '/' :: h.name]) := by
  obtain ⟨i1, i2⟩ := identity_words h ok
  have hw : Plain (dest ++ '/' :: h.name) := hd.append (by
    intro c hc
    rcases List.mem_cons.mp hc with rfl | hc
    · exact active_slash
    · exact hn.2 c hc)
  have hu : Plain (h.user ++ '@' :: h.addr ++ [':']) := at_plain ok.user ok.addr (by
    intro c hc
    have := List.mem_singleton.mp hc
    subst this
    exact active_colon)
  have e : downloadCommand h files dest =
      unwords ((['s', 'c', 'p', ' ', '-', 'C', 'p', 'q', 'r'] :: (identityOption h ++ files.map (fun s => h.user ++ '@' :: h.addr ++ ':' :: quoteFiles [s])))
        ++ [dest ++ '/' :: h.name]) := by
    unfold downloadCommand
    rw [i1]
    simp only [List.cons_append, List.nil_append, List.append_assoc]
  rw [e, bashText_unwords _ _ _ _ (by unfold isspace; decide) hw.1 (fun d hd' => (hw.2 d (getLast_mem hd')).1)]
  have := unwords_command ([scpParts] ++ (identityOption h).map (fun w => (w, [w]))
      ++ files.map (fun f => (h.user ++ '@' :: h.addr ++ ':' :: quoteFiles [f], [h.user ++ '@' :: h.addr ++ ':' :: f]))
      ++ [dest ++ '/' :: h.name].map (fun w => (w, [w]))) (by simp) (by
    intro x hx
    simp only [List.mem_append, List.mem_singleton] at hx
    rcases hx with ((rfl | hx) | hx) | hx
    · exact scp_command
    · exact plain_command _ i2 x hx
    · obtain ⟨f, _, rfl⟩ := List.mem_map.mp hx
      have := Word.append hu.word (C70_quote f)
      exact .one (by simpa [quoteFiles, unwords] using this)
    · exact plain_command _ (by simpa using hw) x hx)
  rw [List.map_append, List.map_append, List.map_append, map_fst, map_fst, List.flatMap_append, List.flatMap_append, List.flatMap_append, flatMap_snd, flatMap_snd,
    List.flatMap_map, List.map_map] at this
  rw [← List.map_eq_flatMap] at this
  simpa [scpParts, Function.comp_def] using this

/-- The port that a host is configured with makes no difference to download. -/
theorem C70_download_false (h : Host) (port : Option Nat) (files : List Str) (dest : Str) :
    downloadCommand { h with port := port } files dest = downloadCommand h files dest := rfl

theorem remote_command (h : Host) (ok : HostOK h) (macos : Bool) (v : Str) (hfc : Word (farcel macos) v) :
    Command (remoteCommand macos h) (["ssh".toList] ++ identityOption h ++ portOption "-p".toList h ++ [h.user ++ '@' :: h.addr, v]) := by
  obtain ⟨i1, i2⟩ := identity_words h ok
  obtain ⟨p1, p2⟩ := port_words "-p".toList (plain_lit _ (by decide) (by decide +kernel)) h
  have hw : Plain (h.user ++ '@' :: h.addr) := by simpa using at_plain ok.user ok.addr (t := []) (by simp)
  have e : remoteCommand macos h = unwords ((["ssh".toList] ++ (identityOption h ++ portOption "-p".toList h)) ++ [h.user ++ '@' :: h.addr] ++ [farcel macos]) := by
    unfold remoteCommand
    rw [i1, ← p1]
    simp only [List.cons_append, List.nil_append, List.append_assoc]
    rfl
  rw [e]
  generalize farcel macos = f at *
  have := unwords_command ((["ssh".toList] ++ (identityOption h ++ portOption "-p".toList h)).map (fun w => (w, [w]))
      ++ [h.user ++ '@' :: h.addr].map (fun w => (w, [w])) ++ [(f, [v])]) (by simp) (by
    intro x hx
    simp only [List.mem_append, List.mem_singleton] at hx
    rcases hx with (hx | hx) | rfl
    · exact plain_command _ (by
        intro w hw'
        rcases List.mem_append.mp hw' with hw' | hw'
        · rw [List.mem_singleton.mp hw']
          exact plain_lit _ (by decide) (by decide +kernel)
        rcases List.mem_append.mp hw' with hw' | hw'
        · exact i2 w hw'
        · exact p2 w hw') x hx
    · exact plain_command _ (by simpa using hw) x hx
    · exact .one hfc)
  rw [List.map_append, List.map_append, map_fst, map_fst, List.flatMap_append, List.flatMap_append, flatMap_snd, flatMap_snd] at this
  simpa using this

/-- **C70**, remote: `ssh` gets the options, the host, and one argument: the command to run there. -/
theorem C70_remote (h : Host) (ok : HostOK h) (macos : Bool) :
    Command (remoteCommand macos h)
      (["ssh".toList] ++ identityOption h ++ portOption "-p".toList h ++ [h.user ++ '@' :: h.addr, if macos then "zsh -l -c farcel.py".toList else "farcel.py".toList]) := by
  apply remote_command h ok
  cases macos with
  | true => exact .one (.single "zsh -l -c farcel.py".toList (by decide))
  | false => exact (plain_lit "farcel.py".toList (by decide) (by decide +kernel)).word

/-- **C70**, sudo: `sudo` gets its flags as given, and the program to run. What is missing: flags must not contain characters that mean something to the shell (`C70_sudo_false`). -/
theorem C70_sudo_partial (args : List Str) (h : ∀ a ∈ args, Plain a) : Command (sudoCommand args) (["sudo".toList] ++ args ++ ["farcel.py".toList]) := by
  have := unwords_command ((["sudo".toList] ++ args ++ ["farcel.py".toList]).map (fun w => (w, [w]))) (by simp) (plain_command _ (by
    intro w hw
    simp only [List.mem_append, List.mem_singleton] at hw
    rcases hw with (rfl | hw) | rfl
    · exact plain_lit _ (by decide) (by decide +kernel)
    · exact h w hw
    · exact plain_lit _ (by decide) (by decide +kernel)))
  rw [map_fst, flatMap_snd] at this
  exact this

/-- A flag with a blank becomes two. -/
theorem C70_sudo_false : Command (sudoCommand ["-p".toList, "a b".toList]) ["sudo".toList, "-p".toList, "a".toList, "b".toList, "farcel.py".toList] := by
  exact C70_sudo_partial ["-p".toList, "a".toList, "b".toList] (by
    intro a ha
    simp only [List.mem_cons, List.not_mem_nil, or_false] at ha
    rcases ha with rfl | rfl | rfl <;> exact plain_lit _ (by decide) (by decide +kernel))

/-! ## Listings -/

/-- **C70**: two files never look the same in a listing. -/
theorem C70_quote_injective (s t : Str) (h : quote s = quote t) : s = t := by
  have := C70_unambiguous (Command.one (C70_quote s)) (h ▸ Command.one (C70_quote t))
  simpa using this

theorem safe_piece {c : Char} (h : safeChar c = true) (hc : c ∉ ['@', '=', ',', ':']) (shell : Bool) : (Piece.plain c).WF (wordEnd shell) ∧ wordStart c = true := by
  have h' := safe_ok h
  have ha : ∀ k ∈ ['(', ')', '|', '<', '>', '#', '\'', '"', '\\', '!'], c ≠ k := by
    intro k hk e
    subst e
    apply h'.2
    unfold Active
    simp only [List.mem_cons, List.not_mem_nil, or_false] at hk ⊢
    rcases hk with rfl | rfl | rfl | rfl | rfl | rfl | rfl | rfl | rfl | rfl <;> simp
  simp only [List.mem_cons, List.not_mem_nil, or_false, not_or] at hc
  have hs : isspace c = false := by
    rcases Bool.eq_false_or_eq_true (isspace c) with hs | hs
    · exfalso
      unfold isspace at hs
      simp only [safeChar, Bool.or_eq_true, List.contains_iff_mem, List.mem_cons, List.not_mem_nil, or_false] at h
      simp only [Bool.or_eq_true, Bool.and_eq_true, decide_eq_true_eq, beq_iff_eq] at hs
      rcases h with h | h
      · simp only [Char.isAlphanum, Char.isAlpha, Char.isUpper, Char.isLower, Char.isDigit, Bool.or_eq_true, Bool.and_eq_true, decide_eq_true_eq] at h
        have h2 : (65 ≤ c.toNat ∧ c.toNat ≤ 90 ∨ 97 ≤ c.toNat ∧ c.toNat ≤ 122) ∨ 48 ≤ c.toNat ∧ c.toNat ≤ 57 := h
        omega
      · rcases h with rfl | rfl | rfl | rfl | rfl | rfl | rfl | rfl | rfl | rfl <;> exact absurd hs (by decide)
    · exact hs
  have n := fun k hk => ha k hk
  have nn : c ≠ '(' ∧ c ≠ ')' ∧ c ≠ '|' ∧ c ≠ '<' ∧ c ≠ '>' ∧ c ≠ '#' ∧ c ≠ '\'' ∧ c ≠ '"' ∧ c ≠ '\\' ∧ c ≠ '!' :=
    ⟨n _ (by simp), n _ (by simp), n _ (by simp), n _ (by simp), n _ (by simp), n _ (by simp), n _ (by simp), n _ (by simp), n _ (by simp), n _ (by simp)⟩
  obtain ⟨n1, n2, n3, n4, n5, n6, n7, n8, n9, n10⟩ := nn
  refine ⟨⟨hs, ?_, n7, n8, n9⟩, ?_⟩
  · unfold wordEnd
    split <;> simp [*]
  · simp [wordStart, *]

theorem unescapeLit_plain : ∀ {s : Str}, '\\' ∉ s → unescapeLit s = .ok s
  | [], _ => rfl
  | c :: s, h => by
    simp only [List.mem_cons, not_or] at h
    rw [unescapeLit.eq_def]
    simp only [if_neg (Ne.symm h.1), unescapeLit_plain h.2]
    rfl

/-- **C70**, listings: a name copied from the output of `ls` into a command is read as that name by marcel too, by operators of marcel and for the arguments of executables, whatever
blanks and other characters it contains. What is missing: names with a single quote, and with `=`, `,`, `:`, `@` (`C70_listing_false`). -/
theorem C70_listing_partial (shell : Bool) (s : Str) (h1 : '\'' ∉ s) (h2 : ∀ c ∈ s, c ∉ ['@', '=', ',', ':']) (rest : Str) (hr : Blank rest) :
    ∃ lit, nextToken shell (quote s ++ rest) = .ok (some (.str shell lit (quote s), skipWs rest)) ∧ lit.string = s ∧ lit.missingQuote = none := by
  have hq : ∀ s : Str, '\'' ∉ s → escapeQuotes s = s := by
    intro s
    induction s with
    | nil => intro _; rfl
    | cons c s ih =>
      intro h
      simp only [List.mem_cons, not_or] at h
      have := ih h.2
      unfold escapeQuotes at this ⊢
      rw [List.flatMap_cons, this, if_neg (Ne.symm h.1)]
      rfl
  unfold quote
  split
  · rename_i h
    have : s = [] := by simpa using h
    subst this
    exact C30_single_quoted shell [] (by simp) rest hr
  · rename_i h0
    split
    · rename_i h
      cases s with
      | nil => simp at h0
      | cons c s =>
        have hp : ∀ d ∈ c :: s, (Piece.plain d).WF (wordEnd shell) ∧ wordStart d = true := fun d hd => safe_piece (List.all_eq_true.mp h d hd) (h2 d hd) shell
        have e1 : ((c :: s).map Piece.plain).flatMap Piece.raw = c :: s := by rw [List.flatMap_map]; simp [Piece.raw]
        have e2 : ((c :: s).map Piece.plain).flatMap Piece.kept = c :: s := by rw [List.flatMap_map]; simp [Piece.kept]
        have hbs : '\\' ∉ c :: s := fun hm => (hp _ hm).1.2.2.2.2 rfl
        have hcq : isQuote c = false := by
          have := (hp c (by simp)).1
          simp [isQuote, this.2.2.1, this.2.2.2.1]
        have hl : StrLit.of (c :: s) = .ok ⟨c :: s, none, false, c :: s⟩ := by
          simp only [StrLit.of, hcq, Bool.false_eq_true, if_false, unescapeLit_plain hbs]
          rfl
        have := nextToken_pieces shell ((c :: s).map .plain) (by
          intro p hp'
          obtain ⟨d, hd, rfl⟩ := List.mem_map.mp hp'
          exact (hp d hd).1) c s e1 (hp c (by simp)).2 (hp c (by simp)).1.1 _ (by rw [e2]; exact hl) rest hr
        rw [e1] at this
        exact ⟨_, this, rfl, rfl⟩
    · rw [hq s h1]
      have := C30_single_quoted shell s h1 rest hr
      simpa using this

/-- A file named `it's` is listed as `'it'"'"'s'`, which marcel reads as another name. -/
theorem C70_listing_false : quote "it's".toList = "'it'\"'\"'s'".toList ∧
    (∃ lit, nextToken false "'it'\"'\"'s'".toList = .ok (some (.str false lit "'it'\"'\"'s'".toList, [])) ∧ lit.string = "it'\"'\"'s".toList) := by
  refine ⟨by decide, ⟨"'it'\"'\"'s'".toList, some '\'', false, "it'\"'\"'s".toList⟩, ?_, rfl⟩
  exact nextToken_pieces false [.single "it".toList, .double [.chr '\''], .single "s".toList] (by
    intro p hp
    simp only [List.mem_cons, List.not_mem_nil, or_false] at hp
    rcases hp with rfl | rfl | rfl
    · show '\'' ∉ _; decide
    · intro d hd; rw [List.mem_singleton.mp hd]; exact ⟨by decide, by decide⟩
    · show '\'' ∉ _; decide) '\'' _ rfl (by decide) isspace_squote _ rfl [] (by intro c cs e; simp at e)

/-- The hypotheses can be met: a file whose name contains a blank, quotes and a command. -/
theorem C70_example :
    HostOK ⟨"ann".toList, "/home/ann/.ssh/id".toList, "10.0.0.1".toList, "lab1".toList, some 2222⟩ ∧ Plain "/srv/in".toList ∧
    uploadCommand ⟨"ann".toList, "/home/ann/.ssh/id".toList, "10.0.0.1".toList, "lab1".toList, some 2222⟩ ["/tmp/a; rm 'x'".toList] "/srv/in".toList
      = "scp -Cpqr -i /home/ann/.ssh/id -P 2222 '/tmp/a; rm '\"'\"'x'\"'\"'' ann@10.0.0.1:/srv/in".toList := by
  refine ⟨⟨?_, ?_, .inr ?_⟩, ?_, by decide +kernel⟩ <;> exact plain_lit _ (by decide) (by decide +kernel)

end Marcel.Shell
