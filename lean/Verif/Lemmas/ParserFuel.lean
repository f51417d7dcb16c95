import Verif.Model.Parser

/-! # The recursion bound of the parser model is never hit -/

namespace Marcel

/-- The result satisfies `P`, or is an exception of the code. -/
def NF {α : Type} (P : α → Prop) : Except LexErr α → Prop
  | .ok a => P a
  | .error e => e ≠ .outOfFuel

theorem NF.bind {α β : Type} {P : α → Prop} {Q : β → Prop} {x : Except LexErr α} {f : α → Except LexErr β}
    (hx : NF P x) (hf : ∀ a, P a → NF Q (f a)) : NF Q (x >>= f) := by
  cases x with
  | ok a => exact hf a hx
  | error e => exact hx

theorem NF.mono {α : Type} {P Q : α → Prop} {x : Except LexErr α} (hx : NF P x) (h : ∀ a, P a → Q a) : NF Q x := by
  cases x with
  | ok a => exact h a hx
  | error e => exact hx

theorem NF.map {α β : Type} {P : α → Prop} {Q : β → Prop} {x : Except LexErr α} {f : α → β}
    (hx : NF P x) (hf : ∀ a, P a → Q (f a)) : NF Q (x.map f) := by
  cases x with
  | ok a => exact hf a hx
  | error e => exact hx

theorem NF.trivial {α : Type} {x : Except LexErr α} (h : x ≠ .error .outOfFuel) : NF (fun _ => True) x := by
  cases x with
  | ok a => exact True.intro
  | error e => intro he; exact h (he ▸ rfl)

theorem pyStrScan_NF (q : Char) (t : Bool) (cs : Str) : NF (fun _ => True) (pyStrScan q t cs) := by
  fun_induction pyStrScan q t cs
  all_goals first
    | exact True.intro
    | (intro h; cases h; done)
    | assumption

theorem pyString_NF (q : Char) (cs : Str) : NF (fun _ => True) (pyString q cs) := by
  unfold pyString; split <;> exact pyStrScan_NF _ _ _

theorem exprScan_NF (n : Nat) (cs : Str) : NF (fun _ => True) (exprScan n cs) := by
  fun_induction exprScan n cs
  all_goals first
    | exact True.intro
    | assumption
    | skip
  rename_i c cs' _ _ _ e h
  have h2 := pyString_NF c cs'
  rw [h] at h2
  exact h2

theorem exprToken_NF (cs : Str) : NF (fun _ => True) (exprToken cs) := by
  have := exprScan_NF 1 cs
  unfold exprToken
  split
  · rename_i e h; rw [h] at this; exact this
  · simp only
    split
    · exact True.intro
    · intro h; cases h

theorem strScan_NF (term : Char → Bool) (q : Quote) (cs : Str) : NF (fun _ => True) (strScan term q cs) := by
  fun_induction strScan term q cs
  all_goals first
    | exact True.intro
    | (intro h; cases h; done)
    | (rename_i ih; exact NF.map ih (fun _ _ => True.intro))

theorem unescapeLit_NF (cs : Str) : NF (fun _ => True) (unescapeLit cs) := by
  fun_induction unescapeLit cs
  all_goals first
    | exact True.intro
    | (intro h; cases h; done)
    | (rename_i ih; exact NF.map ih (fun _ _ => True.intro))

theorem StrLit.of_NF (cs : Str) : NF (fun _ => True) (StrLit.of cs) := by
  unfold StrLit.of
  split
  · intro h; cases h
  · split
    · exact True.intro
    · exact NF.map (unescapeLit_NF _) (fun _ _ => True.intro)

theorem strToken_NF (shell : Bool) (text : Str) : NF (fun _ => True) (strToken shell text) := by
  unfold strToken
  have h1 := strScan_NF (termOf shell) .none text
  split
  · rename_i e h; rw [h] at h1; exact h1
  · rename_i chars rest h
    have h2 := StrLit.of_NF chars
    split
    · rename_i e h'; rw [h'] at h2; exact h2
    · exact True.intro

theorem lexHere_NF (shell : Bool) (text : Str) : NF (fun _ => True) (lexHere shell text) := by
  unfold lexHere
  split
  · exact True.intro
  · repeat' split
    all_goals first
      | exact True.intro
      | exact NF.map (exprToken_NF _) (fun _ _ => True.intro)
      | (intro h; cases h; done)
      | skip
    unfold lexPunctuation
    repeat' split
    all_goals first
      | exact True.intro
      | skip
    unfold lexArrowOrString
    repeat' split
    all_goals first
      | exact True.intro
      | exact NF.map (strToken_NF _ _) (fun _ _ => True.intro)

theorem lex1_NF (shell : Bool) (text : Str) : NF (fun _ => True) (lex1 shell text) := by
  have := lexHere_NF shell (skipWs text)
  unfold lex1
  split
  · rename_i e h; rw [h] at this; exact this
  · exact True.intro
  · exact True.intro

theorem gatherAdjacent_NF (shell : Bool) (acc : List Tok) (text : Str) :
    NF (fun _ => True) (gatherAdjacent shell acc text) := by
  fun_induction gatherAdjacent shell acc text
  case case1 acc text e h => have := lex1_NF shell text; rw [h] at this; exact this
  case case2 => intro h; cases h
  case case3 ih => exact ih
  all_goals exact True.intro

theorem consolidate_NF (ts : List Tok) : NF (fun _ => True) (consolidate ts) := by
  unfold consolidate
  split
  · intro h; cases h
  · rename_i cs _
    have := exprToken_NF cs
    split
    · rename_i e h; rw [h] at this; exact this
    · exact True.intro

/-- A token that was read leaves a shorter text. -/
def Shorter (text : Str) (r : Option (Tok × Str)) : Prop := ∀ t rest, r = some (t, rest) → rest.length < text.length

theorem nextToken_NF (shell : Bool) (text : Str) : NF (Shorter text) (nextToken shell text) := by
  have h0 : NF (fun _ => True) (nextToken shell text) := by
    unfold nextToken
    have h1 := lex1_NF shell text
    split
    · rename_i e h; rw [h] at h1; exact h1
    · exact True.intro
    · rename_i t adj rest _
      split
      · have h2 := gatherAdjacent_NF shell [t] rest
        split
        · rename_i e h; rw [h] at h2; exact h2
        · rename_i ts rest' _
          split
          · have h3 := consolidate_NF ts
            split
            · rename_i e h; rw [h] at h3; exact h3
            · exact True.intro
          · exact True.intro
      · exact True.intro
  cases h : nextToken shell text with
  | error e => rw [h] at h0; exact h0
  | ok r =>
    intro t rest hr
    subst hr
    exact nextToken_length h

theorem peekN_NF (shell : Bool) (n : Nat) (text : Str) : NF (fun _ => True) (peekN shell n text) := by
  induction n generalizing text with
  | zero => exact True.intro
  | succ n ih =>
    unfold peekN
    refine NF.bind (nextToken_NF shell text) ?_
    rintro (_ | ⟨t, rest⟩) _
    · exact True.intro
    · refine NF.bind (ih rest) ?_
      rintro (_ | ts) _ <;> exact True.intro

/-- A token that was read leaves a shorter text, and has the expected type. -/
def ShorterOf (p : Tok → Bool) (text : Str) (r : Option (Tok × Str)) : Prop :=
  ∀ t rest, r = some (t, rest) → rest.length < text.length ∧ p t = true

theorem expect_NF (shell : Bool) (p : Tok → Bool) (ps : List (Tok → Bool)) (text : Str) :
    NF (ShorterOf p text) (expect shell (p :: ps) text) := by
  unfold expect
  cases hp : peekN shell (p :: ps).length text with
  | error e =>
    have := peekN_NF shell (p :: ps).length text
    rw [hp] at this
    exact this
  | ok r =>
    show NF _ (match r with | none => _ | some ts => _)
    cases r with
    | none => intro t rest h; cases h
    | some ts =>
      show NF _ (if typesMatch (p :: ps) ts then _ else _)
      split
      · rename_i hm
        have h1 := nextToken_NF shell text
        cases hn : nextToken shell text with
        | error e => rw [hn] at h1; exact h1
        | ok r =>
          rw [hn] at h1
          intro t rest hr
          subst hr
          refine ⟨h1 t rest rfl, ?_⟩
          -- the first peeked token is t
          have : ∃ ts', ts = t :: ts' := by
            rw [List.length_cons, peekN, hn] at hp
            change (peekN shell ps.length rest >>= _) = _ at hp
            cases hp2 : peekN shell ps.length rest with
            | error e => rw [hp2] at hp; cases hp
            | ok r2 =>
              rw [hp2] at hp
              cases r2 with
              | none => cases hp
              | some ts' => exact ⟨ts', by cases hp; rfl⟩
          obtain ⟨ts', rfl⟩ := this
          simp [typesMatch] at hm
          exact hm.1
      · intro t rest h; cases h

theorem pVars_NF (fuel : Nat) (tok : Option Tok) (vars : List Str) (text : Str) (hf : text.length + 2 ≤ fuel) :
    NF (fun r => r.2.length ≤ text.length) (pVars fuel tok vars text) := by
  induction fuel generalizing tok vars text with
  | zero => omega
  | succ fuel ih =>
    cases tok with
    | none => intro h; cases h
    | some t =>
      unfold pVars
      split
      · refine NF.bind (expect_NF false _ [] text) ?_
        rintro (_ | ⟨c, rest⟩) h1
        · refine NF.bind (nextToken_NF false text) ?_
          rintro (_ | ⟨c, rest⟩) h2
          · -- end of the text
            match fuel with
            | 0 => omega
            | fuel + 1 => intro h; cases h
          · have := h2 _ _ rfl
            exact NF.mono (ih _ _ rest (by omega)) (fun r hr => by omega)
        · have h1 := (h1 _ _ rfl).1
          refine NF.bind (expect_NF false _ [] rest) ?_
          rintro (_ | ⟨c2, rest2⟩) h2
          · intro h; cases h
          · have h2 := (h2 _ _ rfl).1
            exact NF.mono (ih _ _ rest2 (by omega)) (fun r hr => by omega)
      · split
        · exact Nat.le_refl _
        · intro h; cases h

theorem checkQuote_NF (t : Tok) : NF (fun _ => True) (checkQuote t) := by
  unfold checkQuote
  split
  · split
    · intro h; cases h
    · exact True.intro
  · exact True.intro

theorem pShellArg_NF (text : Str) :
    NF (fun r => r.2.length ≤ text.length ∧ (r.1.isSome → r.2.length < text.length)) (pShellArg text) := by
  unfold pShellArg
  refine NF.bind (expect_NF true _ [] text) ?_
  rintro (_ | ⟨c, rest⟩) h1
  · refine NF.bind (expect_NF true _ [] text) ?_
    rintro (_ | ⟨c, rest⟩) h2
    · exact ⟨Nat.le_refl _, fun h => by cases h⟩
    · have h2 := (h2 _ _ rfl).1
      refine NF.bind (checkQuote_NF c) ?_
      intro a _
      exact ⟨Nat.le_of_lt h2, fun _ => h2⟩
  · have h1 := (h1 _ _ rfl).1
    exact ⟨Nat.le_of_lt h1, fun _ => h1⟩

theorem pOp_NF (text : Str) : NF (fun r => r.2.length < text.length) (pOp text) := by
  unfold pOp
  refine NF.bind (expect_NF false _ [] text) ?_
  rintro (_ | ⟨c, rest⟩) h1
  · refine NF.bind (expect_NF false _ [] text) ?_
    rintro (_ | ⟨c, rest⟩) h2
    · refine NF.bind (expect_NF false _ [] text) ?_
      rintro (_ | ⟨c, rest⟩) h3
      · intro h; cases h
      · replace h3 := (h3 _ _ rfl).1
        cases c <;> first | exact h3 | (intro h; cases h)
    · exact (h2 _ _ rfl).1
  · replace h1 := (h1 _ _ rfl).1
    cases c <;> first | exact h1 | (intro h; cases h)

theorem pRedirectOut_NF (ops : List POp) (text : Str) :
    NF (fun r => r.2.length ≤ text.length) (pRedirectOut ops text) := by
  unfold pRedirectOut
  refine NF.bind (expect_NF false _ _ text) ?_
  rintro (_ | ⟨c, rest⟩) h1
  · exact Nat.le_refl _
  · have h1 := (h1 _ _ rfl).1
    refine NF.bind (expect_NF false _ _ rest) ?_
    rintro (_ | ⟨c2, rest2⟩) h2
    · intro h; cases h
    · have h2 := (h2 _ _ rfl).1
      show rest2.length ≤ text.length
      omega

/-- The statement for all the mutually recursive functions. -/
structure FuelOK (isShell : Str → Bool) (fuel : Nat) : Prop where
  arg : ∀ shell text, 8 * text.length + 1 ≤ fuel →
    NF (fun r => r.2.length ≤ text.length ∧ (r.1.isSome → r.2.length < text.length)) (pArg isShell fuel shell text)
  args : ∀ shell acc text, 8 * text.length + 2 ≤ fuel →
    NF (fun r => r.2.length ≤ text.length) (pArgs isShell fuel shell acc text)
  opArgs : ∀ text, 8 * text.length + 3 ≤ fuel →
    NF (fun r => r.2.length < text.length) (pOpArgs isShell fuel text)
  opSeq : ∀ text, 8 * text.length + 4 ≤ fuel →
    NF (fun r => r.2.length ≤ text.length) (pOpSeq isShell fuel text)
  pipelineOps : ∀ text, 8 * text.length + 5 ≤ fuel →
    NF (fun r => r.2.length ≤ text.length) (pPipelineOps isShell fuel text)
  pipeline : ∀ text, 8 * text.length + 6 ≤ fuel →
    NF (fun r => r.2.length ≤ text.length) (pPipeline isShell fuel text)

theorem fuelOK (isShell : Str → Bool) (fuel : Nat) : FuelOK isShell fuel := by
  induction fuel with
  | zero => constructor <;> (intros; omega)
  | succ fuel ih =>
    constructor
    · intro shell text hf
      unfold pArg
      refine NF.bind (nextToken_NF shell text) ?_
      intro _ _
      cases shell with
      | true => exact pShellArg_NF text
      | false =>
        show NF _ (expect false [Tok.isBegin] text >>= _)
        refine NF.bind (expect_NF false _ [] text) ?_
        rintro (_ | ⟨c, rest⟩) h1
        · refine NF.bind (expect_NF false _ [] text) ?_
          rintro (_ | ⟨c, rest⟩) h2
          · refine NF.bind (expect_NF false _ [] text) ?_
            rintro (_ | ⟨c, rest⟩) h3
            · exact ⟨Nat.le_refl _, fun h => by cases h⟩
            · have h3 := (h3 _ _ rfl).1
              exact ⟨Nat.le_of_lt h3, fun _ => h3⟩
          · have h2 := (h2 _ _ rfl).1
            refine NF.bind (checkQuote_NF c) ?_
            intro a _
            exact ⟨Nat.le_of_lt h2, fun _ => h2⟩
        · have h1 := (h1 _ _ rfl).1
          refine NF.bind (ih.pipeline rest (by omega)) ?_
          rintro ⟨p, rest'⟩ h2
          refine NF.bind (expect_NF false _ [] rest') ?_
          rintro (_ | ⟨c, rest''⟩) h3
          · intro h; cases h
          · have h3 := (h3 _ _ rfl).1
            simp only at h2
            show rest''.length ≤ text.length ∧ (_ → rest''.length < text.length)
            exact ⟨by omega, fun _ => by omega⟩
    · intro shell acc text hf
      unfold pArgs
      refine NF.bind (ih.arg shell text (by omega)) ?_
      rintro ⟨_ | a, rest⟩ h1
      · exact h1.1
      · have := h1.2 rfl
        simp only at this
        exact NF.mono (ih.args shell _ rest (by omega)) (fun r hr => by omega)
    · intro text hf
      unfold pOpArgs
      refine NF.bind (expect_NF false _ [] text) ?_
      rintro (_ | ⟨c, rest⟩) h1
      · refine NF.bind (pOp_NF text) ?_
        rintro ⟨op, rest⟩ h2
        simp only at h2
        refine NF.bind (ih.args _ [] rest (by omega)) ?_
        rintro ⟨args, rest'⟩ h3
        simp only at h3
        show rest'.length < text.length
        omega
      · exact (h1 _ _ rfl).1
    · intro text hf
      unfold pOpSeq
      refine NF.bind (ih.opArgs text (by omega)) ?_
      rintro ⟨o, rest⟩ h1
      simp only at h1
      refine NF.bind (expect_NF false _ [] rest) ?_
      rintro (_ | ⟨c, rest'⟩) h2
      · exact Nat.le_of_lt h1
      · have h2 := (h2 _ _ rfl).1
        refine NF.bind (ih.opSeq rest' (by omega)) ?_
        rintro ⟨os, rest''⟩ h3
        simp only at h3
        show rest''.length ≤ text.length
        omega
    · intro text hf
      unfold pPipelineOps
      refine NF.bind (expect_NF false _ _ text) ?_
      rintro (_ | ⟨src, rest⟩) h1
      · refine NF.bind (expect_NF false _ _ text) ?_
        rintro (_ | ⟨gt, rest⟩) h2
        · refine NF.bind (ih.opSeq text (by omega)) ?_
          rintro ⟨ops, rest⟩ h3
          simp only at h3
          exact NF.mono (pRedirectOut_NF ops rest) (fun r hr => by omega)
        · have h2 := (h2 _ _ rfl).1
          refine NF.bind (expect_NF false _ _ rest) ?_
          rintro (_ | ⟨c, rest'⟩) h3
          · intro h; cases h
          · have h3 := (h3 _ _ rfl).1
            show rest'.length ≤ text.length
            omega
      · have h1 := (h1 _ _ rfl).1
        refine NF.bind (expect_NF false _ _ rest) ?_
        rintro (_ | ⟨lt, rest1⟩) h2
        · intro h; cases h
        · have h2 := (h2 _ _ rfl).1
          refine NF.bind (expect_NF false _ _ rest1) ?_
          rintro (_ | ⟨gt, rest2⟩) h3
          · refine NF.bind (nextToken_NF false rest1) ?_
            rintro (_ | ⟨t, _⟩) _
            · show rest1.length ≤ text.length
              omega
            · show NF _ (if t.isEnd = true then _ else _)
              split
              · show rest1.length ≤ text.length
                omega
              · refine NF.bind (ih.opSeq rest1 (by omega)) ?_
                rintro ⟨ops, rest2⟩ h4
                simp only at h4
                exact NF.mono (pRedirectOut_NF _ rest2) (fun r hr => by omega)
          · have h3 := (h3 _ _ rfl).1
            refine NF.bind (expect_NF false _ _ rest2) ?_
            rintro (_ | ⟨c, rest3⟩) h4
            · intro h; cases h
            · have h4 := (h4 _ _ rfl).1
              show rest3.length ≤ text.length
              omega
    · intro text hf
      unfold pPipeline
      have first : NF (fun r => ∀ t rest, r = some (t, rest) → rest.length < text.length) (do
          match ← expect false [Tok.isStr, Tok.isComma] text with
          | some r => .ok (some r)
          | none => expect false [Tok.isStr, Tok.isColon] text) := by
        refine NF.bind (expect_NF false _ _ text) ?_
        rintro (_ | r) h1
        · exact NF.mono (expect_NF false _ _ text) (fun r hr t rest e => (hr t rest e).1)
        · intro t rest e
          cases e
          exact (h1 _ _ rfl).1
      refine NF.bind first ?_
      intro r hr
      have vars : NF (fun x => x.2.length ≤ text.length) (match r with
          | some (t, rest) => pVars fuel (some t) [] rest
          | none => .ok ([], text)) := by
        rcases r with _ | ⟨t, rest⟩
        · exact Nat.le_refl _
        · have := hr t rest rfl
          exact NF.mono (pVars_NF fuel _ _ rest (by omega)) (fun x hx => by omega)
      refine NF.bind vars ?_
      rintro ⟨params, rest⟩ h2
      simp only at h2
      refine NF.bind (ih.pipelineOps rest (by omega)) ?_
      rintro ⟨ops, rest'⟩ h3
      simp only at h3
      refine NF.bind (nextToken_NF false rest') ?_
      intro _ _
      show rest'.length ≤ text.length
      omega

theorem parse_NF (isShell : Str → Bool) (text : Str) : NF (fun _ => True) (parse isShell text) := by
  unfold parse
  refine NF.bind (nextToken_NF false text) ?_
  rintro (_ | r) _
  · intro h; cases h
  · show NF _ (pCommand isShell (parseFuel text) text)
    unfold pCommand
    refine NF.bind (P := fun _ => True) ?_ ?_
    · refine NF.bind (expect_NF false _ _ text) ?_
      rintro (_ | ⟨t, rest⟩) h1
      · refine NF.bind ((fuelOK isShell _).pipeline text (by unfold parseFuel; omega)) ?_
        rintro ⟨p, rest⟩ _
        exact True.intro
      · have h1 := (h1 _ _ rfl).1
        show NF _ (pAssignment isShell (parseFuel text) t.value rest)
        unfold pAssignment
        refine NF.bind (expect_NF false _ _ rest) ?_
        rintro (_ | ⟨c, rest1⟩) h2
        · intro h; cases h
        · have h2 := (h2 _ _ rfl).1
          refine NF.bind ((fuelOK isShell _).arg false rest1 (by unfold parseFuel; omega)) ?_
          rintro ⟨_ | a, rest2⟩ _
          · intro h; cases h
          · exact True.intro
    · rintro ⟨c, rest⟩ _
      refine NF.bind (nextToken_NF false rest) ?_
      rintro (_ | r) _
      · exact True.intro
      · intro h; cases h

end Marcel
