import Verif.Spec.Exec

/-! # Specification of commands with nested pipelines (for C94)

The stages of `Spec/Exec`, and `union`, `difference`, `intersect`, `join`, `filter`, whose arguments are pipelines of such stages: how they are written, and what they do with a stream. -/

namespace Marcel.Exec

/-- The stages of a pipeline. -/
inductive NStage
  | plain (st : Stage)
  | union (ps : List (List NStage))
  | difference (p : List NStage)
  | intersect (ps : List (List NStage))
  | join (keep : Bool) (p : List NStage)
  | filter (discard : Bool) (compare : Option Str) (p : List NStage)

/-! ## Writing -/

/-- How it is said whether to discard; keeping need not be said. -/
inductive DiscardWritten : Bool → List SArg → Prop
  | keep : DiscardWritten false []
  | said (v : Word) : v.kept = "-k".toList ∨ v.kept = "--keep".toList → DiscardWritten false [.word v]
  | discard (v : Word) : v.kept = "-d".toList ∨ v.kept = "--discard".toList → DiscardWritten true [.word v]

/-- How the function for comparing is given. -/
inductive CompareWritten : Option Str → List SArg → Prop
  | none : CompareWritten none []
  | some (v : Word) (src : Str) : v.kept = "-c".toList ∨ v.kept = "--compare".toList → CompareWritten (some src) [.word v, .expr src]

mutual
/-- How a stage is written. -/
inductive NStage.Written : NStage → SOp → Prop
  | plain (st : Stage) (o : SOp) : st.Written o → NStage.Written (.plain st) o
  | union (w : Word) (ps : List (List NStage)) (as : List SArg) : w.kept = "union".toList → PipesWritten ps as → NStage.Written (.union ps) (.named w as)
  | difference (w : Word) (p : List NStage) (a : SArg) : w.kept = "difference".toList → PipeWritten p a → NStage.Written (.difference p) (.named w [a])
  | intersect (w : Word) (ps : List (List NStage)) (as : List SArg) : w.kept = "intersect".toList → PipesWritten ps as → NStage.Written (.intersect ps) (.named w as)
  | join (w : Word) (p : List NStage) (a : SArg) : w.kept = "join".toList → PipeWritten p a → NStage.Written (.join false p) (.named w [a])
  | joinKeep (w v : Word) (p : List NStage) (a : SArg) : w.kept = "join".toList → v.kept = "-k".toList ∨ v.kept = "--keep".toList → PipeWritten p a → NStage.Written (.join true p) (.named w [.word v, a])
  | filter (w : Word) (discard : Bool) (compare : Option Str) (p : List NStage) (ds cs : List SArg) (a : SArg) : w.kept = "filter".toList → DiscardWritten discard ds → CompareWritten compare cs → PipeWritten p a →
      NStage.Written (.filter discard compare p) (.named w (ds ++ cs ++ [a]))
/-- A pipeline of stages, as written. -/
inductive NStagesWritten : List NStage → List SOp → Prop
  | nil : NStagesWritten [] []
  | cons (st : NStage) (sts : List NStage) (o : SOp) (os : List SOp) : st.Written o → NStagesWritten sts os → NStagesWritten (st :: sts) (o :: os)
/-- A pipeline as an argument: `(| ... |)`. -/
inductive PipeWritten : List NStage → SArg → Prop
  | mk (sts : List NStage) (ops : List SOp) : NStagesWritten sts ops → PipeWritten sts (.pipe (.mk [] none ops none))
/-- Several pipelines. -/
inductive PipesWritten : List (List NStage) → List SArg → Prop
  | nil : PipesWritten [] []
  | cons (p : List NStage) (ps : List (List NStage)) (a : SArg) (as : List SArg) : PipeWritten p a → PipesWritten ps as → PipesWritten (p :: ps) (a :: as)
end

/-! ## Meaning -/

variable {V : Type} [DecidableEq V]

/-- What a pipeline has shown, and how it ended; and what a pipeline can do. -/
abbrev Outcome (V : Type) := List (Shown V) × End
abbrev Can (V : Type) := Outcome V → Prop

/-- Pipelines run one after the other, until one is stopped. -/
inductive Follows : List (Can V) → List (Shown V) → End → Prop
  | done : Follows [] [] .finished
  | next (P : Can V) (Ps : List (Can V)) (s t : List (Shown V)) (how : End) : P (s, .finished) → Follows Ps t how → Follows (P :: Ps) (s ++ t) how
  | stop (P : Can V) (Ps : List (Can V)) (s : List (Shown V)) (e : Exn) : P (s, .stopped e) → Follows (P :: Ps) s (.stopped e)

/-- `union`: what comes, and, when that is finished, what the pipelines send. -/
def Unites (Ps : List (Can V)) (inp out : Stream V) : Prop :=
  if inp.how = .finished then ∃ s how, Follows Ps s how ∧ out = ⟨inp.sent ++ s, how⟩ else out = inp

/-- The items of a pipeline. If one of them is not good, or the pipeline is stopped, the command is stopped. -/
inductive Gathers (good : V → Prop) (P : Can V) : Except Exn (List V) → Prop
  | all (s : List (Shown V)) : P (s, .finished) → (∀ x ∈ itemsOf s, good x) → Gathers good P (.ok (itemsOf s))
  | bad (s : List (Shown V)) (how : End) (x : V) : P (s, how) → x ∈ itemsOf s → ¬ good x → Gathers good P (.error .kill)
  | stopped (s : List (Shown V)) (e : Exn) : P (s, .stopped e) → (∀ x ∈ itemsOf s, good x) → Gathers good P (.error e)

/-- An item, as a tuple. -/
def asTuple (w : World V) (x : V) : V := w.seq (w.elems x)

/-- What does with each item what `does` says: it changes `b` and sends items, or it stops the command. Errors are sent on. -/
inductive Steps {β : Type} (does : β → V → Except Exn (β × List V) → Prop) : β → List (Shown V) → List (Shown V) → Option Exn → Prop
  | nil (b : β) : Steps does b [] [] none
  | error (b : β) (m : Msg) (s t : List (Shown V)) (e : Option Exn) : Steps does b s t e → Steps does b (.error m :: s) (.error m :: t) e
  | item (b b' : β) (x : V) (ys : List V) (s t : List (Shown V)) (e : Option Exn) : does b x (.ok (b', ys)) → Steps does b' s t e → Steps does b (.item x :: s) (ys.map .item ++ t) e
  | stop (b : β) (x : V) (s : List (Shown V)) (e : Exn) : does b x (.error e) → Steps does b (.item x :: s) [] (some e)

/-- A stage that needs something (`G`) for which pipelines are run when the first item comes. -/
inductive OnFirst {β : Type} (G : Except Exn β → Prop) (does : β → V → Except Exn (β × List V) → Prop) (inp : Stream V) : Stream V → Prop
  | noItems : itemsOf inp.sent = [] → OnFirst G does inp inp
  | stopped (before after : List (Shown V)) (x : V) (e : Exn) : inp.sent = before ++ .item x :: after → itemsOf before = [] → G (.error e) → OnFirst G does inp ⟨before, .stopped e⟩
  | works (b : β) (s : List (Shown V)) (e : Option Exn) : itemsOf inp.sent ≠ [] → G (.ok b) → Steps does b inp.sent s e →
      OnFirst G does inp ⟨s, match e with | none => inp.how | some e => .stopped e⟩

/-- The items of a pipeline as tuples, which have to be hashable. -/
def Tuples (w : World V) (P : Can V) (r : Except Exn (List V)) : Prop := ∃ r', Gathers (fun x => w.hashable (asTuple w x) = true) P r' ∧ r = r'.map (List.map (asTuple w))

/-- Taking away: an item that is in `b` is not sent, and there is one less of it in `b`. -/
inductive TakesAway (w : World V) (b : List V) (x : V) : Except Exn (List V × List V) → Prop
  | kill : w.hashable x = false → TakesAway w b x (.error .kill)
  | taken : w.hashable x = true → x ∈ b → TakesAway w b x (.ok (b.erase x, []))
  | sent : w.hashable x = true → x ∉ b → TakesAway w b x (.ok (b, [x]))

/-- Only an item that is in `b` is sent, and there is one less of it in `b`. -/
inductive Keeps (w : World V) (b : List V) (x : V) : Except Exn (List V × List V) → Prop
  | kill : w.hashable x = false → Keeps w b x (.error .kill)
  | sent : w.hashable x = true → x ∈ b → Keeps w b x (.ok (b.erase x, [x]))
  | dropped : w.hashable x = true → x ∉ b → Keeps w b x (.ok (b, []))

/-- What pipelines have in common: each item as many times as it is in all of them. The first pipeline that stops, or has an item that isn't hashable, stops the command; and so does it that there is no pipeline. -/
inductive Common (w : World V) : List (Can V) → Except Exn (List V) → Prop
  | none : Common w [] (.error .crash)
  | one (P : Can V) (r : Except Exn (List V)) : Tuples w P r → Common w [P] r
  | first (P Q : Can V) (Ps : List (Can V)) (e : Exn) : Tuples w P (.error e) → Common w (P :: Q :: Ps) (.error e)
  | later (P Q : Can V) (Ps : List (Can V)) (xs : List V) (e : Exn) : Tuples w P (.ok xs) → Common w (Q :: Ps) (.error e) → Common w (P :: Q :: Ps) (.error e)
  | all (P Q : Can V) (Ps : List (Can V)) (xs ys zs : List V) : Tuples w P (.ok xs) → Common w (Q :: Ps) (.ok ys) → (∀ x, zs.count x = min (xs.count x) (ys.count x)) →
      Common w (P :: Q :: Ps) (.ok zs)

/-- Joining: the item, extended by each item with the same first component; if there is none, the item itself is sent if that is asked for. -/
inductive JoinsWith (w : World V) (keep : Bool) (b : List V) (x : V) : Except Exn (List V × List V) → Prop
  | empty : w.elems x = [] → JoinsWith w keep b x (.error .crash)
  | kill (k : V) (rest : List V) : w.elems x = k :: rest → w.hashable k = false → JoinsWith w keep b x (.error .kill)
  | matched (k : V) (rest : List V) : w.elems x = k :: rest → w.hashable k = true → (∃ y ∈ b, (w.elems y).head? = some k) →
      JoinsWith w keep b x (.ok (b, (b.filter fun y => (w.elems y).head? = some k).map fun y => w.seq (w.elems x ++ (w.elems y).drop 1)))
  | unmatched (k : V) (rest : List V) : w.elems x = k :: rest → w.hashable k = true → (¬ ∃ y ∈ b, (w.elems y).head? = some k) →
      JoinsWith w keep b x (.ok (b, if keep then [asTuple w x] else []))

/-- What is compared. -/
def compared (w : World V) (compare : Option Str) (x : V) : Except Msg V :=
  match compare with
  | none => .ok (asTuple w x)
  | some src => (w.fn (.source src) x).map w.wrap

/-- Filtering: the items that are (or, to discard them, aren't) in `b`. -/
inductive FiltersBy (w : World V) (discard : Bool) (compare : Option Str) (b : List V) (x : V) : Except Exn (List V × List V) → Prop
  | fails (m : Msg) : compared w compare x = .error m → FiltersBy w discard compare b x (.error .crash)
  | kill (c : V) : compared w compare x = .ok c → w.hashable c = false → FiltersBy w discard compare b x (.error .kill)
  | sent (c : V) : compared w compare x = .ok c → w.hashable c = true → (c ∈ b ↔ discard = false) → FiltersBy w discard compare b x (.ok (b, [x]))
  | dropped (c : V) : compared w compare x = .ok c → w.hashable c = true → (c ∈ b ↔ discard = true) → FiltersBy w discard compare b x (.ok (b, []))

/-- Something is wrong with the arguments of a stage. A wrong function for comparing is found earlier (`NStage.Unreadable`). -/
def NStage.Bad (w : World V) : NStage → Prop
  | .plain st => st.Bad w
  | _ => False

def NStage.isGen : NStage → Prop
  | .plain st => st.isGen
  | _ => False

def NStage.needsInput : NStage → Prop
  | .plain st => st.needsInput
  | _ => False

/-- A pipeline that can't start. -/
def NCannotStart (w : World V) (sts : List NStage) : Prop :=
  (∃ st ∈ sts, st.Bad w) ∨ (∃ st ∈ sts.tail, st.isGen) ∨ (∃ st, sts.head? = some st ∧ st.needsInput)

mutual
/-- What a stage does with a stream; `steps` is for the pipelines that are arguments. -/
def NStage.Does (w : World V) (steps : Nat) : NStage → Stream V → Stream V → Prop
  | .plain st => st.Does w
  | .union ps => Unites (canAll w steps ps)
  | .difference p => OnFirst (Tuples w (NExecutes w steps p)) (TakesAway w)
  | .intersect ps => OnFirst (Common w (canAll w steps ps)) (Keeps w)
  | .join keep p => OnFirst (Gathers (fun x => ∀ k, (w.elems x).head? = some k → w.hashable k = true) (NExecutes w steps p)) (JoinsWith w keep)
  | .filter discard compare p => OnFirst (Tuples w (NExecutes w steps p)) (FiltersBy w discard compare)
/-- One stage after the other. -/
def NRuns (w : World V) (steps : Nat) : List NStage → Stream V → Stream V → Prop
  | [] => fun s u => u = s
  | st :: sts => fun s u => ∃ t, st.Does w steps s t ∧ NRuns w steps sts t u
/-- What the first stage of a pipeline sends: for those with pipelines as arguments, what they make of an empty list. -/
def NStage.Starts (w : World V) (steps : Nat) : NStage → Stream V → Prop
  | .plain st => st.Starts w steps
  | .union ps => Unites (canAll w steps ps) ⟨[.item w.empty], .finished⟩
  | .difference p => OnFirst (Tuples w (NExecutes w steps p)) (TakesAway w) ⟨[.item w.empty], .finished⟩
  | .intersect ps => OnFirst (Common w (canAll w steps ps)) (Keeps w) ⟨[.item w.empty], .finished⟩
  | .join keep p => OnFirst (Gathers (fun x => ∀ k, (w.elems x).head? = some k → w.hashable k = true) (NExecutes w steps p)) (JoinsWith w keep) ⟨[.item w.empty], .finished⟩
  | .filter discard compare p => OnFirst (Tuples w (NExecutes w steps p)) (FiltersBy w discard compare) ⟨[.item w.empty], .finished⟩
/-- What a pipeline does until its first stage has taken so many steps. -/
def NExecutes (w : World V) (steps : Nat) : List NStage → Outcome V → Prop
  | [] => fun _ => False
  | st :: rest => fun r => (NCannotStart w (st :: rest) ∧ r = ([], .stopped .kill)) ∨
      (¬ NCannotStart w (st :: rest) ∧ ∃ s t, st.Starts w steps s ∧ NRuns w steps rest s t ∧ r = (t.sent, t.how))
/-- What each of several pipelines can do. -/
def canAll (w : World V) (steps : Nat) : List (List NStage) → List (Can V)
  | [] => []
  | p :: ps => NExecutes w steps p :: canAll w steps ps
end

mutual
/-- At any depth, a function doesn't exist. -/
def NStage.Unreadable (w : World V) : NStage → Prop
  | .plain st => ∃ f ∈ st.functions, ¬ f.Exists w
  | .union ps => UnreadableIn w ps
  | .difference p => UnreadablePipe w p
  | .intersect ps => UnreadableIn w ps
  | .join _ p => UnreadablePipe w p
  | .filter _ compare p => (∃ src, compare = some src ∧ w.compiles src = false) ∨ UnreadablePipe w p
def UnreadablePipe (w : World V) : List NStage → Prop
  | [] => False
  | st :: sts => st.Unreadable w ∨ UnreadablePipe w sts
def UnreadableIn (w : World V) : List (List NStage) → Prop
  | [] => False
  | p :: ps => UnreadablePipe w p ∨ UnreadableIn w ps
end

/-- What a command shows: nothing, if at any depth a function doesn't exist; otherwise what the pipeline does. -/
inductive Shows (w : World V) (steps : Nat) (sts : List NStage) : Outcome V → Prop
  | refused : UnreadablePipe w sts → Shows w steps sts ([], .stopped .kill)
  | runs (r : Outcome V) : ¬ UnreadablePipe w sts → NExecutes w steps sts r → Shows w steps sts r

mutual
/-- All pipelines that are arguments, at any depth, come to an end; and those that are run when an item comes don't end by an error after which they would be run again with the next item. -/
def NStage.Settled (w : World V) (steps : Nat) : NStage → Prop
  | .plain _ => True
  | .union ps => SettledIn w steps True ps
  | .difference p => SettledPipe w steps p ∧ ∀ r, NExecutes w steps p r → r.2 ≠ .running ∧ r.2 ≠ .stopped .kare
  | .intersect ps => SettledIn w steps False ps
  | .join _ p => SettledPipe w steps p ∧ ∀ r, NExecutes w steps p r → r.2 ≠ .running ∧ r.2 ≠ .stopped .kare
  | .filter _ _ p => SettledPipe w steps p ∧ ∀ r, NExecutes w steps p r → r.2 ≠ .running ∧ r.2 ≠ .stopped .kare
def SettledPipe (w : World V) (steps : Nat) : List NStage → Prop
  | [] => True
  | st :: sts => st.Settled w steps ∧ SettledPipe w steps sts
/-- For several pipelines; `kare` says whether they may end by an error. -/
def SettledIn (w : World V) (steps : Nat) (kare : Prop) : List (List NStage) → Prop
  | [] => True
  | p :: ps => (SettledPipe w steps p ∧ ∀ r, NExecutes w steps p r → r.2 ≠ .running ∧ (kare ∨ r.2 ≠ .stopped .kare)) ∧ SettledIn w steps kare ps
end

/-! ## The case that goes wrong -/

/-- `tail` and `union` tell the next operator more than once that the stream has ended (see C21), and `union` runs its pipelines each time it is told so. -/
def NStage.repeatsEnd : NStage → Prop
  | .plain (.tail _) => True
  | .union _ => True
  | _ => False

def NStage.isUnion : NStage → Prop
  | .union _ => True
  | _ => False

mutual
/-- At any depth, no `union` comes after `tail` or `union` in the same pipeline. -/
def NStage.Once : NStage → Prop
  | .plain _ => True
  | .union ps => OnceIn ps
  | .difference p => OncePipe p
  | .intersect ps => OnceIn ps
  | .join _ p => OncePipe p
  | .filter _ _ p => OncePipe p
def OncePipe : List NStage → Prop
  | [] => True
  | st :: sts => st.Once ∧ (st.repeatsEnd → ∀ st' ∈ sts, ¬ st'.isUnion) ∧ OncePipe sts
def OnceIn : List (List NStage) → Prop
  | [] => True
  | p :: ps => OncePipe p ∧ OnceIn ps
end

end Marcel.Exec
