import Verif.Model.Locations

/-! # C92: marcel's files are where they are said to be, and no two of them coincide -/

namespace Marcel.Locations

/-! ## Specification -/

/-- A name that can be the name of a file. -/
def Plain (s : Str) : Prop := s ≠ [] ∧ '/' ∉ s ∧ s ≠ ['.'] ∧ s ≠ ['.', '.']

instance (s : Str) : Decidable (Plain s) := by unfold Plain; infer_instance

/-- The files of marcel: its version; of each workspace the startup script, the markers, the properties, the values of variables, the history, and the values stored for each variable; what is put aside
at a given time. -/
inductive Item
  | version
  | startup (w : Ws)
  | marker (w : Ws)
  | owner (w : Ws) (pid : Nat)
  | properties (n : Str)
  | env (w : Ws)
  | history (w : Ws)
  | reservoir (w : Ws) (var : Str)
  | asideConfig (w : Ws) (time : Str)
  | asideData (w : Ws) (time : Str)
deriving DecidableEq

/-- The place of each. -/
def Item.path (l : Loc) : Item → Path
  | .version => l.version
  | .startup w => l.startup w
  | .marker w => l.unowned w
  | .owner w p => l.owned w p
  | .properties n => l.properties n
  | .env w => l.envFile w
  | .history w => l.history w
  | .reservoir w v => l.reservoir w v
  | .asideConfig w t => l.configBroken w t
  | .asideData w t => l.dataBroken w t

/-- A workspace whose name can be that of a directory, and isn't that of the default workspace's directory. -/
def Ws.Usual : Ws → Prop
  | .default_ => True
  | .named n => Plain n ∧ n ≠ "__DEFAULT__".toList

def Item.Usual : Item → Prop
  | .version => True
  | .startup w => w.Usual
  | .marker w => w.Usual
  | .owner w _ => w.Usual
  | .properties n => (Ws.named n).Usual
  | .env w => w.Usual
  | .history w => w.Usual
  | .reservoir w v => w.Usual ∧ '/' ∉ v ∧ v ≠ []
  | .asideConfig w t => w.Usual ∧ Plain t
  | .asideData w t => w.Usual ∧ Plain t

/-- Those that each process has for itself. -/
def Item.Private : Item → Prop
  | .env .default_ => True
  | .reservoir .default_ _ => True
  | _ => False

/-- Whether it is below the directory for configurations. -/
def Item.inConfig : Item → Bool
  | .version => true
  | .startup _ => true
  | .marker _ => true
  | .owner _ _ => true
  | .asideConfig _ _ => true
  | _ => false

/-- The name of the directory of a workspace. -/
def Ws.dir : Ws → Str
  | .default_ => "__DEFAULT__".toList
  | .named n => n

/-- The documented names below `marcel` (locations.py 23-51), `pid` being the process. -/
def Item.layout (pid : Nat) : Item → List Str
  | .version => ["VERSION".toList]
  | .startup w => ["workspace".toList, w.dir, "startup.py".toList]
  | .marker w => ["workspace".toList, w.dir, ".WORKSPACE".toList]
  | .owner w p => ["workspace".toList, w.dir, ".WORKSPACE.".toList ++ Nat.toDigits 10 p]
  | .properties n => ["workspace".toList, n, "properties.pickle".toList]
  | .env .default_ => ["workspace".toList, "__DEFAULT__".toList, Nat.toDigits 10 pid ++ ".env.pickle".toList]
  | .env (.named n) => ["workspace".toList, n, "env.pickle".toList]
  | .history w => ["workspace".toList, w.dir, "history".toList]
  | .reservoir .default_ v => ["workspace".toList, "__DEFAULT__".toList, "reservoirs".toList, Nat.toDigits 10 pid ++ ".".toList ++ v ++ ".pickle".toList]
  | .reservoir (.named n) v => ["workspace".toList, n, "reservoirs".toList, v ++ ".pickle".toList]
  | .asideConfig w t => ["broken".toList, t, w.dir]
  | .asideData w t => ["broken".toList, t, w.dir]

/-- A string that is an absolute path, with one slash at its beginning, between its names and nowhere else, and no dots. -/
def absolute : List Str → Str
  | [] => []
  | n :: ns => '/' :: (n ++ absolute ns)

/-! ## Proofs -/

theorem splitOn_plain (s : Str) (h : '/' ∉ s) : Filenames.splitOn s = [s] := by
  induction s with
  | nil => rfl
  | cons c cs ih =>
    have hc : c ≠ '/' := fun h' => h (by rw [h']; exact List.mem_cons_self)
    unfold Filenames.splitOn
    rw [if_neg hc, ih fun h' => h (List.mem_cons_of_mem _ h')]

theorem rootOf_plain (s : Str) (h : '/' ∉ s) : rootOf s = 0 := by
  cases s with
  | nil => rfl
  | cons c cs =>
    have hc : c ≠ '/' := fun h' => h (by rw [h']; exact List.mem_cons_self)
    have ht : (c :: cs).takeWhile (· = slash) = [] := by
      rw [List.takeWhile_cons]
      rw [show decide (c = slash) = false from decide_eq_false hc]
      rfl
    unfold rootOf
    rw [ht]
    rfl

theorem div_plain (p : Path) (s : Str) (h : Plain s) : p.div s = ⟨p.root, p.parts ++ [s]⟩ := by
  obtain ⟨h1, h2, h3, _⟩ := h
  unfold Path.div Path.append parse
  rw [rootOf_plain s h2, splitOn_plain s h2]
  simp [h1, h3]

theorem num_inj {m n : Nat} (h : num m = num n) : m = n := by
  unfold num at h
  rw [← Nat.ofDigitChars_toDigits (b := 10) (n := m) (by decide) (by decide), h, Nat.ofDigitChars_toDigits (by decide) (by decide)]

theorem num_digit {n : Nat} {c : Char} (h : c ∈ num n) : c.isDigit = true := Nat.isDigit_of_mem_toDigits (by decide) (by decide) h

theorem num_slash (n : Nat) : '/' ∉ num n := fun h => absurd (num_digit h) (by decide)

theorem plain_append (a b : Str) (ha : '/' ∉ a) (hb : '/' ∉ b) (hl : 3 ≤ b.length) : Plain (a ++ b) := by
  have hlen : (a ++ b).length = a.length + b.length := List.length_append
  refine ⟨?_, ?_, ?_, ?_⟩
  · intro h
    rw [h, List.length_nil] at hlen
    omega
  · intro h
    rcases List.mem_append.mp h with h | h
    · exact ha h
    · exact hb h
  · intro h
    rw [h, List.length_cons, List.length_nil] at hlen
    omega
  · intro h
    rw [h, List.length_cons, List.length_cons, List.length_nil] at hlen
    omega

theorem dirName_plain {w : Ws} (h : w.Usual) : Plain (dirName w) := by
  cases w with
  | default_ => decide +kernel
  | named n => exact h.1

theorem dirName_inj {v w : Ws} (hv : v.Usual) (hw : w.Usual) (h : dirName v = dirName w) : v = w := by
  cases v with
  | default_ =>
    cases w with
    | default_ => rfl
    | named n => exact absurd h.symm hw.2
  | named m =>
    cases w with
    | default_ => exact absurd h hv.2
    | named n => rw [show m = n from h]

/-- The names below `marcel`. -/
def Item.rest (pid : Nat) : Item → List Str
  | .version => ["VERSION".toList]
  | .startup w => ["workspace".toList, dirName w, "startup.py".toList]
  | .marker w => ["workspace".toList, dirName w, ".WORKSPACE".toList]
  | .owner w p => ["workspace".toList, dirName w, ".WORKSPACE".toList ++ ".".toList ++ num p]
  | .properties n => ["workspace".toList, n, "properties.pickle".toList]
  | .env .default_ => ["workspace".toList, dirName .default_, num pid ++ ".env.pickle".toList]
  | .env (.named n) => ["workspace".toList, n, "env.pickle".toList]
  | .history w => ["workspace".toList, dirName w, "history".toList]
  | .reservoir .default_ v => ["workspace".toList, dirName .default_, "reservoirs".toList, num pid ++ ".".toList ++ v ++ ".pickle".toList]
  | .reservoir (.named n) v => ["workspace".toList, n, "reservoirs".toList, v ++ ".pickle".toList]
  | .asideConfig w t => ["broken".toList, t, dirName w]
  | .asideData w t => ["broken".toList, t, dirName w]

def Loc.base (l : Loc) (config : Bool) : Path := if config then l.config else l.data

theorem div2 (p : Path) (a b : Str) (ha : Plain a) (hb : Plain b) : (p.div a).div b = ⟨p.root, p.parts ++ [a, b]⟩ := by
  rw [div_plain _ a ha, div_plain _ b hb]
  simp

theorem div4 (p : Path) (a b c d : Str) (ha : Plain a) (hb : Plain b) (hc : Plain c) (hd : Plain d) : (((p.div a).div b).div c).div d = ⟨p.root, p.parts ++ [a, b, c, d]⟩ := by
  rw [div2 _ a b ha hb, div2 _ c d hc hd]
  simp

theorem div5 (p : Path) (a b c d e : Str) (ha : Plain a) (hb : Plain b) (hc : Plain c) (hd : Plain d) (he : Plain e) :
    ((((p.div a).div b).div c).div d).div e = ⟨p.root, p.parts ++ [a, b, c, d, e]⟩ := by
  rw [div4 _ a b c d ha hb hc hd, div_plain _ e he]
  simp

theorem plain_marcel : Plain "marcel".toList := by decide +kernel
theorem plain_workspace : Plain "workspace".toList := by decide +kernel
theorem plain_broken : Plain "broken".toList := by decide +kernel

theorem path_eq (l : Loc) (i : Item) (h : i.Usual) :
    i.path l = ⟨(l.base i.inConfig).root, (l.base i.inConfig).parts ++ "marcel".toList :: i.rest l.pid⟩ := by
  cases i with
  | version => exact div2 _ _ "VERSION".toList plain_marcel (by decide +kernel)
  | startup w => exact div4 _ _ _ _ "startup.py".toList plain_marcel plain_workspace (dirName_plain h) (by decide +kernel)
  | marker w => exact div4 _ _ _ _ ".WORKSPACE".toList plain_marcel plain_workspace (dirName_plain h) (by decide +kernel)
  | owner w p =>
    have hp : Plain (".WORKSPACE".toList ++ ".".toList ++ num p) := by
      refine ⟨by simp, ?_, by simp, by simp⟩
      intro h
      rcases List.mem_append.mp h with h | h
      · exact absurd h (by decide +kernel)
      · exact num_slash p h
    exact div4 _ _ _ _ _ plain_marcel plain_workspace (dirName_plain h) hp
  | properties n => exact div4 _ _ _ _ "properties.pickle".toList plain_marcel plain_workspace (dirName_plain (w := .named n) h) (by decide +kernel)
  | env w =>
    cases w with
    | default_ =>
      have hp : Plain (num l.pid ++ ".env.pickle".toList) := plain_append _ _ (num_slash _) (by decide +kernel) (by decide +kernel)
      exact div4 _ _ _ _ _ plain_marcel plain_workspace (dirName_plain (w := .default_) h) hp
    | named n => exact div4 _ _ _ _ "env.pickle".toList plain_marcel plain_workspace (dirName_plain (w := .named n) h) (by decide +kernel)
  | history w => exact div4 _ _ _ _ "history".toList plain_marcel plain_workspace (dirName_plain h) (by decide +kernel)
  | reservoir w v =>
    obtain ⟨h, hv, hne⟩ := h
    show l.reservoir w v = _
    unfold Loc.reservoir
    rw [if_neg hne]
    cases w with
    | default_ =>
      have hp : Plain (num l.pid ++ ".".toList ++ v ++ ".pickle".toList) := by
        refine plain_append _ _ ?_ (by decide +kernel) (by decide +kernel)
        intro h
        rcases List.mem_append.mp h with h | h
        · rcases List.mem_append.mp h with h | h
          · exact num_slash _ h
          · exact absurd h (by decide +kernel)
        · exact hv h
      exact div5 _ _ _ _ "reservoirs".toList _ plain_marcel plain_workspace (dirName_plain (w := .default_) h) (by decide +kernel) hp
    | named n =>
      have hp : Plain (v ++ ".pickle".toList) := plain_append _ _ hv (by decide +kernel) (by decide +kernel)
      exact div5 _ _ _ _ "reservoirs".toList _ plain_marcel plain_workspace (dirName_plain (w := .named n) h) (by decide +kernel) hp
  | asideConfig w t => exact div4 _ _ _ _ _ plain_marcel plain_broken h.2 (dirName_plain h.1)
  | asideData w t => exact div4 _ _ _ _ _ plain_marcel plain_broken h.2 (dirName_plain h.1)

/-- Neither directory is within the other. -/
def Apart (p q : Path) : Prop := p.root ≠ q.root ∨ (¬ p.parts <+: q.parts ∧ ¬ q.parts <+: p.parts)

theorem apart_append {p q : Path} (h : Apart p q) (x y : List Str) : (⟨p.root, p.parts ++ x⟩ : Path) ≠ ⟨q.root, q.parts ++ y⟩ := by
  intro he
  injection he with h1 h2
  rcases h with h | ⟨ha, hb⟩
  · exact h h1
  · have hp : p.parts <+: p.parts ++ x := List.prefix_append _ _
    have hq : q.parts <+: p.parts ++ x := by rw [h2]; exact List.prefix_append _ _
    rcases List.prefix_or_prefix_of_prefix hp hq with h | h
    · exact ha h
    · exact hb h

theorem apart_symm {p q : Path} (h : Apart p q) : Apart q p := h.elim (fun h => .inl fun h' => h h'.symm) fun h => .inr ⟨h.2, h.1⟩

theorem three {a b c a' b' c' : Str} (h : [a, b, c] = [a', b', c']) : a = a' ∧ b = b' ∧ c = c' := by simpa using h
theorem four {a b c d a' b' c' d' : Str} (h : [a, b, c, d] = [a', b', c', d']) : a = a' ∧ b = b' ∧ c = c' ∧ d = d' := by simpa using h

theorem hend (a : Str) : a ++ ".env.pickle".toList ≠ "history".toList := by
  intro h
  have := congrArg List.getLast? h
  rw [List.getLast?_append, show ".env.pickle".toList.getLast? = some 'e' by decide +kernel, show "history".toList.getLast? = some 'y' by decide +kernel] at this
  exact absurd this (by simp)

theorem own1 (p : Nat) : ".WORKSPACE".toList ++ ".".toList ++ num p ≠ "startup.py".toList := by
  intro h
  exact absurd (show some '.' = some 's' from congrArg List.head? h) (by decide)

theorem own2 (p : Nat) : ".WORKSPACE".toList ++ ".".toList ++ num p ≠ ".WORKSPACE".toList := by
  intro h
  have := congrArg List.length h
  rw [List.length_append, List.length_append] at this
  have h1 : ".".toList.length = 1 := by decide +kernel
  omega

theorem digits_split {a b x y : Str} (ha : '.' ∉ a) (hb : '.' ∉ b) (h : a ++ '.' :: x = b ++ '.' :: y) : a = b ∧ x = y := by
  induction a generalizing b with
  | nil =>
    cases b with
    | nil => exact ⟨rfl, (List.cons.inj h).2⟩
    | cons c b => exact absurd (List.cons.inj h).1 fun h' => hb (by rw [h']; exact List.mem_cons_self)
  | cons d a ih =>
    cases b with
    | nil => exact absurd (List.cons.inj h).1.symm fun h' => ha (by rw [h']; exact List.mem_cons_self)
    | cons c b =>
      obtain ⟨h1, h2⟩ := List.cons.inj h
      obtain ⟨h3, h4⟩ := ih (fun h' => ha (List.mem_cons_of_mem _ h')) (fun h' => hb (List.mem_cons_of_mem _ h')) h2
      exact ⟨by rw [h1, h3], h4⟩

theorem num_dot (n : Nat) : '.' ∉ num n := fun h => absurd (num_digit h) (by decide)

theorem res_inj {p q : Nat} {v v' : Str} (h : num p ++ ".".toList ++ v ++ ".pickle".toList = num q ++ ".".toList ++ v' ++ ".pickle".toList) : p = q ∧ v = v' := by
  have h1 := List.append_cancel_right h
  rw [List.append_assoc, List.append_assoc] at h1
  obtain ⟨h2, h3⟩ := digits_split (num_dot p) (num_dot q) (show num p ++ '.' :: v = num q ++ '.' :: v' from h1)
  exact ⟨num_inj h2, h3⟩

/-- Each name below `marcel` says what it is. -/
theorem rest_inj (p q : Nat) (i j : Item) (hi : i.Usual) (hj : j.Usual) (ht : i.inConfig = j.inConfig) (h : i.rest p = j.rest q) : i = j ∧ (i.Private → p = q) := by
  have nop : False → p = q := fun h => h.elim
  cases i <;> cases j <;> try (first | exact Bool.noConfusion (show true = false from ht) | exact Bool.noConfusion (show false = true from ht))
  case version.version => exact ⟨rfl, nop⟩
  case version.startup w' => exact absurd (congrArg List.length h) (by simp [Item.rest])
  case version.marker w' => exact absurd (congrArg List.length h) (by simp [Item.rest])
  case version.owner w' p' => exact absurd (congrArg List.length h) (by simp [Item.rest])
  case version.asideConfig w' t' => exact absurd (congrArg List.length h) (by simp [Item.rest])
  case startup.version w => exact absurd (congrArg List.length h) (by simp [Item.rest])
  case startup.startup w w' => obtain ⟨_, h2, _⟩ := three h; rw [dirName_inj hi hj h2]; exact ⟨rfl, nop⟩
  case startup.marker w w' => exact absurd (three h).2.2 (by decide +kernel)
  case startup.owner w w' p' => exact absurd (three h).2.2.symm (own1 _)
  case startup.asideConfig w w' t' => exact absurd (three h).1 (by decide +kernel)
  case marker.version w => exact absurd (congrArg List.length h) (by simp [Item.rest])
  case marker.startup w w' => exact absurd (three h).2.2 (by decide +kernel)
  case marker.marker w w' => obtain ⟨_, h2, _⟩ := three h; rw [dirName_inj hi hj h2]; exact ⟨rfl, nop⟩
  case marker.owner w w' p' => exact absurd (three h).2.2.symm (own2 _)
  case marker.asideConfig w w' t' => exact absurd (three h).1 (by decide +kernel)
  case owner.version w p => exact absurd (congrArg List.length h) (by simp [Item.rest])
  case owner.startup w p w' => exact absurd (three h).2.2 (own1 _)
  case owner.marker w p w' => exact absurd (three h).2.2 (own2 _)
  case owner.owner w p w' p' => obtain ⟨_, h2, h3⟩ := three h; rw [dirName_inj hi hj h2, num_inj (List.append_cancel_left h3)]; exact ⟨rfl, nop⟩
  case owner.asideConfig w p w' t' => exact absurd (three h).1 (by decide +kernel)
  case asideConfig.version w t => exact absurd (congrArg List.length h) (by simp [Item.rest])
  case asideConfig.startup w t w' => exact absurd (three h).1 (by decide +kernel)
  case asideConfig.marker w t w' => exact absurd (three h).1 (by decide +kernel)
  case asideConfig.owner w t w' p' => exact absurd (three h).1 (by decide +kernel)
  case asideConfig.asideConfig w t w' t' => obtain ⟨_, h2, h3⟩ := three h; rw [dirName_inj hi.1 hj.1 h3, h2]; exact ⟨rfl, nop⟩
  case properties.properties n n' =>
    rw [(three h).2.1]; exact ⟨rfl, nop⟩
  case properties.env n w' =>
    cases w'
    · exact absurd (three h).2.1 hi.2
    · exact absurd (three h).2.2 (by decide +kernel)
  case properties.history n w' =>
    exact absurd (three h).2.2 (by decide +kernel)
  case properties.reservoir n w' v' =>
    cases w'
    · exact absurd (congrArg List.length h) (by simp [Item.rest])
    · exact absurd (congrArg List.length h) (by simp [Item.rest])
  case properties.asideData n w' t' =>
    exact absurd (three h).1 (by decide +kernel)
  case env.properties w n' =>
    cases w
    · exact absurd (three h).2.1.symm hj.2
    · exact absurd (three h).2.2 (by decide +kernel)
  case env.env w w' =>
    cases w <;> cases w'
    · exact ⟨rfl, fun _ => num_inj (List.append_cancel_right (three h).2.2)⟩
    · exact absurd (three h).2.1.symm hj.2
    · exact absurd (three h).2.1 hi.2
    · rw [show _ = _ from (three h).2.1]; exact ⟨rfl, nop⟩
  case env.history w w' =>
    cases w
    · exact absurd (three h).2.2 (hend _)
    · exact absurd (three h).2.2 (by decide +kernel)
  case env.reservoir w w' v' =>
    cases w <;> cases w'
    · exact absurd (congrArg List.length h) (by simp [Item.rest])
    · exact absurd (congrArg List.length h) (by simp [Item.rest])
    · exact absurd (congrArg List.length h) (by simp [Item.rest])
    · exact absurd (congrArg List.length h) (by simp [Item.rest])
  case env.asideData w w' t' =>
    cases w
    · exact absurd (three h).1 (by decide +kernel)
    · exact absurd (three h).1 (by decide +kernel)
  case history.properties w n' =>
    exact absurd (three h).2.2 (by decide +kernel)
  case history.env w w' =>
    cases w'
    · exact absurd (three h).2.2.symm (hend _)
    · exact absurd (three h).2.2 (by decide +kernel)
  case history.history w w' =>
    obtain ⟨_, h2, _⟩ := three h; rw [dirName_inj hi hj h2]; exact ⟨rfl, nop⟩
  case history.reservoir w w' v' =>
    cases w'
    · exact absurd (congrArg List.length h) (by simp [Item.rest])
    · exact absurd (congrArg List.length h) (by simp [Item.rest])
  case history.asideData w w' t' =>
    exact absurd (three h).1 (by decide +kernel)
  case reservoir.properties w v n' =>
    cases w
    · exact absurd (congrArg List.length h) (by simp [Item.rest])
    · exact absurd (congrArg List.length h) (by simp [Item.rest])
  case reservoir.env w v w' =>
    cases w <;> cases w'
    · exact absurd (congrArg List.length h) (by simp [Item.rest])
    · exact absurd (congrArg List.length h) (by simp [Item.rest])
    · exact absurd (congrArg List.length h) (by simp [Item.rest])
    · exact absurd (congrArg List.length h) (by simp [Item.rest])
  case reservoir.history w v w' =>
    cases w
    · exact absurd (congrArg List.length h) (by simp [Item.rest])
    · exact absurd (congrArg List.length h) (by simp [Item.rest])
  case reservoir.reservoir w v w' v' =>
    cases w <;> cases w'
    · obtain ⟨h1, h2⟩ := res_inj (four h).2.2.2; rw [h2]; exact ⟨rfl, fun _ => h1⟩
    · exact absurd (four h).2.1.symm hj.1.2
    · exact absurd (four h).2.1 hi.1.2
    · obtain ⟨_, h2, _, h4⟩ := four h; rw [show _ = _ from h2, List.append_cancel_right h4]; exact ⟨rfl, nop⟩
  case reservoir.asideData w v w' t' =>
    cases w
    · exact absurd (congrArg List.length h) (by simp [Item.rest])
    · exact absurd (congrArg List.length h) (by simp [Item.rest])
  case asideData.properties w t n' =>
    exact absurd (three h).1 (by decide +kernel)
  case asideData.env w t w' =>
    cases w'
    · exact absurd (three h).1 (by decide +kernel)
    · exact absurd (three h).1 (by decide +kernel)
  case asideData.history w t w' =>
    exact absurd (three h).1 (by decide +kernel)
  case asideData.reservoir w t w' v' =>
    cases w'
    · exact absurd (congrArg List.length h) (by simp [Item.rest])
    · exact absurd (congrArg List.length h) (by simp [Item.rest])
  case asideData.asideData w t w' t' =>
    obtain ⟨_, h2, h3⟩ := three h; rw [dirName_inj hi.1 hj.1 h3, h2]; exact ⟨rfl, nop⟩

/-! ## The properties -/

/-- **C92** Everything is below `marcel` in the directory for configurations or in that for data, whatever the names of the workspaces and variables: the path continues with names, none of which
is `..`. -/
theorem C92_inside (l : Loc) (i : Item) (h : i.Usual) :
    ∃ rest, i.path l = ⟨(if i.inConfig then l.config else l.data).root, (if i.inConfig then l.config else l.data).parts ++ "marcel".toList :: rest⟩ ∧ rest ≠ [] ∧ ∀ x ∈ rest, Plain x := by
  refine ⟨i.rest l.pid, path_eq l i h, ?_, ?_⟩
  · cases i <;> try (exact List.cons_ne_nil _ _)
    · rename_i w; cases w <;> exact List.cons_ne_nil _ _
    · rename_i w v; cases w <;> exact List.cons_ne_nil _ _
  · have hw : ∀ s ∈ ["VERSION", "workspace", "startup.py", ".WORKSPACE", "properties.pickle", "env.pickle", "history", "reservoirs", "broken"].map String.toList, Plain s := by decide +kernel
    have hd : Plain (dirName .default_) := by decide +kernel
    have hn : ∀ (p : Nat) (s : Str), '/' ∉ s → 3 ≤ s.length → Plain (num p ++ s) := fun p s h1 h2 => plain_append _ _ (num_slash p) h1 h2
    intro x hx
    cases i with
    | version => exact hw x (by simp only [Item.rest, List.mem_singleton] at hx; rw [hx]; simp)
    | startup w =>
      simp only [Item.rest, List.mem_cons, List.not_mem_nil, or_false] at hx
      rcases hx with rfl | rfl | rfl
      · exact hw _ (by simp)
      · exact dirName_plain h
      · exact hw _ (by simp)
    | marker w =>
      simp only [Item.rest, List.mem_cons, List.not_mem_nil, or_false] at hx
      rcases hx with rfl | rfl | rfl
      · exact hw _ (by simp)
      · exact dirName_plain h
      · exact hw _ (by simp)
    | owner w p =>
      simp only [Item.rest, List.mem_cons, List.not_mem_nil, or_false] at hx
      rcases hx with rfl | rfl | rfl
      · exact hw _ (by simp)
      · exact dirName_plain h
      · refine ⟨by simp, ?_, by simp, by simp⟩
        intro h
        rcases List.mem_append.mp h with h | h
        · exact absurd h (by decide +kernel)
        · exact num_slash p h
    | properties n =>
      simp only [Item.rest, List.mem_cons, List.not_mem_nil, or_false] at hx
      rcases hx with rfl | rfl | rfl
      · exact hw _ (by simp)
      · exact h.1
      · exact hw _ (by simp)
    | env w =>
      cases w with
      | default_ =>
        simp only [Item.rest, List.mem_cons, List.not_mem_nil, or_false] at hx
        rcases hx with rfl | rfl | rfl
        · exact hw _ (by simp)
        · exact hd
        · exact hn _ _ (by decide +kernel) (by decide +kernel)
      | named n =>
        simp only [Item.rest, List.mem_cons, List.not_mem_nil, or_false] at hx
        rcases hx with rfl | rfl | rfl
        · exact hw _ (by simp)
        · exact h.1
        · exact hw _ (by simp)
    | history w =>
      simp only [Item.rest, List.mem_cons, List.not_mem_nil, or_false] at hx
      rcases hx with rfl | rfl | rfl
      · exact hw _ (by simp)
      · exact dirName_plain h
      · exact hw _ (by simp)
    | reservoir w v =>
      cases w with
      | default_ =>
        simp only [Item.rest, List.mem_cons, List.not_mem_nil, or_false] at hx
        rcases hx with rfl | rfl | rfl | rfl
        · exact hw _ (by simp)
        · exact hd
        · exact hw _ (by simp)
        · refine plain_append _ _ ?_ (by decide +kernel) (by decide +kernel)
          intro h'
          rcases List.mem_append.mp h' with h' | h'
          · rcases List.mem_append.mp h' with h' | h'
            · exact num_slash _ h'
            · exact absurd h' (by decide +kernel)
          · exact h.2.1 h'
      | named n =>
        simp only [Item.rest, List.mem_cons, List.not_mem_nil, or_false] at hx
        rcases hx with rfl | rfl | rfl | rfl
        · exact hw _ (by simp)
        · exact h.1.1
        · exact hw _ (by simp)
        · exact plain_append _ _ h.2.1 (by decide +kernel) (by decide +kernel)
    | asideConfig w t =>
      simp only [Item.rest, List.mem_cons, List.not_mem_nil, or_false] at hx
      rcases hx with rfl | rfl | rfl
      · exact hw _ (by simp)
      · exact h.2
      · exact dirName_plain h.1
    | asideData w t =>
      simp only [Item.rest, List.mem_cons, List.not_mem_nil, or_false] at hx
      rcases hx with rfl | rfl | rfl
      · exact hw _ (by simp)
      · exact h.2
      · exact dirName_plain h.1

/-- **C92** No two files coincide, for any processes `p` and `q` of a user: files of different workspaces, of different variables, of different kinds are different, and processes share those of the
default workspace which hold its history and startup script, and those of named workspaces, but neither its variables nor what is stored in them. -/
theorem C92_distinct (c d : Path) (p q : Nat) (hcd : Apart c d) (i j : Item) (hi : i.Usual) (hj : j.Usual) :
    i.path ⟨c, d, p⟩ = j.path ⟨c, d, q⟩ ↔ i = j ∧ (i.Private → p = q) := by
  constructor
  · intro h
    rw [path_eq _ i hi, path_eq _ j hj] at h
    rcases Bool.eq_false_or_eq_true i.inConfig with h1 | h1 <;> rcases Bool.eq_false_or_eq_true j.inConfig with h2 | h2
    · rw [h1, h2] at h
      injection h with _ h3
      exact rest_inj p q i j hi hj (h1.trans h2.symm) (List.cons.inj (List.append_cancel_left h3)).2
    · rw [h1, h2] at h
      exact absurd h (apart_append hcd _ _)
    · rw [h1, h2] at h
      exact absurd h (apart_append (apart_symm hcd) _ _)
    · rw [h1, h2] at h
      injection h with _ h3
      exact rest_inj p q i j hi hj (h1.trans h2.symm) (List.cons.inj (List.append_cancel_left h3)).2
  · rintro ⟨rfl, h⟩
    cases i with
    | env w => cases w with
      | default_ => rw [h trivial]
      | named n => rfl
    | reservoir w v => cases w with
      | default_ => rw [h trivial]
      | named n => rfl
    | _ => rfl

/-- **C92** The documented layout: where each file is, for all workspaces and variables. -/
theorem C92_layout (l : Loc) (i : Item) (h : i.Usual) :
    i.path l = ⟨(if i.inConfig then l.config else l.data).root, (if i.inConfig then l.config else l.data).parts ++ "marcel".toList :: i.layout l.pid⟩ := by
  rw [path_eq l i h]
  have : i.rest l.pid = i.layout l.pid := by
    cases i with
    | env w => cases w <;> rfl
    | reservoir w v => cases w <;> rfl
    | version => rfl
    | properties n => rfl
    | startup w => cases w <;> rfl
    | marker w => cases w <;> rfl
    | owner w p => cases w <;> rfl
    | history w => cases w <;> rfl
    | asideConfig w t => cases w <;> rfl
    | asideData w t => cases w <;> rfl
  rw [this]
  rfl

theorem splitOn_append (a b : Str) (h : '/' ∉ a) : Filenames.splitOn (a ++ '/' :: b) = a :: Filenames.splitOn b := by
  induction a with
  | nil => rw [List.nil_append, Filenames.splitOn, if_pos rfl]
  | cons c cs ih =>
    have hc : c ≠ '/' := fun h' => h (by rw [h']; exact List.mem_cons_self)
    rw [List.cons_append, Filenames.splitOn, if_neg hc, ih fun h' => h (List.mem_cons_of_mem _ h')]

theorem splitOn_absolute (ns : List Str) (h : ∀ n ∈ ns, Plain n) (a : Str) (ha : '/' ∉ a) : Filenames.splitOn (a ++ absolute ns) = a :: ns := by
  induction ns generalizing a with
  | nil => rw [absolute, List.append_nil, splitOn_plain a ha]
  | cons n ns ih =>
    rw [absolute, splitOn_append a _ ha, ih (fun m hm => h m (List.mem_cons_of_mem _ hm)) n (h n List.mem_cons_self).2.1]

theorem parse_absolute (n : Str) (ns : List Str) (h : ∀ m ∈ n :: ns, Plain m) : parse (absolute (n :: ns)) = ⟨1, n :: ns⟩ := by
  have hr : rootOf (absolute (n :: ns)) = 1 := by
    obtain ⟨h1, h2, _⟩ := h n List.mem_cons_self
    cases n with
    | nil => exact absurd rfl h1
    | cons c cs =>
      have hc : c ≠ '/' := fun h' => h2 (by rw [h']; exact List.mem_cons_self)
      have ht : (absolute ((c :: cs) :: ns)).takeWhile (· = slash) = ['/'] := by
        show ('/' :: (c :: (cs ++ absolute ns))).takeWhile (· = slash) = ['/']
        rw [List.takeWhile_cons, show decide ('/' = slash) = true from decide_eq_true rfl, List.takeWhile_cons, show decide (c = slash) = false from decide_eq_false hc]
        rfl
      unfold rootOf
      rw [ht]
      rfl
  unfold parse
  rw [hr]
  have hs := splitOn_absolute (n :: ns) h [] (by simp)
  rw [List.nil_append] at hs
  rw [hs]
  have hf : (n :: ns).filter (fun x => x ≠ [] && x ≠ ['.']) = n :: ns := by
    rw [List.filter_eq_self]
    intro m hm
    obtain ⟨h1, _, h3, _⟩ := h m hm
    simp [h1, h3]
  simp only [List.filter_cons, ne_eq, not_true_eq_false, decide_false, Bool.false_and, Bool.false_eq_true, if_false] at hf ⊢
  rw [hf]

theorem expand_rooted (f : Str → Option Path) (r : Nat) (hr : r ≠ 0) (ns : List Str) : Path.expanduser f ⟨r, ns⟩ = some ⟨r, ns⟩ := by
  cases ns with
  | nil => rfl
  | cons n ns =>
    show (if r = 0 && n.head? = some '~' then _ else some (⟨r, n :: ns⟩ : Path)) = _
    rw [if_neg (by simp [hr])]

/-- What a variable of the environment is in a usual environment: not set, or an absolute path. -/
def Var : Option Str → Option (List Str) → Prop
  | none, none => True
  | some s, some ns => ns ≠ [] ∧ (∀ n ∈ ns, Plain n) ∧ s = absolute ns
  | _, _ => False

theorem normalize_var (e : Env) (v : Option Str) (ns : Option (List Str)) (h : Var v ns) (hs : List Str) :
    normalizeDir e v (some ⟨1, hs⟩) = some ⟨1, ns.getD hs⟩ := by
  cases v with
  | none =>
    cases ns with
    | none => exact expand_rooted _ 1 (by decide) hs
    | some ns => exact h.elim
  | some s =>
    cases ns with
    | none => exact h.elim
    | some ns =>
      obtain ⟨h1, h2, rfl⟩ := h
      cases ns with
      | nil => exact absurd rfl h1
      | cons n ns =>
        show (parse (absolute (n :: ns))).expanduser e.userHome = _
        rw [parse_absolute n ns h2, expand_rooted _ 1 (by decide)]
        rfl

/-- **C92** The two directories: what `XDG_CONFIG_HOME` and `XDG_DATA_HOME` say, without them `.config` and `.local/share` in the home directory, which is what `HOME` says. -/
theorem C92_base (e : Env) (home : List Str) (c d : Option (List Str)) (hh : Var e.home (some home)) (hc : Var e.xdgConfig c) (hd : Var e.xdgData d) :
    configBase e = some ⟨1, c.getD (home ++ [".config".toList])⟩ ∧ dataBase e = some ⟨1, d.getD (home ++ [".local".toList, "share".toList])⟩ := by
  have h0 : homeDir e = some ⟨1, home⟩ := by
    unfold homeDir
    cases hu : e.home with
    | none => rw [hu] at hh; exact hh.elim
    | some s =>
      rw [hu] at hh
      have := normalize_var e (some s) (some home) hh []
      exact this
  constructor
  · unfold configBase
    rw [h0]
    show normalizeDir e e.xdgConfig (some (Path.div ⟨1, home⟩ ".config".toList)) = _
    rw [div_plain _ _ (by decide +kernel)]
    exact normalize_var e _ c hc _
  · unfold dataBase
    rw [h0]
    show normalizeDir e e.xdgData (some ((Path.div ⟨1, home⟩ ".local".toList).div "share".toList)) = _
    rw [div2 _ _ _ (by decide +kernel) (by decide +kernel)]
    exact normalize_var e _ d hd _

/-- **C92** The default directories are apart: one is never within the other. -/
theorem C92_default_apart (home : List Str) (r : Nat) : Apart ⟨r, home ++ [".config".toList]⟩ ⟨r, home ++ [".local".toList, "share".toList]⟩ := by
  refine .inr ⟨fun h => ?_, fun h => ?_⟩
  · have := (List.prefix_append_right_inj home).mp h
    exact absurd this (by decide +kernel)
  · have := (List.prefix_append_right_inj home).mp h
    exact absurd this (by decide +kernel)

/-- A usual environment, and what is where. -/
def usualEnv : Env := ⟨some "/home/jao".toList, none, none, fun _ => none⟩

def usualLoc : Loc := ⟨⟨1, ["home".toList, "jao".toList, ".config".toList]⟩, ⟨1, ["home".toList, "jao".toList, ".local".toList, "share".toList]⟩, 17⟩

theorem C92_example :
    Var usualEnv.home (some ["home".toList, "jao".toList]) ∧ configBase usualEnv = some usualLoc.config ∧ dataBase usualEnv = some usualLoc.data
      ∧ (Item.reservoir (.named "proj".toList) "x".toList).Usual
      ∧ (Item.reservoir (.named "proj".toList) "x".toList).path usualLoc = parse "/home/jao/.local/share/marcel/workspace/proj/reservoirs/x.pickle".toList
      ∧ (Item.env .default_).path usualLoc = parse "/home/jao/.local/share/marcel/workspace/__DEFAULT__/17.env.pickle".toList := by
  refine ⟨⟨by simp, by decide +kernel, by decide +kernel⟩, by decide +kernel, by decide +kernel, ⟨⟨by decide +kernel, by decide +kernel⟩, by decide +kernel, by decide +kernel⟩, by decide +kernel, by decide +kernel⟩

/-- Not so when `XDG_CONFIG_HOME` is set but empty, which according to the XDG specification means the default: the directory is then relative, so that it depends on the current directory. -/
theorem C92_false_empty : configBase { usualEnv with xdgConfig := some [] } = some ⟨0, []⟩ := by decide +kernel

/-- Not so for a workspace whose name has a slash: its files can be those of another workspace. -/
theorem C92_false_nested (l : Loc) : (Item.env (.named "a/reservoirs".toList)).path l = (Item.reservoir (.named "a".toList) "env".toList).path l := by
  have h : parse "a/reservoirs".toList = ⟨0, ["a".toList, "reservoirs".toList]⟩ := by decide +kernel
  have h1 : (Item.env (.named "a/reservoirs".toList)).path l
      = ((((l.data.div "marcel".toList).div "workspace".toList).append (parse "a/reservoirs".toList))).div "env.pickle".toList := rfl
  have h2 : (Item.reservoir (.named "a".toList) "env".toList).Usual := ⟨⟨by decide +kernel, by decide +kernel⟩, by decide +kernel, by decide +kernel⟩
  rw [C92_layout l _ h2, h1, h, div2 _ _ _ plain_marcel plain_workspace, div_plain _ _ (by decide +kernel)]
  show (⟨l.data.root, l.data.parts ++ ["marcel".toList, "workspace".toList] ++ ["a".toList, "reservoirs".toList] ++ ["env.pickle".toList]⟩ : Path) = _
  simp only [List.append_assoc]
  rfl

/-- Not so for a workspace called `__DEFAULT__`: it has the history, the startup script and the markers of the default workspace. -/
theorem C92_false_default (l : Loc) :
    (Item.history (.named "__DEFAULT__".toList)).path l = (Item.history .default_).path l ∧ (Item.startup (.named "__DEFAULT__".toList)).path l = (Item.startup .default_).path l
      ∧ (Item.marker (.named "__DEFAULT__".toList)).path l = (Item.marker .default_).path l := ⟨rfl, rfl, rfl⟩

/-- Not so for a workspace whose name is an absolute path: everything is there, whatever marcel's directories are. -/
theorem C92_false_absolute (l : Loc) : l.configWs (.named "/etc".toList) = ⟨1, ["etc".toList]⟩ ∧ l.dataWs (.named "/etc".toList) = ⟨1, ["etc".toList]⟩ := by
  have h : parse "/etc".toList = ⟨1, ["etc".toList]⟩ := by decide +kernel
  constructor
  · exact (congrArg (Path.append ((l.config.div "marcel".toList).div "workspace".toList)) h).trans rfl
  · exact (congrArg (Path.append ((l.data.div "marcel".toList).div "workspace".toList)) h).trans rfl

/-- Not so for a workspace whose name begins with `..`: its directory is elsewhere. -/
theorem C92_false_dotdot : Filenames.canon (usualLoc.configWs (.named "../../../Documents".toList)).parts = ["home".toList, "jao".toList, "Documents".toList] := by decide +kernel

/-- Not so if both directories are the same, which the environment permits: the two directories of a workspace are one. -/
theorem C92_false_same (c : Path) (p : Nat) (w : Ws) : (Loc.mk c c p).configWs w = (Loc.mk c c p).dataWs w := rfl

end Marcel.Locations
