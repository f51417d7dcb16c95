import Verif.Model.Cluster
/-! # C90: clusters consist of the hosts that were given -/

namespace Marcel.Cluster

/-! ## What is documented (cluster.py 84-96) -/

/-- A host: a string, or a pair of a string and a port number. -/
inductive Spec : Val → Str → Option Int → Prop
  | plain (s : Str) : Spec (.str s) s none
  | tuple (s : Str) (p : Int) : Spec (.tuple [.str s, .int p]) s (some p)
  | list (s : Str) (p : Int) : Spec (.list [.str s, .int p]) s (some p)

/-- Address and name that a specification stands for. -/
inductive Found (ip dns : Str → Option Str) (s : Str) : Str → Str → Prop
  | address (a : Str) : ip s = some a → Found ip dns s a a
  | name (a : Str) : ip s = none → dns s = some a → Found ip dns s a s

/-- Several hosts. -/
inductive Several : Val → List Val → Prop
  | tuple (l : List Val) : Several (.tuple l) l
  | list (l : List Val) : Several (.list l) l

/-! ## Proofs -/

theorem several_iff (v : Val) (l : List Val) : v.items? = some l ↔ Several v l := by
  constructor
  · intro h
    cases v with
    | tuple l' => cases h; exact .tuple l
    | list l' => cases h; exact .list l
    | _ => cases h
  · intro h; cases h <;> rfl

/-- What is known of a host during its life: before the first use, after uses that failed, and after one that succeeded. -/
inductive Life (v : Val) (s : Str) (p : Option Int) : Host → Prop
  | new : Life v s p ⟨v, none, none, none⟩
  | failed : Life v s p ⟨.str s, none, none, p.map .int⟩
  | found (a n : Str) : Life v s p ⟨.str s, some a, some n, p.map .int⟩

theorem initialise_spec (ip dns : Str → Option Str) {v : Val} {s : Str} {p : Option Int} (h : Spec v s p) :
    (⟨v, none, none, none⟩ : Host).initialise ip dns = (⟨.str s, none, none, p.map .int⟩ : Host).lookUp ip dns s := by
  cases h <;> rfl

theorem initialise_failed (ip dns : Str → Option Str) (s : Str) (p : Option Val) :
    (⟨.str s, none, none, p⟩ : Host).initialise ip dns = (⟨.str s, none, none, p⟩ : Host).lookUp ip dns s := rfl

theorem lookUp_cases (ip dns : Str → Option Str) (s : Str) (p : Option Val) :
    (∃ a n, Found ip dns s a n ∧ (⟨.str s, none, none, p⟩ : Host).lookUp ip dns s = (⟨.str s, some a, some n, p⟩, .ok)) ∨
    ((¬ ∃ a n, Found ip dns s a n) ∧ (⟨.str s, none, none, p⟩ : Host).lookUp ip dns s = (⟨.str s, none, none, p⟩, .resume)) := by
  cases hi : ip s with
  | some a => exact Or.inl ⟨a, a, .address a hi, by simp [Host.lookUp, hi]⟩
  | none =>
    cases hd : dns s with
    | some a => exact Or.inl ⟨a, s, .name a hi hd, by simp [Host.lookUp, hi, hd]⟩
    | none =>
      refine Or.inr ⟨?_, by simp [Host.lookUp, hi, hd]⟩
      rintro ⟨a, n, h⟩
      cases h with
      | address h => rw [hi] at h; cases h
      | name _ h => rw [hd] at h; cases h

/-- One use. -/
theorem use_life (ip dns : Str → Option Str) {v : Val} {s : Str} {p : Option Int} (hs : Spec v s p) (h : Host) (hl : Life v s p h) :
    (h.addr = none ∧ (∃ a n, Found ip dns s a n ∧ h.use ip dns = (⟨.str s, some a, some n, p.map .int⟩, .ok))) ∨
    (h.addr = none ∧ (¬ ∃ a n, Found ip dns s a n) ∧ h.use ip dns = (⟨.str s, none, none, p.map .int⟩, .resume)) ∨
    (∃ a n, h = ⟨.str s, some a, some n, p.map .int⟩ ∧ h.use ip dns = (h, .ok)) := by
  cases hl with
  | new =>
    have e : (⟨v, none, none, none⟩ : Host).use ip dns = (⟨v, none, none, none⟩ : Host).initialise ip dns := rfl
    rw [e, initialise_spec ip dns hs]
    rcases lookUp_cases ip dns s (p.map .int) with h | h
    · exact Or.inl ⟨rfl, h⟩
    · exact Or.inr (Or.inl ⟨rfl, h⟩)
  | failed =>
    have e : (⟨.str s, none, none, p.map .int⟩ : Host).use ip dns = (⟨.str s, none, none, p.map .int⟩ : Host).initialise ip dns := rfl
    rw [e, initialise_failed]
    rcases lookUp_cases ip dns s (p.map .int) with h | h
    · exact Or.inl ⟨rfl, h⟩
    · exact Or.inr (Or.inl ⟨rfl, h⟩)
  | found a n => exact Or.inr (Or.inr ⟨a, n, rfl, rfl⟩)

theorem uses_append (ip : Str → Option Str) (h : Host) (l m : List (Str → Option Str)) : h.uses ip (l ++ m) = (h.uses ip l).uses ip m := by
  induction l generalizing h with
  | nil => rfl
  | cons d l ih => exact ih _

theorem snoc_induction {α : Type} {motive : List α → Prop} (nil : motive []) (append : ∀ l d, motive l → motive (l ++ [d])) (l : List α) : motive l := by
  have : ∀ r : List α, motive r.reverse := by
    intro r
    induction r with
    | nil => exact nil
    | cons a r ih => rw [List.reverse_cons]; exact append _ _ ih
  have h := this l.reverse
  rwa [List.reverse_reverse] at h

/-- While nothing is found, a host remains without address; the first address found is kept. -/
theorem uses_life (ip : Str → Option Str) {v : Val} {s : Str} {p : Option Int} (hs : Spec v s p) (l : List (Str → Option Str)) :
    Life v s p ((Host.new v).uses ip l) ∧
    (((Host.new v).uses ip l).addr = none → ∀ dns ∈ l, ¬ ∃ a n, Found ip dns s a n) ∧
    (∀ a n, (Host.new v).uses ip l = ⟨.str s, some a, some n, p.map .int⟩ →
      ∃ pre dns post, l = pre ++ dns :: post ∧ Found ip dns s a n ∧ ∀ d ∈ pre, ¬ ∃ a n, Found ip d s a n) := by
  induction l using snoc_induction with
  | nil => exact ⟨.new, by simp, fun a n h => by cases h⟩
  | append l d ih =>
    obtain ⟨h1, h2, h3⟩ := ih
    rw [uses_append]
    show Life v s p (((Host.new v).uses ip l).use ip d).1 ∧ _
    generalize hg : (Host.new v).uses ip l = g at h1 h2 h3 ⊢
    have e : g.uses ip [d] = (g.use ip d).1 := rfl
    rw [e]
    rcases use_life ip d hs g h1 with ⟨hn, a, n, hf, hu⟩ | ⟨hn, hf, hu⟩ | ⟨a, n, he, hu⟩
    · rw [hu]
      refine ⟨.found a n, fun h => by simp at h, ?_⟩
      intro a' n' h
      simp only [Host.mk.injEq, Option.some.injEq] at h
      obtain ⟨-, rfl, rfl, -⟩ := h
      exact ⟨l, d, [], rfl, hf, h2 hn⟩
    · rw [hu]
      refine ⟨.failed, ?_, fun a n h => by simp at h⟩
      intro _ x hx
      rcases List.mem_append.mp hx with hx | hx
      · exact h2 hn x hx
      · simp only [List.mem_singleton] at hx; subst hx; exact hf
    · rw [hu]
      refine ⟨h1, ?_, ?_⟩
      · intro h; rw [he] at h; simp at h
      · intro a' n' h
        obtain ⟨pre, dns, post, e1, e2, e3⟩ := h3 a' n' h
        exact ⟨pre, dns, post ++ [d], by rw [e1]; simp, e2, e3⟩

/-- **C90** Whatever happened before, the use of a host that was given as documented either fails, with an error that leaves the shell running, because neither now nor
before has the name service known it; or it has the port that was given, and the address that it had when it was first used successfully. -/
theorem C90_use (ip : Str → Option Str) (v : Val) (s : Str) (p : Option Int) (hs : Spec v s p) (past : List (Str → Option Str)) (dns : Str → Option Str) :
    (∃ h, ((Host.new v).uses ip past).use ip dns = (h, .resume) ∧ ∀ d ∈ past ++ [dns], ¬ ∃ a n, Found ip d s a n) ∨
    (∃ h pre d post a n, ((Host.new v).uses ip past).use ip dns = (h, .ok) ∧ past ++ [dns] = pre ++ d :: post ∧ Found ip d s a n ∧
      (∀ d' ∈ pre, ¬ ∃ a n, Found ip d' s a n) ∧ h.addr = some a ∧ h.name = some n ∧ h.port = p.map .int) := by
  obtain ⟨h1, h2, h3⟩ := uses_life ip hs past
  generalize (Host.new v).uses ip past = g at h1 h2 h3 ⊢
  rcases use_life ip dns hs g h1 with ⟨hn, a, n, hf, hu⟩ | ⟨hn, hf, hu⟩ | ⟨a, n, he, hu⟩
  · exact Or.inr ⟨_, past, dns, [], a, n, hu, rfl, hf, h2 hn, rfl, rfl, rfl⟩
  · refine Or.inl ⟨_, hu, ?_⟩
    intro x hx
    rcases List.mem_append.mp hx with hx | hx
    · exact h2 hn x hx
    · simp only [List.mem_singleton] at hx; subst hx; exact hf
  · obtain ⟨pre, d, post, e1, e2, e3⟩ := h3 a n he
    refine Or.inr ⟨g, pre, d, post ++ [dns], a, n, hu, by rw [e1]; simp, e2, e3, ?_, ?_, ?_⟩ <;> rw [he]

/-- **C90** A host is shown as its name or address, with its port if it has one. -/
theorem C90_shown (ip : Str → Option Str) (pstr : Val → Str) (v : Val) (s : Str) (p : Option Int) (hs : Spec v s p) (dns : Str → Option Str) (a n : Str)
    (hf : Found ip dns s a n) :
    (((Host.new v).use ip dns).1).repr pstr = match p with | none => n | some p => n ++ ":".toList ++ pstr (.int p) := by
  rcases use_life ip dns hs _ .new with ⟨-, a', n', hf', hu⟩ | ⟨-, hf', -⟩ | ⟨a', n', he, -⟩
  · have : n' = n := by
      cases hf with
      | address h1 => cases hf' with
        | address h2 => rw [h1] at h2; cases h2; rfl
        | name h2 h3 => rw [h1] at h2; cases h2
      | name h1 h2 => cases hf' with
        | address h3 => rw [h1] at h3; cases h3
        | name h3 h4 => rfl
    show (((⟨v, none, none, none⟩ : Host).use ip dns).1).repr pstr = _
    rw [hu, this]
    cases p <;> simp [Host.repr]
  · exact absurd ⟨a, n, hf⟩ hf'
  · cases he

/-- **C90** With one host or several hosts (not both, not neither) and an identity, a cluster has exactly these hosts, in the order given. -/
theorem C90_cluster (v : Val) (s : Str) (p : Option Int) (hs : Spec v s p) (vs : Val) (l : List Val) (hl : Several vs l) :
    new (some v) none true = .ok [Host.new v] ∧ new none (some vs) true = .ok (l.map Host.new) := by
  constructor
  · cases hs <;> rfl
  · cases hl <;> rfl

/-- **C90** Otherwise it is refused. -/
theorem C90_refused (host hosts : Option Val) (identity : Bool)
    (h : host.isSome = hosts.isSome ∨ identity = false ∨ (∃ v, hosts = some v ∧ ¬ ∃ l, Several v l) ∨ (∃ v l, host = some v ∧ Several v l ∧ ∀ s l', l ≠ .str s :: l')) :
    ∃ e, new host hosts identity = .error e := by
  cases hk : new host hosts identity with
  | error e => exact ⟨e, rfl⟩
  | ok hs =>
    exfalso
    rcases host with _ | v <;> rcases hosts with _ | w
    · simp [new] at hk
    · rcases h with h | h | ⟨v, h, h'⟩ | ⟨v, l, h, -⟩
      · simp at h
      · subst h; simp only [new] at hk; split at hk <;> simp at hk
      · cases h
        simp only [new] at hk
        split at hk
        · cases hk
        · rename_i l e; exact h' ⟨l, (several_iff _ _).mp e⟩
      · cases h
    · rcases h with h | h | ⟨w, h, -⟩ | ⟨v', l, h, hl, hne⟩
      · simp at h
      · subst h; simp only [new] at hk; split at hk <;> simp at hk
      · cases h
      · cases h
        have e := (several_iff _ _).mpr hl
        simp only [new, checkHost, e] at hk
        cases l with
        | nil => simp at hk
        | cons a l =>
          cases a with
          | str s => exact hne s l rfl
          | _ => simp [Val.str?] at hk
    · simp [new] at hk

/-- **C90** Hosts that have not been used are equal if and only if the same was given for them. -/
theorem C90_equal_partial (v w : Val) : (Host.new v).Eq (Host.new w) ↔ v = w := Iff.rfl

/-- **C90 is false** for hosts that have been used: those that differ in their ports become equal (and the hash of a host changes when it is used). -/
theorem C90_false_equal (ip dns : Str → Option Str) (s : Str) (p q : Int) (hpq : p ≠ q) :
    ¬ (Host.new (.tuple [.str s, .int p])).Eq (Host.new (.tuple [.str s, .int q])) ∧
    ((Host.new (.tuple [.str s, .int p])).use ip dns).1.Eq ((Host.new (.tuple [.str s, .int q])).use ip dns).1 ∧
    ¬ (Host.new (.tuple [.str s, .int p])).Eq ((Host.new (.tuple [.str s, .int p])).use ip dns).1 := by
  have key : ∀ r : Int, ((Host.new (.tuple [.str s, .int r])).use ip dns).1.host = .str s := by
    intro r
    rcases use_life ip dns (.tuple s r) _ .new with ⟨-, a, n, -, hu⟩ | ⟨-, -, hu⟩ | ⟨a, n, he, -⟩
    · exact congrArg (fun x => x.1.host) hu
    · exact congrArg (fun x => x.1.host) hu
    · cases he
  refine ⟨?_, (key p).trans (key q).symm, ?_⟩
  · intro h
    simp only [Host.Eq, Host.new, Val.tuple.injEq, List.cons.injEq, Val.int.injEq] at h
    exact hpq h.2.1
  · intro h
    have := h.trans (key p)
    cases this

/-- **C90 is false** for a pair of two host names given as a single host: it is not refused, the second name is taken for a port. -/
theorem C90_false_pair (ip dns : Str → Option Str) (s t : Str) :
    new (some (.tuple [.str s, .str t])) none true = .ok [Host.new (.tuple [.str s, .str t])] ∧
    ((Host.new (.tuple [.str s, .str t])).use ip dns).1.port = some (.str t) := by
  refine ⟨rfl, ?_⟩
  have e : (Host.new (.tuple [.str s, .str t])).use ip dns = (⟨.str s, none, none, some (.str t)⟩ : Host).lookUp ip dns s := rfl
  rw [e]
  rcases lookUp_cases ip dns s (some (.str t)) with ⟨a, n, -, h⟩ | ⟨-, h⟩ <;> rw [h]

/-- **C90 is false** for what is no host: among several hosts it is accepted, and ends the shell when it is used; a tuple with one host is an IndexError. -/
theorem C90_false_late (ip dns : Str → Option Str) (n : Int) (s : Str) :
    new none (some (.list [.int n])) true = .ok [Host.new (.int n)] ∧ ((Host.new (.int n)).use ip dns).2 = .killShell ∧
    new (some (.tuple [.str s])) none true = .error .indexError ∧
    (∀ v w l, new (some (.tuple (.str s :: v :: w :: l))) none true = .ok [Host.new (.tuple (.str s :: v :: w :: l))] ∧ ((Host.new (.tuple (.str s :: v :: w :: l))).use ip dns).2 = .killShell) :=
  ⟨rfl, rfl, rfl, fun _ _ _ => ⟨rfl, rfl⟩⟩

/-- The hypotheses can be met. -/
example : Spec (.tuple [.str "db".toList, .int 2222]) "db".toList (some 2222) ∧
    Found (fun _ => none) (fun s => if s = "db".toList then some "10.0.0.7".toList else none) "db".toList "10.0.0.7".toList "db".toList :=
  ⟨.tuple _ _, .name _ rfl (by decide)⟩

/-- The name service fails, then knows the host, then knows it under another address: the first one is kept. -/
example : ((Host.new (.str "db".toList)).uses (fun _ => none) [fun _ => none, fun _ => some "10.0.0.7".toList, fun _ => some "10.0.0.8".toList]).addr =
    some "10.0.0.7".toList := rfl

end Marcel.Cluster
