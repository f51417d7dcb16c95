import Verif.Model.WsOp
import Verif.Lemmas.ApiCalls

/-! # C91: what the arguments of `ws` request

Specification: the uses of the command that the help shows (`Usage`), those that are not implemented (`Unimplemented`), and those the help does not show but that are accepted (`Extra`). -/

namespace Marcel.WsOp

open PyArg

/-! ## Specification -/

/-- An argument that isn't taken for a flag: `-` alone is one. -/
def Operand (s : Str) : Prop := ¬ ∃ c cs, s = '-' :: c :: cs

/-- The short and the long form of a flag. -/
def Either (f : Str) (short long : String) : Prop := f = short.toList ∨ f = long.toList

/-- ws.py 24-36, the help. -/
inductive Usage : List Str → Request → Prop
  | identify : Usage [] .identify
  | list {f} : Either f "-l" "--list" → Usage [f] .list
  | new {f n} : Either f "-n" "--new" → Operand n → Usage [f, n] (.new (.str n))
  | open_ {f n} : Either f "-o" "--open" → Operand n → Usage [f, n] (.open_ (.str n))
  | name {n} : Operand n → Usage [n] (.open_ (.str n))
  | close {f} : Either f "-c" "--close" → Usage [f] .close
  | delete {f n} : Either f "-d" "--delete" → Operand n → Usage [f, n] (.delete (.str n))
  | deleteBroken {f} : Either f "-b" "--delete-broken" → Usage [f] .deleteBroken
  | home {f d} : Either f "-h" "--home" → Operand d → Usage [f, d] (.home (.str d))

/-- Those whose run is always refused. -/
inductive Unimplemented : List Str → Request → Prop
  | rename {f a b} : Either f "-r" "--rename" → Operand a → Operand b → Unimplemented [f, a, b] .rename
  | copy {f a b} : Either f "-2" "--copy" → Operand a → Operand b → Unimplemented [f, a, b] .copy
  | export_ {f a b} : Either f "-e" "--export" → Operand a → Operand b → Unimplemented [f, a, b] .export_
  | import_ {f a b} : Either f "-i" "--import" → Operand a → Operand b → Unimplemented [f, a, b] .import_

/-- Another argument is ignored after the name. -/
inductive Extra : List Str → Request → Prop
  | new {f n x} : Either f "-n" "--new" → Operand n → Operand x → Extra [f, n, x] (.new (.str n))
  | open_ {f n x} : Either f "-o" "--open" → Operand n → Operand x → Extra [f, n, x] (.open_ (.str n))
  | delete {f n x} : Either f "-d" "--delete" → Operand n → Operand x → Extra [f, n, x] (.delete (.str n))
  | home {f d x} : Either f "-h" "--home" → Operand d → Operand x → Extra [f, d, x] (.home (.str d))

/-! ## Proofs -/

theorem decl_valid : decl.Valid :=
  (Api.fits_of decl [] [] (Api.shape decl) [] (by decide +kernel) rfl rfl rfl rfl (.inr (Nat.zero_le _)) rfl).valid

theorem looks_iff (s : Str) : LooksLikeFlag (Arg.str s) ↔ ¬ Operand s := by
  unfold LooksLikeFlag Operand
  constructor
  · rintro ⟨c, cs, h⟩ h'
    exact h' ⟨c, cs, Option.some.inj h⟩
  · intro h
    obtain ⟨c, cs, h⟩ := Classical.not_not.mp h
    exact ⟨c, cs, congrArg some h⟩

theorem operand_notFlag {s : Str} (h : Operand s) : ¬ decl.IsFlag (Arg.str s) := fun h' => (looks_iff s).mp (Api.isFlag_looks decl decl_valid _ h') h

/-- The names of the flags are those of the group. -/
theorem name_mem {f : FlagDecl Arg} (h : f ∈ decl.flags) : ∀ g ∈ decl.atMostOne, f.name ∈ g := by
  have : ∀ n ∈ decl.flags.map (·.name), ∀ g ∈ decl.atMostOne, n ∈ g := by decide +kernel
  exact this _ (List.mem_map_of_mem h)

theorem two_filter {α : Type} (l : List α) (p : α → Bool) (a b : α) (ha : a ∈ l) (hb : b ∈ l) (pa : p a = true) (pb : p b = true) (h : (l.filter p).length ≤ 1) : a = b := by
  have h1 : a ∈ l.filter p := List.mem_filter.mpr ⟨ha, pa⟩
  have h2 : b ∈ l.filter p := List.mem_filter.mpr ⟨hb, pb⟩
  match hl : l.filter p with
  | [] => rw [hl] at h1; cases h1
  | [x] => rw [hl] at h1 h2; simp at h1 h2; rw [h1, h2]
  | x :: y :: r => rw [hl] at h; simp at h

/-- There is at most one flag, and at most one other argument. -/
theorem short {uses : List (Use Arg)} {vals : List (AnonUse Arg)} (h : Arrangement decl uses vals) : uses.length ≤ 1 ∧ vals.length ≤ 1 := by
  constructor
  · match uses, h with
    | [], _ => simp
    | [_], _ => simp
    | u :: v :: us, h =>
      exfalso
      have hg : decl.atMostOne.head? = some (Api.names ["list", "new", "open", "close", "delete", "delete_broken", "home", "rename", "copy", "export", "import"]) := rfl
      have hm := List.mem_of_mem_head? hg
      have hu := name_mem (h.flagUses u (by simp)).declared _ hm
      have hv := name_mem (h.flagUses v (by simp)).declared _ hm
      have := two_filter _ _ u.flag.name v.flag.name hu hv (by simp [givenNames]) (by simp [givenNames]) (h.atMostOne _ hm)
      have hn := h.once
      simp [this] at hn
  · match vals, h with
    | [], _ => simp
    | [_], _ => simp
    | a :: b :: r, h =>
      exfalso
      have := h.convert 1 b rfl
      simp [decl] at this

/-- The number of flags among arguments. -/
noncomputable def flagCount (l : List Arg) : Nat := l.countP fun x => (decl.findFlag x).isSome

theorem count_arranged {uses : List (Use Arg)} {vals : List (AnonUse Arg)} (h : Arrangement decl uses vals) : flagCount (arranged uses vals) ≤ 1 := by
  have hv : flagCount (vals.map (·.raw)) = 0 := by
    refine List.countP_eq_zero.mpr ?_
    intro x hx
    obtain ⟨a, ha, rfl⟩ := List.mem_map.mp hx
    simp [findFlag_none decl _ (h.anon a ha)]
  have hl := (short h).1
  have hu := h.flagUses
  unfold arranged flagCount
  rw [List.countP_append]
  unfold flagCount at hv
  rw [hv, Nat.add_zero]
  clear hv
  rcases uses with _ | ⟨u, _ | ⟨v, us⟩⟩
  · exact Nat.zero_le 1
  · have ho := hu u (List.mem_singleton.mpr rfl)
    have h0 : (u.value.toList).countP (fun x => (decl.findFlag x).isSome) = 0 := by
      refine List.countP_eq_zero.mpr ?_
      intro x hx
      have h1 := ho.value x (Option.mem_toList.mp hx)
      rw [findFlag_none decl _ h1.1]
      exact Bool.false_ne_true
    rw [List.flatMap_cons, List.flatMap_nil, List.append_nil, List.countP_cons, h0]
    split
    · exact Nat.le_refl 1
    · exact Nat.zero_le 1
  · exact absurd hl (by rw [List.length_cons, List.length_cons]; omega)

/-- No argument of a permitted list stands for several flags. -/
theorem not_expanded {args : List Arg} {uses : List (Use Arg)} {vals : List (AnonUse Arg)} (h : Arrangement decl uses vals) (he : args.flatMap decl.expand = arranged uses vals) :
    args = arranged uses vals := by
  have hc := count_arranged h
  rw [← he] at hc ⊢
  clear he h
  induction args with
  | nil => rfl
  | cons x xs ih =>
    simp only [List.flatMap_cons] at hc ⊢
    unfold flagCount at hc
    rw [List.countP_append] at hc
    have hx : decl.expand x = [x] := by
      rcases Classical.em (∃ letters, decl.Combined x letters) with ⟨letters, hl⟩ | hl
      · exfalso
        rw [(C38_expand decl x).1 letters hl] at hc
        have : (letters.map fun l => (ofStr ['-', l] : Arg)).countP (fun x => (decl.findFlag x).isSome) = letters.length := by
          rw [List.countP_eq_length.mpr]
          · simp
          · intro y hy
            obtain ⟨l, hl', rfl⟩ := List.mem_map.mp hy
            exact (findFlag_isSome decl _).mpr (hl.2.2.2 l hl')
        rw [this] at hc
        have := hl.1
        omega
      · exact (C38_expand decl x).2 (fun l hl' => hl ⟨l, hl'⟩)
    rw [hx, ← ih (by unfold flagCount; omega)]
    rfl

theorem parse_iff (args : List Arg) (op' : Dict Str (ArgValue Arg)) :
    decl.parse args [] = some op' ↔ ∃ uses vals, Arrangement decl uses vals ∧ args = arranged uses vals ∧ op' = Dict.update [] (argStores decl uses vals) := by
  rw [C37_parse decl decl_valid]
  constructor
  · rintro ⟨uses, vals, h1, h2, h3⟩
    exact ⟨uses, vals, h1, not_expanded h1 h2, h3⟩
  · rintro ⟨uses, vals, h1, h2, h3⟩
    refine ⟨uses, vals, h1, ?_, h3⟩
    have hl := (short h1)
    subst h2
    have he : ∀ x ∈ arranged uses vals, decl.expand x = [x] := by
      intro x hx
      unfold arranged at hx
      rcases List.mem_append.mp hx with hx | hx
      · obtain ⟨u, hu, hx⟩ := List.mem_flatMap.mp hx
        have ho := h1.flagUses u hu
        rcases List.mem_cons.mp hx with rfl | hx
        · obtain ⟨s, hs⟩ := ho.sym
          exact Api.expand_sym decl decl_valid _ ⟨u.flag, ho.declared, s, hs⟩
        · exact Api.expand_other decl x fun _ => (ho.value x (by simpa using hx)).2
      · obtain ⟨a, ha, rfl⟩ := List.mem_map.mp hx
        have : ∃ as, vals = a :: as := by
          match vals, hl.2, ha with
          | [b], _, ha => exact ⟨[], by rw [List.mem_singleton.mp ha]⟩
        obtain ⟨as, hv⟩ := this
        exact Api.expand_other decl _ fun hf => h1.first a as hv hf
    generalize arranged uses vals = l at he
    induction l with
    | nil => rfl
    | cons x xs ih => rw [List.flatMap_cons, he x (by simp), ih fun y hy => he y (by simp [hy])]; rfl

/-! ### The request -/

/-- The attributes after one flag and perhaps a name. -/
def stored (t : Str) (r x : Arg) : Dict Str (ArgValue Arg) := Dict.update [] [(t, .one r), ("name".toList, .one x)]

theorem stores_flag (u : Use Arg) : argStores decl [u] [] = [(u.flag.target, .one u.result), ("name".toList, .one .none_)] := rfl
theorem stores_flag_name (u : Use Arg) (a : AnonUse Arg) : argStores decl [u] [a] = [(u.flag.target, .one u.result), ("name".toList, .one a.result)] := rfl
theorem stores_name (a : AnonUse Arg) : argStores decl [] [a] = [("name".toList, .one a.result)] := rfl
theorem stores_nil : argStores decl [] [] = [("name".toList, .one .none_)] := rfl

theorem attr_stored (t : Str) (r x : Arg) (ht : t ≠ "name".toList) (n : String) :
    attr (stored t r x) n = if t = n.toList then r else if "name".toList = n.toList then x else .none_ := by
  unfold attr stored
  simp only [Dict.update, List.foldl_cons, List.foldl_nil, Dict.set, Dict.get?, if_neg ht]
  by_cases h1 : t = n.toList
  · simp [h1]
  · by_cases h2 : "name".toList = n.toList
    · simp [h1, h2]
    · simp only [h1, h2, if_false]

theorem setup_new (v : Str) (x : Arg) : setup (stored "new".toList (.str v) x) = some (.new (.str v)) := by
  have h : ∀ n : String, attr (stored "new".toList (.str v) x) n = if "new".toList = n.toList then (.str v) else if "name".toList = n.toList then x else .none_ := attr_stored _ _ _ (by decide)
  unfold setup choose
  simp only [h]
  rfl

theorem setup_open (v : Str) (x : Arg) : setup (stored "open".toList (.str v) x) = some (.open_ (.str v)) := by
  have h : ∀ n : String, attr (stored "open".toList (.str v) x) n = if "open".toList = n.toList then (.str v) else if "name".toList = n.toList then x else .none_ := attr_stored _ _ _ (by decide)
  unfold setup choose
  simp only [h]
  rfl

theorem setup_delete (v : Str) (x : Arg) : setup (stored "delete".toList (.str v) x) = some (.delete (.str v)) := by
  have h : ∀ n : String, attr (stored "delete".toList (.str v) x) n = if "delete".toList = n.toList then (.str v) else if "name".toList = n.toList then x else .none_ := attr_stored _ _ _ (by decide)
  unfold setup choose
  simp only [h]
  rfl

theorem setup_home (v : Str) (x : Arg) : setup (stored "home".toList (.str v) x) = some (.home (.str v)) := by
  have h : ∀ n : String, attr (stored "home".toList (.str v) x) n = if "home".toList = n.toList then (.str v) else if "name".toList = n.toList then x else .none_ := attr_stored _ _ _ (by decide)
  unfold setup choose
  simp only [h]
  rfl

theorem setup_list (x : Arg) : setup (stored "list".toList .tru x) = if given x then none else some .list := by
  have h : ∀ n : String, attr (stored "list".toList .tru x) n = if "list".toList = n.toList then .tru else if "name".toList = n.toList then x else .none_ := attr_stored _ _ _ (by decide)
  unfold setup choose
  simp only [h]
  cases x <;> rfl

theorem setup_close (x : Arg) : setup (stored "close".toList .tru x) = if given x then none else some .close := by
  have h : ∀ n : String, attr (stored "close".toList .tru x) n = if "close".toList = n.toList then .tru else if "name".toList = n.toList then x else .none_ := attr_stored _ _ _ (by decide)
  unfold setup choose
  simp only [h]
  cases x <;> rfl

theorem setup_broken (x : Arg) : setup (stored "delete_broken".toList .tru x) = if given x then none else some .deleteBroken := by
  have h : ∀ n : String, attr (stored "delete_broken".toList .tru x) n = if "delete_broken".toList = n.toList then .tru else if "name".toList = n.toList then x else .none_ := attr_stored _ _ _ (by decide)
  unfold setup choose
  simp only [h]
  cases x <;> rfl

theorem setup_rename (v : Str) (x : Arg) : setup (stored "rename".toList (.str v) x) = if given x then some .rename else none := by
  have h : ∀ n : String, attr (stored "rename".toList (.str v) x) n = if "rename".toList = n.toList then (.str v) else if "name".toList = n.toList then x else .none_ := attr_stored _ _ _ (by decide)
  unfold setup choose
  simp only [h]
  cases x <;> rfl

theorem setup_copy (v : Str) (x : Arg) : setup (stored "copy".toList (.str v) x) = if given x then some .copy else none := by
  have h : ∀ n : String, attr (stored "copy".toList (.str v) x) n = if "copy".toList = n.toList then (.str v) else if "name".toList = n.toList then x else .none_ := attr_stored _ _ _ (by decide)
  unfold setup choose
  simp only [h]
  cases x <;> rfl

theorem setup_export (v : Str) (x : Arg) : setup (stored "exp".toList (.str v) x) = if given x then some .export_ else none := by
  have h : ∀ n : String, attr (stored "exp".toList (.str v) x) n = if "exp".toList = n.toList then (.str v) else if "name".toList = n.toList then x else .none_ := attr_stored _ _ _ (by decide)
  unfold setup choose
  simp only [h]
  cases x <;> rfl

theorem setup_import (v : Str) (x : Arg) : setup (stored "imp".toList (.str v) x) = if given x then some .import_ else none := by
  have h : ∀ n : String, attr (stored "imp".toList (.str v) x) n = if "imp".toList = n.toList then (.str v) else if "name".toList = n.toList then x else .none_ := attr_stored _ _ _ (by decide)
  unfold setup choose
  simp only [h]
  cases x <;> rfl

theorem setup_name (v : Str) : setup (Dict.update [] [("name".toList, .one (.str v))]) = some (.open_ (.str v)) := rfl
theorem setup_nil : setup (Dict.update [] [("name".toList, .one .none_)]) = some .identify := rfl

/-- The use of a flag without value. -/
def NoVal (u : Use Arg) (t short long : String) : Prop :=
  u.flag.target = t.toList ∧ (∃ f, u.sym = .str f ∧ Either f short long) ∧ u.value = none ∧ u.result = .tru

/-- The use of a flag with a value. -/
def OneVal (u : Use Arg) (t short long : String) : Prop :=
  u.flag.target = t.toList ∧ (∃ f, u.sym = .str f ∧ Either f short long) ∧ ∃ v, u.value = some v ∧ u.result = v ∧ ¬ LooksLikeFlag v

theorem sym_of {u : Use Arg} {f : FlagDecl Arg} {a b : String} (h : ∃ s, str u.sym = some s ∧ (f.short = some s ∨ f.long = some s)) (ha : f.short = some a.toList) (hb : f.long = some b.toList) :
    ∃ f, u.sym = .str f ∧ Either f a b := by
  obtain ⟨s, h1, h2⟩ := h
  refine ⟨s, ?_, ?_⟩
  · cases hs : u.sym with
    | str t => rw [hs] at h1; rw [Option.some.inj h1]
    | _ => rw [hs] at h1; cases h1
  · rw [ha, hb] at h2
    exact h2.imp (fun h => (Option.some.inj h).symm) fun h => (Option.some.inj h).symm

theorem noVal_of {u : Use Arg} (hu : u.OK decl) (t a b : String) (hf : u.flag = Api.flag0 t a (some b)) : NoVal u t a b := by
  have hv : u.value = none := hu.none_ (by rw [hf]; rfl)
  have hr := hu.result
  rw [hv] at hr
  refine ⟨by rw [hf]; rfl, sym_of hu.sym (by rw [hf]; rfl) (by rw [hf]; rfl), hv, ?_⟩
  simp only at hr
  rw [hr, hf]
  rfl

theorem oneVal_of {u : Use Arg} (hu : u.OK decl) (n t a b : String) (hf : u.flag = Api.flag1 n a b t some) : OneVal u t a b := by
  have hv := (hu.one (by rw [hf]; rfl)).1
  obtain ⟨v, hv⟩ := Option.isSome_iff_exists.mp hv
  have hr := hu.result
  rw [hv] at hr
  refine ⟨by rw [hf]; rfl, sym_of hu.sym (by rw [hf]; rfl) (by rw [hf]; rfl), v, hv, ?_, (hu.value v hv).2⟩
  simp only at hr
  rw [hf] at hr
  exact (Option.some.inj hr).symm

theorem use_cases {u : Use Arg} (hu : u.OK decl) :
    NoVal u "list" "-l" "--list" ∨ OneVal u "new" "-n" "--new" ∨ OneVal u "open" "-o" "--open" ∨ NoVal u "close" "-c" "--close" ∨ OneVal u "delete" "-d" "--delete" ∨
    NoVal u "delete_broken" "-b" "--delete-broken" ∨ OneVal u "home" "-h" "--home" ∨ OneVal u "rename" "-r" "--rename" ∨ OneVal u "copy" "-2" "--copy" ∨
    OneVal u "exp" "-e" "--export" ∨ OneVal u "imp" "-i" "--import" := by
  have h := hu.declared
  simp only [decl, List.mem_cons, List.not_mem_nil, or_false] at h
  rcases h with h | h | h | h | h | h | h | h | h | h | h
  · exact .inl (noVal_of hu _ _ _ h)
  · exact .inr (.inl (oneVal_of hu _ _ _ _ h))
  · exact .inr (.inr (.inl (oneVal_of hu _ _ _ _ h)))
  · exact .inr (.inr (.inr (.inl (noVal_of hu _ _ _ h))))
  · exact .inr (.inr (.inr (.inr (.inl (oneVal_of hu _ _ _ _ h)))))
  · exact .inr (.inr (.inr (.inr (.inr (.inl (noVal_of hu _ _ _ h))))))
  · exact .inr (.inr (.inr (.inr (.inr (.inr (.inl (oneVal_of hu _ _ _ _ h)))))))
  · exact .inr (.inr (.inr (.inr (.inr (.inr (.inr (.inl (oneVal_of hu _ _ _ _ h))))))))
  · exact .inr (.inr (.inr (.inr (.inr (.inr (.inr (.inr (.inl (oneVal_of hu _ _ _ _ h)))))))))
  · exact .inr (.inr (.inr (.inr (.inr (.inr (.inr (.inr (.inr (.inl (oneVal_of hu _ _ _ _ h))))))))))
  · exact .inr (.inr (.inr (.inr (.inr (.inr (.inr (.inr (.inr (.inr (oneVal_of hu _ _ _ _ h))))))))))

/-! ### Arguments that are accepted -/

theorem group_ok (u : Use Arg) (hu : u.flag ∈ decl.flags) (vals : List (AnonUse Arg)) : ∀ g ∈ decl.atMostOne, (g.filter (fun n => n ∈ givenNames decl [u] vals)).length ≤ 1 := by
  have h : ∀ n ∈ decl.flags.map (·.name), ∀ g ∈ decl.atMostOne, ∀ k ∈ [[], ["name".toList]], (g.filter (fun m => m ∈ [n] ++ k)).length ≤ 1 := by decide +kernel
  intro g hg
  have hk : givenNames decl [u] vals = [u.flag.name] ++ [] ∨ givenNames decl [u] vals = [u.flag.name] ++ ["name".toList] := by
    cases vals with
    | nil => exact .inl rfl
    | cons a as =>
      right
      unfold givenNames
      rw [List.length_cons, show (decl.anons.take (as.length + 1)) = decl.anons from by simp [decl]]
      rfl
  rcases hk with hk | hk
  · rw [hk]; exact h _ (List.mem_map_of_mem hu) g hg [] (by simp)
  · rw [hk]; exact h _ (List.mem_map_of_mem hu) g hg _ (by simp)

/-- Arguments that are not flags, as used. -/
def plainVals (l : List Str) : List (AnonUse Arg) := l.map fun x => ⟨.str x, .str x⟩

theorem arrangement_of (uses : List (Use Arg)) (hl : uses.length ≤ 1) (hu : ∀ u ∈ uses, u.OK decl) (l : List Str) (hl1 : l.length ≤ 1) (ho : ∀ x ∈ l, Operand x)
    (hg : l ≠ [] → ∀ u, uses.getLast? = some u → u.value.isSome ∨ u.flag.arity = .noValue) : Arrangement decl uses (plainVals l) where
  flagUses := hu
  once := by
    rcases uses with _ | ⟨u, _ | ⟨v, us⟩⟩
    · exact List.nodup_nil
    · exact List.nodup_cons.mpr ⟨List.not_mem_nil, List.nodup_nil⟩
    · exact absurd hl (by rw [List.length_cons, List.length_cons]; omega)
  anon := by
    intro a ha
    obtain ⟨x, hx, rfl⟩ := List.mem_map.mp ha
    exact operand_notFlag (ho x hx)
  first := by
    intro a as ha _
    have : a ∈ plainVals l := by rw [ha]; simp
    obtain ⟨x, hx, rfl⟩ := List.mem_map.mp this
    exact fun h => (looks_iff x).mp h (ho x hx)
  greedy := fun h => hg fun h' => h (by rw [h']; rfl)
  convert := by
    intro i a ha
    have hi : i < (plainVals l).length := (List.getElem?_eq_some_iff.mp ha).1
    have h0 : i = 0 := by
      rw [plainVals, List.length_map] at hi
      omega
    subst h0
    obtain ⟨x, _, hx⟩ := List.mem_map.mp (List.mem_of_getElem? ha)
    subst hx
    rfl
  required := by
    intro i d hd _
    match i, hd with
    | 0, hd => cases hd; rfl
  atMostOne := by
    rcases uses with _ | ⟨u, _ | ⟨v, us⟩⟩
    · rcases l with _ | ⟨x, _ | ⟨y, ys⟩⟩
      · decide +kernel
      · rw [show givenNames decl [] (plainVals [x]) = ["name".toList] from rfl]
        decide +kernel
      · exact absurd hl1 (by rw [List.length_cons, List.length_cons]; omega)
    · exact group_ok u (hu u (List.mem_singleton.mpr rfl)).declared _
    · exact absurd hl (by rw [List.length_cons, List.length_cons]; omega)
  exactlyOne := fun g hg => absurd hg List.not_mem_nil

theorem request_of (uses : List (Use Arg)) (hl : uses.length ≤ 1) (hu : ∀ u ∈ uses, u.OK decl) (l : List Str) (hl1 : l.length ≤ 1) (ho : ∀ x ∈ l, Operand x)
    (hg : l ≠ [] → ∀ u, uses.getLast? = some u → u.value.isSome ∨ u.flag.arity = .noValue) :
    request (arranged uses (plainVals l)) = setup (Dict.update [] (argStores decl uses (plainVals l))) := by
  unfold request
  rw [(parse_iff _ _).mpr ⟨uses, plainVals l, arrangement_of uses hl hu l hl1 ho hg, rfl, rfl⟩]

theorem noVal_ok (n a b : String) (hf : Api.flag0 n a (some b) ∈ decl.flags) {f : Str} (h : Either f a b) : Use.OK decl ⟨Api.flag0 n a (some b), .str f, none, .tru⟩ where
  declared := hf
  sym := ⟨f, rfl, h.elim (fun h => .inl (congrArg some h.symm)) fun h => .inr (congrArg some h.symm)⟩
  value := fun v hv => by cases hv
  none_ := fun _ => rfl
  one := fun h => by cases h
  result := rfl

theorem oneVal_ok (n t a b : String) (hf : Api.flag1 n a b t some ∈ decl.flags) {f v : Str} (h : Either f a b) (hv : Operand v) : Use.OK decl ⟨Api.flag1 n a b t some, .str f, some (.str v), .str v⟩ where
  declared := hf
  sym := ⟨f, rfl, h.elim (fun h => .inl (congrArg some h.symm)) fun h => .inr (congrArg some h.symm)⟩
  value := fun w hw => by cases hw; exact ⟨operand_notFlag hv, fun h => (looks_iff v).mp h hv⟩
  none_ := fun h => by cases h
  one := fun _ => ⟨rfl, rfl⟩
  result := rfl

theorem request_noVal (n a b : String) (hf : Api.flag0 n a (some b) ∈ decl.flags) {f : Str} (h : Either f a b) : request [.str f] = setup (stored n.toList .tru .none_) :=
  request_of [⟨Api.flag0 n a (some b), .str f, none, .tru⟩] (Nat.le_refl 1) (fun u hu => by rw [List.mem_singleton.mp hu]; exact noVal_ok n a b hf h) [] (Nat.zero_le 1)
    (fun x hx => absurd hx List.not_mem_nil) fun h => absurd rfl h

theorem request_oneVal (n t a b : String) (hf : Api.flag1 n a b t some ∈ decl.flags) {f v : Str} (h : Either f a b) (hv : Operand v) : request [.str f, .str v] = setup (stored t.toList (.str v) .none_) :=
  request_of [⟨Api.flag1 n a b t some, .str f, some (.str v), .str v⟩] (Nat.le_refl 1) (fun u hu => by rw [List.mem_singleton.mp hu]; exact oneVal_ok n t a b hf h hv) [] (Nat.zero_le 1)
    (fun x hx => absurd hx List.not_mem_nil) fun h => absurd rfl h

theorem request_oneVal_name (n t a b : String) (hf : Api.flag1 n a b t some ∈ decl.flags) {f v x : Str} (h : Either f a b) (hv : Operand v) (hx : Operand x) :
    request [.str f, .str v, .str x] = setup (stored t.toList (.str v) (.str x)) :=
  request_of [⟨Api.flag1 n a b t some, .str f, some (.str v), .str v⟩] (Nat.le_refl 1) (fun u hu => by rw [List.mem_singleton.mp hu]; exact oneVal_ok n t a b hf h hv) [x] (Nat.le_refl 1)
    (fun y hy => by rw [List.mem_singleton.mp hy]; exact hx) (fun _ u hu => .inl (by cases hu; rfl))

theorem request_name {x : Str} (hx : Operand x) : request [.str x] = some (.open_ (.str x)) :=
  (request_of [] (Nat.zero_le 1) (fun u hu => absurd hu List.not_mem_nil) [x] (Nat.le_refl 1) (fun y hy => by rw [List.mem_singleton.mp hy]; exact hx) (fun _ u hu => by cases hu)).trans (setup_name x)

theorem request_nil : request [] = some .identify :=
  (request_of [] (Nat.zero_le 1) (fun u hu => absurd hu List.not_mem_nil) [] (Nat.zero_le 1) (fun y hy => absurd hy List.not_mem_nil) (fun _ u hu => by cases hu)).trans setup_nil

/-! ### Main theorem -/

theorem map_nil_inv {args : List Str} (h : args.map Arg.str = []) : args = [] := List.map_eq_nil_iff.mp h

theorem map_one_inv {args : List Str} {a : Arg} (h : args.map Arg.str = [a]) : ∃ x, args = [x] ∧ a = .str x := by
  rcases args with _ | ⟨x, _ | ⟨y, r⟩⟩
  · cases h
  · exact ⟨x, rfl, (List.cons.inj h).1.symm⟩
  · exact absurd (List.cons.inj h).2 (by simp)

theorem map_two_inv {args : List Str} {a b : Arg} (h : args.map Arg.str = [a, b]) : ∃ x y, args = [x, y] ∧ a = .str x ∧ b = .str y := by
  rcases args with _ | ⟨x, r⟩
  · cases h
  · obtain ⟨y, h1, h2⟩ := map_one_inv (List.cons.inj h).2
    exact ⟨x, y, by rw [h1], (List.cons.inj h).1.symm, h2⟩

theorem map_three_inv {args : List Str} {a b c : Arg} (h : args.map Arg.str = [a, b, c]) : ∃ x y z, args = [x, y, z] ∧ a = .str x ∧ b = .str y ∧ c = .str z := by
  rcases args with _ | ⟨x, r⟩
  · cases h
  · obtain ⟨y, z, h1, h2, h3⟩ := map_two_inv (List.cons.inj h).2
    exact ⟨x, y, z, by rw [h1], (List.cons.inj h).1.symm, h2, h3⟩

/-- A flag without value, alone or followed by a name. -/
theorem noVal_args {u : Use Arg} {t a b : String} (h : NoVal u t a b) (vals : List (AnonUse Arg)) (args : List Str) (he : args.map Arg.str = arranged [u] vals) :
    ∃ f, Either f a b ∧ args.map Arg.str = .str f :: vals.map (·.raw) := by
  obtain ⟨_, ⟨f, hs, hf⟩, hv, _⟩ := h
  refine ⟨f, hf, ?_⟩
  rw [he]
  simp [arranged, hs, hv]

theorem oneVal_args {u : Use Arg} {t a b : String} (h : OneVal u t a b) (vals : List (AnonUse Arg)) (args : List Str) (he : args.map Arg.str = arranged [u] vals) :
    ∃ f v, Either f a b ∧ Operand v ∧ u.result = .str v ∧ args.map Arg.str = .str f :: .str v :: vals.map (·.raw) := by
  obtain ⟨_, ⟨f, hs, hf⟩, v, hv, hr, hl⟩ := h
  have he' : args.map Arg.str = .str f :: v :: vals.map (·.raw) := by
    rw [he]
    simp [arranged, hs, hv]
  have : v ∈ args.map Arg.str := by rw [he']; simp
  obtain ⟨x, _, rfl⟩ := List.mem_map.mp this
  exact ⟨f, x, hf, Classical.not_not.mp fun h => hl ((looks_iff x).mpr h), hr, he'⟩

theorem anon_of {uses : List (Use Arg)} {a : AnonUse Arg} (h : Arrangement decl uses [a]) {x : Str} (hx : a.raw = .str x) : Operand x ∧ a.result = .str x := by
  have h1 := h.first a [] rfl (by simp [decl])
  have h2 := h.convert 0 a rfl
  rw [hx] at h1 h2
  exact ⟨Classical.not_not.mp fun h => h1 ((looks_iff x).mpr h), (Option.some.inj h2).symm⟩

/-- **C91** For all lists of strings: `ws` requests an operation exactly if it is used as in the help, except that another argument after the name is ignored (see `C91_false_extra`); what is
requested, and with which name, is what the help says. Everything else — several flags, separate or combined, repeated flags, unknown flags, a missing or superfluous argument — is refused. -/
theorem C91_requests (args : List Str) (r : Request) : request (args.map .str) = some r ↔ Usage args r ∨ Unimplemented args r ∨ Extra args r := by
  constructor
  · intro h
    unfold request at h
    cases hp : decl.parse (args.map .str) [] with
    | none => rw [hp] at h; cases h
    | some op =>
      rw [hp] at h
      simp only at h
      obtain ⟨uses, vals, ha, he, rfl⟩ := (parse_iff _ _).mp hp
      obtain ⟨hl1, hl2⟩ := short ha
      rcases uses with _ | ⟨u, _ | ⟨v, us⟩⟩
      · rcases vals with _ | ⟨a, _ | ⟨b, vs⟩⟩
        · have := map_nil_inv (he : args.map Arg.str = [])
          subst this
          rw [stores_nil, setup_nil] at h
          cases h
          exact .inl .identify
        · obtain ⟨x, rfl, hx⟩ := map_one_inv (he : args.map Arg.str = [a.raw])
          obtain ⟨ho, hr⟩ := anon_of ha hx
          rw [stores_name, hr, setup_name] at h
          cases h
          exact .inl (.name ho)
        · exact absurd hl2 (by rw [List.length_cons, List.length_cons]; omega)
      · have hu := ha.flagUses u (List.mem_singleton.mpr rfl)
        rcases vals with _ | ⟨a, _ | ⟨b, vs⟩⟩
        · rw [stores_flag] at h
          rcases use_cases hu with hc | hc | hc | hc | hc | hc | hc | hc | hc | hc | hc
          all_goals
            first
            | obtain ⟨f, hf, he'⟩ := noVal_args hc _ _ he
              obtain ⟨y, rfl, hy⟩ := map_one_inv he'
              cases hy
              rw [hc.1, hc.2.2.2] at h
            | obtain ⟨f, v, hf, hv, hr, he'⟩ := oneVal_args hc _ _ he
              obtain ⟨y, z, rfl, hy, hz⟩ := map_two_inv he'
              cases hy
              cases hz
              rw [hc.1, hr] at h
          · cases (setup_list .none_).symm.trans h; exact .inl (.list hf)
          · cases (setup_new _ .none_).symm.trans h; exact .inl (.new hf hv)
          · cases (setup_open _ .none_).symm.trans h; exact .inl (.open_ hf hv)
          · cases (setup_close .none_).symm.trans h; exact .inl (.close hf)
          · cases (setup_delete _ .none_).symm.trans h; exact .inl (.delete hf hv)
          · cases (setup_broken .none_).symm.trans h; exact .inl (.deleteBroken hf)
          · cases (setup_home _ .none_).symm.trans h; exact .inl (.home hf hv)
          · cases (setup_rename _ .none_).symm.trans h
          · cases (setup_copy _ .none_).symm.trans h
          · cases (setup_export _ .none_).symm.trans h
          · cases (setup_import _ .none_).symm.trans h
        · rw [stores_flag_name] at h
          rcases use_cases hu with hc | hc | hc | hc | hc | hc | hc | hc | hc | hc | hc
          all_goals
            first
            | obtain ⟨f, hf, he'⟩ := noVal_args hc _ _ he
              obtain ⟨y, z, rfl, hy, hz⟩ := map_two_inv he'
              cases hy
              obtain ⟨ho, hr'⟩ := anon_of ha hz
              rw [hc.1, hc.2.2.2, hr'] at h
            | obtain ⟨f, v, hf, hv, hr, he'⟩ := oneVal_args hc _ _ he
              obtain ⟨y, z, w, rfl, hy, hz, hw⟩ := map_three_inv he'
              cases hy
              cases hz
              obtain ⟨ho, hr'⟩ := anon_of ha hw
              rw [hc.1, hr, hr'] at h
          · cases (setup_list _).symm.trans h
          · cases (setup_new _ _).symm.trans h; exact .inr (.inr (.new hf hv ho))
          · cases (setup_open _ _).symm.trans h; exact .inr (.inr (.open_ hf hv ho))
          · cases (setup_close _).symm.trans h
          · cases (setup_delete _ _).symm.trans h; exact .inr (.inr (.delete hf hv ho))
          · cases (setup_broken _).symm.trans h
          · cases (setup_home _ _).symm.trans h; exact .inr (.inr (.home hf hv ho))
          · cases (setup_rename _ _).symm.trans h; exact .inr (.inl (.rename hf hv ho))
          · cases (setup_copy _ _).symm.trans h; exact .inr (.inl (.copy hf hv ho))
          · cases (setup_export _ _).symm.trans h; exact .inr (.inl (.export_ hf hv ho))
          · cases (setup_import _ _).symm.trans h; exact .inr (.inl (.import_ hf hv ho))
        · exact absurd hl2 (by rw [List.length_cons, List.length_cons]; omega)
      · exact absurd hl1 (by rw [List.length_cons, List.length_cons]; omega)
  · rintro (h | h | h)
    · cases h with
      | identify => exact request_nil
      | list hf => exact (request_noVal "list" "-l" "--list" (by simp [decl]) hf).trans (setup_list _)
      | new hf hn => exact (request_oneVal "new" "new" "-n" "--new" (by simp [decl]) hf hn).trans (setup_new _ _)
      | open_ hf hn => exact (request_oneVal "open" "open" "-o" "--open" (by simp [decl]) hf hn).trans (setup_open _ _)
      | name hn => exact request_name hn
      | close hf => exact (request_noVal "close" "-c" "--close" (by simp [decl]) hf).trans (setup_close _)
      | delete hf hn => exact (request_oneVal "delete" "delete" "-d" "--delete" (by simp [decl]) hf hn).trans (setup_delete _ _)
      | deleteBroken hf => exact (request_noVal "delete_broken" "-b" "--delete-broken" (by simp [decl]) hf).trans (setup_broken _)
      | home hf hn => exact (request_oneVal "home" "home" "-h" "--home" (by simp [decl]) hf hn).trans (setup_home _ _)
    · cases h with
      | rename hf ha hb => exact (request_oneVal_name "rename" "rename" "-r" "--rename" (by simp [decl]) hf ha hb).trans (setup_rename _ _)
      | copy hf ha hb => exact (request_oneVal_name "copy" "copy" "-2" "--copy" (by simp [decl]) hf ha hb).trans (setup_copy _ _)
      | export_ hf ha hb => exact (request_oneVal_name "export" "exp" "-e" "--export" (by simp [decl]) hf ha hb).trans (setup_export _ _)
      | import_ hf ha hb => exact (request_oneVal_name "import" "imp" "-i" "--import" (by simp [decl]) hf ha hb).trans (setup_import _ _)
    · cases h with
      | new hf hn hx => exact (request_oneVal_name "new" "new" "-n" "--new" (by simp [decl]) hf hn hx).trans (setup_new _ _)
      | open_ hf hn hx => exact (request_oneVal_name "open" "open" "-o" "--open" (by simp [decl]) hf hn hx).trans (setup_open _ _)
      | delete hf hn hx => exact (request_oneVal_name "delete" "delete" "-d" "--delete" (by simp [decl]) hf hn hx).trans (setup_delete _ _)
      | home hf hn hx => exact (request_oneVal_name "home" "home" "-h" "--home" (by simp [decl]) hf hn hx).trans (setup_home _ _)

/-- **C91** Something that looks like a flag is accepted only as the first argument: two flags are never accepted together, however they are written, and a flag is never taken for a name. -/
theorem C91_one_flag (x : Str) (a b : List Str) (f : Str) (hf : ∃ c cs, f = '-' :: c :: cs) : request ((x :: a ++ f :: b).map .str) = none := by
  cases h : request ((x :: a ++ f :: b).map .str) with
  | none => rfl
  | some r =>
    exfalso
    have key : ∀ args r, request (List.map Arg.str args) = some r → ∀ x ∈ args.tail, Operand x := by
      intro args r h
      rcases (C91_requests args r).mp h with h | h | h <;> cases h <;> simp_all
    exact key _ r h f (by simp) hf

/-- What is requested on the command line is done as follows; `exist` are the workspaces there are (not the default workspace), `current` is the name of the one in use, `''` for the default
workspace. -/
inductive Does (exist : Str → Prop) (current : Str) : Request → Outcome → Prop
  | identify : Does exist current .identify ⟨[current], none, none, .done⟩
  | new {n} : ¬ exist n → Does exist current (.new (.str n)) ⟨[n], some n, none, .reconfigure n⟩
  | newExists {n} : exist n → Does exist current (.new (.str n)) ⟨[], none, none, .killed⟩
  | open_ {n} : exist n → n ≠ current → Does exist current (.open_ (.str n)) ⟨[n], none, none, .reconfigure n⟩
  | openCurrent {n} : exist n → n = current → Does exist current (.open_ (.str n)) ⟨[], none, none, .done⟩
  | openMissing {n} : ¬ exist n → Does exist current (.open_ (.str n)) ⟨[], none, none, .killed⟩
  | close : current ≠ [] → Does exist current .close ⟨[[]], none, none, .reconfigure []⟩
  | closeDefault : current = [] → Does exist current .close ⟨[], none, none, .done⟩
  | home {d} : current ≠ [] → Does exist current (.home (.str d)) ⟨[current], none, some d, .done⟩
  | homeDefault {d} : current = [] → Does exist current (.home (.str d)) ⟨[], none, none, .killed⟩
  | unimplemented {r} : r = .rename ∨ r = .copy ∨ r = .export_ ∨ r = .import_ → Does exist current r ⟨[], none, none, .killed⟩

/-- **C91** What is requested is done: a workspace that exists is not created again, one that does not exist is not opened, opening the current workspace or closing the default workspace changes
nothing, the default workspace gets no home directory, and nothing else is created or opened. -/
theorem C91_run (s : Situation) (args : List Str) (r : Request) (h : request (args.map .str) = some r) (hr : r ≠ .list ∧ r ≠ .deleteBroken ∧ ∀ n, r ≠ .delete n) (o : Outcome) :
    run s r = some o ↔ Does (fun n => s.exist n = true) s.current r o := by
  have key : ∃ o', run s r = some o' ∧ Does (fun n => s.exist n = true) s.current r o' := by
    obtain ⟨h1, h2, h3⟩ := hr
    rcases (C91_requests args r).mp h with h | h | h <;> cases h
    case inl.identify => exact ⟨_, rfl, .identify⟩
    case inl.list => exact absurd rfl h1
    case inl.deleteBroken => exact absurd rfl h2
    case inl.delete => exact absurd rfl (h3 _)
    case inr.inr.delete => exact absurd rfl (h3 _)
    case inl.close =>
      by_cases hc : s.current = []
      · exact ⟨_, by simp only [run, runClose, hc, ne_eq, not_true_eq_false, if_false], .closeDefault hc⟩
      · exact ⟨_, by simp only [run, runClose, hc, ne_eq, not_false_eq_true, if_true], .close hc⟩
    case inr.inl.rename => exact ⟨_, rfl, .unimplemented (.inl rfl)⟩
    case inr.inl.copy => exact ⟨_, rfl, .unimplemented (.inr (.inl rfl))⟩
    case inr.inl.export_ => exact ⟨_, rfl, .unimplemented (.inr (.inr (.inl rfl)))⟩
    case inr.inl.import_ => exact ⟨_, rfl, .unimplemented (.inr (.inr (.inr rfl)))⟩
    case inl.new n _ _ | inr.inr.new n _ _ _ _ =>
      by_cases hc : s.exist n = true
      · exact ⟨_, by simp only [run, runNew, hc, if_true], .newExists hc⟩
      · exact ⟨_, by simp only [run, runNew, hc, Bool.false_eq_true, if_false], .new hc⟩
    case inl.open_ n _ _ | inl.name n _ | inr.inr.open_ n _ _ _ _ =>
      by_cases hc : s.exist n = true
      · by_cases hn : s.current = n
        · exact ⟨_, by simp only [run, runOpen, hc, if_true, hn, ne_eq, not_true_eq_false, if_false], .openCurrent hc hn.symm⟩
        · exact ⟨_, by simp only [run, runOpen, hc, if_true, hn, ne_eq, not_false_eq_true], .open_ hc (fun h => hn h.symm)⟩
      · exact ⟨_, by simp only [run, runOpen, hc, Bool.false_eq_true, if_false], .openMissing hc⟩
    case inl.home d _ _ | inr.inr.home d _ _ _ _ =>
      by_cases hc : s.current = []
      · exact ⟨_, by simp only [run, runHome, hc, if_true], .homeDefault hc⟩
      · exact ⟨_, by simp only [run, runHome, hc, if_false], .home hc⟩
  have uniq : ∀ o o', Does (fun n => s.exist n = true) s.current r o → Does (fun n => s.exist n = true) s.current r o' → o = o' := by
    intro o o' h1 h2
    cases h1 <;> cases h2 <;> simp_all
  obtain ⟨o', h1, h2⟩ := key
  constructor
  · intro h
    rw [h1] at h
    cases h
    exact h2
  · intro h
    rw [h1, uniq _ _ h h2]

/-- An example: `ws -n work` creates and opens, in a situation where it does not exist. -/
theorem C91_example : request (["-n".toList, "work".toList].map .str) = some (.new (.str "work".toList)) ∧
    run ⟨fun n => n = "play".toList, []⟩ (.new (.str "work".toList)) = some ⟨["work".toList], some "work".toList, none, .reconfigure "work".toList⟩ ∧
    request (["-lc".toList].map .str) = none ∧ request (["--close".toList, "x".toList].map .str) = none := by
  refine ⟨(C91_requests _ _).mpr (.inl (.new (.inl rfl) ?_)), by decide +kernel, by decide +kernel, by decide +kernel⟩
  rintro ⟨c, cs, h⟩
  exact absurd (List.cons.inj h).1 (by decide)

/-- **C91 is false of further arguments.** `ws --delete a b` deletes `a`, and `ws --new a b` creates `a`: the second name is ignored. -/
theorem C91_false_extra : request ([['-', 'd'], ['a'], ['b']].map .str) = some (.delete (.str ['a'])) ∧ request ([['-', 'n'], ['a'], ['b']].map .str) = some (.new (.str ['a'])) := by
  decide +kernel

/-- **C91 is false in the API.** `ws(name=x)` opens the workspace called `name`, whatever `x` is. -/
theorem C91_false_api_name (x : Arg) : request (Params.args { name := some x }) = some (.open_ (.str ['n', 'a', 'm', 'e'])) := by
  have : Params.args { name := some x } = [.str "name".toList] := rfl
  rw [this]
  decide +kernel

/-- `ws(exp=x, …)` and `ws(imp=x, …)` are refused: the flags are called `--export` and `--import`. -/
theorem C91_false_api_export (p : Params) (h : p.exp.isSome ∨ p.imp.isSome) : request p.args = none := by
  cases hr : request p.args with
  | none => rfl
  | some r =>
    exfalso
    unfold request at hr
    cases hp : decl.parse p.args [] with
    | none => rw [hp] at hr; cases hr
    | some op =>
      obtain ⟨uses, vals, ha, he, _⟩ := (parse_iff _ _).mp hp
      have key : ∀ s, s = "--exp".toList ∨ s = "--imp".toList → Arg.str s ∈ p.args → False := by
        intro s hs hm
        have hlook : LooksLikeFlag (Arg.str s) := by rcases hs with rfl | rfl <;> exact ⟨_, _, rfl⟩
        have hnot : ¬ decl.IsFlag (Arg.str s) := by
          intro h
          have := (findFlag_isSome decl _).mpr h
          rcases hs with rfl | rfl
          · exact absurd this (by decide +kernel)
          · exact absurd this (by decide +kernel)
        rw [he] at hm
        unfold arranged at hm
        rcases List.mem_append.mp hm with hm | hm
        · obtain ⟨u, hu, hx⟩ := List.mem_flatMap.mp hm
          have ho := ha.flagUses u hu
          rcases List.mem_cons.mp hx with hx | hx
          · exact hnot ⟨u.flag, ho.declared, by rw [hx]; exact ho.sym⟩
          · exact (ho.value _ (Option.mem_toList.mp hx)).2 hlook
        · obtain ⟨a, hav, hra⟩ := List.mem_map.mp hm
          have hl := (short ha).2
          rcases vals with _ | ⟨b, _ | ⟨c, vs⟩⟩
          · cases hav
          · rw [List.mem_singleton.mp hav] at hra
            exact ha.first b [] rfl (by simp [decl]) (by rw [hra]; exact hlook)
          · exact absurd hl (by rw [List.length_cons, List.length_cons]; omega)
      rcases h with h | h
      · obtain ⟨x, hx⟩ := Option.isSome_iff_exists.mp h
        refine key "--exp".toList (.inl rfl) ?_
        simp only [Params.args, Api.option, hx, List.mem_append]
        exact .inl (.inl (.inr List.mem_cons_self))
      · obtain ⟨x, hx⟩ := Option.isSome_iff_exists.mp h
        refine key "--imp".toList (.inr rfl) ?_
        simp only [Params.args, Api.option, hx, List.mem_append]
        exact .inl (.inr List.mem_cons_self)

end Marcel.WsOp
