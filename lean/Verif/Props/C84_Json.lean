import Verif.Model.Json
import Verif.Lemmas.Dict
/-! # C84: JSON -/

namespace Marcel.JsonUtil

/-! ## Specification -/

mutual
/-- The value of a JSON text: an array is a list, an object is a Struct with the same names, in the same order. -/
inductive Same : Json → Val → Prop
  | null : Same .null .none
  | bool (b : Bool) : Same (.bool b) (.bool b)
  | int (n : Int) : Same (.int n) (.int n)
  | float (r : Str) : Same (.float r) (.float r)
  | str (s : Str) : Same (.str s) (.str s)
  | arr (js : List Json) (vs : List Val) : SameList js vs → Same (.arr js) (.list vs)
  | obj (js : List (Str × Json)) (vs : List (Str × Val)) : SameFields js vs → Same (.obj js) (.struct vs)
inductive SameList : List Json → List Val → Prop
  | nil : SameList [] []
  | cons (j : Json) (v : Val) (js : List Json) (vs : List Val) : Same j v → SameList js vs → SameList (j :: js) (v :: vs)
inductive SameFields : List (Str × Json) → List (Str × Val) → Prop
  | nil : SameFields [] []
  | cons (k : Str) (j : Json) (v : Val) (js : List (Str × Json)) (vs : List (Str × Val)) : Same j v → SameFields js vs →
      SameFields ((k, j) :: js) ((k, v) :: vs)
end

mutual
/-- No object has a name twice. -/
inductive Distinct : Json → Prop
  | null : Distinct .null
  | bool (b : Bool) : Distinct (.bool b)
  | int (n : Int) : Distinct (.int n)
  | float (r : Str) : Distinct (.float r)
  | str (s : Str) : Distinct (.str s)
  | arr (js : List Json) : DistinctList js → Distinct (.arr js)
  | obj (js : List (Str × Json)) : (js.map (·.1)).Nodup → DistinctFields js → Distinct (.obj js)
inductive DistinctList : List Json → Prop
  | nil : DistinctList []
  | cons (j : Json) (js : List Json) : Distinct j → DistinctList js → DistinctList (j :: js)
inductive DistinctFields : List (Str × Json) → Prop
  | nil : DistinctFields []
  | cons (k : Str) (j : Json) (js : List (Str × Json)) : Distinct j → DistinctFields js → DistinctFields ((k, j) :: js)
end

/-- How a key of a dictionary is written: `dec` tells how integers are. -/
inductive Written (dec : Int → Str) : Key → Str → Prop
  | str (s : Str) : Written dec (.str s) s
  | int (n : Int) : Written dec (.int n) (dec n)
  | true : Written dec (.bool Bool.true) ['t', 'r', 'u', 'e']
  | false : Written dec (.bool Bool.false) ['f', 'a', 'l', 's', 'e']
  | none : Written dec .none ['n', 'u', 'l', 'l']

mutual
/-- What `v` becomes when it is written as JSON and read again: tuples become lists, dictionaries and objects become Structs.
Names of an object, and keys of a dictionary as they are written, are distinct. -/
inductive Becomes (dec : Int → Str) : Val → Val → Prop
  | none : Becomes dec .none .none
  | bool (b : Bool) : Becomes dec (.bool b) (.bool b)
  | int (n : Int) : Becomes dec (.int n) (.int n)
  | float (r : Str) : Becomes dec (.float r) (.float r)
  | str (s : Str) : Becomes dec (.str s) (.str s)
  | list (vs us : List Val) : BecomesList dec vs us → Becomes dec (.list vs) (.list us)
  | tuple (vs us : List Val) : BecomesList dec vs us → Becomes dec (.tuple vs) (.list us)
  | dict (vs : List (Key × Val)) (us : List (Str × Val)) : (us.map (·.1)).Nodup → BecomesEntries dec vs us → Becomes dec (.dict vs) (.struct us)
  | struct (vs us : List (Str × Val)) : (us.map (·.1)).Nodup → BecomesFields dec vs us → Becomes dec (.struct vs) (.struct us)
  | object (vs us : List (Str × Val)) : (us.map (·.1)).Nodup → BecomesFields dec vs us → Becomes dec (.object vs) (.struct us)
inductive BecomesList (dec : Int → Str) : List Val → List Val → Prop
  | nil : BecomesList dec [] []
  | cons (v u : Val) (vs us : List Val) : Becomes dec v u → BecomesList dec vs us → BecomesList dec (v :: vs) (u :: us)
inductive BecomesFields (dec : Int → Str) : List (Str × Val) → List (Str × Val) → Prop
  | nil : BecomesFields dec [] []
  | cons (k : Str) (v u : Val) (vs us : List (Str × Val)) : Becomes dec v u → BecomesFields dec vs us → BecomesFields dec ((k, v) :: vs) ((k, u) :: us)
inductive BecomesEntries (dec : Int → Str) : List (Key × Val) → List (Str × Val) → Prop
  | nil : BecomesEntries dec [] []
  | cons (k : Key) (n : Str) (v u : Val) (vs : List (Key × Val)) (us : List (Str × Val)) : Written dec k n → Becomes dec v u → BecomesEntries dec vs us →
      BecomesEntries dec ((k, v) :: vs) ((n, u) :: us)
end

/-- The values that are the same when they are read again. -/
def Plain (v : Val) : Prop := ∀ dec, Becomes dec v v

/-- What is assumed of Python's `json`: a tree that is printed is parsed to the same tree. -/
def Texts.Good (T : Texts) : Prop := ∀ j, T.parse (T.print j) = some j

/-- `v` contains something that JSON cannot express (not in an object that is inside ...: anywhere): no string, number etc. and without attributes, or a
key of a dictionary that is no string, number, boolean or None. -/
inductive Contains : Val → Prop
  | bare (n : Nat) : Contains (.bare n)
  | list (l : List Val) (v : Val) : v ∈ l → Contains v → Contains (.list l)
  | tuple (l : List Val) (v : Val) : v ∈ l → Contains v → Contains (.tuple l)
  | key (m : List (Key × Val)) (n : Nat) (v : Val) : (.other n, v) ∈ m → Contains (.dict m)
  | dict (m : List (Key × Val)) (k : Key) (v : Val) : (k, v) ∈ m → Contains v → Contains (.dict m)
  | struct (m : List (Str × Val)) (k : Str) (v : Val) : (k, v) ∈ m → Contains v → Contains (.struct m)
  | object (m : List (Str × Val)) (k : Str) (v : Val) : (k, v) ∈ m → Contains v → Contains (.object m)

/-! ## Proofs: decoding -/

mutual
/-- Values that come from the decoder: without dictionaries. -/
inductive Made : Val → Prop
  | none : Made .none
  | bool (b : Bool) : Made (.bool b)
  | int (n : Int) : Made (.int n)
  | float (r : Str) : Made (.float r)
  | str (s : Str) : Made (.str s)
  | list (l : List Val) : MadeList l → Made (.list l)
  | struct (m : List (Str × Val)) : Made (.struct m)
inductive MadeList : List Val → Prop
  | nil : MadeList []
  | cons (v : Val) (l : List Val) : Made v → MadeList l → MadeList (v :: l)
end

mutual
theorem dictToObject_made (v : Val) (h : Made v) : dictToObject v = v := by
  cases h with
  | list l hl => simp only [dictToObject, dictToObjectList_made l hl]
  | _ => rfl
theorem dictToObjectList_made (l : List Val) (h : MadeList l) : dictToObjectList l = l := by
  cases h with
  | nil => rfl
  | cons v l hv hl => simp only [dictToObjectList, dictToObject_made v hv, dictToObjectList_made l hl]
end

mutual
theorem decode_made (j : Json) : Made (decode j) := by
  cases j with
  | null => exact .none
  | bool b => exact .bool b
  | int n => exact .int n
  | float r => exact .float r
  | str s => exact .str s
  | arr l => exact .list _ (decodeList_made l)
  | obj m => exact .struct _
theorem decodeList_made (l : List Json) : MadeList (decodeList l) := by
  cases l with
  | nil => exact .nil
  | cons j l => exact .cons _ _ (decode_made j) (decodeList_made l)
end

/-- The fields of an object, decoded one by one. -/
def fields : List (Str × Json) → List (Str × Val)
  | [] => []
  | (k, j) :: m => (k, decode j) :: fields m

theorem fields_eq (m : List (Str × Json)) : fields m = m.map (fun kj => (kj.1, decode kj.2)) := by
  induction m with
  | nil => rfl
  | cons p m ih => rw [fields, ih]; rfl

def asKeys (m : List (Str × Val)) : List (Key × Val) := m.map (fun kv => (.str kv.1, kv.2))

theorem set_asKeys (d : List (Str × Val)) (k : Str) (v : Val) : Dict.set (asKeys d) (.str k) v = asKeys (Dict.set d k v) := by
  induction d with
  | nil => rfl
  | cons p d ih =>
    obtain ⟨k', v'⟩ := p
    show Dict.set ((Key.str k', v') :: asKeys d) (.str k) v = asKeys (Dict.set ((k', v') :: d) k v)
    unfold Dict.set
    by_cases h : k' = k
    · subst h; simp [asKeys]
    · rw [if_neg (by simp [h]), if_neg h, ih]; rfl

theorem update_asKeys (m d : List (Str × Val)) : Dict.update (asKeys d) (asKeys m) = asKeys (Dict.update d m) := by
  induction m generalizing d with
  | nil => rfl
  | cons p m ih =>
    show Dict.update (Dict.set (asKeys d) (.str p.1) p.2) (asKeys m) = _
    rw [set_asKeys, ih]; rfl

theorem decodeKV_eq (m : List (Str × Json)) : decodeKV m = asKeys (fields m) := by
  induction m with
  | nil => simp [decodeKV, fields, asKeys]
  | cons p m ih => obtain ⟨k, j⟩ := p; rw [decodeKV, ih]; rfl

theorem dictToObjectKV_asKeys (m : List (Str × Val)) (h : ∀ kv ∈ m, Made kv.2) : dictToObjectKV (asKeys m) = m := by
  induction m with
  | nil => rw [asKeys, List.map_nil, dictToObjectKV]
  | cons p m ih =>
    obtain ⟨k, v⟩ := p
    show dictToObjectKV ((.str k, v) :: asKeys m) = _
    rw [dictToObjectKV, ih (fun kv hk => h kv (List.mem_cons_of_mem _ hk)), dictToObject_made v (h (k, v) (by simp))]

theorem mem_set (d : List (Str × Val)) (k : Str) (v : Val) (kv : Str × Val) (h : kv ∈ Dict.set d k v) : kv ∈ d ∨ kv.2 = v := by
  induction d with
  | nil => simp [Dict.set] at h; right; rw [h]
  | cons p d ih =>
    unfold Dict.set at h
    split at h
    · rcases List.mem_cons.mp h with h | h
      · right; rw [h]
      · left; exact List.mem_cons_of_mem _ h
    · rcases List.mem_cons.mp h with h | h
      · left; rw [h]; simp
      · rcases ih h with h | h
        · left; exact List.mem_cons_of_mem _ h
        · right; exact h

theorem mem_update (m d : List (Str × Val)) (kv : Str × Val) (h : kv ∈ Dict.update d m) : kv ∈ d ∨ ∃ p ∈ m, kv.2 = p.2 := by
  induction m generalizing d with
  | nil => exact Or.inl h
  | cons p m ih =>
    have h' : kv ∈ Dict.update (Dict.set d p.1 p.2) m := h
    rcases ih _ h' with h | ⟨q, hq, e⟩
    · rcases mem_set _ _ _ _ h with h | h
      · exact Or.inl h
      · exact Or.inr ⟨p, by simp, h⟩
    · exact Or.inr ⟨q, List.mem_cons_of_mem _ hq, e⟩

theorem decode_obj (m : List (Str × Json)) : decode (.obj m) = .struct (Dict.update [] (fields m)) := by
  rw [decode, decodeKV_eq]
  show dictToObject (.dict (Dict.update (asKeys []) (asKeys (fields m)))) = _
  rw [update_asKeys, dictToObject, dictToObjectKV_asKeys]
  intro kv hkv
  rcases mem_update _ _ _ hkv with h | ⟨p, hp, e⟩
  · cases h
  · rw [fields_eq] at hp
    obtain ⟨q, _, rfl⟩ := List.mem_map.mp hp
    rw [e]; exact decode_made _

theorem set_fresh (d : List (Str × Val)) (k : Str) (v : Val) (h : k ∉ d.map (·.1)) : Dict.set d k v = d ++ [(k, v)] := by
  induction d with
  | nil => rfl
  | cons p d ih =>
    unfold Dict.set
    rw [if_neg (fun e => h (by simp [e])), ih (fun hm => h (by simp at hm ⊢; exact Or.inr hm))]; rfl

theorem update_fresh (m d : List (Str × Val)) (h : ((d ++ m).map (·.1)).Nodup) : Dict.update d m = d ++ m := by
  induction m generalizing d with
  | nil => simp [Dict.update]
  | cons p m ih =>
    show Dict.update (Dict.set d p.1 p.2) m = _
    have hp : p.1 ∉ d.map (·.1) := by
      rw [List.map_append, List.nodup_append] at h
      intro hm
      exact h.2.2 _ hm _ (by simp) rfl
    rw [set_fresh d p.1 p.2 hp, ih]
    · simp
    · simpa using h

theorem fields_keys (m : List (Str × Json)) : (fields m).map (·.1) = m.map (·.1) := by
  rw [fields_eq]; simp

mutual
theorem decode_same (j : Json) (h : Distinct j) : Same j (decode j) := by
  cases h with
  | null => exact .null
  | bool b => exact .bool b
  | int n => exact .int n
  | float r => exact .float r
  | str s => exact .str s
  | arr js hj => exact .arr _ _ (decodeList_same js hj)
  | obj js hn hj =>
    rw [decode_obj, update_fresh _ [] (by simpa [fields_keys] using hn)]
    exact .obj _ _ (fields_same js hj)
theorem decodeList_same (js : List Json) (h : DistinctList js) : SameList js (decodeList js) := by
  cases h with
  | nil => exact .nil
  | cons j js hj hs => exact .cons _ _ _ _ (decode_same j hj) (decodeList_same js hs)
theorem fields_same (js : List (Str × Json)) (h : DistinctFields js) : SameFields js (fields js) := by
  cases h with
  | nil => exact .nil
  | cons k j js hj hs => exact .cons _ _ _ _ _ (decode_same j hj) (fields_same js hs)
end

/-- **C84.** What is parsed has the structure of the JSON text: arrays are lists, objects are Structs with the same names in the same order. -/
theorem C84_parse (T : Texts) (t : Str) (j : Json) (hp : T.parse t = some j) (hd : Distinct j) :
    ∃ v, jsonParse T t = some v ∧ Same j v := by
  refine ⟨decode j, ?_, decode_same j hd⟩
  unfold jsonParse; rw [hp]; rfl

theorem get?_update (m d : List (Str × Val)) (k : Str) :
    Dict.get? (Dict.update d m) k = match (m.filter (fun p => p.1 = k)).getLast? with
      | some p => some p.2
      | none => Dict.get? d k := by
  induction m generalizing d with
  | nil => rfl
  | cons p m ih =>
    show Dict.get? (Dict.update (Dict.set d p.1 p.2) m) k = _
    rw [ih]
    by_cases hk : p.1 = k
    · rw [List.filter_cons_of_pos (by simp [hk])]
      cases hm : m.filter (fun p => p.1 = k) with
      | nil => simp [Dict.get?_set, hk]
      | cons q r =>
        obtain ⟨z, hz⟩ : ∃ z, (q :: r).getLast? = some z := ⟨_, List.getLast?_eq_some_getLast (by simp)⟩
        rw [List.getLast?_cons_cons, hz]
    · rw [List.filter_cons_of_neg (by simp [hk])]
      cases (m.filter (fun p => p.1 = k)).getLast? with
      | some q => rfl
      | none => simp [Dict.get?_set, hk]

theorem getLast?_split {α} (p : α → Bool) (l : List α) (x : α) : (l.filter p).getLast? = some x ↔
    ∃ a b, l = a ++ x :: b ∧ p x = true ∧ ∀ y ∈ b, p y = false := by
  constructor
  · intro h
    induction l with
    | nil => cases h
    | cons y l ih =>
      cases hf : l.filter p with
      | nil =>
        rw [List.filter_cons] at h
        split at h
        · rename_i hy
          rw [hf] at h
          cases h
          refine ⟨[], l, rfl, hy, fun z hz => ?_⟩
          have := List.filter_eq_nil_iff.mp hf z hz
          simpa using this
        · rw [hf] at h; cases h
      | cons z r =>
        have h2 : (l.filter p).getLast? = some x := by
          rw [List.filter_cons] at h
          split at h
          · rw [hf, List.getLast?_cons_cons] at h; rw [hf]; exact h
          · exact h
        obtain ⟨a, b, rfl, hx, hb⟩ := ih h2
        exact ⟨y :: a, b, rfl, hx, hb⟩
  · rintro ⟨a, b, rfl, hx, hb⟩
    have : b.filter p = [] := List.filter_eq_nil_iff.mpr (fun y hy => by simp [hb y hy])
    simp [hx, this]

/-- **C84.** If a name occurs more than once in an object, the last value counts. -/
theorem C84_last (T : Texts) (hT : T.Good) (t : Str) (m : List (Str × Json)) (hp : T.parse t = some (.obj m)) :
    ∃ attrs, jsonParse T t = some (.struct attrs) ∧ (attrs.map (·.1)).Nodup ∧ ∀ k v, structGet attrs k = some v ↔
      ∃ before j after, m = before ++ (k, j) :: after ∧ (∀ p ∈ after, p.1 ≠ k) ∧ jsonParse T (T.print j) = some v := by
  have hpr : ∀ j, jsonParse T (T.print j) = some (decode j) := fun j => by unfold jsonParse; rw [hT]; rfl
  refine ⟨_, by unfold jsonParse; rw [hp]; show some (decode _) = _; rw [decode_obj], ?_, ?_⟩
  · have : ∀ (m d : List (Str × Val)), (d.map (·.1)).Nodup → ((Dict.update d m).map (·.1)).Nodup := by
      intro m
      induction m with
      | nil => intro d h; exact h
      | cons p m ih => intro d h; exact ih _ (Dict.nodup_keys_set d _ _ h)
    exact this _ [] List.nodup_nil
  · intro k v
    unfold structGet
    rw [get?_update, fields_eq, List.filter_map]
    constructor
    · intro h
      cases hl : (m.filter ((fun p : Str × Val => decide (p.1 = k)) ∘ fun kj : Str × Json => (kj.1, decode kj.2))).getLast? with
      | none => rw [List.getLast?_map, hl] at h; cases h
      | some q =>
        rw [List.getLast?_map, hl] at h
        simp only [Option.map_some, Option.some.injEq] at h
        obtain ⟨a, b, hm, hx, hb⟩ := (getLast?_split _ _ _).mp hl
        simp only [Function.comp, decide_eq_true_eq] at hx
        refine ⟨a, q.2, b, by rw [hm, ← hx], ?_, by rw [hpr, h]⟩
        intro p hpb
        have := hb p hpb
        simpa using this
    · rintro ⟨a, j, b, rfl, hb, hv⟩
      rw [hpr] at hv
      cases hv
      rw [List.getLast?_map, (getLast?_split _ _ (k, j)).mpr ⟨a, b, rfl, by simp, fun y hy => by simp [hb y hy]⟩]
      rfl

/-! ## Proofs: encoding -/

mutual
/-- `encodeDefault` is what the code does: encoding the result of `object_to_dict`. -/
theorem encodeDefault_eq (dec : Int → Str) (v : Val) : encodeDefault dec v = encode dec (objectToDict v) := by
  cases v with
  | struct m => simp only [encodeDefault, objectToDict, encode, encodeAttrs_eq]
  | object m => simp only [encodeDefault, objectToDict, encode, encodeAttrs_eq]
  | _ => simp only [encodeDefault, objectToDict, encode]
theorem encodeAttrs_eq (dec : Int → Str) (m : List (Str × Val)) : encodeAttrs dec m = encodeDict dec (objectToDictKV m) := by
  cases m with
  | nil => simp only [encodeAttrs, objectToDictKV, encodeDict]
  | cons p m =>
    obtain ⟨k, v⟩ := p
    simp only [encodeAttrs, objectToDictKV, encodeDict, encodeDefault_eq dec v, encodeAttrs_eq dec m, keyText]
    cases encode dec (objectToDict v) <;> cases encodeDict dec (objectToDictKV m) <;> rfl
end

theorem encodeDefault_encode (dec : Int → Str) (v : Val) : encodeDefault dec v = encode dec v := by
  cases v <;> simp only [encodeDefault, encode]

mutual
theorem encode_becomes (dec : Int → Str) (v u : Val) (h : Becomes dec v u) : ∃ j, encode dec v = some j ∧ decode j = u := by
  cases h with
  | none => exact ⟨.null, by simp only [encode], rfl⟩
  | bool b => exact ⟨.bool b, by simp only [encode], rfl⟩
  | int n => exact ⟨.int n, by simp only [encode], rfl⟩
  | float r => exact ⟨.float r, by simp only [encode], rfl⟩
  | str s => exact ⟨.str s, by simp only [encode], rfl⟩
  | list vs us h =>
    obtain ⟨js, h1, h2⟩ := encodeList_becomes dec vs us h
    exact ⟨.arr js, by simp only [encode, h1, Option.map_some], by rw [decode, h2]⟩
  | tuple vs us h =>
    obtain ⟨js, h1, h2⟩ := encodeList_becomes dec vs us h
    exact ⟨.arr js, by simp only [encode, h1, Option.map_some], by rw [decode, h2]⟩
  | dict vs us hn h =>
    obtain ⟨js, h1, h2⟩ := encodeDict_becomes dec vs us h
    refine ⟨.obj js, by simp only [encode, h1, Option.map_some], ?_⟩
    rw [decode_obj, h2, update_fresh _ [] (by simpa using hn)]; rfl
  | struct vs us hn h =>
    obtain ⟨js, h1, h2⟩ := encodeAttrs_becomes dec vs us h
    refine ⟨.obj js, by simp only [encode, h1, Option.map_some], ?_⟩
    rw [decode_obj, h2, update_fresh _ [] (by simpa using hn)]; rfl
  | object vs us hn h =>
    obtain ⟨js, h1, h2⟩ := encodeAttrs_becomes dec vs us h
    refine ⟨.obj js, by simp only [encode, h1, Option.map_some], ?_⟩
    rw [decode_obj, h2, update_fresh _ [] (by simpa using hn)]; rfl
theorem encodeList_becomes (dec : Int → Str) (vs us : List Val) (h : BecomesList dec vs us) : ∃ js, encodeList dec vs = some js ∧ decodeList js = us := by
  cases h with
  | nil => exact ⟨[], by simp only [encodeList], rfl⟩
  | cons v u vs us hv hs =>
    obtain ⟨j, h1, h2⟩ := encode_becomes dec v u hv
    obtain ⟨js, h3, h4⟩ := encodeList_becomes dec vs us hs
    exact ⟨j :: js, by simp only [encodeList, h1, h3], by rw [decodeList, h2, h4]⟩
theorem encodeAttrs_becomes (dec : Int → Str) (vs us : List (Str × Val)) (h : BecomesFields dec vs us) : ∃ js, encodeAttrs dec vs = some js ∧ fields js = us := by
  cases h with
  | nil => exact ⟨[], by simp only [encodeAttrs], rfl⟩
  | cons k v u vs us hv hs =>
    obtain ⟨j, h1, h2⟩ := encode_becomes dec v u hv
    obtain ⟨js, h3, h4⟩ := encodeAttrs_becomes dec vs us hs
    exact ⟨(k, j) :: js, by simp only [encodeAttrs, encodeDefault_encode, h1, h3], by rw [fields, h2, h4]⟩
theorem encodeDict_becomes (dec : Int → Str) (vs : List (Key × Val)) (us : List (Str × Val)) (h : BecomesEntries dec vs us) : ∃ js, encodeDict dec vs = some js ∧ fields js = us := by
  cases h with
  | nil => exact ⟨[], by simp only [encodeDict], rfl⟩
  | cons k n v u vs us hk hv hs =>
    obtain ⟨j, h1, h2⟩ := encode_becomes dec v u hv
    obtain ⟨js, h3, h4⟩ := encodeDict_becomes dec vs us hs
    have hkt : keyText dec k = some n := by cases hk <;> rfl
    exact ⟨(n, j) :: js, by simp only [encodeDict, hkt, h1, h3], by rw [fields, h2, h4]⟩
end

/-- **C84.** What is written by `json_format` is read by `json_parse` as what it becomes in JSON; in particular values made of None, booleans, numbers,
strings, lists and Structs are read as they were. -/
theorem C84_roundtrip (T : Texts) (hT : T.Good) (v u : Val) (h : Becomes T.dec v u) :
    ∃ t, jsonFormat T v = some t ∧ jsonParse T t = some u := by
  obtain ⟨j, h1, h2⟩ := encode_becomes T.dec v u h
  refine ⟨T.print j, ?_, ?_⟩
  · unfold jsonFormat; rw [h1]; rfl
  · unfold jsonParse; rw [hT, ← h2]; rfl

theorem C84_roundtrip_plain (T : Texts) (hT : T.Good) (v : Val) (h : Plain v) : ∃ t, jsonFormat T v = some t ∧ jsonParse T t = some v :=
  C84_roundtrip T hT v v (h T.dec)

mutual
theorem same_encode (dec : Int → Str) (j : Json) (v : Val) (h : Same j v) : encode dec v = some j := by
  cases h with
  | arr js vs h => simp only [encode, sameList_encode dec js vs h, Option.map_some]
  | obj js vs h => simp only [encode, sameFields_encode dec js vs h, Option.map_some]
  | _ => simp only [encode]
theorem sameList_encode (dec : Int → Str) (js : List Json) (vs : List Val) (h : SameList js vs) : encodeList dec vs = some js := by
  cases h with
  | nil => simp only [encodeList]
  | cons j v js vs h1 h2 => simp only [encodeList, same_encode dec j v h1, sameList_encode dec js vs h2]
theorem sameFields_encode (dec : Int → Str) (js : List (Str × Json)) (vs : List (Str × Val)) (h : SameFields js vs) : encodeAttrs dec vs = some js := by
  cases h with
  | nil => simp only [encodeAttrs]
  | cons k j v js vs h1 h2 => simp only [encodeAttrs, encodeDefault_encode, same_encode dec j v h1, sameFields_encode dec js vs h2]
end

/-- **C84.** What is read by `json_parse` is written by `json_format` as the same JSON. -/
theorem C84_format (T : Texts) (hT : T.Good) (t : Str) (j : Json) (hp : T.parse t = some j) (hd : Distinct j) :
    ∃ v t', jsonParse T t = some v ∧ jsonFormat T v = some t' ∧ T.parse t' = some j := by
  obtain ⟨v, h1, h2⟩ := C84_parse T t j hp hd
  refine ⟨v, T.print j, h1, ?_, hT j⟩
  unfold jsonFormat
  rw [same_encode T.dec j v h2]; rfl

mutual
theorem encode_none (dec : Int → Str) (v : Val) : encode dec v = none ↔ Contains v := by
  cases v with
  | list l =>
    simp only [encode, Option.map_eq_none_iff, encodeList_none dec l]
    exact ⟨fun ⟨v, h1, h2⟩ => .list l v h1 h2, fun h => by cases h with | list _ v h1 h2 => exact ⟨v, h1, h2⟩⟩
  | tuple l =>
    simp only [encode, Option.map_eq_none_iff, encodeList_none dec l]
    exact ⟨fun ⟨v, h1, h2⟩ => .tuple l v h1 h2, fun h => by cases h with | tuple _ v h1 h2 => exact ⟨v, h1, h2⟩⟩
  | dict m =>
    simp only [encode, Option.map_eq_none_iff, encodeDict_none dec m]
    constructor
    · rintro ⟨k, v, h1, ⟨n, rfl⟩ | h2⟩
      · exact .key m n v h1
      · exact .dict m k v h1 h2
    · intro h
      cases h with
      | key _ n v h1 => exact ⟨_, v, h1, .inl ⟨n, rfl⟩⟩
      | dict _ k v h1 h2 => exact ⟨k, v, h1, .inr h2⟩
  | struct m =>
    simp only [encode, Option.map_eq_none_iff, encodeAttrs_none dec m]
    exact ⟨fun ⟨k, v, h1, h2⟩ => .struct m k v h1 h2, fun h => by cases h with | struct _ k v h1 h2 => exact ⟨k, v, h1, h2⟩⟩
  | object m =>
    simp only [encode, Option.map_eq_none_iff, encodeAttrs_none dec m]
    exact ⟨fun ⟨k, v, h1, h2⟩ => .object m k v h1 h2, fun h => by cases h with | object _ k v h1 h2 => exact ⟨k, v, h1, h2⟩⟩
  | bare n => simp only [encode]; exact ⟨fun _ => .bare n, fun _ => True.intro⟩
  | _ => simp only [encode]; exact ⟨(fun h => by cases h), (fun h => by cases h)⟩
theorem encodeList_none (dec : Int → Str) (l : List Val) : encodeList dec l = none ↔ ∃ v, v ∈ l ∧ Contains v := by
  cases l with
  | nil => simp [encodeList]
  | cons v l =>
    have h1 := encode_none dec v
    have h2 := encodeList_none dec l
    simp only [encodeList]
    cases he : encode dec v with
    | none => rw [he] at h1; simp only [true_iff]; exact ⟨v, by simp, h1.mp rfl⟩
    | some j =>
      rw [he] at h1
      have hv : ¬ Contains v := fun h => by cases h1.mpr h
      cases hl : encodeList dec l with
      | none => rw [hl] at h2; obtain ⟨u, h3, h4⟩ := h2.mp rfl; simp only [true_iff]; exact ⟨u, List.mem_cons_of_mem _ h3, h4⟩
      | some js =>
        rw [hl] at h2
        constructor
        · intro h; cases h
        · rintro ⟨u, h3, h4⟩
          rcases List.mem_cons.mp h3 with rfl | h3
          · exact absurd h4 hv
          · exact absurd (h2.mpr ⟨u, h3, h4⟩) (by simp)
theorem encodeAttrs_none (dec : Int → Str) (m : List (Str × Val)) : encodeAttrs dec m = none ↔ ∃ k v, (k, v) ∈ m ∧ Contains v := by
  cases m with
  | nil => simp [encodeAttrs]
  | cons p m =>
    obtain ⟨k, v⟩ := p
    have h1 := encode_none dec v
    have h2 := encodeAttrs_none dec m
    simp only [encodeAttrs, encodeDefault_encode]
    cases he : encode dec v with
    | none => rw [he] at h1; simp only [true_iff]; exact ⟨k, v, by simp, h1.mp rfl⟩
    | some j =>
      rw [he] at h1
      have hv : ¬ Contains v := fun h => by cases h1.mpr h
      cases hl : encodeAttrs dec m with
      | none => rw [hl] at h2; obtain ⟨k', u, h3, h4⟩ := h2.mp rfl; simp only [true_iff]; exact ⟨k', u, List.mem_cons_of_mem _ h3, h4⟩
      | some js =>
        rw [hl] at h2
        constructor
        · intro h; cases h
        · rintro ⟨k', u, h3, h4⟩
          rcases List.mem_cons.mp h3 with h3 | h3
          · cases h3; exact absurd h4 hv
          · exact absurd (h2.mpr ⟨k', u, h3, h4⟩) (by simp)
theorem encodeDict_none (dec : Int → Str) (m : List (Key × Val)) :
    encodeDict dec m = none ↔ ∃ k v, (k, v) ∈ m ∧ ((∃ n, k = .other n) ∨ Contains v) := by
  cases m with
  | nil => simp [encodeDict]
  | cons p m =>
    obtain ⟨k, v⟩ := p
    have h1 := encode_none dec v
    have h2 := encodeDict_none dec m
    simp only [encodeDict]
    cases hk : keyText dec k with
    | none =>
      have : ∃ n, k = .other n := by
        cases k with
        | other n => exact ⟨n, rfl⟩
        | bool b => cases b <;> cases hk
        | _ => cases hk
      simp only [true_iff]
      exact ⟨k, v, by simp, .inl this⟩
    | some tk =>
      have hko : ¬ ∃ n, k = .other n := by rintro ⟨n, rfl⟩; cases hk
      cases he : encode dec v with
      | none => rw [he] at h1; simp only [true_iff]; exact ⟨k, v, by simp, .inr (h1.mp rfl)⟩
      | some j =>
        rw [he] at h1
        have hv : ¬ Contains v := fun h => by cases h1.mpr h
        cases hl : encodeDict dec m with
        | none => rw [hl] at h2; obtain ⟨k', u, h3, h4⟩ := h2.mp rfl; simp only [true_iff]; exact ⟨k', u, List.mem_cons_of_mem _ h3, h4⟩
        | some js =>
          rw [hl] at h2
          constructor
          · intro h; cases h
          · rintro ⟨k', u, h3, h4⟩
            rcases List.mem_cons.mp h3 with h3 | h3
            · cases h3
              rcases h4 with h4 | h4
              · exact absurd h4 hko
              · exact absurd h4 hv
            · exact absurd (h2.mpr ⟨k', u, h3, h4⟩) (by simp)
end

/-- **C84.** `json_format` fails exactly for values which contain something that JSON cannot express. -/
theorem C84_refused (T : Texts) (v : Val) : jsonFormat T v = none ↔ Contains v := by
  unfold jsonFormat
  rw [Option.map_eq_none_iff, encode_none]

/-- **C84.** `expand` of a JSON object gives its names and values, unless it has a field called `items`. -/
theorem C84_expand (m : List (Str × Val)) (h : ∀ p ∈ m, p.1 ≠ "items".toList) :
    structItems m = some (m.map fun kv => .tuple [.str kv.1, kv.2]) := by
  unfold structItems
  have : Dict.get? m "items".toList = none := by
    rw [Dict.get?_eq_none_iff]
    intro hm
    obtain ⟨p, hp, e⟩ := List.mem_map.mp hm
    exact h p hp e
  rw [this]

/-- **C84 is false for objects with a field called `items`**: they cannot be expanded. -/
theorem C84_false_items (v : Val) : structItems [("items".toList, v)] = none := rfl

/-- **C84 is false for tuples, dictionaries and objects**: they are not the same when they are read again. A dictionary with the keys 1 and
"1" loses an entry. -/
theorem C84_false_kind (T : Texts) (hT : T.Good) (hdec : T.dec 1 = "1".toList) :
    (jsonFormat T (.tuple [.int 1])).bind (jsonParse T) = some (.list [.int 1]) ∧
    (jsonFormat T (.object [("a".toList, .int 1)])).bind (jsonParse T) = some (.struct [("a".toList, .int 1)]) ∧
    (jsonFormat T (.dict [(.int 1, .int 2), (.str "1".toList, .int 3)])).bind (jsonParse T) = some (.struct [("1".toList, .int 3)]) := by
  refine ⟨?_, ?_, ?_⟩
  · have : jsonFormat T (.tuple [.int 1]) = some (T.print (.arr [.int 1])) := rfl
    rw [this, Option.bind_some, jsonParse, hT]; rfl
  · have : jsonFormat T (.object [("a".toList, .int 1)]) = some (T.print (.obj [("a".toList, .int 1)])) := rfl
    rw [this, Option.bind_some, jsonParse, hT]; rfl
  · have : jsonFormat T (.dict [(.int 1, .int 2), (.str "1".toList, .int 3)]) = some (T.print (.obj [("1".toList, .int 2), ("1".toList, .int 3)])) := by
      unfold jsonFormat
      simp [encode, encodeDict, keyText, hdec]
    rw [this, Option.bind_some, jsonParse, hT, Option.map_some, decode_obj]
    simp [fields, Dict.update, Dict.set, decode]

/-! ## Example -/

/-- Non-vacuity: `[{"a": 1, "b": [null]}, "x"]`. -/
def exVal : Val := .list [.struct [("a".toList, .int 1), ("b".toList, .list [.none])], .str "x".toList]

theorem C84_example : Plain exVal ∧ ¬ Contains exVal := by
  have h : Plain exVal := fun _ => .list _ _ (.cons _ _ _ _ (.struct _ _ (by decide) (.cons _ _ _ _ _ (.int 1) (.cons _ _ _ _ _ (.list _ _ (.cons _ _ _ _ .none .nil)) .nil)))
    (.cons _ _ _ _ (.str _) .nil))
  refine ⟨h, fun hc => ?_⟩
  obtain ⟨j, h1, _⟩ := encode_becomes (fun _ => []) _ _ (h _)
  rw [(encode_none (fun _ => []) exVal).mpr hc] at h1
  cases h1

end Marcel.JsonUtil
