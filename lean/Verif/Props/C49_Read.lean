import Verif.Model.Read
/-! # C49: `read` emits every line and every record -/

namespace Marcel.Read

/-! ## Specification -/

/-- No line end. -/
def Plain (t : Text) : Prop := '\n' ∉ t ∧ '\r' ∉ t

/-- `ls` are the lines of the text; a line ends with `\n`, `\r\n` or `\r`, the last one may have no line end. -/
inductive IsLines : Text → List Text → Prop
  | nil : IsLines [] []
  | last {l : Text} : Plain l → l ≠ [] → IsLines l [l]
  | lf {l t : Text} {ls : List Text} : Plain l → IsLines t ls → IsLines (l ++ '\n' :: t) (l :: ls)
  | crlf {l t : Text} {ls : List Text} : Plain l → IsLines t ls → IsLines (l ++ '\r' :: '\n' :: t) (l :: ls)
  | cr {l t : Text} {ls : List Text} : Plain l → t.head? ≠ some '\n' → IsLines t ls → IsLines (l ++ '\r' :: t) (l :: ls)

/-- How a field can be written: as it is, or between quotes, with the quotes in it doubled. -/
inductive EncField (d : Char) : Text → Text → Prop
  | plain {f : Text} : d ∉ f → f.head? ≠ some '"' → EncField d f f
  | quoted {f : Text} : EncField d ('"' :: (double f ++ ['"'])) f

/-- `line` is the record `fields`, with delimiter `d`. -/
inductive Encodes (d : Char) : Text → List Text → Prop
  | one {e f : Text} : EncField d e f → Encodes d e [f]
  | cons {e f r : Text} {fs : List Text} : EncField d e f → Encodes d r fs → Encodes d (e ++ d :: r) (f :: fs)

/-! ## Lines -/

theorem univ_plain {l t : Text} (h : '\r' ∉ l) : univ (l ++ t) = l ++ univ t := by
  induction l with
  | nil => rfl
  | cons c l ih =>
    rw [List.mem_cons, not_or] at h
    simp only [List.cons_append]
    rw [univ.eq_def]
    split
    · rename_i e; cases e
    · rename_i e; simp only [List.cons.injEq] at e; exact absurd e.1.symm h.1
    · rename_i _ e; simp only [List.cons.injEq] at e; exact absurd e.1.symm h.1
    · rename_i e; simp only [List.cons.injEq] at e; rw [← e.1, ← e.2, ih h.2]

theorem univ_lf (t : Text) : univ ('\n' :: t) = '\n' :: univ t := by
  rw [univ.eq_def]
  split
  · rename_i e; cases e
  · rename_i e; simp at e
  · rename_i e; exfalso; revert e; simp
  · rename_i e; simp only [List.cons.injEq] at e; rw [← e.1, ← e.2]

theorem univ_cr (t : Text) (h : t.head? ≠ some '\n') : univ ('\r' :: t) = '\n' :: univ t := by
  rw [univ.eq_def]
  split
  · rename_i e; cases e
  · rename_i e; simp only [List.cons.injEq, true_and] at e; rw [e] at h; simp at h
  · rename_i e; simp only [List.cons.injEq, true_and] at e; rw [← e]
  · rename_i h1 h2 e; simp only [List.cons.injEq] at e; exact absurd e.1.symm (h2)

theorem lines_lf {l t : Text} (h : '\n' ∉ l) : lines (l ++ '\n' :: t) = (l ++ ['\n']) :: lines t := by
  induction l with
  | nil => simp [lines]
  | cons c l ih =>
    rw [List.mem_cons, not_or] at h
    simp only [List.cons_append, lines]
    rw [if_neg (fun e => h.1 e.symm), ih h.2]

theorem lines_last {l : Text} (h : '\n' ∉ l) (hne : l ≠ []) : lines l = [l] := by
  induction l with
  | nil => exact absurd rfl hne
  | cons c l ih =>
    rw [List.mem_cons, not_or] at h
    simp only [lines]
    rw [if_neg (fun e => h.1 e.symm)]
    cases l with
    | nil => simp [lines]
    | cons d l => rw [ih h.2 (by simp)]

theorem rstrip_plain {l : Text} (h : Plain l) : rstrip l = l := by
  unfold rstrip
  cases hr : l.reverse with
  | nil => simp at hr; simp [hr]
  | cons c r =>
    have hc : c ∈ l := by rw [← List.mem_reverse, hr]; simp
    have h1 : c ≠ '\n' := fun e => h.1 (e ▸ hc)
    have h2 : c ≠ '\r' := fun e => h.2 (e ▸ hc)
    rw [List.dropWhile_cons_of_neg (by simp [h1, h2]), ← hr, List.reverse_reverse]

theorem rstrip_lf {l : Text} (h : Plain l) : rstrip (l ++ ['\n']) = l := by
  have := rstrip_plain h
  unfold rstrip at this ⊢
  rw [List.reverse_append]
  simpa using this

theorem fileLines_cons {l t t' : Text} (h : Plain l) (ht : univ t' = '\n' :: univ t) : fileLines (l ++ t') = l :: fileLines t := by
  unfold fileLines
  rw [univ_plain h.2, ht, lines_lf h.1, List.map_cons, rstrip_lf h]

theorem fileLines_eq {t : Text} {ls : List Text} (h : IsLines t ls) : fileLines t = ls := by
  induction h with
  | nil => rfl
  | @last l hp hne =>
    unfold fileLines
    have := univ_plain (t := []) hp.2
    simp only [List.append_nil, univ] at this
    rw [this, lines_last hp.1 hne, List.map_cons, rstrip_plain hp]; rfl
  | lf hp _ ih => rw [fileLines_cons hp (univ_lf _), ih]
  | @crlf l t ls hp _ ih => rw [fileLines_cons (t := t) hp (by rw [univ]), ih]
  | cr hp hne _ ih => rw [fileLines_cons hp (univ_cr _ hne), ih]

theorem exists_isLines (n : Nat) : ∀ t : Text, t.length ≤ n → ∃ ls, IsLines t ls := by
  induction n with
  | zero => intro t ht; rw [List.eq_nil_of_length_eq_zero (by omega : t.length = 0)]; exact ⟨_, .nil⟩
  | succ n ih =>
    intro t ht
    have hsplit : t = t.takeWhile (fun c => c ≠ '\n' && c ≠ '\r') ++ t.dropWhile (fun c => c ≠ '\n' && c ≠ '\r') :=
      (List.takeWhile_append_dropWhile).symm
    have hpl : Plain (t.takeWhile (fun c => c ≠ '\n' && c ≠ '\r')) := by
      constructor <;> intro hc <;> have := List.all_takeWhile (l := t) (p := fun c => c ≠ '\n' && c ≠ '\r') <;>
        rw [List.all_eq_true] at this <;> have := this _ hc <;> simp at this
    cases hd : t.dropWhile (fun c => c ≠ '\n' && c ≠ '\r') with
    | nil =>
      rw [hd, List.append_nil] at hsplit
      by_cases hne : t = []
      · rw [hne]; exact ⟨_, .nil⟩
      · exact ⟨_, .last (hsplit ▸ hpl) hne⟩
    | cons c r =>
      have hlen : r.length < t.length := by
        rw [hsplit, hd]; simp; omega
      have hc : c = '\n' ∨ c = '\r' := by
        have := List.head?_dropWhile_not (fun c => c ≠ '\n' && c ≠ '\r') t
        rw [hd] at this
        simp at this
        by_cases h : c = '\n'
        · exact .inl h
        · exact .inr (this h)
      rw [hsplit, hd]
      rcases hc with rfl | rfl
      · obtain ⟨ls, h⟩ := ih r (by omega)
        exact ⟨_, .lf hpl h⟩
      · cases r with
        | nil => exact ⟨_, .cr hpl (by simp) .nil⟩
        | cons x r =>
          by_cases hx : x = '\n'
          · subst hx
            obtain ⟨ls, h⟩ := ih r (by simp at hlen; omega)
            exact ⟨_, .crlf hpl h⟩
          · obtain ⟨ls, h⟩ := ih (x :: r) (by omega)
            exact ⟨_, .cr hpl (by simpa using hx) h⟩

/-- **C49**. Every text has exactly one list of lines, and these are the lines `read` works with. -/
theorem C49_lines (t : Text) (ls : List Text) : IsLines t ls ↔ fileLines t = ls := by
  constructor
  · exact fileLines_eq
  · rintro rfl
    obtain ⟨ls, h⟩ := exists_isLines t.length t (Nat.le_refl _)
    rw [fileLines_eq h]
    exact h

/-- **C49**. `read` of text files sends every line of every file, in order, without the line end, together with the file if requested. -/
theorem C49_text {F : Type} (label : Bool) (files : List (F × Text)) (ls : List (List Text))
    (h : ls.length = files.length) (hl : ∀ i (hi : i < files.length), IsLines (files[i]).2 (ls[i])) :
    readTextAll label files = (List.zip (files.map (·.1)) ls).flatMap fun x =>
      x.2.map fun l => if label then Out.tuple none [.file x.1, .text l] else Out.str l := by
  unfold readTextAll
  induction files generalizing ls with
  | nil => cases ls <;> simp at h ⊢
  | cons f fs ih =>
    cases ls with
    | nil => simp at h
    | cons l ls =>
      simp only [List.flatMap_cons, List.map_cons, List.zip_cons_cons]
      rw [ih ls (by simpa using h) (fun i hi => by have := hl (i + 1) (by simp; omega); simpa using this)]
      have := hl 0 (by simp)
      simp only [List.getElem_cons_zero] at this
      unfold readText
      rw [fileLines_eq this]

/-! ## CSV -/

/-- The rest of the line after a field: nothing, or the delimiter and more. -/
def csvRest (d : Char) : Text → List Text
  | [] => []
  | _ :: r => csvFrom d .startField [] r

theorem csv_inField (d : Char) (f acc rest : Text) (hf : d ∉ f) (hr : rest = [] ∨ ∃ r, rest = d :: r) :
    csvFrom d .inField acc (f ++ rest) = (acc.reverse ++ f) :: csvRest d rest := by
  induction f generalizing acc with
  | nil =>
    rcases hr with rfl | ⟨r, rfl⟩
    · simp [csvFrom, csvRest]
    · simp [csvFrom, csvRest]
  | cons c f ih =>
    rw [List.mem_cons, not_or] at hf
    simp only [List.cons_append, csvFrom]
    rw [if_neg (fun e => hf.1 e.symm), ih _ hf.2]
    simp

theorem csv_inQuoted (d : Char) (hd : d ≠ '"') (f acc rest : Text) (hr : rest = [] ∨ ∃ r, rest = d :: r) :
    csvFrom d .inQuoted acc (double f ++ '"' :: rest) = (acc.reverse ++ f) :: csvRest d rest := by
  induction f generalizing acc with
  | nil =>
    rcases hr with rfl | ⟨r, rfl⟩
    · simp [double, csvFrom, csvRest]
    · simp [double, csvFrom, csvRest, hd]
  | cons c f ih =>
    by_cases hc : c = '"'
    · subst hc
      simp only [double, if_true, List.cons_append, csvFrom]
      rw [ih]
      simp
    · simp only [double, if_neg hc, List.cons_append, csvFrom]
      rw [ih]
      simp

theorem csv_field (d : Char) (hd : d ≠ '"') {e f : Text} (h : EncField d e f) (rest : Text) (hr : rest = [] ∨ ∃ r, rest = d :: r) :
    csvFrom d .startField [] (e ++ rest) = f :: csvRest d rest := by
  cases h with
  | quoted =>
    simp only [List.cons_append, csvFrom, if_true, List.append_assoc, List.nil_append]
    rw [csv_inQuoted d hd f [] rest hr]; rfl
  | plain h1 h2 =>
    cases e with
    | nil =>
      rcases hr with rfl | ⟨r, rfl⟩
      · simp [csvFrom, csvRest]
      · simp [csvFrom, csvRest, hd]
    | cons c e =>
      rw [List.mem_cons, not_or] at h1
      simp only [List.cons_append, csvFrom]
      rw [if_neg (by intro e; subst e; simp at h2), if_neg (fun e => h1.1 e.symm), csv_inField d e [c] rest h1.2 hr]
      simp

theorem csvFrom_eq (d : Char) (hd : d ≠ '"') {line : Text} {fs : List Text} (h : Encodes d line fs) :
    csvFrom d .startField [] line = fs := by
  induction h with
  | one he =>
    have := csv_field d hd he [] (.inl rfl)
    simpa [csvRest] using this
  | cons he _ ih => rw [csv_field d hd he _ (.inr ⟨_, rfl⟩), csvRest, ih]

/-- **C49**. With `--csv` (or `--tsv`), a line that is a record is split into its fields. -/
theorem C49_record (d : Char) (hd : d ≠ '"') {line : Text} {fs : List Text} (hne : line ≠ []) (h : Encodes d line fs) :
    csvLine d line = some fs := by
  unfold csvLine
  rw [if_neg hne, csvFrom_eq d hd h]

/-- The lines `ls` are the records `rs`. -/
inductive Records (d : Char) : List Text → List (List Text) → Prop
  | nil : Records d [] []
  | cons {l r ls rs} : l ≠ [] → Encodes d l r → Records d ls rs → Records d (l :: ls) (r :: rs)

theorem csvLoop_records {F : Type} (py : Py) (o : ROpts) (d : Char) (hd : d ≠ '"') (f : F) (first : Bool) {ls : List Text}
    {rs : List (List Text)} (h : Records d ls rs) (s : CsvSt) (hh : (first && (o.headings || o.skipHeadings)) = false) :
    csvLoop py o d f first ls s = (rs.map fun r => csvRecord o f r s, s) := by
  induction h generalizing first with
  | nil => rfl
  | cons hne he _ ih =>
    rw [csvLoop, C49_record d hd hne he]
    simp only [hh, Bool.false_eq_true, if_false]
    rw [ih false rfl]
    rfl

/-- **C49**. With `--csv`, if every line of a file is a record, and there are no blank lines, every record is sent, in order, with the file in front if requested. -/
theorem C49_csv_partial {F : Type} (py : Py) (label : Bool) (d : Char) (hd : d ≠ '"') (f : F) (content : Text) (ls : List Text)
    (rs : List (List Text)) (hl : IsLines content ls) (hr : Records d ls rs) :
    (readCsv py ⟨label, false, false⟩ d f content ⟨none⟩).1 =
      rs.map fun r => .tuple none ((if label then [.file f] else []) ++ r.map .text) := by
  unfold readCsv
  rw [fileLines_eq hl, csvLoop_records py _ d hd f true hr _ rfl]
  rfl

/-- **C49**. With `--skip-headings`, the first record is left out. -/
theorem C49_skip_partial {F : Type} (py : Py) (label : Bool) (d : Char) (hd : d ≠ '"') (f : F) (content : Text) (ls : List Text)
    (r0 : List Text) (rs : List (List Text)) (hl : IsLines content ls) (hr : Records d ls (r0 :: rs)) :
    (readCsv py ⟨label, false, true⟩ d f content ⟨none⟩).1 =
      rs.map fun r => .tuple none ((if label then [.file f] else []) ++ r.map .text) := by
  unfold readCsv
  rw [fileLines_eq hl]
  cases hr with
  | cons hne he hr =>
    rw [csvLoop, C49_record d hd hne he]
    simp only [Bool.true_and, Bool.or_true, if_true]
    rw [show (csvHeadings (F := F) py ⟨label, false, true⟩ r0 ⟨none⟩) = ([], ⟨none⟩) from rfl,
      csvLoop_records py _ d hd f false hr _ rfl]
    rfl

/-- **C49**. With `--headings`, the first record gives the names, and every other record is sent with these names: missing
fields are `None`, and a record with too many fields is reported as an error. -/
theorem C49_headings_partial {F : Type} (py : Py) (label : Bool) (d : Char) (hd : d ≠ '"') (f : F) (content : Text) (ls : List Text)
    (r0 : List Text) (rs : List (List Text)) (hl : IsLines content ls) (hr : Records d ls (r0 :: rs))
    (hok : py.namedtupleOk (extractHeadings py ⟨label, true, false⟩ r0) = true) :
    (readCsv py ⟨label, true, false⟩ d f content ⟨none⟩).1.length = rs.length ∧
    ∀ i (hi : i < rs.length), (readCsv py ⟨label, true, false⟩ d f content ⟨none⟩).1[i]? = some
      (if r0.length < rs[i].length then .error
       else .tuple (some (extractHeadings py ⟨label, true, false⟩ r0))
        ((if label then [.file f] else []) ++ (rs[i].map .text ++ List.replicate (r0.length - rs[i].length) .none))) := by
  have key : (readCsv py ⟨label, true, false⟩ d f content ⟨none⟩).1 =
      rs.map fun r => csvRecord ⟨label, true, false⟩ f r ⟨some (extractHeadings py ⟨label, true, false⟩ r0)⟩ := by
    unfold readCsv
    rw [fileLines_eq hl]
    cases hr with
    | cons hne he hr =>
      rw [csvLoop, C49_record d hd hne he]
      simp only [Bool.true_and, Bool.or_false, if_true]
      rw [show (csvHeadings (F := F) py ⟨label, true, false⟩ r0 ⟨none⟩) = ([], ⟨some (extractHeadings py ⟨label, true, false⟩ r0)⟩) by
        unfold csvHeadings; simp [hok]]
      rw [csvLoop_records py _ d hd f false hr _ rfl]
      rfl
  rw [key]
  refine ⟨by simp, fun i hi => ?_⟩
  rw [List.getElem?_map, List.getElem?_eq_getElem hi, Option.map_some]
  congr 1
  have hlen : (extractHeadings py ⟨label, true, false⟩ r0).length = (if label then 1 else 0) + r0.length := by
    unfold extractHeadings
    cases label <;> simp; omega
  unfold csvRecord
  simp only [hlen]
  cases label
  · simp
  · simp only [if_true, List.length_cons, List.length_map, List.cons_append, List.nil_append]
    by_cases hlt : r0.length < rs[i].length
    · rw [if_pos (by omega), if_pos hlt]
    · rw [if_neg (by omega), if_neg hlt]
      rw [show 1 + r0.length - (rs[i].length + 1) = r0.length - rs[i].length by omega]

/-! ### Writing and reading -/

/-- Fields that can be read back: a string without line ends; a number is a nonempty text without the delimiter, quotes and line ends. -/
def Field.Ok (d : Char) : Field → Prop
  | .str t => Plain t
  | .num t => t ≠ [] ∧ Plain t ∧ d ∉ t ∧ '"' ∉ t

theorem encField_write {d : Char} {x : Field} (h : x.Ok d) : EncField d (writeField x) x.text := by
  cases x with
  | str t => exact .quoted
  | num t =>
    refine .plain h.2.2.1 ?_
    intro e
    have : '"' ∈ t := by
      cases t with
      | nil => simp [writeField] at e
      | cons c t => simp [writeField] at e; simp [e]
    exact h.2.2.2 this

theorem encodes_write {d : Char} {r : List Field} (hne : r ≠ []) (h : ∀ x ∈ r, x.Ok d) : Encodes d (writeRow d r) (r.map Field.text) := by
  induction r with
  | nil => exact absurd rfl hne
  | cons x xs ih =>
    cases xs with
    | nil => exact .one (encField_write (h x (by simp)))
    | cons y ys =>
      rw [writeRow]
      · exact .cons (encField_write (h x (by simp))) (ih (by simp) (fun z hz => h z (by simp [hz])))
      · simp

theorem plain_append {a b : Text} (ha : Plain a) (hb : Plain b) : Plain (a ++ b) := by
  constructor <;> simp only [List.mem_append, not_or]
  · exact ⟨ha.1, hb.1⟩
  · exact ⟨ha.2, hb.2⟩

theorem mem_double {c : Char} {t : Text} (h : c ∈ double t) : c ∈ t := by
  induction t with
  | nil => simp [double] at h
  | cons x t ih =>
    unfold double at h
    split at h
    · rename_i hx
      simp only [List.mem_cons] at h
      rcases h with h | h | h
      · simp [h, hx]
      · simp [h, hx]
      · simp [ih h]
    · rcases List.mem_cons.mp h with h | h
      · simp [h]
      · simp [ih h]

theorem plain_writeField {d : Char} {x : Field} (h : x.Ok d) : Plain (writeField x) ∧ writeField x ≠ [] := by
  cases x with
  | str t =>
    refine ⟨?_, by simp [writeField]⟩
    constructor <;> intro hm <;> simp only [writeField, List.mem_cons, List.mem_append, List.not_mem_nil, or_false] at hm <;>
      rcases hm with hm | hm | hm
    · cases hm
    · exact h.1 (mem_double hm)
    · cases hm
    · cases hm
    · exact h.2 (mem_double hm)
    · cases hm
  | num t => exact ⟨h.2.1, h.1⟩

theorem plain_writeRow {d : Char} (hd : Plain [d]) {r : List Field} (hne : r ≠ []) (h : ∀ x ∈ r, x.Ok d) :
    Plain (writeRow d r) ∧ writeRow d r ≠ [] := by
  induction r with
  | nil => exact absurd rfl hne
  | cons x xs ih =>
    have hx := plain_writeField (h x (by simp))
    cases xs with
    | nil => exact hx
    | cons y ys =>
      rw [writeRow]
      · have := ih (by simp) (fun z hz => h z (by simp [hz]))
        refine ⟨plain_append hx.1 ?_, by simp⟩
        exact plain_append (a := [d]) hd this.1
      · simp

/-- **C49**. What `write --csv` (or `--tsv`) writes, `read --csv` reads: the same records, with numbers as text, if no record is empty and
no string contains a line end. -/
theorem C49_roundtrip_partial {F : Type} (py : Py) (d : Char) (hd : d ≠ '"') (hpd : Plain [d]) (f : F) (rows : List (List Field))
    (hok : ∀ r ∈ rows, r ≠ [] ∧ ∀ x ∈ r, x.Ok d) :
    (readCsv py ⟨false, false, false⟩ d f (writeCsv d rows) ⟨none⟩).1 = rows.map fun r => .tuple none (r.map fun x => .text x.text) := by
  have hl : IsLines (writeCsv d rows) (rows.map (writeRow d)) := by
    induction rows with
    | nil => exact .nil
    | cons r rows ih =>
      obtain ⟨hne, hx⟩ := hok r (by simp)
      have := IsLines.lf (plain_writeRow hpd hne hx).1 (ih (fun r' hr' => hok r' (by simp [hr'])))
      simpa [writeCsv] using this
  have hr : Records d (rows.map (writeRow d)) (rows.map fun r => r.map Field.text) := by
    clear hl
    induction rows with
    | nil => exact .nil
    | cons r rows ih =>
      obtain ⟨hne, hx⟩ := hok r (by simp)
      exact .cons (plain_writeRow hpd hne hx).2 (encodes_write hne hx) (ih (fun r' hr' => hok r' (by simp [hr'])))
  rw [C49_csv_partial py false d hd f _ _ _ hl hr]
  simp

/-! ## Several files -/

theorem csvLoop_state {F : Type} (py : Py) (o : ROpts) (d : Char) (f : F) (ls : List Text) (s : CsvSt) :
    (csvLoop py o d f false ls s).2 = s := by
  induction ls with
  | nil => rfl
  | cons l ls ih =>
    unfold csvLoop
    split
    · rfl
    · simp [ih]

/-- Without headings, the reader has no names, also after a file. -/
theorem readCsv_state {F : Type} (py : Py) (o : ROpts) (d : Char) (f : F) (c : Text) (s : CsvSt) (h : o.headings = false) :
    (readCsv py o d f c s).2 = s := by
  unfold readCsv
  cases fileLines c with
  | nil => rfl
  | cons l ls =>
    unfold csvLoop
    split
    · rfl
    · simp only [csvHeadings, h, csvLoop_state]
      split <;> rfl

/-- With headings that can be used as names, what is sent for a file does not depend on what was read before. -/
theorem readCsv_indep {F : Type} (py : Py) (o : ROpts) (d : Char) (f : F) (c : Text) (s s' : CsvSt) (h : o.headings = true)
    (hok : ∀ l fields, (fileLines c).head? = some l → csvLine d l = some fields → py.namedtupleOk (extractHeadings py o fields) = true) :
    (readCsv py o d f c s).1 = (readCsv py o d f c s').1 := by
  unfold readCsv
  cases hl : fileLines c with
  | nil => rfl
  | cons l ls =>
    unfold csvLoop
    cases hc : csvLine d l with
    | none => rfl
    | some fields =>
      have := hok l fields (by rw [hl]; rfl) hc
      simp [csvHeadings, h, this]

/-- **C49**, several files with one `read --csv`: what is sent is what is sent for each of the files alone, one after the other, if the first
line of each file can be used for names (or no headings are asked for). -/
theorem C49_files_partial {F : Type} (py : Py) (o : ROpts) (d : Char) (files : List (F × Text))
    (hok : o.headings = true → ∀ x ∈ files, ∀ l fields, (fileLines x.2).head? = some l → csvLine d l = some fields →
      py.namedtupleOk (extractHeadings py o fields) = true) :
    readCsvAll py o d files ⟨none⟩ = files.flatMap fun x => (readCsv py o d x.1 x.2 ⟨none⟩).1 := by
  suffices h : ∀ s : CsvSt, (o.headings = false → s = ⟨none⟩) →
      readCsvAll py o d files s = files.flatMap fun x => (readCsv py o d x.1 x.2 ⟨none⟩).1 from h _ (fun _ => rfl)
  induction files with
  | nil => intro s _; rfl
  | cons x files ih =>
    obtain ⟨f, c⟩ := x
    intro s hs
    simp only [readCsvAll, List.flatMap_cons]
    rw [ih (fun h x hx => hok h x (List.mem_cons_of_mem _ hx))]
    · congr 1
      cases ho : o.headings with
      | false => rw [hs ho]
      | true => exact readCsv_indep py o d f c s _ ho (hok ho _ List.mem_cons_self)
    · intro ho
      rw [readCsv_state py o d f c s ho, hs ho]

/-! ### Non-vacuity, and where the property fails -/

def exPy : Py := ⟨fun _ => true, id, fun _ => true⟩

/-- Three kinds of line ends, quotes, and a delimiter in a field. -/
def exText : Text := "a,\"b,\"\"c\"\r\n1,2\rx,y".toList

def exLines : List Text := ["a,\"b,\"\"c\"".toList, "1,2".toList, "x,y".toList]

example : IsLines exText exLines := (C49_lines _ _).mpr (by decide +kernel)

example : Encodes ',' ['a', ',', '"', 'b', ',', '"', '"', 'c', '"'] [['a'], ['b', ',', '"', 'c']] :=
  .cons (e := ['a']) (.plain (by decide) (by decide)) (.one (.quoted (f := ['b', ',', '"', 'c'])))

example : (readCsv exPy ⟨true, false, false⟩ ',' 7 exText ⟨none⟩).1 =
    [.tuple none [.file 7, .text ['a'], .text ['b', ',', '"', 'c']], .tuple none [.file 7, .text ['1'], .text ['2']],
     .tuple none [.file 7, .text ['x'], .text ['y']]] := by decide +kernel

example : (readCsv exPy ⟨false, true, false⟩ ',' 7 exText ⟨none⟩).1 =
    [.tuple (some [['a'], ['b', ',', '"', 'c']]) [.text ['1'], .text ['2']],
     .tuple (some [['a'], ['b', ',', '"', 'c']]) [.text ['x'], .text ['y']]] := by decide +kernel

example : (∀ r ∈ [[Field.str ['a', '"'], .num ['1']], [.str []]], r ≠ [] ∧ ∀ x ∈ r, x.Ok ',') := by
  simp [Field.Ok, Plain]

/-- **C49 is false** for files with a blank line: what follows is not read (read.py 365, 370, 336: the end of the iterator is taken for the end
of the file). -/
theorem C49_false_blank (py : Py) :
    (readCsv (F := Unit) py ⟨false, false, false⟩ ',' () "a\n\nb\n".toList ⟨none⟩).1 = [.tuple none [.text ['a']]] ∧
    IsLines "a\n\nb\n".toList [['a'], [], ['b']] := by
  refine ⟨?_, (C49_lines _ _).mpr (by decide +kernel)⟩
  unfold readCsv
  rw [show fileLines "a\n\nb\n".toList = [['a'], [], ['b']] by decide +kernel]
  rfl

/-- **C49 is false** for strings with line ends: writing and reading one record gives two. -/
theorem C49_false_newline (py : Py) :
    (readCsv (F := Unit) py ⟨false, false, false⟩ ',' () (writeCsv ',' [[.str ['a', '\n', 'b'], .num ['1']]]) ⟨none⟩).1 =
      [.tuple none [.text ['a']], .tuple none [.text ['b', '"'], .text ['1']]] := by
  unfold readCsv
  rw [show fileLines (writeCsv ',' [[.str ['a', '\n', 'b'], .num ['1']]]) = [['"', 'a'], ['b', '"', ',', '1']] by decide +kernel]
  rfl

/-- **C49 is false** for empty tuples: everything after it is lost. -/
theorem C49_false_empty (py : Py) :
    (readCsv (F := Unit) py ⟨false, false, false⟩ ',' () (writeCsv ',' [[], [.num ['1']]]) ⟨none⟩).1 = [] := by
  unfold readCsv
  rw [show fileLines (writeCsv ',' [[], [.num ['1']]]) = [[], ['1']] by decide +kernel]
  rfl

/-- Only `bad` cannot be used for a name. -/
def badPy : Py := ⟨fun _ => true, id, fun ns => !ns.contains "bad".toList⟩

example : ∀ x ∈ [(1, "a,b\n1,2\n".toList), (2, "c\n3\n".toList)], ∀ l fields, (fileLines x.2).head? = some l → csvLine ',' l = some fields →
    badPy.namedtupleOk (extractHeadings badPy ⟨false, true, false⟩ fields) = true := by
  intro x hx l fields hl hc
  simp only [List.mem_cons, List.not_mem_nil, or_false] at hx
  rcases hx with rfl | rfl
  · have : fileLines (2, "a,b\n1,2\n".toList).2 = ["a,b".toList, "1,2".toList] := by decide +kernel
    simp only at this hl
    rw [this] at hl
    cases hl
    have : csvLine ',' "a,b".toList = some ["a".toList, "b".toList] := by decide +kernel
    rw [this] at hc
    cases hc
    decide +kernel
  · have : fileLines (2, "c\n3\n".toList).2 = ["c".toList, "3".toList] := by decide +kernel
    simp only at this hl
    rw [this] at hl
    cases hl
    have : csvLine ',' "c".toList = some ["c".toList] := by decide +kernel
    rw [this] at hc
    cases hc
    decide +kernel

/-- **C49 is false** for several files: if the first line of the second file cannot be used for names, there is an error, and its records are
sent with the names of the first file (`named_tuple` 312 is not reset). -/
theorem C49_false_names :
    readCsvAll badPy ⟨false, true, false⟩ ',' [(1, "a\n1\n".toList), (2, "bad\n2\n".toList)] ⟨none⟩ =
      [.tuple (some ["a".toList]) [.text "1".toList], .error, .tuple (some ["a".toList]) [.text "2".toList]] ∧
    (readCsv badPy ⟨false, true, false⟩ ',' 2 "bad\n2\n".toList ⟨none⟩).1 = [.error, .tuple none [.text "2".toList]] := by
  constructor <;> decide +kernel

end Marcel.Read
