import Verif.Model.FileObj
import Verif.Lemmas.Dict
/-! # C81: what is shown about a file is true -/

namespace Marcel.FileObj

/-! ## Specification -/

/-- What a line about a file says. -/
structure Line where
  mode : Text
  user : Text
  group : Text
  size : Text
  mtime : Text
  rest : Text
deriving DecidableEq, Repr

/-- The next word of a line, and the rest. -/
def word (t : Text) : Text × Text :=
  ((t.dropWhile (· = ' ')).takeWhile (· ≠ ' '), (t.dropWhile (· = ' ')).dropWhile (· ≠ ' '))

/-- Reading a line: 10 characters for type and permissions, three words, two blanks, 20 characters for the time, two blanks, the rest. -/
def readLine (t : Text) : Line :=
  let a := word (t.drop 10)
  let b := word a.2
  let c := word b.2
  ⟨t.take 10, a.1, b.1, c.1, (c.2.drop 2).take 20, c.2.drop 24⟩

/-- The permissions in a mode: read, write, execute for owner, group and others are bits 8 to 0. -/
def permissions (mode : Nat) : Text :=
  (List.range 9).map fun i => if mode.testBit (8 - i) then ['r', 'w', 'x'][i % 3]?.getD '-' else '-'

/-- The types of files that `ls` shows, as in `<sys/stat.h>`. -/
def S_IFMT : Nat := 0o170000
def S_IFREG : Nat := 0o100000
def S_IFDIR : Nat := 0o040000
def S_IFLNK : Nat := 0o120000

/-- A word: not empty, without blanks. -/
def IsWord (t : Text) : Prop := t ≠ [] ∧ ' ' ∉ t

/-- What is assumed of the computer and of formatting: the names of users and groups and numbers are words, times have 20 characters. -/
structure Plain (dec : Nat → Text) (mtimeText : Nat → Text) (h : Host) : Prop where
  dec : ∀ n, IsWord (dec n)
  users : ∀ u n, h.users u = some n → IsWord n
  groups : ∀ u n, h.groups u = some n → IsWord n
  mtime : ∀ m, (mtimeText m).length = 20

/-- The name of a user: that in the user database, or the number. -/
def ownerName (dec : Nat → Text) (names : Nat → Option Text) (id : Nat) : Text :=
  match names id with
  | some n => n
  | none => dec id

/-- Type and permissions, for files, directories and links. -/
def shownMode (mode : Nat) : Text :=
  (if mode &&& S_IFMT = S_IFLNK then 'l' else if mode &&& S_IFMT = S_IFDIR then 'd' else '-') :: permissions mode

/-- A file, a directory or a link. -/
def Usual (mode : Nat) : Prop := mode &&& S_IFMT = S_IFREG ∨ mode &&& S_IFMT = S_IFDIR ∨ mode &&& S_IFMT = S_IFLNK

/-- The line that tells the truth about a file of the computer `h`, with `name` for its name. -/
def truth (dec : Nat → Text) (mtimeText : Nat → Text) (h : Host) (s : Stat) (name : Text) : Line :=
  ⟨shownMode s.mode, ownerName dec h.users s.uid, ownerName dec h.groups s.gid, dec s.size, mtimeText s.mtime, name⟩

/-- The name of a file relative to a directory: the components, separated by slashes; a dot for the directory itself. -/
def nameBelow (q : Path) : Text := if q = [] then ['.'] else List.intercalate ['/'] q

/-! ## Modes -/

theorem and_ne_zero (m i : Nat) : (m &&& 2 ^ i ≠ 0) ↔ m.testBit i = true := by
  constructor
  · intro h
    rcases Bool.eq_false_or_eq_true (m.testBit i) with hb | hb
    · exact hb
    · exfalso
      apply h
      apply Nat.eq_of_testBit_eq
      intro j
      rw [Nat.testBit_and, Nat.testBit_two_pow, Nat.zero_testBit]
      by_cases hij : i = j
      · subst hij; simp [hb]
      · simp [hij]
  · intro h h0
    have : (m &&& 2 ^ i).testBit i = true := by
      rw [Nat.testBit_and, Nat.testBit_two_pow]; simp [h]
    rw [h0] at this
    simp at this

theorem rwx_eq (m : Nat) : rwx m =
    [if m.testBit 2 then 'r' else '-', if m.testBit 1 then 'w' else '-', if m.testBit 0 then 'x' else '-'] := by
  unfold rwx
  have h4 := and_ne_zero m 2
  have h2 := and_ne_zero m 1
  have h1 := and_ne_zero m 0
  simp only [Nat.reducePow] at h4 h2 h1
  simp only [h4, h2, h1]

theorem testBit_shift (mode k : Nat) (mask : Nat) (i : Nat) :
    ((mode &&& mask) >>> k).testBit i = (mode.testBit (k + i) && mask.testBit (k + i)) := by
  rw [Nat.testBit_shiftRight, Nat.testBit_and]

theorem permissions_eq (mode : Nat) :
    rwx ((mode &&& 448) >>> 6) ++ rwx ((mode &&& 56) >>> 3) ++ rwx (mode &&& 7) = permissions mode := by
  rw [rwx_eq, rwx_eq, rwx_eq]
  simp only [testBit_shift, Nat.testBit_and]
  have e1 : (448 : Nat).testBit (6 + 2) = true := by decide
  have e2 : (448 : Nat).testBit (6 + 1) = true := by decide
  have e3 : (448 : Nat).testBit (6 + 0) = true := by decide
  have e4 : (56 : Nat).testBit (3 + 2) = true := by decide
  have e5 : (56 : Nat).testBit (3 + 1) = true := by decide
  have e6 : (56 : Nat).testBit (3 + 0) = true := by decide
  have e7 : (7 : Nat).testBit 2 = true := by decide
  have e8 : (7 : Nat).testBit 1 = true := by decide
  have e9 : (7 : Nat).testBit 0 = true := by decide
  simp only [e1, e2, e3, e4, e5, e6, e7, e8, e9, Bool.and_true]
  rfl

/-- **C81.** The first column, for files, directories and links: the type, then the permissions. -/
theorem C81_mode (mode : Nat) :
    (mode &&& S_IFMT = S_IFREG → modeString mode = '-' :: permissions mode) ∧
    (mode &&& S_IFMT = S_IFDIR → modeString mode = 'd' :: permissions mode) ∧
    (mode &&& S_IFMT = S_IFLNK → modeString mode = 'l' :: permissions mode) := by
  unfold modeString
  rw [permissions_eq]
  have h1 : mode &&& 40960 = (mode &&& S_IFMT) &&& 40960 := by
    rw [Nat.and_assoc]; rfl
  have h2 : mode &&& 16384 = (mode &&& S_IFMT) &&& 16384 := by
    rw [Nat.and_assoc]; rfl
  rw [h1, h2]
  refine ⟨?_, ?_, ?_⟩ <;> intro h <;> rw [h] <;> rfl

theorem modeString_usual (mode : Nat) (h : Usual mode) : modeString mode = shownMode mode := by
  obtain ⟨h1, h2, h3⟩ := C81_mode mode
  unfold shownMode
  rcases h with h | h | h
  · rw [h1 h, h]; rfl
  · rw [h2 h, h]; rfl
  · rw [h3 h, h]; rfl

theorem modeString_length (mode : Nat) : (modeString mode).length = 10 := rfl

/-- **C81 is false of other types of files**: sockets (0o140000) and block devices (0o060000) are shown as directories. -/
theorem C81_false_types (mode : Nat) (h : mode &&& S_IFMT = 0o140000 ∨ mode &&& S_IFMT = 0o060000) :
    (modeString mode).head? = some 'd' := by
  unfold modeString
  have h1 : mode &&& 40960 = (mode &&& S_IFMT) &&& 40960 := by
    rw [Nat.and_assoc]; rfl
  have h2 : mode &&& 16384 = (mode &&& S_IFMT) &&& 16384 := by
    rw [Nat.and_assoc]; rfl
  rw [h1, h2]
  rcases h with h | h <;> rw [h] <;> rfl

/-! ## Reading a line -/

theorem dropWhile_replicate (n : Nat) (t : Text) : (List.replicate n ' ' ++ t).dropWhile (· = ' ') = t.dropWhile (· = ' ') := by
  induction n with
  | zero => rfl
  | succ n ih => simp [List.replicate_succ, ih]

theorem dropWhile_word (x t : Text) (hx : IsWord x) : (x ++ t).dropWhile (· = ' ') = x ++ t := by
  obtain ⟨h0, h1⟩ := hx
  cases x with
  | nil => exact absurd rfl h0
  | cons c x =>
    have : c ≠ ' ' := fun h => h1 (by simp [h])
    simp [this]

theorem takeWhile_word (x t : Text) (hx : ' ' ∉ x) : (x ++ ' ' :: t).takeWhile (· ≠ ' ') = x := by
  induction x with
  | nil => simp
  | cons c x ih =>
    simp only [List.mem_cons, not_or] at hx
    have : c ≠ ' ' := fun h => hx.1 h.symm
    have ih := ih hx.2
    simp only [List.cons_append, List.takeWhile_cons, this, ne_eq, not_false_eq_true, decide_true, if_true]
    rw [ih]

theorem dropWhile_word' (x t : Text) (hx : ' ' ∉ x) : (x ++ ' ' :: t).dropWhile (· ≠ ' ') = ' ' :: t := by
  induction x with
  | nil => simp
  | cons c x ih =>
    simp only [List.mem_cons, not_or] at hx
    have : c ≠ ' ' := fun h => hx.1 h.symm
    have ih := ih hx.2
    simp only [List.cons_append, List.dropWhile_cons, this, ne_eq, not_false_eq_true, decide_true, if_true]
    exact ih

theorem word_rjust (k w : Nat) (x t : Text) (hx : IsWord x) :
    word (List.replicate k ' ' ++ (rjust w x ++ ' ' :: t)) = (x, ' ' :: t) := by
  unfold word rjust
  rw [dropWhile_replicate, List.append_assoc, dropWhile_replicate, dropWhile_word _ _ hx, takeWhile_word _ _ hx.2,
    dropWhile_word' _ _ hx.2]

theorem readLine_columns (w : Formatting) (mode : Nat) (u g sz mt rest : Text)
    (hu : IsWord u) (hg : IsWord g) (hs : IsWord sz) (hm : mt.length = 20) :
    readLine (join2 ([modeString mode, formatUser w u, formatGroup w g, formatSize w sz, mt] ++ [rest])) =
      ⟨modeString mode, u, g, sz, mt, rest⟩ := by
  have hl : join2 ([modeString mode, formatUser w u, formatGroup w g, formatSize w sz, mt] ++ [rest]) =
      modeString mode ++ (List.replicate 2 ' ' ++ (rjust w.userWidth u ++ ' ' :: (List.replicate 1 ' ' ++
        (rjust w.userWidth g ++ ' ' :: (List.replicate 1 ' ' ++ (rjust w.sizeWidth sz ++ ' ' :: ' ' :: (mt ++ ' ' :: ' ' :: rest))))))) := by
    simp [join2, formatUser, formatGroup, formatSize, List.replicate_succ]
  have h10 := modeString_length mode
  unfold readLine
  rw [hl]
  have hd : ∀ t, (modeString mode ++ t).drop 10 = t := fun t => by
    rw [List.drop_append_of_le_length (by omega), List.drop_of_length_le (by omega), List.nil_append]
  have ht : ∀ t, (modeString mode ++ t).take 10 = modeString mode := fun t => by
    rw [List.take_append_of_le_length (by omega), List.take_of_length_le (by omega)]
  simp only [hd, ht, word_rjust _ _ _ _ hu]
  have e2 : ∀ t, word (' ' :: (List.replicate 1 ' ' ++ t)) = word (List.replicate 2 ' ' ++ t) := fun t => rfl
  simp only [e2, word_rjust _ _ _ _ hg, word_rjust _ _ _ _ hs]
  have e3 : ∀ t : Text, (' ' :: ' ' :: t).drop 2 = t := fun t => rfl
  have e4 : ∀ t : Text, (' ' :: ' ' :: t).drop 24 = t.drop 22 := fun t => rfl
  rw [e3, e4, List.take_append_of_le_length (by omega), List.take_of_length_le (by omega),
    show 22 = mt.length + 2 by omega, ← List.drop_drop, List.drop_left]
  rfl

/-! ## Listings -/

/-- What a cache says is what the computer says. -/
def Cache.Good (dec : Nat → Text) (h : Host) (c : Cache) : Prop :=
  ∀ u g n, c.get? (u, g) = some n → n = (username dec h u, groupname dec h g)

theorem names_good (dec : Nat → Text) (h : Host) (c : Cache) (hc : c.Good dec h) (u g : Nat) :
    (c.names dec h u g).1 = (username dec h u, groupname dec h g) ∧ (c.names dec h u g).2.Good dec h ∧
    Dict.get? (c.names dec h u g).2 (u, g) = some (username dec h u, groupname dec h g) := by
  unfold Cache.names
  cases hg : Dict.get? c (u, g) with
  | some n => exact ⟨hc _ _ _ hg, hc, by rw [hg, hc _ _ _ hg]⟩
  | none =>
    refine ⟨rfl, ?_, by rw [Dict.get?_set, if_pos rfl]⟩
    intro u' g' n hn
    rw [Dict.get?_set] at hn
    by_cases he : (u, g) = (u', g')
    · rw [if_pos he] at hn
      cases hn
      cases he
      rfl
    · rw [if_neg he] at hn
      exact hc _ _ _ hn

/-- What is known of a file of a listing. -/
structure Listed (dec : Nat → Text) (h : Host) (base : Path) (f : File) : Prop where
  base : f.base = some base
  stat : f.lstat = h.lstat f.path
  found : f.lstat.isSome
  cache : ∃ c : Cache, f.cache = some c ∧ c.Good dec h ∧
    ∀ s, f.lstat = some s → c.get? (s.uid, s.gid) = some (username dec h s.uid, groupname dec h s.gid)

theorem listing_spec (dec : Nat → Text) (h : Host) (base : Path) (ps : List Path) : ∀ (c : Cache) (w : Formatting), c.Good dec h →
    (listing dec h base ps c w).map (·.path) = ps.filter (fun p => (h.lstat p).isSome) ∧
    ∀ f ∈ listing dec h base ps c w, Listed dec h base f := by
  induction ps with
  | nil => intro c w _; exact ⟨rfl, fun f hf => (by cases hf)⟩
  | cons p ps ih =>
    intro c w hc
    unfold listing File.adjust File.getStat File.new
    cases hs : h.lstat p with
    | none =>
      simp only
      obtain ⟨h1, h2⟩ := ih c w hc
      refine ⟨?_, h2⟩
      rw [h1]
      simp [hs]
    | some s =>
      simp only [File.names]
      obtain ⟨n1, n2, n3⟩ := names_good dec h c hc s.uid s.gid
      obtain ⟨h1, h2⟩ := ih (c.names dec h s.uid s.gid).2 ⟨max w.userWidth (c.names dec h s.uid s.gid).1.1.length,
        max w.groupWidth (c.names dec h s.uid s.gid).1.2.length, max w.sizeWidth (dec s.size).length⟩ n2
      simp only [Option.getD_some, List.map_cons, List.mem_cons]
      refine ⟨?_, ?_⟩
      · rw [h1]
        simp [hs]
      · rintro f (rfl | hf)
        · refine ⟨rfl, by simp [hs], rfl, ⟨_, rfl, n2, ?_⟩⟩
          intro s' hs'
          cases hs'
          exact n3
        · exact h2 f hf

theorem owner_user (dec : Nat → Text) (h : Host) (u : Nat) : username dec h u = ownerName dec h.users u := by
  unfold username ownerName
  cases h.users u <;> rfl

theorem owner_group (dec : Nat → Text) (h : Host) (u : Nat) : groupname dec h u = ownerName dec h.groups u := by
  unfold groupname ownerName
  cases h.groups u <;> rfl

theorem ownerName_word {dec mtimeText h} (hp : Plain dec mtimeText h) (u : Nat) :
    IsWord (ownerName dec h.users u) ∧ IsWord (ownerName dec h.groups u) := by
  unfold ownerName
  constructor
  · cases hu : h.users u with
    | none => exact hp.dec u
    | some n => exact hp.users u n hu
  · cases hu : h.groups u with
    | none => exact hp.dec u
    | some n => exact hp.groups u n hu

theorem joinSlash_eq (q : Path) : joinSlash q = List.intercalate ['/'] q := by
  induction q with
  | nil => rfl
  | cons x q ih =>
    cases q with
    | nil => simp [joinSlash, List.intercalate]
    | cons y q =>
      rw [List.intercalate_cons_cons, ← ih]
      simp [joinSlash]

theorem relText_eq (q : Path) : relText q = nameBelow q := by
  unfold relText nameBelow
  rw [joinSlash_eq]
  cases q <;> rfl

theorem relativeTo_append (b q : Path) : relativeTo (b ++ q) b = some q := by
  induction b with
  | nil => cases q <;> rfl
  | cons x b ih => simp [relativeTo, ih]

/-- What a file that is known this way looks like, on a computer where these names are found. -/
theorem render_reads (dec : Nat → Text) (mtimeText : Nat → Text) (h : Host) (f : File) (s : Stat) (name u g : Text)
    (hs : f.getStat h = some s) (hn : f.compact = some name) (hnames : (f.names dec h s.uid s.gid).1 = (u, g))
    (hu : IsWord u) (hg : IsWord g) (hd : IsWord (dec s.size)) (hm : (mtimeText s.mtime).length = 20) :
    (isLink s.mode = false → ∃ t, f.render dec mtimeText h none none = some t ∧
      readLine t = ⟨modeString s.mode, u, g, dec s.size, mtimeText s.mtime, name⟩) ∧
    (isLink s.mode = true → ∀ target, h.readlink f.path = some target → ∃ t, f.render dec mtimeText h none none = some t ∧
      readLine t = ⟨modeString s.mode, u, g, dec s.size, mtimeText s.mtime, name ++ "  ->  ".toList ++ target⟩) := by
  have hcols : f.columns dec mtimeText h s = [modeString s.mode, formatUser (f.formatting.getD Formatting.new) u,
      formatGroup (f.formatting.getD Formatting.new) g, formatSize (f.formatting.getD Formatting.new) (dec s.size),
      mtimeText s.mtime] := by
    unfold File.columns
    rw [hnames]
  unfold File.render
  rw [hs, hn]
  simp only [hcols, colorize]
  constructor
  · intro hl
    rw [hl]
    simp only [Bool.false_eq_true, if_false]
    exact ⟨_, rfl, readLine_columns _ s.mode u g _ _ name hu hg hd hm⟩
  · intro hl target ht
    rw [hl, ht]
    simp only [if_true]
    refine ⟨_, rfl, ?_⟩
    rw [← readLine_columns (f.formatting.getD Formatting.new) s.mode u g _ _ (name ++ "  ->  ".toList ++ target) hu hg hd hm]
    congr 1
    simp [join2]

/-- **C81.** A listing of the paths `ps` below `base` has a line for each of them that exists, in order, and each line (read from left to
right) tells the type and permissions, the names of owner and group, the size, the time, and the path relative to `base` (for
links, also where they lead). -/
theorem C81_listing (dec : Nat → Text) (mtimeText : Nat → Text) (h : Host) (hp : Plain dec mtimeText h) (base : Path) (ps : List Path)
    (hb : ∀ p ∈ ps, ∃ q, p = base ++ q) :
    (listing dec h base ps [] Formatting.new).map (·.path) = ps.filter (fun p => (h.lstat p).isSome) ∧
    ∀ f ∈ listing dec h base ps [] Formatting.new, ∃ s q, h.lstat f.path = some s ∧ f.path = base ++ q ∧ (Usual s.mode →
      (s.mode &&& S_IFMT ≠ S_IFLNK → ∃ t, f.render dec mtimeText h none none = some t ∧
        readLine t = truth dec mtimeText h s (nameBelow q)) ∧
      (s.mode &&& S_IFMT = S_IFLNK → ∀ target, h.readlink f.path = some target → ∃ t, f.render dec mtimeText h none none = some t ∧
        readLine t = truth dec mtimeText h s (nameBelow q ++ "  ->  ".toList ++ target))) := by
  obtain ⟨h1, h2⟩ := listing_spec dec h base ps [] Formatting.new (fun u g n hn => by cases hn)
  refine ⟨h1, ?_⟩
  intro f hf
  have hL := h2 f hf
  have hmem : f.path ∈ ps := by
    have : f.path ∈ (listing dec h base ps [] Formatting.new).map (·.path) := List.mem_map_of_mem hf
    rw [h1] at this
    exact (List.mem_filter.mp this).1
  obtain ⟨q, hq⟩ := hb _ hmem
  obtain ⟨s, hs⟩ := Option.isSome_iff_exists.mp hL.found
  obtain ⟨c, hc, hgood, hown⟩ := hL.cache
  have hcompact : f.compact = some (nameBelow q) := by
    unfold File.compact
    rw [hL.base, hq]
    simp only [relativeTo_append, Option.map_some, relText_eq]
  have hnames : (f.names dec h s.uid s.gid).1 = (ownerName dec h.users s.uid, ownerName dec h.groups s.gid) := by
    unfold File.names Cache.names
    rw [hc]
    simp only [hown s hs, owner_user, owner_group]
  have hget : f.getStat h = some s := by
    unfold File.getStat
    rw [hs]
  obtain ⟨r1, r2⟩ := render_reads dec mtimeText h f s _ _ _ hget hcompact hnames (ownerName_word hp _).1 (ownerName_word hp _).2
    (hp.dec _) (hp.mtime _)
  have hlk : ∀ b : Bool, isLink s.mode = b ↔ (decide (s.mode &&& S_IFMT = S_IFLNK) = b) := fun b => Iff.rfl
  refine ⟨s, q, by rw [← hL.stat, hs], hq, fun hus => ?_⟩
  rw [modeString_usual _ hus] at r1 r2
  refine ⟨?_, ?_⟩
  · intro hne
    exact r1 ((hlk _).mpr (by simp [hne]))
  · intro he target ht
    exact r2 ((hlk _).mpr (by simp [he])) target ht

/-! ## The base -/

theorem commonAncestor_prefix (p q : Path) : commonAncestor p q <+: p ∧ commonAncestor p q <+: q := by
  induction p generalizing q with
  | nil => cases q <;> exact ⟨List.nil_prefix, List.nil_prefix⟩
  | cons x p ih =>
    cases q with
    | nil => exact ⟨List.nil_prefix, List.nil_prefix⟩
    | cons y q =>
      unfold commonAncestor
      by_cases hxy : x = y
      · subst hxy
        simp only [if_true, List.cons_prefix_cons, true_and]
        exact ih q
      · simp only [hxy, if_false]
        exact ⟨List.nil_prefix, List.nil_prefix⟩

theorem commonAncestor_greatest (p q r : Path) (hp : r <+: p) (hq : r <+: q) : r <+: commonAncestor p q := by
  induction r generalizing p q with
  | nil => exact List.nil_prefix
  | cons x r ih =>
    cases p with
    | nil => simp at hp
    | cons y p =>
      cases q with
      | nil => simp at hq
      | cons z q =>
        rw [List.cons_prefix_cons] at hp hq
        obtain ⟨rfl, hp⟩ := hp
        obtain ⟨rfl, hq⟩ := hq
        unfold commonAncestor
        simp only [if_true, List.cons_prefix_cons, true_and]
        exact ih p q hp hq

theorem foldl_ancestor (roots : List Path) : ∀ a : Path,
    roots.foldl commonAncestor a <+: a ∧ (∀ r ∈ roots, roots.foldl commonAncestor a <+: r) ∧
    ∀ r, r <+: a → (∀ x ∈ roots, r <+: x) → r <+: roots.foldl commonAncestor a := by
  induction roots with
  | nil => intro a; exact ⟨List.prefix_refl _, fun r hr => (by cases hr), fun r hr _ => hr⟩
  | cons x roots ih =>
    intro a
    obtain ⟨h1, h2, h3⟩ := ih (commonAncestor a x)
    obtain ⟨c1, c2⟩ := commonAncestor_prefix a x
    refine ⟨h1.trans c1, ?_, ?_⟩
    · intro r hr
      rcases List.mem_cons.mp hr with rfl | hr
      · exact h1.trans c2
      · exact h2 r hr
    · intro r hra hrs
      exact h3 r (commonAncestor_greatest _ _ _ hra (hrs x (List.mem_cons_self ..)))
        (fun y hy => hrs y (List.mem_cons_of_mem _ hy))

theorem relativeTo_some (b p q : Path) (h : relativeTo p b = some q) : p = b ++ q := by
  induction b generalizing p with
  | nil => cases p <;> (simp only [relativeTo, Option.some.injEq] at h; exact h)
  | cons x b ih =>
    cases p with
    | nil => cases h
    | cons y p =>
      unfold relativeTo at h
      split at h
      · next hxy => rw [hxy, ih p h]; rfl
      · cases h

/-- **C81.** A `File` without a directory relative to which it is shown (as constructed by a user) is shown with its absolute path; one that is
not below that directory is not shown (the code raises an exception). -/
theorem C81_absolute (dec : Nat → Text) (mtimeText : Nat → Text) (h : Host) (hp : Plain dec mtimeText h) (p : Path) (s : Stat)
    (hs : h.lstat p = some s) (hu : Usual s.mode) (hl : s.mode &&& S_IFMT ≠ S_IFLNK) :
    (∃ t, (File.new p none none).render dec mtimeText h none none = some t ∧
      readLine t = truth dec mtimeText h s ('/' :: List.intercalate ['/'] p)) ∧
    ∀ b c, (¬ ∃ q, p = b ++ q) → ∀ color color', (File.new p (some b) c).render dec mtimeText h color color' = none := by
  constructor
  · have hc : (File.new p none none).compact = some ('/' :: List.intercalate ['/'] p) := by
      unfold File.compact File.new absText
      cases p with
      | nil => rfl
      | cons x p =>
        simp only [Option.some.injEq]
        clear hs
        induction p generalizing x with
        | nil => simp [List.intercalate]
        | cons y p ih =>
          rw [List.intercalate_cons_cons, List.flatMap_cons, ih y]
          simp
    have hnames : ((File.new p none none).names dec h s.uid s.gid).1 = (ownerName dec h.users s.uid, ownerName dec h.groups s.gid) := by
      rw [← owner_user, ← owner_group]; rfl
    obtain ⟨r1, _⟩ := render_reads dec mtimeText h (File.new p none none) s _ _ _ hs hc hnames (ownerName_word hp _).1
      (ownerName_word hp _).2 (hp.dec _) (hp.mtime _)
    rw [modeString_usual _ hu] at r1
    exact r1 (decide_eq_false hl)
  · intro b c hb color color'
    have hc : (File.new p (some b) c).compact = none := by
      unfold File.compact File.new
      cases hr : relativeTo p b with
      | none => simp [hr]
      | some q => exact absurd ⟨q, relativeTo_some b p q hr⟩ hb
    unfold File.render
    rw [hc]
    cases (File.new p (some b) c).getStat h <;> rfl

/-- **C81.** The directory relative to which names are shown contains all arguments, hence everything that is visited (so that the
hypothesis of `C81_listing` holds); and if it is not an argument, it is the lowest directory which does. -/
theorem C81_base (isFile : Path → Bool) (root : Path) (roots : List Path) :
    (∀ r ∈ root :: roots, ∀ below, ∃ q, r ++ below = determineBase isFile root roots ++ q) ∧
    (∀ d, (∀ r ∈ root :: roots, d <+: r) → d <+: determineBase isFile root roots ∨
      (isFile d = true ∧ determineBase isFile root roots = d.dropLast)) := by
  obtain ⟨h1, h2, h3⟩ := foldl_ancestor roots root
  have hall : ∀ r ∈ root :: roots, roots.foldl commonAncestor root <+: r := by
    intro r hr
    rcases List.mem_cons.mp hr with rfl | hr
    · exact h1
    · exact h2 r hr
  have hpre : determineBase isFile root roots <+: roots.foldl commonAncestor root := by
    unfold determineBase
    simp only
    split
    · exact List.dropLast_prefix _
    · exact List.prefix_refl _
  constructor
  · intro r hr below
    obtain ⟨q, hq⟩ := hpre.trans (hall r hr)
    exact ⟨q ++ below, by rw [← hq, List.append_assoc]⟩
  · intro d hd
    have hdn := h3 d (hd root (List.mem_cons_self ..)) (fun x hx => hd x (List.mem_cons_of_mem _ hx))
    unfold determineBase
    simp only
    by_cases hf : isFile (roots.foldl commonAncestor root) = true
    · rw [if_pos hf]
      obtain ⟨e, he⟩ := hdn
      rcases List.eq_nil_or_concat e with rfl | ⟨e', x, rfl⟩
      · rw [List.append_nil] at he
        subst he
        exact Or.inr ⟨hf, rfl⟩
      · left
        rw [← he, List.concat_eq_append, ← List.append_assoc, List.dropLast_concat]
        exact List.prefix_append _ _
    · rw [if_neg hf]
      exact Or.inl hdn

/-! ## Colours -/

/-- A text without escape sequences `ESC [ ... m`. -/
def strip : Bool → Text → Text
  | _, [] => []
  | true, c :: t => strip (c ≠ 'm') t
  | false, c :: t => if c = Char.ofNat 27 then strip true t else c :: strip false t

theorem strip_append (a : Text) (ha : esc ∉ a) (t : Text) : strip false (a ++ t) = a ++ strip false t := by
  induction a with
  | nil => rfl
  | cons c a ih =>
    simp only [List.mem_cons, not_or] at ha
    rw [List.cons_append, strip, if_neg (fun h => ha.1 h.symm), ih ha.2]
    rfl

theorem strip_seq (a : Text) (ha : 'm' ∉ a) (t : Text) : strip true (a ++ 'm' :: t) = strip false t := by
  induction a with
  | nil => rfl
  | cons c a ih =>
    simp only [List.mem_cons, not_or] at ha
    have : c ≠ 'm' := fun h => ha.1 h.symm
    rw [List.cons_append, strip]
    simp only [ne_eq, this, not_false_eq_true, decide_true]
    exact ih ha.2

theorem strip_esc (a : Text) (ha : 'm' ∉ a) (t : Text) : strip false (esc :: (a ++ 'm' :: t)) = strip false t := by
  rw [strip, if_pos (show esc = Char.ofNat 27 from rfl), strip_seq a ha]

theorem strip_style (c : Color) (t : Text) : strip false (style c ++ t) = strip false t := by
  obtain ⟨b, i, k⟩ := c
  cases b <;> cases i
  · exact strip_esc ['[', '0'] (by decide) t
  · exact strip_esc ['[', '3'] (by decide) t
  · exact strip_esc ['[', '1'] (by decide) t
  · exact (strip_esc ['[', '1'] (by decide) _).trans (strip_esc ['[', '3'] (by decide) t)

theorem strip_colorize (dec : Nat → Text) (hd : ∀ n, 'm' ∉ dec n) (s : Text) (hs : esc ∉ s) (c : Option Color) (t : Text) :
    strip false (colorize dec s c ++ t) = s ++ strip false t := by
  cases c with
  | none => exact strip_append s hs t
  | some c =>
    have e : colorize dec s (some c) ++ t =
        style c ++ (esc :: (("[38;5;".toList ++ dec c.code) ++ 'm' :: (s ++ (esc :: (['[', '0'] ++ 'm' :: t))))) := by
      simp [colorize]
    rw [e, strip_style, strip_esc, strip_append _ hs, strip_esc _ (by decide)]
    intro hm
    rcases List.mem_append.mp hm with hm | hm
    · revert hm; decide
    · exact hd _ hm

/-- **C81.** With colours, the line is the same but for the escape sequences. -/
theorem C81_colors (dec : Nat → Text) (mtimeText : Nat → Text) (h : Host) (f : File) (color color' : Option Color) (t : Text)
    (hd : ∀ n, 'm' ∉ dec n) (hr : f.render dec mtimeText h none none = some t) (ht : Char.ofNat 27 ∉ t) :
    ∃ t', f.render dec mtimeText h color color' = some t' ∧ strip false t' = t := by
  unfold File.render at hr ⊢
  cases hs : f.getStat h with
  | none => rw [hs] at hr; cases hr
  | some s =>
    cases hc : f.compact with
    | none => rw [hs, hc] at hr; cases hr
    | some p =>
      rw [hs, hc] at hr
      simp only at hr ⊢
      obtain ⟨m, u, g, sz, mt, hcols⟩ : ∃ m u g sz mt, f.columns dec mtimeText h s = [m, u, g, sz, mt] := ⟨_, _, _, _, _, rfl⟩
      rw [hcols] at hr ⊢
      by_cases hl : isLink s.mode = true
      · rw [if_pos hl] at hr ⊢
        cases hk : h.readlink f.path with
        | none => rw [hk] at hr; cases hr
        | some target =>
          rw [hk] at hr
          simp only [Option.some.injEq] at hr ⊢
          refine ⟨_, rfl, ?_⟩
          have e : ∀ x y : Text, join2 ([m, u, g, sz, mt] ++ [x, ['-', '>'], y]) =
              (m ++ "  ".toList ++ u ++ "  ".toList ++ g ++ "  ".toList ++ sz ++ "  ".toList ++ mt ++ "  ".toList) ++
                (x ++ ("  ->  ".toList ++ (y ++ []))) := by
            intro x y; simp [join2]
          rw [e] at hr ⊢
          subst hr
          simp only [colorize, List.mem_append, not_or] at ht
          rw [strip_append _ (by simp only [List.mem_append, not_or]; exact ht.1), strip_colorize dec hd _ ht.2.1,
            strip_append _ ht.2.2.1, strip_colorize dec hd _ ht.2.2.2.1]
          rfl
      · rw [if_neg hl] at hr ⊢
        simp only [Option.some.injEq] at hr ⊢
        refine ⟨_, rfl, ?_⟩
        have e : ∀ x : Text, join2 ([m, u, g, sz, mt] ++ [x]) =
            (m ++ "  ".toList ++ u ++ "  ".toList ++ g ++ "  ".toList ++ sz ++ "  ".toList ++ mt ++ "  ".toList) ++ (x ++ []) := by
          intro x; simp [join2]
        rw [e] at hr ⊢
        subst hr
        simp only [colorize, List.mem_append, not_or] at ht
        rw [strip_append _ (by simp only [List.mem_append, not_or]; exact ht.1), strip_colorize dec hd _ ht.2.1]
        rfl

/-! ## Columns -/

theorem rjust_length (w : Nat) (x : Text) (h : x.length ≤ w) : (rjust w x).length = w := by
  simp [rjust]; omega

/-- **C81.** Lines printed with the same formatting, which is wide enough, are aligned: the name starts in the same column. -/
theorem C81_aligned (dec : Nat → Text) (mtimeText : Nat → Text) (h : Host) (f : File) (s : Stat) (w : Formatting)
    (hm : (mtimeText s.mtime).length = 20) (hw : f.formatting = some w)
    (hu : (f.names dec h s.uid s.gid).1.1.length ≤ w.userWidth) (hg : (f.names dec h s.uid s.gid).1.2.length ≤ w.userWidth)
    (hs : (dec s.size).length ≤ w.sizeWidth) (name : Text) :
    join2 (f.columns dec mtimeText h s ++ [name]) =
      join2 (f.columns dec mtimeText h s ++ [[]]) ++ name ∧
    (join2 (f.columns dec mtimeText h s ++ [[]])).length = 40 + 2 * w.userWidth + w.sizeWidth := by
  unfold File.columns
  rw [hw]
  simp only [Option.getD_some, formatUser, formatGroup, formatSize]
  refine ⟨by simp [join2], ?_⟩
  simp only [join2, List.cons_append, List.nil_append, List.length_append, List.length_cons, List.length_nil,
    rjust_length _ _ hu, rjust_length _ _ hg, rjust_length _ _ hs, modeString_length, hm]
  omega

/-- The formatting of a listing is wide enough for all its users and sizes. -/
def WideEnough (dec : Nat → Text) (h : Host) (w : Formatting) (f : File) : Prop :=
  ∀ s, f.lstat = some s → (f.names dec h s.uid s.gid).1.1.length ≤ w.userWidth ∧
    (f.names dec h s.uid s.gid).1.2.length ≤ w.groupWidth ∧ (dec s.size).length ≤ w.sizeWidth

/-- Widths only grow. -/
def Formatting.le (w w' : Formatting) : Prop :=
  w.userWidth ≤ w'.userWidth ∧ w.groupWidth ≤ w'.groupWidth ∧ w.sizeWidth ≤ w'.sizeWidth

/-- **C81.** In a listing, each file is sent with widths that suffice for it and for all files before it. -/
theorem C81_widths (dec : Nat → Text) (h : Host) (base : Path) (ps : List Path) :
    (listing dec h base ps [] Formatting.new).Pairwise
      (fun f g => ∃ w, g.formatting = some w ∧ WideEnough dec h w f ∧ WideEnough dec h w g) := by
  have key : ∀ (ps : List Path) (c : Cache) (w : Formatting), c.Good dec h →
      (∀ f ∈ listing dec h base ps c w, ∃ w', f.formatting = some w' ∧ w.le w' ∧ WideEnough dec h w' f) ∧
      (listing dec h base ps c w).Pairwise
        (fun f g => ∃ w, g.formatting = some w ∧ WideEnough dec h w f ∧ WideEnough dec h w g) := by
    intro ps
    induction ps with
    | nil => intro c w _; exact ⟨fun f hf => (by cases hf), List.Pairwise.nil⟩
    | cons p ps ih =>
      intro c w hc
      unfold listing File.adjust File.getStat File.new
      cases hs : h.lstat p with
      | none => exact ih c w hc
      | some s =>
        simp only [File.names, Option.getD_some]
        obtain ⟨n1, n2, n3⟩ := names_good dec h c hc s.uid s.gid
        obtain ⟨h1, h2⟩ := ih (c.names dec h s.uid s.gid).2 ⟨max w.userWidth (c.names dec h s.uid s.gid).1.1.length,
          max w.groupWidth (c.names dec h s.uid s.gid).1.2.length, max w.sizeWidth (dec s.size).length⟩ n2
        have hme : ∀ w' : Formatting, Formatting.le ⟨max w.userWidth (c.names dec h s.uid s.gid).1.1.length,
            max w.groupWidth (c.names dec h s.uid s.gid).1.2.length, max w.sizeWidth (dec s.size).length⟩ w' → ∀ fo,
            WideEnough dec h w' ⟨p, some base, some (c.names dec h s.uid s.gid).2, some s, fo⟩ := by
          intro w' hle fo s' hs'
          cases hs'
          simp only [File.names]
          have e : (Cache.names dec h (c.names dec h s.uid s.gid).2 s.uid s.gid).1 = (c.names dec h s.uid s.gid).1 := by
            rw [n1]
            exact (names_good dec h _ n2 _ _).1
          rw [e]
          obtain ⟨l1, l2, l3⟩ := hle
          simp only at l1 l2 l3
          omega
        refine ⟨?_, ?_⟩
        · intro f hf
          rcases List.mem_cons.mp hf with rfl | hf
          · exact ⟨_, rfl, ⟨Nat.le_max_left .., Nat.le_max_left .., Nat.le_max_left ..⟩,
              hme _ ⟨Nat.le_refl _, Nat.le_refl _, Nat.le_refl _⟩ _⟩
          · obtain ⟨w', e, ⟨l1, l2, l3⟩, hw⟩ := h1 f hf
            simp only at l1 l2 l3
            exact ⟨w', e, ⟨by omega, by omega, by omega⟩, hw⟩
        · rw [List.pairwise_cons]
          refine ⟨?_, h2⟩
          intro g hg
          obtain ⟨w', e, hle, hw⟩ := h1 g hg
          exact ⟨w', e, hme w' hle _, hw⟩
  exact (key ps [] Formatting.new (fun u g n hn => by cases hn)).2

/-! ## Files from other computers -/

/-- **C81.** A file that is not a link, from a listing on the computer `h`, is shown in the same way on any other computer. -/
theorem C81_transport (dec : Nat → Text) (mtimeText : Nat → Text) (h h' : Host) (base : Path) (ps : List Path) (f : File)
    (hf : f ∈ listing dec h base ps [] Formatting.new) (color color' : Option Color)
    (hl : ∀ s, h.lstat f.path = some s → s.mode &&& S_IFMT ≠ S_IFLNK) :
    ∃ f', f.transport h = some f' ∧ f'.render dec mtimeText h' color color' = f.render dec mtimeText h color color' := by
  obtain ⟨_, h2⟩ := listing_spec dec h base ps [] Formatting.new (fun u g n hn => by cases hn)
  have hL := h2 f hf
  obtain ⟨s, hs⟩ := Option.isSome_iff_exists.mp hL.found
  obtain ⟨c, hc, _, hown⟩ := hL.cache
  refine ⟨f, ?_, ?_⟩
  · obtain ⟨p, b, ca, st, fo⟩ := f
    simp only at hs
    subst hs
    rfl
  · have hg : ∀ k : Host, f.getStat k = some s := fun k => by unfold File.getStat; rw [hs]
    have hn : ∀ k : Host, (f.names dec k s.uid s.gid).1 = (username dec h s.uid, groupname dec h s.gid) := by
      intro k
      unfold File.names Cache.names
      rw [hc]
      simp only [hown s hs]
    have hcol : ∀ k : Host, f.columns dec mtimeText k s = f.columns dec mtimeText h s := by
      intro k
      unfold File.columns
      rw [hn k, hn h]
    have hnl : isLink s.mode = false := by
      have := hl s (by rw [← hL.stat, hs])
      exact decide_eq_false this
    unfold File.render
    rw [hg h, hg h']
    cases f.compact with
    | none => rfl
    | some p =>
      simp only [hnl, hcol h', Bool.false_eq_true, if_false]

/-- **C81.** The files of a listing that are transported together (as by `remote`) arrive in the same number, and each line tells
the truth about the file on the computer `h` that it comes from, except for links, and except for the names of owner and group, which are true for files with
the owner and group of the first file only: for others they are what the other computer `h'` calls these numbers. -/
theorem C81_transport_all (dec : Nat → Text) (mtimeText : Nat → Text) (h h' : Host) (hp : Plain dec mtimeText h)
    (hp' : Plain dec mtimeText h') (base : Path) (ps : List Path) (hb : ∀ p ∈ ps, ∃ q, p = base ++ q) (f0 : File) (fs : List File)
    (hfs : listing dec h base ps [] Formatting.new = f0 :: fs) (s0 : Stat) (hs0 : h.lstat f0.path = some s0) :
    (transportAll h (f0 :: fs)).map (·.path) = (f0 :: fs).map (·.path) ∧
    ∀ f ∈ transportAll h (f0 :: fs), ∃ s q, h.lstat f.path = some s ∧ f.path = base ++ q ∧
      (Usual s.mode → s.mode &&& S_IFMT ≠ S_IFLNK → ∃ t, f.render dec mtimeText h' none none = some t ∧
        readLine t = if s.uid = s0.uid ∧ s.gid = s0.gid then truth dec mtimeText h s (nameBelow q)
          else { truth dec mtimeText h s (nameBelow q) with
            user := ownerName dec h'.users s.uid, group := ownerName dec h'.groups s.gid }) := by
  have hsp := listing_spec dec h base ps [] Formatting.new (fun u g n hn => by cases hn)
  rw [hfs] at hsp
  obtain ⟨h1, h2⟩ := hsp
  have hmem : ∀ f ∈ f0 :: fs, f.path ∈ ps := by
    intro f hf
    have : f.path ∈ (f0 :: fs).map (·.path) := List.mem_map_of_mem hf
    rw [h1] at this
    exact (List.mem_filter.mp this).1
  have htr : ∀ g ∈ f0 :: fs, ({ g with cache := f0.cache, formatting := f0.formatting } : File).transport h =
      some { g with cache := f0.cache, formatting := f0.formatting } := by
    intro g hg
    obtain ⟨s, hs⟩ := Option.isSome_iff_exists.mp (h2 g hg).found
    unfold File.transport File.getStat
    simp only [hs]
  have hall : transportAll h (f0 :: fs) =
      (f0 :: fs).map (fun g => ({ g with cache := f0.cache, formatting := f0.formatting } : File)) := by
    have : ∀ l : List File, (∀ g ∈ l, ({ g with cache := f0.cache, formatting := f0.formatting } : File).transport h =
        some { g with cache := f0.cache, formatting := f0.formatting }) →
        l.filterMap (fun g => ({ g with cache := f0.cache, formatting := f0.formatting } : File).transport h) =
          l.map (fun g => ({ g with cache := f0.cache, formatting := f0.formatting } : File)) := by
     intro l htr
     induction l with
     | nil => rfl
     | cons g l ih =>
      rw [List.filterMap_cons, htr g (List.mem_cons_self ..), List.map_cons]
      simp only
      rw [ih (fun x hx => htr x (List.mem_cons_of_mem _ hx))]
    exact this _ htr
  rw [hall]
  refine ⟨by rw [List.map_map]; rfl, ?_⟩
  intro f hf
  obtain ⟨g, hg, rfl⟩ := List.mem_map.mp hf
  have hL := h2 g hg
  obtain ⟨s, hs⟩ := Option.isSome_iff_exists.mp hL.found
  obtain ⟨q, hq⟩ := hb _ (hmem g hg)
  have hL0 := h2 f0 (List.mem_cons_self ..)
  have hs0' : f0.lstat = some s0 := by rw [hL0.stat, hs0]
  have hcache : f0.cache = some [((s0.uid, s0.gid), (username dec h s0.uid, groupname dec h s0.gid))] := by
    have : ∀ ps, listing dec h base ps [] Formatting.new = f0 :: fs →
        f0.cache = some [((s0.uid, s0.gid), (username dec h s0.uid, groupname dec h s0.gid))] := by
      intro ps
      induction ps with
      | nil => intro he; cases he
      | cons p ps ih =>
        intro he
        unfold listing File.adjust File.getStat File.new at he
        cases hp : h.lstat p with
        | none => simp only [hp] at he; exact ih he
        | some sp =>
          simp only [hp, List.cons.injEq] at he
          obtain ⟨he, _⟩ := he
          have : sp = s0 := by
            have := congrArg File.lstat he
            simp only [hs0', Option.some.injEq] at this
            exact this
          subst this
          rw [← he]
          rfl
    exact this ps hfs
  refine ⟨s, q, by rw [← hL.stat, hs], hq, ?_⟩
  intro hus hnl
  have hcompact : ({ g with cache := f0.cache, formatting := f0.formatting } : File).compact = some (nameBelow q) := by
    unfold File.compact
    simp only [hL.base, hq, relativeTo_append, Option.map_some, relText_eq]
  have hget : ({ g with cache := f0.cache, formatting := f0.formatting } : File).getStat h' = some s := by
    unfold File.getStat
    simp only [hs]
  by_cases ho : s.uid = s0.uid ∧ s.gid = s0.gid
  · rw [if_pos ho]
    have hnames : (({ g with cache := f0.cache, formatting := f0.formatting } : File).names dec h' s.uid s.gid).1 =
        (ownerName dec h.users s.uid, ownerName dec h.groups s.gid) := by
      unfold File.names Cache.names
      simp only [hcache, Dict.get?, ho.1, ho.2, if_true, owner_user, owner_group]
    obtain ⟨r1, _⟩ := render_reads dec mtimeText h' _ s _ _ _ hget hcompact hnames (ownerName_word hp _).1 (ownerName_word hp _).2
      (hp.dec _) (hp.mtime _)
    rw [modeString_usual _ hus] at r1
    exact r1 (decide_eq_false hnl)
  · rw [if_neg ho]
    have hne : ¬ ((s0.uid, s0.gid) = (s.uid, s.gid)) := fun he => by
      simp only [Prod.mk.injEq] at he
      exact ho ⟨he.1.symm, he.2.symm⟩
    have hnames : (({ g with cache := f0.cache, formatting := f0.formatting } : File).names dec h' s.uid s.gid).1 =
        (ownerName dec h'.users s.uid, ownerName dec h'.groups s.gid) := by
      unfold File.names Cache.names
      simp only [hcache, Dict.get?, hne, if_false, owner_user, owner_group]
    obtain ⟨r1, _⟩ := render_reads dec mtimeText h' _ s _ _ _ hget hcompact hnames (ownerName_word hp' _).1 (ownerName_word hp' _).2
      (hp.dec _) (hp.mtime _)
    rw [modeString_usual _ hus] at r1
    exact r1 (decide_eq_false hnl)

/-! ## Examples, and what is false -/

/-- Some numbers. -/
def exDec (n : Nat) : Text := if n = 1 then ['1'] else if n = 2 then ['2'] else if n = 5 then ['5'] else ['7']

/-- The files /d/f (of user 1 and group 1), /d/g (of user 2 and group 2) and the link /d/l. -/
def exHost : Host where
  lstat := fun p =>
    if p = ["d".toList, "f".toList] then some ⟨0o100644, 1, 1, 5, 0⟩
    else if p = ["d".toList, "g".toList] then some ⟨0o100755, 2, 2, 7, 0⟩
    else if p = ["d".toList, "l".toList] then some ⟨0o120777, 1, 1, 1, 0⟩
    else none
  readlink := fun p => if p = ["d".toList, "l".toList] then some "f".toList else none
  users := fun u => if u = 1 then some "ann".toList else if u = 2 then some "bob".toList else none
  groups := fun u => if u = 1 then some "ann".toList else if u = 2 then some "programmers".toList else none

/-- Another computer, with other users and no files. -/
def exHost' : Host where
  lstat := fun _ => none
  readlink := fun _ => none
  users := fun u => if u = 2 then some "carl".toList else none
  groups := fun _ => none

def exTime (_ : Nat) : Text := "2026 Nov 18 11:40:00".toList

theorem exPlain : Plain exDec exTime exHost := by
  refine ⟨?_, ?_, ?_, fun _ => rfl⟩
  · intro n
    unfold exDec
    split
    · exact ⟨by decide, by decide⟩
    · split
      · exact ⟨by decide, by decide⟩
      · split
        · exact ⟨by decide, by decide⟩
        · exact ⟨by decide, by decide⟩
  · intro u n hu
    simp only [exHost] at hu
    split at hu
    · cases hu; exact ⟨by decide, by decide⟩
    · split at hu
      · cases hu; exact ⟨by decide, by decide⟩
      · cases hu
  · intro u n hu
    simp only [exHost] at hu
    split at hu
    · cases hu; exact ⟨by decide, by decide⟩
    · split at hu
      · cases hu; exact ⟨by decide, by decide⟩
      · cases hu

/-- The paths in the directory /d, one of which does not exist. -/
def exPaths : List Path := [["d".toList, "f".toList], ["d".toList, "g".toList], ["d".toList, "h".toList], ["d".toList, "l".toList]]

/-- Non-vacuity: the listing of a directory. The names of the groups are not aligned, because they are given the width of the user names
(also: **C81_aligned is false without its hypothesis on groups**). -/
theorem C81_example : (listing exDec exHost ["d".toList] exPaths [] Formatting.new).map (·.render exDec exTime exHost none none) =
    [some "-rw-r--r--     ann     ann       5  2026 Nov 18 11:40:00  f".toList,
     some "-rwxr-xr-x     bob  programmers       7  2026 Nov 18 11:40:00  g".toList,
     some "lrwxrwxrwx     ann     ann       1  2026 Nov 18 11:40:00  l  ->  f".toList] := by
  decide +kernel

/-- **C81 is false for the alignment of a listing**: even with the formatting of the whole listing, the names of /d/f and /d/g
start in different columns. -/
theorem C81_false_aligned : (listing exDec exHost ["d".toList] exPaths [] Formatting.new).map (fun f =>
      (join2 (({ f with formatting := some ⟨6, 11, 6⟩ } : File).columns exDec exTime exHost
        ((exHost.lstat f.path).getD ⟨0, 0, 0, 0, 0⟩) ++ [[]])).length) = [58, 63, 58] := by
  decide +kernel

/-- **C81 is false for links from another computer**: they are read where they are shown. -/
theorem C81_false_link (dec : Nat → Text) (mtimeText : Nat → Text) (h h' : Host) (f f' : File) (s : Stat) (color color' : Option Color)
    (hs : f.getStat h = some s) (hl : s.mode &&& S_IFMT = S_IFLNK) (ht : f.transport h = some f') (hn : h'.readlink f.path = none) :
    f'.render dec mtimeText h' color color' = none := by
  unfold File.transport at ht
  rw [hs] at ht
  simp only [Option.some.injEq] at ht
  subst ht
  unfold File.render File.getStat
  have : isLink s.mode = true := decide_eq_true hl
  cases hc : File.compact ⟨f.path, f.base, f.cache, some s, f.formatting⟩ with
  | none => rfl
  | some p => simp only [this, if_true, hn]

/-- **C81 is false for the owners of files from another computer**: /d/g belongs to bob, but is shown as carl's. -/
theorem C81_false_owner : (transportAll exHost (listing exDec exHost ["d".toList] exPaths [] Formatting.new)).map
      (fun f => (f.render exDec exTime exHost' none none).map (fun t => ((readLine t).user, (readLine t).group))) =
    [some ("ann".toList, "ann".toList), some ("carl".toList, "2".toList), none] := by
  decide +kernel

end Marcel.FileObj
