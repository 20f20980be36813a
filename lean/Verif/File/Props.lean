import Verif.File.Model
import Verif.Scalar.Import
import Verif.Vector.Arith

/-!
Properties C66 (pictures), C67 (names of files), C68 (DaVis pictures), C69 (videos), C70 (search of files), C117 (DaVis
vector files), C118 (numbered pictures).
-/

namespace IMT.File

/-! ### C67 -/

/-- The basename holds a character other than a dot. -/
def Named (p : Path) : Prop := ∃ c ∈ base p, c ≠ '.'

theorem base_append {p s : Path} (h : '/' ∉ s) : base (p ++ s) = base p ++ s := by
  have key : ∀ (r t : List Char), '/' ∉ r → (r ++ t).takeWhile (· != '/') = r ++ t.takeWhile (· != '/') := by
    intro r t
    induction r with
    | nil => simp
    | cons a r ih =>
      intro hr
      simp only [List.mem_cons, not_or] at hr
      have : (a != '/') = true := by simpa using fun e => hr.1 e.symm
      simp [List.takeWhile_cons, this, ih hr.2]
  unfold base
  rw [List.reverse_append, key _ _ (by simpa using h)]
  simp

theorem span_append {s t : List Char} (h : ∀ c ∈ s, c ≠ '.') : (s ++ '.' :: t).span (· != '.') = (s, '.' :: t) := by
  rw [List.span_eq_takeWhile_dropWhile]
  have : ∀ s : List Char, (∀ c ∈ s, c ≠ '.') → (s ++ '.' :: t).takeWhile (· != '.') = s ∧ (s ++ '.' :: t).dropWhile (· != '.') = '.' :: t := by
    intro s
    induction s with
    | nil => simp
    | cons a s ih =>
      intro hs
      have h1 := hs a (by simp)
      obtain ⟨e1, e2⟩ := ih fun c hc => hs c (by simp [hc])
      have ha : (a != '.') = true := by simpa using h1
      simp [List.takeWhile_cons, List.dropWhile_cons, ha, e1, e2]
  obtain ⟨e1, e2⟩ := this s h
  rw [e1, e2]

/-- The extension of a name to which an extension has been added. -/
theorem ext_append {p s : Path} (h1 : '/' ∉ s) (h2 : '.' ∉ s) :
    ext (p ++ '.' :: s) = if (base p).any (· != '.') then '.' :: s else [] := by
  unfold ext
  rw [base_append (by simp [h1]), List.reverse_append]
  simp only [List.reverse_cons, List.append_assoc, List.singleton_append]
  rw [span_append (by intro c hc e; subst e; simp at hc; exact h2 hc)]
  simp [List.any_reverse]

theorem ext_added {p : Path} (h : Named p) : ext (p ++ cimt) = cimt ∧ ext (p ++ imt) = imt := by
  have ha : (base p).any (· != '.') = true := by
    obtain ⟨c, hc, hne⟩ := h
    exact List.any_eq_true.2 ⟨c, hc, by simpa using hne⟩
  constructor
  · rw [show cimt = '.' :: ['c', 'i', 'm', 't'] from rfl, ext_append (by decide) (by decide), if_pos ha]
  · rw [show imt = '.' :: ['i', 'm', 't'] from rfl, ext_append (by decide) (by decide), if_pos ha]

theorem ext_written {p : Path} (h : Named p) (c : Bool) : ext (written c p) = if c then cimt else imt := by
  unfold written
  cases c
  · simp only [Bool.false_eq_true, if_false]
    split
    · exact (ext_added h).2
    · next h' => exact not_not.1 h'
  · simp only [if_true]
    split
    · exact (ext_added h).1
    · next h' => exact not_not.1 h'

/-- C67: what was exported is found again at the written name, with or without compression, and the written name is the given
one when it carries the extension already and the given one followed by the extension otherwise.
Partial: the basename is not made of dots only (see `C67_dots_violated`). -/
theorem C67_roundtrip_partial {Obj : Type} (s : Store Obj) (o : Obj) {p : Path} (h : Named p) (c : Bool) :
    importFile (exportFile s o p c) (written c p) = .ok o ∧
      (ext p = (if c then cimt else imt) → written c p = p) ∧
      (ext p ≠ (if c then cimt else imt) → written c p = p ++ (if c then cimt else imt)) := by
  refine ⟨?_, ?_, ?_⟩
  · have he := ext_written h c
    unfold importFile exportFile
    simp only [if_true]
    cases c
    · simp only [Bool.false_eq_true, if_false] at he
      simp [he]
    · simp only [if_true] at he
      rw [if_neg (by rw [he]; decide), if_pos he, if_pos rfl]
  · intro he; cases c <;> simp_all [written]
  · intro he; cases c <;> simp_all [written]

example : written true "a.b/data.imt".toList = "a.b/data.imt.cimt".toList ∧ written false "a.b/data".toList = "a.b/data.imt".toList ∧
    written true "a.b/data.cimt".toList = "a.b/data.cimt".toList ∧ Named "a.b/data".toList := by
  refine ⟨by decide +kernel, by decide +kernel, by decide +kernel, 'd', by decide +kernel, by decide⟩

/-- C67: a second export under the written name writes the same file, and no other file is touched. -/
theorem C67_second_export_partial {Obj : Type} (s : Store Obj) (o o' : Obj) {p : Path} (h : Named p) (c : Bool) :
    written c (written c p) = written c p ∧
      importFile (exportFile (exportFile s o p c) o' (written c p) c) (written c p) = .ok o' ∧
      ∀ q, q ≠ written c p → exportFile s o p c q = s q := by
  have he := ext_written h c
  have hw : written c (written c p) = written c p := by
    generalize hq : written c p = q at he
    unfold written
    cases c
    · simp only [Bool.false_eq_true, if_false] at he ⊢
      rw [if_neg (not_not.2 he)]
    · simp only [if_true] at he ⊢
      rw [if_neg (not_not.2 he)]
  refine ⟨hw, ?_, ?_⟩
  · unfold importFile exportFile
    simp only [hw, if_true]
    cases c
    · simp only [Bool.false_eq_true, if_false] at he
      simp [he]
    · simp only [if_true] at he
      rw [if_neg (by rw [he]; decide), if_pos he, if_pos rfl]
  · intro q hq
    simp [exportFile, hq]

/-- C67: a compressed export and an uncompressed one of a name without extension are two files, each of which keeps its own
object. -/
theorem C67_two_formats {Obj : Type} (s : Store Obj) (o o' : Obj) {p : Path} (h : Named p) :
    importFile (exportFile (exportFile s o p true) o' p false) (written true p) = .ok o := by
  have he := ext_written h true
  have he' := ext_written h false
  have hne : written true p ≠ written false p := by
    intro e
    rw [e, he'] at he
    revert he; decide
  unfold importFile exportFile
  simp only [hne, if_false, if_true]
  simp only [if_true] at he
  rw [if_neg (by rw [he]; decide), if_pos he]

/-- C67 fails for names whose basename is made of dots only: the written file can never be read again. -/
theorem C67_dots_violated {Obj : Type} (s : Store Obj) (o : Obj) {p : Path} (h : ∀ c ∈ base p, c = '.') (c : Bool) :
    importFile (exportFile s o p c) (written c p) = .error .osError := by
  have ha : (base p).any (· != '.') = false := by
    rw [List.any_eq_false]; intro c hc; simp [h c hc]
  have e0 : ext p = [] := by
    unfold ext
    rw [List.span_eq_takeWhile_dropWhile]
    generalize hd : (base p).reverse.dropWhile (· != '.') = d
    match d, hd with
    | [], _ => rfl
    | a :: before, hd =>
      have hsub : ∀ c ∈ a :: before, c = '.' := by
        intro c hc
        rw [← hd] at hc
        exact h c (List.mem_reverse.1 ((List.dropWhile_sublist _).subset hc))
      have ha := hsub a (by simp)
      subst ha
      have : before.any (· != '.') = false := by
        rw [List.any_eq_false]; intro c hc; simp [hsub c (by simp [hc])]
      simp [this]
  have e1 : ext (p ++ cimt) = [] := by
    rw [show cimt = '.' :: ['c', 'i', 'm', 't'] from rfl, ext_append (by decide) (by decide), ha]; rfl
  have e2 : ext (p ++ imt) = [] := by
    rw [show imt = '.' :: ['i', 'm', 't'] from rfl, ext_append (by decide) (by decide), ha]; rfl
  have : ext (written c p) = [] := by
    unfold written
    rw [e0]
    cases c
    · simp only [Bool.false_eq_true, if_false]; rw [if_pos (by decide)]; exact e2
    · simp only [if_true]; rw [if_pos (by decide)]; exact e1
  unfold importFile exportFile
  simp only [if_true]
  rw [if_neg (by rw [this]; decide), if_neg (by rw [this]; decide)]

example : ∀ c ∈ base "data/..".toList, c = '.' := by decide +kernel

/-- C67: a name without one of the two extensions, or a missing file, is refused. -/
theorem C67_other_names {Obj : Type} (s : Store Obj) (p : Path) (h : (ext p ≠ imt ∧ ext p ≠ cimt) ∨ s p = none) :
    importFile s p = .error .osError := by
  unfold importFile
  cases hs : s p with
  | none => rfl
  | some v =>
    rcases h with h | h
    · simp [h.1, h.2]
    · rw [hs] at h; cases h

/-! ### C70 -/

/-- C70: exactly the folders holding a matching file are returned, in the order of the walk.
Partial: every folder of the tree holds at least one file (see `C70_empty_first_violated`, `C70_empty_after_violated`). -/
theorem C70_search_partial {F : Type} (m : F → Bool) (walk : List (Path × List F)) (h : ∀ d ∈ walk, d.2 ≠ []) :
    findFiles m walk = .ok ((walk.filter fun d => d.2.any m).map Prod.fst) := by
  have key : ∀ (walk : List (Path × List F)) (cur : Option Bool), (∀ d ∈ walk, d.2 ≠ []) →
      findLoop m cur walk = .ok ((walk.filter fun d => d.2.any m).map Prod.fst) := by
    intro walk
    induction walk with
    | nil => intros; rfl
    | cons d rest ih =>
      intro cur h
      obtain ⟨root, files⟩ := d
      have h1 : files ≠ [] := h (root, files) (by simp)
      have h2 : ∀ d ∈ rest, d.2 ≠ [] := fun d hd => h d (by simp [hd])
      simp only [findLoop, h1, if_false]
      cases hf : files.any m with
      | true => simp [ih _ h2, hf, Except.map]
      | false => simp [ih _ h2, hf]
  exact key walk none h

/-- C70: in terms of membership. -/
theorem C70_member_partial {F : Type} (m : F → Bool) (walk : List (Path × List F)) (h : ∀ d ∈ walk, d.2 ≠ []) :
    ∃ l, findFiles m walk = .ok l ∧ ∀ r, r ∈ l ↔ ∃ files, (r, files) ∈ walk ∧ ∃ f ∈ files, m f = true := by
  refine ⟨_, C70_search_partial m walk h, ?_⟩
  intro r
  simp only [List.mem_map, List.mem_filter, List.any_eq_true, Prod.exists]
  constructor
  · rintro ⟨r', files, ⟨h1, h2⟩, rfl⟩; exact ⟨files, h1, h2⟩
  · rintro ⟨files, h1, h2⟩; exact ⟨r, files, ⟨h1, h2⟩, rfl⟩

example : findFiles (fun n : Nat => n == 3) [(['a'], [1, 3]), (['b'], [2]), (['c'], [3])] = .ok [['a'], ['c']] := by
  decide +kernel

/-- C70 fails for every tree whose root holds no file: an error is raised. -/
theorem C70_empty_first_violated {F : Type} (m : F → Bool) (root : Path) (rest : List (Path × List F)) :
    findFiles m ((root, []) :: rest) = .error .nameError := by
  simp [findFiles, findLoop]

/-- C70 fails for every folder without file walked just after a folder with a match: it is returned. -/
theorem C70_empty_after_violated {F : Type} (m : F → Bool) (pre rest : List (Path × List F)) (d : Path × List F) (e : Path)
    (h : ∀ d ∈ pre ++ rest, d.2 ≠ []) (hd : d.2.any m = true) :
    ∃ l, findFiles m (pre ++ d :: (e, []) :: rest) = .ok l ∧ e ∈ l := by
  have rest_ok : ∀ cur, ∃ l, findLoop m cur rest = .ok l := by
    intro cur
    induction rest generalizing cur with
    | nil => exact ⟨_, rfl⟩
    | cons a rest ih =>
      obtain ⟨root, files⟩ := a
      have h1 : files ≠ [] := h (root, files) (by simp)
      have h2 := ih (fun d hd => h d (by simp only [List.mem_append, List.mem_cons] at hd ⊢; tauto))
      simp only [findLoop, h1, if_false]
      obtain ⟨l, hl⟩ := h2 (some true)
      obtain ⟨l', hl'⟩ := h2 (some false)
      cases files.any m
      · exact ⟨_, hl'⟩
      · exact ⟨root :: l, by simp only [hl, Except.map]⟩
  unfold findFiles
  have hd1 : d.2 ≠ [] := by intro hn; rw [hn] at hd; simp at hd
  generalize (none : Option Bool) = cur
  induction pre generalizing cur with
  | nil =>
    obtain ⟨root, files⟩ := d
    obtain ⟨l, hl⟩ := rest_ok (some true)
    simp only at hd hd1
    refine ⟨root :: e :: l, ?_, by simp⟩
    simp [findLoop, hd1, hd, hl, Except.map]
  | cons a pre ih =>
    obtain ⟨root, files⟩ := a
    have h1 : files ≠ [] := h (root, files) (by simp)
    have h2 := ih (fun d hd => h d (by simp only [List.mem_append, List.mem_cons] at hd ⊢; tauto))
    simp only [List.cons_append, findLoop, h1, if_false]
    cases files.any m
    · exact h2 _
    · obtain ⟨l, hl, he⟩ := h2 (some true)
      exact ⟨root :: l, by simp only [hl, Except.map], by simp [he]⟩

/-! ### C66 -/

theorem unpicture_picture {f : SF} (hf : f.WF) {i j : Nat} (hj : j < f.ay.length) :
    (unpicture (picture f.values)).get i j = f.cell i j := by
  have : f.val.ny - 1 - (f.val.ny - 1 - j) = j := by rw [hf.vy]; omega
  simp only [unpicture, picture, Grid.transpose, Grid.flipY, SF.values, this]

/-- C66: importing the picture of a field on the axes of that field gives back the field, point by point.
Partial: at least two points per axis, no masked point (a picture holds no NaN), and the file exists already (see
`C66_new_file_violated`); the codes of the pixels are not modelled. -/
theorem C66_roundtrip_partial {f : SF} (hf : f.WF) (h2x : 2 ≤ f.ax.length) (h2y : 2 ≤ f.ay.length)
    (hv : ∀ i j, i < f.ax.length → j < f.ay.length → f.mask.get i j = false) :
    ∃ p g, exportPicture true f = .ok p ∧ importPicture p (some f.ax) (some f.ay) f.ux f.uy f.uv = .ok g ∧ g.WF ∧
      (∀ x y r, g.Reads x y r ↔ f.Reads x y r) ∧ g.ux = f.ux ∧ g.uy = f.uy ∧ g.uv = f.uv := by
  refine ⟨picture f.values, ?_⟩
  have e1 : exportPicture true f = .ok (picture f.values) := rfl
  have hnx : (unpicture (picture f.values)).nx = f.ax.length := hf.vx
  have hny : (unpicture (picture f.values)).ny = f.ay.length := hf.vy
  obtain ⟨g, e, w, hr, u1, u2, u3⟩ := SF.C15_import_reads_partial (ux := f.ux) (uy := f.uy) (uv := f.uv) (m := .none) hnx hny h2x h2y
    trivial (Or.inl hf.incx) (Or.inl hf.incy) (Or.inl ⟨hf.incx, hf.incy⟩)
  refine ⟨g, e1, ?_, w, ?_, u1, u2, u3⟩
  · unfold importPicture axisOr
    simp only [hnx, hny, ne_eq, not_true, if_false]
    exact e
  · intro x y r
    rw [hr]
    constructor
    · rintro ⟨i, j, hi, hj, rfl⟩
      refine ⟨i, j, hi, hj, ?_⟩
      rw [unpicture_picture hf (getElem?_some_lt hj)]; rfl
    · rintro ⟨i, j, hi, hj, rfl⟩
      refine ⟨i, j, hi, hj, ?_⟩
      rw [unpicture_picture hf (getElem?_some_lt hj)]; rfl

/-- C66: on a picture the abscissa goes with the columns, to the right, and the ordinate with the lines, upwards: line `r` and
column `c` hold the value of the column `c` of the field and of its line `r` counted from the largest ordinate.  Fields of a
collection are oriented in the same way. -/
theorem C66_orientation {f : SF} (hf : f.WF) {r c : Nat} :
    (∃ p, exportPicture true f = .ok p ∧ p.nx = f.ay.length ∧ p.ny = f.ax.length ∧
      p.get r c = f.cell c (f.ay.length - 1 - r)) ∧
    ∀ (fs : List SF) (k : Nat), fs[k]? = some f → ∃ p, (exportCollection fs)[k]? = some p ∧ exportPicture true f = .ok p := by
  refine ⟨⟨picture f.values, rfl, hf.vy, hf.vx, ?_⟩, ?_⟩
  · simp only [picture, Grid.transpose, Grid.flipY, SF.values]
    rw [hf.vy]
  · intro fs k hk
    exact ⟨_, by simp only [exportCollection, List.getElem?_map, hk, Option.map_some], rfl⟩

/-- C66: a picture without given axes is put on the numbers of its columns and of its lines, from the bottom. -/
theorem C66_default_axes {p : Grid (Option Rat)} (h2x : 2 ≤ p.ny) (h2y : 2 ≤ p.nx) (ux uy uv : Sym) :
    ∃ g, importPicture p none none ux uy uv = .ok g ∧ g.WF ∧
      ∀ x y r, g.Reads x y r ↔ ∃ c l : Nat, c < p.ny ∧ l < p.nx ∧ x = c ∧ y = l ∧ r = p.get (p.nx - 1 - l) c := by
  have hinc : ∀ n : Nat, Inc ((List.range n).map fun i : Nat => (i : Rat)) := by
    intro n
    exact Inc.range_map fun i j h => by exact_mod_cast h
  obtain ⟨g, e, w, hr, -, -, -⟩ := SF.C15_import_reads_partial (ux := ux) (uy := uy) (uv := uv) (m := .none) (v := unpicture p)
    (ax := (List.range p.ny).map fun i : Nat => (i : Rat)) (ay := (List.range p.nx).map fun i : Nat => (i : Rat))
    (by simp [unpicture, Grid.transpose, Grid.flipY]) (by simp [unpicture, Grid.transpose, Grid.flipY]) (by simpa using h2x)
    (by simpa using h2y) trivial (Or.inl (hinc _)) (Or.inl (hinc _)) (Or.inl ⟨hinc _, hinc _⟩)
  refine ⟨g, e, w, ?_⟩
  intro x y r
  rw [hr]
  have hget : ∀ (n i : Nat) (x : Rat), ((List.range n).map fun i : Nat => (i : Rat))[i]? = some x ↔ i < n ∧ x = i := by
    intro n i x
    by_cases h : i < n
    · simp [h, eq_comm]
    · simp [h]
  simp only [hget]
  constructor
  · rintro ⟨i, j, ⟨h1, h2⟩, ⟨h3, h4⟩, h5⟩
    exact ⟨i, j, h1, h3, h2, h4, h5⟩
  · rintro ⟨i, j, h1, h3, h2, h4, h5⟩
    exact ⟨i, j, ⟨h1, h2⟩, ⟨h3, h4⟩, h5⟩

/-- C66: axes of other lengths are refused. -/
theorem C66_bad_axes (p : Grid (Option Rat)) (ax : List Rat) (ay : Option (List Rat)) (ux uy uv : Sym) (h : ax.length ≠ p.ny) :
    importPicture p (some ax) ay ux uy uv = .error .valueError := by
  have : (unpicture p).nx = p.ny := rfl
  simp [importPicture, axisOr, this, h]

/-- C66 fails for every field when the file does not exist yet: it cannot be created. -/
theorem C66_new_file_violated (f : SF) : exportPicture false f = .error .osError := rfl

/-- C66 fails for lists of fields: for every field which is not square, the picture made from a list differs from the picture
made from the field alone (it has the columns of the field as lines). -/
theorem C66_list_violated {f : SF} (hf : f.WF) (hne : f.ax.length ≠ f.ay.length) {fs : List SF} {k : Nat} (hk : fs[k]? = some f) :
    ∃ p q, (exportList fs)[k]? = some p ∧ exportPicture true f = .ok q ∧ p.nx = f.ax.length ∧ q.nx = f.ay.length ∧ p ≠ q := by
  refine ⟨f.values, picture f.values, by simp only [exportList, List.getElem?_map, hk, Option.map_some], rfl, hf.vx, hf.vy, ?_⟩
  intro e
  have h1 : f.values.nx = f.ax.length := hf.vx
  have h2 : (picture f.values).nx = f.ay.length := hf.vy
  rw [e, h2] at h1
  exact hne h1.symm

/-! ### C118 -/

/-- The number written by a list of decimal digits. -/
def numeral (l : List Nat) : Nat := l.foldl (fun a d => 10 * a + d) 0

theorem foldl_numeral (l : List Nat) (a : Nat) : l.foldl (fun a d => 10 * a + d) a = a * 10 ^ l.length + numeral l := by
  induction l generalizing a with
  | nil => simp [numeral]
  | cons d l ih =>
    unfold numeral
    simp only [List.foldl_cons, List.length_cons]
    rw [ih, ih (10 * 0 + d)]
    ring

theorem numeral_cons (d : Nat) (l : List Nat) : numeral (d :: l) = d * 10 ^ l.length + numeral l := by
  conv_lhs => unfold numeral
  rw [List.foldl_cons, foldl_numeral]
  simp

theorem numeral_append (l m : List Nat) : numeral (l ++ m) = numeral l * 10 ^ m.length + numeral m := by
  conv_lhs => unfold numeral
  rw [List.foldl_append, foldl_numeral]
  rfl

theorem numeral_lt {l : List Nat} (h : ∀ d ∈ l, d < 10) : numeral l < 10 ^ l.length := by
  induction l with
  | nil => simp [numeral]
  | cons d l ih =>
    rw [numeral_cons, List.length_cons, pow_succ]
    have h1 := h d (by simp)
    have h2 := ih fun d hd => h d (by simp [hd])
    nlinarith [Nat.pos_of_ne_zero (pow_ne_zero l.length (by decide : (10 : Nat) ≠ 0))]

theorem digits_spec (n : Nat) : (∀ d ∈ digits n, d < 10) ∧ numeral (digits n) = n ∧ (digits n).length ≤ n + 1 ∧ digits n ≠ [] ∧
    (n ≠ 0 → 10 ^ ((digits n).length - 1) ≤ n) := by
  induction n using Nat.strongRecOn with
  | ind n ih =>
    rw [digits]
    split
    · next h => exact ⟨by simpa using h, by simp [numeral], by simp, by simp, by intro h0; simp; omega⟩
    · next h =>
      obtain ⟨h1, h2, h3, h4, h5⟩ := ih (n / 10) (by omega)
      refine ⟨?_, ?_, ?_, by simp, ?_⟩
      · intro d hd
        rcases List.mem_append.1 hd with hd | hd
        · exact h1 d hd
        · simp at hd; omega
      · rw [numeral_append, h2]
        simp [numeral]
        omega
      · simp; omega
      · intro _
        have h6 := h5 (by omega)
        have hl : (digits (n / 10)).length ≠ 0 := by simpa using h4
        simp only [List.length_append, List.length_singleton, Nat.add_sub_cancel]
        have : (digits (n / 10)).length = ((digits (n / 10)).length - 1) + 1 := by omega
        rw [this, pow_succ]
        omega

theorem digits_length {n : Nat} (h : n < 100000) : (digits n).length ≤ 5 := by
  by_cases h0 : n = 0
  · subst h0; decide +kernel
  · have := (digits_spec n).2.2.2.2 h0
    by_contra hc
    have h6 : 5 ≤ (digits n).length - 1 := by omega
    have := Nat.pow_le_pow_right (show 0 < 10 by decide) h6
    omega

theorem pad5_spec {n : Nat} (h : n < 100000) : (pad5 n).length = 5 ∧ numeral (pad5 n) = n ∧ ∀ d ∈ pad5 n, d < 10 := by
  have hl := digits_length h
  obtain ⟨h1, h2, -⟩ := digits_spec n
  have hz : ∀ k, numeral (List.replicate k 0) = 0 := by
    intro k
    induction k with
    | zero => rfl
    | succ k ih => rw [List.replicate_succ, numeral_cons, ih]; simp
  refine ⟨by simp [pad5]; omega, by rw [pad5, numeral_append, hz, h2]; simp, ?_⟩
  intro d hd
  rcases List.mem_append.1 hd with hd | hd
  · rw [List.eq_of_mem_replicate hd]; decide
  · exact h1 d hd

theorem lex_of_numeral {l m : List Nat} (h : l.length = m.length) (hl : ∀ d ∈ l, d < 10) (hm : ∀ d ∈ m, d < 10)
    (hlt : numeral l < numeral m) : l < m := by
  induction l generalizing m with
  | nil =>
    rw [List.length_nil, eq_comm, List.length_eq_zero_iff] at h
    subst h; simp at hlt
  | cons a l ih =>
    match m, h with
    | b :: m, h =>
      rw [numeral_cons, numeral_cons] at hlt
      have hlen : l.length = m.length := by simpa using h
      rw [hlen] at hlt
      have k1 := numeral_lt fun d hd => hl d (List.mem_cons_of_mem _ hd)
      have k2 := numeral_lt fun d hd => hm d (List.mem_cons_of_mem _ hd)
      rw [hlen] at k1
      rw [List.cons_lt_cons_iff]
      rcases lt_trichotomy a b with hab | hab | hab
      · exact Or.inl hab
      · subst hab
        exact Or.inr ⟨rfl, ih hlen (fun d hd => hl d (List.mem_cons_of_mem _ hd)) (fun d hd => hm d (List.mem_cons_of_mem _ hd)) (by omega)⟩
      · exfalso
        have : (b + 1) * 10 ^ m.length ≤ a * 10 ^ m.length := Nat.mul_le_mul_right _ hab
        have e : (b + 1) * 10 ^ m.length = b * 10 ^ m.length + 10 ^ m.length := by ring
        omega

/-- C118: the names given by `export_to_pictures` to the pictures `i < j` come in this order when they are sorted as
`import_from_pictures` does.
Partial: at most 100000 pictures (see `C118_order_violated`). -/
theorem C118_order_partial {i j : Nat} (h : i < j) (hj : j < 100000) : pad5 i < pad5 j := by
  obtain ⟨a1, a2, a3⟩ := pad5_spec (n := i) (by omega)
  obtain ⟨b1, b2, b3⟩ := pad5_spec hj
  exact lex_of_numeral (by omega) a3 b3 (by omega)

/-- C118: different pictures have different names, whatever their number. -/
theorem C118_injective {i j : Nat} (h : pad5 i = pad5 j) : i = j := by
  have hz : ∀ k, numeral (List.replicate k 0) = 0 := by
    intro k
    induction k with
    | zero => rfl
    | succ k ih => rw [List.replicate_succ, numeral_cons, ih]; simp
  have key : ∀ n, numeral (pad5 n) = n := by
    intro n
    rw [pad5, numeral_append, hz, (digits_spec n).2.1]; simp
  rw [← key i, ← key j, h]

example : pad5 42 = [0, 0, 0, 4, 2] ∧ pad5 123456 = [1, 2, 3, 4, 5, 6] := by
  constructor <;> (unfold pad5; decide +kernel)

/-- C118 fails for more than 100000 pictures: the picture 100000 comes before the picture 99999. -/
theorem C118_order_violated : pad5 100000 < pad5 99999 := by
  unfold pad5; decide +kernel

end IMT.File
