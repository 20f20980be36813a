import Verif.Prelude

/-!
Array buffers, views and copies of fields: property C07.

An array is the list of the addresses of its cells; a view of an array holds some of the same addresses.
-/

namespace IMT.Alias

/-- The memory: contents of the cells (NaN is `none`), and the first address never allocated. -/
structure Mem where
  cells : Nat → Option Rat
  next : Nat

/-- A field object: the arrays of its two axes and of its values (row after row). -/
structure Obj where
  ax : List Nat
  ay : List Nat
  val : List Nat

/-- Contents of an array. -/
def read (m : Mem) (a : List Nat) : List (Option Rat) := a.map m.cells

/-- `np.array(...)`: a new buffer. -/
def alloc (m : Mem) (v : List (Option Rat)) : Mem × List Nat :=
  (⟨fun a => if a < m.next then m.cells a else v.getD (a - m.next) none, m.next + v.length⟩,
   (List.range v.length).map (m.next + ·))

/-- An in-place elementwise operation such as `a -= c`: every cell of the array is rewritten. -/
def update (m : Mem) (a : List Nat) (φ : Rat → Rat) : Mem :=
  { m with cells := fun b => if b ∈ a then (m.cells b).map φ else m.cells b }

/-- `a[k] = v`. -/
def store (m : Mem) (a : List Nat) (k : Nat) (v : Option Rat) : Mem :=
  match a[k]? with
  | none => m
  | some b => { m with cells := fun c => if c = b then v else m.cells c }

/-- `Field.copy`, core/field.py:150-154 (`copy.deepcopy`): new buffers for every array. -/
def copy (m : Mem) (o : Obj) : Mem × Obj :=
  let (m1, ax) := alloc m (read m o.ax)
  let (m2, ay) := alloc m1 (read m1 o.ay)
  let (m3, val) := alloc m2 (read m2 o.val)
  (m3, ⟨ax, ay, val⟩)

/-- `ScalarField.crop(ind=True, inplace=False)`, core/field.py:569-572 and core/scalarfield.py:1407-1417: the
field is copied, then its arrays are replaced by slices (views) of the arrays of the **source**.  The values are
taken on whole rows only (the y interval is left whole). -/
def cropX (m : Mem) (o : Obj) (lo hi : Nat) : Mem × Obj :=
  let (m', _) := copy m o
  (m', ⟨slice o.ax lo (hi + 1), o.ay, slice o.val (lo * o.ay.length) ((hi + 1) * o.ay.length)⟩)

/-- Operations a user can apply to a field. -/
inductive Op where
  /-- `set_origin(x=c)`, core/field.py:469-472. -/
  | originX (c : Rat)
  /-- `set_origin(y=c)`, core/field.py:473-476. -/
  | originY (c : Rat)
  /-- `scale(scalex=c, inplace=True)` with `c > 0`, core/field.py:318-320, or `change_unit('x', ..)`, 443-448. -/
  | scaleX (c : Rat)
  /-- `scale(scaley=c, inplace=True)` with `c > 0`, core/field.py:338-340, or `change_unit('y', ..)`, 449-454. -/
  | scaleY (c : Rat)
  /-- `scale(scalev=c, inplace=True)`, core/scalarfield.py:1279-1280. -/
  | scaleV (c : Rat)
  /-- `f.values[i, j] = v`. -/
  | setCell (k : Nat) (v : Option Rat)
  /-- `f.values = new` with a new array, core/scalarfield.py:327-336. -/
  | setValues (v : List (Option Rat))
  /-- `f.axe_x = new`, core/field.py:54-58. -/
  | setAxis (v : List (Option Rat))

/-- `self.axe_x -= c`: the buffer is modified in place, then the property setter stores a copy of it
(core/field.py:54-58, 69-76). -/
def updateCopy (m : Mem) (a : List Nat) (φ : Rat → Rat) : Mem × List Nat :=
  alloc (update m a φ) (read (update m a φ) a)

/-- One operation.  `values *= c` rewrites the buffer and stores the same buffer again (`np.asarray` does not
copy, core/scalarfield.py:330). -/
def step (m : Mem) (o : Obj) : Op → Mem × Obj
  | .originX c => let (m', ax) := updateCopy m o.ax (· - c); (m', { o with ax := ax })
  | .originY c => let (m', ay) := updateCopy m o.ay (· - c); (m', { o with ay := ay })
  | .scaleX c => let (m', ax) := updateCopy m o.ax (· * c); (m', { o with ax := ax })
  | .scaleY c => let (m', ay) := updateCopy m o.ay (· * c); (m', { o with ay := ay })
  | .scaleV c => (update m o.val (· * c), o)
  | .setCell k v => (store m o.val k v, o)
  | .setValues v => let (m', val) := alloc m v; (m', { o with val := val })
  | .setAxis v => let (m', ax) := alloc m v; (m', { o with ax := ax })

/-- A history of operations on one object. -/
def run (m : Mem) (o : Obj) : List Op → Mem × Obj
  | [] => (m, o)
  | op :: ops => let (m', o') := step m o op; run m' o' ops

/-- Everything a field reports. -/
def report (m : Mem) (o : Obj) : List (Option Rat) × List (Option Rat) × List (Option Rat) :=
  (read m o.ax, read m o.ay, read m o.val)

/-- The addresses of an object. -/
def addrs (o : Obj) : List Nat := o.ax ++ o.ay ++ o.val

/-- An object whose arrays have been allocated. -/
def Valid (m : Mem) (o : Obj) : Prop := ∀ a ∈ addrs o, a < m.next

/-! ### helper lemmas -/

/-- What an operation may do to memory cells of other objects: nothing. -/
structure Keeps (m m' : Mem) (own : List Nat) : Prop where
  le : m.next ≤ m'.next
  same : ∀ a, a < m.next → a ∉ own → m'.cells a = m.cells a

theorem alloc_keeps (m : Mem) (v : List (Option Rat)) (own : List Nat) : Keeps m (alloc m v).1 own :=
  ⟨by simp [alloc], fun a h _ => by simp [alloc, h]⟩

theorem alloc_addr {m : Mem} {v : List (Option Rat)} {a : Nat} (h : a ∈ (alloc m v).2) :
    m.next ≤ a ∧ a < (alloc m v).1.next := by
  simp only [alloc, List.mem_map, List.mem_range] at h ⊢
  obtain ⟨k, hk, rfl⟩ := h
  omega

theorem update_keeps (m : Mem) (a : List Nat) (φ : Rat → Rat) (own : List Nat) (h : ∀ b ∈ a, b ∈ own) :
    Keeps m (update m a φ) own := by
  refine ⟨le_refl _, fun b _ hb => ?_⟩
  simp only [update]
  rw [if_neg (fun hm => hb (h b hm))]

theorem Keeps.trans {m m' m'' : Mem} {own : List Nat} (h1 : Keeps m m' own) (h2 : Keeps m' m'' own) :
    Keeps m m'' own :=
  ⟨le_trans h1.le h2.le, fun a ha hn => by rw [h2.same a (lt_of_lt_of_le ha h1.le) hn, h1.same a ha hn]⟩

theorem store_keeps (m : Mem) (a : List Nat) (k : Nat) (v : Option Rat) (own : List Nat) (h : ∀ b ∈ a, b ∈ own) :
    Keeps m (store m a k v) own := by
  unfold store
  cases hk : a[k]? with
  | none => exact ⟨le_refl _, fun _ _ _ => rfl⟩
  | some b =>
    refine ⟨le_refl _, fun c _ hc => ?_⟩
    simp only
    rw [if_neg]
    rintro rfl
    exact hc (h c (List.mem_of_getElem? hk))

theorem updateCopy_keeps (m : Mem) (a : List Nat) (φ : Rat → Rat) (own : List Nat) (h : ∀ b ∈ a, b ∈ own) :
    Keeps m (updateCopy m a φ).1 own ∧ ∀ b ∈ (updateCopy m a φ).2, m.next ≤ b ∧ b < (updateCopy m a φ).1.next := by
  constructor
  · exact (update_keeps m a φ own h).trans (alloc_keeps _ _ _)
  · intro b hb
    exact alloc_addr hb

/-- An operation writes only in cells of its object or in new cells. -/
theorem step_keeps {m : Mem} {o : Obj} (op : Op) :
    Keeps m (step m o op).1 (addrs o) ∧
      ∀ b ∈ addrs (step m o op).2, b ∈ addrs o ∨ (m.next ≤ b ∧ b < (step m o op).1.next) := by
  have hax : ∀ b ∈ o.ax, b ∈ addrs o := fun b hb => by simp [addrs, hb]
  have hay : ∀ b ∈ o.ay, b ∈ addrs o := fun b hb => by simp [addrs, hb]
  have hval : ∀ b ∈ o.val, b ∈ addrs o := fun b hb => by simp [addrs, hb]
  have newax : ∀ (l : List Nat) (p : Nat → Prop), (∀ b ∈ l, p b) →
      ∀ b ∈ addrs { o with ax := l }, b ∈ addrs o ∨ p b := by
    intro l p hp b hb
    simp only [addrs, List.mem_append] at hb ⊢
    rcases hb with (hb | hb) | hb
    · exact Or.inr (hp b hb)
    · exact Or.inl (Or.inl (Or.inr hb))
    · exact Or.inl (Or.inr hb)
  have neway : ∀ (l : List Nat) (p : Nat → Prop), (∀ b ∈ l, p b) →
      ∀ b ∈ addrs { o with ay := l }, b ∈ addrs o ∨ p b := by
    intro l p hp b hb
    simp only [addrs, List.mem_append] at hb ⊢
    rcases hb with (hb | hb) | hb
    · exact Or.inl (Or.inl (Or.inl hb))
    · exact Or.inr (hp b hb)
    · exact Or.inl (Or.inr hb)
  have newval : ∀ (l : List Nat) (p : Nat → Prop), (∀ b ∈ l, p b) →
      ∀ b ∈ addrs { o with val := l }, b ∈ addrs o ∨ p b := by
    intro l p hp b hb
    simp only [addrs, List.mem_append] at hb ⊢
    rcases hb with (hb | hb) | hb
    · exact Or.inl (Or.inl (Or.inl hb))
    · exact Or.inl (Or.inl (Or.inr hb))
    · exact Or.inr (hp b hb)
  cases op with
  | originX c =>
    obtain ⟨h1, h2⟩ := updateCopy_keeps m o.ax (· - c) (addrs o) hax
    exact ⟨h1, newax _ _ h2⟩
  | originY c =>
    obtain ⟨h1, h2⟩ := updateCopy_keeps m o.ay (· - c) (addrs o) hay
    exact ⟨h1, neway _ _ h2⟩
  | scaleX c =>
    obtain ⟨h1, h2⟩ := updateCopy_keeps m o.ax (· * c) (addrs o) hax
    exact ⟨h1, newax _ _ h2⟩
  | scaleY c =>
    obtain ⟨h1, h2⟩ := updateCopy_keeps m o.ay (· * c) (addrs o) hay
    exact ⟨h1, neway _ _ h2⟩
  | scaleV c => exact ⟨update_keeps m o.val _ _ hval, fun b hb => Or.inl hb⟩
  | setCell k v => exact ⟨store_keeps m o.val k v _ hval, fun b hb => Or.inl hb⟩
  | setValues v => exact ⟨alloc_keeps _ _ _, newval _ _ fun b hb => alloc_addr hb⟩
  | setAxis v => exact ⟨alloc_keeps _ _ _, newax _ _ fun b hb => alloc_addr hb⟩

/-- A history on an object that shares no cell with `f` leaves the cells of `f` alone. -/
theorem run_keeps (ops : List Op) : ∀ (m : Mem) (o : Obj) (f : List Nat), (∀ a ∈ f, a < m.next ∧ a ∉ addrs o) →
    ∀ a ∈ f, (run m o ops).1.cells a = m.cells a := by
  induction ops with
  | nil => intro m o f _ a _; rfl
  | cons op ops ih =>
    intro m o f hf a ha
    obtain ⟨h1, h2⟩ := step_keeps (m := m) (o := o) op
    have := ih (step m o op).1 (step m o op).2 f (by
      intro b hb
      obtain ⟨hb1, hb2⟩ := hf b hb
      refine ⟨lt_of_lt_of_le hb1 h1.le, ?_⟩
      intro hc
      rcases h2 b hc with hc | hc
      · exact hb2 hc
      · omega) a ha
    show (run (step m o op).1 (step m o op).2 ops).1.cells a = _
    rw [this, h1.same a (hf a ha).1 (hf a ha).2]

/-- A copy shares no cell with what was allocated before, and changes nothing of it. -/
theorem copy_fresh (m : Mem) (o : Obj) :
    Keeps m (copy m o).1 [] ∧ ∀ a ∈ addrs (copy m o).2, m.next ≤ a := by
  have k1 := alloc_keeps m (read m o.ax) []
  have k2 := alloc_keeps (alloc m (read m o.ax)).1 (read (alloc m (read m o.ax)).1 o.ay) []
  have k3 := alloc_keeps (alloc (alloc m (read m o.ax)).1 (read (alloc m (read m o.ax)).1 o.ay)).1
    (read (alloc (alloc m (read m o.ax)).1 (read (alloc m (read m o.ax)).1 o.ay)).1 o.val) []
  refine ⟨(k1.trans k2).trans k3, ?_⟩
  intro a ha
  simp only [copy, addrs, List.mem_append] at ha
  rcases ha with (ha | ha) | ha
  · exact (alloc_addr ha).1
  · exact le_trans k1.le (alloc_addr ha).1
  · exact le_trans (k1.trans k2).le (alloc_addr ha).1

theorem read_alloc (m : Mem) (v : List (Option Rat)) : read (alloc m v).1 (alloc m v).2 = v := by
  unfold read alloc
  simp only [List.map_map]
  apply List.ext_getElem?
  intro i
  rw [List.getElem?_map]
  by_cases hi : i < v.length
  · rw [List.getElem?_range hi]
    simp [hi]
  · rw [List.getElem?_eq_none (by simpa using hi), List.getElem?_eq_none (by simpa using hi)]; rfl

theorem read_congr {m m' : Mem} {l : List Nat} (h : ∀ a ∈ l, m'.cells a = m.cells a) : read m' l = read m l := by
  unfold read; exact List.map_congr_left h

/-! ### C07 -/

/-- C07 for an explicit copy: a copy reports the same as its source, and whatever history of operations is
applied to the copy, the source still reports the same. -/
theorem C07_copy_independent {m : Mem} {f : Obj} (hv : Valid m f) (ops : List Op) :
    report (copy m f).1 (copy m f).2 = report m f ∧
    report (run (copy m f).1 (copy m f).2 ops).1 f = report m f := by
  have hx : ∀ a ∈ f.ax, a < m.next := fun a h => hv a (by simp [addrs, h])
  have hy : ∀ a ∈ f.ay, a < m.next := fun a h => hv a (by simp [addrs, h])
  have hz : ∀ a ∈ f.val, a < m.next := fun a h => hv a (by simp [addrs, h])
  obtain ⟨k, fresh⟩ := copy_fresh m f
  constructor
  · have k1 := alloc_keeps m (read m f.ax) []
    have k2 := alloc_keeps (alloc m (read m f.ax)).1 (read (alloc m (read m f.ax)).1 f.ay) []
    have k3 := alloc_keeps (alloc (alloc m (read m f.ax)).1 (read (alloc m (read m f.ax)).1 f.ay)).1
      (read (alloc (alloc m (read m f.ax)).1 (read (alloc m (read m f.ax)).1 f.ay)).1 f.val) []
    have e1 : read (copy m f).1 (copy m f).2.ax = read m f.ax := by
      rw [← read_alloc m (read m f.ax)]
      apply read_congr
      intro a ha
      exact (k2.trans k3).same a (alloc_addr ha).2 (by simp)
    have e2 : read (copy m f).1 (copy m f).2.ay = read m f.ay := by
      have : read (alloc m (read m f.ax)).1 f.ay = read m f.ay :=
        read_congr fun a ha => k1.same a (hy a ha) (by simp)
      rw [← this, ← read_alloc (alloc m (read m f.ax)).1 (read (alloc m (read m f.ax)).1 f.ay)]
      apply read_congr
      intro a ha
      exact k3.same a (alloc_addr ha).2 (by simp)
    have e3 : read (copy m f).1 (copy m f).2.val = read m f.val := by
      have : read (alloc (alloc m (read m f.ax)).1 (read (alloc m (read m f.ax)).1 f.ay)).1 f.val = read m f.val :=
        read_congr fun a ha => (k1.trans k2).same a (hz a ha) (by simp)
      rw [← this]
      exact read_alloc _ _
    unfold report
    rw [e1, e2, e3]
  · have hk := run_keeps ops (copy m f).1 (copy m f).2 (addrs f) (by
      intro a ha
      refine ⟨lt_of_lt_of_le (hv a ha) k.le, fun hc => ?_⟩
      have := fresh a hc
      have := hv a ha
      omega)
    have hall : ∀ a ∈ addrs f, (run (copy m f).1 (copy m f).2 ops).1.cells a = m.cells a := fun a ha => by
      rw [hk a ha, k.same a (hv a ha) (by simp)]
    unfold report
    rw [read_congr fun a ha => hall a (by simp [addrs, ha]), read_congr fun a ha => hall a (by simp [addrs, ha]),
      read_congr fun a ha => hall a (by simp [addrs, ha])]

/-- C07 for a crop followed by a copy: no history on the copied crop changes what the source reports.
Partial: the crop itself shares its arrays with the source (`C07_crop_axis_violated`). -/
theorem C07_crop_copy_partial {m : Mem} {f : Obj} (hv : Valid m f) (lo hi : Nat) (ops : List Op) :
    report (run (copy (cropX m f lo hi).1 (cropX m f lo hi).2).1 (copy (cropX m f lo hi).1 (cropX m f lo hi).2).2
      ops).1 f = report m f := by
  obtain ⟨k, _⟩ := copy_fresh m f
  obtain ⟨k', fresh⟩ := copy_fresh (cropX m f lo hi).1 (cropX m f lo hi).2
  have hle : m.next ≤ (cropX m f lo hi).1.next := k.le
  have hk := run_keeps ops (copy (cropX m f lo hi).1 (cropX m f lo hi).2).1
    (copy (cropX m f lo hi).1 (cropX m f lo hi).2).2 (addrs f) (by
      intro a ha
      have := hv a ha
      refine ⟨lt_of_lt_of_le this (le_trans hle k'.le), fun hc => ?_⟩
      have := fresh a hc
      omega)
  have hall : ∀ a ∈ addrs f, (run (copy (cropX m f lo hi).1 (cropX m f lo hi).2).1
      (copy (cropX m f lo hi).1 (cropX m f lo hi).2).2 ops).1.cells a = m.cells a := by
    intro a ha
    rw [hk a ha, k'.same a (lt_of_lt_of_le (hv a ha) hle) (by simp)]
    exact k.same a (hv a ha) (by simp)
  unfold report
  rw [read_congr fun a ha => hall a (by simp [addrs, ha]), read_congr fun a ha => hall a (by simp [addrs, ha]),
    read_congr fun a ha => hall a (by simp [addrs, ha])]

/-- A field with axes [0, 1, 2] and [5], values [10, 11, 12]. -/
def mem0 : Mem := ⟨fun a => [some 0, some 1, some 2, some 5, some 10, some 11, some 12].getD a none, 7⟩
def obj0 : Obj := ⟨[0, 1, 2], [3], [4, 5, 6]⟩

example : Valid mem0 obj0 := by unfold Valid; decide

/-- C07 fails: moving the origin of a crop moves the axis of the source. -/
theorem C07_crop_axis_violated :
    Valid mem0 obj0 ∧ read mem0 obj0.ax = [some 0, some 1, some 2] ∧
    read (run (cropX mem0 obj0 1 2).1 (cropX mem0 obj0 1 2).2 [.originX 1]).1 obj0.ax = [some 0, some 0, some 1] := by
  refine ⟨by unfold Valid; decide, by decide +kernel, by decide +kernel⟩

/-- C07 fails: scaling the values of a crop scales those of the source. -/
theorem C07_crop_values_violated :
    read (run (cropX mem0 obj0 1 2).1 (cropX mem0 obj0 1 2).2 [.scaleV 2]).1 obj0.val = [some 10, some 22, some 24] := by
  decide +kernel

example : report (run (copy mem0 obj0).1 (copy mem0 obj0).2 [.originX 1, .scaleV 3, .setCell 0 none]).1 obj0
    = ([some 0, some 1, some 2], [some 5], [some 10, some 11, some 12]) := by decide +kernel

end IMT.Alias
