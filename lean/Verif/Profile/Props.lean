import Verif.Profile.Lemmas

/-! Properties of profiles: construction (C30), histories (C35), slices (C32, C37), scaling and units. -/

namespace IMT.Profile

variable {srt : List Rat → List Nat}

theorem argsort_ok : IsArgsort argsort := by
  intro l
  refine ⟨List.perm_insertionSort _ _, ?_⟩
  have : Std.Total fun i j : Nat => (l[i]?).getD 0 ≤ (l[j]?).getD 0 := ⟨fun i j => le_total _ _⟩
  have : IsTrans Nat fun i j : Nat => (l[i]?).getD 0 ≤ (l[j]?).getD 0 := ⟨fun i j k => le_trans⟩
  have hw := List.pairwise_insertionSort (fun i j : Nat => (l[i]?).getD 0 ≤ (l[j]?).getD 0) (List.range l.length)
  have hm : ∀ i ∈ argsort l, i < l.length := by
    intro i hi
    exact List.mem_range.mp ((List.perm_insertionSort _ _).mem_iff.mp hi)
  unfold take
  rw [List.pairwise_filterMap]
  refine hw.imp_of_mem ?_
  intro i j _ _ hij a ha b hb
  simpa [ha, hb] using hij

/-! ### C30 -/

/-- Abscissa, value and mask flag of every point. -/
def rows (p : Prof) : List (Rat × F × Bool) := p.x.zip ((getY p).zip p.m)

/-- C30: the profile is sorted; its points are the given ones, each with its own value (NaN if its own flag is set) and its
own flag (set as well if its own value is NaN). -/
theorem C30_new (hs : IsArgsort srt) (x : List Rat) (y : List F) (m : List Bool) (ux uy : Sym) (hy : y.length = x.length)
    (hm : m.length = x.length) :
    ∃ p, new srt x y (.arr m) ux uy = .ok p ∧ p.x.Pairwise (· ≤ ·) ∧ p.ux = ux ∧ p.uy = uy ∧
      (rows p).Perm ((x.zip (y.zip m)).map fun r => (r.1, if r.2.2 then none else r.2.1, r.2.2 || r.2.1.isNone)) := by
  refine ⟨_, new_arr ux uy hy hm, ?_⟩
  obtain ⟨hv, hp⟩ := build_spec hs ux uy hy hm (srt := srt)
  refine ⟨hv.2.2, rfl, rfl, ?_⟩
  have hr : rows (build (srt x) x y m ux uy) =
      (pts (build (srt x) x y m ux uy)).map fun r => (r.1, r.2, r.2.isNone) := by
    unfold rows pts
    rw [getY_valid hv, hv.2.1]
    generalize (build (srt x) x y m ux uy).y = w
    generalize (build (srt x) x y m ux uy).x = v
    induction v generalizing w with
    | nil => simp
    | cons a v ih => rcases w with _ | ⟨b, w⟩ <;> simp [ih]
  rw [hr, hp]
  have hz : ((take (x.zip (blank y m)) (srt x)).map fun r => (r.1, r.2, r.2.isNone)).Perm
      ((x.zip (blank y m)).map fun r => (r.1, r.2, r.2.isNone)) :=
    (take_nodup hs x _ (by simp [blank_length y m (by omega), hy])).map _
  refine hz.trans (List.Perm.of_eq ?_)
  clear hz hr hp hv
  induction x generalizing y m with
  | nil => simp
  | cons a x ih =>
    rcases y with _ | ⟨v, y⟩
    · simp at hy
    rcases m with _ | ⟨b, m⟩
    · simp at hm
    have := ih y m (by simpa using hy) (by simpa using hm)
    unfold blank at this ⊢
    simp only [List.zipWith_cons_cons, List.zip_cons_cons, List.map_cons, this]
    cases b <;> simp

/-- C30: arrays of different lengths are refused. -/
theorem C30_lengths (x : List Rat) (y : List F) (m : MaskArg) (ux uy : Sym) (hy : y.length ≠ x.length) :
    new srt x y m ux uy = .error .valueError := by
  unfold new
  rw [if_pos (fun h => hy h.symm)]

example : ((new argsort [3, 1, 2] [some 30, some 10, none] (.arr [false, true, false]) .m .s).toOption.map rows) =
    some [(1, none, true), (2, none, true), (3, some 30, false)] := by decide +kernel

/-- C88 fails: `mask=True` gives the same profile as `mask=False`, with every finite value left valid. -/
theorem C88_mask_flag_violated (x : List Rat) (y : List F) (ux uy : Sym) :
    new srt x y (.flag true) ux uy = new srt x y (.flag false) ux uy := rfl

/-- C88: the default `mask=False` masks nothing but NaN. -/
theorem C88_mask_false_partial (hs : IsArgsort srt) (x : List Rat) (y : List F) (ux uy : Sym) (hy : y.length = x.length) :
    ∃ p, new srt x y (.flag false) ux uy = .ok p ∧ p.x.Pairwise (· ≤ ·) ∧
      (rows p).Perm ((x.zip y).map fun r => (r.1, r.2, r.2.isNone)) := by
  obtain ⟨p, h1, h2, _, _, h3⟩ := C30_new hs x y (List.replicate x.length false) ux uy hy (by simp)
  refine ⟨p, ?_, h2, h3.trans (List.Perm.of_eq ?_)⟩
  · rw [new_flag _ _ _ hy, ← new_arr ux uy hy (by simp)]; exact h1
  · clear h1 h2 h3
    induction x generalizing y with
    | nil => simp
    | cons a x ih =>
      rcases y with _ | ⟨v, y⟩
      · simp at hy
      have := ih y (by simpa using hy)
      simp only [List.length_cons, List.replicate_succ, List.zip_cons_cons, List.map_cons, this]
      simp

example : ((new argsort [3, 1] [some 30, some 10] (.flag true) .m .s).toOption.map rows) =
    some [(1, some 10, false), (3, some 30, false)] := by decide +kernel

/-! ### C35 -/

/-- C35: `add_point` inserts the point and nothing else, and keeps the profile sorted. -/
theorem C35_add_point (hs : IsArgsort srt) {p : Prof} (h : Valid p) (x : Rat) (y : F) :
    ∃ q, addPoint srt p x y = (q, .ok ⟨⟩) ∧ Valid q ∧ (pts q).Perm ((x, y) :: pts p) ∧ q.ux = p.ux ∧ q.uy = p.uy := by
  unfold addPoint
  rw [getY_valid h, pts_valid h]
  have hl : p.x.length = p.y.length := h.1.symm
  obtain ⟨q, h1, h2, h3, h4, h5, _⟩ := setXY_spec hs p (v := p.x.take (searchLeft p.x x) ++ [x] ++ p.x.drop (searchLeft p.x x))
    (w := p.y.take (searchLeft p.x x) ++ [y] ++ p.y.drop (searchLeft p.x x)) (by simp [hl])
  exact ⟨q, h1, h2, h3.trans (zip_insert _ _ _ _ _ hl), h4, h5⟩

/-- C35: `add_points` gives the points of both profiles; an empty profile takes the units of the other; different units
are refused and the profile is left as it was. -/
theorem C35_add_points (hs : IsArgsort srt) {p q : Prof} (hp : Valid p) (hq : Valid q) :
    (p.x = [] ∨ (q.ux = p.ux ∧ q.uy = p.uy) →
      ∃ r, addPoints srt p q = (r, .ok ⟨⟩) ∧ Valid r ∧ (pts r).Perm (pts p ++ pts q) ∧ r.ux = q.ux ∧ r.uy = q.uy) ∧
    (¬ (p.x = [] ∨ (q.ux = p.ux ∧ q.uy = p.uy)) → addPoints srt p q = (p, .error .valueError)) := by
  constructor
  · intro hu
    have hux : (adoptUnits p q).ux = q.ux ∧ (adoptUnits p q).uy = q.uy := by
      unfold adoptUnits
      by_cases h0 : p.x.length = 0
      · rw [if_pos h0]; exact ⟨rfl, rfl⟩
      · rw [if_neg h0]
        rcases hu with hu | hu
        · simp [hu] at h0
        · exact ⟨hu.1.symm, hu.2.symm⟩
    unfold addPoints
    rw [if_neg (by rw [hux.1, hux.2]; simp), getY_valid hp, getY_valid hq]
    have ho : ∀ i ∈ srt (p.x ++ q.x), i < (p.x ++ q.x).length := fun i hi => mem_order hs hi
    have hl : (p.y ++ q.y).length = (p.x ++ q.x).length := by simp [hp.1, hq.1]
    have hm : p.m ++ q.m = (p.y ++ q.y).map Option.isNone := by rw [hp.2.1, hq.2.1, List.map_append]
    unfold setMask
    rw [hm, take_map, if_pos (by simp), blank_isNone]
    have hv : Valid { adoptUnits p q with
        x := take (p.x ++ q.x) (srt (p.x ++ q.x))
        y := take (p.y ++ q.y) (srt (p.x ++ q.x))
        m := (take (p.y ++ q.y) (srt (p.x ++ q.x))).map Option.isNone } := by
      refine ⟨?_, rfl, (hs _).2⟩
      show (take (p.y ++ q.y) _).length = (take (p.x ++ q.x) _).length
      rw [take_length (fun i hi => hl ▸ ho i hi), take_length ho]
    refine ⟨_, rfl, hv, ?_, hux.1, hux.2⟩
    rw [pts_valid hv, pts_valid hp, pts_valid hq]
    show ((take (p.x ++ q.x) _).zip (take (p.y ++ q.y) _)).Perm _
    rw [take_zip _ _ _ hl.symm ho, ← List.zip_append (by simp [hp.1])]
    exact take_nodup hs _ _ (by simp [hp.1, hq.1])
  · intro hu
    push Not at hu
    have h0 : ¬ p.x.length = 0 := fun h => hu.1 (List.length_eq_zero_iff.mp h)
    have ha : adoptUnits p q = p := by unfold adoptUnits; rw [if_neg h0]
    unfold addPoints
    rw [ha, if_pos]
    by_cases h1 : q.ux = p.ux
    · exact Or.inr (hu.2 h1)
    · exact Or.inl h1

/-- C35: `remove_point` removes the point of the given index and nothing else; negative indices are refused; an index
beyond the end leaves the points as they were. -/
theorem C35_remove_point (hs : IsArgsort srt) {p : Prof} (h : Valid p) (i : Int) :
    (i < 0 → removePoint srt p i = (p, .error .valueError)) ∧
    (0 ≤ i → ∃ q, removePoint srt p i = (q, .ok ⟨⟩) ∧ Valid q ∧ (pts q).Perm ((pts p).eraseIdx i.toNat) ∧
      q.ux = p.ux ∧ q.uy = p.uy) := by
  constructor
  · intro hi
    unfold removePoint
    rw [if_pos hi]
  · intro hi
    unfold removePoint
    rw [if_neg (by omega), getY_valid h, pts_valid h, remove_eq, remove_eq]
    have hl : p.x.length = p.y.length := h.1.symm
    obtain ⟨q, h1, h2, h3, h4, h5, _⟩ := setXY_spec hs p (v := p.x.eraseIdx i.toNat)
      (w := p.y.eraseIdx i.toNat) (by simp [List.length_eraseIdx, hl])
    exact ⟨q, h1, h2, h3.trans (List.Perm.of_eq (zip_eraseIdx _ _ _ hl)), h4, h5⟩

/-- Any sequence of insertions: the inserted points and the old ones. -/
theorem C35_insertions (hs : IsArgsort srt) (l : List (Rat × F)) {p : Prof} (h : Valid p) :
    Valid (l.foldl (fun s r => (addPoint srt s r.1 r.2).1) p) ∧
      (pts (l.foldl (fun s r => (addPoint srt s r.1 r.2).1) p)).Perm (l ++ pts p) := by
  induction l generalizing p with
  | nil => exact ⟨h, List.Perm.refl _⟩
  | cons r l ih =>
    obtain ⟨q, h1, h2, h3, _⟩ := C35_add_point hs h r.1 r.2
    rw [List.foldl_cons, h1]
    obtain ⟨h4, h5⟩ := ih h2
    refine ⟨h4, h5.trans ?_⟩
    refine (List.Perm.append_left l h3).trans ?_
    rw [List.cons_append]
    exact List.perm_middle

/-! ### slices -/

theorem finishInplace_spec (hs : IsArgsort srt) (p : Prof) {d : Data} (h1 : d.1.length = d.2.1.length)
    (h2 : d.2.2 = d.2.1.map Option.isNone) (_h3 : d.1.Pairwise (· ≤ ·)) :
    ∃ q, finishInplace srt p (.ok d) = (q, (finishInplace srt p (.ok d)).2) ∧ q.y.length = q.x.length ∧
      q.x.Pairwise (· ≤ ·) ∧ q.ux = p.ux ∧ q.uy = p.uy ∧
      (Inc d.1 → finishInplace srt p (.ok d) = (⟨d.1, d.2.1, d.2.2, p.ux, p.uy⟩, .ok ⟨⟩)) := by
  obtain ⟨q, e1, e2, e3, e4, e5, e6⟩ := setXY_spec hs p (v := d.1) (w := d.2.1) h1
  have hql : q.y.length = d.2.2.length := by
    have := e3.length_eq
    rw [pts_valid e2] at this
    simp [e2.1, h1] at this
    rw [h2]; simp [this, e2.1]
  unfold finishInplace
  simp only [e1]
  unfold setMask
  rw [if_pos hql.symm]
  refine ⟨_, rfl, ?_, ?_, e4, e5, ?_⟩
  · show (blank q.y d.2.2).length = q.x.length
    rw [blank_length _ _ hql]; exact e2.1
  · exact e2.2.2
  · intro hi
    obtain ⟨f1, f2⟩ := e6 hi
    have : blank q.y d.2.2 = d.2.1 := by rw [f2, h2, blank_isNone]
    rw [this]
    rcases q with ⟨qx, qy, qm, qux, quy⟩
    simp only at f1 f2 e4 e5
    subst f1 e4 e5
    rfl

theorem finishNew_spec (hs : IsArgsort srt) (p : Prof) {d : Data} (h1 : d.1.length = d.2.1.length)
    (h2 : d.2.2 = d.2.1.map Option.isNone) :
    ∃ q, finishNew srt p (.ok d) = .ok q ∧ Valid q ∧ (pts q).Perm (d.1.zip d.2.1) ∧ q.ux = p.ux ∧ q.uy = p.uy ∧
      (Inc d.1 → pts q = d.1.zip d.2.1 ∧ q.x = d.1) := by
  have hm : d.2.2.length = d.1.length := by rw [h2]; simp [h1]
  unfold finishNew
  simp only
  rw [new_arr _ _ h1.symm hm]
  obtain ⟨hv, hp⟩ := build_spec hs p.ux p.uy h1.symm hm
  rw [h2, blank_isNone] at hp
  refine ⟨_, rfl, hv, ?_, rfl, rfl, ?_⟩
  · rw [h2, hp]
    exact take_nodup hs _ _ (by simp [h1])
  · intro hi
    constructor
    · rw [h2, hp, take_order_inc hs hi _ (by simp [h1])]
    · rw [build_inc hs p.ux p.uy hi h1.symm hm]

/-- C32: `crop([i, j], ind=True)` keeps exactly the points `i .. j-1` (in order when no abscissa is repeated). -/
theorem C32_crop_ind (hs : IsArgsort srt) {p : Prof} (h : Valid p) {i j : Nat} (hij : i < j) (hj : j ≤ p.x.length) :
    ∃ q, cropInd srt p i j = .ok q ∧ Valid q ∧ (pts q).Perm (((pts p).take j).drop i) ∧
      (Inc p.x → pts q = ((pts p).take j).drop i) ∧ q.ux = p.ux ∧ q.uy = p.uy := by
  unfold cropInd cropIndData
  rw [if_neg (by omega), if_neg (by omega), getY_valid h]
  simp only [Int.toNat_natCast]
  obtain ⟨q, e1, e2, e3, e4, e5, e6⟩ := finishNew_spec hs p
    (d := (slice p.x i j, slice p.y i j, slice p.m i j)) (slice_length h.1.symm i j)
    (by show slice p.m i j = _; rw [h.2.1, slice_map])
  have hz : (slice p.x i j).zip (slice p.y i j) = ((pts p).take j).drop i := by
    rw [slice_zip, pts_valid h]; rfl
  rw [hz] at e3
  refine ⟨q, e1, e2, e3, ?_, e4, e5⟩
  intro hi
  rw [← hz]
  exact (e6 (hi.sublist (slice_sublist _ _ _))).1

/-- C32: other index pairs are refused. -/
theorem C32_crop_ind_refused (p : Prof) (i j : Int) (h : ¬ (0 ≤ i ∧ i < j ∧ j ≤ p.x.length)) :
    cropInd srt p i j = .error .valueError := by
  unfold cropInd cropIndData
  by_cases h1 : j ≤ i
  · rw [if_pos h1]; rfl
  · rw [if_neg h1, if_pos (by omega)]; rfl

/-- Non-trivial case: points 1 and 2 of four, one of them masked. -/
def ex1 : Prof := ⟨[0, 1, 2, 5], [some 3, none, some 4, some 7], [false, true, false, false], .m, .s⟩

example : Valid ex1 := by unfold Valid ex1; decide +kernel

example : ((cropInd argsort ex1 1 3).toOption.map pts) = some [(1, none), (2, some 4)] := by decide +kernel

/-! ### C37 -/

theorem findIdx_lt {m : List Bool} (h : m.all id = false) : (m.findIdx fun b => !b) < m.length := by
  rw [List.findIdx_lt_length]
  rw [List.all_eq_false] at h
  obtain ⟨b, hb, hn⟩ := h
  exact ⟨b, hb, by simpa using hn⟩

theorem firstValid_spec {m : List Bool} (h : m.all id = false) :
    m[firstValid m]? = some false ∧ ∀ k < firstValid m, m[k]? = some true := by
  have hl := findIdx_lt h
  constructor
  · unfold firstValid
    rw [List.getElem?_eq_getElem hl]
    have := List.findIdx_getElem (w := hl)
    simpa using this
  · intro k hk
    unfold firstValid at hk
    have := List.not_of_lt_findIdx hk
    rw [List.getElem?_eq_getElem (by omega)]
    simpa using this

theorem lastValid_spec {m : List Bool} (h : m.all id = false) :
    m[lastValid m]? = some false ∧ ∀ k, lastValid m < k → k < m.length → m[k]? = some true := by
  have hr : m.reverse.all id = false := by rw [List.all_reverse]; exact h
  obtain ⟨h1, h2⟩ := firstValid_spec hr
  have hl := findIdx_lt hr
  rw [List.length_reverse] at hl
  unfold firstValid at h1 h2
  unfold lastValid
  constructor
  · rw [List.getElem?_reverse (by omega)] at h1
    exact h1
  · intro k hk hkl
    have := h2 (m.length - 1 - k) (by omega)
    rw [List.getElem?_reverse (by omega)] at this
    rw [← this]
    congr 1
    omega

theorem first_le_last {m : List Bool} (h : m.all id = false) : firstValid m ≤ lastValid m := by
  by_contra hc
  have h1 := (firstValid_spec h).2 (lastValid m) (by omega)
  rw [(lastValid_spec h).1] at h1
  simp at h1

theorem last_lt {m : List Bool} (h : m.all id = false) : lastValid m < m.length := by
  have := (lastValid_spec h).1
  by_contra hc
  rw [List.getElem?_eq_none (by omega)] at this
  simp at this

theorem pts_get {p : Prof} (h : Valid p) (k : Nat) (hk : k < p.x.length) :
    (pts p)[k]? = some (p.x[k], p.y[k]'(by rw [h.1]; exact hk)) := by
  rw [pts_valid h, List.getElem?_eq_getElem (by simp [h.1, hk])]
  simp

theorem mask_get {p : Prof} (h : Valid p) {k : Nat} {b : Bool} (hb : p.m[k]? = some b) :
    ∃ r, (pts p)[k]? = some r ∧ r.2.isNone = b := by
  rw [h.2.1, List.getElem?_map] at hb
  have hk : k < p.x.length := by
    by_contra hc
    rw [List.getElem?_eq_none (by rw [h.1]; omega)] at hb
    simp at hb
  rw [List.getElem?_eq_getElem (by rw [h.1]; exact hk)] at hb
  exact ⟨_, pts_get h k hk, by simpa using hb⟩

theorem all_masked {p : Prof} (h : Valid p) : p.m.all id = false ↔ ∃ r ∈ pts p, r.2 ≠ none := by
  rw [List.all_eq_false]
  constructor
  · rintro ⟨b, hb, hn⟩
    obtain ⟨k, hk⟩ := List.mem_iff_getElem?.mp hb
    obtain ⟨r, hr, hrb⟩ := mask_get h hk
    refine ⟨r, List.mem_of_getElem? hr, ?_⟩
    rw [id] at hn
    intro he
    rw [he] at hrb
    exact hn (by simpa using hrb.symm)
  · rintro ⟨r, hr, hn⟩
    obtain ⟨k, hk, he⟩ := List.mem_iff_getElem.mp hr
    have hk' : k < p.x.length := by rw [pts_valid h] at hk; simp at hk; omega
    have hp := pts_get h k hk'
    rw [List.getElem?_eq_getElem hk, Option.some.injEq, he] at hp
    refine ⟨false, ?_, by simp⟩
    rw [h.2.1, List.mem_map]
    refine ⟨p.y[k]'(by rw [h.1]; exact hk'), List.getElem_mem _, ?_⟩
    rw [hp] at hn
    cases hq : p.y[k]'(by rw [h.1]; exact hk') with
    | none => exact absurd hq hn
    | some v => rfl

/-- C37: on distinct abscissae, the result of `crop_masked_border` is a contiguous part of the profile, starts and ends
with a valid point, and what is left out is masked. -/
theorem C37_border (hs : IsArgsort srt) {p : Prof} (h : Valid p) (hi : Inc p.x) (hv : ∃ r ∈ pts p, r.2 ≠ none) :
    ∃ q before after, cropMaskedBorder srt p = (q, .ok ⟨⟩) ∧ Valid q ∧ pts p = before ++ pts q ++ after ∧
      (∀ r ∈ before, r.2 = none) ∧ (∀ r ∈ after, r.2 = none) ∧
      (∃ r, (pts q).head? = some r ∧ r.2 ≠ none) ∧ (∃ r, (pts q).getLast? = some r ∧ r.2 ≠ none) ∧
      q.ux = p.ux ∧ q.uy = p.uy := by
  have ha : p.m.all id = false := (all_masked h).mpr hv
  have hml : p.m.length = p.x.length := by rw [h.2.1]; simp [h.1]
  have hfl := first_le_last ha
  have hll := last_lt ha
  rw [hml] at hll
  set f := firstValid p.m with hf
  set l := lastValid p.m with hl
  have hpl : (pts p).length = p.x.length := by rw [pts_valid h]; simp [h.1]
  have he : cropMaskedBorder srt p = (⟨slice p.x f (l + 1), slice p.y f (l + 1), slice p.m f (l + 1), p.ux, p.uy⟩, .ok ⟨⟩) := by
    unfold cropMaskedBorder
    rw [ha, if_neg (by simp)]
    unfold cropIndData
    rw [← hf, ← hl, if_neg (by omega), if_neg (by omega), getY_valid h]
    have e1 : ((l : Int) + 1).toNat = l + 1 := by omega
    rw [e1, Int.toNat_natCast]
    obtain ⟨_, _, _, _, _, _, e⟩ := finishInplace_spec hs p (d := (slice p.x f (l + 1), slice p.y f (l + 1), slice p.m f (l + 1)))
      (slice_length h.1.symm _ _) (by show slice p.m _ _ = _; rw [h.2.1, slice_map]) (h.2.2.sublist (slice_sublist _ _ _))
    exact e (hi.sublist (slice_sublist _ _ _))
  have hvq : Valid ⟨slice p.x f (l + 1), slice p.y f (l + 1), slice p.m f (l + 1), p.ux, p.uy⟩ := by
    refine ⟨(slice_length h.1.symm _ _).symm, ?_, h.2.2.sublist (slice_sublist _ _ _)⟩
    show slice p.m _ _ = _
    rw [h.2.1, slice_map]
  have hpq : pts ⟨slice p.x f (l + 1), slice p.y f (l + 1), slice p.m f (l + 1), p.ux, p.uy⟩ = ((pts p).take (l + 1)).drop f := by
    rw [pts_valid hvq]
    show (slice p.x _ _).zip (slice p.y _ _) = _
    rw [slice_zip, pts_valid h]; rfl
  have notnone : ∀ {k : Nat} {r : Rat × F}, p.m[k]? = some false → (pts p)[k]? = some r → r.2 ≠ none := by
    intro k r hk hr hn
    obtain ⟨r', hr', hb⟩ := mask_get h hk
    rw [hr, Option.some.injEq] at hr'
    rw [← hr', hn] at hb
    simp at hb
  refine ⟨_, (pts p).take f, (pts p).drop (l + 1), he, hvq, ?_, ?_, ?_, ?_, ?_, rfl, rfl⟩
  · rw [hpq]
    have : (pts p).take f = ((pts p).take (l + 1)).take f := by rw [List.take_take, min_eq_left (by omega)]
    rw [this, List.take_append_drop, List.take_append_drop]
  · intro r hr
    obtain ⟨k, hk⟩ := List.mem_iff_getElem?.mp hr
    have hkf : k < f := by
      by_contra hc
      rw [List.getElem?_eq_none (by rw [List.length_take]; omega)] at hk
      simp at hk
    rw [List.getElem?_take_of_lt hkf] at hk
    obtain ⟨r', hr', hb⟩ := mask_get h ((firstValid_spec ha).2 k hkf)
    rw [hk, Option.some.injEq] at hr'
    rw [← hr'] at hb
    simpa using hb
  · intro r hr
    obtain ⟨k, hk⟩ := List.mem_iff_getElem?.mp hr
    rw [List.getElem?_drop] at hk
    have hkl : l + 1 + k < p.x.length := by
      by_contra hc
      rw [List.getElem?_eq_none (by omega)] at hk
      simp at hk
    obtain ⟨r', hr', hb⟩ := mask_get h ((lastValid_spec ha).2 (l + 1 + k) (by omega) (by omega))
    rw [hk, Option.some.injEq] at hr'
    rw [← hr'] at hb
    simpa using hb
  · refine ⟨_, ?_, notnone (firstValid_spec ha).1 (pts_get h f (by omega))⟩
    rw [hpq, List.head?_drop, List.getElem?_take_of_lt (by omega)]
    exact pts_get h f (by omega)
  · refine ⟨_, ?_, notnone (lastValid_spec ha).1 (pts_get h l hll)⟩
    rw [hpq, List.getLast?_eq_getElem?, List.getElem?_drop]
    have : ((pts p).take (l + 1)).length = l + 1 := by rw [List.length_take]; omega
    rw [List.length_drop, this]
    have e : f + (l + 1 - f - 1) = l := by omega
    rw [e, List.getElem?_take_of_lt (by omega)]
    exact pts_get h l hll

/-- C37: a profile without valid point raises IndexError. -/
theorem C37_all_masked {p : Prof} (h : Valid p) (hv : ∀ r ∈ pts p, r.2 = none) :
    cropMaskedBorder srt p = (p, .error .indexError) := by
  have : ¬ p.m.all id = false := by
    rw [all_masked h]
    rintro ⟨r, hr, hn⟩
    exact hn (hv r hr)
  unfold cropMaskedBorder
  rw [if_pos (by simpa using this)]

example : pts (cropMaskedBorder argsort ⟨[0, 1, 2, 3, 4], [none, some 1, none, some 3, none],
    [true, false, true, false, true], .m, .s⟩).1 = [(1, some 1), (2, none), (3, some 3)] := by decide +kernel

end IMT.Profile
