import Verif.Temporal.Crop
import Verif.Scalar.Border
import Verif.Scalar.Arith

/-! Properties C41 and C42: mean, minimal and maximal fields. -/

namespace IMT.Temporal

/-! ### C41 -/

/-- The physical values (in SI base units) shown at a cell by the fields of a list that are not masked there. -/
def shown (fs : List SF) (i j : Nat) : List Rat := fs.filterMap fun f => (f.cell i j).map (· * f.uv.size)

theorem validCount_eq {t : TF} (ht : Consistent t) {i j : Nat} (hi : i < t.ax.length) (hj : j < t.ay.length) :
    validCount t.fields i j = (shown t.fields i j).length := by
  unfold validCount shown
  have : ∀ fs : List SF, (∀ f ∈ fs, f.mask.get i j = (f.cell i j).isNone) →
      (fs.filter fun f => !f.mask.get i j).length = (fs.filterMap fun f => (f.cell i j).map (· * f.uv.size)).length := by
    intro fs h
    induction fs with
    | nil => rfl
    | cons f fs ih =>
      have e := h f (by simp)
      have ih := ih fun g hg => h g (by simp [hg])
      cases hc : f.cell i j with
      | none => rw [hc] at e; rw [List.filter_cons, if_neg (by simp [e]), List.filterMap_cons, hc]; exact ih
      | some v =>
        rw [hc] at e
        rw [List.filter_cons, if_pos (by simp [e]), List.filterMap_cons, hc]
        simp [ih]
  apply this
  intro f hf
  exact SF.Reads.cellMask (ht.wf f hf) (by rw [ht.ax f hf]; exact hi) (by rw [ht.ay f hf]; exact hj)

/-- What the accumulator of the mean is after some fields. -/
structure Acc (t : TF) (u0 : Sym) (done : List SF) (s : SF) : Prop where
  wf : s.WF
  ax : s.ax = t.ax
  ay : s.ay = t.ay
  ux : s.ux = t.ux
  uy : s.uy = t.uy
  uv : s.uv = u0
  cell : ∀ i j, i < t.ax.length → j < t.ay.length → ∃ v, s.cell i j = some v ∧ v * u0.size = (shown done i j).sum

theorem fill_cell {f : SF} (hf : f.WF) (v : Rat) {i j : Nat} (hi : i < f.ax.length) (hj : j < f.ay.length) :
    (f.fillValue v).cell i j = some ((f.cell i j).getD v) := by
  show (if f.mask.get i j then some v else f.cell i j) = _
  rw [SF.Reads.cellMask hf hi hj]
  cases f.cell i j <;> simp

theorem addSame_cell {f g : SF} (hf : f.WF) (hg : g.WF) (hx : f.ax = g.ax) (hy : f.ay = g.ay) {i j : Nat}
    (hi : i < f.ax.length) (hj : j < f.ay.length) :
    (f.addSame g).cell i j = nanOp (· + ·) (f.cell i j) ((g.cell i j).map (· * (g.uv.size / f.uv.size))) := by
  have h1 := SF.Reads.cellMask hf hi hj
  have h2 := SF.Reads.cellMask hg (hx ▸ hi) (hy ▸ hj)
  unfold SF.addSame SF.setMask SF.setValues
  show (if (f.mask.get i j || g.mask.get i j) = true then none else _) = _
  have hfac : f.addFact g = g.uv.size / f.uv.size := by
    simp [SF.addFact, Unum.ratio, Unum.phys]
  rw [h1, h2, hfac]
  cases hf' : f.cell i j <;> cases hg' : g.cell i j <;> simp [nanOp, hf', hg']

theorem add_same_ok {f g : SF} (hf : f.WF) (hg : g.WF) (hx : f.ax = g.ax) (hy : f.ay = g.ay) (hv : f.uv.Compat g.uv)
    (hux : f.ux = g.ux) (huy : f.uy = g.uy) :
    f.add g = .ok (f.addSame g) ∧ (f.addSame g).WF := by
  obtain ⟨h, e, w, _⟩ := SF.C16_add_pointwise hf hg hx hy hv hux huy
  have : f.add g = .ok (f.addSame g) := by
    unfold SF.add
    rw [if_neg (by rw [SF.unitsMatch_true hv hux huy]; simp), if_pos ⟨hx, hy⟩]
  rw [this] at e
  cases e
  exact ⟨this, w⟩

theorem sumFilled_spec {t : TF} {uv : Sym} (hpos : uv.size ≠ 0) (fs : List SF) {done : List SF} {s : SF} (ha : Acc t uv done s)
    (h : ∀ f ∈ fs, f.WF ∧ f.ax = t.ax ∧ f.ay = t.ay ∧ f.ux = t.ux ∧ f.uy = t.uy ∧ uv.Compat f.uv) :
    ∃ s', sumFilled s fs = .ok s' ∧ Acc t uv (done ++ fs) s' := by
  induction fs generalizing done s with
  | nil => exact ⟨s, rfl, by rwa [List.append_nil]⟩
  | cons f fs ih =>
    obtain ⟨w, ax, ay, ux, uy, c⟩ := h f (by simp)
    obtain ⟨w2, _, u2x, u2y, u2v⟩ := SF.C82_fill_value w 0
    have eax : (f.fillValue 0).ax = f.ax := rfl
    have eay : (f.fillValue 0).ay = f.ay := rfl
    obtain ⟨e, ws⟩ := add_same_ok (f := s) (g := f.fillValue 0) ha.wf w2 (by rw [ha.ax, eax, ax]) (by rw [ha.ay, eay, ay])
      (by rw [ha.uv, u2v]; exact c) (by rw [ha.ux, u2x, ux]) (by rw [ha.uy, u2y, uy])
    unfold sumFilled
    rw [e]
    have hacc : Acc t uv (done ++ [f]) (s.addSame (f.fillValue 0)) := by
      refine ⟨ws, ha.ax, ha.ay, ha.ux, ha.uy, ha.uv, ?_⟩
      intro i j hi hj
      obtain ⟨v, hv, hs⟩ := ha.cell i j hi hj
      rw [addSame_cell ha.wf w2 (by rw [ha.ax, eax, ax]) (by rw [ha.ay, eay, ay]) (by rw [ha.ax]; exact hi)
        (by rw [ha.ay]; exact hj), hv, fill_cell w 0 (by rw [ax]; exact hi) (by rw [ay]; exact hj), u2v, ha.uv]
      refine ⟨_, rfl, ?_⟩
      unfold shown at hs ⊢
      rw [List.filterMap_append, List.sum_append, ← hs, List.filterMap_cons]
      cases f.cell i j with
      | none => simp
      | some x =>
        simp only [Option.getD_some, Option.map_some, List.filterMap_nil, List.sum_singleton]
        field_simp
    obtain ⟨s', e', a'⟩ := ih hacc fun g hg => h g (by simp [hg])
    exact ⟨s', e', by rwa [List.append_assoc] at a'⟩

/-- C41, with "more than `nmb_min`" instead of "at least `nmb_min`": at every cell the mean field shows the mean of the
physical values of the fields that are not masked there when there are more than `nmb_min` of them, and is masked otherwise. -/
theorem C41_mean_partial {t : TF} (ht : Consistent t) {f0 : SF} {fs : List SF} (hfs : t.fields = f0 :: fs)
    (hu : ∀ f ∈ t.fields, f0.uv.Compat f.uv) (hpos : f0.uv.size ≠ 0) (nmin : Nat) :
    ∃ m, meanField t nmin = .ok m ∧ m.ax = t.ax ∧ m.ay = t.ay ∧ m.ux = t.ux ∧ m.uy = t.uy ∧ m.uv = f0.uv ∧
      ∀ i j, i < t.ax.length → j < t.ay.length →
        (nmin < (shown t.fields i j).length → m.mask.get i j = false ∧ ∃ v, m.cell i j = some v ∧
          v * m.uv.size = (shown t.fields i j).sum / (shown t.fields i j).length) ∧
        ((shown t.fields i j).length ≤ nmin → m.mask.get i j = true) := by
  have hm0 : f0 ∈ t.fields := by rw [hfs]; simp
  have hf0 := ht.wf f0 hm0
  obtain ⟨w0, _, u0x, u0y, u0v⟩ := SF.C82_fill_value hf0 0
  have ha : Acc t f0.uv [f0] (f0.fillValue 0) := by
    refine ⟨w0, ht.ax f0 hm0, ht.ay f0 hm0, by rw [u0x]; exact ht.ux f0 hm0, by rw [u0y]; exact ht.uy f0 hm0, u0v, ?_⟩
    intro i j hi hj
    refine ⟨_, fill_cell hf0 0 (by rw [ht.ax f0 hm0]; exact hi) (by rw [ht.ay f0 hm0]; exact hj), ?_⟩
    unfold shown
    rw [List.filterMap_cons]
    cases f0.cell i j <;> simp
  obtain ⟨s, es, as⟩ := sumFilled_spec hpos fs ha (fun f hf => by
    have hm : f ∈ t.fields := by rw [hfs]; simp [hf]
    exact ⟨ht.wf f hm, ht.ax f hm, ht.ay f hm, ht.ux f hm, ht.uy f hm, hu f hm⟩)
  rw [show [f0] ++ fs = t.fields by rw [hfs]; rfl] at as
  have e : meanField t nmin = (s.setMask (fewMask t nmin)).divArr (meanFact t nmin) := by
    unfold meanField
    rw [hfs]
    simp only
    rw [es]
    simp only
    unfold meanEnd
    rw [if_neg (by rw [as.ax, as.ay]; simp)]
  rw [e]
  unfold SF.divArr
  rw [if_pos ⟨(as.wf.vx.trans (congrArg _ as.ax)).symm, (as.wf.vy.trans (congrArg _ as.ay)).symm⟩]
  refine ⟨_, rfl, as.ax, as.ay, as.ux, as.uy, as.uv, ?_⟩
  intro i j hi hj
  have hc := validCount_eq ht hi hj
  obtain ⟨v, hv, hsum⟩ := as.cell i j hi hj
  constructor
  · intro hn
    have hle : ¬ validCount t.fields i j ≤ nmin := by omega
    have hz : (meanFact t nmin).get i j = some ((shown t.fields i j).length : Rat) := by
      show (if validCount t.fields i j ≤ nmin then some 1 else some (validCount t.fields i j : Rat)) = _
      rw [if_neg hle, hc]
    have hnz : ((shown t.fields i j).length : Rat) ≠ 0 := by
      have : 0 < (shown t.fields i j).length := by omega
      exact_mod_cast this.ne'
    have hfm : (fewMask t nmin).get i j = false := by
      show decide _ = false
      simp only [decide_eq_false_iff_not]; exact hle
    have hmask : ((fewMask t nmin).get i j || decide ((meanFact t nmin).get i j = some 0)) = false := by
      rw [hfm, hz]
      simp only [Option.some.injEq, Bool.false_or, decide_eq_false_iff_not]
      exact hnz
    refine ⟨hmask, v / (shown t.fields i j).length, ?_, ?_⟩
    · show (if ((fewMask t nmin).get i j || decide ((meanFact t nmin).get i j = some 0)) = true then none else
        if ((fewMask t nmin).get i j || decide ((meanFact t nmin).get i j = some 0)) = true then (s.setMask (fewMask t nmin)).cell i j
        else nanOp (· / ·) ((s.setMask (fewMask t nmin)).cell i j) ((meanFact t nmin).get i j)) = _
      rw [if_neg (by rw [hmask]; simp), if_neg (by rw [hmask]; simp), hz]
      have : (s.setMask (fewMask t nmin)).cell i j = some v := by
        show (if (fewMask t nmin).get i j = true then none else s.val.get i j) = _
        rw [hfm]
        simp only [Bool.false_eq_true, if_false]
        have h2 : (if s.mask.get i j = true then none else s.val.get i j) = some v := hv
        split at h2
        · cases h2
        · exact h2
      rw [this]
      rfl
    · show v / _ * s.uv.size = _
      rw [as.uv, ← hsum]
      ring
  · intro hn
    show ((fewMask t nmin).get i j || _) = true
    have : (fewMask t nmin).get i j = true := by
      show decide _ = true
      simp only [decide_eq_true_eq]; omega
    rw [this]; rfl

example : ((meanField rec3 1).toOption.map fun m => [m.cell 0 0, m.cell 1 0, m.cell 1 1, m.cell 2 1]) =
    some [some 0, some (10 / 3), none, some 7] := by decide +kernel

example : Consistent rec3 ∧ rec3.fields = SF.sample :: [SF.sample.neg, SF.sample] ∧ SF.sample.uv.size ≠ 0 :=
  ⟨rec3_consistent, rfl, by decide +kernel⟩

/-- C41 fails at the limit: a cell where exactly `nmb_min` fields are valid is masked, although `nmb_min` is documented as the
smallest sufficient number of values.  With the default `nmb_min=1` the mean of a single field is masked everywhere. -/
theorem C41_limit_violated {t : TF} (ht : Consistent t) {f0 : SF} {fs : List SF} (hfs : t.fields = f0 :: fs)
    (hu : ∀ f ∈ t.fields, f0.uv.Compat f.uv) (hpos : f0.uv.size ≠ 0) {nmin : Nat} {i j : Nat} (hi : i < t.ax.length)
    (hj : j < t.ay.length) (hn : (shown t.fields i j).length = nmin) :
    ∃ m, meanField t nmin = .ok m ∧ m.mask.get i j = true := by
  obtain ⟨m, e, _, _, _, _, _, h⟩ := C41_mean_partial ht hfs hu hpos nmin
  exact ⟨m, e, (h i j hi hj).2 (by omega)⟩

example : ((meanField ⟨SF.sample.ax, SF.sample.ay, SF.sample.ux, SF.sample.uy, [1], .s, [SF.sample], true⟩ 1).toOption.map
    fun m => [m.cell 0 0, m.cell 1 0, m.cell 2 1]) = some [none, none, none] := by decide +kernel

/-! ### C42 -/

/-- The values shown at a cell by the fields that are not masked there, as bare numbers. -/
def numbers (fs : List SF) (i j : Nat) : List Rat := fs.filterMap fun f => f.cell i j

theorem validCount_numbers {t : TF} (ht : Consistent t) {i j : Nat} (hi : i < t.ax.length) (hj : j < t.ay.length) :
    validCount t.fields i j = (numbers t.fields i j).length := by
  rw [validCount_eq ht hi hj]
  unfold shown numbers
  induction t.fields with
  | nil => rfl
  | cons f fs ih => cases h : f.cell i j <;> simp [h, ih]

theorem fold_ext {lt : Rat → Rat → Bool} {i j : Nat} (fs : List SF) (acc : Nat → Nat → Option Rat)
    (hm : ∀ f ∈ fs, f.mask.get i j = (f.cell i j).isNone) {v : Rat} (hv : acc i j = some v) :
    fs.foldl (extStep lt) acc i j = some ((numbers fs i j).foldl (fun a b => if lt b a then b else a) v) := by
  induction fs generalizing acc v with
  | nil => exact hv
  | cons f fs ih =>
    rw [List.foldl_cons]
    have e := hm f (by simp)
    unfold numbers
    rw [List.filterMap_cons]
    cases hc : f.cell i j with
    | none =>
      apply ih _ (fun g hg => hm g (by simp [hg]))
      unfold extStep
      rw [hc, hv]
      simp [fcmp]
    | some x =>
      simp only [List.foldl_cons]
      apply ih _ (fun g hg => hm g (by simp [hg]))
      unfold extStep
      rw [hc] at e
      rw [hc, hv, e]
      cases h : lt x v <;> simp [fcmp, h]

theorem foldl_min_spec (l : List Rat) (v : Rat) :
    (l.foldl (fun a b => if decide (b < a) then b else a) v) ∈ v :: l ∧
      ∀ x ∈ v :: l, l.foldl (fun a b => if decide (b < a) then b else a) v ≤ x := by
  induction l generalizing v with
  | nil => simp
  | cons y l ih =>
    obtain ⟨m1, m2⟩ := ih (if decide (y < v) then y else v)
    rw [List.foldl_cons]
    by_cases h : y < v
    · simp only [h, decide_true, if_true] at m1 m2 ⊢
      refine ⟨by simp only [List.mem_cons] at m1 ⊢; tauto, ?_⟩
      intro x hx
      simp only [List.mem_cons] at hx
      rcases hx with rfl | rfl | hx
      · exact le_trans (m2 y (by simp)) h.le
      · exact m2 _ (by simp)
      · exact m2 _ (by simp [hx])
    · simp only [h, decide_false, Bool.false_eq_true, if_false] at m1 m2 ⊢
      refine ⟨by simp only [List.mem_cons] at m1 ⊢; tauto, ?_⟩
      intro x hx
      simp only [List.mem_cons] at hx
      rcases hx with rfl | rfl | hx
      · exact m2 _ (by simp)
      · exact le_trans (m2 v (by simp)) (not_lt.mp h)
      · exact m2 _ (by simp [hx])

theorem foldl_max_spec (l : List Rat) (v : Rat) :
    (l.foldl (fun a b => if decide (b > a) then b else a) v) ∈ v :: l ∧
      ∀ x ∈ v :: l, x ≤ l.foldl (fun a b => if decide (b > a) then b else a) v := by
  induction l generalizing v with
  | nil => simp
  | cons y l ih =>
    obtain ⟨m1, m2⟩ := ih (if decide (y > v) then y else v)
    rw [List.foldl_cons]
    by_cases h : y > v
    · simp only [h, decide_true, if_true] at m1 m2 ⊢
      refine ⟨by simp only [List.mem_cons] at m1 ⊢; tauto, ?_⟩
      intro x hx
      simp only [List.mem_cons] at hx
      rcases hx with rfl | rfl | hx
      · exact le_trans h.le (m2 y (by simp))
      · exact m2 _ (by simp)
      · exact m2 _ (by simp [hx])
    · simp only [h, decide_false, Bool.false_eq_true, if_false] at m1 m2 ⊢
      refine ⟨by simp only [List.mem_cons] at m1 ⊢; tauto, ?_⟩
      intro x hx
      simp only [List.mem_cons] at hx
      rcases hx with rfl | rfl | hx
      · exact m2 _ (by simp)
      · exact le_trans (not_lt.mp h) (m2 v (by simp))
      · exact m2 _ (by simp [hx])

theorem ext_cell {lt : Rat → Rat → Bool} {t : TF} (ht : Consistent t) {f0 : SF} {fs : List SF} (hfs : t.fields = f0 :: fs)
    (nmin : Nat) : ∃ m, extField lt t nmin = .ok m ∧ m.ax = t.ax ∧ m.ay = t.ay ∧ m.uv = f0.uv ∧
      ∀ i j, i < t.ax.length → j < t.ay.length →
        (m.mask.get i j = true ↔ (numbers t.fields i j).length ≤ nmin) ∧
        (nmin < (numbers t.fields i j).length → ∀ v, f0.cell i j = some v →
          m.cell i j = some ((numbers fs i j).foldl (fun a b => if lt b a then b else a) v)) ∧
        (nmin < (numbers t.fields i j).length → f0.cell i j = none → m.cell i j = none) := by
  have hm0 : f0 ∈ t.fields := by rw [hfs]; simp
  have he : extField lt t nmin = .ok { f0 with val := ⟨f0.val.nx, f0.val.ny, fs.foldl (extStep lt) f0.cell⟩, mask := fewMask t nmin } := by
    unfold extField; rw [hfs]
  refine ⟨_, he, ht.ax f0 hm0, ht.ay f0 hm0, rfl, ?_⟩
  intro i j hi hj
  have hc := validCount_numbers ht hi hj
  have hmask : (fewMask t nmin).get i j = decide ((numbers t.fields i j).length ≤ nmin) := by
    show decide (validCount t.fields i j ≤ nmin) = _
    rw [hc]
  have hshow : nmin < (numbers t.fields i j).length →
      (({ f0 with val := ⟨f0.val.nx, f0.val.ny, fs.foldl (extStep lt) f0.cell⟩, mask := fewMask t nmin } : SF).cell i j) =
        fs.foldl (extStep lt) f0.cell i j := by
    intro hn
    show (if (fewMask t nmin).get i j = true then none else _) = _
    rw [if_neg (by rw [hmask]; simp; omega)]
  have hms : ∀ f ∈ fs, f.mask.get i j = (f.cell i j).isNone := by
    intro f hf
    have hm : f ∈ t.fields := by rw [hfs]; simp [hf]
    exact SF.Reads.cellMask (ht.wf f hm) (by rw [ht.ax f hm]; exact hi) (by rw [ht.ay f hm]; exact hj)
  refine ⟨by show (fewMask t nmin).get i j = true ↔ _; rw [hmask]; simp, ?_, ?_⟩
  · intro hn v hv
    rw [hshow hn, fold_ext fs f0.cell hms hv]
  · intro hn hv
    rw [hshow hn]
    have : ∀ (gs : List SF) (acc : Nat → Nat → Option Rat), acc i j = none → gs.foldl (extStep lt) acc i j = none := by
      intro gs
      induction gs with
      | nil => intro acc h; exact h
      | cons g gs ih =>
        intro acc h
        rw [List.foldl_cons]
        apply ih
        unfold extStep
        rw [h]
        cases g.cell i j <;> simp [fcmp]
    exact this fs f0.cell hv

/-- C42 for the minimum, for fields in one unit and a cell where the first field is not masked: the value shown is the smallest
of the values of the fields valid there.  (Cells with no more than `nmb_min` valid fields are masked, as in C41.) -/
theorem C42_min_partial {t : TF} (ht : Consistent t) {f0 : SF} {fs : List SF} (hfs : t.fields = f0 :: fs) (nmin : Nat) :
    ∃ m, minField t nmin = .ok m ∧ m.ax = t.ax ∧ m.ay = t.ay ∧ m.uv = f0.uv ∧
      ∀ i j, i < t.ax.length → j < t.ay.length →
        (m.mask.get i j = true ↔ (numbers t.fields i j).length ≤ nmin) ∧
        (nmin < (numbers t.fields i j).length → f0.cell i j ≠ none →
          ∃ v, m.cell i j = some v ∧ v ∈ numbers t.fields i j ∧ ∀ x ∈ numbers t.fields i j, v ≤ x) := by
  obtain ⟨m, e, ax, ay, uv, h⟩ := ext_cell (lt := fun a b => decide (a < b)) ht hfs nmin
  refine ⟨m, e, ax, ay, uv, fun i j hi hj => ⟨(h i j hi hj).1, ?_⟩⟩
  intro hn hne
  obtain ⟨v, hv⟩ := Option.ne_none_iff_exists'.mp hne
  have hnum : numbers t.fields i j = v :: numbers fs i j := by unfold numbers; rw [hfs, List.filterMap_cons, hv]
  obtain ⟨a, b⟩ := foldl_min_spec (numbers fs i j) v
  rw [hnum]
  exact ⟨_, (h i j hi hj).2.1 hn v hv, a, b⟩

/-- C42 for the maximum, in the same conditions. -/
theorem C42_max_partial {t : TF} (ht : Consistent t) {f0 : SF} {fs : List SF} (hfs : t.fields = f0 :: fs) (nmin : Nat) :
    ∃ m, maxField t nmin = .ok m ∧ m.ax = t.ax ∧ m.ay = t.ay ∧ m.uv = f0.uv ∧
      ∀ i j, i < t.ax.length → j < t.ay.length →
        (m.mask.get i j = true ↔ (numbers t.fields i j).length ≤ nmin) ∧
        (nmin < (numbers t.fields i j).length → f0.cell i j ≠ none →
          ∃ v, m.cell i j = some v ∧ v ∈ numbers t.fields i j ∧ ∀ x ∈ numbers t.fields i j, x ≤ v) := by
  obtain ⟨m, e, ax, ay, uv, h⟩ := ext_cell (lt := fun a b => decide (a > b)) ht hfs nmin
  refine ⟨m, e, ax, ay, uv, fun i j hi hj => ⟨(h i j hi hj).1, ?_⟩⟩
  intro hn hne
  obtain ⟨v, hv⟩ := Option.ne_none_iff_exists'.mp hne
  have hnum : numbers t.fields i j = v :: numbers fs i j := by unfold numbers; rw [hfs, List.filterMap_cons, hv]
  obtain ⟨a, b⟩ := foldl_max_spec (numbers fs i j) v
  rw [hnum]
  exact ⟨_, (h i j hi hj).2.1 hn v hv, a, b⟩

/-- The sample field with another masked cell: the first one. -/
def holed : SF :=
  ⟨SF.sample.ax, SF.sample.ay, ⟨3, 2, fun i j => if i = 0 ∧ j = 0 then none else some (10 * i + j)⟩,
    ⟨3, 2, fun i j => i == 0 && j == 0⟩, SF.sample.ux, SF.sample.uy, SF.sample.uv⟩

example : ((minField rec3 1).toOption.map fun m => [m.cell 1 0, m.cell 1 1, m.cell 2 1]) = some [some (-10), none, some (-21)] := by
  decide +kernel

/-- C42 fails wherever the first field is masked: however many other fields are valid, the minimal and the maximal fields
show NaN there, in a cell that is not masked. -/
theorem C42_first_violated {t : TF} (ht : Consistent t) {f0 : SF} {fs : List SF} (hfs : t.fields = f0 :: fs) {nmin : Nat}
    {i j : Nat} (hi : i < t.ax.length) (hj : j < t.ay.length) (hn : nmin < (numbers t.fields i j).length)
    (h0 : f0.mask.get i j = true) :
    (∃ m, minField t nmin = .ok m ∧ m.mask.get i j = false ∧ m.cell i j = none) ∧
    (∃ m, maxField t nmin = .ok m ∧ m.mask.get i j = false ∧ m.cell i j = none) := by
  have hc : f0.cell i j = none := by unfold SF.cell; rw [if_pos h0]
  constructor
  · obtain ⟨m, e, _, _, _, h⟩ := ext_cell (lt := fun a b => decide (a < b)) ht hfs nmin
    refine ⟨m, e, ?_, (h i j hi hj).2.2 hn hc⟩
    have := (h i j hi hj).1
    rw [Bool.eq_false_iff]
    intro c
    have := this.mp c
    omega
  · obtain ⟨m, e, _, _, _, h⟩ := ext_cell (lt := fun a b => decide (a > b)) ht hfs nmin
    refine ⟨m, e, ?_, (h i j hi hj).2.2 hn hc⟩
    have := (h i j hi hj).1
    rw [Bool.eq_false_iff]
    intro c
    have := this.mp c
    omega

example : ((minField ⟨SF.sample.ax, SF.sample.ay, SF.sample.ux, SF.sample.uy, [1, 2, 3], .s, [holed, SF.sample, SF.sample], true⟩ 1).toOption.map
    fun m => (m.mask.get 0 0, m.cell 0 0)) = some (false, none) := by decide +kernel

/-- C42 fails when the values of the fields are in different units: `1 s` and `500 ms` give `1 s` as minimum. -/
theorem C42_units_violated :
    ∃ t : TF, (minField t 1).toOption.map (fun m => (m.cell 1 0, m.uv)) = some (some 10, .s) ∧
      t.fields.map (fun f => (f.cell 1 0).map (· * f.uv.size)) = [some 10, some (1 / 100)] ∧ Consistent t := by
  have hw : ({ SF.sample with uv := .ms } : SF).WF :=
    ⟨SF.sample_WF.incx, SF.sample_WF.incy, SF.sample_WF.nex, SF.sample_WF.ney, rfl, rfl, rfl, rfl, SF.sample_WF.nan⟩
  refine ⟨⟨SF.sample.ax, SF.sample.ay, SF.sample.ux, SF.sample.uy, [1, 2], .s, [SF.sample, { SF.sample with uv := .ms }], true⟩,
    by decide +kernel, by decide +kernel, ?_⟩
  refine ⟨rfl, ?_, ?_, ?_, ?_, ?_⟩ <;> intro f hf <;>
    (have hf : f ∈ [SF.sample, { SF.sample with uv := .ms }] := hf
     simp only [List.mem_cons, List.not_mem_nil, or_false] at hf
     rcases hf with rfl | rfl)
  exacts [SF.sample_WF, hw, rfl, rfl, rfl, rfl, rfl, rfl, rfl, rfl]

end IMT.Temporal
