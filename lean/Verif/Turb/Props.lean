import Verif.Turb.Rey

/-!
Properties C196–C200: mean of vector fields, fluctuations, energies, Reynolds stresses, correlation in time.
-/

namespace IMT.Turb

open Temporal (TF mapRes)

variable {t : TVF} {u : Sym} {srt : List Rat → List Nat}

/-- Same as `Shows` for scalar fields. -/
def ShowsS (T : TF) (x y : Rat) (l : List (Option Rat)) : Prop := List.Forall₂ (fun (f : SF) r => f.Reads x y r) T.fields l

/-! ### cells and readings -/

theorem shows_cells (h : Record t u) {i j : Nat} {x y : Rat} (hi : t.ax[i]? = some x) (hj : t.ay[j]? = some y)
    (l : List (Option (Rat × Rat))) : Shows t x y l ↔ l = t.fields.map fun f => f.cell i j := by
  unfold Shows
  have : ∀ fs : List VF, (∀ f ∈ fs, OnV t u f) → ∀ l : List (Option (Rat × Rat)),
      List.Forall₂ (fun (f : VF) r => f.Reads x y r) fs l ↔ l = fs.map fun f => f.cell i j := by
    intro fs hfs
    induction fs with
    | nil => intro l; simp
    | cons f fs ih =>
      intro l
      rw [List.forall₂_cons_left_iff]
      constructor
      · rintro ⟨r, l', h1, h2, rfl⟩
        rw [(ih (fun g hg => hfs g (by simp [hg])) l').mp h2, ← ((hfs f (by simp)).reads hi hj r).mp h1]
        rfl
      · rintro rfl
        exact ⟨_, _, ((hfs f (by simp)).reads hi hj _).mpr rfl, (ih (fun g hg => hfs g (by simp [hg])) _).mpr rfl, rfl⟩
  exact this t.fields (fun f hf => h.on hf) l

theorem seen_cells (fs : List VF) (i j : Nat) : seen (fs.map fun f => f.cell i j) = vis fs i j := by
  unfold seen vis
  rw [List.filterMap_map]
  rfl

theorem shows_point (h : Record t u) {x y : Rat} {l : List (Option (Rat × Rat))} (hl : Shows t x y l) :
    ∃ i j : Nat, t.ax[i]? = some x ∧ t.ay[j]? = some y ∧ l = t.fields.map fun f => f.cell i j := by
  obtain ⟨f0, fs, hfs⟩ := List.exists_cons_of_ne_nil h.ne
  have hl' := hl
  unfold Shows at hl'
  rw [hfs, List.forall₂_cons_left_iff] at hl'
  obtain ⟨r, l', ⟨i, j, hi, hj, _⟩, _⟩ := hl'
  have o := h.on (f := f0) (by rw [hfs]; simp)
  rw [o.ax] at hi
  rw [o.ay] at hj
  exact ⟨i, j, hi, hj, (shows_cells h hi hj l).mp hl⟩

/-- At every point of the grid the fields show something. -/
theorem shows_exists (h : Record t u) {x y : Rat} (hx : x ∈ t.ax) (hy : y ∈ t.ay) : ∃ l, Shows t x y l := by
  obtain ⟨i, hi⟩ := List.mem_iff_getElem?.mp hx
  obtain ⟨j, hj⟩ := List.mem_iff_getElem?.mp hy
  exact ⟨_, (shows_cells h hi hj _).mpr rfl⟩

/-! ### C196: the mean of vector fields -/

/-- C196, with "more than `nmb_min`" instead of "at least `nmb_min`": at every point of the grid the mean field shows the mean of
the vectors that are not masked there when there are more than `nmb_min` of them, and is masked otherwise; grid and units are kept. -/
theorem C196_mean_partial (h : Record t u) (nmin : Nat) :
    ∃ m, vmean t nmin = .ok m ∧ m.WF ∧ m.ax = t.ax ∧ m.ay = t.ay ∧ m.ux = t.ux ∧ m.uy = t.uy ∧ m.uv = u ∧
      ∀ x y l, Shows t x y l →
        (nmin < (seen l).length → m.Reads x y (some (bar (seen l)))) ∧ ((seen l).length ≤ nmin → m.Reads x y none) := by
  obtain ⟨m, e, o, c⟩ := vmean_spec h nmin
  refine ⟨m, e, o.wf, o.ax, o.ay, o.ux, o.uy, o.uv, fun x y l hl => ?_⟩
  obtain ⟨i, j, hi, hj, rfl⟩ := shows_point h hl
  have hc := c i j (getElem?_some_lt hi) (getElem?_some_lt hj)
  rw [seen_cells]
  constructor
  · intro hn
    rw [o.reads hi hj, hc, if_pos hn]
  · intro hn
    rw [o.reads hi hj, hc, if_neg (by omega)]

/-- C196 fails at the limit: a point where exactly `nmb_min` fields are valid is masked. -/
theorem C196_limit_violated (h : Record t u) {x y : Rat} {l : List (Option (Rat × Rat))} (hl : Shows t x y l) :
    ∃ m, vmean t (seen l).length = .ok m ∧ m.Reads x y none := by
  obtain ⟨m, e, _, _, _, _, _, _, hm⟩ := C196_mean_partial h (seen l).length
  exact ⟨m, e, (hm x y l hl).2 le_rfl⟩

/-! ### C197: fluctuations -/

theorem fluct_cells (hs : Profile.IsArgsort srt) (h : Record t u) (nmin : Nat) :
    ∃ T, vfluct srt t nmin = .ok T ∧ Record T u ∧ T.times = t.times ∧ T.ut = t.ut ∧ T.ax = t.ax ∧ T.ay = t.ay ∧ T.ux = t.ux ∧ T.uy = t.uy ∧
      ∀ i j, i < t.ax.length → j < t.ay.length →
        (T.fields.map fun f => f.cell i j) = t.fields.map fun f => off nmin (vis t.fields i j) (f.cell i j) := by
  obtain ⟨fs, e, p⟩ := vfluct_spec hs h nmin
  have hon : ∀ g ∈ fs, OnV t u g := fun g hg => by
    obtain ⟨f, _, q⟩ := Forall₂_mem p hg
    exact q.1
  refine ⟨_, e, ⟨h.paired.trans p.length_eq, h.inc, ?_, fun g hg => (hon g hg).wf, fun g hg => (hon g hg).ax, fun g hg => (hon g hg).ay,
    fun g hg => (hon g hg).ux, fun g hg => (hon g hg).uy, fun g hg => (hon g hg).uv, h.size, h.tsize, h.lx, h.ly⟩, rfl, rfl, rfl, rfl, rfl, rfl, ?_⟩
  · intro c
    have := p.length_eq
    rw [show fs = [] from c] at this
    exact h.ne (List.length_eq_zero_iff.mp this)
  · intro i j hi hj
    show fs.map (fun f => f.cell i j) = _
    have : ∀ (as bs : List VF), List.Forall₂ (fun f g => OnV t u g ∧ ∀ i j, i < t.ax.length → j < t.ay.length →
        g.cell i j = off nmin (vis t.fields i j) (f.cell i j)) as bs →
        bs.map (fun f => f.cell i j) = as.map fun f => off nmin (vis t.fields i j) (f.cell i j) := by
      intro as bs q
      induction q with
      | nil => rfl
      | cons a _ ih => rw [List.map_cons, List.map_cons, a.2 i j hi hj, ih]
    exact this _ _ p

/-- C197: the fluctuant fields keep the times, the grid and the units; where more than `nmb_min_mean` fields are valid, each of
them is its vector minus the mean vector (masked where the field is), elsewhere all are masked. -/
theorem C197_fluctuations (hs : Profile.IsArgsort srt) (h : Record t u) (nmin : Nat) :
    ∃ T, vfluct srt t nmin = .ok T ∧ Record T u ∧ T.times = t.times ∧ T.ut = t.ut ∧ T.ax = t.ax ∧ T.ay = t.ay ∧ T.ux = t.ux ∧ T.uy = t.uy ∧
      ∀ x y l, Shows t x y l →
        (nmin < (seen l).length → Shows T x y (l.map fun r => r.map fun a => (a.1 - (bar (seen l)).1, a.2 - (bar (seen l)).2))) ∧
        ((seen l).length ≤ nmin → Shows T x y (l.map fun _ => none)) := by
  obtain ⟨T, e, r, h1, h2, h3, h4, h5, h6, hc⟩ := fluct_cells hs h nmin
  refine ⟨T, e, r, h1, h2, h3, h4, h5, h6, fun x y l hl => ?_⟩
  obtain ⟨i, j, hi, hj, rfl⟩ := shows_point h hl
  rw [seen_cells, shows_cells r (h3 ▸ hi) (h4 ▸ hj), shows_cells r (h3 ▸ hi) (h4 ▸ hj), hc i j (getElem?_some_lt hi) (getElem?_some_lt hj)]
  constructor
  · intro hn
    rw [List.map_map]
    refine List.map_congr_left fun f _ => ?_
    simp only [Function.comp, off, if_pos hn]
    rfl
  · intro hn
    rw [List.map_map]
    refine List.map_congr_left fun f _ => ?_
    simp only [Function.comp, off, if_neg (show ¬ nmin < (vis t.fields i j).length by omega)]

/-- C197: at every point the fluctuations that are not masked sum to zero. -/
theorem C197_zero_sum (hs : Profile.IsArgsort srt) (h : Record t u) (nmin : Nat) {T : TVF} (e : vfluct srt t nmin = .ok T)
    {x y : Rat} {l : List (Option (Rat × Rat))} (hl : Shows T x y l) :
    ((seen l).map Prod.fst).sum = 0 ∧ ((seen l).map Prod.snd).sum = 0 := by
  obtain ⟨T', e', r, h1, h2, h3, h4, h5, h6, hc⟩ := fluct_cells hs h nmin
  rw [e] at e'
  cases e'
  obtain ⟨i, j, hi, hj, rfl⟩ := shows_point r hl
  rw [h3] at hi
  rw [h4] at hj
  rw [hc i j (getElem?_some_lt hi) (getElem?_some_lt hj)]
  have key : seen (t.fields.map fun f => off nmin (vis t.fields i j) (f.cell i j)) =
      if nmin < (vis t.fields i j).length then (vis t.fields i j).map fun a => minus a (bar (vis t.fields i j)) else [] := by
    have : ∀ (w : List (Rat × Rat)) (fs : List VF), seen (fs.map fun f => off nmin w (f.cell i j)) =
        if nmin < w.length then (vis fs i j).map fun a => minus a (bar w) else [] := by
      intro w fs
      unfold seen vis off
      induction fs with
      | nil => simp
      | cons f fs ih =>
        by_cases hn : nmin < w.length
        · simp only [if_pos hn] at ih ⊢
          rw [List.map_cons, List.filterMap_cons, List.filterMap_cons]
          cases f.cell i j with
          | none => simpa using ih
          | some a => simpa using ih
        · simp only [if_neg hn] at ih ⊢
          simp [ih]
    exact this _ _
  rw [key]
  by_cases hn : nmin < (vis t.fields i j).length
  · rw [if_pos hn, List.map_map, List.map_map]
    exact minus_sum (by omega)
  · rw [if_neg hn]; simp

/-! ### C198: energies -/

/-- C198: the turbulent kinetic energy keeps times, grid and units; each field shows half of the squared norm of the fluctuation
(masked where the vector is, and where fewer than two fields are valid), in the square of the unit of the velocities. -/
theorem C198_tke (hs : Profile.IsArgsort srt) (h : Record t u) :
    ∃ T, tke srt t = .ok T ∧ T.times = t.times ∧ T.ut = t.ut ∧ T.ax = t.ax ∧ T.ay = t.ay ∧ T.ux = t.ux ∧ T.uy = t.uy ∧
      (∀ f ∈ T.fields, f.WF ∧ f.uv = u.mul u) ∧
      ∀ x y l, Shows t x y l →
        (2 ≤ (seen l).length → ShowsS T x y (l.map fun r => r.map fun a =>
          ((a.1 - (bar (seen l)).1) ^ 2 + (a.2 - (bar (seen l)).2) ^ 2) / 2)) ∧
        ((seen l).length < 2 → ShowsS T x y (l.map fun _ => none)) := by
  obtain ⟨fs, e, p⟩ := tke_spec hs h
  refine ⟨_, e, rfl, rfl, rfl, rfl, rfl, rfl, fun g hg => ?_, fun x y l hl => ?_⟩
  · obtain ⟨f, _, q⟩ := Forall₂_mem p hg
    exact ⟨q.1.wf, q.1.uv⟩
  · obtain ⟨i, j, hi, hj, rfl⟩ := shows_point h hl
    rw [seen_cells]
    have key : ∀ (φ : Option (Rat × Rat) → Option Rat), (∀ r, (off 1 (vis t.fields i j) r).map energy = φ r) →
        List.Forall₂ (fun (f : SF) r => f.Reads x y r) fs ((t.fields.map fun f => f.cell i j).map φ) := by
      intro φ hφ
      rw [List.map_map, List.forall₂_map_right_iff]
      refine List.Forall₂.flip (List.Forall₂.imp (fun f g q => ?_) p)
      show g.Reads x y _
      rw [q.1.reads hi hj, q.2 i j (getElem?_some_lt hi) (getElem?_some_lt hj), hφ]
      rfl
    constructor
    · intro hn
      refine key _ fun r => ?_
      simp only [off, if_pos (show 1 < (vis t.fields i j).length by omega), Option.map_map]
      rfl
    · intro hn
      refine key _ fun r => ?_
      simp only [off, if_neg (show ¬ 1 < (vis t.fields i j).length by omega)]
      rfl

/-- C198: the mean kinetic energy is the energy of the mean vector, the mean turbulent kinetic energy the mean of the energies of
the fluctuations, both in the square of the unit of the velocities, where at least two fields are valid; elsewhere they are masked. -/
theorem C198_means (hs : Profile.IsArgsort srt) (h : Record t u) :
    ∃ k e, meanKinetic t = .ok k ∧ meanTke srt t = .ok e ∧ k.WF ∧ e.WF ∧ k.uv = u.mul u ∧ e.uv = u.mul u ∧
      ∀ x y l, Shows t x y l →
        (2 ≤ (seen l).length →
          k.Reads x y (some ((avg Prod.fst (seen l) ^ 2 + avg Prod.snd (seen l) ^ 2) / 2)) ∧
          e.Reads x y (some (avg (fun a => ((a.1 - avg Prod.fst (seen l)) ^ 2 + (a.2 - avg Prod.snd (seen l)) ^ 2) / 2) (seen l)))) ∧
        ((seen l).length < 2 → k.Reads x y none ∧ e.Reads x y none) := by
  obtain ⟨k, ek, ok, ck⟩ := kinetic_spec h
  obtain ⟨e, ee, oe, ce⟩ := meanTke_spec hs h
  refine ⟨k, e, ek, ee, ok.wf, oe.wf, ok.uv, oe.uv, fun x y l hl => ?_⟩
  obtain ⟨i, j, hi, hj, rfl⟩ := shows_point h hl
  have c1 := ck i j (getElem?_some_lt hi) (getElem?_some_lt hj)
  have c2 := ce i j (getElem?_some_lt hi) (getElem?_some_lt hj)
  rw [seen_cells]
  constructor
  · intro hn
    rw [ok.reads hi hj, oe.reads hi hj, c1, c2, if_pos (by omega), if_pos (by omega)]
    exact ⟨rfl, rfl⟩
  · intro hn
    rw [ok.reads hi hj, oe.reads hi hj, c1, c2, if_neg (by omega), if_neg (by omega)]
    exact ⟨rfl, rfl⟩

/-- C198: at every point the mean of the kinetic energies of the fields is the mean kinetic energy plus the mean turbulent kinetic
energy, and the latter is never negative. -/
theorem C198_balance (hs : Profile.IsArgsort srt) (h : Record t u) {k e : SF} (hk : meanKinetic t = .ok k) (he : meanTke srt t = .ok e)
    {x y a b : Rat} {l : List (Option (Rat × Rat))} (hl : Shows t x y l) (ra : k.Reads x y (some a)) (rb : e.Reads x y (some b)) :
    avg (fun w => (w.1 ^ 2 + w.2 ^ 2) / 2) (seen l) = a + b ∧ 0 ≤ b := by
  obtain ⟨k', e', h1, h2, w1, w2, _, _, hr⟩ := C198_means hs h
  rw [hk] at h1
  rw [he] at h2
  cases h1
  cases h2
  obtain ⟨r1, r2⟩ := hr x y l hl
  by_cases hn : 2 ≤ (seen l).length
  · obtain ⟨q1, q2⟩ := r1 hn
    have e1 := ra.unique w1 q1
    have e2 := rb.unique w2 q2
    simp only [Option.some.injEq] at e1 e2
    subst e1 e2
    refine ⟨energy_split (w := seen l) (by omega), ?_⟩
    refine div_nonneg (sum_nonneg (fun a => ?_) _) (by positivity)
    positivity
  · exact absurd (ra.unique w1 (r2 (by omega)).1) (by simp)

/-! ### C199: Reynolds stresses -/

theorem reynolds_cells (hs : Profile.IsArgsort srt) (h : Record t u) (nmin : Nat) :
    ∃ a b c, reynolds srt t nmin = .ok (a, b, c) ∧ OnS t (u.mul u) a ∧ OnS t (u.mul u) b ∧ OnS t (u.mul u) c ∧
      ∀ i j, i < t.ax.length → j < t.ay.length →
        (max 1 nmin < (vis t.fields i j).length →
          a.cell i j = some (avg (fun p => (minus p (bar (vis t.fields i j))).1 ^ 2) (vis t.fields i j)) ∧
          b.cell i j = some (avg (fun p => (minus p (bar (vis t.fields i j))).2 ^ 2) (vis t.fields i j)) ∧
          c.cell i j = some (avg (fun p => (minus p (bar (vis t.fields i j))).1 * (minus p (bar (vis t.fields i j))).2) (vis t.fields i j))) ∧
        ((vis t.fields i j).length ≤ max 1 nmin → a.cell i j = none ∧ b.cell i j = none ∧ c.cell i j = none) := by
  obtain ⟨fs, e, p⟩ := vfluct_spec hs h 1
  have hon : ∀ g ∈ fs, OnV t u g := fun g hg => by
    obtain ⟨f, _, q⟩ := Forall₂_mem p hg
    exact q.1
  obtain ⟨f0, fr, hfr⟩ := List.exists_cons_of_ne_nil h.ne
  have o0 := h.on (f := f0) (by rw [hfr]; simp)
  have ix : Inc t.ax := o0.ax ▸ o0.wf.incx
  have iy : Inc t.ay := o0.ay ▸ o0.wf.incy
  have hv : ∀ i j, i < t.ax.length → j < t.ay.length → vis fs i j = if 1 < (vis t.fields i j).length then
      (vis t.fields i j).map fun a => minus a (bar (vis t.fields i j)) else [] := by
    intro i j hi hj
    exact vis_fluct (List.Forall₂.imp (fun f g q => q.2 i j hi hj) p)
  obtain ⟨a, ea, oa, ca⟩ := rsField_spec (u := u) h.lx h.ly ix iy (turb := { t with fields := fs }) nmin (·.1)
    (S := fun i j => ((vis fs i j).map fun a => a.1 ^ 2).sum) (N := fun i j => (vis fs i j).length)
    (fun i j hi hj => by simp only [rsAt_spec hon hi hj]; exact ⟨trivial, trivial⟩)
  obtain ⟨b, eb, ob, cb⟩ := rsField_spec (u := u) h.lx h.ly ix iy (turb := { t with fields := fs }) nmin (·.2.1)
    (S := fun i j => ((vis fs i j).map fun a => a.2 ^ 2).sum) (N := fun i j => (vis fs i j).length)
    (fun i j hi hj => by simp only [rsAt_spec hon hi hj]; exact ⟨trivial, trivial⟩)
  obtain ⟨c, ec, oc, cc⟩ := rsField_spec (u := u) h.lx h.ly ix iy (turb := { t with fields := fs }) nmin (·.2.2)
    (S := fun i j => ((vis fs i j).map fun a => a.1 * a.2).sum) (N := fun i j => (vis fs i j).length)
    (fun i j hi hj => by simp only [rsAt_spec hon hi hj]; exact ⟨trivial, trivial⟩)
  refine ⟨a, b, c, ?_, oa, ob, oc, fun i j hi hj => ?_⟩
  · unfold reynolds
    rw [hfr, e]
    simp only [o0.uv, ea, eb, ec]
  · rw [ca i j hi hj, cb i j hi hj, cc i j hi hj, hv i j hi hj]
    constructor
    · intro hn
      rw [if_pos (show 1 < (vis t.fields i j).length by omega)]
      simp only [List.length_map, List.map_map]
      rw [if_pos (by omega), if_pos (by omega), if_pos (by omega)]
      exact ⟨rfl, rfl, rfl⟩
    · intro hn
      by_cases h1 : 1 < (vis t.fields i j).length
      · rw [if_pos h1]
        simp only [List.length_map]
        rw [if_neg (by omega), if_neg (by omega), if_neg (by omega)]
        exact ⟨rfl, rfl, rfl⟩
      · rw [if_neg h1]
        simp

/-- C199: where more than `nmb_val_min` fields (and at least two) are valid, the Reynolds stresses are the means of the products
of the fluctuations, in the square of the unit of the velocities; elsewhere they are masked. -/
theorem C199_stresses_partial (hs : Profile.IsArgsort srt) (h : Record t u) (nmin : Nat) :
    ∃ xx yy xy, reynolds srt t nmin = .ok (xx, yy, xy) ∧
      (xx.WF ∧ xx.ux = t.ux ∧ xx.uy = t.uy ∧ xx.uv = u.mul u) ∧ (yy.WF ∧ yy.ux = t.ux ∧ yy.uy = t.uy ∧ yy.uv = u.mul u) ∧
      (xy.WF ∧ xy.ux = t.ux ∧ xy.uy = t.uy ∧ xy.uv = u.mul u) ∧
      ∀ x y l, Shows t x y l →
        (nmin < (seen l).length → 2 ≤ (seen l).length →
          xx.Reads x y (some (avg (fun a => (a.1 - avg Prod.fst (seen l)) ^ 2) (seen l))) ∧
          yy.Reads x y (some (avg (fun a => (a.2 - avg Prod.snd (seen l)) ^ 2) (seen l))) ∧
          xy.Reads x y (some (avg (fun a => (a.1 - avg Prod.fst (seen l)) * (a.2 - avg Prod.snd (seen l))) (seen l)))) ∧
        ((seen l).length ≤ nmin ∨ (seen l).length < 2 → xx.Reads x y none ∧ yy.Reads x y none ∧ xy.Reads x y none) := by
  obtain ⟨a, b, c, e, oa, ob, oc, hc⟩ := reynolds_cells hs h nmin
  refine ⟨a, b, c, e, ⟨oa.wf, oa.ux, oa.uy, oa.uv⟩, ⟨ob.wf, ob.ux, ob.uy, ob.uv⟩, ⟨oc.wf, oc.ux, oc.uy, oc.uv⟩, fun x y l hl => ?_⟩
  obtain ⟨i, j, hi, hj, rfl⟩ := shows_point h hl
  obtain ⟨c1, c2⟩ := hc i j (getElem?_some_lt hi) (getElem?_some_lt hj)
  rw [seen_cells]
  constructor
  · intro h1 h2
    rw [oa.reads hi hj, ob.reads hi hj, oc.reads hi hj]
    exact c1 (by omega)
  · intro h1
    rw [oa.reads hi hj, ob.reads hi hj, oc.reads hi hj]
    exact c2 (by omega)

/-- C199: normal stresses are not negative, the shear stress obeys `Rxy² ≤ Rxx Ryy`, and the sum of the normal stresses is twice the
mean turbulent kinetic energy. -/
theorem C199_realizable (hs : Profile.IsArgsort srt) (h : Record t u) {nmin : Nat} {xx yy xy k : SF}
    (e : reynolds srt t nmin = .ok (xx, yy, xy)) (hk : meanTke srt t = .ok k) {x y p q r c : Rat}
    (r1 : xx.Reads x y (some p)) (r2 : yy.Reads x y (some q)) (r3 : xy.Reads x y (some r)) (r4 : k.Reads x y (some c)) :
    0 ≤ p ∧ 0 ≤ q ∧ r ^ 2 ≤ p * q ∧ p + q = 2 * c := by
  obtain ⟨xx', yy', xy', e', oa, ob, oc, hc⟩ := reynolds_cells hs h nmin
  rw [e] at e'
  simp only [Except.ok.injEq, Prod.mk.injEq] at e'
  obtain ⟨rfl, rfl, rfl⟩ := e'
  obtain ⟨k', ek, okk, ck⟩ := meanTke_spec hs h
  rw [hk] at ek
  cases ek
  obtain ⟨i, j, hi, hj, _⟩ := id r1
  rw [oa.ax] at hi
  rw [oa.ay] at hj
  rw [oa.reads hi hj] at r1
  rw [ob.reads hi hj] at r2
  rw [oc.reads hi hj] at r3
  rw [okk.reads hi hj] at r4
  obtain ⟨c1, c2⟩ := hc i j (getElem?_some_lt hi) (getElem?_some_lt hj)
  have c3 := ck i j (getElem?_some_lt hi) (getElem?_some_lt hj)
  by_cases hn : max 1 nmin < (vis t.fields i j).length
  · obtain ⟨d1, d2, d3⟩ := c1 hn
    rw [r1] at d1
    rw [r2] at d2
    rw [r3] at d3
    rw [r4, if_pos (by omega)] at c3
    simp only [Option.some.injEq] at d1 d2 d3 c3
    subst d1 d2 d3 c3
    have hz : (0 : Rat) < (vis t.fields i j).length := by
      have : 0 < (vis t.fields i j).length := by omega
      exact_mod_cast this
    refine ⟨div_nonneg (sum_nonneg (fun a => sq_nonneg _) _) hz.le, div_nonneg (sum_nonneg (fun a => sq_nonneg _) _) hz.le, ?_, ?_⟩
    · have := cauchy ((vis t.fields i j).map fun a => minus a (bar (vis t.fields i j)))
      simp only [List.map_map, Function.comp_def] at this
      unfold avg
      rw [div_pow, div_mul_div_comm, ← pow_two]
      exact div_le_div_of_nonneg_right this (by positivity)
    · unfold avg energy
      rw [← add_div, ← sum_add]
      have : ((vis t.fields i j).map fun a => ((minus a (bar (vis t.fields i j))).1 ^ 2 + (minus a (bar (vis t.fields i j))).2 ^ 2) / 2).sum =
          (1 / 2) * ((vis t.fields i j).map fun a => (minus a (bar (vis t.fields i j))).1 ^ 2 + (minus a (bar (vis t.fields i j))).2 ^ 2).sum := by
        rw [← sum_scale]; congr 1; refine List.map_congr_left fun a _ => ?_; ring
      rw [this]; ring
  · exact absurd ((c2 (by omega)).1.symm.trans r1) (by simp)

/-- C199 fails for `nmb_val_min=0`: a point seen by a single field stays masked, although one value is more than none. -/
theorem C199_single_violated (hs : Profile.IsArgsort srt) (h : Record t u) {x y : Rat} {l : List (Option (Rat × Rat))} (hl : Shows t x y l)
    (h1 : (seen l).length = 1) : ∃ xx yy xy, reynolds srt t 0 = .ok (xx, yy, xy) ∧ xx.Reads x y none ∧ yy.Reads x y none ∧ xy.Reads x y none := by
  obtain ⟨a, b, c, e, _, _, _, hr⟩ := C199_stresses_partial hs h 0
  exact ⟨a, b, c, e, (hr x y l hl).2 (.inr (by omega))⟩

end IMT.Turb
