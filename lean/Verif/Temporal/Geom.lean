import Verif.Temporal.Reduce

/-! Properties C97, C98 and C99: scalings, changes of unit, translations and rotations of containers. -/

namespace IMT.Temporal

/-! ### C97 -/

theorem scale_times (t : TF) (sx sy sv st : Option Unum) :
    (scale t sx sy sv st).times = t.times.map (· * SF.factor st) ∧ (scale t sx sy sv st).ut.size = t.ut.size * (SF.usym st).size := by
  have ht : ∀ t : TF, ∀ s, (scaleX t s).times = t.times ∧ (scaleX t s).ut = t.ut ∧ (scaleY t s).times = t.times ∧ (scaleY t s).ut = t.ut := by
    intro t s
    cases s <;> exact ⟨rfl, rfl, rfl, rfl⟩
  have h1 := ht t sx
  have h2 := ht (scaleX t sx) sy
  unfold scale
  cases st with
  | none =>
    unfold scaleT
    simp only [SF.factor, SF.usym, Sym.one, mul_one, List.map_id']
    exact ⟨h2.2.2.1.trans h1.1, by rw [h2.2.2.2, h1.2.1]⟩
  | some s =>
    unfold scaleT
    simp only [SF.factor, SF.usym]
    exact ⟨by rw [h2.2.2.1, h1.1], by rw [h2.2.2.2, h1.2.1]; rfl⟩

/-- C97 for the times: numbers and unit are multiplied. -/
theorem C97_times (t : TF) (sx sy sv st : Option Unum) :
    (scale t sx sy sv st).times.map (· * (scale t sx sy sv st).ut.size) =
      t.times.map (fun x => x * t.ut.size * (SF.factor st * (SF.usym st).size)) := by
  obtain ⟨a, b⟩ := scale_times t sx sy sv st
  rw [a, b, List.map_map]
  apply List.map_congr_left
  intro x _
  simp only [Function.comp]
  ring

theorem scale_fields (t : TF) (sx sy sv st : Option Unum) :
    (scale t sx sy sv st).fields = (scaleY (scaleX t sx) sy).fields.map fun f => f.scale none none sv := by
  unfold scale; cases st <;> rfl

theorem scaleAxis_pos (l : List Rat) (u : Sym) {s : Option Unum} (h : 0 < SF.factor s) :
    (SF.scaleAxis l u s).2.2 = false := by
  cases s with
  | none => rfl
  | some s =>
    unfold SF.scaleAxis
    simp only [SF.factor] at h
    simp only
    rw [if_neg (by linarith)]

/-- C97, for positive factors: every field of the result is the field of the operand scaled by the same factors (what this
means is C10), and the container stays consistent. -/
theorem C97_fields_partial {t : TF} (ht : Consistent t) (sx sy sv st : Option Unum) (hx : 0 < SF.factor sx) (hy : 0 < SF.factor sy) :
    (scale t sx sy sv st).fields = t.fields.map (fun f => f.scale sx sy sv) ∧ Consistent (scale t sx sy sv st) := by
  have key : ∀ f ∈ t.fields, ({ f with
      ax := (SF.scaleAxis t.ax t.ux sx).1, ux := (SF.scaleAxis t.ax t.ux sx).2.1,
      ay := (SF.scaleAxis t.ay t.uy sy).1, uy := (SF.scaleAxis t.ay t.uy sy).2.1 } : SF).scale none none sv = f.scale sx sy sv := by
    intro f hf
    have rx := scaleAxis_pos t.ax t.ux hx
    have ry := scaleAxis_pos t.ay t.uy hy
    unfold SF.scale
    rw [ht.ax f hf, ht.ay f hf, ht.ux f hf, ht.uy f hf]
    rcases hsx : SF.scaleAxis t.ax t.ux sx with ⟨a, b, c⟩
    rcases hsy : SF.scaleAxis t.ay t.uy sy with ⟨a', b', c'⟩
    rw [hsx] at rx; rw [hsy] at ry
    simp only at rx ry
    subst rx; subst ry
    rfl
  have hinner : (scaleY (scaleX t sx) sy).fields = t.fields.map fun f : SF => { f with
      ax := (SF.scaleAxis t.ax t.ux sx).1, ux := (SF.scaleAxis t.ax t.ux sx).2.1,
      ay := (SF.scaleAxis t.ay t.uy sy).1, uy := (SF.scaleAxis t.ay t.uy sy).2.1 } := by
    apply Eq.symm
    cases sx <;> cases sy <;>
      simp only [scaleX, scaleY, setAxeX, setAxeY, setUnitX, setUnitY, SF.scaleAxis, List.map_map]
    · conv_rhs => rw [← List.map_id t.fields]
      apply List.map_congr_left
      intro f hf
      have := ht.ax f hf; have := ht.ay f hf; have := ht.ux f hf; have := ht.uy f hf
      cases f; simp_all
    · apply List.map_congr_left
      intro f hf
      have := ht.ax f hf; have := ht.ux f hf
      cases f; simp_all
    · apply List.map_congr_left
      intro f hf
      have := ht.ay f hf; have := ht.uy f hf
      cases f; simp_all
    · apply List.map_congr_left
      intro f hf
      rfl
  have hfields : (scale t sx sy sv st).fields = t.fields.map (fun f => f.scale sx sy sv) := by
    rw [scale_fields, hinner, List.map_map]
    apply List.map_congr_left
    intro f hf
    exact key f hf
  refine ⟨hfields, ?_⟩
  have hpar : (scale t sx sy sv st).ax = (SF.scaleAxis t.ax t.ux sx).1 ∧ (scale t sx sy sv st).ay = (SF.scaleAxis t.ay t.uy sy).1 ∧
      (scale t sx sy sv st).ux = (SF.scaleAxis t.ax t.ux sx).2.1 ∧ (scale t sx sy sv st).uy = (SF.scaleAxis t.ay t.uy sy).2.1 := by
    cases sx <;> cases sy <;> cases st <;> exact ⟨rfl, rfl, rfl, rfl⟩
  have hsc : ∀ f ∈ t.fields, (f.scale sx sy sv).ax = (SF.scaleAxis t.ax t.ux sx).1 ∧ (f.scale sx sy sv).ay = (SF.scaleAxis t.ay t.uy sy).1 ∧
      (f.scale sx sy sv).ux = (SF.scaleAxis t.ax t.ux sx).2.1 ∧ (f.scale sx sy sv).uy = (SF.scaleAxis t.ay t.uy sy).2.1 := by
    intro f hf
    rw [← key f hf]
    cases sv <;> exact ⟨rfl, rfl, rfl, rfl⟩
  have hmem : ∀ g ∈ (scale t sx sy sv st).fields, ∃ f ∈ t.fields, g = f.scale sx sy sv := by
    intro g hg
    rw [hfields] at hg
    obtain ⟨f, hf, rfl⟩ := List.mem_map.mp hg
    exact ⟨f, hf, rfl⟩
  refine ⟨?_, ?_, ?_, ?_, ?_, ?_⟩
  · unfold Paired
    rw [hfields, (scale_times t sx sy sv st).1, List.length_map, List.length_map]
    exact ht.paired
  all_goals
    intro g hg
    obtain ⟨f, hf, rfl⟩ := hmem g hg
  · exact (SF.C10_scale_moves_readings (ht.wf f hf) sx sy sv (ne_of_gt hx) (ne_of_gt hy)).1
  · rw [(hsc f hf).1, hpar.1]
  · rw [(hsc f hf).2.1, hpar.2.1]
  · rw [(hsc f hf).2.2.1, hpar.2.2.1]
  · rw [(hsc f hf).2.2.2, hpar.2.2.2]

example : ((scale rec3 (some ⟨2, .one⟩) none (some ⟨3, .m⟩) (some ⟨2, .one⟩)).times,
    (scale rec3 (some ⟨2, .one⟩) none (some ⟨3, .m⟩) (some ⟨2, .one⟩)).fields.map fun f => (f.ax, f.cell 1 0)) =
      ([2, 4, 8], [([0, 2, 6], some 30), ([0, 2, 6], some (-30)), ([0, 2, 6], some 30)]) := by decide +kernel

/-- C97 fails for a negative factor: the axis of every field is reversed but not its values, so that a field that differs
between its first and its last column no longer shows its values at the images of their points. -/
theorem C97_negative_violated {t : TF} (ht : Consistent t) {s : Unum} (hs : s.num < 0) {k : Nat} {f : SF} (hk : t.fields[k]? = some f)
    {j : Nat} (hj : j < t.ay.length) (hne : f.cell 0 j ≠ f.cell (t.ax.length - 1) j) :
    ∃ g x y r, (scale t (some s) none none none).fields[k]? = some g ∧ f.Reads x y r ∧ ¬ g.Reads (x * s.num) y r := by
  have hf : f ∈ t.fields := List.mem_of_getElem? hk
  have w := ht.wf f hf
  have hlen : 0 < t.ax.length := by
    have := w.nex
    rw [ht.ax f hf] at this
    exact List.length_pos_iff.mpr this
  have hfields : (scale t (some s) none none none).fields =
      t.fields.map fun f : SF => { f with ax := (t.ax.map (· * s.num)).reverse, ux := t.ux.mul s.sym } := by
    rw [scale_fields]
    simp only [scaleX, scaleY, setAxeX, setUnitX, SF.scaleAxis]
    rw [if_pos hs]
    rw [List.map_map, List.map_map]
    apply List.map_congr_left
    intro f _
    rfl
  refine ⟨{ f with ax := (t.ax.map (· * s.num)).reverse, ux := t.ux.mul s.sym }, t.ax[0], t.ay[j], f.cell 0 j, ?_, ?_, ?_⟩
  · rw [hfields, List.getElem?_map, hk]; rfl
  · exact ⟨0, j, by rw [ht.ax f hf, List.getElem?_eq_getElem hlen], by rw [ht.ay f hf, List.getElem?_eq_getElem hj], rfl⟩
  · rintro ⟨i', j', h1, h2, h3⟩
    have hj' : j' = j := by
      have h2 : f.ay[j']? = some t.ay[j] := h2
      rw [ht.ay f hf] at h2
      have hinc := w.incy
      rw [ht.ay f hf] at hinc
      exact hinc.idx_inj' h2 (List.getElem?_eq_getElem hj)
    have hi' : i' = t.ax.length - 1 := by
      have h1 : (t.ax.map (· * s.num)).reverse[i']? = some (t.ax[0] * s.num) := h1
      have hinc := w.incx
      rw [ht.ax f hf] at hinc
      have hinc2 := hinc.map_mul_neg hs
      refine hinc2.idx_inj' h1 ?_
      rw [List.getElem?_reverse (by simp; omega)]
      simp only [List.length_map]
      rw [show t.ax.length - 1 - (t.ax.length - 1) = 0 by omega, List.getElem?_map, List.getElem?_eq_getElem hlen]
      rfl
    subst hi'; subst hj'
    exact hne h3.symm

example : Consistent rec3 ∧ rec3.fields[0]? = some SF.sample ∧ SF.sample.cell 0 0 ≠ SF.sample.cell 2 0 :=
  ⟨rec3_consistent, rfl, by decide +kernel⟩

/-! ### C98 -/

theorem map_overwrite_x {fs : List SF} (ux : Sym) (ax : List Rat) (h : ∀ f ∈ fs, f.ux = ux ∧ f.ax = ax) :
    (fs.map fun f : SF => { f with ux := ux }).map (fun f : SF => { f with ax := ax }) = fs := by
  rw [List.map_map]
  conv_rhs => rw [← List.map_id fs]
  apply List.map_congr_left
  intro f hf
  obtain ⟨a, b⟩ := h f hf
  cases f
  simp_all

theorem map_overwrite_y {fs : List SF} (uy : Sym) (ay : List Rat) (h : ∀ f ∈ fs, f.uy = uy ∧ f.ay = ay) :
    (fs.map fun f : SF => { f with uy := uy }).map (fun f : SF => { f with ay := ay }) = fs := by
  rw [List.map_map]
  conv_rhs => rw [← List.map_id fs]
  apply List.map_congr_left
  intro f hf
  obtain ⟨a, b⟩ := h f hf
  cases f
  simp_all

/-- C98: every field of the result is the field of the operand after the same change of unit (what this means is C13), and
the container stays consistent. -/
theorem C98_change_unit {t t' : TF} (ht : Consistent t) (hx : 0 < t.ux.size) (hy : 0 < t.uy.size) (hv : ∀ f ∈ t.fields, 0 < f.uv.size)
    {w : SF.Which} {new : Sym} (hn : 0 < new.size) (h : changeUnit t w new = .ok t') :
    t'.times = t.times ∧ t'.ut = t.ut ∧ Consistent t' ∧
      ∀ (i : Nat) (f : SF), t.fields[i]? = some f → ∃ g, t'.fields[i]? = some g ∧ f.changeUnit w new = .ok g := by
  unfold changeUnit at h
  cases hm : mapRes (fun f : SF => f.changeUnit w new) t.fields with
  | error e => rw [hm] at h; cases h
  | ok fs =>
    rw [hm] at h
    simp only at h
    obtain ⟨hl, hg⟩ := mapRes_get hm
    have hmem : ∀ g ∈ fs, ∃ f ∈ t.fields, f.changeUnit w new = .ok g := by
      intro g hgm
      obtain ⟨i, hi⟩ := List.getElem?_of_mem hgm
      have := getElem?_some_lt hi
      rw [hl] at this
      exact ⟨_, List.getElem_mem this, hg i _ _ (List.getElem?_eq_getElem this) hi⟩
    have hidx : ∀ (i : Nat) (f : SF), t.fields[i]? = some f → ∃ g, fs[i]? = some g ∧ f.changeUnit w new = .ok g := by
      intro i f hf
      have hi : i < fs.length := by rw [hl]; exact getElem?_some_lt hf
      exact ⟨_, List.getElem?_eq_getElem hi, hg i _ _ hf (List.getElem?_eq_getElem hi)⟩
    have hp : t.times.length = fs.length := ht.paired.trans hl.symm
    have hwf : ∀ g ∈ fs, g.WF := by
      intro g hgm
      obtain ⟨f, hf, e⟩ := hmem g hgm
      exact (SF.C13_changeUnit_physical (ht.wf f hf) (by rw [ht.ux f hf]; exact hx) (by rw [ht.uy f hf]; exact hy) (hv f hf) hn e).1
    cases w with
    | x =>
      unfold Unum.asUnit at h
      simp only at h
      split at h
      · rename_i hc
        have hfs : ∀ g ∈ fs, g.ux = new ∧ g.ax = t.ax.map (· * (1 * t.ux.size / new.size)) ∧ g.ay = t.ay ∧ g.uy = t.uy := by
          intro g hgm
          obtain ⟨f, hf, e⟩ := hmem g hgm
          unfold SF.changeUnit Unum.asUnit at e
          rw [ht.ux f hf, ht.ax f hf] at e
          simp only [hc, if_true, Except.map] at e
          cases e
          exact ⟨rfl, rfl, ht.ay f hf, ht.uy f hf⟩
        cases h
        simp only [setAxeX, setUnitX]
        rw [map_overwrite_x _ _ fun g hgm => ⟨(hfs g hgm).1, (hfs g hgm).2.1⟩]
        exact ⟨trivial, trivial, ⟨hp, hwf, fun g h => (hfs g h).2.1, fun g h => (hfs g h).2.2.1, fun g h => (hfs g h).1,
          fun g h => (hfs g h).2.2.2⟩, hidx⟩
      · cases h
    | y =>
      unfold Unum.asUnit at h
      simp only at h
      split at h
      · rename_i hc
        have hfs : ∀ g ∈ fs, g.uy = new ∧ g.ay = t.ay.map (· * (1 * t.uy.size / new.size)) ∧ g.ax = t.ax ∧ g.ux = t.ux := by
          intro g hgm
          obtain ⟨f, hf, e⟩ := hmem g hgm
          unfold SF.changeUnit Unum.asUnit at e
          rw [ht.uy f hf, ht.ay f hf] at e
          simp only [hc, if_true, Except.map] at e
          cases e
          exact ⟨rfl, rfl, ht.ax f hf, ht.ux f hf⟩
        cases h
        simp only [setAxeY, setUnitY]
        rw [map_overwrite_y _ _ fun g hgm => ⟨(hfs g hgm).1, (hfs g hgm).2.1⟩]
        exact ⟨trivial, trivial, ⟨hp, hwf, fun g h => (hfs g h).2.2.1, fun g h => (hfs g h).2.1, fun g h => (hfs g h).2.2.2,
          fun g h => (hfs g h).1⟩, hidx⟩
      · cases h
    | values =>
      cases h
      have hfs : ∀ g ∈ fs, g.ax = t.ax ∧ g.ay = t.ay ∧ g.ux = t.ux ∧ g.uy = t.uy := by
        intro g hgm
        obtain ⟨f, hf, e⟩ := hmem g hgm
        unfold SF.changeUnit Unum.asUnit at e
        simp only at e
        split at e
        · cases e
          exact ⟨ht.ax f hf, ht.ay f hf, ht.ux f hf, ht.uy f hf⟩
        · cases e
      exact ⟨rfl, rfl, ⟨hp, hwf, fun g h => (hfs g h).1, fun g h => (hfs g h).2.1, fun g h => (hfs g h).2.2.1,
        fun g h => (hfs g h).2.2.2⟩, hidx⟩

/-- C98: a change of the unit of times keeps every instant. -/
theorem C98_change_unit_time {t t' : TF} (hu : t.ut.size ≠ 0) {new : Sym} (hn : new.size ≠ 0) (h : changeUnitTime t new = .ok t') :
    t'.fields = t.fields ∧ t'.ut = new ∧ t'.times.map (· * t'.ut.size) = t.times.map (· * t.ut.size) := by
  unfold changeUnitTime Unum.asUnit at h
  simp only at h
  split at h
  · cases h
    refine ⟨rfl, rfl, ?_⟩
    simp only [List.map_map]
    apply List.map_congr_left
    intro x _
    simp only [Function.comp]
    field_simp
  · cases h

/-- C98: units of another dimension are refused. -/
theorem C98_refused {t : TF} {new : Sym} (h : ¬ t.ut.Compat new) : changeUnitTime t new = .error .valueError := by
  unfold changeUnitTime Unum.asUnit
  simp only
  rw [if_neg h]
  rfl

/-- C98: so are they for the axes. -/
theorem C98_refused_axes {t : TF} (ht : Consistent t) {new : Sym} :
    (¬ t.ux.Compat new → changeUnit t .x new = .error .valueError) ∧ (¬ t.uy.Compat new → changeUnit t .y new = .error .valueError) := by
  constructor
  · intro h
    unfold changeUnit
    cases hf : t.fields with
    | nil =>
      unfold mapRes Unum.asUnit
      simp only
      rw [if_neg h]
      rfl
    | cons f fs =>
      have hm : f ∈ t.fields := by rw [hf]; simp
      unfold mapRes SF.changeUnit Unum.asUnit
      simp only
      rw [ht.ux f hm, if_neg h]
      rfl
  · intro h
    unfold changeUnit
    cases hf : t.fields with
    | nil =>
      unfold mapRes Unum.asUnit
      simp only
      rw [if_neg h]
      rfl
    | cons f fs =>
      have hm : f ∈ t.fields := by rw [hf]; simp
      unfold mapRes SF.changeUnit Unum.asUnit
      simp only
      rw [ht.uy f hm, if_neg h]
      rfl

example : ((changeUnitTime rec3 .ms).toOption.map fun t => (t.times, t.ut)) = some ([1000, 2000, 4000], .ms) ∧
    ((changeUnit rec3 .x .m).toOption.map fun t => (t.ax, t.fields.map fun f => f.ax)) =
      some ([0, 1 / 1000, 3 / 1000], [[0, 1 / 1000, 3 / 1000], [0, 1 / 1000, 3 / 1000], [0, 1 / 1000, 3 / 1000]]) := by
  decide +kernel

/-! ### C99 -/

/-- C99: a translation of the origin moves the container and each of its fields alike (C12). -/
theorem C99_set_origin {t : TF} (ht : Consistent t) (ox oy : Option Rat) :
    (setOrigin t ox oy).fields = t.fields.map (fun f => f.setOrigin ox oy) ∧ (setOrigin t ox oy).times = t.times ∧
      (setOrigin t ox oy).ut = t.ut ∧ Consistent (setOrigin t ox oy) := by
  have hfields : (setOrigin t ox oy).fields = t.fields.map (fun f => f.setOrigin ox oy) := by
    cases ox <;> cases oy <;> simp only [setOrigin, originX, originY, setAxeX, setAxeY, List.map_map]
    · conv_lhs => rw [← List.map_id t.fields]
      rfl
    · apply List.map_congr_left
      intro f hf
      unfold SF.setOrigin
      rw [ht.ay f hf]
    · apply List.map_congr_left
      intro f hf
      unfold SF.setOrigin
      rw [ht.ax f hf]
    · apply List.map_congr_left
      intro f hf
      unfold SF.setOrigin
      simp only [Function.comp]
      rw [ht.ax f hf, ht.ay f hf]
  have hpar : ∀ f ∈ t.fields, (f.setOrigin ox oy).ax = (setOrigin t ox oy).ax ∧ (f.setOrigin ox oy).ay = (setOrigin t ox oy).ay ∧
      (setOrigin t ox oy).ux = t.ux ∧ (setOrigin t ox oy).uy = t.uy := by
    intro f hf
    have h1 := ht.ax f hf
    have h2 := ht.ay f hf
    cases ox <;> cases oy <;> simp [setOrigin, originX, originY, setAxeX, setAxeY, SF.setOrigin, h1, h2]
  have htimes : (setOrigin t ox oy).times = t.times ∧ (setOrigin t ox oy).ut = t.ut := by
    cases ox <;> cases oy <;> exact ⟨rfl, rfl⟩
  refine ⟨hfields, htimes.1, htimes.2, ?_, ?_, ?_, ?_, ?_, ?_⟩
  · unfold Paired; rw [hfields, htimes.1, List.length_map]; exact ht.paired
  all_goals
    intro g hg
    rw [hfields] at hg
    obtain ⟨f, hf, rfl⟩ := List.mem_map.mp hg
  · exact (SF.C12_setOrigin_shifts (ht.wf f hf) ox oy).1
  · exact (hpar f hf).1
  · exact (hpar f hf).2.1
  · rw [(hpar f hf).2.2.1]; exact ht.ux f hf
  · rw [(hpar f hf).2.2.2]; exact ht.uy f hf

theorem rotate_axes {f g : SF} (hx : f.ax = g.ax) (hy : f.ay = g.ay) (hux : f.ux = g.ux) (huy : f.uy = g.uy) {a : Int} {f' g' : SF}
    (hf : f.rotate a = .ok f') (hg : g.rotate a = .ok g') : f'.ax = g'.ax ∧ f'.ay = g'.ay ∧ f'.ux = g'.ux ∧ f'.uy = g'.uy := by
  unfold SF.rotate at hf hg
  rw [hx, hy, hux, huy] at hf
  split at hf
  · cases hf
  · rename_i h1
    rw [if_neg h1] at hg
    simp only at hf hg
    split at hf
    · rename_i h2
      rw [if_pos h2] at hg
      cases hf; cases hg; exact ⟨rfl, rfl, rfl, rfl⟩
    · rename_i h2
      rw [if_neg h2] at hg
      split at hf
      · rename_i h3
        rw [if_pos h3] at hg
        cases hf; cases hg; exact ⟨rfl, rfl, rfl, rfl⟩
      · rename_i h3
        rw [if_neg h3] at hg
        split at hf
        · rename_i h4
          rw [if_pos h4] at hg
          cases hf; cases hg; exact ⟨rfl, rfl, rfl, rfl⟩
        · rename_i h4
          rw [if_neg h4] at hg
          cases hf; cases hg; exact ⟨rfl, rfl, rfl, rfl⟩

theorem rotate_mod (f : SF) (k : Int) : f.rotate (90 * k % 360) = f.rotate (90 * k) := by
  unfold SF.rotate
  have h1 : 90 * k % 360 % 90 = 90 * k % 90 := by omega
  have h2 : 90 * k % 360 % 360 = 90 * k % 360 := by omega
  rw [h1, h2]

/-- C99: a rotation by quarter turns rotates the container and each of its fields alike (C08), for axes of at least two
points. -/
theorem C99_rotate {t : TF} (ht : Consistent t) (h2x : 2 ≤ t.ax.length) (h2y : 2 ≤ t.ay.length) (k : Int) :
    ∃ t', rotate t (90 * k) = .ok t' ∧ t'.times = t.times ∧ t'.ut = t.ut ∧ Consistent t' ∧
      ∀ (i : Nat) (f : SF), t.fields[i]? = some f → ∃ g, t'.fields[i]? = some g ∧ f.rotate (90 * k) = .ok g := by
  have hrot : ∀ f ∈ t.fields, ∃ g, f.rotate (90 * k % 360) = .ok g ∧ g.WF := by
    intro f hf
    obtain ⟨g, e, w, _⟩ := SF.C08_rotate_moves_readings (ht.wf f hf) (by rw [ht.ax f hf]; exact h2x) (by rw [ht.ay f hf]; exact h2y) k
    exact ⟨g, by rw [rotate_mod]; exact e, w⟩
  obtain ⟨fs, hm⟩ := mapRes_exists (g := fun f : SF => f.rotate (90 * k % 360)) fun f hf => by
    obtain ⟨g, e, _⟩ := hrot f hf
    exact ⟨g, e⟩
  obtain ⟨hl, hg⟩ := mapRes_get hm
  obtain ⟨p, hpar⟩ : ∃ p, t.frame.rotate (90 * k % 360) = .ok p := by
    unfold SF.rotate
    rw [if_neg (by omega)]
    simp only
    split
    · exact ⟨_, rfl⟩
    · split
      · exact ⟨_, rfl⟩
      · split <;> exact ⟨_, rfl⟩
  have hmem : ∀ g ∈ fs, ∃ f ∈ t.fields, f.rotate (90 * k % 360) = .ok g := by
    intro g hgm
    obtain ⟨i, hi⟩ := List.getElem?_of_mem hgm
    have := getElem?_some_lt hi
    rw [hl] at this
    exact ⟨_, List.getElem_mem this, hg i _ _ (List.getElem?_eq_getElem this) hi⟩
  have hax : ∀ g ∈ fs, g.WF ∧ g.ax = p.ax ∧ g.ay = p.ay ∧ g.ux = p.ux ∧ g.uy = p.uy := by
    intro g hgm
    obtain ⟨f, hf, e⟩ := hmem g hgm
    obtain ⟨g', e', w⟩ := hrot f hf
    rw [e] at e'
    cases e'
    exact ⟨w, rotate_axes (g := t.frame) (ht.ax f hf) (ht.ay f hf) (ht.ux f hf) (ht.uy f hf) e hpar⟩
  refine ⟨{ t with ax := p.ax, ay := p.ay, ux := p.ux, uy := p.uy, fields := fs }, ?_, rfl, rfl, ?_, ?_⟩
  · unfold rotate
    rw [if_neg (by omega), hpar]
    simp only
    rw [hm]
  · exact ⟨by unfold Paired; exact ht.paired.trans hl.symm, fun g h => (hax g h).1, fun g h => (hax g h).2.1,
      fun g h => (hax g h).2.2.1, fun g h => (hax g h).2.2.2.1, fun g h => (hax g h).2.2.2.2⟩
  · intro i f hf
    have hi : i < fs.length := by rw [hl]; exact getElem?_some_lt hf
    exact ⟨_, List.getElem?_eq_getElem hi, by rw [← rotate_mod]; exact hg i _ _ hf (List.getElem?_eq_getElem hi)⟩

/-- C99: other angles are refused. -/
theorem C99_rotate_refused (t : TF) {a : Int} (h : a % 90 ≠ 0) : rotate t a = .error .valueError := by
  unfold rotate; rw [if_pos h]

example : 2 ≤ rec3.ax.length ∧ 2 ≤ rec3.ay.length ∧
    ((rotate rec3 90).toOption.map fun t => (t.ax, t.fields.map fun f => f.ax)) =
      some ([-1 / 2, 1], [[-1 / 2, 1], [-1 / 2, 1], [-1 / 2, 1]]) := by decide +kernel

end IMT.Temporal
