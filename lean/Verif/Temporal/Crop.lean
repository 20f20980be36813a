import Verif.Temporal.Lemmas
import Verif.Scalar.Geom

/-! Property C40: cropping a container keeps exactly the fields of the closed time interval, restricted to the closed
spatial window. -/

namespace IMT.Temporal

/-! ### indices -/

theorem cropLo_spec {ts : List Rat} (hs : ts.Pairwise (· ≤ ·)) {first last a : Rat} (hf : ts.head? = some first)
    {i : Nat} (h : cropLo ts first last a = .ok i) {k : Nat} (hk : k < ts.length) : a ≤ ts[k] ↔ i ≤ k := by
  have hle : ∀ i j (hi : i < ts.length) (hj : j < ts.length), i ≤ j → ts[i] ≤ ts[j] := by
    intro i j hi hj hij
    rcases Nat.lt_or_eq_of_le hij with c | c
    · exact List.pairwise_iff_getElem.mp hs i j hi hj c
    · subst c; exact le_refl _
  have h0 : ts[0]'(by omega) = first := by
    rw [List.head?_eq_getElem?, List.getElem?_eq_getElem (by omega)] at hf
    exact Option.some.inj hf
  unfold cropLo at h
  by_cases h1 : a < first
  · rw [if_pos h1] at h
    cases h
    have := hle 0 k (by omega) hk (by omega)
    constructor
    · intro _; omega
    · intro _; rw [h0] at this; linarith
  · rw [if_neg h1] at h
    by_cases h2 : a > last
    · rw [if_pos h2] at h; cases h
    · rw [if_neg h2] at h
      cases h
      constructor
      · intro hak
        by_contra hn
        have := List.not_of_lt_findIdx (not_le.mp hn)
        simp only [decide_eq_false_iff_not] at this
        exact this hak
      · intro hik
        have hlen : ts.findIdx (fun x => decide (a ≤ x)) < ts.length := by omega
        have := of_decide_eq_true (@List.findIdx_getElem _ (fun x => decide (a ≤ x)) ts hlen)
        exact le_trans this (hle _ _ hlen hk hik)

theorem cropHi_spec {ts : List Rat} (hs : ts.Pairwise (· ≤ ·)) {first last b : Rat} (hf : ts.head? = some first)
    (hl : ts.getLast? = some last) {j : Nat} (h : cropHi ts first last b = .ok j) {k : Nat} (hk : k < ts.length) :
    ts[k] ≤ b ↔ k < j + 1 := by
  have hle : ∀ i j (hi : i < ts.length) (hj : j < ts.length), i ≤ j → ts[i] ≤ ts[j] := by
    intro i j hi hj hij
    rcases Nat.lt_or_eq_of_le hij with c | c
    · exact List.pairwise_iff_getElem.mp hs i j hi hj c
    · subst c; exact le_refl _
  have h0 : ts[0]'(by omega) = first := by
    rw [List.head?_eq_getElem?, List.getElem?_eq_getElem (by omega)] at hf
    exact Option.some.inj hf
  have hn : ts[ts.length - 1]'(by omega) = last := by
    rw [List.getLast?_eq_getElem?, List.getElem?_eq_getElem (by omega)] at hl
    exact Option.some.inj hl
  unfold cropHi at h
  by_cases h1 : b > last
  · rw [if_pos h1] at h
    cases h
    have := hle k (ts.length - 1) hk (by omega) (by omega)
    constructor
    · intro _; omega
    · intro _; rw [hn] at this; linarith
  · rw [if_neg h1] at h
    by_cases h2 : b < first
    · rw [if_pos h2] at h; cases h
    · rw [if_neg h2] at h
      cases h
      have hlen : ts.reverse.findIdx (fun x => decide (b ≥ x)) < ts.reverse.length := by
        apply List.findIdx_lt_length_of_exists
        refine ⟨first, ?_, ?_⟩
        · rw [List.mem_reverse, ← h0]; exact List.getElem_mem _
        · simp; linarith
      have hlen' := hlen
      rw [List.length_reverse] at hlen'
      have hr := of_decide_eq_true (@List.findIdx_getElem _ (fun x => decide (b ≥ x)) ts.reverse hlen)
      rw [List.getElem_reverse] at hr
      constructor
      · intro hkb
        by_contra hc
        have hlt : ts.length - 1 - k < ts.reverse.findIdx (fun x => decide (b ≥ x)) := by omega
        have := List.not_of_lt_findIdx hlt
        simp only [List.getElem_reverse, decide_eq_false_iff_not] at this
        apply this
        have e : ts.length - 1 - (ts.length - 1 - k) = k := by omega
        simp only [e]; exact hkb
      · intro hkj
        exact le_trans (hle _ _ hk (by omega) (by omega)) hr

theorem cropTimeInds_spec {ts : List Rat} (hs : ts.Pairwise (· ≤ ·)) {a b : Rat} {i j : Nat}
    (h : cropTimeInds ts a b = .ok (i, j)) {k : Nat} (hk : k < ts.length) :
    (a ≤ ts[k] ∧ ts[k] ≤ b) ↔ i ≤ k ∧ k < j + 1 := by
  unfold cropTimeInds at h
  cases hf : ts.head? with
  | none => rw [hf] at h; cases h
  | some first =>
    cases hl : ts.getLast? with
    | none => rw [hf, hl] at h; cases h
    | some last =>
      rw [hf, hl] at h
      simp only at h
      cases h1 : cropLo ts first last a with
      | error e => rw [h1] at h; cases h
      | ok i' =>
        cases h2 : cropHi ts first last b with
        | error e => rw [h1, h2] at h; cases h
        | ok j' =>
          rw [h1, h2] at h
          cases h
          rw [cropLo_spec hs hf h1 hk, cropHi_spec hs hf hl h2 hk]

theorem slice_eq_self {α : Type} (l : List α) {n : Nat} (h : l.length ≤ n) : slice l 0 n = l := by
  unfold slice; rw [List.take_of_length_le h, List.drop_zero]

/-- The temporal part of a crop. -/
theorem cropTime_spec {t t' : TF} (hp : Paired t) (hs : Sorted t) {it : Option (Rat × Rat)} (h : cropTime t it = .ok t') :
    entries t' = (entries t).filter (fun p => decide (inside it p.1)) ∧ Paired t' ∧ Sorted t' ∧
      t'.ax = t.ax ∧ t'.ay = t.ay ∧ t'.ux = t.ux ∧ t'.uy = t.uy ∧ t'.ut = t.ut ∧ t'.fields.Sublist t.fields := by
  unfold cropTime at h
  cases it with
  | none =>
    cases h
    refine ⟨?_, hp, hs, rfl, rfl, rfl, rfl, rfl, List.Sublist.refl _⟩
    simp only [inside]
    exact (List.filter_eq_self.mpr fun _ _ => rfl).symm
  | some p =>
    obtain ⟨a, b⟩ := p
    simp only at h
    cases hc : cropTimeInds t.times a b with
    | error e => rw [hc] at h; cases h
    | ok q =>
      obtain ⟨i, j⟩ := q
      rw [hc] at h
      cases h
      refine ⟨?_, ?_, ?_, rfl, rfl, rfl, rfl, rfl, ?_⟩
      · unfold entries cutTime
        simp only
        rw [Profile.slice_zip]
        apply Profile.slice_filter
        intro k hk
        have hk' : k < t.times.length := by rw [List.length_zip] at hk; omega
        simp only [List.getElem_zip, decide_eq_true_eq, inside]
        exact cropTimeInds_spec hs hc hk'
      · unfold Paired cutTime
        simp only [slice_length]
        rw [hp]
      · unfold Sorted cutTime slice
        exact List.Pairwise.sublist ((List.drop_sublist _ _).trans (List.take_sublist _ _)) hs
      · exact (List.drop_sublist _ _).trans (List.take_sublist _ _)

/-! ### space -/

/-- A spatial crop cuts index windows that depend on the axes only. -/
theorem crop_cut {f h : SF} {ix iy : Option (Rat × Rat)} (hc : f.crop ix iy = .ok h) :
    ∃ x0 x1 y0 y1, h = f.cut x0 x1 y0 y1 ∧
      (∀ g : SF, g.ax = f.ax → g.ay = f.ay → g.crop ix iy = .ok (g.cut x0 x1 y0 y1)) ∧
      (Inc f.ax → ∀ (i : Nat) (x : Rat), f.ax[i]? = some x → ((x0 ≤ i ∧ i < x1 + 1) ↔ inside ix x)) ∧
      (Inc f.ay → ∀ (j : Nat) (y : Rat), f.ay[j]? = some y → ((y0 ≤ j ∧ j < y1 + 1) ↔ inside iy y)) := by
  have key : ∀ (l : List Rat) (a b : Rat), l.head? = some a → l.getLast? = some b → Inc l → ∀ (i : Nat) (x : Rat), l[i]? = some x →
      a ≤ x ∧ x ≤ b := by
    intro l a b ha hb hi i x hx
    rw [head?_eq_get0] at ha
    rw [getLast?_eq_get] at hb
    exact ⟨hi.get_le ha hx (Nat.zero_le _), hi.get_le hx hb (by have := getElem?_some_lt hx; omega)⟩
  have gen : ∀ (a b c d : Rat) (x0 x1 y0 y1 : Nat), Axis.cropInds f.ax a b = .ok (x0, x1) → Axis.cropInds f.ay c d = .ok (y0, y1) →
      ((∀ (i : Nat) (x : Rat), Inc f.ax → f.ax[i]? = some x → ((a ≤ x ∧ x ≤ b) ↔ inside ix x))) →
      ((∀ (i : Nat) (y : Rat), Inc f.ay → f.ay[i]? = some y → ((c ≤ y ∧ y ≤ d) ↔ inside iy y))) →
      (Inc f.ax → ∀ (i : Nat) (x : Rat), f.ax[i]? = some x → ((x0 ≤ i ∧ i < x1 + 1) ↔ inside ix x)) ∧
      (Inc f.ay → ∀ (j : Nat) (y : Rat), f.ay[j]? = some y → ((y0 ≤ j ∧ j < y1 + 1) ↔ inside iy y)) := by
    intro a b c d x0 x1 y0 y1 h1 h2 h3 h4
    exact ⟨fun hi i x hx => (Axis.cropInds_window hi h1 hx).trans (h3 i x hi hx),
      fun hi i x hx => (Axis.cropInds_window hi h2 hx).trans (h4 i x hi hx)⟩
  unfold SF.crop at hc
  simp only at hc
  split at hc
  · rename_i a b c d hx hy
    split at hc
    · rename_i x0 x1 y0 y1 h1 h2
      cases hc
      refine ⟨x0, x1, y0, y1, rfl, ?_, ?_⟩
      · intro g hgx hgy
        unfold SF.crop
        simp only
        rw [hgx, hgy, hx, hy]
        simp only
        rw [h1, h2]
      · apply gen a b c d x0 x1 y0 y1 h1 h2
        · intro i x hi hxi
          cases ix with
          | some p => simp only [Option.some.injEq] at hx; subst hx; simp [inside]
          | none =>
            simp only at hx
            cases hh : f.ax.head? with
            | none => rw [hh] at hx; simp at hx
            | some u =>
              cases hg : f.ax.getLast? with
              | none => rw [hh, hg] at hx; simp at hx
              | some v =>
                rw [hh, hg] at hx
                simp only [Option.some.injEq, Prod.mk.injEq] at hx
                obtain ⟨rfl, rfl⟩ := hx
                have := key f.ax _ _ hh hg hi i x hxi
                simp [inside, this]
        · intro i x hi hxi
          cases iy with
          | some p => simp only [Option.some.injEq] at hy; subst hy; simp [inside]
          | none =>
            simp only at hy
            cases hh : f.ay.head? with
            | none => rw [hh] at hy; simp at hy
            | some u =>
              cases hg : f.ay.getLast? with
              | none => rw [hh, hg] at hy; simp at hy
              | some v =>
                rw [hh, hg] at hy
                simp only [Option.some.injEq, Prod.mk.injEq] at hy
                obtain ⟨rfl, rfl⟩ := hy
                have := key f.ay _ _ hh hg hi i x hxi
                simp [inside, this]
    · cases hc
    · cases hc
  · cases hc

/-! ### C40 -/

/-- What is expected of one field: the readings of the window, and only them, in the same units. -/
structure Cropped (ix iy : Option (Rat × Rat)) (f g : SF) : Prop where
  reads : ∀ x y r, g.Reads x y r ↔ f.Reads x y r ∧ inside ix x ∧ inside iy y
  ux : g.ux = f.ux
  uy : g.uy = f.uy
  uv : g.uv = f.uv

theorem cropSpace_spec {t t' : TF} (hc : Consistent t) {ix iy : Option (Rat × Rat)} (h : cropSpace t ix iy = .ok t') :
    ∃ x0 x1 y0 y1, t' = { t with ax := slice t.ax x0 (x1 + 1), ay := slice t.ay y0 (y1 + 1),
                                 fields := t.fields.map fun f => f.cut x0 x1 y0 y1 } ∧
      (Inc t.ax → ∀ (i : Nat) (x : Rat), t.ax[i]? = some x → ((x0 ≤ i ∧ i < x1 + 1) ↔ inside ix x)) ∧
      (Inc t.ay → ∀ (j : Nat) (y : Rat), t.ay[j]? = some y → ((y0 ≤ j ∧ j < y1 + 1) ↔ inside iy y)) := by
  unfold cropSpace at h
  cases hg : t.frame.crop ix iy with
  | error e => rw [hg] at h; cases h
  | ok g =>
    rw [hg] at h
    simp only at h
    obtain ⟨x0, x1, y0, y1, rfl, hall, hx, hy⟩ := crop_cut hg
    have hm : mapRes (fun f : SF => f.crop ix iy) t.fields = .ok (t.fields.map fun f => f.cut x0 x1 y0 y1) :=
      mapRes_of_forall _ fun f hf => hall f (hc.ax f hf) (hc.ay f hf)
    rw [hm] at h
    cases h
    exact ⟨x0, x1, y0, y1, rfl, hx, hy⟩

/-- C40: the result of a crop holds exactly the fields whose time lies in the closed time interval, in the same order and
with the same times, each of them showing exactly what it showed at the points of the closed window; the axes of the
container are those of the window. -/
theorem C40_crop {t t' : TF} (hc : Consistent t) (hs : Sorted t) (hx : Inc t.ax) (hy : Inc t.ay)
    {ix iy it : Option (Rat × Rat)} (h : crop t ix iy it = .ok t') :
    List.Forall₂ (fun p q => q.1 = p.1 ∧ Cropped ix iy p.2 q.2)
        ((entries t).filter fun p => decide (inside it p.1)) (entries t') ∧
      Paired t' ∧ Sorted t' ∧
      t'.ax = t.ax.filter (fun x => decide (inside ix x)) ∧ t'.ay = t.ay.filter (fun y => decide (inside iy y)) ∧
      (∀ f ∈ t'.fields, f.ax = t'.ax ∧ f.ay = t'.ay) ∧ t'.ut = t.ut := by
  unfold crop at h
  cases h1 : cropTime t it with
  | error e => rw [h1] at h; cases h
  | ok t1 =>
    rw [h1] at h
    simp only at h
    obtain ⟨he, hp, hs1, eax, eay, eux, euy, eut, hsub⟩ := cropTime_spec hc.paired hs h1
    have hc1 : Consistent t1 := by
      refine ⟨hp, fun f hf => hc.wf f (hsub.subset hf), ?_, ?_, ?_, ?_⟩
      · intro f hf; rw [eax]; exact hc.ax f (hsub.subset hf)
      · intro f hf; rw [eay]; exact hc.ay f (hsub.subset hf)
      · intro f hf; rw [eux]; exact hc.ux f (hsub.subset hf)
      · intro f hf; rw [euy]; exact hc.uy f (hsub.subset hf)
    obtain ⟨x0, x1, y0, y1, rfl, wx, wy⟩ := cropSpace_spec hc1 h
    rw [eax] at wx
    rw [eay] at wy
    have wx := wx hx
    have wy := wy hy
    have ax : ∀ (l : List Rat) (lo hi : Nat) (i : Option (Rat × Rat)),
        (∀ (k : Nat) (x : Rat), l[k]? = some x → ((lo ≤ k ∧ k < hi + 1) ↔ inside i x)) →
        slice l lo (hi + 1) = l.filter (fun x => decide (inside i x)) := by
      intro l lo hi i hw
      apply Profile.slice_filter
      intro k hk
      rw [decide_eq_true_eq]
      exact (hw k _ (List.getElem?_eq_getElem hk)).symm
    refine ⟨?_, ?_, hs1, ?_, ?_, ?_, eut⟩
    · rw [← he]
      unfold entries
      simp only
      rw [List.zip_map_right]
      rw [List.forall₂_map_right_iff, List.forall₂_same]
      intro p hp'
      have hf : p.2 ∈ t1.fields := (List.of_mem_zip hp').2
      refine ⟨rfl, ?_, rfl, rfl, rfl⟩
      intro x y r
      show (p.2.cut x0 x1 y0 y1).Reads x y r ↔ _
      rw [SF.cut_reads]
      have ex : p.2.ax = t.ax := (hc1.ax _ hf).trans eax
      have ey : p.2.ay = t.ay := (hc1.ay _ hf).trans eay
      constructor
      · rintro ⟨i, j, hi, hj, hr, hxw, hyw⟩
        exact ⟨⟨i, j, hi, hj, hr⟩, (wx i x (ex ▸ hi)).mp hxw, (wy j y (ey ▸ hj)).mp hyw⟩
      · rintro ⟨⟨i, j, hi, hj, hr⟩, hxw, hyw⟩
        exact ⟨i, j, hi, hj, hr, (wx i x (ex ▸ hi)).mpr hxw, (wy j y (ey ▸ hj)).mpr hyw⟩
    · show t1.times.length = (t1.fields.map _).length
      rw [List.length_map]; exact hp
    · show slice t1.ax x0 (x1 + 1) = _
      rw [eax]; exact ax _ _ _ _ wx
    · show slice t1.ay y0 (y1 + 1) = _
      rw [eay]; exact ax _ _ _ _ wy
    · intro f hf
      have hf : f ∈ t1.fields.map fun f => f.cut x0 x1 y0 y1 := hf
      obtain ⟨g, hg, rfl⟩ := List.mem_map.mp hf
      exact ⟨by show slice g.ax _ _ = slice t1.ax _ _; rw [hc1.ax g hg], by show slice g.ay _ _ = slice t1.ay _ _; rw [hc1.ay g hg]⟩

/-- C40: an interval of time that misses the whole recording is refused. -/
theorem C40_refused {t : TF} (ix iy : Option (Rat × Rat)) {first last a b : Rat} (hs : Sorted t)
    (hf : t.times.head? = some first) (hl : t.times.getLast? = some last) (h : b < first ∨ last < a) :
    crop t ix iy (some (a, b)) = .error .valueError := by
  have hfl : first ≤ last := by
    cases hts : t.times with
    | nil => rw [hts] at hf; cases hf
    | cons c l =>
      unfold Sorted at hs
      rw [hts] at hs hf hl
      cases hf
      cases l with
      | nil => cases hl; exact le_refl _
      | cons d l =>
        rw [List.getLast?_cons_cons] at hl
        exact (List.pairwise_cons.mp hs).1 _ (List.mem_of_getLast? hl)
  have key : cropTimeInds t.times a b = .error .valueError := by
    unfold cropTimeInds
    rw [hf, hl]
    simp only
    by_cases h1 : last < a
    · have : cropLo t.times first last a = .error .valueError := by
        unfold cropLo; rw [if_neg (by linarith), if_pos h1]
      rw [this]
    · have hb : b < first := by tauto
      have : cropHi t.times first last b = .error .valueError := by
        unfold cropHi; rw [if_neg (by linarith), if_pos hb]
      rw [this]
      have : ∃ i, cropLo t.times first last a = .ok i := by
        unfold cropLo
        by_cases h2 : a < first
        · exact ⟨_, if_pos h2⟩
        · rw [if_neg h2, if_neg (by linarith)]; exact ⟨_, rfl⟩
      obtain ⟨i, hi⟩ := this
      rw [hi]
  unfold crop cropTime
  simp only
  rw [key]

/-- C40: every interval that meets the recording, and every window that meets the grid, is accepted. -/
theorem C40_accepted {t : TF} (hc : Consistent t) (hx : Inc t.ax) (hy : Inc t.ay) {a b c d τ₁ τ₂ : Rat}
    (hf : t.times.head? = some τ₁) (hl : t.times.getLast? = some τ₂) (ht : a ≤ τ₂ ∧ τ₁ ≤ b)
    (wx : ∃ x ∈ t.ax, c ≤ x ∧ x ≤ d) (ny : t.ay ≠ []) :
    ∃ t', crop t (some (c, d)) none (some (a, b)) = .ok t' := by
  have h1 : ∃ i j, cropTimeInds t.times a b = .ok (i, j) := by
    unfold cropTimeInds
    rw [hf, hl]
    simp only
    have e1 : ∃ i, cropLo t.times τ₁ τ₂ a = .ok i := by
      unfold cropLo
      by_cases h2 : a < τ₁
      · exact ⟨_, if_pos h2⟩
      · rw [if_neg h2, if_neg (by linarith [ht.1])]; exact ⟨_, rfl⟩
    have e2 : ∃ i, cropHi t.times τ₁ τ₂ b = .ok i := by
      unfold cropHi
      by_cases h2 : b > τ₂
      · exact ⟨_, if_pos h2⟩
      · rw [if_neg h2, if_neg (by linarith [ht.2])]; exact ⟨_, rfl⟩
    obtain ⟨i, hi⟩ := e1
    obtain ⟨j, hj⟩ := e2
    exact ⟨i, j, by rw [hi, hj]⟩
  obtain ⟨i, j, hij⟩ := h1
  have hwin : ∀ (l : List Rat) (u v : Rat), Inc l → (∃ x ∈ l, u ≤ x ∧ x ≤ v) → ∃ lo hi, Axis.cropInds l u v = .ok (lo, hi) := by
    intro l u v hi ⟨x, hxl, hux, hxv⟩
    have hne : l ≠ [] := by rintro rfl; simp at hxl
    obtain ⟨p, hp⟩ : ∃ c, l.head? = some c := by
      cases l with
      | nil => exact absurd rfl hne
      | cons c _ => exact ⟨c, rfl⟩
    obtain ⟨q, hq⟩ : ∃ c, l.getLast? = some c := ⟨_, List.getLast?_eq_some_getLast hne⟩
    obtain ⟨k, hk⟩ := List.getElem?_of_mem hxl
    have hp' := hp
    have hq' := hq
    rw [head?_eq_get0] at hp'
    rw [getLast?_eq_get] at hq'
    have h1 := hi.get_le hp' hk (Nat.zero_le _)
    have h2 := hi.get_le hk hq' (by have := getElem?_some_lt hk; omega)
    obtain ⟨lo, hi', e, _⟩ := Axis.cropInds_ok hi hp hq (by linarith) (by linarith : p ≤ v) (by linarith : u ≤ q)
    exact ⟨lo, hi', e⟩
  obtain ⟨x0, x1, ex⟩ := hwin t.ax c d hx wx
  obtain ⟨p, hp⟩ : ∃ c, t.ay.head? = some c := by
    cases hay : t.ay with
    | nil => exact absurd hay ny
    | cons c _ => exact ⟨c, rfl⟩
  obtain ⟨q, hq⟩ : ∃ c, t.ay.getLast? = some c := ⟨_, List.getLast?_eq_some_getLast ny⟩
  have hpq : p ≤ q := Axis.head_le_last hy hp hq
  obtain ⟨y0, y1, ey⟩ := hwin t.ay p q hy ⟨p, List.mem_of_mem_head? hp, le_refl _, hpq⟩
  have all : ∀ g : SF, g.ax = t.ax → g.ay = t.ay → g.crop (some (c, d)) none = .ok (g.cut x0 x1 y0 y1) := by
    intro g hgx hgy
    unfold SF.crop
    simp only
    rw [hgx, hgy, hp, hq]
    simp only
    rw [ex, ey]
  unfold crop cropTime
  simp only
  rw [hij]
  simp only
  unfold cropSpace
  have e1 : (cutTime t i j).frame.crop (some (c, d)) none = .ok ((cutTime t i j).frame.cut x0 x1 y0 y1) := all _ rfl rfl
  rw [e1]
  have e2 : mapRes (fun f : SF => f.crop (some (c, d)) none) (cutTime t i j).fields =
      .ok ((cutTime t i j).fields.map fun f => f.cut x0 x1 y0 y1) := by
    apply mapRes_of_forall
    intro f hf
    have hf' : f ∈ t.fields := ((List.drop_sublist _ _).trans (List.take_sublist _ _)).subset hf
    exact all f (hc.ax f hf') (hc.ay f hf')
  rw [e2]
  exact ⟨_, rfl⟩

/-- A recording of three fields used in the examples. -/
def rec3 : TF :=
  ⟨SF.sample.ax, SF.sample.ay, SF.sample.ux, SF.sample.uy, [1, 2, 4], .s, [SF.sample, SF.sample.neg, SF.sample], true⟩

theorem rec3_consistent : Consistent rec3 := by
  have hn : SF.sample.neg.WF := SF.setValues_WF SF.sample_WF (by simp [Grid.map, SF.values]; rfl) (by simp [Grid.map, SF.values]; rfl)
  refine ⟨rfl, ?_, ?_, ?_, ?_, ?_⟩ <;> intro f hf <;>
    (have hf : f ∈ [SF.sample, SF.sample.neg, SF.sample] := hf
     simp only [List.mem_cons, List.not_mem_nil, or_false] at hf
     rcases hf with rfl | rfl | rfl)
  exacts [SF.sample_WF, hn, SF.sample_WF, rfl, rfl, rfl, rfl, rfl, rfl, rfl, rfl, rfl, rfl, rfl, rfl]

example : Consistent rec3 ∧ Sorted rec3 ∧ Inc rec3.ax ∧ Inc rec3.ay ∧
    ((crop rec3 (some (1, 3)) none (some (3 / 2, 4))).toOption.map fun t => (t.times, t.ax)) = some ([2, 4], [1, 3]) :=
  ⟨rec3_consistent, by unfold Sorted; decide +kernel, by decide +kernel, by decide +kernel, by decide +kernel⟩

example : ((crop rec3 none none (some (5 / 4, 3 / 2))).toOption.map fun t => t.times) = some [] := by decide +kernel

end IMT.Temporal
