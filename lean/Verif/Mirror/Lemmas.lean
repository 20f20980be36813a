import Verif.Mirror.Model
import Verif.Scalar.Border
import Verif.Scalar.Value
import Verif.Scalar.Geom
import Mathlib.Tactic.Linarith
import Mathlib.Tactic.Ring
import Mathlib.Tactic.Push

/-! Helper lemmas for mirroring: cropping, extension, the loop on the points. -/

namespace IMT.Mirror

open Line (Dir axe)
open SF (SubRect Loose)

/-! ### the part that is kept -/

theorem crop_cut {f g : SF} {p q : Option (Rat × Rat)} (h : f.crop p q = .ok g) : ∃ x0 x1 y0 y1, g = f.cut x0 x1 y0 y1 := by
  unfold SF.crop at h
  simp only at h
  split at h
  · split at h
    · cases h; exact ⟨_, _, _, _, rfl⟩
    · cases h
    · cases h
  · cases h

theorem crop_y {f g : SF} (hf : f.WF) {c d : Rat} (h : f.crop none (some (c, d)) = .ok g)
    (x y : Rat) (r : Option Rat) : g.Reads x y r ↔ f.Reads x y r ∧ (c ≤ y ∧ y ≤ d) := by
  obtain ⟨a, ha⟩ : ∃ a, f.ax.head? = some a := by
    cases e : f.ax with
    | nil => exact absurd e hf.nex
    | cons a _ => exact ⟨a, rfl⟩
  obtain ⟨b, hb⟩ : ∃ b, f.ax.getLast? = some b := ⟨_, List.getLast?_eq_some_getLast hf.nex⟩
  have h' : f.crop (some (a, b)) (some (c, d)) = .ok g := by
    unfold SF.crop at h ⊢
    simp only [ha, hb] at h ⊢
    exact h
  rw [(SF.C06_crop_keeps_readings hf h').1]
  constructor
  · rintro ⟨p, _, q⟩; exact ⟨p, q⟩
  · rintro ⟨⟨i, j, hi, hj, hr⟩, q⟩
    refine ⟨⟨i, j, hi, hj, hr⟩, ⟨?_, ?_⟩, q⟩
    · rw [head?_eq_get0] at ha
      exact hf.incx.get_le ha hi (Nat.zero_le _)
    · rw [getLast?_eq_get] at hb
      exact hf.incx.get_le hi hb (by have := getElem?_some_lt hi; omega)

/-- The coordinate along the direction. -/
def coord : Dir → Rat × Rat → Rat
  | .x, q => q.1
  | .y, q => q.2

theorem cropAlong_reads {f g : SF} (hf : f.WF) {d : Dir} {a b : Rat} (h : cropAlong f d a b = .ok g)
    (x y : Rat) (r : Option Rat) : g.Reads x y r ↔ f.Reads x y r ∧ (a ≤ coord d (x, y) ∧ coord d (x, y) ≤ b) := by
  cases d with
  | x => exact SF.C06_crop_missing_interval hf h x y r
  | y => exact crop_y hf h x y r

theorem cropAlong_cut {f g : SF} {d : Dir} {a b : Rat} (h : cropAlong f d a b = .ok g) :
    ∃ x0 x1 y0 y1, g = f.cut x0 x1 y0 y1 := by
  cases d with
  | x => exact crop_cut (p := some (a, b)) (q := none) h
  | y => exact crop_cut (p := none) (q := some (a, b)) h

theorem trimmed_ok {f t : SF} (hf : f.WF) (h : trimmed f = .ok t) :
    (t = f ∨ ∃ x0 x1 y0 y1, t = f.cut x0 x1 y0 y1) ∧ (∀ x y v, t.Reads x y (some v) ↔ f.Reads x y (some v)) := by
  unfold trimmed at h
  by_cases hm : f.anyMasked = false
  · rw [if_pos hm] at h
    cases h
    exact ⟨.inl rfl, fun x y v => Iff.rfl⟩
  · rw [if_neg hm] at h
    have h' : f.cropMaskedSoft = .ok (some t) := by unfold SF.cropMaskedSoft; rw [if_neg hm, h]; rfl
    obtain ⟨h1, h2, -, -⟩ := SF.C19_soft_bounding_box hf h'
    obtain ⟨x0, x1, y0, y1, e, -⟩ := SF.softCrop_ok h
    exact ⟨.inr ⟨x0, x1, y0, y1, e⟩, fun x y v => ⟨fun hr => ((h1.2.2.1 x y _).mp hr).1, h2 x y v⟩⟩

/-- What the axis of a kept part looks like: positions of an even axis, with an offset. -/
def OnGrid (a h : Rat) (l : List Rat) : Prop := ∃ c : ℤ, ∀ (i : Nat) x, l[i]? = some x → x = a + ((c : Rat) + i) * h

theorem OnGrid.slice {a h : Rat} {l : List Rat} (H : OnGrid a h l) (lo hi : Nat) : OnGrid a h (slice l lo hi) := by
  obtain ⟨c, H⟩ := H
  refine ⟨c + lo, fun i x hx => ?_⟩
  rw [slice_getElem?] at hx
  split_ifs at hx with hc
  rw [H _ _ hx]; push_cast; ring

/-! ### the extension -/

theorem short_extend {l out : List Rat} {nl nr : Nat} (h : Axis.extend l nl nr = .ok out) (h2 : 2 ≤ out.length) : 2 ≤ l.length := by
  by_contra hc
  unfold Axis.extend at h
  match l, hc with
  | [], _ =>
    cases nl <;> cases nr <;> simp [Axis.extendPre, Axis.extendPost] at h
    subst h; simp at h2
  | [a], _ =>
    cases nl <;> cases nr <;> simp [Axis.extendPre, Axis.extendPost] at h
    subst h; simp at h2
  | a :: b :: t, hc => exact hc (by simp)

theorem isRev_inc {l : List Rat} (h : Inc l) : SF.isRev l = false := by
  unfold SF.isRev
  cases h1 : l.head? with
  | none => simp
  | some a =>
    cases h2 : l.getLast? with
    | none => simp
    | some b =>
      have := Axis.head_le_last h h1 h2
      simp [this]

theorem extend_ok {t e : SF} (ht : t.Loose) {nl nr nu nd : Nat} (h : t.extendInplace nl nr nu nd none = .ok e) :
    t.WF ∧ e.WF ∧ Axis.extend t.ax nl nr = .ok e.ax ∧ Axis.extend t.ay nd nu = .ok e.ay ∧ 2 ≤ t.ax.length ∧ 2 ≤ t.ay.length ∧
    (∀ x y v, e.Reads x y (some v) ↔ t.Reads x y (some v)) ∧ e.ux = t.ux ∧ e.uy = t.uy ∧ e.uv = t.uv := by
  have key : ∃ ax ay, Axis.extend t.ax nl nr = .ok ax ∧ Axis.extend t.ay nd nu = .ok ay ∧ 2 ≤ ax.length ∧ 2 ≤ ay.length ∧
      (Inc ax → e.ax = ax) ∧ (Inc ay → e.ay = ay) := by
    unfold SF.extendInplace at h
    cases h1 : Axis.extend t.ax nl nr with
    | error _ => rw [h1] at h; cases h
    | ok ax =>
      cases h2 : Axis.extend t.ay nd nu with
      | error _ => rw [h1, h2] at h; cases h
      | ok ay =>
        rw [h1, h2] at h
        simp only at h
        unfold SF.importArrays at h
        by_cases hl : ay.length < 2 ∨ ax.length < 2
        · simp only [if_pos hl] at h; cases h
        · simp only [if_neg hl, Except.ok.injEq] at h
          push Not at hl
          refine ⟨ax, ay, rfl, rfl, hl.2, hl.1, fun hi => ?_, fun hi => ?_⟩
          · rw [← h]; simp only [isRev_inc hi, Bool.false_eq_true, if_false]
          · rw [← h]; simp only [isRev_inc hi, Bool.false_eq_true, if_false]
  obtain ⟨ax, ay, e1, e2, l1, l2, e3, e4⟩ := key
  have hx := short_extend e1 l1
  have hy := short_extend e2 l2
  have hw : t.WF := ⟨ht.incx, ht.incy, by intro e; rw [e] at hx; simp at hx, by intro e; rw [e] at hy; simp at hy,
    ht.vx, ht.vy, ht.mx, ht.my, ht.nan⟩
  obtain ⟨g, eg, wg, k1, k2, -, -, u1, u2, u3⟩ := SF.C14_extend_reads hw hx hy nl nr nu nd none
  rw [h] at eg
  cases eg
  obtain ⟨ax', ex, ix, -⟩ := Axis.extend_spec hw.incx hx nl nr
  obtain ⟨ay', ey, iy, -⟩ := Axis.extend_spec hw.incy hy nd nu
  rw [e1] at ex; cases ex
  rw [e2] at ey; cases ey
  refine ⟨hw, wg, by rw [e1, e3 ix], by rw [e2, e4 iy], hx, hy, fun x y v => ?_, u1, u2, u3⟩
  constructor
  · intro hr
    by_cases hm : x ∈ t.ax ∧ y ∈ t.ay
    · exact (k1 x y _ hm.1 hm.2).mp hr
    · have := k2 x y _ hr hm
      cases this
  · intro hr
    obtain ⟨i, j, hi, hj, -⟩ := id hr
    exact (k1 x y _ (List.mem_of_getElem? hi) (List.mem_of_getElem? hj)).mpr hr

theorem extend_zero {l out : List Rat} (h : Axis.extend l 0 0 = .ok out) : out = l := by
  unfold Axis.extend Axis.extendPre Axis.extendPost at h
  simp at h
  exact h.symm

theorem OnGrid.extend {a h : Rat} {l out : List Rat} (hl : Inc l) (h2 : 2 ≤ l.length) (H : OnGrid a h l) {nl nr : Nat}
    (he : Axis.extend l nl nr = .ok out) : OnGrid a h out := by
  obtain ⟨out', e, io, lo, s1, s2, s3⟩ := Axis.extend_spec hl h2 nl nr
  rw [he] at e
  cases e
  obtain ⟨c, H⟩ := H
  refine ⟨c - nl, fun i x hx => ?_⟩
  have hi := getElem?_some_lt hx
  have g0 : l[0]? = some l[0] := List.getElem?_eq_getElem (by omega)
  have g1 : l[1]? = some l[1] := List.getElem?_eq_getElem (by omega)
  have gy : l[l.length - 2]? = some l[l.length - 2] := List.getElem?_eq_getElem (by omega)
  have gz : l[l.length - 1]? = some l[l.length - 1] := List.getElem?_eq_getElem (by omega)
  have v0 := H _ _ g0
  have v1 := H _ _ g1
  have vy := H _ _ gy
  have vz := H _ _ gz
  by_cases c1 : i < nl
  · have := s2 _ _ g0 g1 i c1
    rw [hx] at this
    simp only [Option.some.injEq] at this
    rw [this, v0, v1]; push_cast; ring
  · by_cases c2 : i < nl + l.length
    · have := s1 (i - nl) (by omega)
      rw [show nl + (i - nl) = i by omega, hx] at this
      rw [H _ _ this.symm, Nat.cast_sub (by omega)]; push_cast; ring
    · have := s3 _ _ gy gz (i - nl - l.length) (by omega)
      rw [show nl + l.length + (i - nl - l.length) = i by omega, hx] at this
      simp only [Option.some.injEq] at this
      rw [this, vz, vy, Nat.cast_sub (by omega), Nat.cast_sub (by omega), Nat.cast_sub (by omega), Nat.cast_sub (by omega)]
      push_cast; ring

/-! ### the loop on the points -/

theorem mem_indexPairs {f : SF} {q : Nat × Nat} : q ∈ f.indexPairs ↔ q.1 < f.ax.length ∧ q.2 < f.ay.length := by
  unfold SF.indexPairs
  simp only [List.mem_flatMap, List.mem_range, List.mem_map]
  constructor
  · rintro ⟨i, hi, j, hj, rfl⟩; exact ⟨hi, hj⟩
  · rintro ⟨hi, hj⟩; exact ⟨q.1, hi, q.2, hj, rfl⟩

theorem nodup_indexPairs (f : SF) : f.indexPairs.Nodup := by
  unfold SF.indexPairs
  rw [List.nodup_flatMap]
  refine ⟨fun i _ => (List.nodup_range).map (fun a b h => by simpa using h), ?_⟩
  refine (List.nodup_range).imp ?_
  intro i j hij q hq hq'
  simp only [List.mem_map] at hq hq'
  obtain ⟨_, _, rfl⟩ := hq
  obtain ⟨_, _, h⟩ := hq'
  simp only [Prod.mk.injEq] at h
  exact hij h.1.symm

theorem put_cell (f : SF) (i j : Nat) (v : Rat) (a b : Nat) :
    (put f i j v).cell a b = if a = i ∧ b = j then some v else f.cell a b := by
  unfold put SF.cell
  by_cases h : a = i ∧ b = j
  · simp [h]
  · simp only [if_neg h]
    by_cases hm : f.mask.get a b = true <;> simp [hm]

theorem put_WF {f : SF} (hf : f.WF) (i j : Nat) (v : Rat) : (put f i j v).WF := by
  refine ⟨hf.incx, hf.incy, hf.nex, hf.ney, hf.vx, hf.vy, hf.mx, hf.my, ?_⟩
  intro a b ha hb h
  simp only [put] at *
  by_cases hc : a = i ∧ b = j
  · rw [if_pos hc] at h; cases h
  · rw [if_neg hc] at h ⊢
    rw [SF.Reads.cellMask hf ha hb, h]; rfl

/-- Same axes and units. -/
structure Frame (g f : SF) : Prop where
  wf : g.WF
  ax : g.ax = f.ax
  ay : g.ay = f.ay
  ux : g.ux = f.ux
  uy : g.uy = f.uy
  uv : g.uv = f.uv

theorem store_frame {f : SF} (hf : f.WF) (coef : Rat) (q : Nat × Nat) (r : Option Rat) : Frame (store f coef q r) f := by
  cases r with
  | none => exact ⟨hf, rfl, rfl, rfl, rfl, rfl⟩
  | some v => exact ⟨put_WF hf _ _ _, rfl, rfl, rfl, rfl, rfl⟩

theorem store_cell (f : SF) (coef : Rat) (q : Nat × Nat) (r : Option Rat) (a b : Nat) :
    (store f coef q r).cell a b = if (a, b) = q then (match r with | none => f.cell a b | some v => some (v * coef)) else f.cell a b := by
  obtain ⟨i, j⟩ := q
  cases r with
  | none => simp [store]
  | some v => simp only [store, put_cell, Prod.mk.injEq]

/-- The loop changes masked points only: what is visible stays, at any position of the plane. -/
theorem fillAll_keeps {main : Bool} {d : Dir} {pos coef : Rat} :
    ∀ (l : List (Nat × Nat)) (f g : SF), f.WF → (∀ q ∈ l, q.1 < f.ax.length ∧ q.2 < f.ay.length) → fillAll main d pos coef l f = .ok g →
      Frame g f ∧ ∀ a b, a < f.ax.length → b < f.ay.length → ∀ v, f.cell a b = some v → g.cell a b = some v := by
  intro l
  induction l with
  | nil =>
    intro f g hf _ h
    cases h
    exact ⟨⟨hf, rfl, rfl, rfl, rfl, rfl⟩, fun _ _ _ _ _ h => h⟩
  | cons q l ih =>
    intro f g hf hl h
    simp only [fillAll] at h
    cases hv : visit main d pos coef f q with
    | error e => rw [hv] at h; cases h
    | ok k =>
      rw [hv] at h
      simp only at h
      have hk : Frame k f ∧ ∀ a b, a < f.ax.length → b < f.ay.length → ∀ v, f.cell a b = some v → k.cell a b = some v := by
        unfold visit at hv
        by_cases hm : f.mask.get q.1 q.2 = false
        · rw [if_pos hm] at hv; cases hv
          exact ⟨⟨hf, rfl, rfl, rfl, rfl, rfl⟩, fun _ _ _ _ _ h => h⟩
        · rw [if_neg hm] at hv
          split_ifs at hv with ho
          · cases hv
            exact ⟨⟨hf, rfl, rfl, rfl, rfl, rfl⟩, fun _ _ _ _ _ h => h⟩
          · split at hv
            · cases hv
            · cases hv
              refine ⟨store_frame hf _ _ _, fun a b ha hb v hc => ?_⟩
              rw [store_cell, if_neg, hc]
              rintro rfl
              rw [SF.Reads.cellMask hf ha hb, hc] at hm
              exact hm rfl
      obtain ⟨fr, kk⟩ := hk
      obtain ⟨fr', kk'⟩ := ih k g fr.wf (by rw [fr.ax, fr.ay]; exact fun q hq => hl q (List.mem_cons_of_mem _ hq)) h
      refine ⟨⟨fr'.wf, fr'.ax.trans fr.ax, fr'.ay.trans fr.ay, fr'.ux.trans fr.ux, fr'.uy.trans fr.uy, fr'.uv.trans fr.uv⟩, ?_⟩
      intro a b ha hb v hc
      exact kk' a b (fr.ax ▸ ha) (fr.ay ▸ hb) v (kk a b ha hb v hc)

/-- What the loop leaves at a point: its own value, else the one of its mirror point times the coefficient. -/
def target (e : SF) (mir : Nat × Nat → Option (Nat × Nat)) (coef : Rat) (q : Nat × Nat) : Option Rat :=
  match e.cell q.1 q.2 with
  | some v => some v
  | none =>
    match mir q with
    | none => none
    | some p => (e.cell p.1 p.2).map (· * coef)

theorem target_some {e : SF} {mir : Nat × Nat → Option (Nat × Nat)} {coef : Rat} {q : Nat × Nat} {v : Rat} (h : e.cell q.1 q.2 = some v) :
    target e mir coef q = some v := by simp only [target, h]

/-- The mirror of an index is the index of the mirror point, when there is one. -/
structure Mirrors (e : SF) (d : Dir) (pos : Rat) (mir : Nat × Nat → Option (Nat × Nat)) : Prop where
  out : ∀ i j x y, e.ax[i]? = some x → e.ay[j]? = some y → mir (i, j) = none → outside e (image d pos (x, y))
  inn : ∀ i j x y, e.ax[i]? = some x → e.ay[j]? = some y → ∀ p, mir (i, j) = some p →
    ¬ outside e (image d pos (x, y)) ∧ e.ax[p.1]? = some (image d pos (x, y)).1 ∧ e.ay[p.2]? = some (image d pos (x, y)).2
  back : ∀ q p, mir q = some p → mir p = some q

theorem fillAll_spec {main : Bool} {d : Dir} {pos coef : Rat} {e : SF} {mir : Nat × Nat → Option (Nat × Nat)} (M : Mirrors e d pos mir) :
    ∀ (l : List (Nat × Nat)) (s : SF), Frame s e → l.Nodup → (∀ q ∈ l, q.1 < e.ax.length ∧ q.2 < e.ay.length) →
      (∀ a b, a < e.ax.length → b < e.ay.length → s.cell a b = if (a, b) ∈ l then e.cell a b else target e mir coef (a, b)) →
      ∃ g, fillAll main d pos coef l s = .ok g ∧ Frame g e ∧
        ∀ a b, a < e.ax.length → b < e.ay.length → g.cell a b = target e mir coef (a, b) := by
  intro l
  induction l with
  | nil =>
    intro s fr _ _ hs
    exact ⟨s, rfl, fr, fun a b ha hb => by rw [hs a b ha hb, if_neg (by simp)]⟩
  | cons q l ih =>
    intro s fr hn hl hs
    obtain ⟨hq1, hq2⟩ := hl q (by simp)
    have hnq := (List.nodup_cons.mp hn).1
    have hcq : s.cell q.1 q.2 = e.cell q.1 q.2 := by rw [hs _ _ hq1 hq2, if_pos (by simp)]
    have hmq : s.mask.get q.1 q.2 = (e.cell q.1 q.2).isNone := by
      rw [SF.Reads.cellMask fr.wf (by rw [fr.ax]; exact hq1) (by rw [fr.ay]; exact hq2), hcq]
    have hx : e.ax[q.1]? = some e.ax[q.1] := List.getElem?_eq_getElem hq1
    have hy : e.ay[q.2]? = some e.ay[q.2] := List.getElem?_eq_getElem hq2
    have gx : s.ax.getD q.1 0 = e.ax[q.1] := by rw [fr.ax, List.getD_eq_getElem?_getD, hx]; rfl
    have gy : s.ay.getD q.2 0 = e.ay[q.2] := by rw [fr.ay, List.getD_eq_getElem?_getD, hy]; rfl
    have hout : ∀ p, outside s p ↔ outside e p := fun p => by unfold outside; rw [fr.ax, fr.ay]
    -- the visit leaves the target at this point and nothing else changes
    have key : ∃ k, visit main d pos coef s q = .ok k ∧ Frame k e ∧
        (∀ a b, a < e.ax.length → b < e.ay.length →
          k.cell a b = if (a, b) = q then target e mir coef q else s.cell a b) := by
      cases hc : e.cell q.1 q.2 with
      | some v =>
        refine ⟨s, ?_, fr, ?_⟩
        · unfold visit; rw [if_pos (by rw [hmq, hc]; rfl)]
        · intro a b _ _
          by_cases h : (a, b) = q
          · rw [if_pos h, target_some hc, ← hc, ← hcq, ← h]
          · rw [if_neg h]
      | none =>
        have hm : ¬ s.mask.get q.1 q.2 = false := by rw [hmq, hc]; simp
        cases hp : mir q with
        | none =>
          have ho := M.out q.1 q.2 _ _ hx hy hp
          refine ⟨s, ?_, fr, ?_⟩
          · unfold visit; rw [if_neg hm, gx, gy, if_pos ((hout _).mpr ho)]
          · intro a b _ _
            by_cases h : (a, b) = q
            · rw [if_pos h]
              subst h
              simp only [target, hc, hp, hcq]
            · rw [if_neg h]
        | some p =>
          obtain ⟨ho, px, py⟩ := M.inn q.1 q.2 _ _ hx hy p hp
          have hp1 := getElem?_some_lt px
          have hp2 := getElem?_some_lt py
          have hb := M.back q p hp
          -- the value read at the mirror point is still the one of the extended field
          have hcp : s.cell p.1 p.2 = e.cell p.1 p.2 := by
            rw [hs p.1 p.2 hp1 hp2]
            split_ifs with hin
            · rfl
            · show target e mir coef p = _
              cases hep : e.cell p.1 p.2 with
              | some v => exact target_some hep
              | none => simp only [target, hep, hb, hc]; rfl
          have hread : s.Reads (image d pos (e.ax[q.1], e.ay[q.2])).1 (image d pos (e.ax[q.1], e.ay[q.2])).2 (e.cell p.1 p.2) :=
            ⟨p.1, p.2, by rw [fr.ax]; exact px, by rw [fr.ay]; exact py, hcp⟩
          refine ⟨store s coef q (e.cell p.1 p.2), ?_, ?_, ?_⟩
          · unfold visit
            rw [if_neg hm, gx, gy, if_neg (fun h => ho ((hout _).mp h)), SF.C23_node main fr.wf hread]
          · have f1 := store_frame fr.wf coef q (e.cell p.1 p.2)
            exact ⟨f1.wf, f1.ax.trans fr.ax, f1.ay.trans fr.ay, f1.ux.trans fr.ux, f1.uy.trans fr.uy, f1.uv.trans fr.uv⟩
          · intro a b _ _
            rw [store_cell]
            by_cases h : (a, b) = q
            · rw [if_pos h, if_pos h]
              subst h
              cases hep : e.cell p.1 p.2 with
              | none => simp only [target, hc, hp, hcq, hep, Option.map_none]
              | some v => simp only [target, hc, hp, hep, Option.map_some]
            · rw [if_neg h, if_neg h]
    obtain ⟨k, hk, frk, hkc⟩ := key
    obtain ⟨g, hg, r⟩ := ih k frk (List.nodup_cons.mp hn).2 (fun q hq => hl q (List.mem_cons_of_mem _ hq)) (by
      intro a b ha hb
      rw [hkc a b ha hb]
      by_cases h : (a, b) = q
      · rw [if_pos h, if_neg (by rw [h]; exact hnq), h]
      · rw [if_neg h, hs a b ha hb]
        simp only [List.mem_cons, h, false_or])
    exact ⟨g, by simp only [fillAll, hk]; exact hg, r⟩

/-! ### mirror indices on an even axis -/

/-- The index of the mirror line. -/
def mirIdx (m : ℤ) (n i : Nat) : Option Nat := if 0 ≤ m - i ∧ m - i < n ∧ i < n then some (m - i).toNat else none

theorem mirIdx_back {m : ℤ} {n i k : Nat} (h : mirIdx m n i = some k) : mirIdx m n k = some i := by
  unfold mirIdx at *
  split_ifs at h with hc
  cases h
  rw [if_pos (by omega)]
  congr 1; omega

/-- The mirror index on an axis of positions of an even axis. -/
theorem mirIdx_spec {a h : Rat} (hh : 0 < h) {l : List Rat} {c m : ℤ} (hl : ∀ (i : Nat) x, l[i]? = some x → x = a + ((c : Rat) + i) * h)
    {pos : Rat} (hp : pos = a + m * h / 2) {i : Nat} {x : Rat} (hx : l[i]? = some x) :
    (mirIdx (m - 2 * c) l.length i = none → pos - (x - pos) < l.headD 0 ∨ pos - (x - pos) > l.getLastD 0) ∧
    (∀ k, mirIdx (m - 2 * c) l.length i = some k →
      ¬ (pos - (x - pos) < l.headD 0) ∧ ¬ (pos - (x - pos) > l.getLastD 0) ∧ l[k]? = some (pos - (x - pos))) := by
  have hi := getElem?_some_lt hx
  have g0 : l[0]? = some l[0] := List.getElem?_eq_getElem (by omega)
  have gz : l[l.length - 1]? = some l[l.length - 1] := List.getElem?_eq_getElem (by omega)
  have e0 : l.headD 0 = a + (c : Rat) * h := by
    rw [List.headD_eq_head?_getD, head?_eq_get0, g0, Option.getD_some, hl _ _ g0]; push_cast; ring
  have ez : l.getLastD 0 = a + ((c : Rat) + ((l.length : Rat) - 1)) * h := by
    rw [List.getLastD_eq_getLast?, getLast?_eq_get, gz, Option.getD_some, hl _ _ gz, Nat.cast_sub (by omega)]; push_cast; ring
  have ex : pos - (x - pos) = a + ((m : Rat) - c - i) * h := by rw [hp, hl _ _ hx]; ring
  constructor
  · intro hn
    unfold mirIdx at hn
    split_ifs at hn with hc
    rw [e0, ez, ex]
    by_cases h1 : 0 ≤ m - 2 * c - i
    · right
      have h2 : (l.length : ℤ) ≤ m - 2 * c - i := by omega
      have h3 : ((l.length : ℤ) : Rat) ≤ ((m - 2 * c - i : ℤ) : Rat) := by exact_mod_cast h2
      push_cast at h3
      have : ((c : Rat) + ((l.length : Rat) - 1)) < (m : Rat) - c - i := by linarith
      have := mul_lt_mul_of_pos_right this hh
      linarith
    · left
      have h2 : m - 2 * c - i < 0 := by omega
      have h3 : ((m - 2 * c - i : ℤ) : Rat) < ((0 : ℤ) : Rat) := by exact_mod_cast h2
      push_cast at h3
      have : (m : Rat) - c - i < c := by linarith
      have := mul_lt_mul_of_pos_right this hh
      linarith
  · intro k hk
    unfold mirIdx at hk
    split_ifs at hk with hc
    cases hk
    obtain ⟨c1, c2, c3⟩ := hc
    have hk : ((m - 2 * c - i).toNat : ℤ) = m - 2 * c - i := Int.toNat_of_nonneg c1
    have hkl : (m - 2 * c - i).toNat < l.length := by omega
    have gk : l[(m - 2 * c - i).toNat]? = some l[(m - 2 * c - i).toNat] := List.getElem?_eq_getElem hkl
    have hkr : (((m - 2 * c - i).toNat : ℤ) : Rat) = ((m - 2 * c - i : ℤ) : Rat) := by rw [hk]
    push_cast at hkr
    refine ⟨?_, ?_, ?_⟩
    · rw [e0, ex]
      have h3 : ((0 : ℤ) : Rat) ≤ ((m - 2 * c - i : ℤ) : Rat) := by exact_mod_cast c1
      push_cast at h3
      have : (c : Rat) ≤ (m : Rat) - c - i := by linarith
      have := mul_le_mul_of_nonneg_right this hh.le
      linarith
    · rw [ez, ex]
      have c2' : m - 2 * c - i ≤ (l.length : ℤ) - 1 := by omega
      have h3 : ((m - 2 * c - i : ℤ) : Rat) ≤ (((l.length : ℤ) - 1 : ℤ) : Rat) := by exact_mod_cast c2'
      push_cast at h3
      have : (m : Rat) - c - i ≤ ((c : Rat) + ((l.length : Rat) - 1)) := by linarith
      have := mul_le_mul_of_nonneg_right this hh.le
      linarith
    · rw [gk, hl _ _ gk, ex]
      congr 1
      have : (((m - 2 * c - i).toNat : ℕ) : Rat) = (m : Rat) - 2 * c - i := hkr
      rw [this]; ring

theorem bounds_mem {l : List Rat} (hl : Inc l) {i : Nat} {x : Rat} (hx : l[i]? = some x) : ¬ (x < l.headD 0) ∧ ¬ (x > l.getLastD 0) := by
  have hi := getElem?_some_lt hx
  have g0 : l[0]? = some l[0] := List.getElem?_eq_getElem (by omega)
  have gz : l[l.length - 1]? = some l[l.length - 1] := List.getElem?_eq_getElem (by omega)
  have e0 : l.headD 0 = l[0] := by rw [List.headD_eq_head?_getD, head?_eq_get0, g0]; rfl
  have ez : l.getLastD 0 = l[l.length - 1] := by rw [List.getLastD_eq_getLast?, getLast?_eq_get, gz]; rfl
  rw [e0, ez]
  exact ⟨not_lt.mpr (hl.get_le g0 hx (Nat.zero_le _)), not_lt.mpr (hl.get_le hx gz (by omega))⟩

/-- On an even axis with the plane on a line or halfway between two lines, mirror points are points of the grid. -/
theorem mirrors_of_even {e : SF} (he : e.WF) {d : Dir} {a h pos : Rat} (hh : 0 < h) {m : ℤ} (hp : pos = a + m * h / 2)
    (hg : OnGrid a h (axe e d)) : ∃ mir, Mirrors e d pos mir := by
  obtain ⟨c, hc⟩ := hg
  cases d with
  | x =>
    refine ⟨fun q => (mirIdx (m - 2 * c) e.ax.length q.1).map (·, q.2), ?_, ?_, ?_⟩
    · intro i j x y hx hy hn
      simp only [Option.map_eq_none_iff] at hn
      rcases (mirIdx_spec hh hc hp hx).1 hn with h | h
      · exact .inl h
      · exact .inr (.inl h)
    · intro i j x y hx hy p hs
      simp only [Option.map_eq_some_iff] at hs
      obtain ⟨k, hk, rfl⟩ := hs
      obtain ⟨k1, k2, k3⟩ := (mirIdx_spec hh hc hp hx).2 k hk
      obtain ⟨b1, b2⟩ := bounds_mem he.incy hy
      refine ⟨?_, k3, hy⟩
      rintro (h | h | h | h)
      · exact k1 h
      · exact k2 h
      · exact b1 h
      · exact b2 h
    · intro q p hs
      simp only [Option.map_eq_some_iff] at hs ⊢
      obtain ⟨k, hk, rfl⟩ := hs
      exact ⟨q.1, mirIdx_back hk, rfl⟩
  | y =>
    refine ⟨fun q => (mirIdx (m - 2 * c) e.ay.length q.2).map (q.1, ·), ?_, ?_, ?_⟩
    · intro i j x y hx hy hn
      simp only [Option.map_eq_none_iff] at hn
      rcases (mirIdx_spec hh hc hp hy).1 hn with h | h
      · exact .inr (.inr (.inl h))
      · exact .inr (.inr (.inr h))
    · intro i j x y hx hy p hs
      simp only [Option.map_eq_some_iff] at hs
      obtain ⟨k, hk, rfl⟩ := hs
      obtain ⟨k1, k2, k3⟩ := (mirIdx_spec hh hc hp hy).2 k hk
      obtain ⟨b1, b2⟩ := bounds_mem he.incx hx
      refine ⟨?_, hx, k3⟩
      rintro (h | h | h | h)
      · exact b1 h
      · exact b2 h
      · exact k1 h
      · exact k2 h
    · intro q p hs
      simp only [Option.map_eq_some_iff] at hs ⊢
      obtain ⟨k, hk, rfl⟩ := hs
      exact ⟨q.2, mirIdx_back hk, rfl⟩

end IMT.Mirror

namespace IMT.Mirror

open Line (Dir axe)
open SF (SubRect Loose)

/-! ### the stages of `mirroring` -/

theorem cut_axe (f : SF) (d : Dir) (x0 x1 y0 y1 : Nat) : ∃ lo hi, axe (f.cut x0 x1 y0 y1) d = slice (axe f d) lo hi := by
  cases d
  · exact ⟨x0, x1 + 1, rfl⟩
  · exact ⟨y0, y1 + 1, rfl⟩

/-- What is kept of a field: part of it, on an even axis if the field has one. -/
structure Part (t f : SF) (d : Dir) : Prop where
  loose : t.Loose
  sub : SubRect t f
  slice : ∃ lo hi, axe t d = slice (axe f d) lo hi

theorem Part.refl {f : SF} (hf : f.WF) (d : Dir) : Part f f d :=
  ⟨hf.loose, SubRect.refl f, 0, (axe f d).length, by unfold IMT.slice; simp⟩

theorem slice_slice {α : Type} (l : List α) (a b c d : Nat) : ∃ lo hi, slice (slice l a b) c d = slice l lo hi := by
  refine ⟨a + c, min b (a + d), List.ext_getElem? fun i => ?_⟩
  simp only [slice_getElem?]
  split_ifs <;> first | rfl | omega | (congr 1; omega)

theorem Part.cut {t f : SF} {d : Dir} (h : Part t f d) (x0 x1 y0 y1 : Nat) : Part (t.cut x0 x1 y0 y1) f d := by
  refine ⟨SF.cut_loose h.loose _ _ _ _, (SF.cut_subRect h.loose _ _ _ _).trans h.sub, ?_⟩
  obtain ⟨lo, hi, e⟩ := cut_axe t d x0 x1 y0 y1
  obtain ⟨lo', hi', e'⟩ := h.slice
  rw [e, e']
  exact slice_slice _ _ _ _ _

theorem Part.onGrid {t f : SF} {d : Dir} (h : Part t f d) {a k : Rat} (H : OnGrid a k (axe f d)) : OnGrid a k (axe t d) := by
  obtain ⟨lo, hi, e⟩ := h.slice
  rw [e]; exact H.slice lo hi

theorem slice_ne_nil {α : Type} {l : List α} {lo hi : Nat} (h1 : lo < l.length) (h2 : lo < hi) : slice l lo hi ≠ [] := by
  intro e
  have := slice_length l lo hi
  rw [e] at this
  simp only [List.length_nil] at this
  omega

theorem trimmed_part {f t : SF} (hf : f.WF) (d : Dir) (h : trimmed f = .ok t) : t.WF ∧ Part t f d := by
  unfold trimmed at h
  by_cases hm : f.anyMasked = false
  · rw [if_pos hm] at h
    cases h
    exact ⟨hf, Part.refl hf d⟩
  · rw [if_neg hm] at h
    obtain ⟨x0, x1, y0, y1, rfl, e1, e2, e3, e4⟩ := SF.softCrop_ok h
    obtain ⟨a1, a2, a3⟩ := SF.range_filter_head e1
    obtain ⟨b1, b2, b3⟩ := SF.range_filter_last e2
    obtain ⟨c1, c2, c3⟩ := SF.range_filter_head e3
    obtain ⟨d1, d2, d3⟩ := SF.range_filter_last e4
    refine ⟨SF.cut_WF hf ?_ ?_, (Part.refl hf d).cut _ _ _ _⟩
    · refine slice_ne_nil (by rw [← hf.mx]; exact a1) ?_
      have := a3 x1 b1 b2; omega
    · refine slice_ne_nil (by rw [← hf.my]; exact c1) ?_
      have := c3 y1 d1 d2; omega

theorem coord_mem {f : SF} {d : Dir} {x y : Rat} {r : Option Rat} (h : f.Reads x y r) : coord d (x, y) ∈ axe f d := by
  obtain ⟨i, j, hi, hj, -⟩ := h
  cases d
  · exact List.mem_of_getElem? hi
  · exact List.mem_of_getElem? hj

theorem axe_inc {f : SF} (hf : f.Loose) (d : Dir) : Inc (axe f d) := by
  cases d
  · exact hf.incx
  · exact hf.incy

theorem head_le {l : List Rat} (h : Inc l) {a x : Rat} (ha : l.head? = some a) (hx : x ∈ l) : a ≤ x := by
  obtain ⟨i, hi⟩ := List.getElem?_of_mem hx
  rw [head?_eq_get0] at ha
  exact h.get_le ha hi (Nat.zero_le _)

theorem le_last {l : List Rat} (h : Inc l) {z x : Rat} (hz : l.getLast? = some z) (hx : x ∈ l) : x ≤ z := by
  obtain ⟨i, hi⟩ := List.getElem?_of_mem hx
  rw [getLast?_eq_get] at hz
  exact h.get_le hi hz (by have := getElem?_some_lt hi; omega)

/-- The four cases of `side`. -/
theorem side_cases {f t u : SF} {d : Dir} {pos border a z : Rat} {before : Bool} (ha : (axe f d).head? = some a)
    (hz : (axe f d).getLast? = some z) (h : side f t d pos = .ok (u, before, border)) :
    (pos < a ∧ u = t ∧ before = true ∧ border = a) ∨ (z < pos ∧ u = t ∧ before = false ∧ border = z) ∨
    (a ≤ pos ∧ pos < (z + a) / 2 ∧ before = true ∧ cropAlong t d pos z = .ok u ∧ (axe u d).head? = some border) ∨
    (pos ≤ z ∧ (z + a) / 2 < pos ∧ before = false ∧ cropAlong t d a pos = .ok u ∧ (axe u d).getLast? = some border) := by
  unfold side at h
  rw [ha, hz] at h
  simp only at h
  split_ifs at h with h1 h2 h3 h4 h5
  · cases h; exact .inl ⟨h2, rfl, rfl, rfl⟩
  · cases h; exact .inr (.inl ⟨h3, rfl, rfl, rfl⟩)
  · right; right; left
    cases hc : cropAlong t d pos z with
    | error e => rw [hc] at h; cases h
    | ok k =>
      rw [hc] at h
      simp only at h
      cases hb : (axe k d).head? with
      | none => rw [hb] at h; cases h
      | some b => rw [hb] at h; cases h; exact ⟨not_lt.mp h2, h4, rfl, rfl, hb⟩
  · right; right; right
    cases hc : cropAlong t d a pos with
    | error e => rw [hc] at h; cases h
    | ok k =>
      rw [hc] at h
      simp only at h
      cases hb : (axe k d).getLast? with
      | none => rw [hb] at h; cases h
      | some b => rw [hb] at h; cases h; exact ⟨not_lt.mp h3, h5, rfl, rfl, hb⟩

/-- The part kept by `side` holds the visible values on the larger side of the plane. -/
theorem side_ok {f t u : SF} (hf : f.WF) {d : Dir} {pos border a z : Rat} {before : Bool} (ha : (axe f d).head? = some a)
    (hz : (axe f d).getLast? = some z) (ht : trimmed f = .ok t) (h : side f t d pos = .ok (u, before, border)) :
    Part u f d ∧ ∀ x y v, u.Reads x y (some v) ↔
      f.Reads x y (some v) ∧ (pos < (a + z) / 2 → pos ≤ coord d (x, y)) ∧ (pos > (a + z) / 2 → coord d (x, y) ≤ pos) := by
  obtain ⟨tw, tp⟩ := trimmed_part hf d ht
  obtain ⟨-, tr⟩ := trimmed_ok hf ht
  have haz := Axis.head_le_last (axe_inc hf.loose d) ha hz
  have hcomm : a + z = z + a := add_comm a z
  rcases side_cases ha hz h with ⟨h1, rfl, -, -⟩ | ⟨h1, rfl, -, -⟩ | ⟨h1, h2, -, hc, -⟩ | ⟨h1, h2, -, hc, -⟩
  · refine ⟨tp, fun x y v => ?_⟩
    rw [tr]
    refine ⟨fun hr => ⟨hr, fun _ => ?_, fun hgt => absurd hgt (by linarith)⟩, fun hr => hr.1⟩
    have := head_le (axe_inc hf.loose d) ha (coord_mem (d := d) hr)
    linarith
  · refine ⟨tp, fun x y v => ?_⟩
    rw [tr]
    refine ⟨fun hr => ⟨hr, fun hlt => absurd hlt (by linarith), fun _ => ?_⟩, fun hr => hr.1⟩
    have := le_last (axe_inc hf.loose d) hz (coord_mem (d := d) hr)
    linarith
  · obtain ⟨x0, x1, y0, y1, e⟩ := cropAlong_cut hc
    refine ⟨by rw [e]; exact tp.cut _ _ _ _, fun x y v => ?_⟩
    rw [cropAlong_reads tw hc, tr]
    refine ⟨fun hr => ⟨hr.1, fun _ => hr.2.1, fun hgt => absurd hgt (by linarith)⟩, fun hr => ⟨hr.1, hr.2.1 (by linarith), ?_⟩⟩
    exact le_last (axe_inc hf.loose d) hz (coord_mem (d := d) hr.1)
  · obtain ⟨x0, x1, y0, y1, e⟩ := cropAlong_cut hc
    refine ⟨by rw [e]; exact tp.cut _ _ _ _, fun x y v => ?_⟩
    rw [cropAlong_reads tw hc, tr]
    refine ⟨fun hr => ⟨hr.1, fun hlt => absurd hlt (by linarith), fun _ => hr.2.2⟩, fun hr => ⟨hr.1, ?_, hr.2.2 (by linarith)⟩⟩
    exact head_le (axe_inc hf.loose d) ha (coord_mem (d := d) hr.1)

theorem extended_ok {t e : SF} {d : Dir} {before : Bool} {n : Int} (ht : t.Loose) (h : extended t d before n = .ok e) :
    0 ≤ n ∧ t.WF ∧ e.WF ∧ 2 ≤ (axe t d).length ∧
    Axis.extend (axe t d) (if before then n.toNat else 0) (if before then 0 else n.toNat) = .ok (axe e d) ∧
    (∀ x y v, e.Reads x y (some v) ↔ t.Reads x y (some v)) ∧ e.ux = t.ux ∧ e.uy = t.uy ∧ e.uv = t.uv := by
  unfold extended at h
  by_cases hn : n < 0
  · rw [if_pos hn] at h; cases h
  · rw [if_neg hn] at h
    refine ⟨not_lt.mp hn, ?_⟩
    cases d with
    | x =>
      cases before with
      | true =>
        simp only [if_true] at h
        obtain ⟨w, we, e1, -, l1, -, r, u1, u2, u3⟩ := extend_ok ht h
        exact ⟨w, we, l1, e1, r, u1, u2, u3⟩
      | false =>
        simp only [Bool.false_eq_true, if_false] at h
        obtain ⟨w, we, e1, -, l1, -, r, u1, u2, u3⟩ := extend_ok ht h
        exact ⟨w, we, l1, e1, r, u1, u2, u3⟩
    | y =>
      cases before with
      | true =>
        simp only [if_true] at h
        obtain ⟨w, we, -, e1, -, l1, r, u1, u2, u3⟩ := extend_ok ht h
        exact ⟨w, we, l1, e1, r, u1, u2, u3⟩
      | false =>
        simp only [Bool.false_eq_true, if_false] at h
        obtain ⟨w, we, -, e1, -, l1, r, u1, u2, u3⟩ := extend_ok ht h
        exact ⟨w, we, l1, e1, r, u1, u2, u3⟩

theorem stages {main : Bool} {f g : SF} {d : Dir} {pos coef : Rat} {inds : Option Int} {interp : Interp}
    (h : mirroring main f d pos inds coef interp = .ok g) :
    ∃ t u before border e k, trimmed f = .ok t ∧ side f t d pos = .ok (u, before, border) ∧
      extended u d before (toAdd (lines (axe f d).length inds) before pos border ((axe f d).getD 1 0 - (axe f d).getD 0 0)) = .ok e ∧
      fillAll main d pos coef e.indexPairs e = .ok k ∧ g = finish k interp := by
  unfold mirroring at h
  cases h1 : trimmed f with
  | error _ => rw [h1] at h; cases h
  | ok t =>
    rw [h1] at h
    simp only at h
    cases h2 : side f t d pos with
    | error _ => rw [h2] at h; cases h
    | ok s =>
      obtain ⟨u, before, border⟩ := s
      rw [h2] at h
      simp only at h
      cases h3 : extended u d before
          (toAdd (lines (axe f d).length inds) before pos border ((axe f d).getD 1 0 - (axe f d).getD 0 0)) with
      | error _ => rw [h3] at h; cases h
      | ok e =>
        rw [h3] at h
        simp only at h
        cases h4 : fillAll main d pos coef e.indexPairs e with
        | error _ => rw [h4] at h; cases h
        | ok k =>
          rw [h4] at h
          cases h
          exact ⟨t, u, before, border, e, k, rfl, h2, h3, h4, rfl⟩

theorem frame_refl {e : SF} (he : e.WF) : Frame e e := ⟨he, rfl, rfl, rfl, rfl, rfl⟩

theorem fillAll_from {main : Bool} {d : Dir} {pos coef : Rat} {e : SF} (he : e.WF) {mir : Nat × Nat → Option (Nat × Nat)}
    (M : Mirrors e d pos mir) : ∃ g, fillAll main d pos coef e.indexPairs e = .ok g ∧ Frame g e ∧
      ∀ a b, a < e.ax.length → b < e.ay.length → g.cell a b = target e mir coef (a, b) := by
  refine fillAll_spec M _ e (frame_refl he) (nodup_indexPairs e) (fun q hq => mem_indexPairs.mp hq) ?_
  intro a b ha hb
  rw [if_pos (mem_indexPairs.mpr ⟨ha, hb⟩)]

end IMT.Mirror
