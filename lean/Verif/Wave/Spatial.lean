import Verif.Wave.Model
import Verif.Trace.Spectra
import Verif.Line.Section
import Verif.Fill.Props
import Verif.Scalar.Geom

/-!
Properties C350 and C351: spatial spectra of scalar fields and of temporal scalar fields.
-/

namespace IMT.Wave

open Profile (Prof IsArgsort pts)
open Line (Dir axe other collect Sees Along)
open Temporal (TF)
open Turb (SRecord)

variable {srt : List Rat → List Nat} {f g : SF} {mg : List Rat → List Rat → List Rat}

/-! ### specification -/

/-- `m` is, place by place, the mean of lists. -/
def IsMean (m : List Rat) (ls : List (List Rat)) : Prop :=
  ls ≠ [] ∧ (∀ l ∈ ls, l.length = m.length) ∧ ∀ k < m.length, m.getD k 0 = (ls.map fun l => l.getD k 0).sum / ls.length

/-- The values shown by a field on lines: `row` along the position `v`, at the positions `qs`. -/
def Rows (f : SF) (d : Dir) (vs qs : List Rat) (rows : List (List Rat)) : Prop :=
  List.Forall₂ (fun v row => List.Forall₂ (fun q w => Sees f (across d) v q (some w)) qs row) vs rows

/-- The positions in an interval. -/
def keep (l : List Rat) (w : Rat × Rat) : List Rat := l.filter fun c => decide (w.1 ≤ c ∧ c ≤ w.2)

/-- The interval meets the axis on more than one point of the line. -/
def Meets (l : List Rat) (w : Rat × Rat) : Prop := ∀ first last, l.head? = some first → l.getLast? = some last → max w.1 first < min w.2 last

/-- The interval for the axis `d`. -/
def pick (d : Dir) (wx wy : Rat × Rat) : Rat × Rat :=
  match d with
  | .x => wx
  | .y => wy

/-! ### helper lemmas -/

theorem fold_sum (k : Nat) (r : List (List Rat)) : ∀ s : List Rat, (∀ l ∈ r, l.length = s.length) →
    (r.foldl (List.zipWith (· + ·)) s).length = s.length ∧
      (r.foldl (List.zipWith (· + ·)) s).getD k 0 = s.getD k 0 + (r.map fun l => l.getD k 0).sum := by
  induction r with
  | nil => intro s _; simp
  | cons a r ih =>
    intro s hl
    have ha := hl a (by simp)
    have hz : (List.zipWith (· + ·) s a).length = s.length := by rw [List.length_zipWith, ha]; exact min_self _
    obtain ⟨h1, h2⟩ := ih (List.zipWith (· + ·) s a) fun l h => by rw [hz]; exact hl l (by simp [h])
    refine ⟨by rw [List.foldl_cons, h1, hz], ?_⟩
    rw [List.foldl_cons, h2, List.map_cons, List.sum_cons, ← add_assoc]
    congr 1
    simp only [List.getD, List.getElem?_zipWith]
    by_cases hk : k < s.length
    · rw [List.getElem?_eq_getElem hk, List.getElem?_eq_getElem (by omega)]
      rfl
    · rw [List.getElem?_eq_none (by omega), List.getElem?_eq_none (by omega)]
      simp

theorem average_mean {ls : List (List Rat)} {K : Nat} (hne : ls ≠ []) (hl : ∀ l ∈ ls, l.length = K) :
    ∃ m, average ls.length ls = .ok m ∧ m.length = K ∧ IsMean m ls := by
  cases ls with
  | nil => exact absurd rfl hne
  | cons s r =>
    have hs := hl s (by simp)
    have hr : ∀ l ∈ r, l.length = s.length := fun l h => by rw [hs]; exact hl l (by simp [h])
    have hlen := (fold_sum 0 r s hr).1
    refine ⟨_, rfl, by rw [List.length_map, hlen, hs], by simp, fun l h => ?_, fun k hk => ?_⟩
    · rw [List.length_map, hlen, hs]
      exact hl l h
    · rw [List.length_map] at hk
      obtain ⟨_, h2⟩ := fold_sum k r s hr
      rw [List.map_cons, List.sum_cons, ← h2]
      simp only [List.getD, List.getElem?_map, List.getElem?_eq_getElem hk, Option.map_some, Option.getD_some]

/-- The spectrum of a line without masked point. -/
theorem line_ok (hs : IsArgsort srt) (main : Bool) (hg : g.WF) (hv : ∀ x y, ¬ g.Reads x y none) (d : Dir) {v : Rat} (hm : v ∈ axe g (across d)) :
    ∃ row, List.Forall₂ (fun q w => Sees g (across d) v q (some w)) (other g (across d)) row ∧
      lineSpectrum main srt mg g d v = .ok (mg (other g (across d)) row) := by
  obtain ⟨p, e, ha⟩ := Line.C187_grid hs main hg (across d) hm
  have hp := Profile.pts_valid ha.ok
  have hlen := ha.ok.1
  have hsome : ∀ (k : Nat) (r : Option Rat), p.y[k]? = some r → ∃ q w, (other g (across d))[k]? = some q ∧ r = some w ∧ Sees g (across d) v q (some w) := by
    intro k r hk
    have hkl := getElem?_some_lt hk
    have hx : p.x[k]? = some p.x[k] := List.getElem?_eq_getElem (by omega)
    have hmem : (p.x[k], r) ∈ pts p := by
      rw [hp]
      exact List.mem_of_getElem? (List.getElem?_zip_eq_some.mpr ⟨hx, hk⟩)
    obtain ⟨_, hsee⟩ := (ha.shows _ _).mp hmem
    cases r with
    | none =>
      exfalso
      cases hd : across d with
      | x => rw [hd] at hsee; exact hv _ _ hsee
      | y => rw [hd] at hsee; exact hv _ _ hsee
    | some w => exact ⟨p.x[k], w, by rw [← ha.x]; exact hx, rfl, hsee⟩
  have hy : p.y = (p.y.map fun v => v.getD 0).map some := by
    rw [List.map_map]
    refine (List.map_id'' (fun _ => rfl) p.y).symm.trans (List.map_congr_left fun r hr => ?_)
    obtain ⟨k, hk⟩ := List.mem_iff_getElem?.mp hr
    obtain ⟨_, w, _, rfl, _⟩ := hsome k r hk
    rfl
  refine ⟨p.y.map fun v => v.getD 0, List.forall₂_iff_get.mpr ⟨by rw [List.length_map, hlen, ha.x], fun k h1 h2 => ?_⟩, ?_⟩
  · have hk : k < p.y.length := by simpa using h2
    obtain ⟨q, w, hq, hr, hsee⟩ := hsome k p.y[k] (List.getElem?_eq_getElem hk)
    rw [List.getElem?_eq_getElem h1] at hq
    have hq := Option.some.inj hq
    simp only [List.get_eq_getElem, List.getElem_map, hr, Option.getD_some, hq]
    exact hsee
  · unfold lineSpectrum
    rw [e]
    simp only [Trace.magnitudes, Trace.fill_visible ha.ok hy, ha.x]

/-- The lines of a field without masked point. -/
theorem lines_ok (hs : IsArgsort srt) (main : Bool) (hg : g.WF) (hv : ∀ x y, ¬ g.Reads x y none) (d : Dir) {K : Nat}
    (hK : ∀ vs, (mg (other g (across d)) vs).length = K) :
    ∃ rows m, Rows g d (axe g (across d)) (other g (across d)) rows ∧ lines main srt mg g d = .ok m ∧ m.length = K ∧
      IsMean m (rows.map (mg (other g (across d)))) := by
  have hex : ∀ v, ∃ row, v ∈ axe g (across d) → List.Forall₂ (fun q w => Sees g (across d) v q (some w)) (other g (across d)) row ∧
      lineSpectrum main srt mg g d v = .ok (mg (other g (across d)) row) := by
    intro v
    by_cases hm : v ∈ axe g (across d)
    · obtain ⟨row, h⟩ := line_ok hs main hg hv d hm
      exact ⟨row, fun _ => h⟩
    · exact ⟨[], fun h => absurd h hm⟩
  choose R hR using hex
  have hcol := Line.collect_ok (axe g (across d)) (lineSpectrum main srt mg g d) (fun v => mg (other g (across d)) (R v)) fun v hv => (hR v hv).2
  obtain ⟨m, e, hl, hm⟩ := average_mean (ls := (axe g (across d)).map fun v => mg (other g (across d)) (R v)) (K := K)
    (by simpa using Line.axe_ne hg _) (by
      intro l hl
      obtain ⟨v, _, rfl⟩ := List.mem_map.mp hl
      exact hK _)
  refine ⟨(axe g (across d)).map R, m, ?_, ?_, hl, ?_⟩
  · exact List.forall₂_map_right_iff.mpr (List.forall₂_same.mpr fun v hv => (hR v hv).1)
  · unfold lines
    rw [hcol]
    rw [List.length_map] at e
    exact e
  · rw [List.map_map]
    exact hm

theorem window_of {l : List Rat} {first last : Rat} (h1 : l.head? = some first) (h2 : l.getLast? = some last) (s : Option Span) :
    window l s = ordered (span first last s) := by
  unfold window
  simp only [h1, h2]

/-- The window of bounds given as floats. -/
theorem window_floats {l : List Rat} (hl : Inc l) (hne : l ≠ []) {w : Rat × Rat} (hm : Meets l w) :
    ∃ a b, window l (some (.floats w.1 w.2)) = .ok (a, b) ∧ a < b ∧ (∀ c ∈ l, (a ≤ c ∧ c ≤ b) ↔ (w.1 ≤ c ∧ c ≤ w.2)) := by
  have h1 := List.head?_eq_some_head hne
  have h2 := List.getLast?_eq_some_getLast hne
  have hlt := hm _ _ h1 h2
  refine ⟨max w.1 (l.head hne), min w.2 (l.getLast hne), ?_, hlt, fun c hc => ?_⟩
  · have e1 : (if w.1 < l.head hne then l.head hne else w.1) = max w.1 (l.head hne) := by
      by_cases h : w.1 < l.head hne
      · rw [if_pos h, max_eq_right h.le]
      · rw [if_neg h, max_eq_left (not_lt.mp h)]
    have e2 : (if w.2 > l.getLast hne then l.getLast hne else w.2) = min w.2 (l.getLast hne) := by
      by_cases h : w.2 > l.getLast hne
      · rw [if_pos h, min_eq_right (le_of_lt h)]
      · rw [if_neg h, min_eq_left (not_lt.mp h)]
    rw [window_of h1 h2]
    have e3 : span (l.head hne) (l.getLast hne) (some (.floats w.1 w.2)) = (max w.1 (l.head hne), min w.2 (l.getLast hne)) := by
      simp only [span, clip, e1, e2]
    rw [e3]
    unfold ordered
    rw [if_neg (not_le.mpr hlt)]
  · obtain ⟨i, hi⟩ := List.mem_iff_getElem?.mp hc
    obtain ⟨a, b, h3, h4, h5, h6⟩ := SF.head_last_of_mem hl hi
    rw [h1] at h3
    rw [h2] at h4
    cases h3
    cases h4
    rw [max_le_iff, le_min_iff]
    tauto

theorem keep_congr {l : List Rat} {v w : Rat × Rat} (h : ∀ c ∈ l, (v.1 ≤ c ∧ c ≤ v.2) ↔ (w.1 ≤ c ∧ c ≤ w.2)) : keep l v = keep l w :=
  List.filter_congr fun c hc => by rw [decide_eq_decide]; exact h c hc

/-- The cropped field. -/
theorem crop_keep (hf : f.WF) {a b : Rat × Rat} (ha : a.1 ≤ a.2) (hb : b.1 ≤ b.2) (h1 : keep f.ax a ≠ []) (h2 : keep f.ay b ≠ []) :
    ∃ g, f.crop (some a) (some b) = .ok g ∧ g.WF ∧ g.ax = keep f.ax a ∧ g.ay = keep f.ay b ∧
      ∀ x y r, g.Reads x y r ↔ f.Reads x y r ∧ (a.1 ≤ x ∧ x ≤ a.2) ∧ (b.1 ≤ y ∧ y ≤ b.2) := by
  have key : ∀ (l : List Rat) (w : Rat × Rat), Inc l → l ≠ [] → w.1 ≤ w.2 → keep l w ≠ [] →
      ∃ p, Axis.cropInds l w.1 w.2 = .ok p ∧ slice l p.1 (p.2 + 1) = keep l w ∧ ∃ c ∈ l, w.1 ≤ c ∧ c ≤ w.2 := by
    intro l w hl hne hw hk
    obtain ⟨c, hc⟩ := List.exists_mem_of_ne_nil _ hk
    have hc := List.mem_filter.mp hc
    have hcw := of_decide_eq_true hc.2
    obtain ⟨i, hi⟩ := List.mem_iff_getElem?.mp hc.1
    obtain ⟨first, last, h3, h4, h5, h6⟩ := SF.head_last_of_mem hl hi
    have e := Axis.C04_crop_keeps_window hl h3 h4 hw (le_trans h5 hcw.2) (le_trans hcw.1 h6)
    unfold Axis.crop at e
    cases hp : Axis.cropInds l w.1 w.2 with
    | error err => rw [hp] at e; cases e
    | ok p =>
      rw [hp] at e
      exact ⟨p, rfl, Except.ok.inj e, c, hc.1, hcw⟩
  obtain ⟨p, e1, s1, n1⟩ := key f.ax a hf.incx hf.nex ha h1
  obtain ⟨q, e2, s2, n2⟩ := key f.ay b hf.incy hf.ney hb h2
  have e : f.crop (some a) (some b) = .ok (f.cut p.1 p.2 q.1 q.2) := by
    unfold SF.crop
    simp only [e1, e2]
  exact ⟨_, e, SF.C06_crop_consistent hf e n1 n2, s1, s2, (SF.C06_crop_keeps_readings hf e).1⟩

theorem axe_pick {d : Dir} {a b : Rat × Rat} (h1 : g.ax = keep f.ax a) (h2 : g.ay = keep f.ay b) :
    axe g d = keep (axe f d) (pick d a b) ∧ other g d = keep (other f d) (pick (across d) a b) := by
  cases d
  · exact ⟨h1, h2⟩
  · exact ⟨h2, h1⟩

theorem window_unit {l : List Rat} (hne : l ≠ []) (h : ∀ x ∈ l, 0 ≤ x ∧ x < 1) {a b : Int} (ha : a ≤ 0) (hb : 1 ≤ b) :
    window l (some (.ints a b)) = .error .valueError := by
  have h1 := List.head?_eq_some_head hne
  have h2 := List.getLast?_eq_some_getLast hne
  have t : ∀ q : Rat, 0 ≤ q → q < 1 → trunc q = 0 := by
    intro q h0 hq
    unfold trunc
    rw [if_pos h0]
    exact Int.floor_eq_zero_iff.mpr ⟨h0, hq⟩
  obtain ⟨f0, f1⟩ := h _ (List.head_mem hne)
  obtain ⟨l0, l1⟩ := h _ (List.getLast_mem hne)
  have ha' : (a : Rat) ≤ 0 := by exact_mod_cast ha
  have hb' : (1 : Rat) ≤ b := by exact_mod_cast hb
  have e3 : (span (l.head hne) (l.getLast hne) (some (.ints a b))).2 ≤ (span (l.head hne) (l.getLast hne) (some (.ints a b))).1 := by
    simp only [span, clip]
    rw [if_pos (show (b : Rat) > _ by linarith), t _ l0 l1, t _ f0 f1]
    by_cases hc : (a : Rat) < l.head hne
    · rw [if_pos hc]
    · rw [if_neg hc]
      push_cast
      linarith
  rw [window_of h1 h2]
  unfold ordered
  rw [if_pos e3]

theorem window_refused {l : List Rat} {first last : Rat} (h1 : l.head? = some first) (h2 : l.getLast? = some last) {w : Rat × Rat}
    (h : min w.2 last ≤ max w.1 first) : window l (some (.floats w.1 w.2)) = .error .valueError := by
  rw [window_of h1 h2]
  unfold ordered
  rw [if_pos]
  simp only [span, clip]
  rcases min_le_iff.mp h with h | h <;> rcases le_max_iff.mp h with h | h <;> split <;> split <;> first | assumption | linarith

/-! ### C350 -/

/-- C350: the spectrum is the mean of those of the lines of the cropped and filled field, whatever the filling (`Fills`: C247 to C249). -/
theorem C350_filled_partial (hs : IsArgsort srt) (main : Bool) (s : Fill.Scipy) (k : Fill.Kind) (hf : f.WF) (d : Dir) {wx wy : Rat × Rat}
    (hx : Meets f.ax wx) (hy : Meets f.ay wy) (kx : keep f.ax wx ≠ []) (ky : keep f.ay wy ≠ []) {K : Nat} (hK : ∀ xs vs, (mg xs vs).length = K)
    (hfill : ∀ g : SF, g.WF → (∀ x y r, g.Reads x y r ↔ f.Reads x y r ∧ (wx.1 ≤ x ∧ x ≤ wx.2) ∧ (wy.1 ≤ y ∧ y ≤ wy.2)) →
      ∃ F, Fill.fill s k true g = .ok F ∧ Fill.Fills g F) :
    ∃ g F rows m, (∀ x y r, g.Reads x y r ↔ f.Reads x y r ∧ (wx.1 ≤ x ∧ x ≤ wx.2) ∧ (wy.1 ≤ y ∧ y ≤ wy.2)) ∧ Fill.fill s k true g = .ok F ∧ Fill.Fills g F ∧
      Rows F d (keep (axe f (across d)) (pick (across d) wx wy)) (keep (axe f d) (pick d wx wy)) rows ∧
      getSpatial main srt s k mg f d (some (.floats wx.1 wx.2)) (some (.floats wy.1 wy.2)) = .ok m ∧ m.length = K ∧
      IsMean m (rows.map (mg (keep (axe f d) (pick d wx wy)))) := by
  obtain ⟨a1, a2, ea, la, ha⟩ := window_floats hf.incx hf.nex hx
  obtain ⟨b1, b2, eb, lb, hb⟩ := window_floats hf.incy hf.ney hy
  have ka := keep_congr (v := (a1, a2)) ha
  have kb := keep_congr (v := (b1, b2)) hb
  obtain ⟨g, eg, hg, gx, gy, hr⟩ := crop_keep hf (a := (a1, a2)) (b := (b1, b2)) la.le lb.le (by rw [ka]; exact kx) (by rw [kb]; exact ky)
  have hr' : ∀ x y r, g.Reads x y r ↔ f.Reads x y r ∧ (wx.1 ≤ x ∧ x ≤ wx.2) ∧ (wy.1 ≤ y ∧ y ≤ wy.2) := by
    intro x y r
    rw [hr]
    refine and_congr_right fun h => ?_
    obtain ⟨i, j, hi, hj, _⟩ := h
    rw [ha x (List.mem_of_getElem? hi), hb y (List.mem_of_getElem? hj)]
  obtain ⟨F, eF, hF⟩ := hfill g hg hr'
  have ax : F.ax = keep f.ax wx := by rw [hF.ax, gx, ka]
  have ay : F.ay = keep f.ay wy := by rw [hF.ay, gy, kb]
  obtain ⟨rows, m, r1, r2, r3, r4⟩ := lines_ok (mg := mg) hs main hF.wf hF.all d (K := K) (fun vs => hK _ vs)
  have p1 := (axe_pick (d := across d) ax ay).1
  have p2 : other F (across d) = keep (axe f d) (pick d wx wy) := by
    cases d
    · exact ax
    · exact ay
  rw [p1, p2] at r1
  rw [p2] at r4
  refine ⟨g, F, rows, m, hr', eF, hF, r1, ?_, r3, r4⟩
  unfold getSpatial spatial
  simp only [ea, eb, eg, eF, r2]

/-- C350, for fields without masked point in the window: the mean of the spectra of the lines of the field in the window. -/
theorem C350_mean_partial (hs : IsArgsort srt) (main : Bool) (s : Fill.Scipy) (k : Fill.Kind) (hf : f.WF) (d : Dir) {wx wy : Rat × Rat}
    (hx : Meets f.ax wx) (hy : Meets f.ay wy) (kx : keep f.ax wx ≠ []) (ky : keep f.ay wy ≠ []) {K : Nat} (hK : ∀ xs vs, (mg xs vs).length = K)
    (hv : ∀ x y, f.Reads x y none → ¬ ((wx.1 ≤ x ∧ x ≤ wx.2) ∧ (wy.1 ≤ y ∧ y ≤ wy.2))) :
    ∃ rows m, Rows f d (keep (axe f (across d)) (pick (across d) wx wy)) (keep (axe f d) (pick d wx wy)) rows ∧
      getSpatial main srt s k mg f d (some (.floats wx.1 wx.2)) (some (.floats wy.1 wy.2)) = .ok m ∧ m.length = K ∧
      IsMean m (rows.map (mg (keep (axe f d) (pick d wx wy)))) := by
  have hno : ∀ g : SF, g.WF → (∀ x y r, g.Reads x y r ↔ f.Reads x y r ∧ (wx.1 ≤ x ∧ x ≤ wx.2) ∧ (wy.1 ≤ y ∧ y ≤ wy.2)) →
      ∃ F, Fill.fill s k true g = .ok F ∧ Fill.Fills g F := by
    intro g hg hr
    refine (Fill.C249_unmasked s k true hg ?_).1
    rw [Bool.eq_false_iff]
    intro hc
    obtain ⟨x, y, h⟩ := Fill.reads_of_any hg hc
    obtain ⟨h1, h2⟩ := (hr x y none).mp h
    exact hv x y h1 h2
  obtain ⟨g, F, rows, m, h1, _, hF, h3, h4, h5, h6⟩ := C350_filled_partial hs main s k hf d hx hy kx ky hK hno
  refine ⟨rows, m, ?_, h4, h5, h6⟩
  have hgF : ∀ x y w, F.Reads x y (some w) → f.Reads x y (some w) := by
    intro x y w hw
    obtain ⟨i, j, hi, hj, hc⟩ := hw
    have hg : g.Reads x y (g.cell i j) := ⟨i, j, hF.ax ▸ hi, hF.ay ▸ hj, rfl⟩
    obtain ⟨h7, h8⟩ := (h1 x y _).mp hg
    cases hgc : g.cell i j with
    | none => rw [hgc] at h7; exact absurd h8 (hv x y h7)
    | some v =>
      rw [hgc] at h7 hg
      obtain ⟨i', j', hi', hj', hc'⟩ := hF.keep x y v hg
      rw [hF.wf.incx.idx_inj' hi' hi, hF.wf.incy.idx_inj' hj' hj, hc] at hc'
      rw [Option.some.inj hc']
      exact h7
  exact h3.imp fun {v row} hrow => hrow.imp fun {q w} hsee => by
    revert hsee
    cases across d with
    | x => exact fun hsee => hgF _ _ _ hsee
    | y => exact fun hsee => hgF _ _ _ hsee

/-- C350 fails for whole numbers: an axis between 0 and 1 is refused for the interval from 0 (or less) to 1 (or more), that holds it. -/
theorem C350_integers_violated (main : Bool) (s : Fill.Scipy) (k : Fill.Kind) (hf : f.WF) (d : Dir) (h : ∀ x ∈ f.ax, 0 ≤ x ∧ x < 1) {a b : Int}
    (ha : a ≤ 0) (hb : 1 ≤ b) (iy : Option Span) : getSpatial main srt s k mg f d (some (.ints a b)) iy = .error .valueError := by
  have e := window_unit hf.nex h ha hb
  unfold getSpatial spatial
  simp only [e]

/-- C350 fails for whole numbers: when the end asked for is after the axis, the positions after the whole part of its end are left out. -/
theorem C350_truncated_violated (main : Bool) (s : Fill.Scipy) (k : Fill.Kind) (d : Dir) {first last : Rat}
    (h1 : f.ax.head? = some first) (h2 : f.ax.getLast? = some last) (h0 : 0 ≤ last) {a b : Int} (ha : first ≤ a) (hb : last < b) (iy : Option Span) :
    getSpatial main srt s k mg f d (some (.ints a b)) iy = getSpatial main srt s k mg f d (some (.floats a (trunc last))) iy := by
  have e : window f.ax (some (.ints a b)) = window f.ax (some (.floats a (trunc last))) := by
    have hfl : (trunc last : Rat) ≤ last := by
      unfold trunc
      rw [if_pos h0]
      exact Int.floor_le last
    rw [window_of h1 h2, window_of h1 h2]
    simp only [span, clip]
    rw [if_neg (not_lt.mpr ha), if_pos (show (b : Rat) > last from hb), if_neg (not_lt.mpr hfl), if_neg (not_lt.mpr ha)]
  unfold getSpatial spatial
  simp only [e]


/-- C350: an interval that does not meet the axis on more than one point is refused. -/
theorem C350_refused (main : Bool) (s : Fill.Scipy) (k : Fill.Kind) (d : Dir) {first last : Rat} (h1 : f.ax.head? = some first)
    (h2 : f.ax.getLast? = some last) {wx : Rat × Rat} (h : min wx.2 last ≤ max wx.1 first) (iy : Option Span) :
    getSpatial main srt s k mg f d (some (.floats wx.1 wx.2)) iy = .error .valueError := by
  unfold getSpatial spatial
  simp only [window_refused h1 h2 h]

/-! ### C351 -/

/-- C351: the mean of the spectra of the fields whose time is in the interval. -/
theorem C351_mean_partial {t : TF} {u : Sym} (h : SRecord t u) (sp : SF → Res (List Rat)) {w : Rat × Rat} (hw : Meets t.times w)
    (hk : keep t.times w ≠ []) {specs : List (List Rat)} {K : Nat} (hK : ∀ l ∈ specs, l.length = K)
    (hsp : List.Forall₂ (fun (e : Rat × SF) l => sp e.2 = .ok l) ((t.times.zip t.fields).filter fun e => decide (w.1 ≤ e.1 ∧ e.1 ≤ w.2)) specs) :
    ∃ m, overTimes sp t (some (.floats w.1 w.2)) = .ok m ∧ m.length = K ∧ IsMean m specs := by
  have hne : t.times ≠ [] := by
    have := h.ne
    rw [← List.length_pos_iff] at this ⊢
    rw [h.ok.paired]
    exact this
  obtain ⟨a, b, e, _, hab⟩ := window_floats h.inc hne hw
  have hfil : (t.times.zip t.fields).filter (fun e => decide (a ≤ e.1 ∧ e.1 ≤ b)) =
      (t.times.zip t.fields).filter fun e => decide (w.1 ≤ e.1 ∧ e.1 ≤ w.2) :=
    List.filter_congr fun e he => by
      rw [decide_eq_decide]
      exact hab _ (List.of_mem_zip (show (e.1, e.2) ∈ _ from he)).1
  have hlen := hsp.length_eq
  have hcol : ∀ (es : List (Rat × SF)) ls, List.Forall₂ (fun (e : Rat × SF) l => sp e.2 = .ok l) es ls → collect (es.map fun e => sp e.2) = .ok ls := by
    intro es ls hs
    induction hs with
    | nil => rfl
    | cons h1 _ ih => simp only [List.map_cons, h1, collect, ih]
  have hnil : (t.times.zip t.fields).filter (fun e => decide (w.1 ≤ e.1 ∧ e.1 ≤ w.2)) ≠ [] := by
    obtain ⟨c, hc⟩ := List.exists_mem_of_ne_nil _ hk
    obtain ⟨hc, hd⟩ := List.mem_filter.mp hc
    obtain ⟨i, hi⟩ := List.mem_iff_getElem?.mp hc
    have hl := getElem?_some_lt hi
    rw [h.ok.paired] at hl
    refine List.ne_nil_of_mem (a := (c, t.fields[i])) (List.mem_filter.mpr ⟨List.mem_of_getElem? (i := i) ?_, hd⟩)
    exact List.getElem?_zip_eq_some.mpr ⟨hi, List.getElem?_eq_getElem hl⟩
  have hs0 : specs ≠ [] := by
    rw [← List.length_pos_iff, ← hlen, List.length_pos_iff]
    exact hnil
  obtain ⟨m, em, hl, hm⟩ := average_mean hs0 hK
  refine ⟨m, ?_, hl, hm⟩
  have hc := hcol _ _ hsp
  rw [← hlen] at em
  unfold overTimes
  simp only [e, hfil]
  revert hc em hnil
  cases (t.times.zip t.fields).filter (fun e => decide (w.1 ≤ e.1 ∧ e.1 ≤ w.2)) with
  | nil => exact fun hn _ _ => absurd rfl hn
  | cons c r =>
    intro _ em hc
    simp only [hc]
    exact em

/-- C351 fails for a record with one field: it is refused whatever the interval. -/
theorem C351_single_violated (sp : SF → Res (List Rat)) {t : TF} {a : Rat} (h : t.times = [a]) (it : Option Span) :
    overTimes sp t it = .error .valueError := by
  have e : window t.times it = .error .valueError := by
    rw [window_of (first := a) (last := a) (by rw [h]; rfl) (by rw [h]; rfl)]
    unfold ordered
    rw [if_pos]
    cases it with
    | none => exact le_rfl
    | some s =>
      cases s with
      | floats b c =>
        simp only [span, clip]
        split <;> split <;> linarith
      | ints b c =>
        simp only [span, clip]
        have t1 : ∀ n : Int, (n : Rat) ≤ a → n ≤ trunc a := by
          intro n hn
          unfold trunc
          split
          · exact Int.le_floor.mpr hn
          · have : ⌊-a⌋ ≤ -n := by
              have := Int.floor_le (-a)
              have hq : (⌊-a⌋ : Rat) ≤ ((-n : Int) : Rat) := by
                push_cast
                linarith
              exact_mod_cast hq
            show n ≤ -⌊-a⌋
            omega
        have t2 : ∀ n : Int, a ≤ (n : Rat) → trunc a ≤ n := by
          intro n hn
          unfold trunc
          split
          · have := Int.floor_le a
            exact_mod_cast this.trans hn
          · have : -n ≤ ⌊-a⌋ := Int.le_floor.mpr (by push_cast; linarith)
            show -⌊-a⌋ ≤ n
            omega
        split <;> split
        · exact le_rfl
        · exact_mod_cast t2 _ (by linarith)
        · exact_mod_cast t1 _ (by linarith)
        · linarith
  unfold overTimes
  simp only [e]

/-- C351 fails for whole numbers: times between 0 and 1 are refused for the interval from 0 (or less) to 1 (or more), that holds them. -/
theorem C351_integers_violated (sp : SF → Res (List Rat)) {t : TF} (hne : t.times ≠ []) (h : ∀ x ∈ t.times, 0 ≤ x ∧ x < 1) {a b : Int}
    (ha : a ≤ 0) (hb : 1 ≤ b) : overTimes sp t (some (.ints a b)) = .error .valueError := by
  unfold overTimes
  simp only [window_unit hne h ha hb]

/-! ### examples -/

theorem plain_visible (v : Rat) (x y : Rat) : ¬ (Trace.plain v).Reads x y none := by
  rintro ⟨i, j, _, _, h⟩
  cases h

example : Meets (Trace.plain 5).ax (1 / 2, 7) ∧ Meets (Trace.plain 5).ay (-2, 1 / 3) := by
  constructor <;> intro a b h1 h2 <;> cases h1 <;> cases h2 <;> norm_num

example : keep (Trace.plain 5).ax (1 / 2, 7) = [1, 3] ∧ keep (Trace.plain 5).ay (-2, 1 / 3) = [-1] := by decide +kernel

example : spatial false Profile.argsort .ok Trace.twoMag (Trace.plain 5) .x (some (.floats (1 / 2) 7)) none = .ok [41, 82] := by decide +kernel

example : spatial false Profile.argsort .ok Trace.twoMag (Trace.plain 5) .x (some (.ints 1 7)) none = .ok [41, 82] := by decide +kernel

example : spatial false Profile.argsort .ok Trace.twoMag { Trace.plain 5 with ax := [0, 1, 5 / 2] } .x (some (.ints 0 7)) none = .ok [21, 42] := by
  decide +kernel

example : spatial false Profile.argsort .ok Trace.twoMag { Trace.plain 5 with ax := [0, 1 / 3, 2 / 3] } .x (some (.ints 0 1)) none = .error .valueError := by
  decide +kernel

example : overTimes (fun g => spatial false Profile.argsort .ok Trace.twoMag g .x none none) { Trace.trio with fields := [Trace.plain 5, Trace.plain 7, Trace.plain 12] }
    (some (.floats (3 / 2) 6)) = .ok [60, 120] := by
  decide +kernel

example : Meets Trace.trio.times (3 / 2, 6) ∧ keep Trace.trio.times (3 / 2, 6) = [2, 4] :=
  ⟨by intro a b h1 h2; cases h1; cases h2; norm_num, by decide +kernel⟩

end IMT.Wave
