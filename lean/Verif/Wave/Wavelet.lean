import Verif.Wave.Model
import Verif.Trace.Spectra
import Mathlib.Tactic.IntervalCases

/-!
Property C352: wavelet transform of profiles.
-/

namespace IMT.Wave

open Profile (Prof)

variable {cwt : List Rat → Rat → List Rat} {p : Prof}

/-! ### specification -/

/-- The abscissas are `dx` apart. -/
def Regular (x : List Rat) (dx : Rat) : Prop := ∀ (i : Nat) a b, x[i]? = some a → x[i + 1]? = some b → b - a = dx

/-! ### helper lemmas -/

theorem uneven_iff (x : List Rat) (dx : Rat) :
    uneven x dx = true ↔ ∃ (i : Nat) (a b : Rat), x[i]? = some a ∧ x[i + 1]? = some b ∧ b - a > dx + 1 / 1000000 := by
  unfold uneven
  rw [List.any_eq_true]
  constructor
  · rintro ⟨c, hc, h⟩
    obtain ⟨i, hi⟩ := List.mem_iff_getElem?.mp hc
    obtain ⟨a, b, h1, h2, h3⟩ := List.getElem?_zipWith_eq_some.mp hi
    rw [List.getElem?_tail] at h2
    subst h3
    have := of_decide_eq_true h
    exact ⟨i, a, b, h1, h2, by linarith⟩
  · rintro ⟨i, a, b, h1, h2, h3⟩
    refine ⟨true, List.mem_of_getElem? (i := i) (List.getElem?_zipWith_eq_some.mpr ⟨a, b, h1, by rw [List.getElem?_tail]; exact h2, ?_⟩), rfl⟩
    exact decide_eq_true (by linarith)

theorem isRev_inc {l : List Rat} (hl : Inc l) : SF.isRev l = false := by
  unfold SF.isRev
  cases h : l with
  | nil => rfl
  | cons a r =>
    rw [h] at hl
    obtain ⟨b, hb⟩ : ∃ b, (a :: r).getLast? = some b := ⟨_, List.getLast?_eq_some_getLast (by simp)⟩
    simp only [List.head?_cons, hb, gt_iff_lt, decide_eq_false_iff_not, not_lt]
    obtain ⟨c, d, h1, h2, _, h4⟩ := SF.head_last_of_mem hl (show (a :: r)[0]? = some a from rfl)
    rw [hb] at h2
    cases h2
    exact h4

/-- Arrays on increasing axes of the right sizes. -/
theorem import_inc {ax ay : List Rat} (hx : Inc ax) (hy : Inc ay) (h2 : 2 ≤ ax.length) (h3 : 2 ≤ ay.length) (v : Nat → Nat → Option Rat)
    (m : Nat → Nat → Bool) (ux uy uv : Sym) :
    ∃ G, SF.importArrays ax ay ⟨ax.length, ay.length, v⟩ (.array ⟨ax.length, ay.length, m⟩) ux uy uv = .ok G ∧ G.ax = ax ∧ G.ay = ay ∧ G.ux = ux ∧
      G.uy = uy ∧ G.uv = uv ∧ ∀ (i j : Nat) x y, ax[i]? = some x → ay[j]? = some y → G.Reads x y (if m i j then none else v i j) := by
  unfold SF.importArrays
  simp only
  rw [if_neg (by omega)]
  have hswap : decide (ax.length = ay.length ∧ ay.length = ax.length ∧ ax.length ≠ ay.length) = false := by
    rw [decide_eq_false_iff_not]
    omega
  simp only [hswap, isRev_inc hx, isRev_inc hy]
  refine ⟨_, rfl, rfl, rfl, rfl, rfl, rfl, fun i j x y hi hj => ⟨i, j, hi, hj, ?_⟩⟩
  unfold SF.cell
  simp only [Grid.map2]
  cases hm : m i j <;> cases hv : v i j <;> simp [hm, hv]

/-! ### C352 -/

/-- The transform of a profile whose gaps are not larger than the first one. -/
theorem wavelet_ok (hp : Profile.Valid p) (hinc : Inc p.x) {a b : Rat} {r : List Rat} (hx : p.x = a :: b :: r)
    (hreg : ∀ (i : Nat) c d, p.x[i]? = some c → p.x[i + 1]? = some d → d - c ≤ b - a) {v : Rat} (hv : some v ∈ p.y) {ws : List Rat} (hw : Inc ws) (h2 : 2 ≤ ws.length) :
    ∃ q G, Trace.fillLinear p = .ok q ∧ wavelet cwt p (some ws) = .ok G ∧ G.ax = p.x ∧ G.ay = ws ∧ G.ux = p.ux ∧ G.uy = p.ux ∧ G.uv = p.uy ∧
      ∀ (i j : Nat) x w y, p.x[i]? = some x → ws[j]? = some w → p.y[i]? = some y →
        G.Reads x w (y.map fun _ => (cwt (centred (q.y.map fun v => v.getD 0)) (w / (b - a))).getD i 0) := by
  have hab : a < b := by
    rw [hx] at hinc
    exact (List.pairwise_cons.mp hinc).1 b (by simp)
  have hne : b - a ≠ 0 := by linarith [sub_pos.mpr hab]
  obtain ⟨q, e, _⟩ := Trace.fill_seen hp hv
  have hback : (ws.map fun v => v / (b - a)).map (fun v => v * (b - a)) = ws := by
    rw [List.map_map]
    refine (List.map_congr_left fun w _ => ?_).trans (List.map_id ws)
    simp only [Function.comp, id, div_mul_cancel₀ _ hne]
  have hun : uneven p.x (b - a) = false := by
    rw [Bool.eq_false_iff]
    intro hc
    obtain ⟨i, c, d, h1, h2, h3⟩ := (uneven_iff _ _).mp hc
    have := hreg i c d h1 h2
    linarith
  obtain ⟨G, eG, g1, g2, g3, g4, g5, g6⟩ := import_inc hinc hw (by rw [hx]; simp) h2
    (fun i j => some ((cwt (centred (q.y.map fun v => v.getD 0)) ((ws.map fun v => v / (b - a)).getD j 0)).getD i 0)) (fun i _ => p.m.getD i false) p.ux p.ux p.uy
  refine ⟨q, G, e, ?_, g1, g2, g3, g4, g5, fun i j x w y hi hj hy => ?_⟩
  · unfold wavelet
    rw [hx] at hun eG ⊢
    simp only [hun, e, hback, List.length_map]
    exact eG
  · have := g6 i j x w hi hj
    have hm : p.m.getD i false = y.isNone := by
      rw [hp.2.1]
      simp [List.getD, hy]
    have hwj : (ws.map fun v => v / (b - a)).getD j 0 = w / (b - a) := by simp [List.getD, hj]
    rw [hm, hwj] at this
    cases y <;> exact this

/-- C352, for regular profiles, with two widths at least: at the abscissa `x` and the width `w`, the field shows the coefficient of the
transform of the values (interpolated where the profile is masked) less their mean, the width being counted in points; it is masked where
the profile is. -/
theorem C352_shows_partial (hp : Profile.Valid p) (hinc : Inc p.x) {dx : Rat} (hreg : Regular p.x dx) (hn : 2 ≤ p.x.length) {v : Rat} (hv : some v ∈ p.y)
    {ws : List Rat} (hw : Inc ws) (h2 : 2 ≤ ws.length) :
    ∃ vals G, Trace.Completed p.x p.y vals ∧ wavelet cwt p (some ws) = .ok G ∧ G.ax = p.x ∧ G.ay = ws ∧ G.ux = p.ux ∧ G.uy = p.ux ∧ G.uv = p.uy ∧
      ∀ (i j : Nat) x w y, p.x[i]? = some x → ws[j]? = some w → p.y[i]? = some y →
        G.Reads x w (y.map fun _ => (cwt (vals.map fun r => r - vals.sum / vals.length) (w / dx)).getD i 0) := by
  match hx : p.x, hn with
  | a :: b :: r, _ =>
    have hd : b - a = dx := hreg 0 a b (by rw [hx]; rfl) (by rw [hx]; rfl)
    rw [← hd, ← hx]
    obtain ⟨q, G, e, h⟩ := wavelet_ok (cwt := cwt) hp hinc hx (fun i c d h1 h3 => by rw [hreg i c d h1 h3, hd]) hv hw h2
    exact ⟨_, G, Trace.fill_completed hp hinc hv e, h⟩

/-- C352: without widths, a hundred of them, evenly spaced up to the length of the profile. -/
theorem C352_default {a b : Rat} {r : List Rat} (hx : p.x = a :: b :: r) (hinc : Inc p.x) :
    wavelet cwt p none = wavelet cwt p (some ((List.range 100).map fun k : Nat => ((k : Rat) + 1) / 100 * ((p.x.length - 1) * (b - a)))) := by
  have hab : a < b := by
    rw [hx] at hinc
    exact (List.pairwise_cons.mp hinc).1 b (by simp)
  have hne : b - a ≠ 0 := by linarith [sub_pos.mpr hab]
  have : defaultWidths p.x.length = ((List.range 100).map fun k : Nat => ((k : Rat) + 1) / 100 * ((p.x.length - 1) * (b - a))).map fun v => v / (b - a) := by
    unfold defaultWidths
    rw [List.map_map]
    refine List.map_congr_left fun k _ => ?_
    simp only [Function.comp]
    field_simp
  unfold wavelet
  rw [hx] at this ⊢
  simp only [this]

/-- C352: a profile with a gap larger than the first one is refused. -/
theorem C352_refused {a b : Rat} {r : List Rat} (hx : p.x = a :: b :: r) {i : Nat} {c d : Rat} (h1 : p.x[i]? = some c) (h2 : p.x[i + 1]? = some d)
    (h3 : d - c > b - a + 1 / 1000000) (ws : Option (List Rat)) : wavelet cwt p ws = .error .valueError := by
  have hun : uneven p.x (b - a) = true := (uneven_iff _ _).mpr ⟨i, c, d, h1, h2, h3⟩
  unfold wavelet
  rw [hx] at hun ⊢
  simp only [hun]
  rfl

/-- C352 fails for irregular profiles, that should be refused: those with smaller gaps than the first one are transformed. -/
theorem C352_uneven_violated (hp : Profile.Valid p) (hinc : Inc p.x) {a b : Rat} {r : List Rat} (hx : p.x = a :: b :: r)
    (hreg : ∀ (i : Nat) c d, p.x[i]? = some c → p.x[i + 1]? = some d → d - c ≤ b - a) {v : Rat} (hv : some v ∈ p.y) {ws : List Rat} (hw : Inc ws) (h2 : 2 ≤ ws.length) :
    ∃ G, wavelet cwt p (some ws) = .ok G := by
  obtain ⟨_, G, _, e, _⟩ := wavelet_ok (cwt := cwt) hp hinc hx hreg hv hw h2
  exact ⟨G, e⟩

/-- C352 fails for one width: `IndexError`. -/
theorem C352_single_violated (hp : Profile.Valid p) {dx : Rat} (hreg : Regular p.x dx) (hn : 2 ≤ p.x.length) {v : Rat} (hv : some v ∈ p.y) (w : Rat) :
    wavelet cwt p (some [w]) = .error .indexError := by
  match hx : p.x, hn with
  | a :: b :: r, _ =>
    have hd : b - a = dx := hreg 0 a b (by rw [hx]; rfl) (by rw [hx]; rfl)
    obtain ⟨q, e, _⟩ := Trace.fill_seen hp hv
    have hun : uneven p.x (b - a) = false := by
      rw [Bool.eq_false_iff]
      intro hc
      obtain ⟨i, c, d, h1, h2, h3⟩ := (uneven_iff _ _).mp hc
      have := hreg i c d h1 h2
      linarith
    unfold wavelet
    rw [hx] at hun ⊢
    simp only [hun, e]
    simp [SF.importArrays]

/-! ### examples -/

/-- A regular profile with a masked point, and an irregular one. -/
def wavy : Prof := ⟨[0, 1 / 2, 1, 3 / 2], [some 1, none, some 3, some (-4)], [false, true, false, false], Sym.s, Sym.m⟩

def tight : Prof := { wavy with x := [0, 1 / 2, 3 / 4, 1] }

/-- A transform for the examples. -/
def toy : List Rat → Rat → List Rat := fun vs w => vs.map fun v => v * w

example : Profile.Valid wavy ∧ Inc wavy.x ∧ some 1 ∈ wavy.y := ⟨⟨rfl, by decide +kernel, by decide +kernel⟩, by decide +kernel, by decide +kernel⟩

theorem wavy_regular : Regular wavy.x (1 / 2) := by
  intro i a b h1 h2
  have hi : i < 3 := by
    have := getElem?_some_lt h2
    simp only [wavy, List.length_cons, List.length_nil] at this
    omega
  interval_cases i <;> cases h1 <;> cases h2 <;> norm_num

example : ((wavelet toy wavy (some [1, 2])).toOption.map fun G => [G.cell 0 0, G.cell 1 0, G.cell 2 1, G.cell 3 1]) =
    some [some 1, none, some 10, some (-18)] := by
  decide +kernel

example : ((wavelet toy tight (some [1, 2])).toOption.map fun G => G.ax) = some [0, 1 / 2, 3 / 4, 1] := by decide +kernel

example : (wavelet toy { wavy with x := [0, 1 / 2, 2, 3] } none).toOption.isNone := by decide +kernel

end IMT.Wave
