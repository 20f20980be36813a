import Verif.Bl.Thick
import Verif.Profile.Interp
import Verif.Profile.Arith
import Mathlib.Data.List.GetD

/-!
C175: shear stress of a measured profile.
-/

namespace IMT.Meas

open IMT.Profile

variable {srt : List Rat → List Nat}

/-! ### Specification -/

/-- Slope of the chord between the points of indices `j` and `k`; `none` when one of them is masked. -/
def chord (l : List (Rat × F)) (j k : Nat) : F :=
  match l[j]?, l[k]? with
  | some (x, some a), some (x', some b) => some ((b - a) / (x' - x))
  | _, _ => none

/-- Neighbours at the distance `h`. -/
def Spaced (h : Rat) (x : List Rat) : Prop := ∀ i a b, x[i]? = some a → x[i + 1]? = some b → b - a = h

/-! ### Lemmas -/

theorem Spaced.from_first {h : Rat} {x : List Rat} (hx : Spaced h x) {a : Rat} (h0 : x[0]? = some a) {i : Nat} {b : Rat}
    (hi : x[i]? = some b) : b = a + i * h := by
  induction i generalizing b with
  | zero =>
    rw [h0] at hi
    simp only [Option.some.injEq] at hi
    simp [hi]
  | succ i ih =>
    have hlt : i < x.length := by
      have := (List.getElem?_eq_some_iff.mp hi).1
      omega
    have e := ih (List.getElem?_eq_getElem hlt)
    have := hx i _ _ (List.getElem?_eq_getElem hlt) hi
    push_cast
    linarith

theorem zipWith_tail (x : List Rat) : ∀ d ∈ List.zipWith (fun a b => b - a) x x.tail,
    ∃ (i : Nat) (a b : Rat), x[i]? = some a ∧ x[i + 1]? = some b ∧ d = b - a := by
  intro d hd
  obtain ⟨i, hi, e⟩ := List.mem_iff_getElem.mp hd
  rw [List.length_zipWith, List.length_tail] at hi
  rw [List.getElem_zipWith, List.getElem_tail] at e
  exact ⟨i, _, _, List.getElem?_eq_getElem (by omega), List.getElem?_eq_getElem (by omega), e.symm⟩

theorem mem_zipWith_tail {x : List Rat} {i : Nat} {a b : Rat} (ha : x[i]? = some a) (hb : x[i + 1]? = some b) :
    b - a ∈ List.zipWith (fun a b => b - a) x x.tail := by
  obtain ⟨h1, e1⟩ := List.getElem?_eq_some_iff.mp ha
  obtain ⟨h2, e2⟩ := List.getElem?_eq_some_iff.mp hb
  rw [List.mem_iff_getElem]
  refine ⟨i, by rw [List.length_zipWith, List.length_tail]; omega, ?_⟩
  rw [List.getElem_zipWith, List.getElem_tail, e1, e2]

theorem max_spec {l : List Rat} {a : Rat} (ha : a ∈ l) : ∃ m, l.max? = some m ∧ m ∈ l ∧ ∀ b ∈ l, b ≤ m := by
  cases e : l.max? with
  | none =>
    rw [List.max?_eq_none_iff] at e
    rw [e] at ha
    simp at ha
  | some m =>
    have := List.max?_eq_some_iff.mp e
    exact ⟨m, rfl, this.1, this.2⟩

theorem first_two {x : List Rat} (hn : 2 ≤ x.length) : ∃ a b, x[0]? = some a ∧ x[1]? = some b ∧ x.getD 1 0 - x.getD 0 0 = b - a := by
  refine ⟨x[0], x[1], List.getElem?_eq_getElem (by omega), List.getElem?_eq_getElem (by omega), ?_⟩
  rw [List.getD_eq_getElem _ _ (by omega), List.getD_eq_getElem _ _ (by omega)]

theorem evenly_spaced {h : Rat} (hh : 0 < h) {x : List Rat} (hn : 2 ≤ x.length) (hx : Spaced h x) : evenly x = true := by
  obtain ⟨a, b, h0, h1, e⟩ := first_two hn
  unfold evenly
  rw [List.all_eq_true]
  intro d hd
  obtain ⟨m, hm, hm', hle⟩ := max_spec hd
  obtain ⟨i, u, v, hu, hv, rfl⟩ := zipWith_tail x d hd
  obtain ⟨j, u', v', hu', hv', e'⟩ := zipWith_tail x m hm'
  have d1 := hx i u v hu hv
  have d2 := hx j u' v' hu' hv'
  have d3 := hx 0 a b h0 h1
  rw [hm, decide_eq_true_eq, e, d1, d3, sub_self, abs_zero, Option.getD_some, e', d2]
  positivity

theorem mulNum_inc (hs : IsArgsort srt) {p : Prof} (hp : Valid p) (hx : Inc p.x) (c : Rat) :
    mulNum srt p c = .ok ⟨p.x, p.y.map (Option.map (· * c)), (p.y.map (Option.map (· * c))).map Option.isNone, p.ux, p.uy⟩ := by
  unfold mulNum
  rw [getY_valid hp, new_flag _ _ _ (by simp [hp.1]), build_inc hs _ _ hx (by simp [hp.1]) (by simp)]
  have : blank (p.y.map (Option.map (· * c))) (List.replicate p.x.length false) = p.y.map (Option.map (· * c)) := by
    rw [← hp.1, ← List.length_map (f := Option.map (· * c)) (as := p.y), blank_false]
  rw [this]

theorem getElem_pts {p : Prof} (hp : Valid p) {i : Nat} {r : Rat × F} : (pts p)[i]? = some r ↔ p.x[i]? = some r.1 ∧ p.y[i]? = some r.2 := by
  rw [pts_valid hp]
  rw [List.getElem?_zip_eq_some]

theorem gradAt_chord {p : Prof} (hp : Valid p) {h : Rat} (hh : 0 < h) (hn : 2 ≤ p.x.length) (hsp : Spaced h p.x) {i : Nat}
    (hi : i < p.x.length) : gradAt (getY p) (p.x.getD 1 0 - p.x.getD 0 0) i = chord (pts p) (i - 1) (min (i + 1) (p.x.length - 1)) := by
  obtain ⟨a, b, h0, h1, e⟩ := first_two hn
  rw [e, hsp 0 a b h0 h1, getY_valid hp]
  have key : ∀ j k, j < p.x.length → k < p.x.length → j < k →
      chord (pts p) j k = (p.y.getD k none).bind fun v => (p.y.getD j none).map fun u => (v - u) / ((k - j : Rat) * h) := by
    intro j k hj hk hjk
    have ej : (pts p)[j]? = some (p.x[j], p.y[j]'(by rw [hp.1]; exact hj)) :=
      (getElem_pts hp).mpr ⟨List.getElem?_eq_getElem hj, List.getElem?_eq_getElem _⟩
    have ek : (pts p)[k]? = some (p.x[k], p.y[k]'(by rw [hp.1]; exact hk)) :=
      (getElem_pts hp).mpr ⟨List.getElem?_eq_getElem hk, List.getElem?_eq_getElem _⟩
    have dj := hsp.from_first h0 (List.getElem?_eq_getElem hj)
    have dk := hsp.from_first h0 (List.getElem?_eq_getElem hk)
    rw [List.getD_eq_getElem _ _ (by rw [hp.1]; exact hk), List.getD_eq_getElem _ _ (by rw [hp.1]; exact hj)]
    unfold chord
    rw [ej, ek]
    generalize p.y[j]'(by rw [hp.1]; exact hj) = u
    generalize p.y[k]'(by rw [hp.1]; exact hk) = v
    cases u <;> cases v <;> try rfl
    simp only [Option.bind_some, Option.map_some, Option.some.injEq]
    rw [dj, dk]
    congr 1
    ring
  unfold gradAt
  by_cases hi0 : i = 0
  · subst hi0
    rw [if_pos rfl, key (0 - 1) (min (0 + 1) (p.x.length - 1)) (by omega) (by omega) (by omega)]
    have : min (0 + 1) (p.x.length - 1) = 1 := by omega
    rw [this]
    simp
  · rw [if_neg hi0]
    by_cases hl : i + 1 = p.y.length
    · rw [if_pos hl, key (i - 1) (min (i + 1) (p.x.length - 1)) (by omega) (by omega) (by omega)]
      have : min (i + 1) (p.x.length - 1) = i := by have := hp.1; omega
      rw [this]
      have : ((i : Rat) - ((i - 1 : Nat) : Rat)) = 1 := by
        rw [Nat.cast_sub (by omega)]
        push_cast
        ring
      rw [this, one_mul]
    · have hlt : i + 1 < p.x.length := by have := hp.1; omega
      rw [if_neg hl, key (i - 1) (min (i + 1) (p.x.length - 1)) (by omega) (by omega) (by omega)]
      have : min (i + 1) (p.x.length - 1) = i + 1 := by omega
      rw [this]
      have : (((i + 1 : Nat) : Rat) - ((i - 1 : Nat) : Rat)) = 2 := by
        rw [Nat.cast_sub (by omega)]
        push_cast
        ring
      rw [this]

theorem gradient_ok {p : Prof} (hp : Valid p) {h : Rat} (hh : 0 < h) (hn : 2 ≤ p.x.length) (hsp : Spaced h p.x) :
    gradient p = .ok ⟨p.x, (List.range p.x.length).map fun i => chord (pts p) (i - 1) (min (i + 1) (p.x.length - 1)),
      ((List.range p.x.length).map fun i => chord (pts p) (i - 1) (min (i + 1) (p.x.length - 1))).map Option.isNone, p.ux,
      p.uy.div p.ux⟩ := by
  unfold gradient
  rw [if_neg (by omega), if_neg (by rw [evenly_spaced hh hn hsp]; simp)]
  have : (List.range p.x.length).map (gradAt (getY p) (p.x.getD 1 0 - p.x.getD 0 0)) =
      (List.range p.x.length).map fun i => chord (pts p) (i - 1) (min (i + 1) (p.x.length - 1)) := by
    apply List.map_congr_left
    intro i hi
    exact gradAt_chord hp hh hn hsp (List.mem_range.mp hi)
  rw [this]
  rfl

/-! ### C175 -/

/-- C175: on evenly spaced points the stress is, at each point, `nu rho` times the slope of the chord between its two neighbours
(between the point and its neighbour at the ends), in the unit of velocity over length times `m^2/s kg/m^3`. -/
theorem C175_simple (hs : IsArgsort srt) {p : Prof} (hp : Valid p) (hx : Inc p.x) {h : Rat} (hn : 2 ≤ p.x.length)
    (hsp : Spaced h p.x) {direction : Int} (hd : direction = 1 ∨ direction = 2) (rho : Rat) {nu : Rat} (hnu : 0 < nu) :
    ∃ q, shearStress srt p direction .simple rho nu = .ok q ∧ Valid q ∧ q.ux = p.ux ∧
      q.uy = ((p.uy.div p.ux).mul ⟨2, -1, 0, 1⟩).mul ⟨-3, 0, 1, 1⟩ ∧ (pts q).length = (pts p).length ∧
      ∀ i r, (pts p)[i]? = some r →
        (pts q)[i]? = some (r.1, (chord (pts p) (i - 1) (min (i + 1) ((pts p).length - 1))).map (· * (nu * rho))) := by
  have hh : 0 < h := by
    obtain ⟨a, b, h0, h1, _⟩ := first_two hn
    rw [← hsp 0 a b h0 h1]
    obtain ⟨l0, e0⟩ := List.getElem?_eq_some_iff.mp h0
    obtain ⟨l1, e1⟩ := List.getElem?_eq_some_iff.mp h1
    have := List.pairwise_iff_getElem.mp hx 0 1 l0 l1 (by omega)
    rw [e0, e1] at this
    linarith
  have hlen : (pts p).length = p.x.length := by rw [← pts_fst hp, List.length_map]
  unfold shearStress
  rw [if_neg (by linarith), if_neg (by rintro ⟨a, b⟩; rcases hd with hd | hd; exact a hd; exact b hd)]
  simp only
  rw [gradient_ok hp hh hn hsp, hlen]
  generalize hg : (List.range p.x.length).map (fun i => chord (pts p) (i - 1) (min (i + 1) (p.x.length - 1))) = g
  have hgl : g.length = p.x.length := by rw [← hg]; simp
  simp only
  have v1 : Valid ⟨p.x, g, g.map Option.isNone, p.ux, p.uy.div p.ux⟩ := ⟨hgl, rfl, hp.2.2⟩
  rw [mulNum_inc hs v1 hx]
  simp only
  have v2 : Valid ⟨p.x, g.map (Option.map (· * nu)), (g.map (Option.map (· * nu))).map Option.isNone, p.ux, p.uy.div p.ux⟩ :=
    ⟨by simp [hgl], rfl, hp.2.2⟩
  rw [mulNum_inc hs v2 hx]
  simp only
  have v3 : Valid ⟨p.x, (g.map (Option.map (· * nu))).map (Option.map (· * rho)),
      ((g.map (Option.map (· * nu))).map (Option.map (· * rho))).map Option.isNone, p.ux, (p.uy.div p.ux).mul viscUnit⟩ :=
    ⟨by simp [hgl], rfl, hp.2.2⟩
  refine ⟨_, rfl, v3, rfl, ?_, ?_, ?_⟩
  · show (p.uy.div p.ux).mul viscUnit = _
    unfold viscUnit Sym.mul
    simp only [Sym.mk.injEq, mul_one, and_true]
    refine ⟨by ring, by ring, by ring⟩
  · rw [pts_valid v3]
    simp [hgl]
  · intro i r hr
    rw [getElem_pts v3]
    obtain ⟨e1, e2⟩ := (getElem_pts hp).mp hr
    refine ⟨e1, ?_⟩
    have hi : i < p.x.length := (List.getElem?_eq_some_iff.mp e1).1
    have eg : g[i]? = some (chord (pts p) (i - 1) (min (i + 1) (p.x.length - 1))) := by
      rw [← hg]
      simp [hi]
    simp only [List.getElem?_map, eg, Option.map_some, Option.some.injEq, Option.map_map]
    congr 1
    funext c
    simp [mul_assoc]

/-- C175: for a velocity that is affine along evenly spaced points, the stress is exactly `nu rho` times its slope, everywhere. -/
theorem C175_affine (hs : IsArgsort srt) {p : Prof} (hp : Valid p) (hx : Inc p.x) {h : Rat} (hn : 2 ≤ p.x.length)
    (hsp : Spaced h p.x) {direction : Int} (hd : direction = 1 ∨ direction = 2) (rho : Rat) {nu : Rat} (hnu : 0 < nu) {a b : Rat}
    (ha : ∀ r ∈ pts p, r.2 = some (a * r.1 + b)) :
    ∃ q, shearStress srt p direction .simple rho nu = .ok q ∧ pts q = (pts p).map fun r => (r.1, some (a * (nu * rho))) := by
  obtain ⟨q, e1, _, _, _, e5, e6⟩ := C175_simple hs hp hx hn hsp hd rho hnu
  refine ⟨q, e1, ?_⟩
  apply List.ext_getElem?
  intro i
  rw [List.getElem?_map]
  cases er : (pts p)[i]? with
  | none =>
    rw [List.getElem?_eq_none_iff] at er
    rw [Option.map_none, List.getElem?_eq_none_iff]
    omega
  | some r =>
    rw [e6 i r er, Option.map_some]
    congr 2
    have hi : i < (pts p).length := (List.getElem?_eq_some_iff.mp er).1
    have hlen : (pts p).length = p.x.length := by rw [← pts_fst hp, List.length_map]
    have hj : i - 1 < (pts p).length := by omega
    have hk : min (i + 1) ((pts p).length - 1) < (pts p).length := by omega
    have hjk : i - 1 < min (i + 1) ((pts p).length - 1) := by omega
    have vj := ha _ (List.getElem_mem hj)
    have vk := ha _ (List.getElem_mem hk)
    have hlt := List.pairwise_iff_getElem.mp (pts_inc hp hx) _ _ hj hk hjk
    unfold chord
    rw [List.getElem?_eq_getElem hj, List.getElem?_eq_getElem hk]
    generalize (pts p)[i - 1] = r1 at vj hlt
    generalize (pts p)[min (i + 1) ((pts p).length - 1)] = r2 at vk hlt
    obtain ⟨x1, w1⟩ := r1
    obtain ⟨x2, w2⟩ := r2
    simp only at vj vk hlt
    subst vj vk
    simp only [Option.map_some, Option.some.injEq]
    have : x2 - x1 ≠ 0 := by linarith
    field_simp
    ring

/-- C175: with velocities in m/s and lengths in m, the stress is in Pa. -/
theorem C175_pascal (hs : IsArgsort srt) {p : Prof} (hp : Valid p) (hx : Inc p.x) {h : Rat} (hn : 2 ≤ p.x.length)
    (hsp : Spaced h p.x) (rho : Rat) {nu : Rat} (hnu : 0 < nu) (h1 : p.ux = ⟨1, 0, 0, 1⟩) (h2 : p.uy = ⟨1, -1, 0, 1⟩) :
    ∃ q, shearStress srt p 1 .simple rho nu = .ok q ∧ q.uy = ⟨-1, -2, 1, 1⟩ := by
  obtain ⟨q, e1, _, _, e4, _⟩ := C175_simple hs hp hx hn hsp (Or.inl rfl) rho hnu
  refine ⟨q, e1, ?_⟩
  rw [e4, h1, h2]
  decide +kernel

/-- C175 fails: a masked point between two shown ones has a stress that is shown. -/
theorem C175_masked_violated (hs : IsArgsort srt) {p : Prof} (hp : Valid p) (hx : Inc p.x) {h : Rat} (hsp : Spaced h p.x)
    {A B : List (Rat × F)} {x1 v1 x x2 v2 : Rat} (hl : pts p = A ++ (x1, some v1) :: (x, none) :: (x2, some v2) :: B) (rho : Rat)
    {nu : Rat} (hnu : 0 < nu) :
    ∃ q, shearStress srt p 1 .simple rho nu = .ok q ∧ (x, some ((v2 - v1) / (x2 - x1) * (nu * rho))) ∈ pts q := by
  have hlen : (pts p).length = p.x.length := by rw [← pts_fst hp, List.length_map]
  have hln : (pts p).length = A.length + (B.length + 3) := by
    rw [hl]
    simp
  obtain ⟨q, e1, _, _, _, _, e6⟩ := C175_simple hs hp hx (by omega) hsp (Or.inl rfl) rho hnu
  refine ⟨q, e1, ?_⟩
  have g0 : (pts p)[A.length]? = some (x1, some v1) := by
    rw [hl]
    simp
  have g1 : (pts p)[A.length + 1]? = some (x, none) := by
    rw [hl, List.getElem?_append_right (by omega)]
    simp
  have g2 : (pts p)[A.length + 2]? = some (x2, some v2) := by
    rw [hl, List.getElem?_append_right (by omega)]
    simp
  have := e6 (A.length + 1) _ g1
  have m : min (A.length + 1 + 1) ((pts p).length - 1) = A.length + 2 := by omega
  rw [m, Nat.add_sub_cancel] at this
  unfold chord at this
  rw [g0, g2] at this
  exact List.mem_of_getElem? this

/-- C175: points that are not evenly spaced are refused, as soon as one interval differs from the first one by a millionth of the
largest. -/
theorem C175_uneven (p : Prof) {direction : Int} (hd : direction = 1 ∨ direction = 2) (rho : Rat) {nu : Rat} (hnu : 0 < nu)
    {x0 x1 : Rat} (h0 : p.x[0]? = some x0) (h1 : p.x[1]? = some x1) {i : Nat} {a b c d : Rat} {j : Nat} (ha : p.x[i]? = some a)
    (hb : p.x[i + 1]? = some b) (hc : p.x[j]? = some c) (hd' : p.x[j + 1]? = some d)
    (hmax : ∀ (k : Nat) (u v : Rat), p.x[k]? = some u → p.x[k + 1]? = some v → v - u ≤ d - c)
    (hu : 1 / 1000000 * (d - c) ≤ |b - a - (x1 - x0)|) : shearStress srt p direction .simple rho nu = .error .exception := by
  obtain ⟨l1, e1⟩ := List.getElem?_eq_some_iff.mp h1
  have hev : evenly p.x = false := by
    obtain ⟨a', b', h0', h1', e⟩ := first_two (x := p.x) (by omega)
    rw [h0] at h0'
    rw [h1] at h1'
    simp only [Option.some.injEq] at h0' h1'
    subst h0' h1'
    rw [Bool.eq_false_iff]
    intro hc'
    unfold evenly at hc'
    rw [List.all_eq_true] at hc'
    have := hc' _ (mem_zipWith_tail ha hb)
    obtain ⟨m, hm, hm', hle⟩ := max_spec (mem_zipWith_tail ha hb)
    rw [decide_eq_true_eq, e, hm, Option.getD_some] at this
    have hle' := hle _ (mem_zipWith_tail hc hd')
    obtain ⟨k, u, v, hu', hv', em⟩ := zipWith_tail _ _ hm'
    have := hmax k u v hu' hv'
    have : m = d - c := by linarith
    rw [this] at *
    linarith
  unfold shearStress
  rw [if_neg (by linarith), if_neg (by rintro ⟨a, b⟩; rcases hd with hd | hd; exact a hd; exact b hd)]
  simp only [gradient]
  rw [if_neg (by omega), if_pos hev]

/-- C175: with the linear law of the wall, the points off the wall get `nu rho u / x`, masked points stay masked, in the same
unit: exact for a velocity proportional to the distance, whatever the spacing. -/
theorem C175_lin (hs : IsArgsort srt) {p : Prof} (hp : Valid p) (hx : Inc p.x) {direction : Int}
    (hd : direction = 1 ∨ direction = 2) (rho : Rat) {nu : Rat} (hnu : 0 < nu) :
    ∃ q, shearStress srt p direction .lin rho nu = .ok q ∧ Valid q ∧ q.ux = p.ux ∧
      q.uy = ((p.uy.div p.ux).mul ⟨2, -1, 0, 1⟩).mul ⟨-3, 0, 1, 1⟩ ∧
      pts q = ((pts p).filter fun r => 0 < r.1).map fun r => (r.1, r.2.map fun v => v / r.1 * nu * rho) := by
  have self : ∀ l : List (Rat × F), sel l (l.map fun r => decide (0 < r.1)) = l.filter fun r => 0 < r.1 := by
    intro l
    induction l with
    | nil => rfl
    | cons r l ih => rw [List.map_cons, sel_cons, ih, List.filter_cons]
  have e0 : p.x.map (fun x => decide (0 < x)) = (pts p).map fun r => decide (0 < r.1) := by
    rw [← pts_fst hp, List.map_map]
    rfl
  have em : p.m = (pts p).map fun r => r.2.isNone := by
    rw [hp.2.1, pts_valid hp]
    conv_lhs => rw [← List.map_snd_zip (l₁ := p.x) (l₂ := p.y) (by rw [hp.1])]
    rw [List.map_map]
    rfl
  have ex : p.x = (pts p).map Prod.fst := (pts_fst hp).symm
  have e1 : sel p.x (p.x.map fun x => decide (0 < x)) = ((pts p).filter fun r => 0 < r.1).map Prod.fst := by
    rw [e0]
    conv_lhs => rw [ex]
    rw [← sel_map, self]
  have e2 : sel p.m (p.x.map fun x => decide (0 < x)) = ((pts p).filter fun r => 0 < r.1).map fun r => r.2.isNone := by
    rw [e0]
    conv_lhs => rw [em]
    rw [← sel_map, self]
  unfold shearStress
  rw [if_neg (by linarith), if_neg (by rintro ⟨a, b⟩; rcases hd with hd | hd; exact a hd; exact b hd)]
  simp only
  rw [e1, e2, e0, self]
  generalize hS : (pts p).filter (fun r => decide (0 < r.1)) = S
  have hinc : Inc (S.map Prod.fst) := by
    unfold Inc
    rw [List.pairwise_map, ← hS]
    exact (pts_inc hp hx).filter _
  rw [new_arr _ _ (by simp) (by simp), build_inc hs _ _ hinc (by simp) (by simp)]
  have hb : blank (S.map fun r => r.2.map fun v => v / r.1 * nu * rho) (S.map fun r => r.2.isNone) =
      S.map fun r => r.2.map fun v => v / r.1 * nu * rho := by
    generalize S = l
    induction l with
    | nil => rfl
    | cons r l ih =>
      unfold blank at ih ⊢
      rw [List.map_cons, List.map_cons, List.zipWith_cons_cons, ih]
      cases r.2 <;> rfl
  rw [hb]
  have hv : Valid ⟨S.map Prod.fst, S.map fun r => r.2.map fun v => v / r.1 * nu * rho,
      (S.map fun r => r.2.map fun v => v / r.1 * nu * rho).map Option.isNone, p.ux, (p.uy.div p.ux).mul viscUnit⟩ :=
    ⟨by simp, rfl, hinc.imp fun h => le_of_lt h⟩
  refine ⟨_, rfl, hv, rfl, ?_, ?_⟩
  · show (p.uy.div p.ux).mul viscUnit = _
    unfold viscUnit Sym.mul
    simp only [Sym.mk.injEq, mul_one, and_true]
    refine ⟨by ring, by ring, by ring⟩
  · rw [pts_valid hv]
    generalize S = l
    induction l with
    | nil => rfl
    | cons r l ih =>
      simp only [List.map_cons, List.zip_cons_cons] at ih ⊢
      rw [ih]

/-- C175: a viscosity that is not positive, a direction that is neither 1 nor 2 and unknown methods are refused. -/
theorem C175_refused (p : Prof) (direction : Int) (k : Method) (rho nu : Rat)
    (h : nu ≤ 0 ∨ (direction ≠ 1 ∧ direction ≠ 2) ∨ k = .other) : shearStress srt p direction k rho nu = .error .valueError := by
  unfold shearStress
  by_cases h1 : nu ≤ 0
  · rw [if_pos h1]
  · rw [if_neg h1]
    by_cases h2 : direction ≠ 1 ∧ direction ≠ 2
    · rw [if_pos h2]
    · rw [if_neg h2]
      have h3 : k = .other := by
        rcases h with h | h | h
        · exact absurd h h1
        · exact absurd h h2
        · exact h
      rw [h3]

/-- Three points 1 mm apart, the middle one masked: it gets a stress. -/
example : (shearStress argsort ⟨[0, 1, 2], [some 0, none, some 6], [false, true, false], Sym.mm, ⟨1, -1, 0, 1⟩⟩ 1 .simple 1000 (1 / 1000000)).toOption.map pts
      = some [(0, none), (1, some (3 / 1000)), (2, none)] ∧
    (shearStress argsort ⟨[0, 1, 2], [some 0, some 3, some 6], [false, false, false], Sym.mm, ⟨1, -1, 0, 1⟩⟩ 2 .lin 1000 (1 / 1000000)).toOption.map pts
      = some [(1, some (3 / 1000)), (2, some (3 / 1000))] := by decide +kernel

example : Spaced 1 [0, 1, 2] := by
  intro i a b ha hb
  rcases i with _ | _ | i
  · simp at ha hb; rw [← ha, ← hb]; norm_num
  · simp at ha hb; rw [← ha, ← hb]; norm_num
  · simp at hb

end IMT.Meas
