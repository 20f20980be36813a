import Verif.Probe.Model
import Verif.Mirror.Vec
import Verif.Line.Section

/-! C272: values and profiles of a vector field. -/

namespace IMT.Probe

open Profile (Prof F IsArgsort pts)

/-! ### specification -/

/-- `π` is the component of vectors named by `c`. -/
def Names (c : Comp) (π : Rat × Rat → Rat) : Prop := (c = .vx ∧ π = Prod.fst) ∨ (c = .vy ∧ π = Prod.snd)

/-- The coordinates along the direction in which a position is chosen. -/
def along (f : VF) : Line.Dir → List Rat
  | .x => f.ax
  | .y => f.ay

/-- The coordinates along the other direction. -/
def across (f : VF) : Line.Dir → List Rat
  | .x => f.ay
  | .y => f.ax

/-- The field shows the vector `w` at the position `v` along the chosen direction and `q` along the other one. -/
def Shows (f : VF) (d : Line.Dir) (v q : Rat) (w : Option (Rat × Rat)) : Prop :=
  match d with
  | .x => f.Reads v q w
  | .y => f.Reads q v w

/-- The profile `p` has one point for each coordinate `q` of the other direction, in its unit; it shows the `r` such that `R q r`, in the
unit of the vectors; the points are in order and the masked ones are those without value. -/
structure Cut (f : VF) (d : Line.Dir) (p : Prof) (R : Rat → Option Rat → Prop) : Prop where
  x : p.x = across f d
  ux : (d = .x → p.ux = f.uy) ∧ (d = .y → p.ux = f.ux)
  uy : p.uy = f.uv
  ok : Profile.Valid p
  shows : ∀ q r, (q, r) ∈ pts p ↔ q ∈ across f d ∧ R q r

/-! ### lemmas -/

theorem comps {f : VF} (hf : f.WF) (hx : 2 ≤ f.ax.length) (hy : 2 ≤ f.ay.length) :
    ∃ sx sy, Mirror.compX f = .ok sx ∧ Mirror.compY f = .ok sy ∧ Mirror.IsComp sx f Prod.fst ∧ Mirror.IsComp sy f Prod.snd := by
  have hd : ∀ v, ∃ s, SF.importArrays f.ax f.ay v (.array f.mask) f.ux f.uy f.uv = .ok s := by
    intro v
    unfold SF.importArrays
    have hl : ¬ (f.ay.length < 2 ∨ f.ax.length < 2) := by omega
    simp only [if_neg hl]
    exact ⟨_, rfl⟩
  obtain ⟨sx, ex⟩ := hd f.cx
  obtain ⟨sy, ey⟩ := hd f.cy
  exact ⟨sx, sy, ex, ey, Mirror.compX_ok hf ex, Mirror.compY_ok hf ey⟩

theorem asked_ok {f : VF} (hf : f.WF) (hx : 2 ≤ f.ax.length) (hy : 2 ≤ f.ay.length) {c : Comp} {π : Rat × Rat → Rat} (hc : Names c π) :
    ∃ s, asked f c = .ok s ∧ Mirror.IsComp s f π := by
  obtain ⟨sx, sy, ex, ey, cx, cy⟩ := comps hf hx hy
  rcases hc with ⟨rfl, rfl⟩ | ⟨rfl, rfl⟩
  · exact ⟨sx, ex, cx⟩
  · exact ⟨sy, ey, cy⟩

theorem value_eq {f : VF} {sx sy : SF} (ex : Mirror.compX f = .ok sx) (ey : Mirror.compY f = .ok sy) {main : Bool} {x y : Rat} {u v : Option Rat}
    (hu : sx.getValue main x y = .ok u) (hv : sy.getValue main x y = .ok v) : value main f x y = .ok (u, v) := by
  simp only [value, ex, ey, hu, hv]

theorem axe_comp {s : SF} {f : VF} {π : Rat × Rat → Rat} (h : Mirror.IsComp s f π) (d : Line.Dir) : Line.axe s d = along f d := by
  cases d
  · exact h.ax
  · exact h.ay

theorem other_comp {s : SF} {f : VF} {π : Rat × Rat → Rat} (h : Mirror.IsComp s f π) (d : Line.Dir) : Line.other s d = across f d := by
  cases d
  · exact h.ay
  · exact h.ax

theorem sees_comp {s : SF} {f : VF} {π : Rat × Rat → Rat} (h : Mirror.IsComp s f π) (d : Line.Dir) (v q : Rat) (r : Option Rat) :
    Line.Sees s d v q r ↔ ∃ w, Shows f d v q w ∧ r = w.map π := by
  cases d
  · exact h.reads v q r
  · exact h.reads q v r

theorem sees_some {s : SF} {f : VF} {π : Rat × Rat → Rat} (h : Mirror.IsComp s f π) (d : Line.Dir) (v q a : Rat) :
    Line.Sees s d v q (some a) ↔ ∃ w, Shows f d v q (some w) ∧ a = π w := by
  rw [sees_comp h]
  constructor
  · rintro ⟨w, h1, h2⟩
    cases w with
    | none => simp at h2
    | some w => exact ⟨w, h1, by simpa using h2⟩
  · rintro ⟨w, h1, rfl⟩; exact ⟨_, h1, rfl⟩

theorem sees_none {s : SF} {f : VF} {π : Rat × Rat → Rat} (h : Mirror.IsComp s f π) (d : Line.Dir) (v q : Rat) :
    Line.Sees s d v q none ↔ Shows f d v q none := by
  rw [sees_comp h]
  constructor
  · rintro ⟨w, h1, h2⟩
    cases w with
    | none => exact h1
    | some w => simp at h2
  · intro h1; exact ⟨_, h1, rfl⟩

theorem cut_of_along {s : SF} {f : VF} {π : Rat × Rat → Rat} (h : Mirror.IsComp s f π) {d : Line.Dir} {p : Prof} {R S : Rat → Option Rat → Prop}
    (hp : Line.Along s d p R) (hRS : ∀ q r, R q r ↔ S q r) : Cut f d p S := by
  refine ⟨hp.x.trans (other_comp h d), ⟨fun e => (hp.ux.1 e).trans h.uy, fun e => (hp.ux.2 e).trans h.ux⟩, hp.uy.trans h.uv, hp.ok, fun q r => ?_⟩
  rw [hp.shows, other_comp h d, hRS]

/-! ### C272 -/

/-- **C272** At a grid point: the components of the vector shown there, no number where the point is masked. -/
theorem C272_node (main : Bool) {f : VF} (hf : f.WF) (hx : 2 ≤ f.ax.length) (hy : 2 ≤ f.ay.length) {x y : Rat} :
    (∀ u v, f.Reads x y (some (u, v)) → value main f x y = .ok (some u, some v)) ∧ (f.Reads x y none → value main f x y = .ok (none, none)) := by
  obtain ⟨sx, sy, ex, ey, cx, cy⟩ := comps hf hx hy
  refine ⟨fun u v h => ?_, fun h => ?_⟩
  · exact value_eq ex ey (SF.C23_node main cx.wf ((cx.reads ..).2 ⟨_, h, rfl⟩)) (SF.C23_node main cy.wf ((cy.reads ..).2 ⟨_, h, rfl⟩))
  · exact value_eq ex ey (SF.C23_node main cx.wf ((cx.reads ..).2 ⟨_, h, rfl⟩)) (SF.C23_node main cy.wf ((cy.reads ..).2 ⟨_, h, rfl⟩))

/-- **C272** Between two neighbouring grid points of a line of constant `x`: the vector interpolated linearly, whatever the values elsewhere. -/
theorem C272_edge_y (main : Bool) {f : VF} (hf : f.WF) (hx : 2 ≤ f.ax.length) (hy : 2 ≤ f.ay.length) {j : Nat} {x y y1 y2 : Rat} {a b : Rat × Rat}
    (hy1 : f.ay[j]? = some y1) (hy2 : f.ay[j + 1]? = some y2) (h1 : y1 < y) (h2 : y < y2) (ha : f.Reads x y1 (some a)) (hb : f.Reads x y2 (some b)) :
    value main f x y = .ok (some (a.1 + (y - y1) / (y2 - y1) * (b.1 - a.1)), some (a.2 + (y - y1) / (y2 - y1) * (b.2 - a.2))) := by
  obtain ⟨sx, sy, ex, ey, cx, cy⟩ := comps hf hx hy
  obtain ⟨i, k, hi, hk, e1⟩ := ha
  obtain ⟨i', k', hi', hk', e2⟩ := hb
  obtain rfl := hf.incx.idx_inj' hi' hi
  obtain rfl := hf.incy.idx_inj' hk hy1
  obtain rfl := hf.incy.idx_inj' hk' hy2
  have li := getElem?_some_lt hi
  have l1 := getElem?_some_lt hy1
  have l2 := getElem?_some_lt hy2
  refine value_eq ex ey ?_ ?_
  · rw [SF.C23_edge_y main cx.wf (by rw [cx.ax]; exact hi) (by rw [cx.ay]; exact hy1) (by rw [cx.ay]; exact hy2) h1 h2, cx.cell _ _ li l1, cx.cell _ _ li l2, e1, e2]
    rfl
  · rw [SF.C23_edge_y main cy.wf (by rw [cy.ax]; exact hi) (by rw [cy.ay]; exact hy1) (by rw [cy.ay]; exact hy2) h1 h2, cy.cell _ _ li l1, cy.cell _ _ li l2, e1, e2]
    rfl

/-- **C272** Likewise on a line of constant `y`. -/
theorem C272_edge_x (main : Bool) {f : VF} (hf : f.WF) (hx : 2 ≤ f.ax.length) (hy : 2 ≤ f.ay.length) {i : Nat} {x y x1 x2 : Rat} {a b : Rat × Rat}
    (hx1 : f.ax[i]? = some x1) (hx2 : f.ax[i + 1]? = some x2) (h1 : x1 < x) (h2 : x < x2) (ha : f.Reads x1 y (some a)) (hb : f.Reads x2 y (some b)) :
    value main f x y = .ok (some (a.1 + (x - x1) / (x2 - x1) * (b.1 - a.1)), some (a.2 + (x - x1) / (x2 - x1) * (b.2 - a.2))) := by
  obtain ⟨sx, sy, ex, ey, cx, cy⟩ := comps hf hx hy
  obtain ⟨k, j, hk, hj, e1⟩ := ha
  obtain ⟨k', j', hk', hj', e2⟩ := hb
  obtain rfl := hf.incy.idx_inj' hj' hj
  obtain rfl := hf.incx.idx_inj' hk hx1
  obtain rfl := hf.incx.idx_inj' hk' hx2
  have lj := getElem?_some_lt hj
  have l1 := getElem?_some_lt hx1
  have l2 := getElem?_some_lt hx2
  refine value_eq ex ey ?_ ?_
  · rw [SF.C23_edge_x main cx.wf (by rw [cx.ay]; exact hj) (by rw [cx.ax]; exact hx1) (by rw [cx.ax]; exact hx2) h1 h2, cx.cell _ _ l1 lj, cx.cell _ _ l2 lj, e1, e2]
    rfl
  · rw [SF.C23_edge_x main cy.wf (by rw [cy.ay]; exact hj) (by rw [cy.ax]; exact hx1) (by rw [cy.ax]; exact hx2) h1 h2, cy.cell _ _ l1 lj, cy.cell _ _ l2 lj, e1, e2]
    rfl

/-- **C272** Inside of a cell whose four corners carry the vectors of an affine field (uniform flow, shear, solid rotation, strain): the vector of this
affine field, exactly. -/
theorem C272_affine (main : Bool) {f : VF} (hf : f.WF) (hx : 2 ≤ f.ax.length) (hy : 2 ≤ f.ay.length) {i j : Nat} {x y x1 x2 y1 y2 p q r p' q' r' : Rat}
    (hx1 : f.ax[i]? = some x1) (hx2 : f.ax[i + 1]? = some x2) (hy1 : f.ay[j]? = some y1) (hy2 : f.ay[j + 1]? = some y2)
    (h1 : x1 < x) (h2 : x < x2) (h3 : y1 < y) (h4 : y < y2)
    (hc : ∀ a b, (a = x1 ∨ a = x2) → (b = y1 ∨ b = y2) → f.Reads a b (some (p + q * a + r * b, p' + q' * a + r' * b))) :
    value main f x y = .ok (some (p + q * x + r * y), some (p' + q' * x + r' * y)) := by
  obtain ⟨sx, sy, ex, ey, cx, cy⟩ := comps hf hx hy
  have corner : ∀ {k l : Nat} {a b : Rat}, f.ax[k]? = some a → f.ay[l]? = some b → (a = x1 ∨ a = x2) → (b = y1 ∨ b = y2) →
      sx.cell k l = some (p + q * a + r * b) ∧ sy.cell k l = some (p' + q' * a + r' * b) := by
    intro k l a b hk hl ha hb
    obtain ⟨k', l', e1, e2, e3⟩ := hc a b ha hb
    obtain rfl := hf.incx.idx_inj' e1 hk
    obtain rfl := hf.incy.idx_inj' e2 hl
    rw [cx.cell _ _ (getElem?_some_lt hk) (getElem?_some_lt hl), cy.cell _ _ (getElem?_some_lt hk) (getElem?_some_lt hl), e3]
    exact ⟨rfl, rfl⟩
  have c00 := corner hx1 hy1 (.inl rfl) (.inl rfl)
  have c10 := corner hx2 hy1 (.inr rfl) (.inl rfl)
  have c01 := corner hx1 hy2 (.inl rfl) (.inr rfl)
  have c11 := corner hx2 hy2 (.inr rfl) (.inr rfl)
  exact value_eq ex ey
    (SF.C23_inside_affine main cx.wf (by rw [cx.ax]; exact hx1) (by rw [cx.ax]; exact hx2) (by rw [cx.ay]; exact hy1) (by rw [cx.ay]; exact hy2)
      h1 h2 h3 h4 c00.1 c10.1 c01.1 c11.1)
    (SF.C23_inside_affine main cy.wf (by rw [cy.ax]; exact hx1) (by rw [cy.ax]; exact hx2) (by rw [cy.ay]; exact hy1) (by rw [cy.ay]; exact hy2)
      h1 h2 h3 h4 c00.2 c10.2 c01.2 c11.2)

/-- **C272** Outside of the field: refused. -/
theorem C272_out (main : Bool) {f : VF} (hf : f.WF) (hx : 2 ≤ f.ax.length) (hy : 2 ≤ f.ay.length) {x y : Rat}
    (h : (∀ a ∈ f.ax, x < a) ∨ (∀ a ∈ f.ax, a < x) ∨ (∀ b ∈ f.ay, y < b) ∨ (∀ b ∈ f.ay, b < y)) : value main f x y = .error .valueError := by
  obtain ⟨sx, sy, ex, ey, cx, cy⟩ := comps hf hx hy
  simp only [value, ex, SF.C23_out_of_range main cx.wf (x := x) (y := y) (by rw [cx.ax, cx.ay]; exact h)]

/-- **C272** The profile at a coordinate of the grid shows the component of the vectors there. -/
theorem C272_profile {srt : List Rat → List Nat} (hs : IsArgsort srt) (main : Bool) {f : VF} (hf : f.WF) (hx : 2 ≤ f.ax.length) (hy : 2 ≤ f.ay.length)
    {c : Comp} {π : Rat × Rat → Rat} (hc : Names c π) (d : Line.Dir) {v : Rat} (hv : v ∈ along f d) :
    ∃ p, profile main srt f c d v .linear = .ok p ∧ Cut f d p fun q r => ∃ w, Shows f d v q w ∧ r = w.map π := by
  obtain ⟨s, es, cs⟩ := asked_ok hf hx hy hc
  obtain ⟨p, ep, hp⟩ := Line.C187_grid hs main cs.wf d (v := v) (by rw [axe_comp cs]; exact hv)
  exact ⟨p, by simp only [profile, es, ep], cut_of_along cs hp fun q r => sees_comp cs d v q r⟩

/-- **C272** The profile between two grid lines shows the component of the vectors interpolated between them, and nothing where one is masked. -/
theorem C272_profile_between {srt : List Rat → List Nat} (hs : IsArgsort srt) (main : Bool) {f : VF} (hf : f.WF) (hx : 2 ≤ f.ax.length)
    (hy : 2 ≤ f.ay.length) {c : Comp} {π : Rat × Rat → Rat} (hc : Names c π) (d : Line.Dir) {v u t : Rat} {i : Nat}
    (hu : (along f d)[i]? = some u) (ht : (along f d)[i + 1]? = some t) (h1 : u < v) (h2 : v < t) :
    ∃ p, profile main srt f c d v .linear = .ok p ∧ Cut f d p fun q r =>
      (∃ a b, Shows f d u q (some a) ∧ Shows f d t q (some b) ∧ r = some (π a + (v - u) / (t - u) * (π b - π a))) ∨
        ((Shows f d u q none ∨ Shows f d t q none) ∧ r = none) := by
  obtain ⟨s, es, cs⟩ := asked_ok hf hx hy hc
  obtain ⟨p, ep, hp⟩ := Line.C187_between hs main cs.wf d (v := v) (by rw [axe_comp cs]; exact hu) (by rw [axe_comp cs]; exact ht) h1 h2
  refine ⟨p, by simp only [profile, es, ep], cut_of_along cs hp fun q r => ?_⟩
  rw [sees_none cs, sees_none cs]
  refine or_congr ⟨?_, ?_⟩ Iff.rfl
  · rintro ⟨a, b, ha, hb, rfl⟩
    obtain ⟨wa, ha', rfl⟩ := (sees_some cs ..).1 ha
    obtain ⟨wb, hb', rfl⟩ := (sees_some cs ..).1 hb
    exact ⟨wa, wb, ha', hb', rfl⟩
  · rintro ⟨a, b, ha, hb, rfl⟩
    exact ⟨_, _, (sees_some cs ..).2 ⟨a, ha, rfl⟩, (sees_some cs ..).2 ⟨b, hb, rfl⟩, rfl⟩

/-- **C272** With `interp='nearest'` it is the profile of the nearest coordinate of the grid. -/
theorem C272_nearest {srt : List Rat → List Nat} (hs : IsArgsort srt) (main : Bool) {f : VF} (hf : f.WF) (hx : 2 ≤ f.ax.length) (hy : 2 ≤ f.ay.length)
    {c : Comp} {π : Rat × Rat → Rat} (hc : Names c π) (d : Line.Dir) {v : Rat} (hv : ¬ ((∀ a ∈ along f d, a < v) ∨ ∀ a ∈ along f d, v < a)) :
    ∃ p u, profile main srt f c d v .nearest = .ok p ∧ u ∈ along f d ∧ (∀ a ∈ along f d, |u - v| ≤ |a - v|) ∧
      Cut f d p fun q r => ∃ w, Shows f d u q w ∧ r = w.map π := by
  obtain ⟨s, es, cs⟩ := asked_ok hf hx hy hc
  obtain ⟨p, u, ep, h1, h2, hp⟩ := Line.C187_nearest_partial hs main cs.wf d (by rw [axe_comp cs]; cases d <;> assumption) (v := v)
    (by rw [axe_comp cs]; exact hv)
  rw [axe_comp cs] at h1 h2
  exact ⟨p, u, by simp only [profile, es, ep], h1, h2, cut_of_along cs hp fun q r => sees_comp cs d u q r⟩

/-- **C272** With `ind=True` it is the profile of the grid line of that index. -/
theorem C272_index {srt : List Rat → List Nat} (hs : IsArgsort srt) (main : Bool) {f : VF} (hf : f.WF) (hx : 2 ≤ f.ax.length) (hy : 2 ≤ f.ay.length)
    {c : Comp} {π : Rat × Rat → Rat} (hc : Names c π) (d : Line.Dir) (k : Line.Interp) :
    (∀ (i : Nat) (v : Rat), (along f d)[i]? = some v → ∃ p, profileInd main srt f c d i k = .ok p ∧
      Cut f d p fun q r => ∃ w, Shows f d v q w ∧ r = w.map π) ∧
    ∀ i : Int, i < 0 ∨ (along f d).length ≤ i → profileInd main srt f c d i k = .error .valueError := by
  obtain ⟨s, es, cs⟩ := asked_ok hf hx hy hc
  obtain ⟨h1, h2⟩ := Line.C187_index hs main cs.wf d k
  rw [axe_comp cs] at h1 h2
  refine ⟨fun i v hi => ?_, fun i hi => by simp only [profileInd, es, h2 i hi]⟩
  obtain ⟨p, ep, hp⟩ := h1 i v hi
  exact ⟨p, by simp only [profileInd, es, ep], cut_of_along cs hp fun q r => sees_comp cs d v q r⟩

/-- **C272** The profile of an interval shows the mean of the component over the grid lines of the interval, nothing where one of the vectors is masked. -/
theorem C272_interval {srt : List Rat → List Nat} (hs : IsArgsort srt) {f : VF} (hf : f.WF) (hx : 2 ≤ f.ax.length) (hy : 2 ≤ f.ay.length)
    {c : Comp} {π : Rat × Rat → Rat} (hc : Names c π) (d : Line.Dir) (a b : Rat) :
    ∃ p, profileBetween srt f c d a b = .ok p ∧ Cut f d p fun q r =>
      (∃ vecs : List (Rat × Rat), vecs ≠ [] ∧
        List.Forall₂ (fun v w => Shows f d v q (some w)) ((along f d).filter fun v => decide (a ≤ v ∧ v ≤ b)) vecs ∧
        r = some ((vecs.map π).sum / vecs.length)) ∨
      (((∀ v ∈ along f d, ¬ (a ≤ v ∧ v ≤ b)) ∨ ∃ v ∈ along f d, a ≤ v ∧ v ≤ b ∧ Shows f d v q none) ∧ r = none) := by
  obtain ⟨s, es, cs⟩ := asked_ok hf hx hy hc
  obtain ⟨p, ep, hp⟩ := Line.C187_interval hs cs.wf d a b
  refine ⟨p, by simp only [profileBetween, es, ep], cut_of_along cs hp fun q r => ?_⟩
  simp only [sees_none cs, axe_comp cs]
  refine or_congr ?_ Iff.rfl
  have key : ∀ (l vals : List Rat), List.Forall₂ (fun v w => Line.Sees s d v q (some w)) l vals ↔
      ∃ vecs : List (Rat × Rat), List.Forall₂ (fun v w => Shows f d v q (some w)) l vecs ∧ vals = vecs.map π := by
    intro l
    induction l with
    | nil =>
      intro vals
      constructor
      · intro h; cases h; exact ⟨[], .nil, rfl⟩
      · rintro ⟨vecs, h, rfl⟩; cases h; exact .nil
    | cons t l ih =>
      intro vals
      constructor
      · intro h
        cases h with
        | cons h1 h2 =>
          obtain ⟨w, hw, rfl⟩ := (sees_some cs ..).1 h1
          obtain ⟨vecs, hv, rfl⟩ := (ih _).1 h2
          exact ⟨w :: vecs, .cons hw hv, rfl⟩
      · rintro ⟨vecs, h, rfl⟩
        cases h with
        | cons h1 h2 => exact .cons ((sees_some cs ..).2 ⟨_, h1, rfl⟩) ((ih _).2 ⟨_, h2, rfl⟩)
  constructor
  · rintro ⟨vals, hne, h, rfl⟩
    obtain ⟨vecs, hv, rfl⟩ := (key _ _).1 h
    exact ⟨vecs, by rintro rfl; exact hne rfl, hv, by rw [List.length_map]⟩
  · rintro ⟨vecs, hne, h, rfl⟩
    exact ⟨vecs.map π, by simpa using hne, (key _ _).2 ⟨vecs, h, rfl⟩, by rw [List.length_map]⟩

/-- **C272** Positions outside of the field, and names that are not those of a component, are refused. -/
theorem C272_refused {srt : List Rat → List Nat} (main : Bool) {f : VF} (hf : f.WF) (hx : 2 ≤ f.ax.length) (hy : 2 ≤ f.ay.length) (d : Line.Dir) (v : Rat)
    (k : Line.Interp) : profile main srt f .bad d v k = .error .typeError ∧
      ∀ {c : Comp} {π : Rat × Rat → Rat}, Names c π → (∀ a ∈ along f d, a < v) ∨ (∀ a ∈ along f d, v < a) →
        profile main srt f c d v k = .error .valueError := by
  refine ⟨rfl, fun hc h => ?_⟩
  obtain ⟨s, es, cs⟩ := asked_ok hf hx hy hc
  have := (Line.C187_refused (srt := srt) main cs.wf d v).1 (by rw [axe_comp cs]; exact h) k
  simp only [profile, es, this]

/-- **C272** On a grid with a single line of points none of this works. -/
theorem C272_thin_violated {srt : List Rat → List Nat} (main : Bool) {f : VF} (h : f.ax.length < 2 ∨ f.ay.length < 2) (x y : Rat) :
    value main f x y = .error .indexError ∧ ∀ {c : Comp} {π : Rat × Rat → Rat}, Names c π → ∀ d v k, profile main srt f c d v k = .error .indexError := by
  have hd : ∀ v, SF.importArrays f.ax f.ay v (.array f.mask) f.ux f.uy f.uv = .error .indexError := by
    intro v
    unfold SF.importArrays
    have hl : f.ay.length < 2 ∨ f.ax.length < 2 := h.symm
    simp only [if_pos hl]
  have e1 : Mirror.compX f = .error .indexError := hd _
  have e2 : Mirror.compY f = .error .indexError := hd _
  refine ⟨by simp only [value, e1], ?_⟩
  rintro c π (⟨rfl, -⟩ | ⟨rfl, -⟩) d v k
  · simp only [profile, asked, e1]
  · simp only [profile, asked, e2]

/-! ### concrete case: a solid rotation with one masked point -/

def spin : VF := ⟨[0, 1, 2], [0, 2], ⟨3, 2, fun i j => if i = 2 ∧ j = 1 then none else some (-(2 * j : Nat))⟩,
  ⟨3, 2, fun i j => if i = 2 ∧ j = 1 then none else some i⟩, ⟨3, 2, fun i j => i == 2 && j == 1⟩, .mm, .mm, .m⟩

theorem spin_wf : spin.WF := by
  refine ⟨by decide +kernel, by decide +kernel, by decide, by decide, rfl, rfl, rfl, rfl, rfl, rfl, ?_, ?_⟩
  · intro i j _ _ h
    simp only [spin] at h ⊢
    split_ifs at h with hc
    simp [hc]
  · intro i j _ _ h
    simp only [spin] at h ⊢
    split_ifs at h with hc
    simp [hc]

example : value true spin (1 / 2) 1 = .ok (some (-1), some (1 / 2)) := by decide +kernel

example : ∀ a b : Rat, (a = 0 ∨ a = 1) → (b = 0 ∨ b = 2) → spin.Reads a b (some (0 + 0 * a + (-1) * b, 0 + 1 * a + 0 * b)) := by
  rintro a b (rfl | rfl) (rfl | rfl)
  · exact ⟨0, 0, rfl, rfl, by decide +kernel⟩
  · exact ⟨0, 1, rfl, rfl, by decide +kernel⟩
  · exact ⟨1, 0, rfl, rfl, by decide +kernel⟩
  · exact ⟨1, 1, rfl, rfl, by decide +kernel⟩

example : 2 ≤ spin.ax.length ∧ 2 ≤ spin.ay.length ∧ (1 : Rat) ∈ along spin .x ∧ spin.Reads 2 2 none :=
  ⟨by decide, by decide, by decide +kernel, 2, 1, rfl, rfl, rfl⟩

end IMT.Probe
