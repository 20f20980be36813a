import Verif.Fill.Lemmas
import Verif.Mirror.Vec

/-! C247: filling with the nearest value; C248: by linear interpolation; C249: the other ways of filling. -/

namespace IMT.Fill

variable {f : SF}

/-! ### what all kinds have in common -/

/-- `g` is `f` with `w` on its masked points. -/
def Filled (w : Rat → Rat → Rat) (f g : SF) : Prop := Fills f g ∧ ∀ x y, f.Reads x y none → g.Reads x y (some (w x y))

theorem put_get (hf : f.WF) (w : Rat → Rat → Rat) {i j : Nat} {x y : Rat} (hi : f.ax[i]? = some x) (hj : f.ay[j]? = some y) :
    (put f w).get i j = some ((f.cell i j).getD (w x y)) := by
  show (if f.mask.get i j then some (w ((f.ax[i]?).getD 0) ((f.ay[j]?).getD 0)) else f.cell i j) = _
  rw [mask_of_cell hf (getElem?_some_lt hi) (getElem?_some_lt hj), hi, hj]
  cases f.cell i j <;> simp

/-- A field with this array and nothing masked. -/
theorem filled_of (hf : f.WF) {v : Grid (Option Rat)} {w : Rat → Rat → Rat} {g : SF} (hg : g.WF) (ax : g.ax = f.ax) (ay : g.ay = f.ay)
    (u : g.ux = f.ux ∧ g.uy = f.uy ∧ g.uv = f.uv) (hv : ∀ i j x y, f.ax[i]? = some x → f.ay[j]? = some y → v.get i j = some ((f.cell i j).getD (w x y)))
    (hc : ∀ i j, i < f.ax.length → j < f.ay.length → g.cell i j = v.get i j) : Filled w f g := by
  have hc' : ∀ i j x y, f.ax[i]? = some x → f.ay[j]? = some y → g.cell i j = some ((f.cell i j).getD (w x y)) := by
    intro i j x y hi hj
    rw [hc i j (getElem?_some_lt hi) (getElem?_some_lt hj), hv i j x y hi hj]
  refine ⟨⟨hg, ax, ay, ?_, ?_, u.1, u.2.1, u.2.2⟩, ?_⟩
  · rintro x y z ⟨i, j, hi, hj, hz⟩
    exact ⟨i, j, by rw [ax]; exact hi, by rw [ay]; exact hj, by rw [hc' i j x y hi hj, hz]; rfl⟩
  · rintro x y ⟨i, j, hi, hj, hz⟩
    rw [ax] at hi; rw [ay] at hj
    rw [hc' i j x y hi hj] at hz
    cases hz
  · rintro x y ⟨i, j, hi, hj, hz⟩
    exact ⟨i, j, by rw [ax]; exact hi, by rw [ay]; exact hj, by rw [hc' i j x y hi hj, hz]; rfl⟩

theorem any_of_reads (hf : f.WF) {x y : Rat} (h : f.Reads x y none) : f.anyMasked = true := by
  obtain ⟨i, j, hi, hj, hc⟩ := h
  refine (SF.anyMasked_iff f).2 ⟨i, j, by rw [hf.mx]; exact getElem?_some_lt hi, by rw [hf.my]; exact getElem?_some_lt hj, ?_⟩
  rw [mask_of_cell hf (getElem?_some_lt hi) (getElem?_some_lt hj), hc]; rfl

theorem reads_of_any (hf : f.WF) (h : f.anyMasked = true) : ∃ x y, f.Reads x y none := by
  obtain ⟨i, j, hi, hj, hm⟩ := (SF.anyMasked_iff f).1 h
  rw [hf.mx] at hi; rw [hf.my] at hj
  refine ⟨f.ax[i], f.ay[j], i, j, List.getElem?_eq_getElem hi, List.getElem?_eq_getElem hj, ?_⟩
  rw [mask_of_cell hf hi hj] at hm
  exact Option.isNone_iff_eq_none.1 hm

/-- The array, when the interpolation gives `w`, or when nothing is masked. -/
theorem values_ok (s : Scipy) (k : Kind) (red : Bool) (hf : f.WF) {w : Rat → Rat → Rat}
    (h : f.anyMasked = true → interp s (nodes f red) k = .ok w) :
    ∃ v, values s k red f = .ok v ∧ v.nx = f.ax.length ∧ v.ny = f.ay.length ∧
      ∀ i j x y, f.ax[i]? = some x → f.ay[j]? = some y → v.get i j = some ((f.cell i j).getD (w x y)) := by
  unfold values
  split_ifs with hm
  · refine ⟨_, rfl, hf.vx, hf.vy, fun i j x y hi hj => ?_⟩
    show f.cell i j = _
    have hn := SF.no_mask_reads (f := f) hf.loose hm x y
    cases e : f.cell i j with
    | none => exact absurd ⟨i, j, hi, hj, e⟩ hn
    | some z => rfl
  · rw [h (by simpa using hm)]
    exact ⟨_, rfl, hf.vx, hf.vy, fun i j x y hi hj => put_get hf w hi hj⟩

/-- In place, and not in place where the source is left as it was. -/
theorem both_ok (s : Scipy) (k : Kind) (red : Bool) (hf : f.WF) {w : Rat → Rat → Rat} (h : f.anyMasked = true → interp s (nodes f red) k = .ok w) :
    (∃ g, fill s k red f = .ok g ∧ Filled w f g) ∧
      (2 ≤ f.ax.length → 2 ≤ f.ay.length → ∃ src g, fillCopy s k red f = .ok (src, g) ∧ src.Equal f ∧ Filled w f g) := by
  obtain ⟨v, e, v1, v2, hv⟩ := values_ok s k red hf h
  have hv' : ∀ i j, i < f.ax.length → j < f.ay.length → v.get i j ≠ none := by
    intro i j hi hj
    rw [hv i j _ _ (List.getElem?_eq_getElem hi) (List.getElem?_eq_getElem hj)]
    simp
  constructor
  · refine ⟨{ f with val := v, mask := Grid.const f.val.nx f.val.ny false }, by unfold fill; rw [e], ?_⟩
    refine filled_of hf (v := v) ⟨hf.incx, hf.incy, hf.nex, hf.ney, v1, v2, hf.vx, hf.vy, ?_⟩ rfl rfl ⟨rfl, rfl, rfl⟩ hv ?_
    · intro i j hi hj hn
      exact absurd hn (hv' i j hi hj)
    · intro i j hi hj
      rfl
  · intro h2x h2y
    obtain ⟨g, e', w', hr, u⟩ := SF.C15_import_reads_partial (ux := f.ux) (uy := f.uy) (uv := f.uv) (ax := f.ax) (ay := f.ay)
      (v := v) (m := .bool false) v1 v2 h2x h2y trivial (Or.inl hf.incx) (Or.inl hf.incy) (Or.inl ⟨hf.incx, hf.incy⟩)
    obtain ⟨-, -, gx, gy⟩ := Mirror.import_axes hf.incx hf.incy e'
    refine ⟨{ f with val := v }, g, by unfold fillCopy; rw [e]; simp only [e'], ?_, ?_⟩
    · refine ⟨rfl, rfl, rfl, rfl, rfl, ?_, fun _ _ _ _ => rfl⟩
      intro i j hi hj
      show (if f.mask.get i j then none else v.get i j) = f.cell i j
      rw [hv i j _ _ (List.getElem?_eq_getElem hi) (List.getElem?_eq_getElem hj), mask_of_cell hf hi hj]
      cases f.cell i j <;> simp
    · refine filled_of hf (v := v) w' gx gy u hv ?_
      intro i j hi hj
      have h0 : g.Reads f.ax[i] f.ay[j] (g.cell i j) :=
        ⟨i, j, by rw [gx]; exact List.getElem?_eq_getElem hi, by rw [gy]; exact List.getElem?_eq_getElem hj, rfl⟩
      obtain ⟨a, b, ha, hb, hab⟩ := (hr _ _ _).1 h0
      have e1 := hf.incx.idx_inj ha (List.getElem?_eq_getElem hi)
      have e2 := hf.incy.idx_inj hb (List.getElem?_eq_getElem hj)
      subst e1; subst e2
      rw [hab]; rfl

/-- Both ways of filling give a field of which `P` is true; not in place the field itself shows what it showed. -/
def Both (s : Scipy) (k : Kind) (red : Bool) (f : SF) (P : SF → Prop) : Prop :=
  (∃ g, fill s k red f = .ok g ∧ P g) ∧
    (2 ≤ f.ax.length → 2 ≤ f.ay.length → ∃ src g, fillCopy s k red f = .ok (src, g) ∧ src.Equal f ∧ P g)

theorem both_of {s : Scipy} {k : Kind} {red : Bool} (hf : f.WF) {w : Rat → Rat → Rat} (h : f.anyMasked = true → interp s (nodes f red) k = .ok w)
    {P : SF → Prop} (hP : ∀ g, Filled w f g → P g) : Both s k red f P := by
  obtain ⟨⟨g, h1, h2⟩, h3⟩ := both_ok s k red hf h
  refine ⟨⟨g, h1, hP g h2⟩, fun hx hy => ?_⟩
  obtain ⟨src, g, h4, h5, h6⟩ := h3 hx hy
  exact ⟨src, g, h4, h5, hP g h6⟩

/-! ### C247 -/

/-- **C247** `fill(kind='nearest')`, on every field that shows something: what is visible stays, and each masked point gets the value of a visible point
of the field at the smallest distance from it.  The reduction of the set of points to those next to masked ones changes nothing to this. -/
theorem C247_nearest {s : Scipy} (hs : s.Ok) (red : Bool) (hf : f.WF) {a b c : Rat} (h : f.Reads a b (some c)) :
    Both s .nearest red f fun g => Fills f g ∧ ∀ x y, f.Reads x y none → ∃ x' y' v, Nearest f x y x' y' v ∧ g.Reads x y (some v) := by
  refine both_of hf (w := nearest s (nodes f red)) (fun hm => ?_) (fun g hg => ⟨hg.1, fun x y hr => ?_⟩)
  · obtain ⟨x, y, hr⟩ := reads_of_any hf hm
    have := (nearest_ok hs hf red hr h).1
    simp only [interp]
    rw [if_neg this]
  · obtain ⟨-, x', y', v, k, h1, -, -, h2⟩ := nearest_ok hs hf red hr h
    exact ⟨x', y', v, h1, by rw [← h2]; exact hg.2 x y hr⟩

/-! ### C248 -/

theorem lin_value {s : Scipy} (hs : s.Ok) (red : Bool) (hf : f.WF) (he : Enough f red) {x y : Rat} (hr : f.Reads x y none)
    {a b c : Rat} (h : f.Reads a b (some c)) :
    (∃ w, Bary w (nodes f red) x y ∧ (s.lin (nodes f red) x y).getD (nearest s (nodes f red) x y) = ((nodes f red).map fun n => w n * n.v).sum) ∨
    ((¬ ∃ w, Bary w (nodes f red) x y) ∧ ∃ x' y' v, Nearest f x y x' y' v ∧ (s.lin (nodes f red) x y).getD (nearest s (nodes f red) x y) = v) := by
  cases e : s.lin (nodes f red) x y with
  | some v =>
    obtain ⟨w, h1, h2⟩ := hs.lin_some _ _ _ _ he e
    exact .inl ⟨w, h1, by simpa using h2⟩
  | none =>
    obtain ⟨-, x', y', v, k, h1, -, -, h2⟩ := nearest_ok hs hf red hr h
    exact .inr ⟨hs.lin_none _ _ _ he e, x', y', v, h1, by simpa using h2⟩

theorem flat_nil : Flat [] := ⟨1, 0, 0, by simp, by simp⟩

theorem visible_of_enough (hf : f.WF) {red : Bool} (he : Enough f red) : ∃ a b c, f.Reads a b (some c) := by
  cases e : nodes f red with
  | nil => exact absurd (by rw [Enough, e] at he; exact he) (not_not_intro flat_nil)
  | cons n l => exact ⟨_, _, _, node_reads hf (red := red) (n := n) (by rw [e]; simp)⟩

/-- Two visible cells of a line on both sides of a masked one give two nodes of this line. -/
theorem between_bary (hf : f.WF) (red : Bool) {x y : Rat} (hm : f.Reads x y none) (hb : Between f x y) : ∃ w, Bary w (nodes f red) x y := by
  have two : ∀ {n m : Node}, n ∈ nodes f red → m ∈ nodes f red → n.y = y → m.y = y → n.x < x → x < m.x → ∃ w, Bary w (nodes f red) x y := by
    intro n m hn hmm h1 h2 h3 h4
    have hd : 0 < m.x - n.x := by linarith
    have := bary_two (nodup_nodes hf red) hn hmm (fun e => by subst e; linarith) (t := (x - n.x) / (m.x - n.x)) (div_nonneg (by linarith) hd.le)
      ((div_le_one hd).2 (by linarith))
    rw [h1, h2, show (1 - (x - n.x) / (m.x - n.x)) * n.x + (x - n.x) / (m.x - n.x) * m.x = x by field_simp; ring,
      show (1 - (x - n.x) / (m.x - n.x)) * y + (x - n.x) / (m.x - n.x) * y = y by ring] at this
    exact ⟨_, this⟩
  have two' : ∀ {n m : Node}, n ∈ nodes f red → m ∈ nodes f red → n.x = x → m.x = x → n.y < y → y < m.y → ∃ w, Bary w (nodes f red) x y := by
    intro n m hn hmm h1 h2 h3 h4
    have hd : 0 < m.y - n.y := by linarith
    have := bary_two (nodup_nodes hf red) hn hmm (fun e => by subst e; linarith) (t := (y - n.y) / (m.y - n.y)) (div_nonneg (by linarith) hd.le)
      ((div_le_one hd).2 (by linarith))
    rw [h1, h2, show (1 - (y - n.y) / (m.y - n.y)) * n.y + (y - n.y) / (m.y - n.y) * m.y = y by field_simp; ring,
      show (1 - (y - n.y) / (m.y - n.y)) * x + (y - n.y) / (m.y - n.y) * x = x by ring] at this
    exact ⟨_, this⟩
  obtain ⟨i, j, hi, hj, hc⟩ := hm
  have li := getElem?_some_lt hi
  have lj := getElem?_some_lt hj
  have ltx : ∀ {p q : Nat} {u w : Rat}, f.ax[p]? = some u → f.ax[q]? = some w → (u < w ↔ p < q) := by
    intro p q u w hp hq
    obtain ⟨lp, ep⟩ := List.getElem?_eq_some_iff.1 hp
    obtain ⟨lq, eq⟩ := List.getElem?_eq_some_iff.1 hq
    subst ep eq
    constructor
    · intro h
      by_contra hn
      rcases Nat.lt_or_eq_of_le (not_lt.1 hn) with g | g
      · exact absurd (List.pairwise_iff_getElem.1 hf.incx q p lq lp g) (not_lt.2 (le_of_lt h))
      · subst g; exact absurd h (lt_irrefl _)
    · exact List.pairwise_iff_getElem.1 hf.incx p q lp lq
  have lty : ∀ {p q : Nat} {u w : Rat}, f.ay[p]? = some u → f.ay[q]? = some w → (u < w ↔ p < q) := by
    intro p q u w hp hq
    obtain ⟨lp, ep⟩ := List.getElem?_eq_some_iff.1 hp
    obtain ⟨lq, eq⟩ := List.getElem?_eq_some_iff.1 hq
    subst ep eq
    constructor
    · intro h
      by_contra hn
      rcases Nat.lt_or_eq_of_le (not_lt.1 hn) with g | g
      · exact absurd (List.pairwise_iff_getElem.1 hf.incy q p lq lp g) (not_lt.2 (le_of_lt h))
      · subst g; exact absurd h (lt_irrefl _)
    · exact List.pairwise_iff_getElem.1 hf.incy p q lp lq
  have masked : ∀ {p q : Nat}, p < f.ax.length → q < f.ay.length → ¬ (∃ z, f.cell p q = some z) → f.mask.get p q = true := by
    intro p q hp hq h
    rw [mask_of_cell hf hp hq]
    cases e : f.cell p q with
    | none => rfl
    | some z => exact absurd ⟨z, e⟩ h
  rcases hb with ⟨a, b, u, v, h1, h2, ⟨p, j', hp, hj', hu⟩, ⟨q, j'', hq, hj'', hv⟩⟩ | ⟨a, b, u, v, h1, h2, ⟨i', p, hi', hp, hu⟩, ⟨i'', q, hi'', hq, hv⟩⟩
  · have e1 := hf.incy.idx_inj hj' hj
    have e2 := hf.incy.idx_inj hj'' hj
    subst e1; subst e2
    have lp := (ltx hp hi).1 h1
    have lq := (ltx hi hq).1 h2
    have lq' := getElem?_some_lt hq
    obtain ⟨k, k1, k2, ⟨z, k3⟩, k4⟩ := step_out (p := fun n => ∃ z, f.cell n j'' = some z) lp ⟨u, hu⟩ (by rw [hc]; simp)
    obtain ⟨m, m1, m2, m4, ⟨z', m3⟩⟩ := step_in (p := fun n => ∃ z, f.cell n j'' = some z) lq (by rw [hc]; simp) ⟨v, hv⟩
    have lk : k < f.ax.length := by omega
    have lm : m + 1 < f.ax.length := by omega
    have hk := List.getElem?_eq_getElem lk
    have hm := List.getElem?_eq_getElem lm
    refine two (n := ⟨f.ax[k], y, z⟩) (m := ⟨f.ax[m + 1], y, z'⟩) (node_of hf hk hj k3 fun _ => ?_) (node_of hf hm hj m3 fun _ => ?_) rfl rfl
      ((ltx hk hi).2 k2) ((ltx hi hm).2 (by omega))
    · exact dilated_iff.2 ⟨k + 1, j'', by omega, lj, masked (by omega) lj k4, touches_iff.2 (by omega)⟩
    · exact dilated_iff.2 ⟨m, j'', by omega, lj, masked (by omega) lj m4, touches_iff.2 (by omega)⟩
  · have e1 := hf.incx.idx_inj hi' hi
    have e2 := hf.incx.idx_inj hi'' hi
    subst e1; subst e2
    have lp := (lty hp hj).1 h1
    have lq := (lty hj hq).1 h2
    have lq' := getElem?_some_lt hq
    obtain ⟨k, k1, k2, ⟨z, k3⟩, k4⟩ := step_out (p := fun n => ∃ z, f.cell i'' n = some z) lp ⟨u, hu⟩ (by rw [hc]; simp)
    obtain ⟨m, m1, m2, m4, ⟨z', m3⟩⟩ := step_in (p := fun n => ∃ z, f.cell i'' n = some z) lq (by rw [hc]; simp) ⟨v, hv⟩
    have lk : k < f.ay.length := by omega
    have lm : m + 1 < f.ay.length := by omega
    have hk := List.getElem?_eq_getElem lk
    have hm := List.getElem?_eq_getElem lm
    refine two' (n := ⟨x, f.ay[k], z⟩) (m := ⟨x, f.ay[m + 1], z'⟩) (node_of hf hi hk k3 fun _ => ?_) (node_of hf hi hm m3 fun _ => ?_) rfl rfl
      ((lty hk hj).2 k2) ((lty hj hm).2 (by omega))
    · exact dilated_iff.2 ⟨i'', k + 1, li, by omega, masked li (by omega) k4, touches_iff.2 (by omega)⟩
    · exact dilated_iff.2 ⟨i'', m, li, by omega, masked li (by omega) m4, touches_iff.2 (by omega)⟩

/-- **C248** `fill(kind='linear')` keeps what is visible and invents no extremum: the values stay between the bounds of the visible values.  Where the
visible values are those of an affine function, every masked point between two visible points of its line or column gets the value of this function.
Out of the convex hull of the points used it is the value of a nearest visible point.  Missing: the visible points next to the masked ones must not be
on one line (`C248_wall_violated`). -/
theorem C248_linear_partial {s : Scipy} (hs : s.Ok) (red : Bool) (hf : f.WF) (he : f.anyMasked = true → Enough f red) :
    Both s .linear red f fun g => Fills f g ∧
      (∀ lo hi, (∀ x y v, f.Reads x y (some v) → lo ≤ v ∧ v ≤ hi) → ∀ x y v, g.Reads x y (some v) → lo ≤ v ∧ v ≤ hi) ∧
      (∀ a b c, (∀ x y v, f.Reads x y (some v) → v = a * x + b * y + c) → ∀ x y, f.Reads x y none → Between f x y →
        g.Reads x y (some (a * x + b * y + c))) ∧
      ∀ x y, f.Reads x y none → (¬ ∃ w, Bary w (nodes f red) x y) → ∃ x' y' v, Nearest f x y x' y' v ∧ g.Reads x y (some v) := by
  refine both_of hf (w := fun x y => (s.lin (nodes f red) x y).getD (nearest s (nodes f red) x y)) (fun hm => ?_) (fun g hg => ⟨hg.1, ?_, ?_, ?_⟩)
  · simp only [interp]
    rw [if_neg (he hm)]
  · intro lo hi hb x y v hv
    obtain ⟨i, j, hi', hj', hc⟩ := hv
    have hr0 : g.Reads x y (some v) := ⟨i, j, hi', hj', hc⟩
    rw [hg.1.ax] at hi'; rw [hg.1.ay] at hj'
    cases e : f.cell i j with
    | some z =>
      have := (hg.1.keep x y z ⟨i, j, hi', hj', e⟩).unique hg.1.wf hr0
      rw [Option.some.injEq] at this
      rw [← this]
      exact hb x y z ⟨i, j, hi', hj', e⟩
    | none =>
      have hr : f.Reads x y none := ⟨i, j, hi', hj', e⟩
      have en := he (any_of_reads hf hr)
      obtain ⟨a, b, c, h⟩ := visible_of_enough hf en
      have := (hg.2 x y hr).unique hg.1.wf hr0
      simp only [Option.some.injEq] at this
      rcases lin_value hs red hf en hr h with ⟨w, h1, h2⟩ | ⟨-, x', y', v', h1, h2⟩
      · rw [h2] at this
        have b1 := le_sum_of h1.pos (g := Node.v) (c := lo) fun n hn => (hb _ _ _ (node_reads hf hn)).1
        have b2 := sum_le_of h1.pos (g := Node.v) (c := hi) fun n hn => (hb _ _ _ (node_reads hf hn)).2
        rw [h1.one, one_mul] at b1 b2
        rw [← this]
        exact ⟨b1, b2⟩
      · rw [h2] at this
        subst this
        exact hb _ _ _ h1.1
  · intro a b c ha x y hr hbt
    have en := he (any_of_reads hf hr)
    obtain ⟨a', b', c', h⟩ := visible_of_enough hf en
    rcases lin_value hs red hf en hr h with ⟨w, h1, h2⟩ | ⟨h1, -⟩
    · have := hg.2 x y hr
      simp only [h2] at this
      rw [affine_sum (a := a) (b := b) (c := c) fun n hn => ha _ _ _ (node_reads hf hn), h1.x, h1.y, h1.one, mul_one] at this
      exact this
    · exact absurd (between_bary hf red hr hbt) h1
  · intro x y hr hn
    have en := he (any_of_reads hf hr)
    obtain ⟨a', b', c', h⟩ := visible_of_enough hf en
    rcases lin_value hs red hf en hr h with ⟨w, h1, h2⟩ | ⟨-, x', y', v, h1, h2⟩
    · exact absurd ⟨w, h1⟩ hn
    · exact ⟨x', y', v, h1, by rw [← h2]; exact hg.2 x y hr⟩

/-- The nodes next to a masked half are on one line. -/
theorem wall_flat (hf : f.WF) {k : Nat} (h0 : 0 < k) (hk : k < f.ax.length)
    (hm : ∀ i j, i < f.ax.length → j < f.ay.length → f.mask.get i j = decide (k ≤ i)) : Flat (nodes f true) := by
  refine ⟨1, 0, f.ax[k - 1], by simp, ?_⟩
  intro n hn
  obtain ⟨⟨i, j⟩, hq, rfl⟩ := List.mem_map.1 hn
  obtain ⟨h1, h2, h3, h4⟩ := mem_good.1 hq
  simp only at h1 h2 h3 h4
  rw [hm i j h1 h2, decide_eq_false_iff_not] at h3
  obtain ⟨a, b, la, lb, ha, ht⟩ := dilated_iff.1 (h4 trivial)
  rw [hm a b la lb, decide_eq_true_eq] at ha
  have : i = k - 1 := by
    have := touches_iff.1 ht
    omega
  subst this
  simp [node, List.getElem?_eq_getElem h1]

/-- **C248** When the masked points are all those beyond some abscissa (a wall, a shadow), the default filling raises an error, whatever the values and
the numbers of visible points. -/
theorem C248_wall_violated (s : Scipy) (hf : f.WF) {k : Nat} (h0 : 0 < k) (hk : k < f.ax.length)
    (hm : ∀ i j, i < f.ax.length → j < f.ay.length → f.mask.get i j = decide (k ≤ i)) :
    fill s .linear true f = .error .exception ∧ fillCopy s .linear true f = .error .exception := by
  have hy : 0 < f.ay.length := List.length_pos_iff.2 hf.ney
  have ha : f.anyMasked = true := (SF.anyMasked_iff f).2 ⟨k, 0, by rw [hf.mx]; exact hk, by rw [hf.my]; exact hy, by rw [hm k 0 hk hy]; simp⟩
  have : values s .linear true f = .error .exception := by
    unfold values
    rw [if_neg (by simp [ha])]
    simp only [interp]
    rw [if_pos (wall_flat hf h0 hk hm)]
  unfold fill fillCopy
  rw [this]
  exact ⟨rfl, rfl⟩

/-! ### C249 -/

/-- **C249** The cubic filling keeps what is visible and leaves nothing masked.  Missing: the visible points next to the masked ones must not be on one
line. -/
theorem C249_cubic_partial (s : Scipy) (red : Bool) (hf : f.WF) (he : f.anyMasked = true → Enough f red) : Both s .cubic red f (Fills f) := by
  refine both_of hf (w := fun x y => (s.cub (nodes f red) x y).getD (nearest s (nodes f red) x y)) (fun hm => ?_) (fun g hg => hg.1)
  simp only [interp]
  rw [if_neg (he hm)]

/-- **C249** A given value is given to the masked points. -/
theorem C249_value (s : Scipy) (red : Bool) (hf : f.WF) (v : Rat) :
    Both s (.value v) red f fun g => Fills f g ∧ ∀ x y, f.Reads x y none → g.Reads x y (some v) :=
  both_of hf (w := fun _ _ => v) (fun _ => rfl) fun _ hg => hg

/-- **C249** When nothing is masked every kind, even an unknown one, gives the field back. -/
theorem C249_unmasked (s : Scipy) (k : Kind) (red : Bool) (hf : f.WF) (h : f.anyMasked = false) : Both s k red f (Fills f) :=
  both_of hf (w := fun _ _ => 0) (fun hm => by rw [h] at hm; cases hm) fun _ hg => hg.1

/-- **C249** When something is masked an unknown kind is refused; when everything is masked all interpolations are. -/
theorem C249_refused (s : Scipy) (k : Kind) (red : Bool) (hf : f.WF) (hm : f.anyMasked = true) :
    (k = .other → fill s k red f = .error .valueError) ∧
      ((∀ x y v, ¬ f.Reads x y (some v)) → k = .nearest ∨ k = .linear ∨ k = .cubic → fill s k red f = .error .exception) := by
  constructor
  · rintro rfl
    unfold fill values
    rw [if_neg (by simp [hm])]
    rfl
  · intro h hk
    have hn : nodes f red = [] := by
      cases e : nodes f red with
      | nil => rfl
      | cons n l => exact absurd (node_reads hf (red := red) (n := n) (by rw [e]; simp)) (h _ _ _)
    unfold fill values
    rw [if_neg (by simp [hm]), hn]
    rcases hk with rfl | rfl | rfl <;> simp [interp, flat_nil]

end IMT.Fill
