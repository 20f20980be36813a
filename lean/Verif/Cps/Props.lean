import Verif.Cps.Crop

/-! C242: origin; C243: units; C244: scaling; C245: simplification; C246: breaking of trajectories. -/

namespace IMT.Cps

open Cp (Kind kinds)
open Points (P F rows Aligned)

/-! ### specification -/

/-- Every set of points of `d` is obtained from that of `c` by `R`. -/
def EachSet (R : P → P → Prop) (c d : CP) : Prop := ∀ k, List.Forall₂ R (c.pts k) (d.pts k)

/-- Every trajectory of `d` is obtained from that of `c` by `R`; there are trajectories in `d` where there are in `c`. -/
def EachTraj (R : P → P → Prop) (c d : CP) : Prop :=
  ∀ k, (c.traj k = none ∧ d.traj k = none) ∨ ∃ s t, c.traj k = some s ∧ d.traj k = some t ∧ List.Forall₂ R s.sets t.sets

/-- The points of `q` are those of `p` seen from the point `(ox, oy)`. -/
def Moved (ox oy : Rat) (p q : P) : Prop :=
  rows q = (rows p).map (fun r => ((r.1.1.map (· - ox), r.1.2.map (· - oy)), r.2)) ∧ q.ux = p.ux ∧ q.uy = p.uy ∧ q.uv = p.uv

/-- The points in reference units: positions and time multiplied by the size of their units. -/
def physical (p : P) : List ((F × F) × Option F) :=
  (rows p).map fun r => ((r.1.1.map (· * p.ux.size), r.1.2.map (· * p.uy.size)), r.2.map (Option.map (· * p.uv.size)))

/-- The times in reference units. -/
def instants (c : CP) : List Rat := c.times.map (· * c.ut.size)

/-- The points of `q` are those of `p` with positions and times multiplied. -/
def Multiplied (a b t : Rat) (p q : P) : Prop :=
  physical q = (physical p).map fun r => ((r.1.1.map (· * a), r.1.2.map (· * b)), r.2.map (Option.map (· * t)))

/-! ### lemmas -/

theorem forall₂_map {R : P → P → Prop} {f : P → P} (h : ∀ p, R p (f p)) (l : List P) : List.Forall₂ R l (l.map f) := by
  induction l with
  | nil => exact .nil
  | cons p l ih => exact .cons (h p) ih

theorem forall₂_map_mem {R : P → P → Prop} {f : P → P} (l : List P) (h : ∀ p ∈ l, R p (f p)) : List.Forall₂ R l (l.map f) := by
  induction l with
  | nil => exact .nil
  | cons p l ih => exact .cons (h p (by simp)) (ih fun q hq => h q (by simp [hq]))

theorem eachTraj_map {R : P → P → Prop} {f : P → P} (h : ∀ p, R p (f p)) {c d : CP}
    (hd : d.traj = fun k => (c.traj k).map fun t => { t with sets := t.sets.map f }) : EachTraj R c d := by
  intro k
  rw [hd]
  cases e : c.traj k with
  | none => exact .inl ⟨rfl, by simp [e]⟩
  | some t => exact .inr ⟨t, _, rfl, by simp [e]; rfl, forall₂_map h _⟩

theorem moved (ox oy : Option Rat) (p : P) : Moved (ox.getD 0) (oy.getD 0) p (Points.setOrigin p ox oy) := by
  have hr := Points.rows_map (p := p) (fun c => (c.1.map (· - ox.getD 0), c.2.map (· - oy.getD 0))) id
  rw [List.map_id] at hr
  refine ⟨?_, rfl, rfl, rfl⟩
  unfold Points.setOrigin
  rw [hr]
  apply List.map_congr_left
  rintro ⟨⟨x, y⟩, w⟩ -
  simp

/-! ### C242 -/

/-- **C242** Once the trajectories are computed, `set_origin` moves every point of every kind and every trajectory by the same vector, an absent
coordinate counting for zero, and changes neither the times nor the units. -/
theorem C242_origin_partial (c : CP) (x y : Option Rat) (hT : ∀ k, c.traj k ≠ none) :
    (setOrigin c x y).2 = .ok ⟨⟩ ∧ EachSet (Moved (x.getD 0) (y.getD 0)) c (setOrigin c x y).1 ∧
      EachTraj (Moved (x.getD 0) (y.getD 0)) c (setOrigin c x y).1 ∧ (setOrigin c x y).1.times = c.times := by
  have hn : ¬ ∃ k ∈ kinds, c.traj k = none := fun ⟨k, _, hk⟩ => hT k hk
  have same : ∀ p : P, Moved 0 0 p p := by
    intro p
    refine ⟨?_, rfl, rfl, rfl⟩
    simp
  unfold setOrigin
  split_ifs with h0
  · obtain ⟨rfl, rfl⟩ := h0
    refine ⟨rfl, fun k => ?_, fun k => ?_, rfl⟩
    · exact List.forall₂_same.2 fun p _ => same p
    · cases e : c.traj k with
      | none => exact absurd e (hT k)
      | some t => exact .inr ⟨t, t, rfl, by simp, List.forall₂_same.2 fun p _ => same p⟩
  · refine ⟨rfl, fun k => forall₂_map (moved x y) _, eachTraj_map (moved x y) ?_, rfl⟩
    funext k
    have : k ∈ reached c := by
      have hs : ∀ k, (c.traj k).isSome := fun k => Option.isSome_iff_ne_none.2 (hT k)
      unfold reached
      have : kinds.takeWhile (fun k => (c.traj k).isSome) = kinds := by simp [kinds, hs]
      rw [this]
      exact all_kinds k
    simp [this]

/-- **C242** Before the trajectories are computed, `set_origin` raises an error after having moved all the points: calling it again moves them
again. -/
theorem C242_none_violated (c : CP) {x y : Option Rat} (hxy : ¬ (x = none ∧ y = none)) {k : Kind} (hk : c.traj k = none) :
    (setOrigin c x y).2 = .error .typeError ∧ EachSet (Moved (x.getD 0) (y.getD 0)) c (setOrigin c x y).1 := by
  unfold setOrigin
  rw [if_neg hxy]
  exact ⟨if_pos ⟨k, all_kinds k, hk⟩, fun k => forall₂_map (moved x y) _⟩

/-! ### C243 -/

theorem toUnit_physical (a : Axe) {new : Sym} (hs : new.size ≠ 0) (p : P) : physical (toUnit a new p) = physical p := by
  have hf : ∀ (w s : Rat), w * (s / new.size) * new.size = w * s := by
    intro w s; field_simp
  unfold physical
  cases a with
  | x =>
    have hr := Points.rows_map (p := { p with ux := new }) (fun c => (c.1.map (· * fact p.ux new), c.2)) id
    rw [List.map_id] at hr
    have e : rows (toUnit .x new p) = _ := hr
    rw [e, List.map_map]
    have e2 : rows ({ p with ux := new } : P) = rows p := rfl
    rw [e2]
    apply List.map_congr_left
    rintro ⟨⟨x, y⟩, w⟩ -
    cases x <;> cases w <;> simp [toUnit, fact, hf]
  | y =>
    have hr := Points.rows_map (p := { p with uy := new }) (fun c => (c.1, c.2.map (· * fact p.uy new))) id
    rw [List.map_id] at hr
    have e : rows (toUnit .y new p) = _ := hr
    rw [e, List.map_map]
    have e2 : rows ({ p with uy := new } : P) = rows p := rfl
    rw [e2]
    apply List.map_congr_left
    rintro ⟨⟨x, y⟩, w⟩ -
    cases y <;> cases w <;> simp [toUnit, fact, hf]
  | time =>
    have hr := Points.rows_map (p := { p with uv := new }) id (Option.map (· * fact p.uv new))
    rw [List.map_id] at hr
    have e : rows (toUnit .time new p) = _ := hr
    rw [e, List.map_map]
    have e2 : rows ({ p with uv := new } : P) = rows p := rfl
    rw [e2]
    apply List.map_congr_left
    rintro ⟨⟨x, y⟩, w⟩ -
    rcases w with _ | _ | w <;> simp [toUnit, fact, hf]
  | other => rfl

/-- The axis is converted to the unit. -/
def To (a : Axe) (new : Sym) (p q : P) : Prop := physical q = physical p ∧ unitOf a q = new ∧ q.xy.length = p.xy.length

theorem toUnit_to {a : Axe} (ha : a ≠ .other) {new : Sym} (hs : new.size ≠ 0) (p : P) : To a new p (toUnit a new p) := by
  refine ⟨toUnit_physical a hs p, ?_, ?_⟩
  · cases a <;> first | rfl | exact absurd rfl ha
  · cases a <;> simp [toUnit]

/-- Every set of points and trajectory has, on this axis, a unit of the dimension of `new`. -/
def Dim (a : Axe) (new : Sym) (c : CP) : Prop :=
  (∀ k, ∀ p ∈ c.pts k, (unitOf a p).Compat new) ∧ ∀ k t, c.traj k = some t → ∀ p ∈ t.sets, (unitOf a p).Compat new

theorem dim_ok {a : Axe} {new : Sym} {c : CP} (h : Dim a new c) :
    ¬ ((∃ k ∈ kinds, ∃ p ∈ c.pts k, ¬ (unitOf a p).Compat new) ∨ ∃ k ∈ kinds, ∃ t ∈ c.traj k, ∃ p ∈ t.sets, ¬ (unitOf a p).Compat new) := by
  rintro (⟨k, -, p, hp, hc⟩ | ⟨k, -, t, ht, p, hp, hc⟩)
  · exact hc (h.1 k p hp)
  · exact hc (h.2 k t ht p hp)

/-- **C243** Changing the unit of x or y, with or without trajectories, gives the sets and the trajectories this unit and leaves every point where it
is; the times are unchanged. -/
theorem C243_axis (c : CP) {a : Axe} (ha : a = .x ∨ a = .y) {new : Sym} (hs : new.size ≠ 0) (hd : Dim a new c) :
    ∃ d, changeUnit c a new = (d, .ok ⟨⟩) ∧ EachSet (To a new) c d ∧ EachTraj (To a new) c d ∧ instants d = instants c ∧
      (a = .x → d.ux = new ∧ d.uy = c.uy) ∧ (a = .y → d.uy = new ∧ d.ux = c.ux) := by
  have hne : a ≠ .other := by rcases ha with rfl | rfl <;> simp
  unfold changeUnit
  rw [if_neg hne, if_neg (dim_ok hd)]
  rcases ha with rfl | rfl
  · exact ⟨_, rfl, fun k => forall₂_map (toUnit_to hne hs) _, eachTraj_map (toUnit_to hne hs) rfl, rfl, fun _ => ⟨rfl, rfl⟩, by simp⟩
  · exact ⟨_, rfl, fun k => forall₂_map (toUnit_to hne hs) _, eachTraj_map (toUnit_to hne hs) rfl, rfl, by simp, fun _ => ⟨rfl, rfl⟩⟩

/-- **C243** Once the trajectories are computed, changing the unit of time converts the times of the collection, of the sets and of the trajectories
together and leaves every physical time and position as it is. -/
theorem C243_time_partial (c : CP) {new : Sym} (hs : new.size ≠ 0) (hd : Dim .time new c) (hc : c.ut.Compat new) (hT : ∀ k, c.traj k ≠ none) :
    ∃ d, changeUnit c .time new = (d, .ok ⟨⟩) ∧ EachSet (To .time new) c d ∧ EachTraj (To .time new) c d ∧ instants d = instants c ∧
      d.ut = new ∧ d.ux = c.ux ∧ d.uy = c.uy := by
  have hn : ¬ ∃ k ∈ kinds, c.traj k = none := fun ⟨k, _, hk⟩ => hT k hk
  unfold changeUnit
  rw [if_neg (by simp), if_neg (dim_ok hd)]
  simp only
  rw [if_neg hn, if_neg (not_not_intro hc)]
  refine ⟨_, rfl, fun k => forall₂_map (toUnit_to (by simp) hs) _, eachTraj_map (toUnit_to (by simp) hs) rfl, ?_, rfl, rfl, rfl⟩
  unfold instants
  simp only [List.map_map]
  apply List.map_congr_left
  intro t _
  simp only [Function.comp, fact]
  field_simp

/-- **C243** Before the trajectories are computed it raises an error, having converted the times of the points and not those of the collection: the
times of the points are no longer those of the times they are stored for. -/
theorem C243_time_violated (c : CP) {new : Sym} (hs : new.size ≠ 0) (hd : Dim .time new c) {k : Kind} (hk : c.traj k = none) :
    ∃ d, changeUnit c .time new = (d, .error .typeError) ∧ EachSet (To .time new) c d ∧ d.times = c.times ∧ d.ut = c.ut := by
  unfold changeUnit
  rw [if_neg (by simp), if_neg (dim_ok hd)]
  simp only
  rw [if_pos ⟨k, all_kinds k, hk⟩]
  exact ⟨_, rfl, fun k => forall₂_map (toUnit_to (by simp) hs) _, rfl, rfl⟩

/-- **C243** Any other axis, and a unit of another dimension, is refused, and the collection is not changed. -/
theorem C243_refused (c : CP) (a : Axe) (new : Sym) (h : a = .other ∨ ∃ k, ∃ p ∈ c.pts k, ¬ (unitOf a p).Compat new) :
    changeUnit c a new = (c, .error .valueError) := by
  unfold changeUnit
  by_cases ha : a = .other
  · rw [if_pos ha]
  · rw [if_neg ha]
    rcases h with h | ⟨k, p, hp, hc⟩
    · exact absurd h ha
    · rw [if_pos (.inl ⟨k, all_kinds k, p, hp, hc⟩)]

/-! ### C244 -/

theorem scaleP_multiplied (sx sy sv : Unum) (p : P) :
    Multiplied (sx.num * sx.sym.size) (sy.num * sy.sym.size) (sv.num * sv.sym.size) p (scaleP sx sy sv p) := by
  unfold Multiplied physical
  have hr := Points.rows_map (p := { p with ux := p.ux.mul sx.sym, uy := p.uy.mul sy.sym, uv := p.uv.mul sv.sym })
    (fun c => (c.1.map (· * sx.num), c.2.map (· * sy.num))) (Option.map (· * sv.num))
  have e : rows (scaleP sx sy sv p) = _ := hr
  have e2 : rows ({ p with ux := p.ux.mul sx.sym, uy := p.uy.mul sy.sym, uv := p.uv.mul sv.sym } : P) = rows p := rfl
  rw [e, e2, List.map_map, List.map_map]
  apply List.map_congr_left
  rintro ⟨⟨x, y⟩, w⟩ -
  have hf : ∀ a n s m : Rat, a * n * (s * m) = a * s * (n * m) := by intros; ring
  cases x <;> cases y <;> rcases w with _ | _ | w <;> simp [scaleP, Sym.mul, hf]

/-- **C244** `scale` multiplies the physical positions and times of every point and trajectory, and the times of the collection, by the given
quantities; the units are multiplied by those of the quantities. -/
theorem C244_scale (c : CP) (sx sy sv : Unum) :
    EachSet (Multiplied (sx.num * sx.sym.size) (sy.num * sy.sym.size) (sv.num * sv.sym.size)) c (scale c sx sy sv) ∧
    EachTraj (Multiplied (sx.num * sx.sym.size) (sy.num * sy.sym.size) (sv.num * sv.sym.size)) c (scale c sx sy sv) ∧
    instants (scale c sx sy sv) = (instants c).map (· * (sv.num * sv.sym.size)) ∧
    (scale c sx sy sv).ut = c.ut.mul sv.sym ∧ (scale c sx sy sv).ux = c.ux.mul sx.sym ∧ (scale c sx sy sv).uy = c.uy.mul sy.sym := by
  refine ⟨fun k => forall₂_map (scaleP_multiplied sx sy sv) _, eachTraj_map (scaleP_multiplied sx sy sv) rfl, ?_, rfl, rfl, rfl⟩
  unfold instants scale
  simp only [List.map_map]
  apply List.map_congr_left
  intro t _
  simp only [Function.comp, Sym.mul]
  ring

/-- **C244** With a positive factor of time the times stay in increasing order. -/
theorem C244_order_partial {c : CP} (h : c.times.Pairwise (· < ·)) (sx sy : Unum) {sv : Unum} (hv : 0 < sv.num) :
    (scale c sx sy sv).times.Pairwise (· < ·) := by
  show (c.times.map _).Pairwise _
  rw [List.pairwise_map]
  exact h.imp fun hab => mul_lt_mul_of_pos_right hab hv

/-- **C244** A negative factor of time is accepted and leaves the times in decreasing order. -/
theorem C244_negative_violated {c : CP} (h : c.times.Pairwise (· < ·)) (h2 : 2 ≤ c.times.length) (sx sy : Unum) {sv : Unum} (hv : sv.num < 0) :
    (scale c sx sy sv).times.Pairwise (fun a b => b < a) ∧ ¬ (scale c sx sy sv).times.Pairwise (· < ·) := by
  have e : (scale c sx sy sv).times.Pairwise (fun a b => b < a) := by
    show (c.times.map _).Pairwise _
    rw [List.pairwise_map]
    exact h.imp fun hab => mul_lt_mul_of_neg_right hab hv
  refine ⟨e, fun h' => ?_⟩
  have hl : (scale c sx sy sv).times.length = c.times.length := by simp [scale]
  generalize (scale c sx sy sv).times = l at *
  match l, hl with
  | [], hl => simp at hl; omega
  | [_], hl => simp at hl; omega
  | a :: b :: _, _ =>
    simp only [List.pairwise_cons] at e h'
    exact lt_asymm (e.1 b (by simp)) (h'.1 b (by simp))

/-! ### C245 -/

/-- **C245** `topo_simplify` raises an error on every collection that holds at least an instant, whatever the simplification does. -/
theorem C245_simplify_violated (f : Idx → CP → Res CP) {c : CP} (h : c.times ≠ []) : topoSimplify f c = .error .typeError := by
  unfold topoSimplify arange
  obtain ⟨n, hn⟩ := Nat.exists_eq_succ_of_ne_zero (fun e => h (List.length_eq_zero_iff.1 e))
  rw [hn, List.range_succ_eq_map]
  have : ∀ l : List Idx, l.foldl (fun r i => match r with
    | .error e => .error e
    | .ok d => if accepted i then f i d else .error .typeError) (.error .typeError) = (.error .typeError : Res CP) := by
    intro l
    induction l with
    | nil => rfl
    | cons a l ih => exact ih
  rw [List.map_cons, List.foldl_cons]
  exact this _

/-! ### C246 -/

/-- The rows of a trajectory between bounds that may be absent; a row without a time is always there. -/
def between (lo hi : Option Rat) (l : List ((F × F) × Option F)) : List ((F × F) × Option F) :=
  l.filter fun r => match time r with
    | some t => (lo.all fun a => decide (a ≤ t)) && (hi.all fun b => decide (t ≤ b))
    | none => true

theorem piece_rows {p : P} (h : Traj p) (lo hi : Option Rat) : rows (piece p lo hi) = between lo hi (rows p) := by
  have key : rows ({ p with xy := Points.sel p.xy (p.v.map (outside lo hi)), v := Points.sel p.v (p.v.map (outside lo hi)) } : P) = between lo hi (rows p) := by
    have full : ∀ q : P, q.v.length = q.xy.length → rows q = (q.xy.zip q.v).map fun r => (r.1, some r.2) := by
      intro q hq
      unfold rows
      split_ifs with hv
      · have : q.xy = [] := by rw [hv] at hq; exact List.length_eq_zero_iff.1 hq.symm
        rw [this]; rfl
      · rw [List.zip, List.map_zipWith]
    have gen : ∀ (xy : List (F × F)) (v : List F), v.length = xy.length →
        (Points.sel v (v.map (outside lo hi))).length = (Points.sel xy (v.map (outside lo hi))).length ∧
        ((Points.sel xy (v.map (outside lo hi))).zip (Points.sel v (v.map (outside lo hi)))).map (fun r => (r.1, some r.2)) =
          between lo hi ((xy.zip v).map fun r => (r.1, some r.2)) := by
      intro xy
      induction xy with
      | nil => intro v hv; cases v with
        | nil => exact ⟨rfl, rfl⟩
        | cons => cases hv
      | cons c xy ih =>
        intro v hv
        cases v with
        | nil => cases hv
        | cons w v =>
          obtain ⟨h1, h2⟩ := ih v (by simpa using hv)
          unfold Points.sel at *
          have hb : (match time (c, some w) with
              | some t => (lo.all fun a => decide (a ≤ t)) && (hi.all fun b => decide (t ≤ b))
              | none => true) = !outside lo hi w := by
            cases w with
            | none => rfl
            | some w => cases lo <;> cases hi <;> simp [time, outside] <;> (rw [Bool.eq_iff_iff]; simp)
          unfold between at *
          simp only [List.map_cons, List.zip_cons_cons, List.filter_cons, hb]
          cases outside lo hi w <;> simp [h1, h2]
    obtain ⟨g1, g2⟩ := gen p.xy p.v h.1
    rw [full _ g1, full _ h.1]
    exact g2
  exact key

theorem bounds_cover (dv : Rat) (hd : 0 ≤ dv) (t : Rat) : ∀ (bs : List Rat) (lo : Option Rat), (∀ a ∈ lo, a ≤ t) →
    ∃ i ∈ bounds dv lo bs, (∀ a ∈ i.1, a ≤ t) ∧ ∀ b ∈ i.2, t ≤ b := by
  intro bs
  induction bs with
  | nil => intro lo h; exact ⟨(lo, none), by simp [bounds], h, by simp⟩
  | cons b bs ih =>
    intro lo h
    by_cases hb : t ≤ b + dv
    · exact ⟨(lo, some (b + dv)), by simp [bounds], h, by simpa using hb⟩
    · obtain ⟨i, hi, h1, h2⟩ := ih (some b) (by intro a ha; cases ha; linarith)
      exact ⟨i, by simp [bounds, hi], h1, h2⟩

theorem step_nonneg (p : P) : 0 ≤ step p := by
  unfold step
  split
  · rename_i a b l h
    have hs : ((p.v.filterMap id).mergeSort (fun a b => decide (a ≤ b))).Pairwise (fun a b => decide (a ≤ b) = true) :=
      List.pairwise_mergeSort (by intro a b c h1 h2; simp at *; exact le_trans h1 h2) (by intro a b; simp; exact le_total a b) _
    rw [h] at hs
    simp only [List.pairwise_cons] at hs
    have := hs.1 b (by simp)
    simp at this
    linarith
  · exact le_refl _

/-- **C246** `break_trajectories` replaces each trajectory by pieces of it, whatever the times it is broken at: the points of a piece are, in order, those
of the trajectory from some time to some other, and every point of the trajectory is in a piece. -/
theorem C246_break_partial (brk : P → List Rat) {p : P} (h : Traj p) :
    (∀ q ∈ breakOne brk p, (rows q).Sublist (rows p) ∧ ∃ lo hi, rows q = between lo hi (rows p)) ∧
      ∀ r ∈ rows p, ∃ q ∈ breakOne brk p, r ∈ rows q := by
  unfold breakOne
  split_ifs with hl
  · refine ⟨?_, fun r hr => ⟨p, by simp, hr⟩⟩
    intro q hq
    rw [List.mem_singleton] at hq
    subst hq
    refine ⟨.refl _, none, none, ?_⟩
    unfold between
    symm
    rw [List.filter_eq_self]
    intro r _
    cases time r <;> rfl
  · refine ⟨?_, fun r hr => ?_⟩
    · intro q hq
      obtain ⟨i, -, rfl⟩ := List.mem_map.1 hq
      rw [piece_rows h]
      exact ⟨List.filter_sublist, i.1, i.2, rfl⟩
    · cases ht : time r with
      | none =>
        have : ∃ i, i ∈ bounds (step p) none (brk p) := by cases brk p <;> simp [bounds]
        obtain ⟨i, hi⟩ := this
        refine ⟨_, List.mem_map_of_mem hi, ?_⟩
        rw [piece_rows h]
        exact List.mem_filter.2 ⟨hr, by simp [ht]⟩
      | some t =>
        obtain ⟨i, hi, h1, h2⟩ := bounds_cover (step p) (step_nonneg p) t (brk p) none (by simp)
        refine ⟨_, List.mem_map_of_mem hi, ?_⟩
        rw [piece_rows h]
        refine List.mem_filter.2 ⟨hr, ?_⟩
        simp only [ht, Bool.and_eq_true, Option.all_eq_true, decide_eq_true_eq]
        exact ⟨h1, h2⟩

/-- **C246** The pieces overlap: when a trajectory of more than two points is broken once, at the time `b`, every point from `b` to `b` plus the first
time step is in both pieces. -/
theorem C246_overlap_violated {brk : P → List Rat} {p : P} (h : Traj p) (hl : 2 < p.xy.length) {b : Rat} (hb : brk p = [b])
    {r : (F × F) × Option F} (hr : r ∈ rows p) {t : Rat} (ht : time r = some t) (h1 : b ≤ t) (h2 : t ≤ b + step p) :
    ∃ q q', breakOne brk p = [q, q'] ∧ r ∈ rows q ∧ r ∈ rows q' := by
  refine ⟨piece p none (some (b + step p)), piece p (some b) none, ?_, ?_, ?_⟩
  · unfold breakOne
    rw [if_neg (by omega), hb]
    rfl
  · rw [piece_rows h]
    exact List.mem_filter.2 ⟨hr, by simp [ht, h2]⟩
  · rw [piece_rows h]
    exact List.mem_filter.2 ⟨hr, by simp [ht, h1]⟩

/-- **C246** For all the trajectories: those of a kind are replaced by the pieces of each, in order, and nothing else changes. -/
theorem C246_all (brk : P → List Rat) {c : CP} {T : Kind → List P} (hT : ∀ k, Has c k (T k)) :
    ∃ r, breakAll brk c = .ok r ∧ (∀ k, Has r k ((T k).flatMap (breakOne brk))) ∧ r.pts = c.pts ∧ r.times = c.times := by
  unfold breakAll
  rw [if_neg]
  · refine ⟨_, rfl, fun k => ?_, rfl, rfl⟩
    obtain ⟨s, h1, h2⟩ := hT k
    exact ⟨_, by simp [h1]; rfl, by simp [h2]⟩
  · rintro ⟨k, -, hk⟩
    obtain ⟨s, h1, -⟩ := hT k
    exact absurd (h1.symm.trans hk) (by simp)

/-- **C246** Afterwards cropping in time is refused, the trajectories being stored as lists: for every collection, however many trajectories. -/
theorem C246_crop_violated (brk : P → List Rat) {c r : CP} (hr : breakAll brk c = .ok r) (w : Win) : cropTime w r = .error .typeError := by
  unfold breakAll at hr
  split_ifs at hr with h
  cases hr
  cases e : c.traj .foc with
  | none => exact absurd ⟨.foc, all_kinds _, e⟩ h
  | some t => exact (C240_single_violated _ w (k := .foc) (t := ⟨false, t.sets.flatMap (breakOne brk)⟩) (by simp [e]) rfl).1

/-- **C246** Before the trajectories are computed it is refused. -/
theorem C246_refused (brk : P → List Rat) {c : CP} {k : Kind} (hk : c.traj k = none) : breakAll brk c = .error .typeError := by
  unfold breakAll
  rw [if_pos ⟨k, all_kinds k, hk⟩]

/-! ### the hypotheses hold on a collection -/

/-- The collection before its trajectories are computed. -/
def exN : CP := { exC with traj := fun _ => none, eps := none }

example : (setOrigin exC (some 1) none).2 = .ok ⟨⟩ ∧ (setOrigin exN (some 1) none).2 = .error .typeError ∧
    ∃ q, ((setOrigin exN (some 1) none).1.pts .foc)[0]? = some q ∧ rows q = [((some (-1), some 0), some (some 0))] := by
  refine ⟨(C242_origin_partial exC (some 1) none (by simp [exC])).1, (C242_none_violated exN (by simp) (k := .foc) rfl).1, ?_⟩
  exact ⟨_, rfl, by decide +kernel⟩

example : ∃ d, changeUnit exN .x .m = (d, .ok ⟨⟩) ∧ EachSet (To .x .m) exN d := by
  obtain ⟨d, h1, h2, -⟩ := C243_axis exN (a := .x) (new := .m) (.inl rfl) (by simp [Sym.m])
    ⟨by intro k p hp; simp [exN, exC] at hp; rcases hp with rfl | rfl | rfl <;> exact ⟨rfl, rfl, rfl⟩, by intro k t ht; simp [exN] at ht⟩
  exact ⟨d, h1, h2⟩

example : ∃ d, changeUnit exN .time .s = (d, .error .typeError) := by
  obtain ⟨d, h, -⟩ := C243_time_violated exN (new := .s) (by simp [Sym.s])
    ⟨by intro k p hp; simp [exN, exC] at hp; rcases hp with rfl | rfl | rfl <;> exact ⟨rfl, rfl, rfl⟩, by intro k t ht; simp [exN] at ht⟩
    (k := .foc) rfl
  exact ⟨d, h⟩

example : ∃ d, changeUnit exC .time .s = (d, .ok ⟨⟩) ∧ instants d = instants exC := by
  obtain ⟨d, h, -, -, h2, -⟩ := C243_time_partial exC (new := .s) (by simp [Sym.s])
    ⟨by intro k p hp; simp [exC] at hp; rcases hp with rfl | rfl | rfl <;> exact ⟨rfl, rfl, rfl⟩,
      by intro k t ht p hp; simp [exC] at ht; subst ht; rw [show unitOf .time p = Sym.s from (exC_traj p hp).2.2.2]; exact ⟨rfl, rfl, rfl⟩⟩
    ⟨rfl, rfl, rfl⟩ (by simp [exC])
  exact ⟨d, h, h2⟩

example : (scale exC ⟨2, .one⟩ ⟨1, .one⟩ ⟨-1, .one⟩).times.Pairwise (fun a b => b < a) :=
  (C244_negative_violated (c := exC) (by decide +kernel) (by decide) ⟨2, .one⟩ ⟨1, .one⟩ (sv := ⟨-1, .one⟩) (by decide +kernel)).1

/-- A trajectory of four points. -/
def exLong : P := ⟨[(some 0, some 0), (some 1, some 0), (some 1, some 1), (some 0, some 1)], [some 0, some 1, some 2, some 3], .mm, .mm, .s⟩

theorem exLong_step : step exLong = 1 := by
  unfold step
  rw [List.mergeSort_of_pairwise (by decide +kernel)]
  decide +kernel

example : ∃ q q', breakOne (fun _ => [1]) exLong = [q, q'] ∧ ((some 1, some 1), some (some 2)) ∈ rows q ∧ ((some 1, some 1), some (some 2)) ∈ rows q' :=
  C246_overlap_violated (by simp [Traj, exLong]) (by simp [exLong]) (b := 1) rfl (t := 2) (by simp [rows, exLong]) rfl (by decide +kernel) (by rw [exLong_step]; decide +kernel)

end IMT.Cps
