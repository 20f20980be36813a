import Verif.Phase.Model
import Verif.Trace.Props
import Verif.Scalar.Reduce

/-! C261: maps of the phase of a record. -/

namespace IMT.Phase

open Temporal (TF inside mapRes)
open Profile (Prof pts IsArgsort)
open Turb (SRecord ShowsS)
open Trace (timeProfile Covers Nearest)

variable {srt : List Rat → List Nat} {t : TF} {u : Sym}

/-! ### specification -/

/-- The times of the record from 0 to `T`. -/
def times (t : TF) (T : Rat) : List Rat := t.times.filter fun a => decide (0 ≤ a ∧ a ≤ T)

/-- `l` is what the record shows at `(x, y)` at these times. -/
def Values (t : TF) (T x y : Rat) (l : List (Option Rat)) : Prop :=
  ∃ v, ShowsS t x y v ∧ l = ((t.times.zip v).filter fun e => decide (0 ≤ e.1 ∧ e.1 ≤ T)).map Prod.snd

/-! ### lemmas -/

theorem zip_filter_fst {l : List Rat} {v : List (Option Rat)} (h : l.length = v.length) (p : Rat → Bool) :
    ((l.zip v).filter fun e => p e.1).map Prod.fst = l.filter p := by
  induction l generalizing v with
  | nil => rfl
  | cons a l ih =>
    cases v with
    | nil => simp at h
    | cons b v =>
      simp only [List.length_cons, Nat.add_right_cancel_iff] at h
      rw [List.zip_cons_cons, List.filter_cons, List.filter_cons]
      split
      · rw [List.map_cons, ih h]
      · exact ih h

theorem values_unique (h : SRecord t u) {T x y : Rat} (hx : x ∈ t.ax) (hy : y ∈ t.ay) {l k : List (Option Rat)} (h1 : Values t T x y l) (h2 : Values t T x y k) :
    l = k := by
  obtain ⟨v, hv, rfl⟩ := h1
  obtain ⟨w, hw, rfl⟩ := h2
  obtain ⟨i, hi⟩ := List.getElem?_of_mem hx
  obtain ⟨j, hj⟩ := List.getElem?_of_mem hy
  rw [(Turb.sshows_cells h hi hj _).1 hv, (Turb.sshows_cells h hi hj _).1 hw]

theorem values_exist (h : SRecord t u) {x y : Rat} (T : Rat) (hx : x ∈ t.ax) (hy : y ∈ t.ay) : ∃ l, Values t T x y l := by
  obtain ⟨i, hi⟩ := List.getElem?_of_mem hx
  obtain ⟨j, hj⟩ := List.getElem?_of_mem hy
  exact ⟨_, _, (Turb.sshows_cells h hi hj _).2 rfl, rfl⟩

theorem point_eq (hs : IsArgsort srt) (h : SRecord t u) (S : Spectrum) (freq : Rat) {T x y : Rat} (hT : 0 < T) (hx : x ∈ t.ax) (hy : y ∈ t.ay)
    {l : List (Option Rat)} (hl : Values t T x y l) :
    point srt S t freq T x y = match times t T with
      | a :: b :: _ => .ok (S l (b - a) freq)
      | _ => .error .indexError := by
  obtain ⟨q, x', y', v, e, hv, -, -, hn, hsh, hp⟩ := Trace.C203_profile hs h (a := x) (b := y) ⟨⟨x, hx, le_refl x⟩, x, hx, le_refl x⟩
    ⟨⟨y, hy, le_refl y⟩, y, hy, le_refl y⟩ (w := some (0, T)) fun lo hi e => by cases e; exact hT
  have e1 : x' = x := by
    have := hn.2.2.1 x hx
    rw [sub_self, abs_zero] at this
    linarith [abs_eq_zero.1 (le_antisymm this (abs_nonneg _))]
  have e2 : y' = y := by
    have := hn.2.2.2 y hy
    rw [sub_self, abs_zero] at this
    linarith [abs_eq_zero.1 (le_antisymm this (abs_nonneg _))]
  subst e1 e2
  have hlen : t.times.length = v.length := by
    rw [← hsh.length_eq]
    exact h.ok.paired
  have hp' : pts q = (t.times.zip v).filter fun e => decide (0 ≤ e.1 ∧ e.1 ≤ T) := hp
  have hvl : Values t T x' y' ((pts q).map Prod.snd) := ⟨v, hsh, by rw [hp']⟩
  have hly : (Profile.getY q).length = q.x.length := by
    unfold Profile.getY Profile.blank
    rw [List.length_zipWith, hv.1, hv.2.1, List.length_map, hv.1]
    simp
  have q1 : q.x = times t T := by
    have : (pts q).map Prod.fst = q.x := by
      unfold pts
      rw [List.map_fst_zip (by omega)]
    rw [← this, hp', zip_filter_fst hlen fun a => decide (0 ≤ a ∧ a ≤ T)]
    rfl
  have q2 : Profile.getY q = l := by
    have : (pts q).map Prod.snd = Profile.getY q := by
      unfold pts
      rw [List.map_snd_zip (by omega)]
    rw [← this]
    exact values_unique h hx hy hvl hl
  unfold point
  rw [e]
  simp only
  rw [q1, q2]
  rcases times t T with _ | ⟨a, _ | ⟨b, r⟩⟩ <;> rfl

/-- The tables of the loops. -/
theorem table_get (hs : IsArgsort srt) (h : SRecord t u) (S : Spectrum) (freq : Rat) {T : Rat} (hT : 0 < T) (π : Option Rat × Option Rat → Option Rat)
    {a b : Rat} {rest : List Rat} (ht : times t T = a :: b :: rest) {i j : Nat} {x y : Rat} (hi : t.ax[i]? = some x) (hj : t.ay[j]? = some y)
    {l : List (Option Rat)} (hl : Values t T x y l) : (table srt S t freq T π).get i j = π (S l (b - a) freq) := by
  unfold table
  simp only
  rw [List.getD_eq_getElem?_getD, hi, List.getD_eq_getElem?_getD, hj]
  simp only [Option.getD_some]
  rw [point_eq hs h S freq hT (List.mem_of_getElem? hi) (List.mem_of_getElem? hj) hl, ht]

theorem loop_ok (hs : IsArgsort srt) (h : SRecord t u) (S : Spectrum) (freq : Rat) {T : Rat} (hT : 0 < T) {a b : Rat} {rest : List Rat}
    (ht : times t T = a :: b :: rest) :
    ∃ k, mapRes (fun q : Rat × Rat => point srt S t freq T q.1 q.2) (t.ax.flatMap fun x => t.ay.map fun y => (x, y)) = .ok k := by
  apply Temporal.mapRes_exists
  intro q hq
  obtain ⟨x, hx, hq⟩ := List.mem_flatMap.1 hq
  obtain ⟨y, hy, rfl⟩ := List.mem_map.1 hq
  obtain ⟨l, hl⟩ := values_exist h T hx hy
  refine ⟨S l (b - a) freq, ?_⟩
  rw [point_eq hs h S freq hT hx hy hl, ht]

theorem import_none {ax ay : List Rat} {v : Grid (Option Rat)} {ux uy uv : Sym} (hx : v.nx = ax.length) (hy : v.ny = ay.length) (h2x : 2 ≤ ax.length)
    (h2y : 2 ≤ ay.length) (ix : Inc ax) (iy : Inc ay) :
    ∃ g, SF.importArrays ax ay v .none ux uy uv = .ok g ∧ g.WF ∧ g.ax = ax ∧ g.ay = ay ∧ (∀ i j, g.cell i j = v.get i j) ∧ g.ux = ux ∧ g.uy = uy ∧ g.uv = uv := by
  obtain ⟨g, e, gx, gy, w, c, u⟩ := SF.import_inc (m := .none) (ux := ux) (uy := uy) (uv := uv) hx hy h2x h2y trivial ix iy
  exact ⟨g, e, w, gx, gy, fun i j => by rw [c]; simp [SF.MaskArg.get], u⟩

/-! ### C261 -/

/-- **C261** On a grid that has not as many points along x as along y, get_phase_map gives at each point the modulus and the argument of the transform, at
the frequency nearest to the wanted one, of the values shown there at the times from 0 to `tf`.  Missing: square grids; without `tf` the number of fields is
taken for the last time. -/
theorem C261_map_partial (hs : IsArgsort srt) (h : SRecord t u) (S : Spectrum) (rad : Sym) (freq : Rat) {tf : Option Rat} {T : Rat}
    (hTf : T = tf.getD t.fields.length) (hT : 0 < T) (h2x : 2 ≤ t.ax.length) (h2y : 2 ≤ t.ay.length) (hne : t.ax.length ≠ t.ay.length)
    {a b : Rat} {rest : List Rat} (ht : times t T = a :: b :: rest) :
    ∃ A B, phaseMap srt S rad t freq tf = .ok (A, B) ∧ A.WF ∧ B.WF ∧ A.ax = t.ax ∧ A.ay = t.ay ∧ B.ax = t.ax ∧ B.ay = t.ay ∧
      A.ux = t.ux ∧ A.uy = t.uy ∧ A.uv = Sym.one ∧ B.ux = t.ux ∧ B.uy = t.uy ∧ B.uv = rad ∧
      ∀ x ∈ t.ax, ∀ y ∈ t.ay, ∀ l, Values t T x y l → A.Reads x y (S l (b - a) freq).1 ∧ B.Reads x y (S l (b - a) freq).2 := by
  obtain ⟨ix, iy, -, -⟩ := Trace.axes h
  obtain ⟨k, hk⟩ := loop_ok hs h S freq hT ht
  obtain ⟨A, e1, w1, ax1, ay1, c1, u1⟩ := import_none (v := table srt S t freq T Prod.fst) (ux := t.ux) (uy := t.uy) (uv := Sym.one) rfl rfl h2x h2y ix iy
  obtain ⟨B, e2, w2, ax2, ay2, c2, u2⟩ := import_none (v := table srt S t freq T Prod.snd) (ux := t.ux) (uy := t.uy) (uv := rad) rfl rfl h2x h2y ix iy
  refine ⟨A, B, ?_, w1, w2, ax1, ay1, ax2, ay2, u1.1, u1.2.1, u1.2.2, u2.1, u2.2.1, u2.2.2, ?_⟩
  · unfold phaseMap
    rw [← hTf, hk]
    simp only
    rw [SF.import_transposed (v := (table srt S t freq T Prod.fst).transpose) (m := .none) rfl rfl hne trivial,
      SF.import_transposed (v := (table srt S t freq T Prod.snd).transpose) (m := .none) rfl rfl hne trivial]
    have tt : ∀ g : Grid (Option Rat), g.transpose.transpose = g := fun _ => rfl
    rw [tt, tt, e1, e2]
  · intro x hx y hy l hl
    obtain ⟨i, hi⟩ := List.getElem?_of_mem hx
    obtain ⟨j, hj⟩ := List.getElem?_of_mem hy
    exact ⟨⟨i, j, by rw [ax1]; exact hi, by rw [ay1]; exact hj, by rw [c1]; exact table_get hs h S freq hT _ ht hi hj hl⟩,
      ⟨i, j, by rw [ax2]; exact hi, by rw [ay2]; exact hj, by rw [c2]; exact table_get hs h S freq hT _ ht hi hj hl⟩⟩

/-- **C261** On a square grid the maps are transposed: what is given at the point of indices `i`, `j` is the spectrum of the point of indices `j`, `i`. -/
theorem C261_square_violated (hs : IsArgsort srt) (h : SRecord t u) (S : Spectrum) (rad : Sym) (freq : Rat) {tf : Option Rat} {T : Rat}
    (hTf : T = tf.getD t.fields.length) (hT : 0 < T) (h2x : 2 ≤ t.ax.length) (hsq : t.ax.length = t.ay.length)
    {a b : Rat} {rest : List Rat} (ht : times t T = a :: b :: rest) :
    ∃ A B, phaseMap srt S rad t freq tf = .ok (A, B) ∧
      ∀ (i j : Nat) x y x' y' l, t.ax[i]? = some x → t.ay[j]? = some y → t.ax[j]? = some x' → t.ay[i]? = some y' → Values t T x' y' l →
        A.Reads x y (S l (b - a) freq).1 ∧ B.Reads x y (S l (b - a) freq).2 := by
  obtain ⟨ix, iy, -, -⟩ := Trace.axes h
  obtain ⟨k, hk⟩ := loop_ok hs h S freq hT ht
  obtain ⟨A, e1, w1, ax1, ay1, c1, u1⟩ := import_none (v := (table srt S t freq T Prod.fst).transpose) (ux := t.ux) (uy := t.uy) (uv := Sym.one) hsq.symm hsq h2x
    (by omega) ix iy
  obtain ⟨B, e2, w2, ax2, ay2, c2, u2⟩ := import_none (v := (table srt S t freq T Prod.snd).transpose) (ux := t.ux) (uy := t.uy) (uv := rad) hsq.symm hsq h2x
    (by omega) ix iy
  refine ⟨A, B, ?_, ?_⟩
  · unfold phaseMap
    rw [← hTf, hk]
    simp only
    rw [e1, e2]
  · intro i j x y x' y' l hi hj hi' hj' hl
    exact ⟨⟨i, j, by rw [ax1]; exact hi, by rw [ay1]; exact hj, by rw [c1]; exact table_get hs h S freq hT _ ht hi' hj' hl⟩,
      ⟨i, j, by rw [ax2]; exact hi, by rw [ay2]; exact hj, by rw [c2]; exact table_get hs h S freq hT _ ht hi' hj' hl⟩⟩

/-- **C261** Without `tf` the number of fields is taken for the last time: a record whose second time is greater, such as one of three fields at the times
0, 10 and 20, is refused with IndexError. -/
theorem C261_default_violated (hs : IsArgsort srt) (h : SRecord t u) (S : Spectrum) (rad : Sym) (freq : Rat) {first second : Rat} {rest : List Rat}
    (htimes : t.times = first :: second :: rest) (hlong : (t.fields.length : Rat) < second) : phaseMap srt S rad t freq none = .error .indexError := by
  have hT : (0 : Rat) < t.fields.length := by
    have : 0 < t.fields.length := List.length_pos_iff.2 h.ne
    exact_mod_cast this
  have hinc := h.inc
  rw [htimes] at hinc
  have hno : ∀ c ∈ second :: rest, ¬ (0 ≤ c ∧ c ≤ (t.fields.length : Rat)) := by
    intro c hc
    have h2 := (List.pairwise_cons.1 hinc).2
    rcases List.mem_cons.1 hc with rfl | hc
    · intro hh; linarith [hh.2]
    · have := (List.pairwise_cons.1 h2).1 c hc
      intro hh; linarith [hh.2]
  have ht : times t t.fields.length = [] ∨ times t t.fields.length = [first] := by
    unfold times
    rw [htimes, List.filter_cons, List.filter_eq_nil_iff.2 (fun c hc => by simpa using hno c hc)]
    split
    · exact .inr rfl
    · exact .inl rfl
  obtain ⟨-, -, nx, ny⟩ := Trace.axes h
  obtain ⟨x, ax, hax⟩ := List.exists_cons_of_ne_nil nx
  obtain ⟨y, ay, hay⟩ := List.exists_cons_of_ne_nil ny
  have hx : x ∈ t.ax := by rw [hax]; simp
  have hy : y ∈ t.ay := by rw [hay]; simp
  obtain ⟨l, hl⟩ := values_exist h t.fields.length hx hy
  have e : point srt S t freq t.fields.length x y = .error .indexError := by
    rw [point_eq hs h S freq hT hx hy hl]
    rcases ht with ht | ht <;> rw [ht]
  have hmap : mapRes (fun q : Rat × Rat => point srt S t freq t.fields.length q.1 q.2) (t.ax.flatMap fun x => t.ay.map fun y => (x, y)) = .error .indexError := by
    rw [hax, hay, List.flatMap_cons, List.map_cons, List.cons_append]
    unfold mapRes
    simp only
    rw [e]
  unfold phaseMap
  simp only [Option.getD_none]
  rw [hmap]

end IMT.Phase
