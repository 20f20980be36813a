import Verif.Line.Model
import Verif.Scalar.Value
import Verif.Profile.Props

/-! C187: the profiles of a scalar field. -/

namespace IMT.Line

open Profile (Prof F MaskArg IsArgsort pts)

variable {srt : List Rat → List Nat}

/-! ### specification -/

/-- The field shows `r` at the position `v` along the chosen direction and `q` along the other one. -/
def Sees (f : SF) (d : Dir) (v q : Rat) (r : Option Rat) : Prop :=
  match d with
  | .x => f.Reads v q r
  | .y => f.Reads q v r

/-- The profile `p` has one point for each grid position `q` of the other axis, in its unit; it shows the `r` such that `R q r`, in the
unit of the values; the points are in order and the masked ones are those without value. -/
structure Along (f : SF) (d : Dir) (p : Prof) (R : Rat → Option Rat → Prop) : Prop where
  x : p.x = other f d
  ux : (d = .x → p.ux = f.uy) ∧ (d = .y → p.ux = f.ux)
  uy : p.uy = f.uv
  ok : Profile.Valid p
  shows : ∀ q r, (q, r) ∈ pts p ↔ q ∈ other f d ∧ R q r

/-! ### lemmas -/

theorem other_inc {f : SF} (hf : f.WF) (d : Dir) : Inc (other f d) := by
  cases d
  · exact hf.incy
  · exact hf.incx

theorem axe_inc {f : SF} (hf : f.WF) (d : Dir) : Inc (axe f d) := by
  cases d
  · exact hf.incx
  · exact hf.incy

theorem axe_ne {f : SF} (hf : f.WF) (d : Dir) : axe f d ≠ [] := by
  cases d
  · exact hf.nex
  · exact hf.ney

theorem sees_iff (f : SF) (d : Dir) (v q : Rat) (r : Option Rat) :
    Sees f d v q r ↔ ∃ i k : Nat, (axe f d)[i]? = some v ∧ (other f d)[k]? = some q ∧ val f d i k = r := by
  cases d
  · exact Iff.rfl
  · constructor
    · rintro ⟨i, k, h1, h2, h3⟩; exact ⟨k, i, h2, h1, h3⟩
    · rintro ⟨i, k, h1, h2, h3⟩; exact ⟨k, i, h2, h1, h3⟩

theorem sees_unique {f : SF} (hf : f.WF) {d : Dir} {v q : Rat} {r s : Option Rat} (h1 : Sees f d v q r) (h2 : Sees f d v q s) : r = s := by
  rw [sees_iff] at h1 h2
  obtain ⟨i, k, a, b, rfl⟩ := h1
  obtain ⟨i', k', a', b', rfl⟩ := h2
  rw [(axe_inc hf d).idx_inj' a a', (other_inc hf d).idx_inj' b b']

theorem zip_blank_mem (x : List Rat) (y : List F) (m : List Bool) (q : Rat) (r : Option Rat) (hy : y.length = x.length)
    (hm : m.length = x.length) : (q, r) ∈ x.zip (Profile.blank y m) ↔
      ∃ k : Nat, x[k]? = some q ∧ ∃ a b, y[k]? = some a ∧ m[k]? = some b ∧ r = if b then none else a := by
  rw [List.mem_iff_getElem?]
  constructor
  · rintro ⟨k, hk⟩
    rw [List.getElem?_zip_eq_some] at hk
    refine ⟨k, hk.1, ?_⟩
    unfold Profile.blank at hk
    obtain ⟨a, b, h1, h2, h3⟩ := List.getElem?_zipWith_eq_some.1 hk.2
    exact ⟨a, b, h1, h2, h3.symm⟩
  · rintro ⟨k, h1, a, b, h2, h3, h4⟩
    refine ⟨k, ?_⟩
    rw [List.getElem?_zip_eq_some]
    refine ⟨h1, ?_⟩
    unfold Profile.blank
    exact List.getElem?_zipWith_eq_some.2 ⟨a, b, h2, h3, h4.symm⟩

theorem new_along (hs : IsArgsort srt) {f : SF} (hf : f.WF) (d : Dir) (y : List F) (m : List Bool)
    (hy : y.length = (other f d).length) (hm : m.length = (other f d).length) :
    ∃ p, Profile.new srt (other f d) y (.arr m) (unit f d) f.uv = .ok p ∧ p.m = (Profile.blank y m).map Option.isNone ∧
      Along f d p fun q r => ∃ k : Nat, (other f d)[k]? = some q ∧ ∃ a b, y[k]? = some a ∧ m[k]? = some b ∧ r = if b then none else a := by
  refine ⟨_, Profile.new_arr _ _ hy hm, ?_, ?_⟩
  · rw [Profile.build_inc hs _ _ (other_inc hf d) hy hm]
  have hv := (Profile.build_spec hs (unit f d) f.uv hy hm (srt := srt)).1
  have e := Profile.build_inc hs (unit f d) f.uv (other_inc hf d) hy hm
  refine ⟨by rw [e], ⟨by rintro rfl; rw [e]; rfl, by rintro rfl; rw [e]; rfl⟩, by rw [e], hv, fun q r => ?_⟩
  rw [Profile.pts_valid hv, e]
  show (q, r) ∈ (other f d).zip (Profile.blank y m) ↔ _
  rw [zip_blank_mem _ _ _ _ _ hy hm]
  constructor
  · rintro ⟨k, h1, h2⟩; exact ⟨List.mem_of_getElem? h1, k, h1, h2⟩
  · rintro ⟨-, k, h1, h2⟩; exact ⟨k, h1, h2⟩

theorem collect_ok {α β : Type} (l : List α) (g : α → Res β) (h : α → β) (hg : ∀ a ∈ l, g a = .ok (h a)) :
    collect (l.map g) = .ok (l.map h) := by
  induction l with
  | nil => rfl
  | cons a l ih =>
    simp only [List.map_cons, hg a (by simp), collect]
    rw [ih fun b hb => hg b (List.mem_cons_of_mem _ hb)]

theorem interpolated_along (hs : IsArgsort srt) (main : Bool) {f : SF} (hf : f.WF) (d : Dir) (v : Rat) (h : Rat → Option Rat)
    (hg : ∀ q ∈ other f d, valueOn main f d v q = .ok (h q)) :
    ∃ p, interpolated main srt f d v = .ok p ∧ Along f d p fun q r => r = h q := by
  unfold interpolated
  rw [collect_ok _ _ _ hg]
  have hy : ((other f d).map h).length = (other f d).length := by simp
  obtain ⟨p, hp, -, ha⟩ := new_along hs hf d ((other f d).map h) (List.replicate (other f d).length false) hy (by simp)
  have e : Profile.new srt (other f d) ((other f d).map h) (.flag false) (unit f d) f.uv =
      Profile.new srt (other f d) ((other f d).map h) (.arr (List.replicate (other f d).length false)) (unit f d) f.uv := by
    rw [Profile.new_flag _ _ _ hy, Profile.new_arr _ _ hy (by simp)]
  refine ⟨p, by rw [← hp, ← e], ha.x, ha.ux, ha.uy, ha.ok, fun q r => ?_⟩
  rw [ha.shows]
  constructor
  · rintro ⟨hq, k, h1, a, b, h2, h3, h4⟩
    refine ⟨hq, ?_⟩
    rw [List.getElem?_map, h1] at h2
    simp only [Option.map_some, Option.some.injEq] at h2
    have := List.mem_of_getElem? h3
    rw [List.mem_replicate] at this
    rw [h4, this.2, ← h2]
    simp
  · rintro ⟨hq, rfl⟩
    obtain ⟨k, hk⟩ := List.mem_iff_getElem?.1 hq
    refine ⟨hq, k, hk, h q, false, by rw [List.getElem?_map, hk]; rfl, ?_, by simp⟩
    rw [List.getElem?_replicate, if_pos (getElem?_some_lt hk)]

theorem not_beyond {l : List Rat} {v : Rat} (hl : Inc l) (hne : l ≠ []) (hb : ¬ beyond l v) :
    l.head hne ≤ v ∧ v ≤ l.getLast hne := by
  unfold beyond at hb
  push Not at hb
  obtain ⟨⟨a, ha, h1⟩, b, hb', h2⟩ := hb
  obtain ⟨i, hi⟩ := List.mem_iff_getElem?.1 ha
  obtain ⟨j, hj⟩ := List.mem_iff_getElem?.1 hb'
  obtain ⟨_, q, _, hq, _, h3⟩ := SF.head_last_of_mem hl hi
  obtain ⟨p, _, hp, _, h4, _⟩ := SF.head_last_of_mem hl hj
  rw [List.head?_eq_some_head hne] at hp
  rw [List.getLast?_eq_some_getLast hne] at hq
  simp only [Option.some.injEq] at hp hq
  rw [hp, hq]
  constructor <;> linarith

theorem mem_not_beyond {l : List Rat} {v : Rat} (h : v ∈ l) : ¬ beyond l v := by
  rintro (hb | hb)
  · exact lt_irrefl _ (hb v h)
  · exact lt_irrefl _ (hb v h)

theorem between_not_beyond {l : List Rat} {u v w : Rat} {i : Nat} (hu : l[i]? = some u) (hw : l[i + 1]? = some w) (h1 : u < v)
    (h2 : v < w) : ¬ beyond l v := by
  rintro (hb | hb)
  · exact lt_asymm h2 (hb w (List.mem_of_getElem? hw))
  · exact lt_asymm h1 (hb u (List.mem_of_getElem? hu))

/-! ### C187 -/

/-- **C187** The profile at a grid position shows what the field shows along that grid line. -/
theorem C187_grid (hs : IsArgsort srt) (main : Bool) {f : SF} (hf : f.WF) (d : Dir) {v : Rat} (hv : v ∈ axe f d) :
    ∃ p, getProfile main srt f d v .linear = .ok p ∧ Along f d p fun q r => Sees f d v q r := by
  obtain ⟨i, hi⟩ := List.mem_iff_getElem?.1 hv
  have hval : ∀ q ∈ other f d, ∃ r, Sees f d v q r ∧ valueOn main f d v q = .ok r := by
    intro q hq
    obtain ⟨k, hk⟩ := List.mem_iff_getElem?.1 hq
    have hsee : Sees f d v q (val f d i k) := (sees_iff ..).2 ⟨i, k, hi, hk, rfl⟩
    refine ⟨_, hsee, ?_⟩
    cases d
    · exact SF.C23_node main hf hsee
    · exact SF.C23_node main hf hsee
  choose! h hh using hval
  obtain ⟨p, hp, ha⟩ := interpolated_along hs main hf d v h fun q hq => (hh q hq).2
  refine ⟨p, ?_, ha.x, ha.ux, ha.uy, ha.ok, fun q r => ?_⟩
  · unfold getProfile
    rw [if_neg (mem_not_beyond hv)]
    exact hp
  · rw [ha.shows]
    constructor
    · rintro ⟨hq, rfl⟩; exact ⟨hq, (hh q hq).1⟩
    · rintro ⟨hq, hr⟩; exact ⟨hq, sees_unique hf hr (hh q hq).1⟩

/-- **C187** Between two neighbouring grid lines the profile shows the linear interpolation of what the field shows on them, and nothing where
one of them is masked. -/
theorem C187_between (hs : IsArgsort srt) (main : Bool) {f : SF} (hf : f.WF) (d : Dir) {v u w : Rat} {i : Nat}
    (hu : (axe f d)[i]? = some u) (hw : (axe f d)[i + 1]? = some w) (h1 : u < v) (h2 : v < w) :
    ∃ p, getProfile main srt f d v .linear = .ok p ∧ Along f d p fun q r =>
      (∃ a b, Sees f d u q (some a) ∧ Sees f d w q (some b) ∧ r = some (a + (v - u) / (w - u) * (b - a))) ∨
        ((Sees f d u q none ∨ Sees f d w q none) ∧ r = none) := by
  have hval : ∀ q ∈ other f d, ∃ r, valueOn main f d v q = .ok r ∧
      ∀ s, (((∃ a b, Sees f d u q (some a) ∧ Sees f d w q (some b) ∧ s = some (a + (v - u) / (w - u) * (b - a))) ∨
        ((Sees f d u q none ∨ Sees f d w q none) ∧ s = none)) ↔ s = r) := by
    intro q hq
    obtain ⟨k, hk⟩ := List.mem_iff_getElem?.1 hq
    have s1 : Sees f d u q (val f d i k) := (sees_iff ..).2 ⟨i, k, hu, hk, rfl⟩
    have s2 : Sees f d w q (val f d (i + 1) k) := (sees_iff ..).2 ⟨i + 1, k, hw, hk, rfl⟩
    have e : valueOn main f d v q = .ok (match val f d i k, val f d (i + 1) k with
        | some a, some b => some (a + (v - u) / (w - u) * (b - a))
        | _, _ => none) := by
      cases d
      · exact SF.C23_edge_x main hf hk hu hw h1 h2
      · exact SF.C23_edge_y main hf hk hu hw h1 h2
    refine ⟨_, e, fun s => ?_⟩
    cases ha : val f d i k with
    | none =>
      rw [ha] at s1
      constructor
      · rintro (⟨a, b, h3, -, -⟩ | ⟨-, h4⟩)
        · exact absurd (sees_unique hf s1 h3) (by simp)
        · exact h4
      · intro h3; exact .inr ⟨.inl s1, h3⟩
    | some a =>
      rw [ha] at s1
      cases hb : val f d (i + 1) k with
      | none =>
        rw [hb] at s2
        constructor
        · rintro (⟨a, b, -, h3, -⟩ | ⟨-, h4⟩)
          · exact absurd (sees_unique hf s2 h3) (by simp)
          · exact h4
        · intro h3; exact .inr ⟨.inr s2, h3⟩
      | some b =>
        rw [hb] at s2
        constructor
        · rintro (⟨a', b', h3, h4, h5⟩ | ⟨h3 | h3, -⟩)
          · have ea := sees_unique hf s1 h3
            have eb := sees_unique hf s2 h4
            simp only [Option.some.injEq] at ea eb
            rw [h5, ea, eb]
          · exact absurd (sees_unique hf s1 h3) (by simp)
          · exact absurd (sees_unique hf s2 h3) (by simp)
        · intro h3; exact .inl ⟨a, b, s1, s2, h3⟩
  choose! h hh using hval
  obtain ⟨p, hp, ha⟩ := interpolated_along hs main hf d v h fun q hq => (hh q hq).1
  refine ⟨p, ?_, ha.x, ha.ux, ha.uy, ha.ok, fun q r => ?_⟩
  · unfold getProfile
    rw [if_neg (between_not_beyond hu hw h1 h2)]
    exact hp
  · rw [ha.shows]
    constructor
    · rintro ⟨hq, hr⟩; exact ⟨hq, ((hh q hq).2 r).2 hr⟩
    · rintro ⟨hq, hr⟩; exact ⟨hq, ((hh q hq).2 r).1 hr⟩

/-- **C187** Positions outside of the axis are refused, and only them: any other one is on a grid line or between two neighbours. -/
theorem C187_refused (main : Bool) {f : SF} (hf : f.WF) (d : Dir) (v : Rat) :
    ((∀ a ∈ axe f d, a < v) ∨ (∀ a ∈ axe f d, v < a) → ∀ k, getProfile main srt f d v k = .error .valueError) ∧
    (¬ ((∀ a ∈ axe f d, a < v) ∨ ∀ a ∈ axe f d, v < a) → v ∈ axe f d ∨
      ∃ (i : Nat) (u w : Rat), (axe f d)[i]? = some u ∧ (axe f d)[i + 1]? = some w ∧ u < v ∧ v < w) := by
  constructor
  · intro h k
    unfold getProfile
    rw [if_pos (show beyond (axe f d) v from h)]
  · intro h
    obtain ⟨h1, h2⟩ := not_beyond (axe_inc hf d) (axe_ne hf d) h
    obtain ⟨i, j, -, hc⟩ := Axis.C01_bounds_bracket (axe_inc hf d) (List.head?_eq_some_head (axe_ne hf d))
      (List.getLast?_eq_some_getLast (axe_ne hf d)) h1 h2
    rcases hc with ⟨-, hi⟩ | ⟨-, rfl, lo, hi, h3, h4, h5, h6⟩
    · exact .inl (List.mem_of_getElem? hi)
    · exact .inr ⟨i, lo, hi, h3, h4, h5, h6⟩

theorem gridLine_along (hs : IsArgsort srt) {f : SF} (hf : f.WF) (d : Dir) {i : Nat} {v : Rat} (hi : (axe f d)[i]? = some v) :
    ∃ p, gridLine srt f d i = .ok p ∧ Along f d p fun q r => Sees f d v q r := by
  unfold gridLine
  obtain ⟨p, hp, -, ha⟩ := new_along hs hf d ((List.range (other f d).length).map (val f d i))
    ((List.range (other f d).length).map (msk f d i)) (by simp) (by simp)
  refine ⟨p, hp, ha.x, ha.ux, ha.uy, ha.ok, fun q r => ?_⟩
  rw [ha.shows]
  have hcell : ∀ k, (if msk f d i k then none else val f d i k) = val f d i k := by
    intro k
    cases d <;> simp only [msk, val, SF.cell] <;> split <;> rfl
  constructor
  · rintro ⟨hq, k, h1, a, b, h2, h3, h4⟩
    refine ⟨hq, (sees_iff ..).2 ⟨i, k, hi, h1, ?_⟩⟩
    have hk := getElem?_some_lt h1
    rw [List.getElem?_map, List.getElem?_range hk] at h2 h3
    simp only [Option.map_some, Option.some.injEq] at h2 h3
    rw [h4, ← h2, ← h3, hcell]
  · rintro ⟨hq, hr⟩
    obtain ⟨i', k, h1, h2, h3⟩ := (sees_iff ..).1 hr
    have hk := getElem?_some_lt h2
    have : i' = i := (axe_inc hf d).idx_inj' h1 hi
    subst this
    refine ⟨hq, k, h2, val f d i' k, msk f d i' k, ?_, ?_, ?_⟩
    · rw [List.getElem?_map, List.getElem?_range hk]; rfl
    · rw [List.getElem?_map, List.getElem?_range hk]; rfl
    · rw [hcell, h3]

/-- **C187** Chosen by index, the profile is that of the grid line with this index, whatever `interp`; other indices are refused. -/
theorem C187_index (hs : IsArgsort srt) (main : Bool) {f : SF} (hf : f.WF) (d : Dir) (k : Interp) :
    (∀ (i : Nat) (v : Rat), (axe f d)[i]? = some v →
      ∃ p, getProfileInd main srt f d i k = .ok p ∧ Along f d p fun q r => Sees f d v q r) ∧
    ∀ i : Int, i < 0 ∨ (axe f d).length ≤ i → getProfileInd main srt f d i k = .error .valueError := by
  constructor
  · intro i v hi
    have hl := getElem?_some_lt hi
    unfold getProfileInd
    rw [if_neg (by push Not; constructor <;> omega)]
    cases k
    · simp only [Int.toNat_natCast]
      rw [SF.getD_of_getElem? hi]
      obtain ⟨p, hp, ha⟩ := C187_grid hs main hf d (List.mem_of_getElem? hi)
      refine ⟨p, ?_, ha⟩
      unfold getProfile at hp
      rw [if_neg (mem_not_beyond (List.mem_of_getElem? hi))] at hp
      exact hp
    · simp only [Int.toNat_natCast]
      exact gridLine_along hs hf d hi
  · intro i hi
    unfold getProfileInd
    rw [if_pos (by omega)]

theorem stopAt_spec {l : List Rat} {v : Rat} (hl : Inc l) (h2 : 2 ≤ l.length) (hb : ¬ beyond l v) :
    ∃ (k : Nat) (u w : Rat), stopAt l v = k + 1 ∧ l[k]? = some u ∧ l[k + 1]? = some w ∧ u ≤ v ∧ v ≤ w := by
  have hne : l ≠ [] := by rintro rfl; simp at h2
  obtain ⟨h3, h4⟩ := not_beyond hl hne hb
  obtain ⟨i, j, -, hc⟩ := Axis.C01_bounds_bracket hl (List.head?_eq_some_head hne) (List.getLast?_eq_some_getLast hne) h3 h4
  have hex : ∃ (k : Nat) (u w : Rat), l[k]? = some u ∧ l[k + 1]? = some w ∧ u ≤ v ∧ v ≤ w := by
    rcases hc with ⟨-, hi⟩ | ⟨-, rfl, lo, hi, h5, h6, h7, h8⟩
    · have hil := getElem?_some_lt hi
      rcases Nat.eq_zero_or_pos i with rfl | hp
      · refine ⟨0, v, l[1], hi, List.getElem?_eq_getElem (by omega), le_rfl, ?_⟩
        exact le_of_lt (hl.get_lt hi (List.getElem?_eq_getElem (by omega)) (by omega))
      · obtain ⟨n, rfl⟩ : ∃ n, i = n + 1 := ⟨i - 1, by omega⟩
        refine ⟨n, l[n]'(by omega), v, List.getElem?_eq_getElem (by omega), hi, ?_, le_rfl⟩
        exact le_of_lt (hl.get_lt (List.getElem?_eq_getElem (by omega)) hi (by omega))
    · exact ⟨i, lo, hi, h5, h6, h7.le, h8.le⟩
  obtain ⟨k, u, w, hu, hw, h5, h6⟩ := hex
  unfold stopAt
  have hk := getElem?_some_lt hw
  cases hf : (List.range (l.length - 1)).find? fun k =>
      decide ((l.getD (k + 1) 0 ≥ v ∧ l.getD k 0 ≤ v) ∨ (l.getD (k + 1) 0 ≤ v ∧ l.getD k 0 ≥ v)) with
  | none =>
    have := List.find?_eq_none.1 hf k (by simp; omega)
    rw [SF.getD_of_getElem? hu, SF.getD_of_getElem? hw] at this
    exact absurd (decide_eq_true (.inl ⟨h6, h5⟩)) this
  | some m =>
    have hm := List.mem_of_find?_eq_some hf
    have hp := List.find?_some hf
    simp only [List.mem_range] at hm
    have e1 : l[m]? = some l[m] := List.getElem?_eq_getElem (by omega)
    have e2 : l[m + 1]? = some l[m + 1] := List.getElem?_eq_getElem (by omega)
    rw [SF.getD_of_getElem? e1, SF.getD_of_getElem? e2] at hp
    have hlt := hl.get_lt e1 e2 (by omega)
    rcases of_decide_eq_true hp with ⟨p1, p2⟩ | ⟨p1, p2⟩
    · exact ⟨m, _, _, rfl, e1, e2, p2, p1⟩
    · linarith

/-- **C187** With `interp='nearest'` the profile is that of a grid line nearest to the position. -/
theorem C187_nearest_partial (hs : IsArgsort srt) (main : Bool) {f : SF} (hf : f.WF) (d : Dir) (h2 : 2 ≤ (axe f d).length) {v : Rat}
    (hv : ¬ ((∀ a ∈ axe f d, a < v) ∨ ∀ a ∈ axe f d, v < a)) :
    ∃ p u, getProfile main srt f d v .nearest = .ok p ∧ u ∈ axe f d ∧ (∀ a ∈ axe f d, |u - v| ≤ |a - v|) ∧
      Along f d p fun q r => Sees f d u q r := by
  obtain ⟨k, u, w, hk, hu, hw, h3, h4⟩ := stopAt_spec (axe_inc hf d) h2 hv
  have hinc := axe_inc hf d
  have hmin : ∀ c ∈ [u, w], (∀ e ∈ [u, w], |c - v| ≤ |e - v|) → ∀ a ∈ axe f d, |c - v| ≤ |a - v| := by
    intro c _ hc a ha
    obtain ⟨m, hm⟩ := List.mem_iff_getElem?.1 ha
    rcases Nat.lt_or_ge k m with h | h
    · have := hinc.get_le hw hm h
      refine (hc w (by simp)).trans ?_
      rw [abs_of_nonneg (by linarith), abs_of_nonneg (by linarith)]; linarith
    · have := hinc.get_le hm hu h
      refine (hc u (by simp)).trans ?_
      rw [abs_of_nonpos (by linarith), abs_of_nonpos (by linarith)]; linarith
  unfold getProfile
  rw [if_neg (show ¬ beyond (axe f d) v from hv)]
  simp only
  rw [if_neg (by omega)]
  unfold closest
  rw [hk, Nat.add_sub_cancel, SF.getD_of_getElem? hu, SF.getD_of_getElem? hw]
  by_cases hc : |v - w| > |v - u|
  · rw [if_pos hc]
    obtain ⟨p, hp, ha⟩ := gridLine_along hs hf d hu
    refine ⟨p, u, hp, List.mem_of_getElem? hu, hmin u (by simp) ?_, ha⟩
    intro e he
    rw [abs_sub_comm v w, abs_sub_comm v u] at hc
    rcases List.mem_cons.1 he with rfl | he
    · exact le_rfl
    · rw [List.mem_singleton.1 he]; exact hc.le
  · rw [if_neg hc]
    obtain ⟨p, hp, ha⟩ := gridLine_along hs hf d hw
    refine ⟨p, w, hp, List.mem_of_getElem? hw, hmin w (by simp) ?_, ha⟩
    intro e he
    rw [abs_sub_comm v w, abs_sub_comm v u] at hc
    rcases List.mem_cons.1 he with rfl | he
    · exact not_lt.1 hc
    · rw [List.mem_singleton.1 he]

/-- **C187** In a field with one line only, `interp='nearest'` fails even at the position of the line. -/
theorem C187_nearest_violated (main : Bool) (f : SF) (d : Dir) {v : Rat} (h : axe f d = [v]) :
    getProfile main srt f d v .nearest = .error .nameError := by
  unfold getProfile
  rw [if_neg (by rw [h]; exact mem_not_beyond (by simp))]
  simp [h]

theorem mem_within {l : List Rat} (a b : Rat) (i : Nat) : i ∈ within l a b ↔ ∃ v, l[i]? = some v ∧ a ≤ v ∧ v ≤ b := by
  unfold within
  rw [List.mem_filter, List.mem_range]
  constructor
  · rintro ⟨h1, h2⟩
    refine ⟨l[i], List.getElem?_eq_getElem h1, ?_⟩
    rw [List.getD_eq_getElem?_getD, List.getElem?_eq_getElem h1] at h2
    simpa using h2
  · rintro ⟨v, h1, h2⟩
    refine ⟨getElem?_some_lt h1, ?_⟩
    rw [SF.getD_of_getElem? h1]
    simpa using h2

theorem within_map (l : List Rat) (a b : Rat) : (within l a b).map (fun i => l.getD i 0) = l.filter fun v => decide (a ≤ v ∧ v ≤ b) := by
  unfold within
  have : ∀ n, n ≤ l.length → ((List.range n).filter fun i => decide (a ≤ l.getD i 0 ∧ l.getD i 0 ≤ b)).map (fun i => l.getD i 0) =
      (l.take n).filter fun v => decide (a ≤ v ∧ v ≤ b) := by
    intro n
    induction n with
    | zero => simp
    | succ n ih =>
      intro hn
      have hg : l.getD n 0 = l[n]'(by omega) := by
        rw [List.getD_eq_getElem?_getD, List.getElem?_eq_getElem (by omega)]; rfl
      rw [List.range_succ, List.filter_append, List.map_append, ih (by omega), List.take_succ_eq_append_getElem (by omega), List.filter_append]
      congr 1
      rw [List.filter_singleton, List.filter_singleton, hg]
      by_cases h : a ≤ l[n] ∧ l[n] ≤ b
      · simp [h, List.getElem?_eq_getElem (show n < l.length by omega)]
      · simp [h]
  rw [this l.length le_rfl, List.take_length]

theorem mean_some {l : List (Option Rat)} {vals : List Rat} (h : l = vals.map some) (hne : vals ≠ []) :
    mean l = some (vals.sum / vals.length) := by
  subst h
  unfold mean
  rw [if_neg (by simpa using hne)]
  simp [List.filterMap_map]

/-- **C187** The profile of an interval shows the mean of what the field shows on the grid lines of the closed interval, and nothing where one
of them is masked or when there is no such line. -/
theorem C187_interval (hs : IsArgsort srt) {f : SF} (hf : f.WF) (d : Dir) (a b : Rat) :
    ∃ p, getProfileBetween srt f d a b = .ok p ∧ Along f d p fun q r =>
      (∃ vals : List Rat, vals ≠ [] ∧
        List.Forall₂ (fun v w => Sees f d v q (some w)) ((axe f d).filter fun v => decide (a ≤ v ∧ v ≤ b)) vals ∧
        r = some (vals.sum / vals.length)) ∨
      (((∀ v ∈ axe f d, ¬ (a ≤ v ∧ v ≤ b)) ∨ ∃ v ∈ axe f d, a ≤ v ∧ v ≤ b ∧ Sees f d v q none) ∧ r = none) := by
  unfold getProfileBetween
  obtain ⟨p, hp, -, ha⟩ := new_along hs hf d
    ((List.range (other f d).length).map fun k => mean ((within (axe f d) a b).map fun i => val f d i k))
    ((List.range (other f d).length).map fun k => (within (axe f d) a b).isEmpty || (within (axe f d) a b).any fun i => msk f d i k)
    (by simp) (by simp)
  refine ⟨p, hp, ha.x, ha.ux, ha.uy, ha.ok, fun q r => ?_⟩
  rw [ha.shows]
  have hmv : ∀ i k, msk f d i k = true → val f d i k = none := by
    intro i k h
    cases d <;> simp only [msk] at h <;> simp only [val, SF.cell, h, if_true]
  have hvm : ∀ i k, i < (axe f d).length → k < (other f d).length → val f d i k = none → msk f d i k = true := by
    intro i k hi hk h
    cases d
    · simp only [msk, val, SF.cell] at h ⊢
      by_cases hm : f.mask.get i k = true
      · exact hm
      · rw [if_neg hm] at h; exact hf.nan i k hi hk h
    · simp only [msk, val, SF.cell] at h ⊢
      by_cases hm : f.mask.get k i = true
      · exact hm
      · rw [if_neg hm] at h; exact hf.nan k i hk hi h
  -- the point of index `k`
  have key : ∀ (k : Nat), (other f d)[k]? = some q → ((if ((within (axe f d) a b).isEmpty || (within (axe f d) a b).any fun i => msk f d i k)
      then none else mean ((within (axe f d) a b).map fun i => val f d i k)) = r ↔
      ((∃ vals : List Rat, vals ≠ [] ∧
        List.Forall₂ (fun v w => Sees f d v q (some w)) ((axe f d).filter fun v => decide (a ≤ v ∧ v ≤ b)) vals ∧
        r = some (vals.sum / vals.length)) ∨
      (((∀ v ∈ axe f d, ¬ (a ≤ v ∧ v ≤ b)) ∨ ∃ v ∈ axe f d, a ≤ v ∧ v ≤ b ∧ Sees f d v q none) ∧ r = none))) := by
    intro k hk
    have hkl := getElem?_some_lt hk
    have hsee : ∀ i v, (axe f d)[i]? = some v → ∀ w, Sees f d v q w ↔ val f d i k = w := by
      intro i v hi w
      constructor
      · intro h
        obtain ⟨i', k', e1, e2, e3⟩ := (sees_iff ..).1 h
        rw [← e3, (axe_inc hf d).idx_inj' e1 hi, (other_inc hf d).idx_inj' e2 hk]
      · rintro rfl
        exact (sees_iff ..).2 ⟨i, k, hi, hk, rfl⟩
    by_cases hbad : ((within (axe f d) a b).isEmpty || (within (axe f d) a b).any fun i => msk f d i k) = true
    · rw [if_pos hbad]
      have hcond : (∀ v ∈ axe f d, ¬ (a ≤ v ∧ v ≤ b)) ∨ ∃ v ∈ axe f d, a ≤ v ∧ v ≤ b ∧ Sees f d v q none := by
        rw [Bool.or_eq_true, List.isEmpty_iff, List.any_eq_true] at hbad
        rcases hbad with h | ⟨i, hi, hm⟩
        · left
          intro v hv hab
          obtain ⟨i, hi⟩ := List.mem_iff_getElem?.1 hv
          have : i ∈ within (axe f d) a b := (mem_within a b i).2 ⟨v, hi, hab⟩
          rw [h] at this
          simp at this
        · right
          obtain ⟨v, hv, h1, h2⟩ := (mem_within a b i).1 hi
          exact ⟨v, List.mem_of_getElem? hv, h1, h2, (hsee i v hv none).2 (hmv i k hm)⟩
      constructor
      · intro h; exact .inr ⟨hcond, h.symm⟩
      · rintro (⟨vals, hne, h1, -⟩ | ⟨-, h⟩)
        · exfalso
          rcases hcond with h | ⟨v, hv, h3, h4, h5⟩
          · have : (axe f d).filter (fun v => decide (a ≤ v ∧ v ≤ b)) = [] := by
              rw [List.filter_eq_nil_iff]; intro v hv; simpa using h v hv
            rw [this] at h1
            exact hne (List.forall₂_nil_left_iff.1 h1)
          · have hmem : v ∈ (axe f d).filter (fun v => decide (a ≤ v ∧ v ≤ b)) := List.mem_filter.2 ⟨hv, by simpa using ⟨h3, h4⟩⟩
            obtain ⟨n, hn⟩ := List.mem_iff_get.1 hmem
            have := (List.forall₂_iff_get.1 h1).2 n.1 n.2 (by rw [← (List.forall₂_iff_get.1 h1).1]; exact n.2)
            rw [show ((axe f d).filter (fun v => decide (a ≤ v ∧ v ≤ b))).get ⟨n.1, n.2⟩ = v from hn] at this
            exact absurd (sees_unique hf this h5) (by simp)
        · exact h.symm
    · rw [if_neg hbad]
      simp only [Bool.or_eq_true, List.isEmpty_iff, List.any_eq_true, not_or, not_exists, not_and] at hbad
      obtain ⟨hne, hun⟩ := hbad
      have hsome : ∀ i ∈ within (axe f d) a b, val f d i k = some ((val f d i k).getD 0) := by
        intro i hi
        obtain ⟨v, hv, -⟩ := (mem_within a b i).1 hi
        cases h : val f d i k with
        | none => exact absurd (hvm i k (getElem?_some_lt hv) hkl h) (hun i hi)
        | some w => rfl
      set vals := (within (axe f d) a b).map fun i => (val f d i k).getD 0 with hvals
      have e : ((within (axe f d) a b).map fun i => val f d i k) = vals.map some := by
        rw [hvals, List.map_map]
        exact List.map_congr_left fun i hi => hsome i hi
      have hvne : vals ≠ [] := by simpa [hvals] using hne
      have hfor : List.Forall₂ (fun v w => Sees f d v q (some w)) ((axe f d).filter fun v => decide (a ≤ v ∧ v ≤ b)) vals := by
        rw [← within_map, hvals, List.forall₂_map_left_iff, List.forall₂_map_right_iff, List.forall₂_same]
        intro i hi
        obtain ⟨v, hv, -⟩ := (mem_within a b i).1 hi
        rw [SF.getD_of_getElem? hv, hsee i v hv]
        exact hsome i hi
      rw [mean_some e hvne]
      constructor
      · intro h; exact .inl ⟨vals, hvne, hfor, h.symm⟩
      · rintro (⟨vals', -, h1, h2⟩ | ⟨h1, -⟩)
        · have : vals' = vals := by
            have hr : Relator.RightUnique fun v w => Sees f d v q (some w) := by
              intro v w w' h3 h4
              have := sees_unique hf h3 h4
              simpa using this
            exact hr.forall₂ h1 hfor
          rw [h2, this]
        · exfalso
          rcases h1 with h1 | ⟨v, hv, h3, h4, h5⟩
          · obtain ⟨i, hi⟩ := List.exists_mem_of_ne_nil _ hne
            obtain ⟨v, hv, h3⟩ := (mem_within a b i).1 hi
            exact h1 v (List.mem_of_getElem? hv) h3
          · obtain ⟨i, hi⟩ := List.mem_iff_getElem?.1 hv
            have hw := (mem_within a b i).2 ⟨v, hi, h3, h4⟩
            have := (hsee i v hi none).1 h5
            rw [hsome i hw] at this
            simp at this
  constructor
  · rintro ⟨hq, k, h1, x, m, h2, h3, h4⟩
    have hkl := getElem?_some_lt h1
    rw [List.getElem?_map, List.getElem?_range hkl] at h2 h3
    simp only [Option.map_some, Option.some.injEq] at h2 h3
    refine ⟨hq, (key k h1).1 ?_⟩
    rw [h4, h3, h2]
  · rintro ⟨hq, hr⟩
    obtain ⟨k, hk⟩ := List.mem_iff_getElem?.1 hq
    have hkl := getElem?_some_lt hk
    refine ⟨hq, k, hk, mean ((within (axe f d) a b).map fun i => val f d i k),
      ((within (axe f d) a b).isEmpty || (within (axe f d) a b).any fun i => msk f d i k), ?_, ?_, ?_⟩
    · rw [List.getElem?_map, List.getElem?_range hkl]; rfl
    · rw [List.getElem?_map, List.getElem?_range hkl]; rfl
    · exact ((key k hk).2 hr).symm

/-- **C187** 'all' is the interval between the ends of the axis. -/
theorem C187_all {f : SF} (hf : f.WF) (d : Dir) :
    getProfileAll srt f d false = getProfileBetween srt f d ((axe f d).head (axe_ne hf d)) ((axe f d).getLast (axe_ne hf d)) := by
  unfold getProfileAll
  rw [List.head?_eq_some_head (axe_ne hf d), List.getLast?_eq_some_getLast (axe_ne hf d)]
  rfl

/-- **C187** An interval of indices, and 'all' with `ind=True`, never give a profile. -/
theorem C187_indices_violated (f : SF) (d : Dir) :
    (∀ i j, ∃ e, getProfileBetweenInd f d i j = .error e) ∧ ∃ e, getProfileAll srt f d true = .error e := by
  constructor
  · intro i j
    unfold getProfileBetweenInd
    by_cases h : min i j < -(axe f d).length + 1 ∨ max i j > (axe f d).length - 1
    · exact ⟨_, if_pos h⟩
    · exact ⟨_, if_neg h⟩
  · unfold getProfileAll
    cases (axe f d).head? with
    | none => exact ⟨_, rfl⟩
    | some a =>
      cases (axe f d).getLast? with
      | none => exact ⟨_, rfl⟩
      | some b => exact ⟨_, rfl⟩

/-! ### concrete cases -/

/-- A field with a masked point. -/
def demo : SF where
  ax := [0, 1, 3]
  ay := [0, 2]
  val := ⟨3, 2, fun i j => if i = 2 ∧ j = 1 then none else some ((i : Rat) * 10 + j)⟩
  mask := ⟨3, 2, fun i j => decide (i = 2 ∧ j = 1)⟩
  ux := .mm
  uy := .m
  uv := .s

theorem demo_WF : demo.WF := by
  refine ⟨by decide +kernel, by decide +kernel, by decide +kernel, by decide +kernel, rfl, rfl, rfl, rfl, ?_⟩
  intro i j _ _ h
  simp only [demo] at h ⊢
  by_cases hc : i = 2 ∧ j = 1
  · simpa using hc
  · rw [if_neg hc] at h; simp at h

example : (getProfile true Profile.argsort demo .x 1 .linear).map pts = .ok [(0, some 10), (2, some 11)] ∧
    (getProfile true Profile.argsort demo .x 2 .linear).map pts = .ok [(0, some 15), (2, none)] ∧
    (getProfile true Profile.argsort demo .y 1 .linear).map pts = .ok [(0, some (1/2)), (1, some (21/2)), (3, none)] ∧
    (getProfile true Profile.argsort demo .x (3/2) .nearest).map pts = .ok [(0, some 10), (2, some 11)] ∧
    (getProfileBetween Profile.argsort demo .x (1/2) 4).map pts = .ok [(0, some 15), (2, none)] ∧
    (getProfileBetween Profile.argsort demo .y 0 2).map pts = .ok [(0, some (1/2)), (1, some (21/2)), (3, none)] := by
  decide +kernel

-- the hypotheses of the theorems above
example : (1 : Rat) ∈ axe demo .x ∧ (axe demo .x)[1]? = some 1 ∧ (axe demo .x)[2]? = some 3 ∧ 2 ≤ (axe demo .x).length ∧
    ¬ ((∀ a ∈ axe demo .x, a < 2) ∨ ∀ a ∈ axe demo .x, 2 < a) := by decide +kernel

end IMT.Line
