import Verif.Trace.SpecModel
import Verif.Trace.Props
import Verif.Profile.Fill
import Mathlib.Data.List.Perm.Basic
import Mathlib.Tactic.FieldSimp

/-!
Properties C347, C348 and C349: temporal spectra over an area, maps of the main frequencies and temporal filtering.
-/

namespace IMT.Trace

open Temporal (TF inside)
open Profile (Prof pts IsArgsort)
open Turb (SRecord ShowsS)

variable {srt : List Rat → List Nat} {t : TF} {u : Sym}

/-! ### specification -/

/-- `chosen` are the highest entries of a spectrum (frequency, magnitude), the highest first. -/
def Highest (spec chosen : List (Rat × Rat)) : Prop :=
  ∃ rest, (chosen ++ rest).Perm spec ∧ chosen.Pairwise (fun a b => b.2 ≤ a.2) ∧ ∀ a ∈ chosen, ∀ b ∈ rest, b.2 ≤ a.2

/-- The node `(x, y)` shows a value at some time. -/
def Sighted (t : TF) (x y : Rat) : Prop := ∃ f ∈ t.fields, ∃ v, f.Reads x y (some v)

/-- The nodes of the grid in a rectangle. -/
def nodesIn (t : TF) (ix iy : Rat × Rat) : List (Rat × Rat) :=
  (t.ax.filter fun x => decide (ix.1 ≤ x ∧ x ≤ ix.2)).flatMap fun x => (t.ay.filter fun y => decide (iy.1 ≤ y ∧ y ≤ iy.2)).map fun y => (x, y)

/-- `vals` are the values `l` at the abscissas `xs`, the masked ones being interpolated between their neighbours, or equal to the nearest
visible one at the ends (C25). -/
def Completed (xs : List Rat) (l : List (Option Rat)) (vals : List Rat) : Prop :=
  ∃ p q : Prof, pts p = xs.zip l ∧ l.length = xs.length ∧ Profile.Filled p q ∧ pts q = xs.zip (vals.map some) ∧ vals.length = xs.length

/-- The values `new` where the list shows something. -/
def onVisible (l : List (Option Rat)) (new : List Rat) : List (Option Rat) := List.zipWith (fun a b => a.map fun _ => b) l new

/-! ### helper lemmas -/

theorem inc_inj {l : List Rat} (hl : Inc l) {i j : Nat} {x : Rat} (hi : l[i]? = some x) (hj : l[j]? = some x) : i = j :=
  (List.getElem?_inj (getElem?_some_lt hi) (hl.imp fun h => ne_of_lt h)).mp (hi.trans hj.symm)

theorem nearest_node {l : List Rat} (hl : Inc l) {i : Nat} {x : Rat} (hi : l[i]? = some x) : Axis.nearest l x = .ok i := by
  have hm := List.mem_of_getElem? hi
  obtain ⟨k, c, e, hk, h⟩ := nearest_of hl (a := x) ⟨⟨x, hm, le_rfl⟩, x, hm, le_rfl⟩
  have h0 := h x hm
  rw [sub_self, abs_zero] at h0
  have : c = x := by
    have := abs_eq_zero.mp (le_antisymm h0 (abs_nonneg _))
    linarith
  rw [e, inc_inj hl hi (this ▸ hk)]

theorem oneCell_node (h : SRecord t u) {i j : Nat} {x y : Rat} (hi : t.ax[i]? = some x) (hj : t.ay[j]? = some y) :
    oneCell t (.at x y) = .ok (i, j) ∧ oneCell t (.ind i j) = .ok (i, j) := by
  have li := getElem?_some_lt hi
  have lj := getElem?_some_lt hj
  constructor
  · simp only [oneCell, cellOf, nearest_node (axes h).1 hi, nearest_node (axes h).2.1 hj, inGrid]
    rw [if_pos ⟨Int.natCast_nonneg _, by exact_mod_cast li, Int.natCast_nonneg _, by exact_mod_cast lj⟩]
    simp
  · simp only [oneCell, cellInd, Rat.den_natCast, Rat.num_natCast, inGrid]
    simp [li, lj]

theorem cells_ind {i j : Nat} {a b : Rat} (e : oneCell t (.ind a b) = .ok (i, j)) :
    cells t (.ind a b) = .ok (List.replicate t.times.length (i, j), List.replicate t.times.length false) := by
  simp only [cells, e]

/-- The time profile at a node. -/
theorem node_profile (hs : IsArgsort srt) (h : SRecord t u) {i j : Nat} {x y : Rat} (hi : t.ax[i]? = some x) (hj : t.ay[j]? = some y) :
    ∃ p, timeProfile srt t (.at x y) none = .ok p ∧ timeProfile srt t (.ind i j) none = .ok p ∧ Profile.Valid p ∧ p.x = t.times ∧
      p.y = t.fields.map fun f => f.cell i j := by
  obtain ⟨e1, e2⟩ := oneCell_node h hi hj
  obtain ⟨p, e, hv, _, _, h3⟩ := profile_cell hs h (cells_at e1) (w := none) rfl
  have h3 : pts p = t.times.zip (t.fields.map fun f => f.cell i j) := by
    rw [h3, List.filter_eq_self.mpr fun e _ => by simp [inside]; rfl]
  have hlen : t.times.length = (t.fields.map fun f => f.cell i j).length := by rw [List.length_map]; exact h.ok.paired
  have hl := hv.1
  rw [Profile.pts_valid hv] at h3
  have a1 := congrArg (List.map Prod.fst) h3
  have a2 := congrArg (List.map Prod.snd) h3
  rw [List.map_fst_zip (by omega), List.map_fst_zip (by omega)] at a1
  rw [List.map_snd_zip (by omega), List.map_snd_zip (by omega)] at a2
  refine ⟨p, e, ?_, hv, a1, a2⟩
  rw [← e]
  unfold timeProfile
  rw [cells_at e1, cells_ind e2]

theorem visible_any {p : Prof} (hv : Profile.Valid p) {l : List Rat} (hl : p.y = l.map some) : p.m.any id = false := by
  rw [hv.2.1, hl, List.map_map]
  simp

theorem hidden_all {p : Prof} (hv : Profile.Valid p) (hl : ∀ v ∈ p.y, v = none) : p.m.all id = true := by
  rw [hv.2.1, List.all_map]
  simp only [List.all_eq_true, Function.comp, id_eq]
  intro v hm
  rw [hl v hm]
  rfl

theorem fill_visible {p : Prof} (hv : Profile.Valid p) {l : List Rat} (hl : p.y = l.map some) : fillLinear p = .ok p := by
  unfold fillLinear
  rw [if_pos (visible_any hv hl)]

theorem fill_hidden {p : Prof} (hv : Profile.Valid p) (hl : ∀ v ∈ p.y, v = none) (hn : p.y ≠ []) : fillLinear p = .error .exception := by
  have ha := hidden_all hv hl
  have : p.m ≠ [] := by rw [hv.2.1]; simpa using hn
  obtain ⟨b, m, hm⟩ := List.exists_cons_of_ne_nil this
  have hb : b = true := by
    rw [hm] at ha
    simpa using (List.all_eq_true.mp ha b (by simp))
  unfold fillLinear
  rw [if_neg (by rw [hm, hb]; simp), if_pos ha]

/-- A profile with a value is filled, and all its values are numbers. -/
theorem fill_seen {p : Prof} (hv : Profile.Valid p) {v : Rat} (hm : some v ∈ p.y) :
    ∃ q, fillLinear p = .ok q ∧ q.x = p.x ∧ q.y.length = p.x.length ∧ (∀ v ∈ q.y, v ≠ none) ∧ q.m = List.replicate p.x.length false := by
  have hml : p.m.length = p.x.length := by rw [hv.2.1, List.length_map, hv.1]
  unfold fillLinear
  by_cases hany : p.m.any id = false
  · rw [if_pos hany]
    have hall : ∀ v ∈ p.y, v ≠ none := by
      intro w hw hn
      subst hn
      rw [hv.2.1, List.any_map] at hany
      have := List.any_eq_false.mp hany none hw
      simp at this
    refine ⟨p, rfl, rfl, hv.1, hall, ?_⟩
    rw [List.eq_replicate_iff]
    refine ⟨hml, fun b hb => ?_⟩
    have := List.any_eq_false.mp hany b hb
    simpa using this
  · rw [if_neg hany]
    have ha : p.m.all id = false := by
      rw [Bool.eq_false_iff]
      intro hc
      rw [hv.2.1, List.all_map] at hc
      have := List.all_eq_true.mp hc (some v) hm
      simp at this
    rw [if_neg (by rw [ha]; simp)]
    refine ⟨_, rfl, rfl, Profile.filledY_length p 0, ?_, by rw [hml]⟩
    intro w hw
    obtain ⟨k, hk⟩ := List.mem_iff_getElem?.mp hw
    have hkl : k < p.x.length := by
      have := getElem?_some_lt hk
      rwa [Profile.filledY_length] at this
    have some_of : ∀ n : Nat, p.m[n]? = some false → ∃ r, p.y[n]? = some (some r) := by
      intro n hn
      rw [hv.2.1, List.getElem?_map] at hn
      cases hy : p.y[n]? with
      | none => rw [hy] at hn; simp at hn
      | some r =>
        rw [hy] at hn
        cases r with
        | none => simp at hn
        | some r => exact ⟨r, rfl⟩
    rw [Profile.filledY_get hv 0 hkl] at hk
    have hk := Option.some.inj hk
    obtain ⟨r1, e1⟩ := some_of _ (Profile.firstValid_spec ha).1
    obtain ⟨r2, e2⟩ := some_of _ (Profile.lastValid_spec ha).1
    rw [e1, e2] at hk
    subst hk
    split
    · simp
    · split
      · simp
      · split
        · simp
        · next hne =>
          cases hb : p.m[k]? with
          | none => exact absurd (List.getElem?_eq_none_iff.mp hb) (by omega)
          | some b =>
            cases b with
            | true => rw [hb] at hne; simp at hne
            | false =>
              obtain ⟨r, e⟩ := some_of k hb
              rw [e]
              simp

/-- The filled profile, at the same abscissas. -/
theorem fill_completed {p : Prof} (hv : Profile.Valid p) (hinc : Inc p.x) {v : Rat} (hm : some v ∈ p.y) {q : Prof} (e : fillLinear p = .ok q) :
    Completed p.x p.y (q.y.map fun v => v.getD 0) := by
  obtain ⟨q', e', h1, h2, h3, h4⟩ := fill_seen hv hm
  rw [e] at e'
  cases e'
  have hqy : (q.y.map fun v => v.getD 0).map some = q.y := by
    rw [List.map_map]
    refine (List.map_congr_left fun r hr => ?_).trans (List.map_id q.y)
    cases r with
    | none => exact absurd rfl (h3 _ hr)
    | some r => rfl
  have hnone : q.y.map Option.isNone = List.replicate p.x.length false := by
    rw [List.eq_replicate_iff]
    refine ⟨by rw [List.length_map, h2], fun b hb => ?_⟩
    obtain ⟨r, hr, rfl⟩ := List.mem_map.mp hb
    cases r with
    | none => exact absurd rfl (h3 _ hr)
    | some r => rfl
  have hvq : Profile.Valid q := ⟨by rw [h2, h1], by rw [h4, hnone], by rw [h1]; exact hv.2.2⟩
  refine ⟨p, q, Profile.pts_valid hv, hv.1, ?_, by rw [Profile.pts_valid hvq, hqy, h1], by rw [List.length_map, h2]⟩
  unfold fillLinear at e
  by_cases hany : p.m.any id = false
  · rw [if_pos hany] at e
    cases e
    have hno : ∀ x, (x, none) ∉ pts p := by
      intro x hx
      rw [Profile.pts_valid hv] at hx
      exact h3 _ (List.of_mem_zip hx).2 rfl
    refine ⟨rfl, ⟨rfl, rfl⟩, hv, fun r hr hn => hno r.1 (by rw [← hn]; exact hr), fun _ _ h => h, fun A M B x1 v1 x2 v2 hp _ x hx => ?_,
      fun M B x1 v1 hp _ x hx => ?_, fun A M x1 v1 hp _ x hx => ?_⟩
    all_goals
      exact absurd (by rw [hp]; simp [hx]) (hno x)
  · rw [if_neg hany] at e
    have ha : p.m.all id = false := by
      rw [Bool.eq_false_iff]
      intro hc
      rw [hv.2.1, List.all_map] at hc
      have := List.all_eq_true.mp hc (some v) hm
      simp at this
    rw [if_neg (by rw [ha]; simp)] at e
    cases e
    exact Profile.filled_spec hv hinc ha 0 rfl ⟨rfl, rfl⟩ hvq rfl

/-- What the nodes show and the cells. -/
theorem seen_cell (h : SRecord t u) {i j : Nat} {x y : Rat} (hi : t.ax[i]? = some x) (hj : t.ay[j]? = some y) :
    Sighted t x y ↔ ∃ v, some v ∈ t.fields.map fun f => f.cell i j := by
  unfold Sighted
  constructor
  · rintro ⟨f, hf, v, hr⟩
    exact ⟨v, List.mem_map.mpr ⟨f, hf, ((h.on hf).reads (t := Turb.frameOf t) hi hj _).mp hr⟩⟩
  · rintro ⟨v, hm⟩
    obtain ⟨f, hf, e⟩ := List.mem_map.mp hm
    exact ⟨f, hf, v, ((h.on hf).reads (t := Turb.frameOf t) hi hj _).mpr e⟩

/-! ### C348: the highest values -/

/-- The entries that are not masked. -/
def visible (l : List (Rat × Option Rat)) : List (Rat × Rat) := l.filterMap fun p => p.2.map fun v => (p.1, v)

theorem visible_snd (l : List (Rat × Option Rat)) : l.filterMap Prod.snd = (visible l).map Prod.snd := by
  unfold visible
  induction l with
  | nil => rfl
  | cons p l ih =>
    obtain ⟨f, v⟩ := p
    cases v with
    | none => simpa using ih
    | some v => simpa using ih

theorem visible_set {l : List (Rat × Option Rat)} {v : Rat} (hm : some v ∈ l.map Prod.snd) :
    ∃ f, l[l.findIdx fun p => decide (p.2 = some v)]? = some (f, some v) ∧
      (visible l).Perm ((f, v) :: visible (l.set (l.findIdx fun p => decide (p.2 = some v)) (f, none))) := by
  induction l with
  | nil => simp at hm
  | cons p l ih =>
    obtain ⟨g, w⟩ := p
    by_cases hw : w = some v
    · subst hw
      refine ⟨g, by simp [List.findIdx_cons], ?_⟩
      simp [List.findIdx_cons, visible]
    · obtain ⟨f, e, hp⟩ := ih (by simpa [Ne.symm hw] using hm)
      have hi : List.findIdx (fun p : Rat × Option Rat => decide (p.2 = some v)) ((g, w) :: l) =
          l.findIdx (fun p => decide (p.2 = some v)) + 1 := by
        rw [List.findIdx_cons]
        simp [hw]
      refine ⟨f, by rw [hi]; simpa using e, ?_⟩
      rw [hi, List.set_cons_succ]
      cases w with
      | none => simpa [visible] using hp
      | some w =>
        have h2 := (hp.cons (g, w)).trans (List.Perm.swap _ _ _)
        simpa [visible] using h2

theorem peaks_highest (n : Nat) (l : List (Rat × Option Rat)) (hn : n ≤ (visible l).length) :
    ∃ chosen, peaks n l = .ok (chosen.map Prod.fst) ∧ chosen.length = n ∧ Highest (visible l) chosen := by
  induction n generalizing l with
  | zero => exact ⟨[], rfl, rfl, visible l, List.Perm.refl _, List.Pairwise.nil, by simp⟩
  | succ n ih =>
    have hne : (l.filterMap Prod.snd) ≠ [] := by
      rw [visible_snd]
      intro hc
      have := congrArg List.length hc
      rw [List.length_map] at this
      simp only [List.length_nil] at this
      omega
    obtain ⟨v, hv⟩ := Option.ne_none_iff_exists'.mp (mt List.max?_eq_none_iff.mp hne)
    have hmax := (List.max?_eq_some_iff (α := Rat)).mp hv
    have hmem : some v ∈ l.map Prod.snd := by
      obtain ⟨p, hp, e⟩ := List.mem_filterMap.mp hmax.1
      exact List.mem_map.mpr ⟨p, hp, e⟩
    obtain ⟨f, e, hp⟩ := visible_set hmem
    have hlen := hp.length_eq
    rw [List.length_cons] at hlen
    obtain ⟨chosen, e2, hl, rest, hperm, hs, hr⟩ := ih (l.set (l.findIdx fun p : Rat × Option Rat => decide (p.2 = some v)) (f, none)) (by omega)
    refine ⟨(f, v) :: chosen, ?_, by simp [hl], rest, ?_, ?_, ?_⟩
    · simp only [peaks, hv, e, e2, List.map_cons]
    · exact (hperm.cons (f, v)).trans hp.symm
    · refine List.Pairwise.cons (fun b hb => ?_) hs
      refine hmax.2 b.2 ?_
      rw [visible_snd]
      exact List.mem_map_of_mem (hp.symm.subset (List.mem_cons_of_mem _ (hperm.subset (List.mem_append_left _ hb))))
    · intro a ha b hb
      rcases List.mem_cons.mp ha with rfl | ha
      · refine hmax.2 b.2 ?_
        rw [visible_snd]
        exact List.mem_map_of_mem (hp.symm.subset (List.mem_cons_of_mem _ (hperm.subset (List.mem_append_right _ hb))))
      · exact hr a ha b hb

theorem visible_some (fs ms : List Rat) : visible (fs.zip (ms.map some)) = fs.zip ms := by
  unfold visible
  induction fs generalizing ms with
  | nil => rfl
  | cons f fs ih =>
    cases ms with
    | nil => rfl
    | cons m ms => simp only [List.map_cons, List.zip_cons_cons, List.filterMap_cons, Option.map_some, ih]

/-! ### cells of a rectangle -/

theorem range_between {n i j : Nat} (hi : i < n) : (List.range n).filter (fun k => decide (j ≤ k ∧ k ≤ i)) = List.range' j (i + 1 - j) := by
  refine List.Perm.eq_of_pairwise (le := (· < ·)) (fun a b _ _ h1 h2 => absurd h1 (by omega)) (List.pairwise_lt_range.filter _)
    (List.pairwise_lt_range' ..) ?_
  rw [List.perm_ext_iff_of_nodup (List.nodup_range.filter _) (List.nodup_range' ..)]
  intro k
  rw [List.mem_filter, List.mem_range, List.mem_range'_1, decide_eq_true_eq]
  omega

theorem filter_between {l : List Rat} {a b : Rat} {i j : Nat} (hi : i < l.length) (h1 : ∀ k x, l[k]? = some x → (a ≤ x ↔ j ≤ k))
    (h2 : ∀ k x, l[k]? = some x → (x ≤ b ↔ k ≤ i)) :
    l.filter (fun x => decide (a ≤ x ∧ x ≤ b)) = (List.range' j (i + 1 - j)).map fun k => l.getD k 0 := by
  rw [← range_between hi]
  conv_lhs => rw [← range_getD l 0, List.filter_map]
  congr 1
  refine List.filter_congr fun k hk => ?_
  have hk := List.mem_range.mp hk
  have e : l[k]? = some (l.getD k 0) := by simp [List.getD, List.getElem?_eq_getElem hk]
  rw [Function.comp, decide_eq_decide, h1 k _ e, h2 k _ e]

theorem bounds_between {l : List Rat} (hl : Inc l) {a : Rat} (h : Covers l a) :
    ∃ i j, Axis.bounds l a = .ok (i, j) ∧ i < l.length ∧ (∀ k x, l[k]? = some x → (a ≤ x ↔ j ≤ k)) ∧ ∀ k x, l[k]? = some x → (x ≤ a ↔ k ≤ i) := by
  obtain ⟨first, last, h1, h2, h3, h4⟩ := covers_ends hl h
  obtain ⟨i, j, e, hij⟩ := Axis.C01_bounds_bracket hl h1 h2 h3 h4
  have le_of : ∀ {k k' : Nat} {x x' : Rat}, l[k]? = some x → l[k']? = some x' → x ≤ x' → k ≤ k' := by
    intro k k' x x' hk hk' hx
    by_contra hc
    have h1 := hl.get_le hk' hk (by omega)
    have : x = x' := le_antisymm hx h1
    subst this
    exact hc (inc_inj hl hk hk').le
  rcases hij with ⟨rfl, hi⟩ | ⟨hna, rfl, lo, hi, e1, e2, l1, l2⟩
  · exact ⟨j, j, e, getElem?_some_lt hi, fun k x hk => ⟨fun hx => le_of hi hk hx, fun hx => hl.get_le hi hk hx⟩,
      fun k x hk => ⟨fun hx => le_of hk hi hx, fun hx => hl.get_le hk hi hx⟩⟩
  · refine ⟨i, i + 1, e, getElem?_some_lt e1, fun k x hk => ⟨fun hx => ?_, fun hx => ?_⟩, fun k x hk => ⟨fun hx => ?_, fun hx => ?_⟩⟩
    · exact hl.idx_lt e1 hk (lt_of_lt_of_le l1 hx)
    · exact le_trans l2.le (hl.get_le e2 hk hx)
    · have := hl.idx_lt hk e2 (lt_of_le_of_lt hx l2)
      omega
    · exact le_trans (hl.get_le hk e1 hx) l1.le

theorem spectrum_seen (hs : IsArgsort srt) (h : SRecord t u) (mg : List Rat → List Rat → List Rat) {i j : Nat} {x y : Rat} (hi : t.ax[i]? = some x)
    (hj : t.ay[j]? = some y) (hv : Sighted t x y) :
    ∃ vs, pointSpectrum srt mg t (.at x y) = .ok (mg t.times vs) ∧ pointSpectrum srt mg t (.ind i j) = .ok (mg t.times vs) := by
  obtain ⟨p, e1, e2, hp, hx, hy⟩ := node_profile hs h hi hj
  obtain ⟨v, hm⟩ := (seen_cell h hi hj).mp hv
  obtain ⟨q, e, hq, _⟩ := fill_seen hp (hy ▸ hm)
  refine ⟨q.y.map fun v => v.getD 0, ?_, ?_⟩
  · simp only [pointSpectrum, e1, magnitudes, e, hq, hx]
  · simp only [pointSpectrum, e2, magnitudes, e, hq, hx]

theorem spectrum_hidden (hs : IsArgsort srt) (h : SRecord t u) (mg : List Rat → List Rat → List Rat) {i j : Nat} {x y : Rat} (hi : t.ax[i]? = some x)
    (hj : t.ay[j]? = some y) (hv : ¬ Sighted t x y) : pointSpectrum srt mg t (.ind i j) = .error .exception := by
  obtain ⟨p, e1, e2, hp, hx, hy⟩ := node_profile hs h hi hj
  rw [seen_cell h hi hj] at hv
  have e := fill_hidden hp (fun v hm => by
    rw [hy] at hm
    cases v with
    | none => rfl
    | some v => exact absurd ⟨v, hm⟩ hv) (by rw [hy]; simpa using h.ne)
  simp only [pointSpectrum, e2, magnitudes, e]

theorem sum_spectra {mg : List Rat → List Rat → List Rat} {K : Nat} (v : Nat × Nat → List Rat) (cs : List (Nat × Nat))
    (hv : ∀ c ∈ cs, pointSpectrum srt mg t (.ind c.1 c.2) = .ok (v c) ∧ (v c).length = K) (s : List Rat) (hs : s.length = K) :
    ∃ r, sumSpectra srt mg t (some s) cs = .ok (some r) ∧ r.length = K ∧
      ∀ k, k < K → r.getD k 0 = s.getD k 0 + (cs.map fun c => (v c).getD k 0).sum := by
  induction cs generalizing s with
  | nil => exact ⟨s, rfl, hs, fun k _ => by simp⟩
  | cons c cs ih =>
    obtain ⟨e, hl⟩ := hv c (by simp)
    obtain ⟨r, e2, h2, h3⟩ := ih (fun c hc => hv c (by simp [hc])) (List.zipWith (· + ·) s (v c)) (by simp [hs, hl])
    refine ⟨r, by simp only [sumSpectra, e, e2], h2, fun k hk => ?_⟩
    rw [h3 k hk, List.map_cons, List.sum_cons, ← add_assoc]
    congr 1
    simp only [List.getD, List.getElem?_zipWith, List.getElem?_eq_getElem (show k < s.length by omega),
      List.getElem?_eq_getElem (show k < (v c).length by omega), Option.getD_some]

theorem sum_hidden {mg : List Rat → List Rat → List Rat} (cs : List (Nat × Nat))
    (hv : ∀ c ∈ cs, pointSpectrum srt mg t (.ind c.1 c.2) = .error .exception ∨ ∃ v, pointSpectrum srt mg t (.ind c.1 c.2) = .ok v)
    (hc : ∃ c ∈ cs, pointSpectrum srt mg t (.ind c.1 c.2) = .error .exception) (s : Option (List Rat)) :
    sumSpectra srt mg t s cs = .error .exception := by
  induction cs generalizing s with
  | nil => simp at hc
  | cons c cs ih =>
    rcases hv c (by simp) with e | ⟨v, e⟩
    · simp only [sumSpectra, e]
    · simp only [sumSpectra, e]
      refine ih (fun c hc => hv c (by simp [hc])) ?_ _
      obtain ⟨d, hd, h⟩ := hc
      rcases List.mem_cons.mp hd with rfl | hd
      · rw [e] at h; cases h
      · exact ⟨d, hd, h⟩

/-- The cells of a rectangle are its nodes. -/
theorem cells_nodes {ix iy : Rat × Rat} {i0 i1 j0 j1 : Nat} (hi : i1 < t.ax.length) (hj : j1 < t.ay.length)
    (h1 : ∀ k x, t.ax[k]? = some x → (ix.1 ≤ x ↔ i0 ≤ k)) (h2 : ∀ k x, t.ax[k]? = some x → (x ≤ ix.2 ↔ k ≤ i1))
    (h3 : ∀ k x, t.ay[k]? = some x → (iy.1 ≤ x ↔ j0 ≤ k)) (h4 : ∀ k x, t.ay[k]? = some x → (x ≤ iy.2 ↔ k ≤ j1)) :
    nodesIn t ix iy = (areaCells i0 i1 j0 j1).map (fun c => (t.ax.getD c.1 0, t.ay.getD c.2 0)) ∧
      ∀ c ∈ areaCells i0 i1 j0 j1, c.1 < t.ax.length ∧ c.2 < t.ay.length := by
  have ei : ((i1 : Int) + 1 - i0).toNat = i1 + 1 - i0 := by omega
  have ej : ((j1 : Int) + 1 - j0).toNat = j1 + 1 - j0 := by omega
  unfold nodesIn areaCells
  rw [ei, ej, filter_between hi h1 h2, filter_between hj h3 h4]
  constructor
  · rw [List.flatMap_map, List.map_flatMap]
    simp only [List.map_map, Function.comp_def]
  · intro c hc
    obtain ⟨a, ha, hc⟩ := List.mem_flatMap.mp hc
    obtain ⟨b, hb, rfl⟩ := List.mem_map.mp hc
    rw [List.mem_range'_1] at ha hb
    exact ⟨by simp only; omega, by simp only; omega⟩

theorem area_length {i0 j0 : Nat} {i1 j1 : Int} (hne : areaCells i0 i1 j0 j1 ≠ []) :
    ((areaCells i0 i1 j0 j1).length : Int) = areaCount i0 i1 j0 j1 ∧ areaCount i0 i1 j0 j1 ≠ 0 := by
  have hl : (areaCells i0 i1 j0 j1).length = (i1 + 1 - i0).toNat * (j1 + 1 - j0).toNat := by
    unfold areaCells
    simp [List.length_flatMap]
  have hp : 0 < (i1 + 1 - i0).toNat * (j1 + 1 - j0).toNat := by
    rw [← hl]
    exact List.length_pos_iff.mpr hne
  have h1 := Nat.pos_of_mul_pos_right hp
  have h2 := Nat.pos_of_mul_pos_left hp
  have h0 : ((areaCells i0 i1 j0 j1).length : Int) = areaCount i0 i1 j0 j1 := by
    rw [hl]
    unfold areaCount
    push_cast
    rw [Int.toNat_of_nonneg (by omega), Int.toNat_of_nonneg (by omega)]
    ring
  refine ⟨h0, ?_⟩
  rw [← h0, hl]
  exact_mod_cast hp.ne'

/-! ### C347: spectra over an area -/

/-- C347, for an area that has nodes, each with a value at some time: the mean, for each frequency, of the spectra of the nodes in the
closed rectangle. -/
theorem C347_mean_partial (hs : IsArgsort srt) (h : SRecord t u) (mg : List Rat → List Rat → List Rat) {K : Nat} (hK : ∀ vs, (mg t.times vs).length = K)
    {ix iy : Rat × Rat} (hx1 : Covers t.ax ix.1) (hx2 : Covers t.ax ix.2) (hy1 : Covers t.ay iy.1) (hy2 : Covers t.ay iy.2)
    (hne : nodesIn t ix iy ≠ []) (hv : ∀ c ∈ nodesIn t ix iy, Sighted t c.1 c.2) :
    ∃ (S : Rat × Rat → List Rat) (m : List Rat), (∀ c ∈ nodesIn t ix iy, pointSpectrum srt mg t (.at c.1 c.2) = .ok (S c)) ∧
      overArea srt mg t ix iy = .ok (some m) ∧ m.length = K ∧
      ∀ k < K, m.getD k 0 = ((nodesIn t ix iy).map fun c => (S c).getD k 0).sum / (nodesIn t ix iy).length := by
  obtain ⟨a1, i0, ea, _, ha, _⟩ := bounds_between (axes h).1 hx1
  obtain ⟨i1, b2, eb, hi1, _, hb⟩ := bounds_between (axes h).1 hx2
  obtain ⟨c1, j0, ec, _, hc, _⟩ := bounds_between (axes h).2.1 hy1
  obtain ⟨j1, d2, ed, hj1, _, hd⟩ := bounds_between (axes h).2.1 hy2
  obtain ⟨hcells, hin⟩ := cells_nodes hi1 hj1 ha hb hc hd
  have hex : ∀ c : Rat × Rat, ∃ vs, c ∈ nodesIn t ix iy → ∀ i j : Nat, t.ax[i]? = some c.1 → t.ay[j]? = some c.2 →
      pointSpectrum srt mg t (.at c.1 c.2) = .ok (mg t.times vs) ∧ pointSpectrum srt mg t (.ind i j) = .ok (mg t.times vs) := by
    intro c
    by_cases hm : c ∈ nodesIn t ix iy
    · by_cases hij : ∃ i j : Nat, t.ax[i]? = some c.1 ∧ t.ay[j]? = some c.2
      · obtain ⟨i, j, hi, hj⟩ := hij
        obtain ⟨vs, e1, e2⟩ := spectrum_seen hs h mg hi hj (hv c hm)
        refine ⟨vs, fun _ i' j' hi' hj' => ⟨e1, ?_⟩⟩
        rw [inc_inj (axes h).1 hi' hi, inc_inj (axes h).2.1 hj' hj]
        exact e2
      · exact ⟨[], fun _ i j hi hj => absurd ⟨i, j, hi, hj⟩ hij⟩
    · exact ⟨[], fun hc => absurd hc hm⟩
  choose V hV using hex
  have hat : ∀ c ∈ areaCells i0 i1 j0 j1, t.ax[c.1]? = some (t.ax.getD c.1 0) ∧ t.ay[c.2]? = some (t.ay.getD c.2 0) ∧
      (t.ax.getD c.1 0, t.ay.getD c.2 0) ∈ nodesIn t ix iy := by
    intro c hc
    obtain ⟨l1, l2⟩ := hin c hc
    refine ⟨by simp [List.getD, List.getElem?_eq_getElem l1], by simp [List.getD, List.getElem?_eq_getElem l2], ?_⟩
    rw [hcells]
    exact List.mem_map_of_mem hc
  have hne' : areaCells i0 i1 j0 j1 ≠ [] := fun hc => hne (by rw [hcells, hc]; rfl)
  obtain ⟨hl1, hl2⟩ := area_length hne'
  obtain ⟨c0, cs, hcs⟩ := List.exists_cons_of_ne_nil hne'
  set W : Nat × Nat → List Rat := fun c => mg t.times (V (t.ax.getD c.1 0, t.ay.getD c.2 0)) with hW
  have hw : ∀ c ∈ areaCells i0 i1 j0 j1, pointSpectrum srt mg t (.ind c.1 c.2) = .ok (W c) ∧ (W c).length = K := fun c hc => by
    obtain ⟨k1, k2, k3⟩ := hat c hc
    exact ⟨(hV _ k3 _ _ k1 k2).2, hK _⟩
  obtain ⟨r, e1, e2, e3⟩ := sum_spectra W cs (fun c hc => hw c (by rw [hcs]; simp [hc])) (W c0) (hw c0 (by rw [hcs]; simp)).2
  have hsum : sumSpectra srt mg t none (areaCells i0 i1 j0 j1) = .ok (some r) := by
    rw [hcs]
    simp only [sumSpectra, (hw c0 (by rw [hcs]; simp)).1, e1]
  refine ⟨fun c => mg t.times (V c), r.map fun v => v / (areaCount i0 i1 j0 j1 : Rat), fun c hc => ?_, ?_, by simp [e2], fun k hk => ?_⟩
  · rw [hcells] at hc
    obtain ⟨d, hd, rfl⟩ := List.mem_map.mp hc
    obtain ⟨k1, k2, k3⟩ := hat d hd
    exact (hV _ k3 _ _ k1 k2).1
  · unfold overArea
    simp only [ea, eb, ec, ed, averaged, hsum]
    rw [if_neg hl2]
    rfl
  · have hlen : ((nodesIn t ix iy).length : Rat) = (areaCount i0 i1 j0 j1 : Rat) := by
      rw [hcells, List.length_map, ← hl1]
      push_cast
      rfl
    rw [hlen, hcells, List.map_map, hcs]
    have : (r.map fun v => v / (areaCount i0 i1 j0 j1 : Rat)).getD k 0 = r.getD k 0 / (areaCount i0 i1 j0 j1 : Rat) := by
      simp [List.getD, List.getElem?_eq_getElem (show k < r.length by omega)]
    rw [this, e3 k hk, List.map_cons, List.sum_cons]
    rfl

/-- C347 fails as soon as one node of the area is masked at all times: an exception, although it should be left out of the mean. -/
theorem C347_masked_violated (hs : IsArgsort srt) (h : SRecord t u) (mg : List Rat → List Rat → List Rat)
    {ix iy : Rat × Rat} (hx1 : Covers t.ax ix.1) (hx2 : Covers t.ax ix.2) (hy1 : Covers t.ay iy.1) (hy2 : Covers t.ay iy.2)
    (hv : ∃ c ∈ nodesIn t ix iy, ¬ Sighted t c.1 c.2) : overArea srt mg t ix iy = .error .exception := by
  obtain ⟨a1, i0, ea, _, ha, _⟩ := bounds_between (axes h).1 hx1
  obtain ⟨i1, b2, eb, hi1, _, hb⟩ := bounds_between (axes h).1 hx2
  obtain ⟨c1, j0, ec, _, hc, _⟩ := bounds_between (axes h).2.1 hy1
  obtain ⟨j1, d2, ed, hj1, _, hd⟩ := bounds_between (axes h).2.1 hy2
  obtain ⟨hcells, hin⟩ := cells_nodes hi1 hj1 ha hb hc hd
  have hat : ∀ c ∈ areaCells i0 i1 j0 j1, t.ax[c.1]? = some (t.ax.getD c.1 0) ∧ t.ay[c.2]? = some (t.ay.getD c.2 0) := by
    intro c hc
    obtain ⟨l1, l2⟩ := hin c hc
    exact ⟨by simp [List.getD, List.getElem?_eq_getElem l1], by simp [List.getD, List.getElem?_eq_getElem l2]⟩
  have hsum : sumSpectra srt mg t none (areaCells i0 i1 j0 j1) = .error .exception := by
    refine sum_hidden _ (fun c hc => ?_) ?_ none
    · obtain ⟨k1, k2⟩ := hat c hc
      by_cases hv : Sighted t (t.ax.getD c.1 0) (t.ay.getD c.2 0)
      · obtain ⟨vs, _, e⟩ := spectrum_seen hs h mg k1 k2 hv
        exact .inr ⟨_, e⟩
      · exact .inl (spectrum_hidden hs h mg k1 k2 hv)
    · obtain ⟨c, hc, hn⟩ := hv
      rw [hcells] at hc
      obtain ⟨d, hd, rfl⟩ := List.mem_map.mp hc
      obtain ⟨k1, k2⟩ := hat d hd
      exact ⟨d, hd, spectrum_hidden hs h mg k1 k2 hn⟩
  unfold overArea
  simp only [ea, eb, ec, ed, averaged, hsum]

/-- C347: intervals that go out of the axes are refused. -/
theorem C347_outside (h : SRecord t u) (mg : List Rat → List Rat → List Rat) {ix iy : Rat × Rat} (hx : ¬ Covers t.ax ix.1 ∨ ¬ Covers t.ax ix.2 ∨
    ¬ Covers t.ay iy.1 ∨ ¬ Covers t.ay iy.2) : overArea srt mg t ix iy = .error .valueError := by
  have key : ∀ l : List Rat, Inc l → l ≠ [] → ∀ a, (¬ Covers l a → Axis.bounds l a = .error .valueError) ∧ (Covers l a → ∃ r, Axis.bounds l a = .ok r) := by
    intro l hl hne a
    refine ⟨fun hc => ?_, fun hc => ?_⟩
    · have h1 := List.head?_eq_some_head hne
      have h2 := List.getLast?_eq_some_getLast hne
      have := not_covers h1 h2 hc
      unfold Axis.bounds
      simp only [h1, h2, if_pos this]
    · obtain ⟨i, j, e, _⟩ := bounds_between hl hc
      exact ⟨_, e⟩
  obtain ⟨h1, h2, h3, h4⟩ := axes h
  have k1 := key t.ax h1 h3
  have k2 := key t.ay h2 h4
  unfold overArea
  by_cases c1 : Covers t.ax ix.1
  · obtain ⟨r1, e1⟩ := (k1 ix.1).2 c1
    by_cases c2 : Covers t.ax ix.2
    · obtain ⟨r2, e2⟩ := (k1 ix.2).2 c2
      by_cases c3 : Covers t.ay iy.1
      · obtain ⟨r3, e3⟩ := (k2 iy.1).2 c3
        have c4 : ¬ Covers t.ay iy.2 := by tauto
        simp only [e1, e2, e3, (k2 iy.2).1 c4]
      · simp only [e1, e2, (k2 iy.1).1 c3]
    · simp only [e1, (k1 ix.2).1 c2]
  · simp only [(k1 ix.1).1 c1]

/-- C347 fails for intervals of indices given in the reverse order, further than one apart: a number is returned instead of a profile. -/
theorem C347_reversed_violated (mg : List Rat → List Rat → List Rat) {ix iy : Int × Int} (h0 : 0 ≤ ix.1) (h1 : ix.2 + 1 < ix.1)
    (h2 : ix.2 < t.ax.length) (h3 : 0 ≤ iy.1) (h4 : iy.2 < t.ay.length) (h5 : iy.2 + 1 ≠ iy.1) :
    overAreaInd srt mg t ix iy = .ok none := by
  have e : areaCells ix.1.toNat ix.2 iy.1.toNat iy.2 = [] := by
    unfold areaCells
    rw [show (ix.2 + 1 - (ix.1.toNat : Int)).toNat = 0 by omega]
    rfl
  have hc : areaCount ix.1.toNat ix.2 iy.1.toNat iy.2 ≠ 0 := by
    unfold areaCount
    refine mul_ne_zero ?_ ?_ <;> omega
  unfold overAreaInd averaged
  rw [if_neg (by omega), e]
  simp only [sumSpectra]
  rw [if_neg hc]
  rfl

/-- C347: the spectrum of a node that shows a value is that of its values along time, the masked ones being interpolated. -/
theorem C347_point (hs : IsArgsort srt) (h : SRecord t u) (mg : List Rat → List Rat → List Rat) {x y : Rat} (hx : x ∈ t.ax) (hy : y ∈ t.ay)
    (hv : Sighted t x y) : ∃ l vals, ShowsS t x y l ∧ Completed t.times l vals ∧ pointSpectrum srt mg t (.at x y) = .ok (mg t.times vals) := by
  obtain ⟨i, hi⟩ := List.mem_iff_getElem?.mp hx
  obtain ⟨j, hj⟩ := List.mem_iff_getElem?.mp hy
  obtain ⟨p, e1, _, hp, px, py⟩ := node_profile hs h hi hj
  obtain ⟨v, hm⟩ := (seen_cell h hi hj).mp hv
  obtain ⟨q, e, hq, _⟩ := fill_seen hp (py ▸ hm)
  have hc := fill_completed hp (by rw [px]; exact h.inc) (py ▸ hm) e
  refine ⟨_, _, (Turb.sshows_cells h hi hj _).mpr py, px ▸ hc, ?_⟩
  simp only [pointSpectrum, e1, magnitudes, e, hq, px]

/-! ### C348: maps of the main frequencies -/

theorem mem_nodes {x y : Rat} : (x, y) ∈ nodes t ↔ x ∈ t.ax ∧ y ∈ t.ay := by
  unfold nodes
  rw [List.mem_flatMap]
  constructor
  · rintro ⟨a, ha, hb⟩
    obtain ⟨b, hb, e⟩ := List.mem_map.mp hb
    cases e
    exact ⟨ha, hb⟩
  · rintro ⟨ha, hb⟩
    exact ⟨x, ha, List.mem_map.mpr ⟨y, hb, rfl⟩⟩

theorem node_index {x y : Rat} (hm : (x, y) ∈ nodes t) : ∃ i j : Nat, t.ax[i]? = some x ∧ t.ay[j]? = some y := by
  obtain ⟨h1, h2⟩ := mem_nodes.mp hm
  obtain ⟨i, hi⟩ := List.mem_iff_getElem?.mp h1
  obtain ⟨j, hj⟩ := List.mem_iff_getElem?.mp h2
  exact ⟨i, j, hi, hj⟩

/-- The node is masked more than half of the times. -/
def MostlyMasked (t : TF) (x y : Rat) : Prop := ∀ l, ShowsS t x y l → l.length < 2 * l.count none

theorem count_isNone (l : List (Option Rat)) : (l.map Option.isNone).count true = l.count none := by
  induction l with
  | nil => rfl
  | cons a l ih => cases a <;> simp [ih]

/-- What is computed at a node. -/
theorem map_node (hs : IsArgsort srt) (h : SRecord t u) {fr : List Rat → List Rat} {mg : List Rat → List Rat → List Rat}
    (hK : ∀ vs, (mg t.times vs).length = (fr t.times).length) {n : Nat} (hn : n ≤ (fr t.times).length) {x y : Rat} (hm : (x, y) ∈ nodes t) :
    (MostlyMasked t x y ∧ mapAt srt fr mg t n x y = .ok none) ∨
      (¬ MostlyMasked t x y ∧ ∃ ms chosen, pointSpectrum srt mg t (.at x y) = .ok ms ∧ Highest ((fr t.times).zip ms) chosen ∧ chosen.length = n ∧
        mapAt srt fr mg t n x y = .ok (some (chosen.map Prod.fst))) := by
  obtain ⟨i, j, hi, hj⟩ := node_index hm
  obtain ⟨p, e1, _, hp, hx, hy⟩ := node_profile hs h hi hj
  have hcnt : p.m.count true = p.y.count none := by rw [hp.2.1, count_isNone]
  have hmm : MostlyMasked t x y ↔ p.m.count true * 2 > p.x.length := by
    unfold MostlyMasked
    rw [hcnt, ← hp.1]
    constructor
    · intro hc
      have := hc p.y ((Turb.sshows_cells h hi hj _).mpr hy)
      omega
    · intro hc l hl
      rw [(Turb.sshows_cells h hi hj _).mp hl, ← hy]
      omega
  by_cases hc : p.m.count true * 2 > p.x.length
  · refine .inl ⟨hmm.mpr hc, ?_⟩
    simp only [mapAt, e1, if_pos hc]
  · refine .inr ⟨mt hmm.mp hc, ?_⟩
    have hsm : ∃ v, some v ∈ p.y := by
      by_contra hno
      have hall : ∀ a ∈ p.y, a = none := by
        intro a ha
        cases a with
        | none => rfl
        | some v => exact absurd ⟨v, ha⟩ hno
      have : p.y.count none = p.y.length := List.count_eq_length.mpr fun b hb => (hall b hb).symm
      have hpos : 0 < p.y.length := by
        rw [hy, List.length_map]
        exact List.length_pos_iff.mpr h.ne
      rw [hcnt, this, ← hp.1] at hc
      omega
    obtain ⟨v, hv⟩ := hsm
    obtain ⟨q, e, hq, _⟩ := fill_seen hp hv
    have hmag : magnitudes mg p = .ok (mg t.times (q.y.map fun v => v.getD 0)) := by simp only [magnitudes, e, hq, hx]
    obtain ⟨chosen, e2, hl, hh⟩ := peaks_highest n ((fr t.times).zip ((mg t.times (q.y.map fun v => v.getD 0)).map some)) (by
      rw [visible_some, List.length_zip, hK]
      omega)
    rw [visible_some] at hh
    refine ⟨_, chosen, ?_, hh, hl, ?_⟩
    · simp only [pointSpectrum, e1, hmag]
    · rw [hx] at hc
      simp only [mapAt, e1, hmag, hx, e2, if_neg hc]

/-- C348, when some node is visible at half of the times at least: the nodes masked more often are masked, and the others have the
frequencies of the `n` highest magnitudes of their spectrum, the highest first. -/
theorem C348_map_partial (hs : IsArgsort srt) (h : SRecord t u) {fr : List Rat → List Rat} {mg : List Rat → List Rat → List Rat}
    (hK : ∀ vs, (mg t.times vs).length = (fr t.times).length) {n : Nat} (hn : n ≤ (fr t.times).length)
    (hv : ∃ c ∈ nodes t, ¬ MostlyMasked t c.1 c.2) :
    ∃ l w, spectrumMap srt fr mg t n = .ok (l, w) ∧ l.length = (nodes t).length ∧
      ∀ (k : Nat) x y r, (nodes t)[k]? = some (x, y) → l[k]? = some r → (MostlyMasked t x y ∧ r = none) ∨
        (¬ MostlyMasked t x y ∧ ∃ ms chosen, pointSpectrum srt mg t (.at x y) = .ok ms ∧ Highest ((fr t.times).zip ms) chosen ∧
          chosen.length = n ∧ r = some (chosen.map Prod.fst)) := by
  have hex : ∀ c : Rat × Rat, ∃ r, c ∈ nodes t → mapAt srt fr mg t n c.1 c.2 = .ok r ∧ ((MostlyMasked t c.1 c.2 ∧ r = none) ∨
      (¬ MostlyMasked t c.1 c.2 ∧ ∃ ms chosen, pointSpectrum srt mg t (.at c.1 c.2) = .ok ms ∧ Highest ((fr t.times).zip ms) chosen ∧
        chosen.length = n ∧ r = some (chosen.map Prod.fst))) := by
    intro c
    by_cases hm : c ∈ nodes t
    · rcases map_node hs h hK hn hm with ⟨h1, e⟩ | ⟨h1, ms, ch, h2, h3, h4, e⟩
      · exact ⟨none, fun _ => ⟨e, .inl ⟨h1, rfl⟩⟩⟩
      · exact ⟨_, fun _ => ⟨e, .inr ⟨h1, ms, ch, h2, h3, h4, rfl⟩⟩⟩
    · exact ⟨none, fun hc => absurd hc hm⟩
  choose R hR using hex
  have hcol := Line.collect_ok (nodes t) (fun c => mapAt srt fr mg t n c.1 c.2) R fun c hc => (hR c hc).1
  have hl : ((nodes t).map R).all Option.isNone = false := by
    obtain ⟨c, hc, hm⟩ := hv
    rw [Bool.eq_false_iff]
    intro hall
    have := List.all_eq_true.mp hall (R c) (List.mem_map_of_mem hc)
    rcases (hR c hc).2 with ⟨h1, _⟩ | ⟨_, _, _, _, _, _, e⟩
    · exact hm h1
    · rw [e] at this
      simp at this
  refine ⟨(nodes t).map R, if n = 0 then none else t.fields.head?.map SF.uv, ?_, by simp, fun k x y r hk hr => ?_⟩
  · unfold spectrumMap
    simp only [hcol, hl]
    by_cases h0 : n = 0
    · rw [if_pos h0, if_pos h0]
    · rw [if_neg h0, if_neg h0]
      rfl
  · rw [List.getElem?_map, hk] at hr
    have hr := Option.some.inj hr
    subst hr
    exact (hR (x, y) (List.mem_of_getElem? hk)).2

/-- C348 fails for the unit: the maps of the frequencies have the unit of the values. -/
theorem C348_unit_violated (h : SRecord t u) (fr : List Rat → List Rat) (mg : List Rat → List Rat → List Rat) {n : Nat} (hn : 0 < n) {l w}
    (e : spectrumMap srt fr mg t n = .ok (l, w)) : w = some u := by
  unfold spectrumMap at e
  split at e
  · cases e
  · rw [if_neg (by omega)] at e
    split at e
    · cases e
    · obtain ⟨f, fs, hfs⟩ := List.exists_cons_of_ne_nil h.ne
      have := h.uv f (by rw [hfs]; simp)
      rw [hfs] at e
      simp only [List.head?_cons, Option.map_some, this] at e
      cases e
      rfl

/-- C348 fails when all the nodes are masked more than half of the times: `NameError` instead of masked maps. -/
theorem C348_masked_violated (hs : IsArgsort srt) (h : SRecord t u) {fr : List Rat → List Rat} {mg : List Rat → List Rat → List Rat}
    (hK : ∀ vs, (mg t.times vs).length = (fr t.times).length) {n : Nat} (hn : n ≤ (fr t.times).length) (h0 : 0 < n)
    (hv : ∀ c ∈ nodes t, MostlyMasked t c.1 c.2) : spectrumMap srt fr mg t n = .error .nameError := by
  have hcol := Line.collect_ok (nodes t) (fun c => mapAt srt fr mg t n c.1 c.2) (fun _ => none) fun c hc => by
    rcases map_node hs h hK hn hc with ⟨_, e⟩ | ⟨h1, _⟩
    · exact e
    · exact absurd (hv c hc) h1
  unfold spectrumMap
  simp only [hcol]
  rw [if_neg (by omega), if_pos (by simp)]

/-! ### C349: temporal filtering -/

theorem inject_record (h : SRecord t u) {q : Prof} {i j : Nat} (hlen : (Profile.getY q).length = t.fields.length)
    (hnm : ∀ v ∈ Profile.getY q, v ≠ none) : SRecord { t with fields := putAll i j t.fields (Profile.getY q) } u := by
  have hmem : ∀ g ∈ putAll i j t.fields (Profile.getY q), ∃ f ∈ t.fields, ∃ v, v ≠ none ∧ g = put f i j v := by
    intro g hg
    rw [putAll_cells _ _ _ _ hlen.symm] at hg
    obtain ⟨k, hk⟩ := List.mem_iff_getElem?.mp hg
    obtain ⟨f, v, h1, h2, h3⟩ := List.getElem?_zipWith_eq_some.mp hk
    exact ⟨f, List.mem_of_getElem? h1, v, hnm v (List.mem_of_getElem? h2), h3.symm⟩
  have hpl : (putAll i j t.fields (Profile.getY q)).length = t.fields.length := by
    rw [putAll_cells _ _ _ _ hlen.symm, List.length_zipWith]; omega
  refine ⟨⟨?_, ?_, ?_, ?_, ?_, ?_⟩, h.inc, ?_, ?_, h.size, h.tsize⟩
  · show t.times.length = _
    rw [hpl]; exact h.ok.paired
  · intro g hg
    obtain ⟨f, hf, v, hv', rfl⟩ := hmem g hg
    have w := h.ok.wf f hf
    refine ⟨w.incx, w.incy, w.nex, w.ney, w.vx, w.vy, w.mx, w.my, ?_⟩
    intro a b h1 h2 hnn
    have hnn : (if a = i ∧ b = j then v else f.cell a b) = none := hnn
    show f.mask.get a b = true
    by_cases hab : a = i ∧ b = j
    · rw [if_pos hab] at hnn; exact absurd hnn hv'
    · rw [if_neg hab] at hnn
      rw [SF.Reads.cellMask w h1 h2, hnn]; rfl
  · intro g hg; obtain ⟨f, hf, v, _, rfl⟩ := hmem g hg; exact h.ok.ax f hf
  · intro g hg; obtain ⟨f, hf, v, _, rfl⟩ := hmem g hg; exact h.ok.ay f hf
  · intro g hg; obtain ⟨f, hf, v, _, rfl⟩ := hmem g hg; exact h.ok.ux f hf
  · intro g hg; obtain ⟨f, hf, v, _, rfl⟩ := hmem g hg; exact h.ok.uy f hf
  · intro hc
    have := h.ne
    rw [← List.length_pos_iff] at this
    rw [← hpl] at this
    simp only at hc
    rw [hc] at this
    simp at this
  · intro g hg; obtain ⟨f, hf, v, _, rfl⟩ := hmem g hg; exact h.uv f hf

/-- What a container shows at the nodes. -/
def series (t : TF) (i j : Nat) : List (Option Rat) := t.fields.map fun f => f.cell i j

/-- One turn of the loop at a node with a value. -/
theorem filter_step (hs : IsArgsort srt) (h : SRecord t u) {g : List Rat → List Rat → List Rat} (hg : ∀ xs ys, ys.length = xs.length → (g xs ys).length = xs.length)
    {i j : Nat} {x y : Rat} (hi : t.ax[i]? = some x) (hj : t.ay[j]? = some y) (hv : ∃ v, some v ∈ series t i j) (r : List (Rat × Rat)) :
    ∃ T, filterNodes srt g ((x, y) :: r) t = filterNodes srt g r T ∧ SRecord T u ∧ T.ax = t.ax ∧ T.ay = t.ay ∧ T.times = t.times ∧
      (∀ a b, (a, b) ≠ (i, j) → series T a b = series t a b) ∧
      ∃ vals, Completed t.times (series t i j) vals ∧ series T i j = onVisible (series t i j) (g t.times vals) := by
  obtain ⟨p, e1, _, hp, hx, hy⟩ := node_profile hs h hi hj
  obtain ⟨e', _⟩ := oneCell_node h hi hj
  obtain ⟨v, hv⟩ := hv
  obtain ⟨q, e, hq, hql, hqn, hqm⟩ := fill_seen hp (v := v) (by rw [hy]; exact hv)
  have hpx : p.x.length = t.fields.length := by rw [hx]; exact h.ok.paired
  set Q : Prof := { q with y := (g q.x (q.y.map fun v => v.getD 0)).map some } with hQ
  have hgl : (g q.x (q.y.map fun v => v.getD 0)).length = p.x.length := by
    rw [hg _ _ (by rw [List.length_map, hql, hq]), hq]
  have hgy : Profile.getY Q = (g q.x (q.y.map fun v => v.getD 0)).map some := by
    show Profile.blank _ q.m = _
    rw [hqm, ← hgl]
    show Profile.blank ((g q.x (q.y.map fun v => v.getD 0)).map some) _ = _
    generalize g q.x (q.y.map fun v => v.getD 0) = l
    unfold Profile.blank
    induction l with
    | nil => rfl
    | cons a l ih => simp only [List.map_cons, List.length_cons, List.replicate_succ, List.zipWith_cons_cons, ih]; rfl
  have hlen : (Profile.getY Q).length = t.fields.length := by rw [hgy, List.length_map, hgl, hpx]
  have hnm : ∀ v ∈ Profile.getY Q, v ≠ none := by
    intro w hw
    rw [hgy] at hw
    obtain ⟨_, _, rfl⟩ := List.mem_map.mp hw
    simp
  have hinj := inject_ok (t := t) (q := Q) e' (by show q.x.length = _; rw [hq, hpx])
  refine ⟨{ t with fields := putAll i j t.fields (Profile.getY Q) }, ?_, inject_record h hlen hnm, rfl, rfl, rfl, fun a b hab => ?_, q.y.map fun v => v.getD 0,
    by have := fill_completed hp (by rw [hx]; exact h.inc) (v := v) (by rw [hy]; exact hv) e; rw [hx, hy] at this; exact this, ?_⟩
  · rw [hQ] at hinj
    simp only [filterNodes, e1, filterProf, e, hinj]
    rfl
  · unfold series
    show (putAll i j t.fields (Profile.getY Q)).map _ = _
    rw [putAll_cells _ _ _ _ hlen.symm]
    apply List.ext_getElem?
    intro k
    rw [List.getElem?_map, List.getElem?_map, List.getElem?_zipWith]
    by_cases hk : k < t.fields.length
    · rw [List.getElem?_eq_getElem hk, List.getElem?_eq_getElem (by omega)]
      simp only [Option.map_some]
      rw [put_other _ _ fun hc => hab (by rw [hc.1, hc.2])]
    · rw [List.getElem?_eq_none (by omega)]
  · unfold series onVisible
    show (putAll i j t.fields (Profile.getY Q)).map _ = _
    rw [putAll_cells _ _ _ _ hlen.symm, hgy, hq, hx]
    have hl2 : (g t.times (q.y.map fun v => v.getD 0)).length = t.fields.length := by rw [← hx, ← hq, hgl, hpx]
    apply List.ext_getElem?
    intro k
    rw [List.getElem?_map, List.getElem?_zipWith, List.getElem?_zipWith, List.getElem?_map, List.getElem?_map]
    by_cases hk : k < t.fields.length
    · rw [List.getElem?_eq_getElem hk, List.getElem?_eq_getElem (by omega)]
      simp only [Option.map_some, put_here]
      have w := h.ok.wf _ (List.getElem_mem hk)
      have ai := h.ok.ax _ (List.getElem_mem hk)
      have aj := h.ok.ay _ (List.getElem_mem hk)
      rw [SF.Reads.cellMask w (by rw [ai]; exact getElem?_some_lt hi) (by rw [aj]; exact getElem?_some_lt hj)]
      cases (t.fields[k]).cell i j <;> rfl
    · rw [List.getElem?_eq_none (by omega)]
      rfl

/-- The loop, on different nodes. -/
theorem filter_nodes (hs : IsArgsort srt) {g : List Rat → List Rat → List Rat} (hg : ∀ xs ys, ys.length = xs.length → (g xs ys).length = xs.length)
    (r : List (Rat × Rat)) : ∀ {t : TF}, SRecord t u → r.Nodup → (∀ c ∈ r, c ∈ nodes t) →
      (∀ c ∈ r, ∀ i j : Nat, t.ax[i]? = some c.1 → t.ay[j]? = some c.2 → ∃ v, some v ∈ series t i j) →
      ∃ T, filterNodes srt g r t = (T, .ok ⟨⟩) ∧ SRecord T u ∧ T.ax = t.ax ∧ T.ay = t.ay ∧ T.times = t.times ∧
        ∀ (i j : Nat) x y, t.ax[i]? = some x → t.ay[j]? = some y →
          ((x, y) ∉ r → series T i j = series t i j) ∧
            ((x, y) ∈ r → ∃ vals, Completed t.times (series t i j) vals ∧ series T i j = onVisible (series t i j) (g t.times vals)) := by
  induction r with
  | nil => exact fun h _ _ _ => ⟨_, rfl, h, rfl, rfl, rfl, fun i j x y _ _ => ⟨fun _ => rfl, fun hm => absurd hm (by simp)⟩⟩
  | cons c r ih =>
    intro t h hnd hin hv
    obtain ⟨x0, y0⟩ := c
    obtain ⟨i0, j0, hi0, hj0⟩ := node_index (hin (x0, y0) (by simp))
    obtain ⟨T1, e1, h1, ax1, ay1, t1, s1, s2⟩ := filter_step hs h hg hi0 hj0 (hv (x0, y0) (by simp) _ _ hi0 hj0) r
    have hother : ∀ c ∈ r, ∀ i j : Nat, t.ax[i]? = some c.1 → t.ay[j]? = some c.2 → (i, j) ≠ (i0, j0) := by
      intro c hc i j hi hj he
      cases he
      rw [hi] at hi0
      rw [hj] at hj0
      have : c = (x0, y0) := Prod.ext (Option.some.inj hi0) (Option.some.inj hj0)
      rw [this] at hc
      exact (List.nodup_cons.mp hnd).1 hc
    obtain ⟨T, e2, h2, ax2, ay2, t2, s3⟩ := ih h1 (List.nodup_cons.mp hnd).2
      (fun c hc => by
        have := hin c (by simp [hc])
        rw [show nodes T1 = nodes t by unfold nodes; rw [ax1, ay1]]
        exact this)
      (fun c hc i j hi hj => by
        rw [ax1] at hi
        rw [ay1] at hj
        rw [s1 i j (hother c hc i j hi hj)]
        exact hv c (by simp [hc]) i j hi hj)
    refine ⟨T, by rw [e1, e2], h2, ax2.trans ax1, ay2.trans ay1, t2.trans t1, fun i j x y hi hj => ?_⟩
    obtain ⟨k1, k2⟩ := s3 i j x y (by rw [ax1]; exact hi) (by rw [ay1]; exact hj)
    by_cases h0 : (x, y) = (x0, y0)
    · cases h0
      have ei := inc_inj (axes h).1 hi hi0
      have ej := inc_inj (axes h).2.1 hj hj0
      subst ei
      subst ej
      refine ⟨fun hm => absurd (by simp) hm, fun _ => ?_⟩
      rw [k1 (List.nodup_cons.mp hnd).1]
      exact s2
    · have hij : (i, j) ≠ (i0, j0) := by
        intro he
        cases he
        rw [hi] at hi0
        rw [hj] at hj0
        exact h0 (Prod.ext (Option.some.inj hi0) (Option.some.inj hj0))
      refine ⟨fun hm => ?_, fun hm => ?_⟩
      · rw [k1 (fun hc => hm (by simp [hc])), s1 i j hij]
      · have := k2 (by simpa [h0] using hm)
        rw [t1, s1 i j hij] at this
        exact this

theorem nodes_nodup (h : SRecord t u) : (nodes t).Nodup := by
  unfold nodes
  have hx : t.ax.Nodup := (axes h).1.imp fun h => ne_of_lt h
  have hy : t.ay.Nodup := (axes h).2.1.imp fun h => ne_of_lt h
  rw [List.nodup_flatMap]
  refine ⟨fun x _ => hy.map fun a b e => (Prod.mk.inj e).2, hx.imp fun {a b} hab => ?_⟩
  intro c h1 h2
  obtain ⟨_, _, rfl⟩ := List.mem_map.mp h1
  obtain ⟨_, _, e⟩ := List.mem_map.mp h2
  exact hab (Prod.mk.inj e).1.symm

theorem filtering_all (hs : IsArgsort srt) (h : SRecord t u) {g : List Rat → List Rat → List Rat}
    (hg : ∀ xs ys, ys.length = xs.length → (g xs ys).length = xs.length) (hv : ∀ c ∈ nodes t, Sighted t c.1 c.2) :
    ∃ T, filterNodes srt g (nodes t) t = (T, .ok ⟨⟩) ∧ SRecord T u ∧ T.ax = t.ax ∧ T.ay = t.ay ∧ T.times = t.times ∧
      ∀ x y l, x ∈ t.ax → y ∈ t.ay → ShowsS t x y l → ∃ vals, Completed t.times l vals ∧ ShowsS T x y (onVisible l (g t.times vals)) := by
  obtain ⟨T, e, hT, h1, h2, h3, h4⟩ := filter_nodes hs hg (nodes t) h (nodes_nodup h) (fun _ hc => hc) fun c hc i j hi hj =>
    (seen_cell h hi hj).mp (hv c hc)
  refine ⟨T, e, hT, h1, h2, h3, fun x y l hmx hmy hl => ?_⟩
  have hm : (x, y) ∈ nodes t := mem_nodes.mpr ⟨hmx, hmy⟩
  obtain ⟨i, j, hi, hj⟩ := node_index hm
  have hl := (Turb.sshows_cells h hi hj _).mp hl
  obtain ⟨vals, hc, hs'⟩ := (h4 i j x y hi hj).2 hm
  have hl : series t i j = l := hl.symm
  rw [hl] at hc hs'
  exact ⟨vals, hc, (Turb.sshows_cells hT (h1 ▸ hi) (h2 ▸ hj) _).mpr hs'.symm⟩

/-- C349, when each node shows a value at some time: at each node, at the times when it is not masked, the result shows the values of the
field along time, filtered, the masked ones being interpolated first; it is masked at the other times. -/
theorem C349_values_partial (hs : IsArgsort srt) (h : SRecord t u) {g : List Rat → List Rat → List Rat}
    (hg : ∀ xs ys, ys.length = xs.length → (g xs ys).length = xs.length) (hv : ∀ x ∈ t.ax, ∀ y ∈ t.ay, Sighted t x y) :
    ∃ T, (getFiltering srt g t false).2 = .ok (some T) ∧ (getFiltering srt g t true).1 = T ∧ T.ax = t.ax ∧ T.ay = t.ay ∧ T.times = t.times ∧
      ∀ x y l, x ∈ t.ax → y ∈ t.ay → ShowsS t x y l → ∃ vals, Completed t.times l vals ∧ ShowsS T x y (onVisible l (g t.times vals)) := by
  obtain ⟨T, e, _, h1, h2, h3, h4⟩ := filtering_all hs h hg fun c hc => hv _ (mem_nodes.mp hc).1 _ (mem_nodes.mp hc).2
  refine ⟨T, ?_, ?_, h1, h2, h3, h4⟩
  · unfold getFiltering
    simp only [e]
    rfl
  · unfold getFiltering
    simp only [e]

/-- Values without any masked one are complete. -/
theorem completed_visible {xs l vals : List Rat} (h : Completed xs (l.map some) vals) (hx : Inc xs) : vals = l := by
  obtain ⟨p, q, h1, h2, h3, h4, h5⟩ := h
  rw [List.length_map] at h2
  apply List.ext_getElem?
  intro k
  by_cases hk : k < l.length
  · have hx1 : xs[k]? = some xs[k] := List.getElem?_eq_getElem (by omega)
    have m1 : (xs[k], some l[k]) ∈ pts p := by
      rw [h1]
      refine List.mem_of_getElem? (i := k) (List.getElem?_zip_eq_some.mpr ⟨hx1, ?_⟩)
      simp [hk]
    have m2 := h3.kept _ _ m1
    rw [h4] at m2
    obtain ⟨n, hn⟩ := List.mem_iff_getElem?.mp m2
    obtain ⟨h6, h7⟩ := List.getElem?_zip_eq_some.mp hn
    rw [inc_inj hx h6 hx1, List.getElem?_map] at h7
    rw [List.getElem?_eq_getElem hk]
    cases hvk : vals[k]? with
    | none => rw [hvk] at h7; cases h7
    | some v => rw [hvk] at h7; exact congrArg some (Option.some.inj (Option.some.inj h7))
  · rw [List.getElem?_eq_none (by omega), List.getElem?_eq_none (by omega)]

theorem onVisible_all : ∀ (l new : List Rat), new.length = l.length → onVisible (l.map some) new = new.map some
  | [], [], _ => rfl
  | a :: l, b :: new, h => by
    have := onVisible_all l new (by simpa using h)
    unfold onVisible at this ⊢
    simp only [List.map_cons, List.zipWith_cons_cons, this]
    rfl

/-- C349 fails for the object itself, that should be left as it is without `inplace`: its values are replaced by the filtered ones. -/
theorem C349_original_violated (hs : IsArgsort srt) (h : SRecord t u) {g : List Rat → List Rat → List Rat}
    (hg : ∀ xs ys, ys.length = xs.length → (g xs ys).length = xs.length) (hv : ∀ x ∈ t.ax, ∀ y ∈ t.ay, Sighted t x y) {x y : Rat} {l : List Rat}
    (hx : x ∈ t.ax) (hy : y ∈ t.ay) (hl : ShowsS t x y (l.map some)) (hne : g t.times l ≠ l) :
    ShowsS (getFiltering srt g t false).1 x y ((g t.times l).map some) ∧ (getFiltering srt g t false).1 ≠ t := by
  obtain ⟨T, e, hT, h1, h2, h3, h4⟩ := filtering_all hs h hg fun c hc => hv _ (mem_nodes.mp hc).1 _ (mem_nodes.mp hc).2
  have e0 : (getFiltering srt g t false).1 = T := by
    unfold getFiltering
    simp only [e]
  obtain ⟨i, j, hi, hj⟩ := node_index (mem_nodes.mpr ⟨hx, hy⟩)
  have a1 := (Turb.sshows_cells h hi hj _).mp hl
  have hlen : l.length = t.times.length := by
    have := congrArg List.length a1
    simp only [List.length_map] at this
    rw [this, h.ok.paired]
  obtain ⟨vals, hc, hsh⟩ := h4 x y _ hx hy hl
  rw [completed_visible hc h.inc, onVisible_all _ _ (by rw [hg _ _ hlen, hlen])] at hsh
  rw [e0]
  refine ⟨hsh, fun hT => hne ?_⟩
  have a2 := (Turb.sshows_cells h hi hj _).mp (hT ▸ hsh)
  have := a2.trans a1.symm
  exact List.map_injective_iff.mpr (Option.some_injective _) this

/-- The loop stops at the first node that is masked at all times. -/
theorem filter_stops (hs : IsArgsort srt) {g : List Rat → List Rat → List Rat} (hg : ∀ xs ys, ys.length = xs.length → (g xs ys).length = xs.length)
    (r : List (Rat × Rat)) : ∀ {t : TF}, SRecord t u → r.Nodup → (∀ c ∈ r, c ∈ nodes t) →
      (∃ c ∈ r, ∃ i j : Nat, t.ax[i]? = some c.1 ∧ t.ay[j]? = some c.2 ∧ ∀ v ∈ series t i j, v = none) →
      (filterNodes srt g r t).2 = .error .exception := by
  induction r with
  | nil => rintro t _ _ _ ⟨c, hc, _⟩; simp at hc
  | cons c r ih =>
    intro t h hnd hin hv
    obtain ⟨x0, y0⟩ := c
    obtain ⟨i0, j0, hi0, hj0⟩ := node_index (hin (x0, y0) (by simp))
    by_cases hseen : ∃ v, some v ∈ series t i0 j0
    · obtain ⟨T1, e1, h1, ax1, ay1, _, s1, _⟩ := filter_step hs h hg hi0 hj0 hseen r
      rw [e1]
      refine ih h1 (List.nodup_cons.mp hnd).2 (fun c hc => ?_) ?_
      · have := hin c (by simp [hc])
        rw [show nodes T1 = nodes t by unfold nodes; rw [ax1, ay1]]
        exact this
      · obtain ⟨c, hc, i, j, hi, hj, hn⟩ := hv
        have hij : (i, j) ≠ (i0, j0) := by
          intro he
          cases he
          obtain ⟨v, hv⟩ := hseen
          have := hn _ hv
          cases this
        have hcr : c ∈ r := by
          rcases List.mem_cons.mp hc with rfl | hc
          · exact absurd (Prod.ext (inc_inj (axes h).1 hi hi0) (inc_inj (axes h).2.1 hj hj0)) hij
          · exact hc
        exact ⟨c, hcr, i, j, ax1 ▸ hi, ay1 ▸ hj, by rw [s1 i j hij]; exact hn⟩
    · obtain ⟨p, e1, _, hp, hx, hy⟩ := node_profile hs h hi0 hj0
      have hf := fill_hidden hp (fun v hv => by
        rw [hy] at hv
        cases v with
        | none => rfl
        | some v => exact absurd ⟨v, hv⟩ hseen) (by
        rw [hy]
        simpa using h.ne)
      simp only [filterNodes, e1, filterProf, hf]

/-- C349 fails when a node is masked at all times: an exception. -/
theorem C349_masked_violated (hs : IsArgsort srt) (h : SRecord t u) {g : List Rat → List Rat → List Rat}
    (hg : ∀ xs ys, ys.length = xs.length → (g xs ys).length = xs.length) {x y : Rat} (hx : x ∈ t.ax) (hy : y ∈ t.ay) (hv : ¬ Sighted t x y) (b : Bool) :
    (getFiltering srt g t b).2 = .error .exception := by
  have hm := mem_nodes.mpr ⟨hx, hy⟩
  obtain ⟨i, j, hi, hj⟩ := node_index hm
  have := filter_stops hs hg (nodes t) h (nodes_nodup h) (fun _ hc => hc) ⟨(x, y), hm, i, j, hi, hj, fun v hv' => by
    cases v with
    | none => rfl
    | some v => exact absurd ((seen_cell h hi hj).mpr ⟨v, hv'⟩) hv⟩
  unfold getFiltering
  revert this
  cases hf : filterNodes srt g (nodes t) t with
  | mk T r =>
    intro hr
    have hr : r = .error .exception := hr
    subst hr
    rfl

/-! ### examples -/

/-- A field without masked point. -/
def plain (v : Rat) : SF := { SF.sample with val := ⟨3, 2, fun i j => some (v + 10 * i + j)⟩, mask := ⟨3, 2, fun _ _ => false⟩ }

theorem plain_WF (v : Rat) : (plain v).WF :=
  ⟨SF.sample_WF.incx, SF.sample_WF.incy, SF.sample_WF.nex, SF.sample_WF.ney, rfl, rfl, rfl, rfl, fun _ _ _ _ h => by cases h⟩

/-- Three fields, the node (1, 1/2) being masked at the first time only. -/
def trio : TF := { Temporal.rec3 with fields := [SF.sample, plain 5, plain 7] }

theorem trio_record : SRecord trio SF.sample.uv := by
  refine ⟨⟨rfl, ?_, ?_, ?_, ?_, ?_⟩, by decide +kernel, by decide, ?_, by decide +kernel, by decide +kernel⟩ <;> intro f hf <;>
    (have hf : f ∈ [SF.sample, plain 5, plain 7] := hf
     simp only [List.mem_cons, List.not_mem_nil, or_false] at hf
     rcases hf with rfl | rfl | rfl) <;> first | rfl | exact SF.sample_WF | exact plain_WF _

theorem trio_seen : ∀ c ∈ nodes trio, Sighted trio c.1 c.2 := by
  rintro ⟨x, y⟩ hc
  obtain ⟨i, j, hi, hj⟩ := node_index hc
  exact (seen_cell trio_record hi hj).mpr ⟨5 + 10 * i + j, List.mem_map.mpr ⟨plain 5, by simp [trio], rfl⟩⟩

/-- Two magnitudes, the sum of the values and its double. -/
def twoMag : List Rat → List Rat → List Rat := fun _ vs => [vs.sum, 2 * vs.sum]

example : ∀ vs, (twoMag trio.times vs).length = 2 := fun _ => rfl

example : Covers trio.ax (1 / 2) ∧ Covers trio.ax 3 ∧ Covers trio.ay (-1) ∧ Covers trio.ay (1 / 3) :=
  ⟨⟨⟨0, by decide +kernel, by norm_num⟩, 1, by decide +kernel, by norm_num⟩, ⟨⟨0, by decide +kernel, by norm_num⟩, 3, by decide +kernel, by norm_num⟩,
    ⟨⟨-1, by decide +kernel, by norm_num⟩, 1 / 2, by decide +kernel, by norm_num⟩, ⟨-1, by decide +kernel, by norm_num⟩, 1 / 2, by decide +kernel, by norm_num⟩

example : nodesIn trio (1 / 2, 3) (-1, 1 / 3) = [(1, -1), (3, -1)] := by decide +kernel

example : overArea Profile.argsort twoMag trio (1 / 2, 3) (-1, 1 / 3) = .ok (some [57, 114]) := by decide +kernel

example : overAreaInd Profile.argsort twoMag trio (1, 2) (0, 0) = .ok (some [57, 114]) := by decide +kernel

example : overAreaInd Profile.argsort twoMag trio (2, 0) (0, 0) = .ok none := by decide +kernel

theorem rec3_hidden : ¬ Sighted Temporal.rec3 1 (1 / 2) := by
  intro hs
  obtain ⟨v, hv⟩ := (seen_cell rec3_record (i := 1) (j := 1) (by decide +kernel) (by decide +kernel)).mp hs
  have : Temporal.rec3.fields.map (fun f => f.cell 1 1) = [none, none, none] := by decide +kernel
  rw [this] at hv
  simp at hv

example : overArea Profile.argsort twoMag Temporal.rec3 (1 / 2, 3) (-1, 1 / 2) = .error .exception := by decide +kernel

example : ¬ Covers trio.ax 4 := by
  rintro ⟨_, b, hb, h⟩
  simp only [trio, Temporal.rec3, SF.sample, List.mem_cons, List.not_mem_nil, or_false] at hb
  rcases hb with rfl | rfl | rfl <;> norm_num at h

example : ∃ c ∈ nodes Temporal.rec3, ¬ MostlyMasked Temporal.rec3 c.1 c.2 := by
  refine ⟨(0, -1), by decide +kernel, fun h => ?_⟩
  have := h [some 0, some 0, some 0] ((Turb.sshows_cells rec3_record (i := 0) (j := 0) (by decide +kernel) (by decide +kernel) _).mpr (by decide +kernel))
  simp at this

example : ((spectrumMap Profile.argsort (fun _ => [3, 4]) twoMag Temporal.rec3 1).toOption.map Prod.fst) =
    some [some [3], some [4], some [4], none, some [4], some [4]] := by
  decide +kernel

/-- Fields masked everywhere. -/
def dark : TF := { Temporal.rec3 with fields := List.replicate 3 { SF.sample with mask := ⟨3, 2, fun _ _ => true⟩ } }

example : (spectrumMap Profile.argsort (fun _ => [3, 4]) twoMag dark 1).toOption.isNone := by decide +kernel

example : ((getFiltering Profile.argsort (fun _ vs => vs.map fun v => v / 2) trio false).1.fields.map fun f => [f.cell 1 0, f.cell 1 1]) =
    [[some 5, none], [some (15 / 2), some 8], [some (17 / 2), some 9]] := by
  decide +kernel

example : ShowsS trio 1 (-1) ([10, 15, 17].map some) :=
  (Turb.sshows_cells trio_record (i := 1) (j := 0) (by decide +kernel) (by decide +kernel) _).mpr (by decide +kernel)

end IMT.Trace
