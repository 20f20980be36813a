import Verif.Cp.TurnModel
import Verif.Tidy.Extrema

/-! Property C281: where trajectories change their direction. -/

namespace IMT.Turn

open Profile Tidy

/-! ### specification -/

/-- The point is on the broken line of the trajectory: between two successive points, in space and in time. -/
def OnTraj (tr : List Pt) (p : Pt) : Prop :=
  ∃ A a b B, ∃ l : Rat, tr = A ++ a :: b :: B ∧ 0 ≤ l ∧ l ≤ 1 ∧ p = ⟨(1 - l) * a.x + l * b.x, (1 - l) * a.y + l * b.y, (1 - l) * a.t + l * b.t⟩

/-- The times of a trajectory are evenly spaced. -/
def EvenTimes (tr : List Pt) : Prop := ∃ t0 d : Rat, 0 < d ∧ tr.map Pt.t = (List.range tr.length).map fun i : Nat => t0 + (i : Rat) * d

/-- The coordinate along a direction. -/
def Dir.coord : Dir → Option (Pt → Rat)
  | .x => some Pt.x
  | .y => some Pt.y
  | .other => none

/-- The units are of positive size. -/
def Units.Pos (u : Units) : Prop := 0 < u.ux.size ∧ 0 < u.uy.size ∧ 0 < u.ut.size

/-- A known point. -/
def known (p : Pt) : F × F × F := (some p.x, some p.y, some p.t)

/-! ### lemmas -/

theorem map_range {α : Type} (l : List α) (dflt : α) : l = (List.range l.length).map fun i => l.getD i dflt := by
  apply List.ext_getElem
  · simp
  · intro i h1 h2
    simp [List.getD_eq_getElem?_getD, List.getElem?_eq_getElem h1]

theorem tab_zip {n : Nat} (x0 d : Rat) (W : Nat → F) : ((List.range n).map fun i : Nat => x0 + (i : Rat) * d).zip ((List.range n).map W) = tab n x0 d W := by
  unfold tab
  rw [List.zip_map']

theorem pts_byIndex {g : Prof} {n : Nat} {x0 d : Rat} {W : Nat → F} (hn : g.x.length = n) (h : pts g = tab n x0 d W) :
    pts (byIndex g) = tab n 0 1 W := by
  have hl := congrArg List.length h
  have hg := fun i : Nat => congrArg (fun l => l[i]?) h
  unfold pts at hl hg ⊢
  unfold tab at hl hg ⊢
  simp only [List.length_zip, hn, List.length_map, List.length_range] at hl
  have hy : getY (byIndex g) = getY g := rfl
  rw [hy]
  apply List.ext_getElem
  · simp [byIndex, hn]; omega
  · intro i h1 h2
    have hi : i < n := by simpa using h2
    have := hg i
    simp only [List.getElem?_eq_getElem (show i < (g.x.zip (getY g)).length by simp [hn]; omega), List.getElem?_map,
      List.getElem?_range hi, Option.map_some, Option.some.injEq, List.getElem_zip, Prod.mk.injEq] at this
    simp [byIndex, this.2]

theorem positions_affine (v x0 d : Rat) (l : List (Rat × F)) :
    positions v (l.map fun r => (x0 + r.1 * d, r.2)) = (positions v l).map fun k => x0 + k * d := by
  induction l with
  | nil => rfl
  | cons p l ih =>
    rcases l with _ | ⟨q, l⟩
    · rfl
    · simp only [List.map_cons] at ih ⊢
      rw [positions, positions]
      by_cases h : changes v p.2 q.2 = true
      · simp only [h, if_true, List.map_cons, ih]
        congr 1
        ring
      · simp only [h, Bool.false_eq_true, if_false, ih]

theorem vpos_affine {n : Nat} (x0 d : Rat) (W : Nat → F) (v : Rat) :
    vpos (tab n x0 d W) v = (vpos (tab n 0 1 W) v).map fun k => x0 + k * d := by
  have e : tab n x0 d W = (tab n 0 1 W).map fun r => (x0 + r.1 * d, r.2) := by
    unfold tab
    rw [List.map_map]
    apply List.map_congr_left
    intro i _
    simp
  rw [e]
  generalize tab n 0 1 W = l
  unfold vpos
  rw [List.any_map]
  simp only [Function.comp_def]
  split
  · rw [List.filter_map, List.map_map, List.map_take, List.map_map]
    rfl
  · exact positions_affine v x0 d l

theorem vpos_range {n : Nat} {W : Nat → F} {k : Rat} (h : k ∈ vpos (tab n 0 1 W) 0) :
    (∃ i, i < n ∧ k = i) ∨ ∃ i l, i + 1 < n ∧ 0 < l ∧ l < 1 ∧ k = (i : Rat) + l := by
  rcases vpos_sound h with ⟨i, hi, -, rfl⟩ | ⟨i, a, b, hi, -, -, hs, rfl⟩
  · exact .inl ⟨i, hi, by simp⟩
  · refine .inr ⟨i, a / (a - b), hi, ?_, ?_, by ring⟩
    · rcases hs with ⟨h1, h2⟩ | ⟨h1, h2⟩
      · exact div_pos_of_neg_of_neg h1 (by linarith)
      · exact div_pos h2 (by linarith)
    · rcases hs with ⟨h1, h2⟩ | ⟨h1, h2⟩
      · rw [div_lt_one_of_neg (by linarith)]; linarith
      · rw [div_lt_one (by linarith)]; linarith

/-- The values and the indices. -/
def itab (n : Nat) (V : Nat → Rat) : List (F × F) := (List.range n).map fun i : Nat => (some (i : Rat), some (V i))

theorem single_nat {n i : Nat} (hi : i < n) (V : Nat → Rat) : (single (itab n V) i).head? = some (some (V i)) := by
  have hany : (itab n V).any (fun p => p.1 = some (i : Rat)) = true := by
    rw [List.any_eq_true]
    exact ⟨(some (i : Rat), some (V i)), List.mem_map.2 ⟨i, List.mem_range.2 hi, rfl⟩, by simp⟩
  have hall : ∀ w ∈ single (itab n V) i, w = some (V i) := by
    intro w hw
    unfold single at hw
    rw [if_pos hany] at hw
    obtain ⟨r, hr, rfl⟩ := List.mem_map.1 hw
    obtain ⟨hr, he⟩ := List.mem_filter.1 hr
    obtain ⟨j, -, rfl⟩ := List.mem_map.1 hr
    simp at he
    rw [he]
  have hne : single (itab n V) i ≠ [] := by
    unfold single
    rw [if_pos hany]
    intro h
    have := List.map_eq_nil_iff.1 h
    rw [List.any_eq_true] at hany
    obtain ⟨r, hr, he⟩ := hany
    have : r ∈ ([] : List (F × F)) := by rw [← this]; exact List.mem_filter.2 ⟨hr, he⟩
    simp at this
  cases h : single (itab n V) i with
  | nil => exact absurd h hne
  | cons w l => rw [hall w (by rw [h]; simp)]; rfl

theorem single_frac {n i : Nat} (hi : i + 1 < n) (V : Nat → Rat) {l : Rat} (h0 : 0 < l) (h1 : l < 1) :
    (single (itab n V) ((i : Rat) + l)).head? = some (some ((1 - l) * V i + l * V (i + 1))) := by
  have hns : ∀ r ∈ itab n V, r.1 ≠ some ((i : Rat) + l) := by
    rintro r hr he
    obtain ⟨j, -, rfl⟩ := List.mem_map.1 hr
    have he : (j : Rat) = i + l := by simpa using he
    have h2 : (i : Rat) < j := by linarith
    have h3 : (j : Rat) < ((i + 1 : Nat) : Rat) := by push_cast; linarith
    have h2 : i < j := by exact_mod_cast h2
    have h3 : j < i + 1 := by exact_mod_cast h3
    omega
  rw [single_scan hns]
  have hmem : ∀ w, w ∈ scan ((i : Rat) + l) (itab n V) ↔ w = some ((1 - l) * V i + l * V (i + 1)) := by
    intro w
    rw [scan_mem]
    have hval : interp ((i : Rat) + l) (i : Rat) ((i + 1 : Nat) : Rat) (some (V i)) (some (V (i + 1))) = some ((1 - l) * V i + l * V (i + 1)) := by
      unfold interp
      push_cast
      rw [show (i : Rat) + 1 - (i + l) = 1 - l by ring, show (i : Rat) - (i + l) = -l by ring, show (i : Rat) - (i + 1) = -1 by ring,
        abs_of_pos (by linarith), abs_neg, abs_of_pos h0]
      norm_num
      ring
    constructor
    · rintro ⟨A, p, q, B, hl, hc, rfl⟩
      have hp := congrArg (fun l => l[A.length]?) hl
      have hq := congrArg (fun l => l[A.length + 1]?) hl
      have hlen : n = A.length + (B.length + 2) := by have := congrArg List.length hl; simpa [itab] using this
      simp only [itab, List.getElem?_map, List.getElem?_range (show A.length < n by omega)] at hp
      simp only [itab, List.getElem?_map, List.getElem?_range (show A.length + 1 < n by omega)] at hq
      rw [List.getElem?_append_right (by omega)] at hq
      simp at hp hq
      subst hp
      subst hq
      have hA : A.length = i := by
        simp only [crosses, decide_eq_true_eq] at hc
        rcases hc with ⟨h2, h3⟩ | ⟨h2, h3⟩
        · linarith
        · have e1 : (A.length : Rat) < ((i + 1 : Nat) : Rat) := by push_cast; linarith
          have e2 : (i : Rat) < ((A.length + 1 : Nat) : Rat) := by push_cast; linarith
          have e1 : A.length < i + 1 := by exact_mod_cast e1
          have e2 : i < A.length + 1 := by exact_mod_cast e2
          omega
      rw [← hval]
      simp only [Option.getD_some, hA]
      push_cast
      rfl
    · rintro rfl
      refine ⟨(itab n V).take i, (some (i : Rat), some (V i)), (some ((i + 1 : Nat) : Rat), some (V (i + 1))), (itab n V).drop (i + 2), ?_, ?_, ?_⟩
      · have e1 : (itab n V).drop i = (some (i : Rat), some (V i)) :: (itab n V).drop (i + 1) := by
          rw [List.drop_eq_getElem_cons (by simp [itab]; omega)]
          congr 1
          simp [itab]
        have e2 : (itab n V).drop (i + 1) = (some ((i + 1 : Nat) : Rat), some (V (i + 1))) :: (itab n V).drop (i + 2) := by
          rw [List.drop_eq_getElem_cons (by simp [itab]; omega)]
          congr 1
          simp [itab]
        rw [← e2, ← e1, List.take_append_drop]
      · simp only [crosses, decide_eq_true_eq]
        right
        push_cast
        constructor <;> linarith
      · exact hval.symm
  cases h : scan ((i : Rat) + l) (itab n V) with
  | nil =>
    have := (hmem _).2 rfl
    rw [h] at this
    simp at this
  | cons w m => rw [(hmem w).1 (by rw [h]; simp)]; rfl

theorem atX_index {f : Pt → Rat} {ut uf : Sym} {tr : List Pt} (dflt : Pt) (k : Rat) :
    atX (byIndex (profOf f ut uf tr)) k = single (itab tr.length fun i => f (tr.getD i dflt)) k := by
  unfold atX
  congr 1
  have hy : getY (byIndex (profOf f ut uf tr)) = tr.map fun p => some (f p) := by
    unfold getY blank byIndex profOf
    simp only [List.zipWith_map, List.zipWith_self, Bool.false_eq_true, if_false]
  rw [hy]
  have hm : (tr.map fun p => some (f p)) = (List.range tr.length).map fun i => some (f (tr.getD i dflt)) := by
    conv_lhs => rw [map_range tr dflt]
    rw [List.map_map]
    simp
  rw [hm]
  simp only [byIndex, profOf, List.length_map, List.map_map, itab, List.zip_map']
  rfl

theorem even_prof {f : Pt → Rat} {ut uf : Sym} {tr : List Pt} (dflt : Pt) {t0 d : Rat} (hd : 0 < d)
    (ht : tr.map Pt.t = (List.range tr.length).map fun i : Nat => t0 + (i : Rat) * d) :
    EvenProf (profOf f ut uf tr) tr.length t0 d fun i => f (tr.getD i dflt) := by
  refine ⟨⟨by simp [profOf], by simp only [profOf, List.map_map]; rfl, ?_⟩, ht, ?_⟩
  · show (tr.map Pt.t).Pairwise _
    rw [ht, List.pairwise_map]
    refine List.pairwise_lt_range.imp fun {i j} h => ?_
    have : (i : Rat) ≤ j := by exact_mod_cast h.le
    nlinarith
  · show (tr.map fun p => some (f p)) = _
    conv_lhs => rw [map_range tr dflt]
    rw [List.map_map]
    simp

theorem getD_lt {l : List Pt} {i : Nat} {z : Pt} (h : i < l.length) : l.getD i z = l[i] := by
  rw [List.getD_eq_getElem?_getD, List.getElem?_eq_getElem h]
  rfl

/-- The point at a fractional index. -/
def ptAt (tr : List Pt) (dflt : Pt) (i : Nat) (l : Rat) : Pt :=
  ⟨(1 - l) * (tr.getD i dflt).x + l * (tr.getD (i + 1) dflt).x, (1 - l) * (tr.getD i dflt).y + l * (tr.getD (i + 1) dflt).y,
    (1 - l) * (tr.getD i dflt).t + l * (tr.getD (i + 1) dflt).t⟩

theorem onTraj {tr : List Pt} {dflt : Pt} {i : Nat} {l : Rat} (hi : i + 1 < tr.length) (h0 : 0 ≤ l) (h1 : l ≤ 1) :
    OnTraj tr (ptAt tr dflt i l) := by
  refine ⟨tr.take i, tr.getD i dflt, tr.getD (i + 1) dflt, tr.drop (i + 2), l, ?_, h0, h1, rfl⟩
  rw [getD_lt (show i < tr.length by omega), getD_lt hi]
  rw [← List.drop_eq_getElem_cons (by omega), ← List.drop_eq_getElem_cons (by omega), List.take_append_drop]

/-- What is picked at an index. -/
theorem pick_spec {u : Units} {tr : List Pt} {t0 d k : Rat} (h2 : 2 ≤ tr.length)
    (ht : tr.map Pt.t = (List.range tr.length).map fun i : Nat => t0 + (i : Rat) * d)
    (hk : (∃ i : Nat, i < tr.length ∧ k = i) ∨ ∃ (i : Nat) (l : Rat), i + 1 < tr.length ∧ 0 < l ∧ l < 1 ∧ k = (i : Rat) + l) :
    ∃ p, pick u tr k = known p ∧ OnTraj tr p ∧ p.t = t0 + k * d := by
  have htime : ∀ (dflt : Pt) i, i < tr.length → (tr.getD i dflt).t = t0 + (i : Rat) * d := by
    intro dflt i hi
    have := congrArg (fun l => l[i]?) ht
    simp only [List.getElem?_map, List.getElem?_eq_getElem hi, List.getElem?_range hi, Option.map_some, Option.some.injEq] at this
    rw [getD_lt hi, this]
  let z : Pt := ⟨0, 0, 0⟩
  unfold pick atIndex
  rw [atX_index z, atX_index z, atX_index z]
  rcases hk with ⟨i, hi, rfl⟩ | ⟨i, l, hi, h0, h1, rfl⟩
  · rw [single_nat hi, single_nat hi, single_nat hi]
    refine ⟨tr.getD i z, rfl, ?_, htime z i hi⟩
    by_cases hl : i + 1 < tr.length
    · have := onTraj (dflt := z) hl le_rfl zero_le_one
      simpa [ptAt] using this
    · obtain ⟨j, rfl⟩ : ∃ j, i = j + 1 := ⟨i - 1, by omega⟩
      have := onTraj (dflt := z) hi zero_le_one le_rfl
      simpa [ptAt] using this
  · rw [single_frac hi _ h0 h1, single_frac hi _ h0 h1, single_frac hi _ h0 h1]
    refine ⟨ptAt tr z i l, rfl, onTraj hi h0.le h1.le, ?_⟩
    simp only [ptAt]
    rw [htime z i (by omega), htime z (i + 1) hi]
    push_cast
    ring

/-- The indices of the extrema are those of their positions. -/
theorem extremaInd_eq {p : Prof} {n : Nat} {x0 d : Rat} {Y : Nat → Rat} (hp : EvenProf p n x0 d Y) (hn : 2 ≤ n) (hd : 0 < d) (hu : PosUnits p) :
    ∃ mins maxs, extremaInd p = .ok (mins, maxs) ∧ extrema p = .ok (mins.map fun k => x0 + k * d, maxs.map fun k => x0 + k * d) ∧
      ∀ k, k ∈ mins ∨ k ∈ maxs → (∃ i : Nat, i < n ∧ k = i) ∨ ∃ (i : Nat) (l : Rat), i + 1 < n ∧ 0 < l ∧ l < 1 ∧ k = (i : Rat) + l := by
  obtain ⟨κ, hk, g1, g2, e, l1, l2, h1, h2⟩ := extremaGrads_eq hp hn hd hu
  refine ⟨valuePosition (byIndex g1) 0, valuePosition (byIndex g2) 0, ?_, ?_, ?_⟩
  · unfold extremaInd; rw [e]
  · unfold extrema; rw [e]
    simp only [vpos_eq, h1, h2, pts_byIndex l1 h1, pts_byIndex l2 h2, ← vpos_affine]
  · intro k hk
    simp only [vpos_eq, pts_byIndex l1 h1, pts_byIndex l2 h2] at hk
    rcases hk with hk | hk
    · exact vpos_range hk
    · exact vpos_range hk

theorem list_known {u : Units} {tr : List Pt} {t0 d : Rat} (h2 : 2 ≤ tr.length)
    (ht : tr.map Pt.t = (List.range tr.length).map fun i : Nat => t0 + (i : Rat) * d) (l : List Rat)
    (h : ∀ k ∈ l, (∃ i : Nat, i < tr.length ∧ k = i) ∨ ∃ (i : Nat) (l : Rat), i + 1 < tr.length ∧ 0 < l ∧ l < 1 ∧ k = (i : Rat) + l) :
    ∃ ps : List Pt, l.map (pick u tr) = ps.map known ∧ (∀ p ∈ ps, OnTraj tr p) ∧ ps.map Pt.t = l.map fun k => t0 + k * d := by
  induction l with
  | nil => exact ⟨[], rfl, by simp, rfl⟩
  | cons k l ih =>
    obtain ⟨ps, e1, e2, e3⟩ := ih fun k hk => h k (by simp [hk])
    obtain ⟨p, f1, f2, f3⟩ := pick_spec (u := u) h2 ht (h k (by simp))
    refine ⟨p :: ps, by simp [f1, e1], ?_, by simp [f3, e3]⟩
    intro q hq
    rcases List.mem_cons.1 hq with rfl | hq
    · exact f2
    · exact e2 q hq

/-- The profile of a coordinate along a trajectory. -/
def curve (u : Units) (dir : Dir) (tr : List Pt) : Prof :=
  match dir with
  | .y => profOf Pt.y u.ut u.uy tr
  | _ => profOf Pt.x u.ut u.ux tr

theorem ofTraj_spec {u : Units} (hu : u.Pos) {dir : Dir} (hdir : dir.coord.isSome) {tr : List Pt} (h3 : 3 ≤ tr.length) (ht : EvenTimes tr) :
    ∃ mins maxs : List Pt, ofTraj u dir tr = .ok (mins.map known, maxs.map known) ∧
      extrema (curve u dir tr) = .ok (mins.map Pt.t, maxs.map Pt.t) ∧ ∀ p, p ∈ mins ∨ p ∈ maxs → OnTraj tr p := by
  obtain ⟨t0, d, hd, ht⟩ := ht
  have ha : along u dir tr = .ok (curve u dir tr) := by cases dir <;> first | rfl | simp [Dir.coord] at hdir
  have hp : ∃ Y, EvenProf (curve u dir tr) tr.length t0 d Y := by
    cases dir
    · exact ⟨_, even_prof ⟨0, 0, 0⟩ hd ht⟩
    · exact ⟨_, even_prof ⟨0, 0, 0⟩ hd ht⟩
    · simp [Dir.coord] at hdir
  have hpu : PosUnits (curve u dir tr) := by
    cases dir
    · exact ⟨hu.2.2, hu.1⟩
    · exact ⟨hu.2.2, hu.2.1⟩
    · simp [Dir.coord] at hdir
  obtain ⟨Y, hp⟩ := hp
  obtain ⟨mi, ma, e, e', hk⟩ := extremaInd_eq hp (by omega) hd hpu
  obtain ⟨ps, a1, a2, a3⟩ := list_known (u := u) (by omega) ht mi fun k h => hk k (.inl h)
  obtain ⟨qs, b1, b2, b3⟩ := list_known (u := u) (by omega) ht ma fun k h => hk k (.inr h)
  refine ⟨ps, qs, ?_, ?_, ?_⟩
  · unfold ofTraj
    rw [if_neg (by omega), ha]
    simp only
    rw [e]
    simp only [a1, b1]
  · rw [e', a3, b3]
  · rintro p (h | h)
    · exact a2 p h
    · exact b2 p h

theorem short_spec {u : Units} {dir : Dir} {tr : List Pt} (h : tr.length ≤ 2) : ofTraj u dir tr = .ok ([], []) := by
  unfold ofTraj; rw [if_pos h]

theorem loop_spec {u : Units} (hu : u.Pos) {dir : Dir} (hdir : dir.coord.isSome) (trs : List (List Pt))
    (ht : ∀ tr ∈ trs, 3 ≤ tr.length → EvenTimes tr) :
    ∃ mins maxs : List (List Pt), loop u dir trs = .ok (mins.flatten.map known, maxs.flatten.map known) ∧
      mins.length = trs.length ∧ maxs.length = trs.length ∧
      ∀ (i : Nat) (tr m M : List Pt), trs[i]? = some tr → mins[i]? = some m → maxs[i]? = some M → ofTraj u dir tr = .ok (m.map known, M.map known) := by
  induction trs with
  | nil => exact ⟨[], [], rfl, rfl, rfl, by simp⟩
  | cons tr trs ih =>
    obtain ⟨ms, Ms, e, l1, l2, h⟩ := ih fun t h => ht t (by simp [h])
    have h1 : ∃ m M : List Pt, ofTraj u dir tr = .ok (m.map known, M.map known) := by
      by_cases hl : tr.length ≤ 2
      · exact ⟨[], [], short_spec hl⟩
      · obtain ⟨m, M, e, -⟩ := ofTraj_spec hu hdir (by omega) (ht tr (by simp) (by omega))
        exact ⟨m, M, e⟩
    obtain ⟨m, M, e1⟩ := h1
    refine ⟨m :: ms, M :: Ms, ?_, by simp [l1], by simp [l2], ?_⟩
    · rw [loop, e1]
      simp only
      rw [e]
      simp
    · intro i t m' M' hi hm hM
      cases i with
      | zero =>
        simp at hi hm hM
        subst hi hm hM
        exact e1
      | succ i => exact h i t m' M' (by simpa using hi) (by simpa using hm) (by simpa using hM)

/-! ### C281 -/

/-- C281: for trajectories at evenly spaced times and the direction 'x' or 'y', the points reported are, in the order of the trajectories, for each
of them that has more than two points, the points of its broken line at the times of the minima and of the maxima of the coordinate, as given by
`get_extrema_position`; the shorter trajectories give nothing. -/
theorem C281_points {u : Units} (hu : u.Pos) {dir : Dir} (hdir : dir.coord.isSome) (trs : List (List Pt)) (hne : trs ≠ [])
    (ht : ∀ tr ∈ trs, 3 ≤ tr.length → EvenTimes tr) :
    ∃ mins maxs : List (List Pt), directionChanges u (some trs) dir = .ok (mins.flatten.map known, maxs.flatten.map known) ∧
      mins.length = trs.length ∧ maxs.length = trs.length ∧
      ∀ (i : Nat) (tr m M : List Pt), trs[i]? = some tr → mins[i]? = some m → maxs[i]? = some M →
        (tr.length ≤ 2 → m = [] ∧ M = []) ∧
        (3 ≤ tr.length → extrema (curve u dir tr) = .ok (m.map Pt.t, M.map Pt.t) ∧ ∀ p, p ∈ m ∨ p ∈ M → OnTraj tr p) := by
  obtain ⟨ms, Ms, e, l1, l2, h⟩ := loop_spec hu hdir trs ht
  refine ⟨ms, Ms, ?_, l1, l2, ?_⟩
  · cases trs with
    | nil => exact absurd rfl hne
    | cons a l => exact e
  · intro i tr m M hi hm hM
    have e1 := h i tr m M hi hm hM
    have kinj : ∀ a b : List Pt, a.map known = b.map known → a = b := by
      intro a b hab
      refine List.map_injective_iff.2 ?_ hab
      rintro ⟨x, y, t⟩ ⟨x', y', t'⟩ h
      simpa [known] using h
    constructor
    · intro hl
      rw [short_spec hl] at e1
      have e2 := Except.ok.inj e1
      simp only [Prod.mk.injEq] at e2
      exact ⟨kinj _ _ e2.1.symm, kinj _ _ e2.2.symm⟩
    · intro hl
      obtain ⟨m', M', f1, f2, f3⟩ := ofTraj_spec hu hdir hl (ht tr (List.mem_of_getElem? hi) hl)
      rw [f1] at e1
      have e2 := Except.ok.inj e1
      simp only [Prod.mk.injEq] at e2
      obtain rfl := kinj _ _ e2.1
      obtain rfl := kinj _ _ e2.2
      exact ⟨f2, f3⟩

theorem even_congr {p : Prof} {n : Nat} {x0 d : Rat} {Y Z : Nat → Rat} (h : EvenProf p n x0 d Y) (e : ∀ i, i < n → Y i = Z i) :
    EvenProf p n x0 d Z := by
  refine ⟨h.1, h.2.1, h.2.2.trans (List.map_congr_left fun i hi => ?_)⟩
  rw [e i (List.mem_range.1 hi)]

theorem curve_even {u : Units} {dir : Dir} {f : Pt → Rat} (hdir : dir.coord = some f) {tr : List Pt} {t0 d : Rat} (hd : 0 < d)
    (ht : tr.map Pt.t = (List.range tr.length).map fun i : Nat => t0 + (i : Rat) * d) :
    EvenProf (curve u dir tr) tr.length t0 d fun i => f (tr.getD i ⟨0, 0, 0⟩) := by
  cases dir <;> simp [Dir.coord] at hdir <;> subst hdir <;> exact even_prof _ hd ht

theorem curve_pos {u : Units} (hu : u.Pos) (dir : Dir) (tr : List Pt) : PosUnits (curve u dir tr) := by
  cases dir
  · exact ⟨hu.2.2, hu.1⟩
  · exact ⟨hu.2.2, hu.2.1⟩
  · exact ⟨hu.2.2, hu.1⟩

theorem one_spec {u : Units} (hu : u.Pos) {dir : Dir} (hdir : dir.coord.isSome) {tr : List Pt} (h3 : 3 ≤ tr.length) (ht : EvenTimes tr) :
    ∃ mins maxs : List Pt, directionChanges u (some [tr]) dir = .ok (mins.map known, maxs.map known) ∧
      extrema (curve u dir tr) = .ok (mins.map Pt.t, maxs.map Pt.t) ∧ ∀ p, p ∈ mins ∨ p ∈ maxs → OnTraj tr p := by
  obtain ⟨m, M, e, h1, h2⟩ := ofTraj_spec hu hdir h3 ht
  refine ⟨m, M, ?_, h1, h2⟩
  show loop u dir [tr] = _
  rw [loop, e]
  simp [loop]

/-- C281: at every point reported the speed of the trajectory along the direction is null. -/
theorem C281_null {u : Units} (hu : u.Pos) {dir : Dir} (hdir : dir.coord.isSome) {tr : List Pt} (h3 : 3 ≤ tr.length) (ht : EvenTimes tr) :
    ∃ mins maxs : List Pt, directionChanges u (some [tr]) dir = .ok (mins.map known, maxs.map known) ∧
      ∀ p, p ∈ mins ∨ p ∈ maxs → OnTraj tr p ∧ gradientAt (curve u dir tr) p.t none = .ok 0 := by
  obtain ⟨m, M, e, h1, h2⟩ := one_spec hu hdir h3 ht
  refine ⟨m, M, e, fun p hp => ⟨h2 p hp, ?_⟩⟩
  obtain ⟨t0, d, hd, ht⟩ := ht
  obtain ⟨f, hf⟩ := Option.isSome_iff_exists.1 hdir
  obtain ⟨a, b, e', hn⟩ := C271_null_gradient (curve_even (u := u) hf hd ht) (by omega) hd (curve_pos hu dir tr)
  rw [h1] at e'
  have e2 := Except.ok.inj e'
  simp only [Prod.mk.injEq] at e2
  refine (hn p.t ?_).2.2
  rw [← e2.1, ← e2.2]
  exact hp.imp (fun h => List.mem_map.2 ⟨p, h, rfl⟩) fun h => List.mem_map.2 ⟨p, h, rfl⟩

/-- C281: a trajectory that always goes the same way along the direction has no change of direction. -/
theorem C281_monotone {u : Units} (hu : u.Pos) {dir : Dir} {f : Pt → Rat} (hdir : dir.coord = some f) {tr : List Pt} (h3 : 3 ≤ tr.length)
    (ht : EvenTimes tr) (hm : (tr.map f).Pairwise (· < ·) ∨ (tr.map f).Pairwise (· > ·)) :
    directionChanges u (some [tr]) dir = .ok ([], []) := by
  obtain ⟨m, M, e, h1, -⟩ := one_spec hu (by rw [hdir]; rfl) h3 ht
  obtain ⟨t0, d, hd, ht⟩ := ht
  have := C271_monotone (curve_even (u := u) hdir hd ht) (by omega) hd (curve_pos hu dir tr) (by
    refine hm.imp (fun h i hi => ?_) (fun h i hi => ?_)
    · rw [getD_lt (show i < tr.length by omega), getD_lt hi]
      have := List.pairwise_iff_getElem.1 h i (i + 1) (by simp; omega) (by simp; omega) (by omega)
      simpa using this
    · rw [getD_lt (show i < tr.length by omega), getD_lt hi]
      have := List.pairwise_iff_getElem.1 h i (i + 1) (by simp; omega) (by simp; omega) (by omega)
      simpa using this)
  rw [this] at h1
  have e2 := Except.ok.inj h1
  simp only [Prod.mk.injEq] at e2
  have a1 : m = [] := List.map_eq_nil_iff.1 e2.1.symm
  have a2 : M = [] := List.map_eq_nil_iff.1 e2.2.symm
  rw [e, a1, a2]
  rfl

/-- C281: a trajectory whose coordinate is a parabola of the time turns once, at the time of the top of the parabola (when it is not next to an end
of the trajectory), and the point reported is the one of the broken line at that time. -/
theorem C281_turn {u : Units} (hu : u.Pos) {dir : Dir} {f : Pt → Rat} (hdir : dir.coord = some f) {tr : List Pt} {t0 d α β γ : Rat}
    (hd : 0 < d) (ht : tr.map Pt.t = (List.range tr.length).map fun i : Nat => t0 + (i : Rat) * d) (hα : α < 0)
    (hf : ∀ p ∈ tr, f p = α * p.t ^ 2 + β * p.t + γ) (h1 : t0 + d < -β / (2 * α)) (h2 : -β / (2 * α) + 2 * d < t0 + tr.length * d) :
    ∃ p, directionChanges u (some [tr]) dir = .ok ([], [known p]) ∧ OnTraj tr p ∧ p.t = -β / (2 * α) := by
  have h3 : 3 ≤ tr.length := by
    by_contra hc
    have : (tr.length : Rat) ≤ 2 := by exact_mod_cast (show tr.length ≤ 2 by omega)
    nlinarith
  obtain ⟨m, M, e, e1, ho⟩ := one_spec hu (by rw [hdir]; rfl) h3 ⟨t0, d, hd, ht⟩
  have hp : EvenProf (curve u dir tr) tr.length t0 d fun i => α * (t0 + i * d) ^ 2 + β * (t0 + i * d) + γ := by
    refine even_congr (curve_even (u := u) hdir hd ht) fun i hi => ?_
    have htt := congrArg (fun l => l[i]?) ht
    simp only [List.getElem?_map, List.getElem?_eq_getElem hi, List.getElem?_range hi, Option.map_some, Option.some.injEq] at htt
    rw [getD_lt hi, hf _ (List.getElem_mem hi), htt]
  have := C271_parabola hd (curve_pos hu dir tr) hα hp h1 h2
  rw [this] at e1
  have e2 := Except.ok.inj e1
  simp only [Prod.mk.injEq] at e2
  have a1 : m = [] := List.map_eq_nil_iff.1 e2.1.symm
  subst a1
  cases M with
  | nil => simp at e2
  | cons p M =>
    have e3 := e2.2
    simp only [List.map_cons, List.cons.injEq] at e3
    have a2 : M = [] := List.map_eq_nil_iff.1 e3.2.symm
    subst a2
    exact ⟨p, e, ho p (.inr (by simp)), e3.1.symm⟩

/-- C281: nothing is asked of trajectories of at most two points: they give nothing, and any name of direction is accepted with them. -/
theorem C281_direction_violated (u : Units) (dir : Dir) (trs : List (List Pt)) (hne : trs ≠ []) (h : ∀ tr ∈ trs, tr.length ≤ 2) :
    directionChanges u (some trs) dir = .ok ([], []) := by
  have key : ∀ l : List (List Pt), (∀ tr ∈ l, tr.length ≤ 2) → loop u dir l = .ok ([], []) := by
    intro l hl
    induction l with
    | nil => rfl
    | cons a l ih =>
      rw [loop, short_spec (hl a (by simp))]
      simp only
      rw [ih fun t ht => hl t (by simp [ht])]
      rfl
  cases trs with
  | nil => exact absurd rfl hne
  | cons a l => exact key _ h

/-- C281: another name of direction is refused when there is a trajectory of more than two points. -/
theorem C281_direction_partial (u : Units) (trs : List (List Pt)) {tr : List Pt} (hm : tr ∈ trs) (h3 : 3 ≤ tr.length) :
    directionChanges u (some trs) .other = .error .valueError := by
  have key : ∀ l : List (List Pt), tr ∈ l → loop u .other l = .error .valueError := by
    intro l hl
    induction l with
    | nil => simp at hl
    | cons a l ih =>
      by_cases ha : a.length ≤ 2
      · rw [loop, short_spec ha]
        simp only
        rcases List.mem_cons.1 hl with rfl | hl
        · omega
        · rw [ih hl]
      · rw [loop]
        unfold ofTraj
        rw [if_neg ha]
        rfl
  cases trs with
  | nil => simp at hm
  | cons a l => exact key _ hm

/-- C281 fails when there is no trajectory of the type: IndexError instead of no point. -/
theorem C281_empty_violated (u : Units) (dir : Dir) : directionChanges u (some []) dir = .error .indexError := rfl

/-- C281 fails for a record with uneven times: when one step of time of a trajectory differs from the first one by a millionth of the largest,
nothing is reported for any trajectory from there on, the whole call is refused. -/
theorem C281_uneven_violated {u : Units} {dir : Dir} (hdir : dir.coord.isSome) {tr : List Pt} (rest : List (List Pt)) (h3 : 3 ≤ tr.length) {i : Nat}
    {a b c e K : Rat} (h0 : (tr.map Pt.t)[0]? = some a) (h1 : (tr.map Pt.t)[1]? = some b) (hi : (tr.map Pt.t)[i]? = some c)
    (hi1 : (tr.map Pt.t)[i + 1]? = some e)
    (hK : ∀ (j : Nat) (s s' : Rat), (tr.map Pt.t)[j]? = some s → (tr.map Pt.t)[j + 1]? = some s' → s' - s ≤ K)
    (hne : K / 1000000 ≤ |(e - c) - (b - a)|) :
    directionChanges u (some (tr :: rest)) dir = .error .exception := by
  have hx : (curve u dir tr).x = tr.map Pt.t := by cases dir <;> rfl
  have ha : along u dir tr = .ok (curve u dir tr) := by cases dir <;> first | rfl | simp [Dir.coord] at hdir
  have hev : Meas.evenly (tr.map Pt.t) = false := by
    unfold Meas.evenly
    rw [List.all_eq_false]
    have hget : (List.zipWith (fun a b => b - a) (tr.map Pt.t) (tr.map Pt.t).tail)[i]? = some (e - c) := by
      rw [List.getElem?_zipWith, List.getElem?_tail, hi, hi1]
    refine ⟨e - c, List.mem_of_getElem? hget, ?_⟩
    simp only [List.getD_eq_getElem?_getD, h0, h1, Option.getD_some, decide_eq_true_eq, not_lt]
    refine le_trans ?_ hne
    have hmax : ((List.zipWith (fun a b => b - a) (tr.map Pt.t) (tr.map Pt.t).tail).max?).getD 0 ≤ K := by
      cases hm : (List.zipWith (fun a b => b - a) (tr.map Pt.t) (tr.map Pt.t).tail).max? with
      | none =>
        rw [List.max?_eq_none_iff] at hm
        rw [hm] at hget
        simp at hget
      | some w =>
        have hw := List.max?_mem hm
        obtain ⟨j, hj⟩ := List.mem_iff_getElem?.1 hw
        rw [List.getElem?_zipWith, List.getElem?_tail] at hj
        cases h2 : (tr.map Pt.t)[j]? with
        | none => simp [h2] at hj
        | some s =>
          cases h4 : (tr.map Pt.t)[j + 1]? with
          | none => simp [h2, h4] at hj
          | some s' =>
            simp only [h2, h4, Option.some.injEq] at hj
            show w ≤ K
            rw [← hj]
            exact hK j s s' h2 h4
    linarith
  have hg : extremaInd (curve u dir tr) = .error .exception := by
    have : gradientProfile (curve u dir tr) = .error .exception := by
      unfold gradientProfile
      rw [hx, if_neg (by simp; omega), if_pos hev]
    unfold extremaInd extremaGrads
    rw [this]
  show loop u dir (tr :: rest) = _
  rw [loop]
  unfold ofTraj
  rw [if_neg (by omega), ha]
  simp only
  rw [hg]

/-- C281 fails for a trajectory that turns exactly at points: for one that goes to and fro with four points per period, whatever the number of
periods, the only maximum reported is the first. -/
theorem C281_lost_violated {u : Units} (hu : u.Pos) {dir : Dir} {f : Pt → Rat} (hdir : dir.coord = some f) {tr : List Pt} {k : Nat} {t0 d : Rat}
    (hk : 2 ≤ k) (hl : tr.length = 4 * k + 1) (hd : 0 < d) (ht : tr.map Pt.t = (List.range tr.length).map fun i : Nat => t0 + (i : Rat) * d)
    (hf : ∀ (i : Nat) p, tr[i]? = some p → f p = if i % 4 = 1 then 1 else if i % 4 = 3 then -1 else 0) :
    ∃ mins p, directionChanges u (some [tr]) dir = .ok (mins, [known p]) ∧ p.t = t0 + d := by
  obtain ⟨m, M, e, e1, -⟩ := one_spec hu (by rw [hdir]; rfl) (by omega) ⟨t0, d, hd, ht⟩
  have hp : EvenProf (curve u dir tr) (4 * k + 1) t0 d fun i => if i % 4 = 1 then 1 else if i % 4 = 3 then -1 else 0 := by
    rw [← hl]
    refine even_congr (curve_even (u := u) hdir hd ht) fun i hi => ?_
    rw [getD_lt hi]
    exact hf i _ (List.getElem?_eq_getElem hi)
  obtain ⟨mins, h, -⟩ := C271_hidden_violated hd (curve_pos hu dir tr) hk hp
  rw [h] at e1
  have e2 := Except.ok.inj e1
  simp only [Prod.mk.injEq] at e2
  cases M with
  | nil => simp at e2
  | cons p M =>
    have e3 := e2.2
    simp only [List.map_cons, List.cons.injEq] at e3
    have a2 : M = [] := List.map_eq_nil_iff.1 e3.2.symm
    subst a2
    exact ⟨_, p, e, e3.1.symm⟩

/-! ### examples -/

/-- A trajectory that goes up and comes back in y while x goes on. -/
def loopTraj : List Pt := [⟨0, 0, 1⟩, ⟨1, 4, 2⟩, ⟨2, 6, 3⟩, ⟨3, 6, 4⟩, ⟨4, 4, 5⟩, ⟨5, 0, 6⟩]

def si : Units := ⟨Sym.m, Sym.m, Sym.s⟩

example : (match directionChanges si (some [loopTraj, loopTraj.take 2]) .y with
    | .ok r => decide (r = ([], [(some (5 / 2), some 6, some (7 / 2))]))
    | .error _ => false) = true := by decide +kernel
example : (match directionChanges si (some [loopTraj]) .x with
    | .ok r => decide (r = ([], []))
    | .error _ => false) = true := by decide +kernel
example : (match directionChanges si (some [loopTraj.take 2]) .other with
    | .ok r => decide (r = ([], []))
    | .error _ => false) = true := by decide +kernel

theorem loopTraj_even : loopTraj.map Pt.t = (List.range loopTraj.length).map fun i : Nat => (1 : Rat) + (i : Rat) * 1 := by decide +kernel

example : EvenTimes loopTraj := ⟨1, 1, by norm_num, loopTraj_even⟩
example : si.Pos := by unfold Units.Pos; decide +kernel
example : ∃ p, directionChanges si (some [loopTraj]) .y = .ok ([], [known p]) ∧ OnTraj loopTraj p ∧ p.t = -7 / (2 * -1) :=
  C281_turn (by unfold Units.Pos; decide +kernel) rfl (γ := -6) (by norm_num) loopTraj_even (by norm_num) (by decide +kernel) (by norm_num)
    (by decide +kernel)
example : directionChanges si (some [[⟨0, 0, 0⟩, ⟨1, 1, 1⟩, ⟨0, 2, 3⟩], loopTraj]) .y = .error .exception :=
  C281_uneven_violated (tr := [⟨0, 0, 0⟩, ⟨1, 1, 1⟩, ⟨0, 2, 3⟩]) (i := 1) (K := 2) rfl _ (by decide) rfl rfl rfl rfl
    (by
      intro j s s' h1 h2
      match j with
      | 0 => simp at h1 h2; rw [← h1, ← h2]; norm_num
      | 1 => simp at h1 h2; rw [← h1, ← h2]; norm_num
      | 2 => simp at h2
      | _ + 3 => simp at h1)
    (by norm_num)
/-- Two periods. -/
def wave : List Pt := [⟨0, 0, 0⟩, ⟨1, 0, 1⟩, ⟨0, 0, 2⟩, ⟨-1, 0, 3⟩, ⟨0, 0, 4⟩, ⟨1, 0, 5⟩, ⟨0, 0, 6⟩, ⟨-1, 0, 7⟩, ⟨0, 0, 8⟩]
example : (match directionChanges si (some [wave]) .x with
    | .ok r => decide (r.2 = [(some 1, some 0, some 1)])
    | .error _ => false) = true := by decide +kernel

end IMT.Turn
