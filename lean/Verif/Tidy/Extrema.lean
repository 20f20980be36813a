import Verif.Tidy.ExtremaModel
import Verif.Tidy.Slope
import Verif.Profile.Interp

/-! C271: positions of the extrema of a profile. -/

namespace IMT.Tidy

open Profile

/-! ### lists of points -/

/-- The points of an evenly spaced profile. -/
def tab (n : Nat) (x0 d : Rat) (W : Nat → F) : List (Rat × F) := (List.range n).map fun i : Nat => (x0 + (i : Rat) * d, W i)

/-- `valuePosition` in terms of the points. -/
def vpos (l : List (Rat × F)) (v : Rat) : List Rat :=
  if l.any fun r => r.2 = some v then ((l.filter fun r => r.2 = some v).map Prod.fst).take 1 else positions v l

theorem vpos_eq (p : Prof) (v : Rat) : valuePosition p v = vpos (pts p) v := rfl

theorem tab_succ (n : Nat) (x0 d : Rat) (W : Nat → F) : tab (n + 1) x0 d W = (x0, W 0) :: tab n (x0 + d) d fun i => W (i + 1) := by
  unfold tab
  rw [List.range_succ_eq_map, List.map_cons, List.map_map]
  congr 1
  · simp
  · apply List.map_congr_left
    intro i _
    simp only [Function.comp_apply, Prod.mk.injEq, and_true]
    push_cast
    ring

theorem mem_tab {n : Nat} {x0 d : Rat} {W : Nat → F} {r : Rat × F} : r ∈ tab n x0 d W ↔ ∃ i, i < n ∧ r = (x0 + (i : Rat) * d, W i) := by
  unfold tab
  rw [List.mem_map]
  constructor
  · rintro ⟨i, hi, rfl⟩; exact ⟨i, List.mem_range.1 hi, rfl⟩
  · rintro ⟨i, hi, rfl⟩; exact ⟨i, List.mem_range.2 hi, rfl⟩

theorem tab_pair {n : Nat} {x0 d : Rat} {W : Nat → F} {A B : List (Rat × F)} {r s : Rat × F} (h : tab n x0 d W = A ++ r :: s :: B) :
    ∃ i, i + 1 < n ∧ r = (x0 + (i : Rat) * d, W i) ∧ s = (x0 + ((i + 1 : Nat) : Rat) * d, W (i + 1)) := by
  have hlen : n = A.length + (B.length + 2) := by
    have := congrArg List.length h
    simpa [tab] using this
  have h1 := congrArg (fun l => l[A.length]?) h
  have h2 := congrArg (fun l => l[A.length + 1]?) h
  refine ⟨A.length, by omega, ?_, ?_⟩
  · simp only [tab, List.getElem?_map, List.getElem?_range (show A.length < n by omega)] at h1
    simp at h1
    exact h1.symm
  · simp only [tab, List.getElem?_map, List.getElem?_range (show A.length + 1 < n by omega)] at h2
    rw [List.getElem?_append_right (by omega)] at h2
    simp at h2
    rw [← h2]
    push_cast
    rfl

/-- Every position is a point with the value, or the zero of a segment that changes sign. -/
theorem vpos_sound {n : Nat} {x0 d : Rat} {W : Nat → F} {x : Rat} (h : x ∈ vpos (tab n x0 d W) 0) :
    (∃ i, i < n ∧ W i = some 0 ∧ x = x0 + (i : Rat) * d) ∨
    ∃ i a b, i + 1 < n ∧ W i = some a ∧ W (i + 1) = some b ∧ (a < 0 ∧ 0 < b ∨ b < 0 ∧ 0 < a) ∧ x = x0 + ((i : Rat) + a / (a - b)) * d := by
  unfold vpos at h
  split at h
  · left
    obtain ⟨r, hr, rfl⟩ := List.mem_map.1 (List.mem_of_mem_take h)
    obtain ⟨hr, he⟩ := List.mem_filter.1 hr
    obtain ⟨i, hi, rfl⟩ := mem_tab.1 hr
    exact ⟨i, hi, by simpa using he, rfl⟩
  · next hn =>
    right
    obtain ⟨A, r, s, B, hl, hc, rfl⟩ := positions_mem.1 h
    obtain ⟨i, hi, rfl, rfl⟩ := tab_pair hl
    have hz : ∀ j, j < n → W j ≠ some 0 := by
      intro j hj he
      apply hn
      rw [List.any_eq_true]
      exact ⟨_, mem_tab.2 ⟨j, hj, rfl⟩, by simpa using he⟩
    simp only at hc
    cases ha : W i with
    | none => rw [ha] at hc; simp [changes] at hc
    | some a =>
      cases hb : W (i + 1) with
      | none => rw [ha, hb] at hc; simp [changes] at hc
      | some b =>
        have na : a ≠ 0 := fun e => hz i (by omega) (by rw [ha, e])
        have nb : b ≠ 0 := fun e => hz (i + 1) hi (by rw [hb, e])
        rw [ha, hb] at hc
        simp only [changes, sub_zero] at hc
        have hs : a < 0 ∧ 0 < b ∨ b < 0 ∧ 0 < a := by
          rcases lt_or_gt_of_ne na with a1 | a1 <;> rcases lt_or_gt_of_ne nb with b1 | b1
          · rw [decide_eq_false (by linarith), decide_eq_false (by linarith)] at hc; simp at hc
          · exact Or.inl ⟨a1, b1⟩
          · exact Or.inr ⟨b1, a1⟩
          · rw [decide_eq_true (by linarith), decide_eq_true (by linarith)] at hc; simp at hc
        refine ⟨i, a, b, hi, ha, hb, hs, ?_⟩
        simp only [Option.getD_some, sub_zero]
        push_cast
        rcases hs with ⟨h1, h2⟩ | ⟨h1, h2⟩
        · rw [abs_of_neg h1, abs_of_pos h2, show -a / (-a + b) = a / (a - b) by rw [← neg_div_neg_eq]; congr 1 <;> ring]
          ring
        · rw [abs_of_pos h2, abs_of_neg h1, show a + -b = a - b by ring]
          ring

theorem vpos_none {n : Nat} {x0 d : Rat} {W : Nat → F} (s : Rat) (h : ∀ i, i < n → W i = none ∨ ∃ a, W i = some a ∧ 0 < s * a) :
    vpos (tab n x0 d W) 0 = [] := by
  apply List.eq_nil_iff_forall_not_mem.2
  intro x hx
  rcases vpos_sound hx with ⟨i, hi, hw, -⟩ | ⟨i, a, b, hi, ha, hb, hs, -⟩
  · rcases h i hi with e | ⟨a, e, h1⟩
    · rw [hw] at e; cases e
    · rw [hw] at e; cases e; simp at h1
  · have h1 : 0 < s * a := by
      rcases h i (by omega) with e | ⟨a', e, h1⟩
      · rw [ha] at e; cases e
      · rw [ha] at e; cases e; exact h1
    have h2 : 0 < s * b := by
      rcases h (i + 1) hi with e | ⟨a', e, h1⟩
      · rw [hb] at e; cases e
      · rw [hb] at e; cases e; exact h1
    have h3 : 0 < (s * a) * (s * b) := mul_pos h1 h2
    have h4 : a * b < 0 := by
      rcases hs with ⟨u, w⟩ | ⟨u, w⟩ <;> nlinarith
    nlinarith [sq_nonneg s]

theorem positions_neg {n : Nat} {x0 d : Rat} {g : Nat → Rat} (h : ∀ i, i < n → g i < 0) : positions 0 (tab n x0 d fun i => some (g i)) = [] := by
  apply List.eq_nil_iff_forall_not_mem.2
  intro x hx
  obtain ⟨A, r, s, B, hl, hc, -⟩ := positions_mem.1 hx
  obtain ⟨i, hi, rfl, rfl⟩ := tab_pair hl
  have h1 := h i (by omega)
  have h2 := h (i + 1) hi
  simp only [changes, sub_zero] at hc
  rw [decide_eq_false (by linarith), decide_eq_false (by linarith)] at hc
  simp at hc

/-- One change of sign, one position. -/
theorem positions_one (n : Nat) {x0 d : Rat} {g : Nat → Rat} (hd : ∀ i, i + 1 < n → g (i + 1) < g i) (hn : 0 < n) (h0 : 0 < g 0) (h1 : g (n - 1) < 0)
    (hz : ∀ i, i < n → g i ≠ 0) : ∃ x, positions 0 (tab n x0 d fun i => some (g i)) = [x] := by
  induction n generalizing x0 g with
  | zero => omega
  | succ n ih =>
    cases n with
    | zero => simp at h1; linarith
    | succ n =>
      rw [tab_succ, tab_succ]
      rw [show (x0, some (g 0)) :: (x0 + d, some (g (0 + 1))) :: tab n (x0 + d + d) d (fun i => some (g (i + 1 + 1))) =
        (x0, some (g 0)) :: tab (n + 1) (x0 + d) d fun i => some (g (i + 1)) by rw [tab_succ]]
      have hstep : positions 0 ((x0, some (g 0)) :: tab (n + 1) (x0 + d) d fun i => some (g (i + 1))) =
          if changes 0 (some (g 0)) (some (g 1)) then
            (x0 + |g 0 - 0| / (|g 0 - 0| + |g 1 - 0|) * (x0 + d - x0)) :: positions 0 (tab (n + 1) (x0 + d) d fun i => some (g (i + 1)))
          else positions 0 (tab (n + 1) (x0 + d) d fun i => some (g (i + 1))) := by
        rw [tab_succ]
        rfl
      rw [hstep]
      by_cases hg : 0 < g 1
      · rw [if_neg (by simp only [changes, sub_zero]; rw [decide_eq_true (by linarith), decide_eq_true (by linarith)]; simp)]
        exact ih (x0 := x0 + d) (g := fun i => g (i + 1)) (fun i hi => hd (i + 1) (by omega)) (by omega) hg (by simpa using h1)
          (fun i hi => hz (i + 1) (by omega))
      · have hg1 : g 1 < 0 := lt_of_le_of_ne (not_lt.1 hg) (hz 1 (by omega))
        rw [if_pos (by simp only [changes, sub_zero]; rw [decide_eq_true (by linarith), decide_eq_false (by linarith)]; rfl)]
        rw [positions_neg]
        · exact ⟨_, rfl⟩
        · intro i
          induction i with
          | zero => intro _; exact hg1
          | succ i ihi =>
            intro hi
            have := hd (i + 1) (by omega)
            have := ihi (by omega)
            linarith

theorem vpos_one {n : Nat} {x0 d : Rat} {g : Nat → Rat} (hd : ∀ i, i + 1 < n → g (i + 1) < g i) (hn : 0 < n) (h0 : 0 < g 0) (h1 : g (n - 1) < 0) :
    ∃ x, vpos (tab n x0 d fun i => some (g i)) 0 = [x] := by
  unfold vpos
  split
  · next h =>
    rw [List.any_eq_true] at h
    obtain ⟨r, hr, he⟩ := h
    have hm : r ∈ (tab n x0 d fun i => some (g i)).filter fun r => decide (r.2 = some 0) := List.mem_filter.2 ⟨hr, he⟩
    generalize (tab n x0 d fun i => some (g i)).filter (fun r => decide (r.2 = some 0)) = l at hm
    cases l with
    | nil => simp at hm
    | cons s l => exact ⟨s.1, rfl⟩
  · next h =>
    apply positions_one n hd hn h0 h1
    intro i hi he
    apply h
    rw [List.any_eq_true]
    exact ⟨_, mem_tab.2 ⟨i, hi, rfl⟩, by simp [he]⟩

/-! ### the gradients -/

/-- First accumulation. -/
def accB (n : Nat) (A : Nat → Rat) (i : Nat) : Rat := if i + 1 < n then A i + A (i + 1) else A i

/-- Second accumulation. -/
def accC (n : Nat) (A : Nat → Rat) (i : Nat) : Rat := if 0 < i then accB n A i + accB n A (i - 1) else accB n A i

theorem getD_map_range {n i : Nat} (h : i < n) (A : Nat → Rat) : ((List.range n).map A).getD i 0 = A i := by
  rw [List.getD_eq_getElem?_getD, List.getElem?_map, List.getElem?_range h]
  rfl

theorem accum_eq (n : Nat) (A : Nat → Rat) : accum ((List.range n).map A) = (List.range n).map (accC n A) := by
  unfold accum
  simp only [List.length_map, List.length_range]
  have hb : ((List.range n).map fun i => if i + 1 < n then ((List.range n).map A).getD i 0 + ((List.range n).map A).getD (i + 1) 0
      else ((List.range n).map A).getD i 0) = (List.range n).map (accB n A) := by
    apply List.map_congr_left
    intro i hi
    have hi := List.mem_range.1 hi
    unfold accB
    rw [getD_map_range hi]
    split
    · next h => rw [getD_map_range h]
    · rfl
  rw [hb]
  apply List.map_congr_left
  intro i hi
  have hi := List.mem_range.1 hi
  unfold accC
  rw [getD_map_range hi]
  split
  · rw [getD_map_range (by omega)]
  · rfl

/-- Number carried by the quotient of two units of positive size. -/
theorem unitNum_pos {u : Sym} (h : 0 < u.size) : 0 < SF.unitNum u := by
  unfold SF.unitNum
  split
  · exact h
  · exact one_pos

/-- Positive units. -/
def PosUnits (p : Prof) : Prop := 0 < p.ux.size ∧ 0 < p.uy.size

theorem setMask_pts {g : Prof} {m : List Bool} (hm : m.length = g.y.length) : pts (setMask g m).1 = g.x.zip (blank g.y m) := by
  unfold setMask
  rw [if_pos hm]
  unfold pts getY
  simp only
  congr 1
  unfold blank
  apply List.ext_getElem
  · simp [hm]
  · intro i h1 h2
    simp only [List.getElem_zipWith]
    split <;> rfl

theorem setMask_x (g : Prof) (m : List Bool) : (setMask g m).1.x = g.x := by
  unfold setMask
  split <;> rfl

/-- The masked gradients in terms of the slopes. -/
theorem extremaGrads_eq {p : Prof} {n : Nat} {x0 d : Rat} {Y : Nat → Rat} (hp : EvenProf p n x0 d Y) (hn : 2 ≤ n) (hd : 0 < d) (hu : PosUnits p) :
    ∃ κ : Rat, 0 < κ ∧ ∃ g1 g2, extremaGrads p = .ok (g1, g2) ∧ g1.x.length = n ∧ g2.x.length = n ∧
      pts g1 = tab n x0 d (fun i => if accC n (slope n d (slope n d Y)) i < 0 then none else some (slope n d Y i * κ)) ∧
      pts g2 = tab n x0 d (fun i => if accC n (slope n d (slope n d Y)) i < 0 then some (slope n d Y i * κ) else none) := by
  obtain ⟨g, e, hg, hgux, hguc, hgu⟩ := C269_profile hp hn hd
  obtain ⟨g2, e2, hg2, -, -, -⟩ := C269_profile hg hn hd
  have hk : 0 < SF.unitNum (p.uy.div p.ux) := unitNum_pos (by show 0 < p.uy.size / p.ux.size; exact div_pos hu.2 hu.1)
  have hgs : 0 < g.uy.size := by
    by_contra hc
    have h1 : 0 < p.uy.size / p.ux.size := div_pos hu.2 hu.1
    rw [← hgu] at h1
    nlinarith
  have hk2 : 0 < SF.unitNum (g.uy.div g.ux) := unitNum_pos (by show 0 < g.uy.size / g.ux.size; rw [hgux]; exact div_pos hgs hu.1)
  generalize SF.unitNum (p.uy.div p.ux) = κ at hg hk hg2
  generalize SF.unitNum (g.uy.div g.ux) = κ2 at hg2 hk2
  refine ⟨κ, hk, ?_⟩
  unfold extremaGrads
  rw [e]
  simp only
  rw [e2]
  simp only
  have hsc : ∀ i, slope n d (fun i => slope n d Y i * κ) i = slope n d (slope n d Y) i * κ := by
    intro i
    simp only [slope]
    split
    · split <;> split <;> ring
    · split <;> ring
  have hy2 : (getY g2).map (fun v => v.getD 0) = (List.range n).map fun i => slope n d (slope n d Y) i * (κ * κ2) := by
    rw [getY_valid hg2.1, hg2.2.2, List.map_map]
    apply List.map_congr_left
    intro i _
    simp only [Function.comp_apply, Option.getD_some]
    rw [hsc]
    ring
  rw [hy2, accum_eq]
  have hacc : ∀ i, accC n (fun i => slope n d (slope n d Y) i * (κ * κ2)) i = accC n (slope n d (slope n d Y)) i * (κ * κ2) := by
    intro i
    unfold accC accB
    split
    · split <;> split <;> ring
    · split <;> ring
  have hfilt : ((List.range n).map (accC n fun i => slope n d (slope n d Y) i * (κ * κ2))).map (fun v => decide (v < 0)) =
      (List.range n).map fun i => decide (accC n (slope n d (slope n d Y)) i < 0) := by
    rw [List.map_map]
    apply List.map_congr_left
    intro i _
    simp only [Function.comp_apply]
    rw [hacc]
    have hpos := mul_pos hk hk2
    congr 1
    apply propext
    constructor
    · intro h; by_contra hc; nlinarith [mul_nonneg (not_lt.1 hc) hpos.le]
    · intro h; nlinarith
  rw [hfilt]
  have hm : g.m = (List.range n).map fun _ => false := by
    rw [hg.1.2.1, hg.2.2, List.map_map]
    rfl
  have hyl : g.y.length = n := by rw [hg.2.2]; simp
  have hgx : g.x.length = n := by rw [hg.2.1]; simp
  refine ⟨_, _, rfl, ?_, ?_, ?_⟩
  · rw [setMask_x, hgx]
  · rw [setMask_x, hgx]
  rw [hm, List.zipWith_map, List.zipWith_map, List.zipWith_self, List.zipWith_self, setMask_pts (by simp [hyl]),
    setMask_pts (by simp [hyl])]
  have hblank : ∀ F : Nat → Bool, g.x.zip (blank g.y ((List.range n).map F)) = tab n x0 d fun i => if F i then none else some (slope n d Y i * κ) := by
    intro F
    rw [hg.2.1, hg.2.2]
    unfold blank tab
    rw [List.zipWith_map, List.zipWith_self, List.zip_map']
  rw [hblank, hblank]
  constructor
  · unfold tab
    apply List.map_congr_left
    intro i _
    by_cases h : accC n (slope n d (slope n d Y)) i < 0
    · simp [h]
    · simp [h]
  · unfold tab
    apply List.map_congr_left
    intro i _
    by_cases h : accC n (slope n d (slope n d Y)) i < 0
    · simp [h]
    · simp [h]

/-- The result in terms of the slopes. -/
theorem extrema_eq {p : Prof} {n : Nat} {x0 d : Rat} {Y : Nat → Rat} (hp : EvenProf p n x0 d Y) (hn : 2 ≤ n) (hd : 0 < d) (hu : PosUnits p) :
    ∃ κ : Rat, 0 < κ ∧ extrema p = .ok
      (vpos (tab n x0 d fun i => if accC n (slope n d (slope n d Y)) i < 0 then none else some (slope n d Y i * κ)) 0,
        vpos (tab n x0 d fun i => if accC n (slope n d (slope n d Y)) i < 0 then some (slope n d Y i * κ) else none) 0) := by
  obtain ⟨κ, hk, g1, g2, e, -, -, h1, h2⟩ := extremaGrads_eq hp hn hd hu
  refine ⟨κ, hk, ?_⟩
  unfold extrema
  rw [e]
  simp only [vpos_eq, h1, h2]

/-! ### C271 -/

/-- **C271** The gradient of the profile is null at every position returned. -/
theorem C271_null_gradient {p : Prof} {n : Nat} {x0 d : Rat} {Y : Nat → Rat} (hp : EvenProf p n x0 d Y) (hn : 2 ≤ n) (hd : 0 < d) (hu : PosUnits p) :
    ∃ mins maxs, extrema p = .ok (mins, maxs) ∧ ∀ x, x ∈ mins ∨ x ∈ maxs → x0 ≤ x ∧ x ≤ x0 + ((n - 1 : Nat) : Rat) * d ∧ gradientAt p x none = .ok 0 := by
  obtain ⟨κ, hk, e⟩ := extrema_eq hp hn hd hu
  refine ⟨_, _, e, ?_⟩
  have key : ∀ (W : Nat → F), (∀ i a, W i = some a → a = slope n d Y i * κ) → ∀ x, x ∈ vpos (tab n x0 d W) 0 →
      x0 ≤ x ∧ x ≤ x0 + ((n - 1 : Nat) : Rat) * d ∧ gradientAt p x none = .ok 0 := by
    intro W hW x hx
    rcases vpos_sound hx with ⟨i, hi, hw, rfl⟩ | ⟨i, a, b, hi, ha, hb, hs, rfl⟩
    · have hz : slope n d Y i = 0 := by
        have := hW i 0 hw
        rcases mul_eq_zero.1 this.symm with h | h
        · exact h
        · exact absurd h hk.ne'
      have hi0 : (0 : Rat) ≤ i := by positivity
      have hin : (i : Rat) ≤ (n - 1 : Nat) := by exact_mod_cast (show i ≤ n - 1 by omega)
      refine ⟨by nlinarith, by nlinarith, ?_⟩
      by_cases hl : i + 1 < n
      · have := C269_between hp hd hl (t := 0) le_rfl zero_le_one
        rw [add_zero, hz] at this
        simpa using this
      · obtain ⟨j, rfl⟩ : ∃ j, i = j + 1 := ⟨i - 1, by omega⟩
        have := C269_between hp hd (show j + 1 < n by omega) (t := 1) zero_le_one le_rfl
        rw [hz] at this
        push_cast
        simpa using this
    · have ha' := hW i a ha
      have hb' := hW (i + 1) b hb
      have ht : 0 ≤ a / (a - b) ∧ a / (a - b) ≤ 1 := by
        rcases hs with ⟨h1, h2⟩ | ⟨h1, h2⟩
        · constructor
          · exact div_nonneg_of_nonpos h1.le (by linarith)
          · rw [div_le_one_of_neg (by linarith)]; linarith
        · constructor
          · exact div_nonneg h2.le (by linarith)
          · rw [div_le_one (by linarith)]; linarith
      have hab : a - b ≠ 0 := by rcases hs with ⟨h1, h2⟩ | ⟨h1, h2⟩ <;> intro hc <;> linarith
      have hi0 : (0 : Rat) ≤ i := by positivity
      have hin : (i : Rat) + 1 ≤ (n - 1 : Nat) := by exact_mod_cast (show i + 1 ≤ n - 1 by omega)
      refine ⟨by nlinarith [ht.1], by nlinarith [ht.2], ?_⟩
      rw [C269_between hp hd hi ht.1 ht.2]
      congr 1
      have : κ * ((1 - a / (a - b)) * slope n d Y i + a / (a - b) * slope n d Y (i + 1)) = 0 := by
        have e1 : κ * ((1 - a / (a - b)) * slope n d Y i + a / (a - b) * slope n d Y (i + 1)) = (1 - a / (a - b)) * a + a / (a - b) * b := by
          rw [ha', hb']; ring
        rw [e1]
        field_simp
        ring
      rcases mul_eq_zero.1 this with h | h
      · exact absurd h hk.ne'
      · exact h
  rintro x (hx | hx)
  · refine key _ ?_ x hx
    intro i a h
    split at h
    · cases h
    · cases h; rfl
  · refine key _ ?_ x hx
    intro i a h
    split at h
    · cases h; rfl
    · cases h

/-- **C271** A strictly monotone profile has no extremum. -/
theorem C271_monotone {p : Prof} {n : Nat} {x0 d : Rat} {Y : Nat → Rat} (hp : EvenProf p n x0 d Y) (hn : 2 ≤ n) (hd : 0 < d) (hu : PosUnits p)
    (hY : (∀ i, i + 1 < n → Y i < Y (i + 1)) ∨ (∀ i, i + 1 < n → Y (i + 1) < Y i)) : extrema p = .ok ([], []) := by
  obtain ⟨κ, hk, e⟩ := extrema_eq hp hn hd hu
  have hs : ∃ s : Rat, ∀ i, i < n → 0 < s * (slope n d Y i * κ) := by
    have main : ∀ s : Rat, (∀ i, i + 1 < n → 0 < s * (Y (i + 1) - Y i)) → ∀ i, i < n → 0 < s * (slope n d Y i * κ) := by
      intro s h i hi
      have hpos : 0 < s * slope n d Y i := by
        unfold slope
        split
        · rw [← mul_div_assoc]; exact div_pos (h 0 (by omega)) hd
        · next h0 =>
          obtain ⟨j, rfl⟩ : ∃ j, i = j + 1 := ⟨i - 1, by omega⟩
          have hj := h j hi
          split
          · rw [← mul_div_assoc]; exact div_pos hj hd
          · rw [← mul_div_assoc]
            apply div_pos _ (by linarith)
            have := h (j + 1) (by omega)
            rw [show j + 1 - 1 = j by omega]
            nlinarith
      rw [← mul_assoc]
      exact mul_pos hpos hk
    rcases hY with h | h
    · exact ⟨1, main 1 fun i hi => by have := h i hi; linarith⟩
    · exact ⟨-1, main (-1) fun i hi => by have := h i hi; linarith⟩
  obtain ⟨s, hs⟩ := hs
  rw [e, vpos_none s, vpos_none s]
  · intro i hi
    split
    · exact Or.inr ⟨_, rfl, hs i hi⟩
    · exact Or.inl rfl
  · intro i hi
    split
    · exact Or.inl rfl
    · exact Or.inr ⟨_, rfl, hs i hi⟩

/-- Strictly concave values. -/
def Concave (n : Nat) (Y : Nat → Rat) : Prop := ∀ i, i + 2 < n → Y i + Y (i + 2) < 2 * Y (i + 1)

theorem slope_dec {n : Nat} {d : Rat} (hd : 0 < d) {Y : Nat → Rat} (hc : Concave n Y) (h3 : 3 ≤ n) : ∀ i, i + 1 < n → slope n d Y (i + 1) < slope n d Y i := by
  intro i hi
  unfold slope
  rw [if_neg (show ¬ i + 1 = 0 by omega), show i + 1 - 1 = i by omega]
  by_cases h0 : i = 0
  · subst h0
    rw [if_pos rfl, if_neg (by omega)]
    have := hc 0 (by omega)
    rw [div_lt_div_iff₀ (by linarith) hd]
    simp only [zero_add] at this ⊢
    nlinarith
  · rw [if_neg h0]
    obtain ⟨j, rfl⟩ : ∃ j, i = j + 1 := ⟨i - 1, by omega⟩
    rw [if_neg (show ¬ j + 1 + 1 = n by omega), show j + 1 - 1 = j by omega]
    have h1 := hc j (by omega)
    by_cases h2 : j + 1 + 1 + 1 = n
    · rw [if_pos h2]
      rw [div_lt_div_iff₀ hd (by linarith)]
      rw [show j + 1 + 1 = j + 2 by omega]
      nlinarith
    · rw [if_neg h2]
      have h3 := hc (j + 1) (by omega)
      apply div_lt_div_of_pos_right _ (by linarith)
      rw [show j + 1 + 2 = j + 3 by omega, show j + 1 + 1 = j + 2 by omega] at h3
      rw [show j + 1 + 1 + 1 = j + 3 by omega]
      linarith

theorem accC_neg {n : Nat} {A : Nat → Rat} (h : ∀ i, i < n → A i < 0) : ∀ i, i < n → accC n A i < 0 := by
  have hb : ∀ i, i < n → accB n A i < 0 := by
    intro i hi
    unfold accB
    split
    · next h1 => have := h i hi; have := h _ h1; linarith
    · exact h i hi
  intro i hi
  unfold accC
  split
  · have := hb i hi; have := hb (i - 1) (by omega); linarith
  · exact hb i hi

theorem slope2_neg {n : Nat} {d : Rat} (hd : 0 < d) {Y : Nat → Rat} (hc : Concave n Y) (h3 : 3 ≤ n) : ∀ i, i < n → slope n d (slope n d Y) i < 0 := by
  have hs := slope_dec hd hc h3
  intro i hi
  rw [slope]
  split
  · apply div_neg_of_neg_of_pos _ hd
    have := hs 0 (by omega)
    simp only [zero_add] at this
    linarith
  · obtain ⟨j, rfl⟩ : ∃ j, i = j + 1 := ⟨i - 1, by omega⟩
    rw [show j + 1 - 1 = j by omega]
    have := hs j hi
    split
    · apply div_neg_of_neg_of_pos _ hd
      linarith
    · apply div_neg_of_neg_of_pos _ (by linarith)
      have := hs (j + 1) (by omega)
      linarith

/-- Rising up to `k` and falling from `k` makes `k` the greatest. -/
theorem top {n k : Nat} {Y : Nat → Rat} (hc : Concave n Y) (hk : k < n) (h1 : k = 0 ∨ Y (k - 1) ≤ Y k) (h2 : k + 1 = n ∨ Y (k + 1) ≤ Y k) :
    ∀ j, j < n → Y j ≤ Y k := by
  have down : ∀ m, k + m < n → Y (k + m) ≤ Y k ∧ (k + m + 1 < n → Y (k + m + 1) ≤ Y (k + m)) := by
    intro m
    induction m with
    | zero =>
      intro _
      refine ⟨le_rfl, fun h => ?_⟩
      rcases h2 with h2 | h2
      · omega
      · exact h2
    | succ m ih =>
      intro h
      obtain ⟨ha, hb⟩ := ih (by omega)
      have hb := hb (by omega)
      refine ⟨by rw [← add_assoc]; linarith, fun h' => ?_⟩
      have := hc (k + m) (by omega)
      rw [show k + (m + 1) + 1 = k + m + 2 by omega, show k + (m + 1) = k + m + 1 by omega]
      linarith
  have up : ∀ m, m ≤ k → Y (k - m) ≤ Y k ∧ (m + 1 ≤ k → Y (k - m - 1) ≤ Y (k - m)) := by
    intro m
    induction m with
    | zero =>
      intro _
      refine ⟨le_rfl, fun h => ?_⟩
      rcases h1 with h1 | h1
      · omega
      · exact h1
    | succ m ih =>
      intro h
      obtain ⟨ha, hb⟩ := ih (by omega)
      have hb := hb (by omega)
      refine ⟨by rw [show k - (m + 1) = k - m - 1 by omega]; linarith, fun h' => ?_⟩
      have := hc (k - m - 2) (by omega)
      rw [show k - m - 2 + 2 = k - m by omega, show k - m - 2 + 1 = k - m - 1 by omega] at this
      rw [show k - (m + 1) - 1 = k - m - 2 by omega, show k - (m + 1) = k - m - 1 by omega]
      linarith
  intro j hj
  rcases le_total j k with h | h
  · have := (up (k - j) (by omega)).1
    rwa [show k - (k - j) = j by omega] at this
  · have := (down (j - k) (by omega)).1
    rwa [show k + (j - k) = j by omega] at this

/-- Where the slopes of a concave profile change sign. -/
theorem concave_zero {n : Nat} {d : Rat} (hd : 0 < d) {Y : Nat → Rat} (hc : Concave n Y) {i : Nat} (hi : i + 1 < n) (ha : 0 < slope n d Y i)
    (hb : slope n d Y (i + 1) < 0) : (∀ j, j < n → Y j ≤ Y i) ∨ ∀ j, j < n → Y j ≤ Y (i + 1) := by
  have hl : i = 0 ∨ Y (i - 1) ≤ Y i := by
    by_cases h0 : i = 0
    · exact Or.inl h0
    · right
      obtain ⟨j, rfl⟩ : ∃ j, i = j + 1 := ⟨i - 1, by omega⟩
      unfold slope at ha
      rw [if_neg h0, if_neg (by omega), show j + 1 - 1 = j by omega] at ha
      have h1 : 0 < Y (j + 1 + 1) - Y j := by
        by_contra hcon
        have := div_nonpos_of_nonpos_of_nonneg (not_lt.1 hcon) (show 0 ≤ 2 * d by linarith)
        linarith
      have := hc j (by omega)
      rw [show j + 1 - 1 = j by omega]
      rw [show j + 1 + 1 = j + 2 by omega] at h1
      linarith
  have hr : i + 1 + 1 = n ∨ Y (i + 1 + 1) ≤ Y (i + 1) := by
    by_cases h0 : i + 1 + 1 = n
    · exact Or.inl h0
    · right
      unfold slope at hb
      rw [if_neg (by omega), if_neg h0, show i + 1 - 1 = i by omega] at hb
      have h1 : Y (i + 1 + 1) - Y i < 0 := by
        by_contra hcon
        have := div_nonneg (not_lt.1 hcon) (show 0 ≤ 2 * d by linarith)
        linarith
      have := hc i (by omega)
      rw [show i + 1 + 1 = i + 2 by omega] at h1 ⊢
      linarith
  rcases le_total (Y i) (Y (i + 1)) with h | h
  · right
    apply top hc hi (Or.inr (by rw [show i + 1 - 1 = i by omega]; exact h)) hr
  · left
    exact top hc (by omega) hl (Or.inr h)

/-- **C271** A strictly concave profile that rises first and falls last has no minimum and exactly one maximum, at most one step away from its greatest
value.  Missing: profiles with several extrema (violated below). -/
theorem C271_concave_partial {p : Prof} {n : Nat} {x0 d : Rat} {Y : Nat → Rat} (hp : EvenProf p n x0 d Y) (hd : 0 < d) (hu : PosUnits p) (h3 : 3 ≤ n)
    (hc : Concave n Y) (hr : Y 0 < Y 1) (hf : Y (n - 1) < Y (n - 2)) :
    ∃ x k, extrema p = .ok ([], [x]) ∧ k < n ∧ (∀ j, j < n → Y j ≤ Y k) ∧ |x - (x0 + (k : Rat) * d)| ≤ d := by
  obtain ⟨κ, hk, e⟩ := extrema_eq hp (by omega) hd hu
  have hneg := accC_neg (slope2_neg hd hc h3)
  have hmin : tab n x0 d (fun i => if accC n (slope n d (slope n d Y)) i < 0 then none else some (slope n d Y i * κ)) = tab n x0 d fun _ => none := by
    unfold tab
    apply List.map_congr_left
    intro i hi
    simp only [hneg i (List.mem_range.1 hi), if_true]
  have hmax : tab n x0 d (fun i => if accC n (slope n d (slope n d Y)) i < 0 then some (slope n d Y i * κ) else none) =
      tab n x0 d fun i => some (slope n d Y i * κ) := by
    unfold tab
    apply List.map_congr_left
    intro i hi
    simp only [hneg i (List.mem_range.1 hi), if_true]
  rw [hmin, hmax, vpos_none 1 (fun _ _ => Or.inl rfl)] at e
  have hs0 : 0 < slope n d Y 0 := by
    unfold slope
    rw [if_pos rfl]
    exact div_pos (by linarith) hd
  have hs1 : slope n d Y (n - 1) < 0 := by
    unfold slope
    rw [if_neg (by omega), if_pos (by omega), show n - 1 - 1 = n - 2 by omega]
    exact div_neg_of_neg_of_pos (by linarith) hd
  have hdec := slope_dec hd hc h3
  obtain ⟨x, hx⟩ := vpos_one (n := n) (x0 := x0) (d := d) (g := fun i => slope n d Y i * κ)
    (fun i hi => mul_lt_mul_of_pos_right (hdec i hi) hk) (by omega) (mul_pos hs0 hk) (mul_neg_of_neg_of_pos hs1 hk)
  rw [hx] at e
  have hm : x ∈ vpos (tab n x0 d fun i => some (slope n d Y i * κ)) 0 := by rw [hx]; simp
  rcases vpos_sound hm with ⟨i, hi, hw, rfl⟩ | ⟨i, a, b, hi, ha, hb, hs, rfl⟩
  · have hz : slope n d Y i = 0 := by
      simp only [Option.some.injEq, mul_eq_zero] at hw
      rcases hw with h | h
      · exact h
      · exact absurd h hk.ne'
    have hi0 : i ≠ 0 := by rintro rfl; linarith
    have hin : i ≠ n - 1 := by rintro rfl; linarith
    obtain ⟨j, rfl⟩ : ∃ j, i = j + 1 := ⟨i - 1, by omega⟩
    have heq : Y (j + 2) = Y j := by
      unfold slope at hz
      rw [if_neg (by omega), if_neg (by omega), show j + 1 - 1 = j by omega] at hz
      rcases div_eq_zero_iff.1 hz with h | h
      · rw [show j + 2 = j + 1 + 1 by omega]; linarith
      · linarith
    have := hc j (by omega)
    refine ⟨_, j + 1, e, by omega, top hc (by omega) (Or.inr ?_) (Or.inr ?_), by simpa using hd.le⟩
    · rw [show j + 1 - 1 = j by omega]; linarith
    · rw [show j + 1 + 1 = j + 2 by omega]; linarith
  · simp only [Option.some.injEq] at ha hb
    have hlt := mul_lt_mul_of_pos_right (hdec i hi) hk
    rw [ha, hb] at hlt
    have hs' : b < 0 ∧ 0 < a := by
      rcases hs with ⟨h1, h2⟩ | h
      · linarith
      · exact h
    have sa : 0 < slope n d Y i := by
      by_contra hcon
      have := mul_nonpos_of_nonpos_of_nonneg (not_lt.1 hcon) hk.le
      linarith [hs'.2]
    have sb : slope n d Y (i + 1) < 0 := by
      by_contra hcon
      have := mul_nonneg (not_lt.1 hcon) hk.le
      linarith [hs'.1]
    have ht0 : 0 ≤ a / (a - b) := div_nonneg hs'.2.le (by linarith [hs'.1, hs'.2])
    have ht1 : a / (a - b) ≤ 1 := by rw [div_le_one (by linarith [hs'.1, hs'.2])]; linarith [hs'.1]
    rcases concave_zero hd hc hi sa sb with h | h
    · refine ⟨_, i, e, by omega, h, ?_⟩
      rw [show x0 + ((i : Rat) + a / (a - b)) * d - (x0 + (i : Rat) * d) = a / (a - b) * d by ring, abs_of_nonneg (mul_nonneg ht0 hd.le)]
      nlinarith
    · refine ⟨_, i + 1, e, hi, h, ?_⟩
      push_cast
      rw [show x0 + ((i : Rat) + a / (a - b)) * d - (x0 + ((i : Rat) + 1) * d) = -((1 - a / (a - b)) * d) by ring, abs_neg,
        abs_of_nonneg (mul_nonneg (by linarith) hd.le)]
      nlinarith

/-- **C271** The maximum of a parabola is exact, as soon as it is not next to an end of the profile. -/
theorem C271_parabola {p : Prof} {n : Nat} {x0 d α β γ : Rat} (hd : 0 < d) (hu : PosUnits p) (hα : α < 0)
    (hp : EvenProf p n x0 d fun i => α * (x0 + i * d) ^ 2 + β * (x0 + i * d) + γ) (h1 : x0 + d < -β / (2 * α)) (h2 : -β / (2 * α) + 2 * d < x0 + n * d) :
    extrema p = .ok ([], [-β / (2 * α)]) := by
  set Y : Nat → Rat := fun i => α * (x0 + i * d) ^ 2 + β * (x0 + i * d) + γ with hY
  have hv : 2 * α * (-β / (2 * α)) = -β := mul_div_cancel₀ _ (mul_ne_zero two_ne_zero hα.ne)
  generalize -β / (2 * α) = w at h1 h2 hv ⊢
  have h4 : 4 ≤ n := by
    by_contra hc
    have : (n : Rat) ≤ 3 := by exact_mod_cast (show n ≤ 3 by omega)
    nlinarith
  have hc : Concave n Y := by
    intro i _
    simp only [hY]
    push_cast
    nlinarith [mul_pos hd hd]
  have hn1 : ((n - 1 : Nat) : Rat) = n - 1 := by push_cast [Nat.cast_sub (show 1 ≤ n by omega)]; rfl
  have hn2 : ((n - 2 : Nat) : Rat) = n - 2 := by push_cast [Nat.cast_sub (show 2 ≤ n by omega)]; rfl
  have hrise : Y 0 < Y 1 := by
    simp only [hY]
    push_cast
    have e : α * (x0 + 1 * d) ^ 2 + β * (x0 + 1 * d) + γ - (α * (x0 + 0 * d) ^ 2 + β * (x0 + 0 * d) + γ) = d * α * (2 * (x0 - w) + d) := by
      rw [show β = -(2 * α * w) by linarith]; ring
    have : 0 < d * α * (2 * (x0 - w) + d) := by
      apply mul_pos_of_neg_of_neg (mul_neg_of_pos_of_neg hd hα)
      linarith
    linarith
  have hfall : Y (n - 1) < Y (n - 2) := by
    simp only [hY]
    rw [hn1, hn2]
    have e : α * (x0 + (n - 1) * d) ^ 2 + β * (x0 + (n - 1) * d) + γ - (α * (x0 + (n - 2) * d) ^ 2 + β * (x0 + (n - 2) * d) + γ) =
        d * α * (2 * (x0 + (n - 2) * d - w) + d) := by
      rw [show β = -(2 * α * w) by linarith]; ring
    have : d * α * (2 * (x0 + (n - 2) * d - w) + d) < 0 := by
      apply mul_neg_of_neg_of_pos (mul_neg_of_pos_of_neg hd hα)
      linarith
    linarith
  obtain ⟨x, k, e, -, -, -⟩ := C271_concave_partial hp hd hu (by omega) hc hrise hfall
  have hsl : ∀ i, 0 < i → i + 1 < n → slope n d Y i = 2 * α * (x0 + i * d) + β := by
    intro i h0 hi
    obtain ⟨j, rfl⟩ : ∃ j, i = j + 1 := ⟨i - 1, by omega⟩
    unfold slope
    rw [if_neg (by omega), if_neg (by omega), show j + 1 - 1 = j by omega]
    simp only [hY]
    push_cast
    field_simp
    ring
  have hdec := slope_dec hd hc (by omega)
  have hs1 : 0 < slope n d Y 1 := by
    rw [hsl 1 (by omega) (by omega)]
    push_cast
    nlinarith
  have hs2 : slope n d Y (n - 2) < 0 := by
    rw [hsl (n - 2) (by omega) (by omega), hn2]
    nlinarith
  have hmono : ∀ i m, i + m < n → slope n d Y (i + m) ≤ slope n d Y i := by
    intro i m
    induction m with
    | zero => intro _; exact le_rfl
    | succ m ih => intro h; have := ih (by omega); have := hdec (i + m) (by omega); rw [← add_assoc]; linarith
  obtain ⟨κ, hk, e'⟩ := extrema_eq hp (by omega) hd hu
  rw [e'] at e
  have hx : x ∈ vpos (tab n x0 d fun i => if accC n (slope n d (slope n d Y)) i < 0 then some (slope n d Y i * κ) else none) 0 := by
    have := congrArg Prod.snd (Except.ok.inj e)
    simp only at this
    rw [this]
    simp
  have hw : x = w := by
    rcases vpos_sound hx with ⟨i, hi, hw, rfl⟩ | ⟨i, a, b, hi, ha, hb, hs, rfl⟩
    · split at hw
      · simp only [Option.some.injEq, mul_eq_zero] at hw
        have hz : slope n d Y i = 0 := by
          rcases hw with h | h
          · exact h
          · exact absurd h hk.ne'
        have hi0 : 0 < i := by
          by_contra hc0
          have : i = 0 := by omega
          subst this
          have := hmono 0 1 (by omega)
          simp only [zero_add] at this
          linarith
        have hin : i + 1 < n := by
          by_contra hc0
          have := hmono (n - 2) 1 (by omega)
          rw [show n - 2 + 1 = i by omega] at this
          linarith
        rw [hsl i hi0 hin] at hz
        have : 2 * α * (x0 + i * d - w) = 0 := by linarith
        rcases mul_eq_zero.1 this with h | h
        · linarith
        · linarith
      · cases hw
    · split at ha
      · split at hb
        · simp only [Option.some.injEq] at ha hb
          have hlt := mul_lt_mul_of_pos_right (hdec i hi) hk
          rw [ha, hb] at hlt
          have hs' : b < 0 ∧ 0 < a := by
            rcases hs with ⟨u1, u2⟩ | h
            · linarith
            · exact h
          have sa : 0 < slope n d Y i := by
            by_contra hcon
            have := mul_nonpos_of_nonpos_of_nonneg (not_lt.1 hcon) hk.le
            linarith [hs'.2]
          have sb : slope n d Y (i + 1) < 0 := by
            by_contra hcon
            have := mul_nonneg (not_lt.1 hcon) hk.le
            linarith [hs'.1]
          have hi0 : 0 < i := by
            by_contra hc0
            have : i = 0 := by omega
            subst this
            simp only [zero_add] at sb
            linarith
          have hin : i + 1 + 1 < n := by
            by_contra hc0
            rw [show i = n - 2 by omega] at sa
            linarith
          rw [hsl i hi0 (by omega)] at ha
          rw [hsl (i + 1) (by omega) hin] at hb
          push_cast at hb
          have hab : a - b ≠ 0 := by intro h; linarith
          have e1 : a - b = -(2 * α * d * κ) := by rw [← ha, ← hb]; ring
          have e2 : a = -(2 * α * κ) * (w - (x0 + i * d)) := by rw [← ha, show β = -(2 * α * w) by linarith]; ring
          rw [e1, e2]
          have := hk.ne'
          have := hα.ne
          have := hd.ne'
          field_simp
          ring
        · cases hb
      · cases ha
  rw [e', e, hw]

/-- **C271** On a zigzag between two values, the position returned as a minimum is that of a maximum. -/
theorem C271_zigzag_violated {p : Prof} {n : Nat} {x0 d h : Rat} (hd : 0 < d) (hu : PosUnits p) (hh : 0 < h) (h7 : 7 ≤ n)
    (hp : EvenProf p n x0 d fun i => if i % 2 = 0 then 0 else h) :
    ∃ maxs, extrema p = .ok ([x0 + 3 * d], maxs) ∧ (x0 + 2 * d, some 0) ∈ pts p ∧ (x0 + 3 * d, some h) ∈ pts p ∧ (x0 + 4 * d, some 0) ∈ pts p := by
  obtain ⟨κ, hk, e⟩ := extrema_eq hp (by omega) hd hu
  set Y : Nat → Rat := fun i => if i % 2 = 0 then 0 else h with hY
  have hs : ∀ i, 0 < i → i + 1 < n → slope n d Y i = 0 := by
    intro i h0 h1
    obtain ⟨j, rfl⟩ : ∃ j, i = j + 1 := ⟨i - 1, by omega⟩
    unfold slope
    rw [if_neg (by omega), if_neg (by omega), show j + 1 - 1 = j by omega]
    simp only [hY]
    rw [show (j + 1 + 1) % 2 = j % 2 by omega]
    simp
  have hs0 : slope n d Y 0 = h / d := by
    unfold slope
    simp [hY]
  have h0 : slope n d (slope n d Y) 0 < 0 := by
    rw [slope, if_pos rfl, hs 1 (by omega) (by omega), hs0]
    have := div_pos hh hd
    apply div_neg_of_neg_of_pos _ hd
    linarith
  have h1 : slope n d (slope n d Y) 1 < 0 := by
    rw [slope, if_neg (by omega), if_neg (by omega), hs 2 (by omega) (by omega), hs0]
    have := div_pos hh hd
    apply div_neg_of_neg_of_pos _ (by linarith)
    linarith
  have hin : ∀ i, 2 ≤ i → i + 2 < n → slope n d (slope n d Y) i = 0 := by
    intro i ha hb
    rw [slope, if_neg (by omega), if_neg (by omega), hs (i + 1) (by omega) (by omega), hs (i - 1) (by omega) (by omega)]
    simp
  have hB : ∀ i, i + 1 < n → accB n (slope n d (slope n d Y)) i = slope n d (slope n d Y) i + slope n d (slope n d Y) (i + 1) := by
    intro i hi
    unfold accB
    rw [if_pos hi]
  have c0 : accC n (slope n d (slope n d Y)) 0 < 0 := by
    unfold accC
    rw [if_neg (by omega), hB 0 (by omega)]
    linarith
  have c1 : accC n (slope n d (slope n d Y)) 1 < 0 := by
    unfold accC
    rw [if_pos (by omega), hB 1 (by omega), hB (1 - 1) (by omega), hin 2 (by omega) (by omega)]
    simp only [Nat.sub_self, zero_add]
    linarith
  have c2 : accC n (slope n d (slope n d Y)) 2 < 0 := by
    unfold accC
    rw [if_pos (by omega), hB 2 (by omega), hB (2 - 1) (by omega), hin 2 (by omega) (by omega), hin 3 (by omega) (by omega)]
    simp only [show 2 - 1 = 1 by rfl, show 1 + 1 = 2 by rfl, hin 2 (by omega) (by omega)]
    linarith
  have c3 : ¬ accC n (slope n d (slope n d Y)) 3 < 0 := by
    unfold accC
    rw [if_pos (by omega), hB 3 (by omega), hB (3 - 1) (by omega)]
    simp only [show 3 - 1 = 2 by rfl, show 2 + 1 = 3 by rfl, show 3 + 1 = 4 by rfl]
    rw [hin 2 (by omega) (by omega), hin 3 (by omega) (by omega), hin 4 (by omega) (by omega)]
    simp
  have hmins : vpos (tab n x0 d fun i => if accC n (slope n d (slope n d Y)) i < 0 then none else some (slope n d Y i * κ)) 0 = [x0 + 3 * d] := by
    obtain ⟨m, rfl⟩ : ∃ m, n = m + 4 := ⟨n - 4, by omega⟩
    have hz : slope (m + 4) d Y 3 * κ = 0 := by rw [hs 3 (by omega) (by omega), zero_mul]
    rw [tab_succ, tab_succ, tab_succ, tab_succ]
    simp only [zero_add, show 1 + 1 = 2 by rfl, show 2 + 1 = 3 by rfl, if_pos c0, if_pos c1, if_pos c2, if_neg c3, hz]
    unfold vpos
    rw [if_pos (by simp)]
    simp
    ring
  rw [hmins] at e
  refine ⟨_, e, ?_⟩
  rw [pts_valid hp.1, hp.2.1, hp.2.2, List.zip_map']
  refine ⟨List.mem_map.2 ⟨2, List.mem_range.2 (by omega), by simp [hY]⟩, List.mem_map.2 ⟨3, List.mem_range.2 (by omega), by simp [hY]⟩,
    List.mem_map.2 ⟨4, List.mem_range.2 (by omega), by simp [hY]⟩⟩

/-- **C271** Of the maxima of a wave with four points per period, only the first is returned. -/
theorem C271_hidden_violated {p : Prof} {m : Nat} {x0 d : Rat} (hd : 0 < d) (hu : PosUnits p) (hm : 2 ≤ m)
    (hp : EvenProf p (4 * m + 1) x0 d fun i => if i % 4 = 1 then 1 else if i % 4 = 3 then -1 else 0) :
    ∃ mins, extrema p = .ok (mins, [x0 + d]) ∧ ∀ k, k < m →
      (x0 + ((4 * k : Nat) : Rat) * d, some 0) ∈ pts p ∧ (x0 + ((4 * k + 1 : Nat) : Rat) * d, some 1) ∈ pts p ∧
        (x0 + ((4 * k + 2 : Nat) : Rat) * d, some 0) ∈ pts p := by
  obtain ⟨κ, hk, e⟩ := extrema_eq hp (by omega) hd hu
  set Y : Nat → Rat := fun i => if i % 4 = 1 then 1 else if i % 4 = 3 then -1 else 0 with hY
  obtain ⟨n, hn⟩ : ∃ n, 4 * m + 1 = n + 9 := ⟨4 * m - 8, by omega⟩
  have s0 : slope (4 * m + 1) d Y 0 = 1 / d := by
    unfold slope; simp [hY]
  have s1 : slope (4 * m + 1) d Y 1 = 0 := by
    unfold slope; rw [if_neg (by omega), if_neg (by omega)]; simp [hY]
  have s2 : slope (4 * m + 1) d Y 2 = -1 / d := by
    unfold slope; rw [if_neg (by omega), if_neg (by omega)]; simp [hY]; field_simp; norm_num
  have s3 : slope (4 * m + 1) d Y 3 = 0 := by
    unfold slope; rw [if_neg (by omega), if_neg (by omega)]; simp [hY]
  have a0 : slope (4 * m + 1) d (slope (4 * m + 1) d Y) 0 = -1 / d ^ 2 := by
    rw [slope, if_pos rfl, s0, s1]; field_simp; norm_num
  have a1 : slope (4 * m + 1) d (slope (4 * m + 1) d Y) 1 = -1 / d ^ 2 := by
    rw [slope, if_neg (by omega), if_neg (by omega)]
    simp only [show 1 + 1 = 2 by rfl, Nat.sub_self]
    rw [s0, s2]; field_simp; norm_num
  have a2 : slope (4 * m + 1) d (slope (4 * m + 1) d Y) 2 = 0 := by
    rw [slope, if_neg (by omega), if_neg (by omega)]
    simp only [show 2 + 1 = 3 by rfl, show 2 - 1 = 1 by rfl]
    rw [s3, s1]; simp
  have hneg : (-1 : Rat) / d ^ 2 < 0 := div_neg_of_neg_of_pos (by norm_num) (by positivity)
  have hB : ∀ i, i + 1 < 4 * m + 1 → accB (4 * m + 1) (slope (4 * m + 1) d (slope (4 * m + 1) d Y)) i =
      slope (4 * m + 1) d (slope (4 * m + 1) d Y) i + slope (4 * m + 1) d (slope (4 * m + 1) d Y) (i + 1) := by
    intro i hi
    unfold accB
    rw [if_pos hi]
  have c0 : accC (4 * m + 1) (slope (4 * m + 1) d (slope (4 * m + 1) d Y)) 0 < 0 := by
    unfold accC
    rw [if_neg (by omega), hB 0 (by omega)]
    simp only [zero_add]
    rw [a0, a1]
    linarith
  have c1 : accC (4 * m + 1) (slope (4 * m + 1) d (slope (4 * m + 1) d Y)) 1 < 0 := by
    unfold accC
    rw [if_pos (by omega), hB 1 (by omega), hB (1 - 1) (by omega)]
    simp only [Nat.sub_self, zero_add, show 1 + 1 = 2 by rfl]
    rw [a0, a1, a2]
    linarith
  have hmax : vpos (tab (4 * m + 1) x0 d fun i => if accC (4 * m + 1) (slope (4 * m + 1) d (slope (4 * m + 1) d Y)) i < 0
      then some (slope (4 * m + 1) d Y i * κ) else none) 0 = [x0 + d] := by
    have hz : slope (4 * m + 1) d Y 1 * κ = 0 := by rw [s1, zero_mul]
    have hz0 : slope (4 * m + 1) d Y 0 * κ ≠ 0 := by rw [s0]; exact mul_ne_zero (div_ne_zero one_ne_zero hd.ne') hk.ne'
    have hspl : ∀ W : Nat → F, tab (4 * m + 1) x0 d W = (x0, W 0) :: (x0 + d, W 1) :: tab (n + 7) (x0 + d + d) d fun i => W (i + 1 + 1) := by
      intro W
      rw [hn, show n + 9 = n + 7 + 1 + 1 by omega, tab_succ, tab_succ]
    rw [hspl]
    simp only [if_pos c0, if_pos c1, hz]
    unfold vpos
    rw [if_pos (by simp)]
    simp [hz0]
  rw [hmax] at e
  refine ⟨_, e, ?_⟩
  intro k hkm
  rw [pts_valid hp.1, hp.2.1, hp.2.2, List.zip_map']
  refine ⟨List.mem_map.2 ⟨4 * k, List.mem_range.2 (by omega), ?_⟩, List.mem_map.2 ⟨4 * k + 1, List.mem_range.2 (by omega), ?_⟩,
    List.mem_map.2 ⟨4 * k + 2, List.mem_range.2 (by omega), ?_⟩⟩
  · simp [hY, show 4 * k % 4 = 0 by omega]
  · simp [hY, show (4 * k + 1) % 4 = 1 by omega]
  · simp [hY, show (4 * k + 2) % 4 = 2 by omega]

/-! ### examples -/

/-- A bump. -/
def bump : Prof := ⟨[0, 1, 2, 3, 4], [some 0, some 5, some 8, some 7, some 1], [false, false, false, false, false], .m, .s⟩

theorem bump_even : EvenProf bump 5 0 1 fun i => [0, 5, 8, 7, 1].getD i 0 :=
  ⟨⟨rfl, by decide, by decide +kernel⟩, by decide +kernel, by decide +kernel⟩

example : PosUnits bump ∧ ∀ i : Fin 3, ([0, 5, 8, 7, 1] : List Rat).getD i 0 + ([0, 5, 8, 7, 1] : List Rat).getD (i + 2) 0 < 2 * ([0, 5, 8, 7, 1] : List Rat).getD (i + 1) 0 := by
  refine ⟨⟨by decide +kernel, by decide +kernel⟩, by decide +kernel⟩

example : extrema bump = .ok ([], [2 + 2 / 9]) := by decide +kernel

end IMT.Tidy
