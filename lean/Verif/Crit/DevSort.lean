import Verif.Crit.DevLemmas
import Verif.Crit.Gamma
import Mathlib.Analysis.SpecialFunctions.Trigonometric.Angle

/-! Lemmas for C278: deviation of a list of angles of one turn. -/

namespace IMT.Crit

open Real

/-- `a` is the direction of the vector `w`, which is not null: the angle of one turn with its cosine and sine. -/
def IsDir (w : ℝ × ℝ) (a : ℝ) : Prop :=
  w ≠ (0, 0) ∧ 0 ≤ a ∧ a < 2 * π ∧ √(w.1 ^ 2 + w.2 ^ 2) * cos a = w.1 ∧ √(w.1 ^ 2 + w.2 ^ 2) * sin a = w.2

theorem turn_unique {a b : ℝ} (ha : 0 ≤ a ∧ a < 2 * π) (hb : 0 ≤ b ∧ b < 2 * π) (hc : cos a = cos b) (hs : sin a = sin b) : a = b := by
  have h := Real.Angle.cos_sin_inj hc hs
  rw [Real.Angle.angle_eq_iff_two_pi_dvd_sub] at h
  obtain ⟨k, hk⟩ := h
  have hp := pi_pos
  have h1 : (k : ℝ) < 1 := by
    by_contra hn
    push Not at hn
    nlinarith
  have h2 : (-1 : ℝ) < k := by
    by_contra hn
    push Not at hn
    nlinarith
  have hk0 : k = 0 := by
    have : k < 1 := by exact_mod_cast h1
    have : -1 < k := by exact_mod_cast h2
    omega
  rw [hk0] at hk
  simp at hk
  linarith

theorem ne_zero_iff {w : ℝ × ℝ} : w ≠ (0, 0) ↔ w.1 ^ 2 + w.2 ^ 2 ≠ 0 := by
  obtain ⟨x, y⟩ := w
  rw [not_iff_not, Prod.mk.injEq]
  exact (ss_zero (K := ℝ)).symm

theorem dir_theta {w : ℝ × ℝ} (h : w ≠ (0, 0)) : IsDir w (Pbi.theta w.1 w.2) :=
  ⟨h, (Pbi.theta_range _ _).1, (Pbi.theta_range _ _).2, (Pbi.theta_spec _ _).1, (Pbi.theta_spec _ _).2⟩

theorem dir_unique {w : ℝ × ℝ} {a b : ℝ} (ha : IsDir w a) (hb : IsDir w b) : a = b := by
  obtain ⟨h0, a1, a2, a3, a4⟩ := ha
  obtain ⟨-, b1, b2, b3, b4⟩ := hb
  have hn := Pbi.norm_pos (ne_zero_iff.1 h0)
  exact turn_unique ⟨a1, a2⟩ ⟨b1, b2⟩ (mul_left_cancel₀ hn.ne' (a3.trans b3.symm)) (mul_left_cancel₀ hn.ne' (a4.trans b4.symm))

/-! ### sorted lists -/

theorem sorted_sort (l : List ℝ) : (l.insertionSort (· ≤ ·)).Pairwise (· ≤ ·) := List.pairwise_insertionSort _ l

theorem perm_sort (l : List ℝ) : (l.insertionSort (· ≤ ·)).Perm l := List.perm_insertionSort _ l

theorem sort_of_perm {l s : List ℝ} (h : l.Perm s) (hs : s.Pairwise (· ≤ ·)) : l.insertionSort (· ≤ ·) = s :=
  ((perm_sort l).trans h).eq_of_pairwise (fun _ _ _ _ h1 h2 => le_antisymm h1 h2) (sorted_sort l) hs

/-- The spread of a list of angles only depends on the angles, not on their order. -/
theorem deviation_perm {p : ℝ} {l l' : List ℝ} (h : l.Perm l') : deviation p l = deviation p l' := by
  unfold deviation
  rw [sort_of_perm (h.trans (perm_sort l').symm) (sorted_sort l'), h.length_eq]

theorem last_mem {a : ℝ} {l : List ℝ} : (a :: l).getLastD 0 ∈ a :: l := by
  rw [List.getLastD_eq_getLast?, List.getLast?_eq_some_getLast (by simp)]
  exact List.getLast_mem _

theorem le_last : ∀ {a : ℝ} {l : List ℝ}, (a :: l).Pairwise (· ≤ ·) → ∀ x ∈ a :: l, x ≤ (a :: l).getLastD 0
  | a, [], _ => by simp
  | a, b :: l, h => by
    intro x hx
    have hb := le_last (a := b) (l := l) (List.pairwise_cons.1 h).2
    have e : (a :: b :: l).getLastD 0 = (b :: l).getLastD 0 := by simp
    rw [e]
    rcases List.mem_cons.1 hx with rfl | hx
    · exact ((List.pairwise_cons.1 h).1 b (by simp)).trans (hb b (by simp))
    · exact hb x hx

theorem zip_const (a : ℝ) (n : Nat) : List.zipWith (fun a b => b - a) (List.replicate (n + 1) a) (List.replicate n a) = List.replicate n 0 := by
  induction n with
  | zero => simp
  | succ n ih => rw [List.replicate_succ, List.replicate_succ (n := n), List.zipWith_cons_cons, ← List.replicate_succ, ih, sub_self, ← List.replicate_succ]

theorem gaps_const (a : ℝ) (n : Nat) : gaps (List.replicate (n + 1) a) = worst (n + 1) := by
  unfold gaps worst
  have h1 : (List.replicate (n + 1) a).tail = List.replicate n a := by simp
  have h2 : (List.replicate (n + 1) a).getLastD 0 = a := by
    rw [List.getLastD_eq_getLast?, List.getLast?_replicate]; simp
  have h3 : (List.replicate (n + 1) a).headD 0 = a := by rw [List.replicate_succ]; rfl
  rw [h1, zip_const, h2, h3]
  simp

/-- A list with all its successive differences equal. -/
theorem zip_step {c : ℝ} : ∀ (a : ℝ) (l : List ℝ), (∀ d ∈ List.zipWith (fun a b => b - a) (a :: l) l, d = c) →
    a :: l = (List.range (l.length + 1)).map fun k : Nat => a + k * c
  | a, [], _ => by simp
  | a, b :: l, h => by
    rw [List.zipWith_cons_cons] at h
    have hb := h (b - a) (by simp)
    have ih := zip_step b l fun d hd => h d (List.mem_cons_of_mem _ hd)
    rw [List.length_cons, List.range_succ_eq_map, List.map_cons, List.map_map, ih]
    simp only [Nat.cast_zero, zero_mul, add_zero, List.cons.injEq, true_and]
    apply List.map_congr_left
    intro k _
    simp only [Function.comp_apply]
    push_cast
    linarith

theorem step_zip {c : ℝ} : ∀ (n : Nat) (a : ℝ), ∀ d ∈ List.zipWith (fun a b => b - a) ((List.range (n + 1)).map fun k : Nat => a + k * c)
    ((List.range (n + 1)).map fun k : Nat => a + k * c).tail, d = c := by
  intro n a d hd
  rw [List.mem_iff_getElem] at hd
  obtain ⟨k, hk, rfl⟩ := hd
  simp only [List.getElem_zipWith, List.getElem_tail, List.getElem_map, List.getElem_range]
  push_cast
  ring

/-! ### values of the deviation -/

variable {p : ℝ} {l : List ℝ}

/-- The deviation lies between zero and one; zero when all the angles are the same, one when they are evenly spread. -/
theorem dev_spec (hp : 1 ≤ p) (hl : 2 ≤ l.length) (hr : ∀ a ∈ l, 0 ≤ a ∧ a < 2 * π) :
    (0 ≤ deviation p l ∧ deviation p l ≤ 1) ∧ (deviation p l = 0 ↔ ∃ a, ∀ x ∈ l, x = a) ∧
    (deviation p l = 1 ↔ ∃ a, l.Perm ((List.range l.length).map fun k : Nat => a + k * (2 * π / l.length))) := by
  have hlen : (l.insertionSort (· ≤ ·)).length = l.length := (perm_sort l).length_eq
  have hord := sorted_sort l
  have hperm := perm_sort l
  have hr' : ∀ a ∈ l.insertionSort (· ≤ ·), 0 ≤ a ∧ a < 2 * π := fun a ha => hr a (hperm.mem_iff.1 ha)
  have hne : l.insertionSort (· ≤ ·) ≠ [] := by
    intro h
    rw [h] at hlen
    simp at hlen
    omega
  unfold deviation
  generalize hs : l.insertionSort (· ≤ ·) = s at *
  have gl := gaps_length hne
  have gn := gaps_nonneg hne hord hr'
  have gs := gaps_sum hne
  have hgl : (gaps s).length = l.length := gl.trans hlen
  obtain ⟨w1, w2⟩ := sum_le_worst hp (by omega) gn gs
  rw [hgl] at w1 w2
  have wp := worst_pos (p := p) hl
  have sn := sum_nonneg' p (2 * π / l.length) (gaps s)
  have ip : 0 < 1 / p := by positivity
  have ip0 : 0 ≤ 1 / p := ip.le
  unfold spread
  have Wp : 0 < ((worst l.length).map fun x => |x - 2 * π / l.length| ^ p).sum ^ (1 / p) := rpow_pos_of_pos wp _
  have Sn : 0 ≤ ((gaps s).map fun x => |x - 2 * π / l.length| ^ p).sum ^ (1 / p) := rpow_nonneg sn _
  have Sw := rpow_le_rpow sn w1 ip0
  refine ⟨⟨?_, ?_⟩, ⟨?_, ?_⟩, ⟨?_, ?_⟩⟩
  · have := (div_le_one Wp).2 Sw
    linarith
  · have := div_nonneg Sn Wp.le
    linarith
  · intro h
    have h1 : ((gaps s).map fun x => |x - 2 * π / l.length| ^ p).sum ^ (1 / p) = ((worst l.length).map fun x => |x - 2 * π / l.length| ^ p).sum ^ (1 / p) := by
      rw [sub_eq_zero] at h
      exact (div_eq_one_iff_eq Wp.ne').1 h.symm
    have h2 := (rpow_left_inj sn wp.le ip.ne').1 h1
    have h3 := w2 h2
    obtain ⟨a, t, rfl⟩ := List.exists_cons_of_ne_nil hne
    have h4 := h3 ((a :: t).headD 0 + 2 * π - (a :: t).getLastD 0) (by unfold gaps; simp)
    rw [List.headD_cons] at h4
    have ha := hr' a (by simp)
    have hlast := hr' _ (last_mem (a := a) (l := t))
    have h5 : (a :: t).getLastD 0 = a := by
      rcases h4 with h4 | h4 <;> linarith
    refine ⟨a, fun x hx => ?_⟩
    have hx' := hperm.mem_iff.2 hx
    apply le_antisymm
    · rw [← h5]; exact le_last hord x hx'
    · rcases List.mem_cons.1 hx' with rfl | hx'
      · exact le_rfl
      · exact (List.pairwise_cons.1 hord).1 x hx'
  · rintro ⟨a, ha⟩
    have h1 : s = List.replicate l.length a := by
      rw [← hlen, List.eq_replicate_iff]
      exact ⟨rfl, fun x hx => ha x (hperm.mem_iff.1 hx)⟩
    obtain ⟨n, hn⟩ : ∃ n, l.length = n + 1 := ⟨l.length - 1, by omega⟩
    rw [h1, hn, gaps_const, ← hn, div_self Wp.ne', sub_self]
  · intro h
    have h1 : ((gaps s).map fun x => |x - 2 * π / l.length| ^ p).sum ^ (1 / p) = 0 := by
      have : ((gaps s).map fun x => |x - 2 * π / l.length| ^ p).sum ^ (1 / p) / ((worst l.length).map fun x => |x - 2 * π / l.length| ^ p).sum ^ (1 / p) = 0 := by linarith
      rcases div_eq_zero_iff.1 this with h | h
      · exact h
      · exact absurd h Wp.ne'
    have h2 := (rpow_eq_zero sn ip.ne').1 h1
    have h3 := (sum_zero hp).1 h2
    obtain ⟨a, t, rfl⟩ := List.exists_cons_of_ne_nil hne
    refine ⟨a, hperm.symm.trans ?_⟩
    have := zip_step a t fun d hd => h3 d (by unfold gaps; rw [List.tail_cons]; simp [hd])
    rw [List.length_cons] at hlen
    rw [hlen] at this
    rw [this]
  · rintro ⟨a, ha⟩
    have c0 : 0 ≤ 2 * π / l.length := by positivity
    obtain ⟨n, hn⟩ : ∃ n, l.length = n + 1 := ⟨l.length - 1, by omega⟩
    have hord2 : ((List.range l.length).map fun k : Nat => a + k * (2 * π / l.length)).Pairwise (· ≤ ·) := by
      rw [List.pairwise_map]
      refine List.pairwise_lt_range.imp ?_
      intro i j hij
      have : (i : ℝ) ≤ j := by exact_mod_cast hij.le
      have := mul_le_mul_of_nonneg_right this c0
      linarith
    have hs2 : s = (List.range l.length).map fun k : Nat => a + k * (2 * π / l.length) := by
      rw [← hs]; exact sort_of_perm ha hord2
    have hall : ∀ d ∈ gaps s, d = 2 * π / l.length := by
      have hz : ∀ d ∈ List.zipWith (fun a b => b - a) s s.tail, d = 2 * π / l.length := by
        rw [hs2]
        generalize 2 * π / (l.length : ℝ) = c
        rw [hn]
        exact step_zip n a
      intro d hd
      unfold gaps at hd
      rw [List.mem_append] at hd
      rcases hd with hd | hd
      · exact hz d hd
      · rw [List.mem_singleton] at hd
        rw [hd, hs2, hn, List.getLastD_eq_getLast?, List.getLast?_map, List.range_succ_eq_map, ← List.range_succ_eq_map, List.range_succ, List.getLast?_append]
        simp only [List.getLast?_singleton, Option.some_or, Option.map_some, Option.getD_some]
        rw [← List.range_succ, List.range_succ_eq_map]
        simp only [List.map_cons, List.headD_cons, Nat.cast_zero, zero_mul, add_zero]
        push_cast
        field_simp
        ring
    rw [(sum_zero hp).2 hall, zero_rpow ip.ne', zero_div, sub_zero]

/-! ### turning all the angles -/

theorem zip_append : ∀ (a : ℝ) (l : List ℝ) (b : ℝ) (m : List ℝ),
    List.zipWith (fun a b => b - a) (a :: l ++ b :: m) (l ++ b :: m) =
      List.zipWith (fun a b => b - a) (a :: l) l ++ (b - (a :: l).getLastD 0) :: List.zipWith (fun a b => b - a) (b :: m) m
  | a, [], b, m => by simp
  | a, c :: l, b, m => by
    have := zip_append c l b m
    simp only [List.cons_append, List.zipWith_cons_cons] at this ⊢
    rw [this]
    simp

theorem zip_shift (φ : ℝ) : ∀ (a : ℝ) (l : List ℝ),
    List.zipWith (fun a b => b - a) ((a :: l).map (· + φ)) (l.map (· + φ)) = List.zipWith (fun a b => b - a) (a :: l) l
  | a, [] => by simp
  | a, b :: l => by
    have := zip_shift φ b l
    simp only [List.map_cons, List.zipWith_cons_cons] at this ⊢
    rw [this]
    simp

theorem last_shift (φ : ℝ) (a : ℝ) (l : List ℝ) : ((a :: l).map (· + φ)).getLastD 0 = (a :: l).getLastD 0 + φ := by
  rw [List.getLastD_eq_getLast?, List.getLastD_eq_getLast?, List.getLast?_map, List.getLast?_eq_some_getLast (by simp)]
  simp

theorem gaps_shift (φ : ℝ) (a : ℝ) (l : List ℝ) : gaps ((a :: l).map (· + φ)) = gaps (a :: l) := by
  unfold gaps
  rw [last_shift, List.map_cons, List.tail_cons, List.tail_cons, ← List.map_cons (f := (· + φ)), zip_shift, List.map_cons, List.headD_cons, List.headD_cons]
  congr 2
  ring

/-- The gaps of the second part followed by the first one, a turn further. -/
theorem gaps_swap (a : ℝ) (l : List ℝ) (b : ℝ) (m : List ℝ) :
    (gaps ((b :: m).map (· + -(2 * π)) ++ (a :: l))).Perm (gaps (a :: l ++ b :: m)) := by
  unfold gaps
  have e1 : ((b :: m).map (· + -(2 * π)) ++ (a :: l)).tail = m.map (· + -(2 * π)) ++ a :: l := by simp
  have e2 : (a :: l ++ b :: m).tail = l ++ b :: m := by simp
  have e3 : ((b :: m).map (· + -(2 * π)) ++ (a :: l)).getLastD 0 = (a :: l).getLastD 0 := by
    simp only [List.getLastD_eq_getLast?, List.getLast?_append, List.getLast?_eq_some_getLast (List.cons_ne_nil a l), Option.some_or]
  have e4 : (a :: l ++ b :: m).getLastD 0 = (b :: m).getLastD 0 := by
    simp only [List.getLastD_eq_getLast?, List.getLast?_append, List.getLast?_eq_some_getLast (List.cons_ne_nil b m), Option.some_or]
  rw [e1, e2, e3, e4, zip_append]
  have e5 := zip_append (b + -(2 * π)) (m.map (· + -(2 * π))) a l
  rw [List.map_cons, e5, ← List.map_cons (f := (· + -(2 * π))), last_shift, zip_shift]
  simp only [List.cons_append, List.headD_cons]
  have e6 : a - ((b :: m).getLastD 0 + -(2 * π)) = a + 2 * π - (b :: m).getLastD 0 := by ring
  have e7 : b + -(2 * π) + 2 * π - (a :: l).getLastD 0 = b - (a :: l).getLastD 0 := by ring
  rw [List.map_cons, List.cons_append, List.headD_cons, e6, e7]
  rw [List.append_assoc, List.cons_append, List.append_assoc, List.cons_append]
  generalize List.zipWith (fun a b => b - a) (b :: m) m = Y
  generalize List.zipWith (fun a b => b - a) (a :: l) l = X
  generalize a + 2 * π - (b :: m).getLastD 0 = u
  generalize b - (a :: l).getLastD 0 = v
  rw [List.perm_iff_count]
  intro z
  simp only [List.count_append, List.count_cons, List.count_nil]
  omega

theorem spread_perm {p : ℝ} {n : Nat} {d d' : List ℝ} (h : d.Perm d') : spread p n d = spread p n d' := by
  unfold spread
  rw [(h.map _).sum_eq]

/-- The angle `a + φ` brought back to one turn. -/
noncomputable def turnBy (φ a : ℝ) : ℝ := if a + φ < 2 * π then a + φ else a + φ - 2 * π

theorem deviation_turn {φ : ℝ} (hr : ∀ a ∈ l, 0 ≤ a ∧ a < 2 * π) (hφ : 0 ≤ φ ∧ φ < 2 * π) : deviation p (l.map (turnBy φ)) = deviation p l := by
  rw [← deviation_perm ((perm_sort l).map (turnBy φ)), ← deviation_perm (perm_sort l)]
  have hord := sorted_sort l
  have hr' : ∀ a ∈ l.insertionSort (· ≤ ·), 0 ≤ a ∧ a < 2 * π := fun a ha => hr a ((perm_sort l).mem_iff.1 ha)
  generalize l.insertionSort (· ≤ ·) = s at hord hr'
  unfold deviation
  rw [List.length_map]
  congr 2
  rw [show s.insertionSort (· ≤ ·) = s from sort_of_perm (List.Perm.refl s) hord]
  set s1 := s.filter fun a => decide (a + φ < 2 * π) with h1
  set s2 := s.filter fun a => !decide (a + φ < 2 * π) with h2
  have m1 : ∀ x ∈ s1, x ∈ s ∧ x + φ < 2 * π := fun x hx => by
    rw [h1, List.mem_filter] at hx; exact ⟨hx.1, of_decide_eq_true hx.2⟩
  have m2 : ∀ x ∈ s2, x ∈ s ∧ 2 * π ≤ x + φ := fun x hx => by
    rw [h2, List.mem_filter] at hx
    refine ⟨hx.1, ?_⟩
    have := hx.2
    simp only [Bool.not_eq_true', decide_eq_false_iff_not, not_lt] at this
    exact this
  have o1 : s1.Pairwise (· ≤ ·) := hord.filter _
  have o2 : s2.Pairwise (· ≤ ·) := hord.filter _
  have hsplit : s = s1 ++ s2 := by
    apply List.Perm.eq_of_pairwise (le := (· ≤ ·)) (fun _ _ _ _ h1 h2 => le_antisymm h1 h2) hord
    · rw [List.pairwise_append]
      refine ⟨o1, o2, fun a ha b hb => ?_⟩
      have := (m1 a ha).2
      have := (m2 b hb).2
      linarith
    · exact (List.filter_append_perm _ s).symm
  have t1 : s1.map (turnBy φ) = s1.map (· + φ) := List.map_congr_left fun x hx => by
    unfold turnBy; rw [if_pos (m1 x hx).2]
  have t2 : s2.map (turnBy φ) = (s2.map (· + φ)).map (· + -(2 * π)) := by
    rw [List.map_map]
    refine List.map_congr_left fun x hx => ?_
    unfold turnBy; rw [if_neg (not_lt.2 (m2 x hx).2)]
    simp only [Function.comp_apply]; ring
  have hsort : (s.map (turnBy φ)).insertionSort (· ≤ ·) = (s2.map (· + φ)).map (· + -(2 * π)) ++ s1.map (· + φ) := by
    apply sort_of_perm
    · rw [hsplit, List.map_append, t1, t2]; exact List.perm_append_comm
    · rw [List.pairwise_append]
      refine ⟨?_, ?_, ?_⟩
      · rw [List.map_map, List.pairwise_map]
        exact o2.imp fun h => by simp only [Function.comp_apply]; linarith
      · rw [List.pairwise_map]
        exact o1.imp fun h => by linarith
      · intro a ha b hb
        rw [List.map_map, List.mem_map] at ha
        rw [List.mem_map] at hb
        obtain ⟨x, hx, rfl⟩ := ha
        obtain ⟨y, hy, rfl⟩ := hb
        have := (hr' x (m2 x hx).1).2
        have := (hr' y (m1 y hy).1).1
        simp only [Function.comp_apply]
        linarith
  rw [hsort]
  clear_value s1 s2
  subst hsplit
  apply spread_perm
  cases s1 with
  | nil =>
    cases s2 with
    | nil => simp
    | cons b m =>
      rw [List.map_nil, List.append_nil, List.map_cons, gaps_shift, ← List.map_cons (f := (· + φ)), gaps_shift, List.nil_append]
  | cons a l =>
    cases s2 with
    | nil => rw [List.map_nil, List.map_nil, List.nil_append, gaps_shift, List.append_nil]
    | cons b m =>
      rw [List.map_cons, List.map_cons (f := (· + φ)) (l := l)]
      refine (gaps_swap _ _ _ _).trans ?_
      rw [← List.map_cons (f := (· + φ)), ← List.map_cons (f := (· + φ)), ← List.map_append, List.cons_append, gaps_shift]

/-- Turning a vector turns its angle. -/
theorem theta_turn {x y c s : ℝ} (h : x ^ 2 + y ^ 2 ≠ 0) (hcs : c ^ 2 + s ^ 2 = 1) :
    Pbi.theta (c * x - s * y) (s * x + c * y) = turnBy (Pbi.theta c s) (Pbi.theta x y) := by
  have hn : (c * x - s * y) ^ 2 + (s * x + c * y) ^ 2 = x ^ 2 + y ^ 2 := by linear_combination (x ^ 2 + y ^ 2) * hcs
  have hne : ((c * x - s * y, s * x + c * y) : ℝ × ℝ) ≠ (0, 0) := ne_zero_iff.2 (by rw [hn]; exact h)
  have hd := dir_theta hne
  refine dir_unique (w := (c * x - s * y, s * x + c * y)) hd ⟨hne, ?_⟩
  have ra := Pbi.theta_range c s
  have rb := Pbi.theta_range x y
  obtain ⟨a1, a2⟩ := Pbi.theta_spec c s
  obtain ⟨b1, b2⟩ := Pbi.theta_spec x y
  rw [hcs, sqrt_one, one_mul] at a1 a2
  have ecos : cos (turnBy (Pbi.theta c s) (Pbi.theta x y)) = cos (Pbi.theta x y + Pbi.theta c s) := by
    unfold turnBy; split
    · rfl
    · rw [cos_sub_two_pi]
  have esin : sin (turnBy (Pbi.theta c s) (Pbi.theta x y)) = sin (Pbi.theta x y + Pbi.theta c s) := by
    unfold turnBy; split
    · rfl
    · rw [sin_sub_two_pi]
  refine ⟨?_, ?_, ?_, ?_⟩
  · unfold turnBy; split <;> linarith
  · unfold turnBy; split <;> linarith
  · simp only [hn]
    rw [ecos, cos_add, a1, a2]
    linear_combination c * b1 - s * b2
  · simp only [hn]
    rw [esin, sin_add, a1, a2]
    linear_combination s * b1 + c * b2

/-- A positive factor does not change the angle. -/
theorem theta_factor {x y k : ℝ} (hk : 0 < k) : Pbi.theta (k * x) (k * y) = Pbi.theta x y := by
  by_cases h : x ^ 2 + y ^ 2 = 0
  · obtain ⟨rfl, rfl⟩ := (ss_zero (K := ℝ)).1 h
    simp
  · have hn : (k * x) ^ 2 + (k * y) ^ 2 = k ^ 2 * (x ^ 2 + y ^ 2) := by ring
    have hsq : √((k * x) ^ 2 + (k * y) ^ 2) = k * √(x ^ 2 + y ^ 2) := by rw [hn, sqrt_mul (by positivity), sqrt_sq hk.le]
    have hne : ((k * x, k * y) : ℝ × ℝ) ≠ (0, 0) := ne_zero_iff.2 (by simp only [hn]; positivity)
    obtain ⟨b1, b2⟩ := Pbi.theta_spec x y
    refine dir_unique (dir_theta hne) ⟨hne, (Pbi.theta_range x y).1, (Pbi.theta_range x y).2, ?_, ?_⟩
    · simp only [hsq]; linear_combination k * b1
    · simp only [hsq]; linear_combination k * b2

end IMT.Crit
