import Verif.Crit.DevModel
import Mathlib.Analysis.Convex.SpecificFunctions.Basic
import Mathlib.Tactic.Linarith
import Mathlib.Tactic.FieldSimp
import Mathlib.Tactic.Ring

/-! Lemmas for C278: gaps between sorted angles and their distance to an even distribution. -/

namespace IMT.Crit

open Real

/-- The gaps of a sorted list of angles of one turn: as many as angles, none negative, adding up to a turn. -/
theorem gaps_length {s : List ℝ} (hs : s ≠ []) : (gaps s).length = s.length := by
  unfold gaps
  have : 0 < s.length := List.length_pos_of_ne_nil hs
  simp [List.length_zipWith]
  omega

theorem zip_sum : ∀ (a : ℝ) (l : List ℝ), (List.zipWith (fun a b => b - a) (a :: l) l).sum = (a :: l).getLastD 0 - a
  | a, [] => by simp
  | a, b :: l => by
    have := zip_sum b l
    rw [List.zipWith_cons_cons, List.sum_cons, this]
    simp

theorem gaps_sum {s : List ℝ} (hs : s ≠ []) : (gaps s).sum = 2 * π := by
  obtain ⟨a, l, rfl⟩ := List.exists_cons_of_ne_nil hs
  unfold gaps
  rw [List.sum_append, List.tail_cons, zip_sum]
  simp

theorem zip_nonneg : ∀ (a : ℝ) (l : List ℝ), (a :: l).Pairwise (· ≤ ·) → ∀ d ∈ List.zipWith (fun a b => b - a) (a :: l) l, 0 ≤ d
  | a, [], _ => by simp
  | a, b :: l, h => by
    intro d hd
    rw [List.zipWith_cons_cons, List.mem_cons] at hd
    rcases hd with rfl | hd
    · have := (List.pairwise_cons.1 h).1 b (by simp)
      linarith
    · exact zip_nonneg b l (List.pairwise_cons.1 h).2 d hd

theorem gaps_nonneg {s : List ℝ} (hs : s ≠ []) (ho : s.Pairwise (· ≤ ·)) (hr : ∀ a ∈ s, 0 ≤ a ∧ a < 2 * π) : ∀ d ∈ gaps s, 0 ≤ d := by
  obtain ⟨a, l, rfl⟩ := List.exists_cons_of_ne_nil hs
  intro d hd
  unfold gaps at hd
  rw [List.mem_append] at hd
  rcases hd with hd | hd
  · exact zip_nonneg a l ho d hd
  · rw [List.mem_singleton] at hd
    have h1 := hr a (by simp)
    have h2 : (a :: l).getLastD 0 ∈ a :: l := by
      rw [List.getLastD_eq_getLast?, List.getLast?_eq_some_getLast (by simp)]
      exact List.getLast_mem _
    have h3 := hr _ h2
    rw [hd]
    simp only [List.headD_cons]
    linarith

/-! ### the distance to the even distribution -/

/-- One term, below its chord; on it only at the ends. -/
theorem term_le {p T c d : ℝ} (hp : 1 ≤ p) (hc : 0 < c) (hcT : c < T) (h0 : 0 ≤ d) (h1 : d ≤ T) :
    |d - c| ^ p ≤ d / T * (T - c) ^ p + (1 - d / T) * c ^ p ∧ (|d - c| ^ p = d / T * (T - c) ^ p + (1 - d / T) * c ^ p → d = 0 ∨ d = T) := by
  have hT : 0 < T := hc.trans hcT
  have hl0 : 0 ≤ d / T := div_nonneg h0 hT.le
  have hl1 : d / T ≤ 1 := (div_le_one hT).2 h1
  have hconv := (convexOn_rpow hp).2 (x := T - c) (y := c) (Set.mem_Ici.2 (by linarith)) (Set.mem_Ici.2 hc.le) hl0 (by linarith : 0 ≤ 1 - d / T) (by ring)
  simp only [smul_eq_mul] at hconv
  have e : d - c = d / T * (T - c) - (1 - d / T) * c := by field_simp; ring
  have habs : |d - c| ≤ d / T * (T - c) + (1 - d / T) * c := by
    rw [e, abs_le]
    have a1 : 0 ≤ d / T * (T - c) := mul_nonneg hl0 (by linarith)
    have a2 : 0 ≤ (1 - d / T) * c := mul_nonneg (by linarith) hc.le
    constructor <;> linarith
  refine ⟨(rpow_le_rpow (abs_nonneg _) habs (by linarith)).trans hconv, ?_⟩
  intro heq
  by_contra hne
  rw [not_or] at hne
  have hd0 : 0 < d / T := div_pos (lt_of_le_of_ne h0 (Ne.symm hne.1)) hT
  have hd1 : d / T < 1 := (div_lt_one hT).2 (lt_of_le_of_ne h1 hne.2)
  have hstrict : |d - c| < d / T * (T - c) + (1 - d / T) * c := by
    rw [e, abs_lt]
    have a1 : 0 < d / T * (T - c) := mul_pos hd0 (by linarith)
    have a2 : 0 < (1 - d / T) * c := mul_pos (by linarith) hc
    constructor <;> linarith
  have := (rpow_lt_rpow (abs_nonneg _) hstrict (by linarith : 0 < p)).trans_le hconv
  linarith

theorem sum_chord (p T c : ℝ) (d : List ℝ) :
    (d.map fun x => x / T * (T - c) ^ p + (1 - x / T) * c ^ p).sum = d.sum / T * (T - c) ^ p + (d.length - d.sum / T) * c ^ p := by
  induction d with
  | nil => simp
  | cons a d ih =>
    rw [List.map_cons, List.sum_cons, ih, List.sum_cons, List.length_cons]
    push_cast
    ring

theorem sum_le_sum_eq {α : Type} (l : List α) (f g : α → ℝ) (h : ∀ a ∈ l, f a ≤ g a) :
    (l.map f).sum ≤ (l.map g).sum ∧ ((l.map f).sum = (l.map g).sum → ∀ a ∈ l, f a = g a) := by
  induction l with
  | nil => simp
  | cons a l ih =>
    obtain ⟨h1, h2⟩ := ih fun b hb => h b (by simp [hb])
    have h3 := h a (by simp)
    simp only [List.map_cons, List.sum_cons]
    refine ⟨add_le_add h3 h1, fun he b hb => ?_⟩
    rcases List.mem_cons.1 hb with rfl | hb
    · linarith
    · exact h2 (by linarith) b hb

theorem le_sum {d : List ℝ} (h : ∀ x ∈ d, 0 ≤ x) : ∀ x ∈ d, x ≤ d.sum := fun x hx => List.single_le_sum h x hx

/-- The sum for the concentrated distribution. -/
theorem worst_sum {p : ℝ} {n : Nat} (hn : 2 ≤ n) :
    ((worst n).map fun x => |x - 2 * π / n| ^ p).sum = (2 * π - 2 * π / n) ^ p + (n - 1) * (2 * π / n) ^ p := by
  have hn' : (2 : ℝ) ≤ n := by exact_mod_cast hn
  have hc : 0 < 2 * π / n := by positivity
  have hcT : 2 * π / n < 2 * π := by rw [div_lt_iff₀ (by linarith)]; nlinarith [pi_pos]
  unfold worst
  rw [List.map_append, List.sum_append, List.map_replicate, List.sum_replicate, List.map_singleton, List.sum_singleton, zero_sub, abs_neg, abs_of_pos hc,
    abs_of_pos (by linarith), nsmul_eq_mul, Nat.cast_sub (by omega), Nat.cast_one]
  ring

/-- Gaps adding up to a turn are never further from even ones than when they are all in one. -/
theorem sum_le_worst {p : ℝ} (hp : 1 ≤ p) {d : List ℝ} (hn : 2 ≤ d.length) (h0 : ∀ x ∈ d, 0 ≤ x) (hs : d.sum = 2 * π) :
    (d.map fun x => |x - 2 * π / d.length| ^ p).sum ≤ ((worst d.length).map fun x => |x - 2 * π / d.length| ^ p).sum ∧
    ((d.map fun x => |x - 2 * π / d.length| ^ p).sum = ((worst d.length).map fun x => |x - 2 * π / d.length| ^ p).sum → ∀ x ∈ d, x = 0 ∨ x = 2 * π) := by
  have hn' : (2 : ℝ) ≤ d.length := by exact_mod_cast hn
  have hc : 0 < 2 * π / d.length := by positivity
  have hcT : 2 * π / d.length < 2 * π := by rw [div_lt_iff₀ (by linarith)]; nlinarith [pi_pos]
  have hle := le_sum h0
  rw [hs] at hle
  have hch := sum_chord p (2 * π) (2 * π / d.length) d
  rw [hs, div_self (by positivity : (2 : ℝ) * π ≠ 0), one_mul] at hch
  obtain ⟨h1, h2⟩ := sum_le_sum_eq d (fun x => |x - 2 * π / d.length| ^ p) (fun x => x / (2 * π) * (2 * π - 2 * π / d.length) ^ p + (1 - x / (2 * π)) * (2 * π / d.length) ^ p)
    fun x hx => (term_le hp hc hcT (h0 x hx) (hle x hx)).1
  rw [worst_sum hn, ← hch]
  exact ⟨h1, fun he x hx => (term_le hp hc hcT (h0 x hx) (hle x hx)).2 (h2 he x hx)⟩

theorem worst_pos {p : ℝ} {n : Nat} (hn : 2 ≤ n) : 0 < ((worst n).map fun x => |x - 2 * π / n| ^ p).sum := by
  have hn' : (2 : ℝ) ≤ n := by exact_mod_cast hn
  have hc : 0 < 2 * π / n := by positivity
  have hcT : 2 * π / n < 2 * π := by rw [div_lt_iff₀ (by linarith)]; nlinarith [pi_pos]
  rw [worst_sum hn]
  have a1 : 0 < (2 * π - 2 * π / n) ^ p := rpow_pos_of_pos (by linarith) p
  have a2 : 0 < (2 * π / n) ^ p := rpow_pos_of_pos hc p
  have : 0 < ((n : ℝ) - 1) * (2 * π / n) ^ p := mul_pos (by linarith) a2
  linarith

theorem sum_nonneg' (p c : ℝ) (d : List ℝ) : 0 ≤ (d.map fun x => |x - c| ^ p).sum := by
  apply List.sum_nonneg
  intro x hx
  obtain ⟨y, -, rfl⟩ := List.mem_map.1 hx
  positivity

theorem sum_zero {p c : ℝ} (hp : 1 ≤ p) {d : List ℝ} : (d.map fun x => |x - c| ^ p).sum = 0 ↔ ∀ x ∈ d, x = c := by
  constructor
  · intro h x hx
    have := (sum_le_sum_eq d (fun _ => (0 : ℝ)) (fun x => |x - c| ^ p) fun x _ => by positivity).2 (by simp [h]) x hx
    have h0 : |x - c| = 0 := (rpow_eq_zero (abs_nonneg _) (by linarith)).1 this.symm
    rw [abs_eq_zero] at h0
    linarith
  · intro h
    apply List.sum_eq_zero
    intro y hy
    obtain ⟨x, hx, rfl⟩ := List.mem_map.1 hy
    rw [h x hx, sub_self, abs_zero, zero_rpow (by linarith)]

end IMT.Crit
