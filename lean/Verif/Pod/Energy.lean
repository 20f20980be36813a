import Verif.Pod.Model
import Mathlib.Algebra.BigOperators.Field
import Mathlib.Tactic.LinearCombination

/-!
C148, C149: what the reconstruction from a proper orthogonal decomposition gives back; the energies of the modes.
-/

namespace IMT.Pod

open Finset

variable {n : Nat} {P : Type} [Fintype P]

/-! ### modes -/

section
variable {f : Fin n → P → ℝ} {e : Eig n}

theorem mode_dot_snapshot (h : IsEig (corr f) e) (a : Fin e.r) (t : Fin n) : ∑ c, mode f e a c * f t c = evo e a t := by
  have h1 : ∑ c, mode f e a c * f t c = (∑ u, corr f t u * e.vec u a) / √(e.val a) := by
    unfold mode corr
    simp only [Finset.sum_mul, Finset.sum_div]
    rw [Finset.sum_comm]
    apply Finset.sum_congr rfl
    intro u _
    apply Finset.sum_congr rfl
    intro c _
    ring
  rw [h1, h.eig]
  unfold evo
  have hp := h.pos a
  have hs : 0 < √(e.val a) := Real.sqrt_pos.mpr hp
  have hsq : √(e.val a) * √(e.val a) = e.val a := Real.mul_self_sqrt hp.le
  rw [div_eq_iff hs.ne', mul_assoc, hsq]
  ring

theorem mode_orth (h : IsEig (corr f) e) (a b : Fin e.r) : ∑ c, mode f e a c * mode f e b c = if a = b then 1 else 0 := by
  have h1 : ∑ c, mode f e a c * mode f e b c = ∑ t, (∑ c, mode f e a c * f t c) * (e.vec t b / √(e.val b)) := by
    conv_lhs => arg 2; ext c; rw [show mode f e b c = ∑ t, f t c * (e.vec t b / √(e.val b)) from rfl, Finset.mul_sum]
    rw [Finset.sum_comm]
    apply Finset.sum_congr rfl
    intro t _
    rw [Finset.sum_mul]
    apply Finset.sum_congr rfl
    intro c _
    ring
  rw [h1]
  simp only [mode_dot_snapshot h]
  have h2 : ∑ t, evo e a t * (e.vec t b / √(e.val b)) = √(e.val a) / √(e.val b) * ∑ t, e.vec t a * e.vec t b := by
    rw [Finset.mul_sum]
    apply Finset.sum_congr rfl
    intro t _
    unfold evo
    ring
  rw [h2, h.orth]
  split_ifs with hab
  · subst hab
    have hs : 0 < √(e.val a) := Real.sqrt_pos.mpr (h.pos a)
    rw [div_self hs.ne', mul_one]
  · rw [mul_zero]

theorem evo_orth (h : IsEig (corr f) e) (a b : Fin e.r) : ∑ t, evo e a t * evo e b t = if a = b then e.val a else 0 := by
  have h1 : ∑ t, evo e a t * evo e b t = √(e.val a) * √(e.val b) * ∑ t, e.vec t a * e.vec t b := by
    rw [Finset.mul_sum]
    apply Finset.sum_congr rfl
    intro t _
    unfold evo
    ring
  rw [h1, h.orth]
  split_ifs with hab
  · subst hab
    rw [mul_one, Real.mul_self_sqrt (h.pos a).le]
  · rw [mul_zero]

/-- A field minus its components along some modes. -/
theorem residual_one (h : IsEig (corr f) e) (t : Fin n) (W : List (Fin e.r)) (hW : W.Nodup) :
    ∑ c, (f t c - (W.map fun a => mode f e a c * evo e a t).sum) ^ 2 = ∑ c, f t c ^ 2 - (W.map fun a => evo e a t ^ 2).sum := by
  have hdot : ∀ a, ∀ W : List (Fin e.r), a ∉ W → ∑ c, mode f e a c * (W.map fun b => mode f e b c * evo e b t).sum = 0 := by
    intro a W ha
    induction W with
    | nil => simp
    | cons b W ih =>
      simp only [List.map_cons, List.sum_cons, mul_add, Finset.sum_add_distrib]
      rw [ih (fun hb => ha (List.mem_cons_of_mem _ hb)), add_zero]
      have : ∑ c, mode f e a c * (mode f e b c * evo e b t) = (∑ c, mode f e a c * mode f e b c) * evo e b t := by
        rw [Finset.sum_mul]
        apply Finset.sum_congr rfl
        intro c _
        ring
      rw [this, mode_orth h, if_neg (fun hab => ha (by rw [hab]; exact List.mem_cons_self)), zero_mul]
  induction W with
  | nil => simp
  | cons a W ih =>
    obtain ⟨ha, hW'⟩ := List.nodup_cons.mp hW
    have ih := ih hW'
    simp only [List.map_cons, List.sum_cons]
    have hexp : ∀ c, (f t c - (mode f e a c * evo e a t + (W.map fun a => mode f e a c * evo e a t).sum)) ^ 2 =
        (f t c - (W.map fun a => mode f e a c * evo e a t).sum) ^ 2 - 2 * evo e a t * (mode f e a c * f t c) +
          2 * evo e a t * (mode f e a c * (W.map fun a => mode f e a c * evo e a t).sum) +
          evo e a t ^ 2 * (mode f e a c * mode f e a c) := by
      intro c; ring
    simp only [hexp]
    rw [Finset.sum_add_distrib, Finset.sum_add_distrib, Finset.sum_sub_distrib, ← Finset.mul_sum, ← Finset.mul_sum, ← Finset.mul_sum,
      ih, mode_dot_snapshot h, hdot a W ha, mode_orth h]
    simp only [if_true]
    ring

theorem residual_all (h : IsEig (corr f) e) (W : List (Fin e.r)) (hW : W.Nodup) :
    ∑ t, ∑ c, (f t c - (W.map fun a => mode f e a c * evo e a t).sum) ^ 2 = ∑ t, ∑ c, f t c ^ 2 - (W.map e.val).sum := by
  simp only [residual_one h _ W hW, Finset.sum_sub_distrib]
  congr 1
  clear hW
  induction W with
  | nil => simp
  | cons a W ih =>
    simp only [List.map_cons, List.sum_cons, Finset.sum_add_distrib]
    rw [ih]
    congr 1
    have := evo_orth h a a
    simp only [if_true] at this
    rw [← this]
    apply Finset.sum_congr rfl
    intro t _
    ring

end

/-! ### the reconstruction -/

omit [Fintype P] in
theorem interp_own {times : Fin n → ℝ} (hinc : StrictMono times) (g : Fin n → ℝ) (t : Fin n) :
    interp (List.ofFn fun t => (times t, g t)) (times t) = [g t] := by
  have hf : (List.ofFn fun t => (times t, g t)).filter (fun p => p.1 = times t) = [(times t, g t)] := by
    rw [List.ofFn_eq_map, List.filter_map]
    have : (List.finRange n).filter ((fun p : ℝ × ℝ => decide (p.1 = times t)) ∘ fun t => (times t, g t)) =
        (List.finRange n).filter (fun u => u = t) := by
      apply List.filter_congr
      intro u _
      simp [hinc.injective.eq_iff]
    rw [this]
    have h2 : (List.finRange n).filter (fun u => u = t) = [t] := by
      rw [show (fun u => decide (u = t)) = (fun u => u == t) from rfl, List.filter_beq,
        List.count_eq_one_of_mem (List.nodup_finRange n) (List.mem_finRange t)]
      rfl
    rw [h2]
    rfl
  unfold interp
  rw [hf]
  simp

omit [Fintype P] in
theorem pyGet_map {α β : Type} (g : α → β) {l : List α} {i : Int} {a : α} (h : pyGet l i = .ok a) : pyGet (l.map g) i = .ok (g a) := by
  unfold pyGet at *
  rw [List.length_map]
  by_cases h0 : 0 ≤ i
  · simp only [if_pos h0] at *
    rw [List.getElem?_map]
    cases hl : l[i.toNat]? with
    | none => simp [hl] at h
    | some b => simp only [hl] at h; injection h with h; simp [h]
  · simp only [if_neg h0] at *
    by_cases h1 : 0 ≤ (l.length : Int) + i
    · simp only [if_pos h1] at *
      rw [List.getElem?_map]
      cases hl : l[((l.length : Int) + i).toNat]? with
      | none => simp [hl] at h
      | some b => simp only [hl] at h; injection h with h; simp [h]
    · simp [if_neg h1] at h

theorem pyGet_nat {α : Type} {l : List α} {k : Nat} {a : α} (h : l[k]? = some a) : pyGet l (k : Int) = .ok a := by
  unfold pyGet
  simp [h]

/-- The modes of a base obtained from a decomposition. -/
structure Made (s : Fin n → P → ℝ) (ts : Fin n → ℝ) (e : Eig n) (K : List (Fin e.r)) (m : MF P) : Prop where
  mean : m.mean = mean s
  modes : m.modes = K.map (mode (fluct s) e)
  times : m.times = List.ofFn ts
  evos : m.evos = K.map fun a => List.ofFn fun t => (ts t, evo e a t)
  ne : K ≠ []

omit [Fintype P] in
theorem addModes_made {s : Fin n → P → ℝ} {times : Fin n → ℝ} {e : Eig n} {K : List (Fin e.r)} {m : MF P}
    (M : Made s times e K m) (hinc : StrictMono times) {is : List Int} {as : List (Fin e.r)}
    (h : List.Forall₂ (fun i a => pyGet K i = .ok a) is as) : ∀ g : Fin n → P → ℝ,
    addModes m is (List.ofFn fun t => (times t, g t)) =
      .ok (List.ofFn fun t => (times t, fun c => g t c + (as.map fun a => mode (fluct s) e a c * evo e a t).sum)) := by
  induction h with
  | nil => intro g; simp [addModes]
  | @cons i a is as hi _ ih =>
    intro g
    have h1 : pyGet m.modes i = .ok (mode (fluct s) e a) := by rw [M.modes]; exact pyGet_map _ hi
    have h2 : pyGet m.evos i = .ok (List.ofFn fun t => (times t, evo e a t)) := by
      rw [M.evos]; exact pyGet_map (fun a => List.ofFn fun t => (times t, evo e a t)) hi
    have h3 : addMode m i (List.ofFn fun t => (times t, g t)) =
        .ok (List.ofFn fun t => (times t, fun c => g t c + mode (fluct s) e a c * evo e a t)) := by
      unfold addMode
      rw [h1, h2]
      simp only
      rw [if_neg]
      · congr 1
        rw [List.map_ofFn]
        congr 1
        funext t
        simp only [Function.comp, interp_own hinc]
        rfl
      · rintro ⟨p, hp, he⟩
        obtain ⟨t, rfl⟩ := (List.mem_ofFn' _ _).mp hp
        rw [interp_own hinc] at he
        exact absurd he (by simp)
    rw [addModes, h3]
    simp only
    rw [ih]
    congr 1
    congr 1
    funext t
    congr 1
    funext c
    simp only [List.map_cons, List.sum_cons]
    ring

omit [Fintype P] in
theorem made_decomposition {s : Fin n → P → ℝ} {times : Fin n → ℝ} {e : Eig n} {w : Wanted} {m : MF P}
    (h : decomposition s times e w = .ok m) : ∃ l, w.ofDecomp n = .ok l ∧ Made s times e (existing e.r l) m := by
  unfold decomposition at h
  split at h
  · simp at h
  · rename_i l hl
    split_ifs at h with h0
    · injection h with h
      exact ⟨l, hl, by rw [← h], by rw [← h], by rw [← h], by rw [← h], h0⟩

omit [Fintype P] in
theorem forall_all {r : Nat} (K : List (Fin r)) :
    List.Forall₂ (fun i a => pyGet K i = .ok a) ((List.range K.length).map fun (i : Nat) => (i : Int)) K := by
  rw [List.forall₂_iff_get]
  refine ⟨by simp, ?_⟩
  intro i h1 h2
  simp only [List.get_eq_getElem, List.getElem_map, List.getElem_range]
  exact pyGet_nat (by rw [List.getElem?_eq_getElem (by simpa using h2)])

omit [Fintype P] in
theorem inTimes_self (l : List ℝ) : inTimes l l := fun t ht => ⟨⟨t, ht, le_rfl⟩, t, ht, le_rfl⟩

omit [Fintype P] in
theorem reconstruct_made {s : Fin n → P → ℝ} {times : Fin n → ℝ} {e : Eig n} {K : List (Fin e.r)} {m : MF P} (hn : 0 < n)
    (M : Made s times e K m) (hinc : StrictMono times) {w : Wanted} {is : List Int} (hw : w.ofRecon K.length = .ok is)
    {as : List (Fin e.r)} (h : List.Forall₂ (fun i a => pyGet K i = .ok a) is as) :
    reconstruct m w none =
      .ok (List.ofFn fun t => (times t, fun c => mean s c + (as.map fun a => mode (fluct s) e a c * evo e a t).sum)) := by
  have hl : m.modes.length = K.length := by rw [M.modes, List.length_map]
  have hne : m.modes ≠ [] := by rw [M.modes]; simpa using M.ne
  have ht : List.ofFn times ≠ [] := by
    intro h
    have := congrArg List.length h
    simp at this
    omega
  unfold reconstruct
  rw [hl, hw]
  simp only [Option.getD_none, M.times]
  rw [if_neg ht, if_neg (not_not.mpr (inTimes_self _)), if_neg hne, ← addModes_made M hinc h (fun _ => mean s), List.map_ofFn, M.mean]
  rfl

omit [Fintype P] in
theorem existing_range {r n : Nat} (h : r ≤ n) : existing r (List.range n) = List.finRange r := by
  unfold existing
  obtain ⟨k, rfl⟩ : ∃ k, n = r + k := ⟨n - r, by omega⟩
  rw [List.range_add, List.filterMap_append]
  have h2 : (List.map (fun x => r + x) (List.range k)).filterMap (fun a => if h : a < r then some (⟨a, h⟩ : Fin r) else none) = [] := by
    rw [List.filterMap_eq_nil_iff]
    intro a ha
    obtain ⟨b, _, rfl⟩ := List.mem_map.mp ha
    rw [dif_neg (by omega)]
  rw [h2, List.append_nil, ← List.map_coe_finRange_eq_range, List.filterMap_map]
  have : (fun a => if h : a < r then some (⟨a, h⟩ : Fin r) else none) ∘ (fun a : Fin r => (a : Nat)) = some := by
    funext a
    simp
  rw [this, List.filterMap_some]

omit [Fintype P] in
/-- There are at most as many orthonormal eigenvectors as fields. -/
theorem IsEig.le {C : Fin n → Fin n → ℝ} {e : Eig n} (h : IsEig C e) : e.r ≤ n := by
  have bessel : ∀ t, ∑ a, e.vec t a ^ 2 ≤ 1 := by
    intro t
    have h0 : 0 ≤ ∑ u, ((if u = t then (1 : ℝ) else 0) - ∑ a, e.vec t a * e.vec u a) ^ 2 := Finset.sum_nonneg fun _ _ => sq_nonneg _
    have h1 : ∀ u, ((if u = t then (1 : ℝ) else 0) - ∑ a, e.vec t a * e.vec u a) ^ 2 =
        (if u = t then (1 : ℝ) else 0) - 2 * (if u = t then ∑ a, e.vec t a * e.vec u a else 0) +
          (∑ a, e.vec t a * e.vec u a) * ∑ b, e.vec t b * e.vec u b := by
      intro u; split_ifs <;> ring
    simp only [h1, Finset.sum_add_distrib, Finset.sum_sub_distrib, ← Finset.mul_sum, Finset.sum_ite_eq', Finset.mem_univ, if_true] at h0
    have h2 : ∑ u, (∑ a, e.vec t a * e.vec u a) * ∑ b, e.vec t b * e.vec u b = ∑ a, e.vec t a ^ 2 := by
      have h3 : ∀ u, (∑ a, e.vec t a * e.vec u a) * ∑ b, e.vec t b * e.vec u b =
          ∑ a, ∑ b, e.vec t a * e.vec t b * (e.vec u a * e.vec u b) := by
        intro u
        rw [Finset.sum_mul_sum]
        apply Finset.sum_congr rfl; intro a _
        apply Finset.sum_congr rfl; intro b _
        ring
      simp only [h3]
      rw [Finset.sum_comm]
      apply Finset.sum_congr rfl; intro a _
      rw [Finset.sum_comm]
      simp only [← Finset.mul_sum, h.orth, mul_ite, mul_one, mul_zero, Finset.sum_ite_eq, Finset.mem_univ, if_true]
      ring
    rw [h2] at h0
    have h4 : ∑ a, e.vec t a * e.vec t a = ∑ a, e.vec t a ^ 2 := by
      apply Finset.sum_congr rfl; intro a _; ring
    rw [h4] at h0
    linarith
  have h5 : (e.r : ℝ) ≤ n := by
    have h6 : ∑ a, ∑ t, e.vec t a ^ 2 = (e.r : ℝ) := by
      have : ∀ a, ∑ t, e.vec t a ^ 2 = 1 := by
        intro a
        have := h.orth a a
        simp only [if_true] at this
        rw [← this]
        apply Finset.sum_congr rfl; intro t _; ring
      simp [this]
    rw [← h6, Finset.sum_comm]
    calc ∑ t, ∑ a, e.vec t a ^ 2 ≤ ∑ _t : Fin n, (1 : ℝ) := Finset.sum_le_sum fun t _ => bessel t
      _ = n := by simp
  exact_mod_cast h5

/-! ### C148 -/

/-- Reconstructing a decomposition with any choice of distinct modes: the fields have the times of the originals, and the squared
differences with the originals, summed over all fields and cells, are what remains of the squared fluctuations once the
eigenvalues of the chosen modes are taken away. -/
theorem C148_residual (s : Fin n → P → ℝ) (times : Fin n → ℝ) (hinc : StrictMono times) (hn : 0 < n) (e : Eig n)
    (he : IsEig (corr (fluct s)) e) (m : MF P) (hm : decomposition s times e .all = .ok m)
    (W : List (Fin e.r)) (hW : W.Nodup) (hne : W ≠ []) :
    ∃ rec : Fin n → P → ℝ, reconstruct m (.list (W.map fun a : Fin e.r => ((a : Nat) : Int))) none = .ok (List.ofFn fun t => (times t, rec t)) ∧
      ∑ t, ∑ c, (s t c - rec t c) ^ 2 = ∑ t, ∑ c, (s t c - mean s c) ^ 2 - (W.map e.val).sum := by
  obtain ⟨l, hl, M⟩ := made_decomposition hm
  have hl' : l = List.range n := by unfold Wanted.ofDecomp at hl; injection hl with hl; exact hl.symm
  rw [hl', existing_range he.le] at M
  have hfor : List.Forall₂ (fun i a => pyGet (List.finRange e.r) i = .ok a) (W.map fun a : Fin e.r => ((a : Nat) : Int)) W := by
    clear hne hW
    induction W with
    | nil => exact List.Forall₂.nil
    | cons a W ih =>
      refine List.Forall₂.cons ?_ ih
      exact pyGet_nat (by simp)
  have hw : (Wanted.list (W.map fun a : Fin e.r => ((a : Nat) : Int))).ofRecon (List.finRange e.r).length = .ok (W.map fun a : Fin e.r => ((a : Nat) : Int)) := by
    unfold Wanted.ofRecon
    simp only
    rw [if_neg (by rw [List.map_eq_nil_iff]; exact hne), if_neg]
    rintro ⟨i, hi, hgt⟩
    obtain ⟨a, _, rfl⟩ := List.mem_map.mp hi
    have : (a : Nat) < e.r := a.isLt
    simp only [List.length_finRange] at hgt
    omega
  refine ⟨_, reconstruct_made hn M hinc hw hfor, ?_⟩
  rw [show ∑ t, ∑ c, (s t c - mean s c) ^ 2 = ∑ t, ∑ c, fluct s t c ^ 2 from rfl, ← residual_all he W hW]
  apply Finset.sum_congr rfl
  intro t _
  apply Finset.sum_congr rfl
  intro c _
  simp only [fluct]
  ring

/-- When the eigenvalues that `modred` keeps hold all the fluctuations, reconstructing with all the modes gives back each field. -/
theorem C148_all (s : Fin n → P → ℝ) (times : Fin n → ℝ) (hinc : StrictMono times) (hn : 0 < n) (e : Eig n)
    (he : IsEig (corr (fluct s)) e) (m : MF P) (hm : decomposition s times e .all = .ok m)
    (hall : ∑ t, ∑ c, (s t c - mean s c) ^ 2 = ∑ a, e.val a) :
    reconstruct m .all none = .ok (List.ofFn fun t => (times t, s t)) := by
  obtain ⟨l, hl, M⟩ := made_decomposition hm
  have hl' : l = List.range n := by unfold Wanted.ofDecomp at hl; injection hl with hl; exact hl.symm
  rw [hl', existing_range he.le] at M
  have h2 := residual_all he (List.finRange e.r) (List.nodup_finRange _)
  rw [reconstruct_made hn M hinc rfl (forall_all _)]
  rw [show ∑ t, ∑ c, fluct s t c ^ 2 = ∑ t, ∑ c, (s t c - mean s c) ^ 2 from rfl] at h2
  have hsum : ((List.finRange e.r).map e.val).sum = ∑ a, e.val a := by
    rw [← List.ofFn_eq_map, List.sum_ofFn]
  rw [hall, hsum, sub_self] at h2
  have hz : ∀ t c, fluct s t c - ((List.finRange e.r).map fun a => mode (fluct s) e a c * evo e a t).sum = 0 := by
    intro t c
    have h3 := (Finset.sum_eq_zero_iff_of_nonneg (fun t _ => Finset.sum_nonneg fun c _ => sq_nonneg _)).mp h2 t (Finset.mem_univ t)
    have h4 := (Finset.sum_eq_zero_iff_of_nonneg (fun c _ => sq_nonneg _)).mp h3 c (Finset.mem_univ c)
    exact pow_eq_zero_iff (two_ne_zero) |>.mp h4
  congr 2
  funext t
  congr 1
  funext c
  have := hz t c
  have hf : fluct s t c = s t c - mean s c := rfl
  linarith

/-- Two fields of one cell, and their decomposition, meet the hypotheses. -/
example :
    let s : Fin 2 → Unit → ℝ := fun t _ => if t = 0 then 1 else 3
    let e : Eig 2 := ⟨1, fun _ => 2, fun t _ => if t = 0 then -(1 / √2) else 1 / √2⟩
    StrictMono (fun t : Fin 2 => (t : ℝ)) ∧ IsEig (corr (fluct s)) e ∧
      (∃ m, decomposition s (fun t : Fin 2 => (t : ℝ)) e .all = .ok m) ∧
      ∑ t, ∑ c, (s t c - mean s c) ^ 2 = ∑ a, e.val a := by
  intro s e
  have h2 : √2 * √2 = (2 : ℝ) := Real.mul_self_sqrt (by norm_num)
  have hne : √2 ≠ (0 : ℝ) := by intro h; rw [h] at h2; norm_num at h2
  have hm : ∀ c, mean s c = 2 := by intro c; simp [mean, s, Fin.sum_univ_two]; norm_num
  have hf0 : ∀ c, fluct s 0 c = -1 := by intro c; simp [fluct, hm, s]; norm_num
  have hf1 : ∀ c, fluct s 1 c = 1 := by intro c; simp [fluct, hm, s]; norm_num
  refine ⟨?_, ⟨?_, ?_, ?_⟩, ?_, ?_⟩
  · intro a b h; simpa using h
  · intro a b
    have : a = b := Subsingleton.elim (α := Fin 1) a b
    rw [if_pos this, Fin.sum_univ_two]
    simp only [e]
    field_simp
    simp
    nlinarith
  · intro a t
    rw [Fin.sum_univ_two]
    match t with
    | 0 => simp [corr, hf0, hf1, e]; ring
    | 1 => simp [corr, hf0, hf1, e]; ring
  · intro a; simp [e]
  · have hex : existing e.r (List.range 2) ≠ [] := by
      rw [existing_range (show e.r ≤ 2 by simp [e])]
      show List.finRange 1 ≠ []
      decide
    unfold decomposition Wanted.ofDecomp
    simp only
    rw [if_neg hex]
    exact ⟨_, rfl⟩
  · rw [Fin.sum_univ_two]
    simp [hm, s, e]
    norm_num

/-! ### C149 -/

/-- What is in the base of a decomposition with all modes. -/
theorem all_made {s : Fin n → P → ℝ} {times : Fin n → ℝ} {e : Eig n} (he : IsEig (corr (fluct s)) e) {m : MF P}
    (hm : decomposition s times e .all = .ok m) :
    Made s times e (List.finRange e.r) m ∧ m.eigvals = (List.finRange e.r).map e.val := by
  obtain ⟨l, hl, M⟩ := made_decomposition hm
  have hl' : l = List.range n := by unfold Wanted.ofDecomp at hl; injection hl with hl; exact hl.symm
  rw [hl', existing_range he.le] at M
  refine ⟨M, ?_⟩
  unfold decomposition at hm
  rw [hl] at hm
  simp only at hm
  split_ifs at hm
  injection hm with hm
  rw [← hm, hl', existing_range he.le]

/-- The modes of the base are orthonormal. -/
theorem C149_orthonormal (s : Fin n → P → ℝ) (times : Fin n → ℝ) (e : Eig n) (he : IsEig (corr (fluct s)) e) (m : MF P)
    (hm : decomposition s times e .all = .ok m) (i j : Nat) (φ ψ : P → ℝ) (hi : m.modes[i]? = some φ) (hj : m.modes[j]? = some ψ) :
    ∑ c, φ c * ψ c = if i = j then 1 else 0 := by
  obtain ⟨M, _⟩ := all_made he hm
  rw [M.modes, List.getElem?_map] at hi hj
  obtain ⟨a, ha, rfl⟩ := Option.map_eq_some_iff.mp hi
  obtain ⟨b, hb, rfl⟩ := Option.map_eq_some_iff.mp hj
  rw [mode_orth he]
  obtain ⟨h1, h2⟩ := List.getElem?_eq_some_iff.mp ha
  obtain ⟨h3, h4⟩ := List.getElem?_eq_some_iff.mp hb
  simp only [List.getElem_finRange] at h2 h4
  have : a = b ↔ i = j := by
    rw [← h2, ← h4]
    simp
  simp only [this]

/-- The evolutions of two modes are uncorrelated; the squares of one add up to its eigenvalue. -/
theorem C149_evolutions (s : Fin n → P → ℝ) (times : Fin n → ℝ) (e : Eig n) (he : IsEig (corr (fluct s)) e) (m : MF P)
    (hm : decomposition s times e .all = .ok m) (i j : Nat) (p q : List (ℝ × ℝ)) (v : ℝ) (hi : m.evos[i]? = some p)
    (hj : m.evos[j]? = some q) (hv : m.eigvals[i]? = some v) :
    (List.zipWith (fun a b => a.2 * b.2) p q).sum = (if i = j then v else 0) ∧ p.map Prod.fst = m.times ∧ (p.map Prod.snd).sum = 0 := by
  obtain ⟨M, hE⟩ := all_made he hm
  rw [M.evos, List.getElem?_map] at hi hj
  rw [hE, List.getElem?_map] at hv
  obtain ⟨a, ha, rfl⟩ := Option.map_eq_some_iff.mp hi
  obtain ⟨b, hb, rfl⟩ := Option.map_eq_some_iff.mp hj
  obtain ⟨a', ha', rfl⟩ := Option.map_eq_some_iff.mp hv
  rw [ha] at ha'
  injection ha' with ha'
  subst ha'
  obtain ⟨h1, h2⟩ := List.getElem?_eq_some_iff.mp ha
  obtain ⟨h3, h4⟩ := List.getElem?_eq_some_iff.mp hb
  simp only [List.getElem_finRange] at h2 h4
  have hab : a = b ↔ i = j := by
    rw [← h2, ← h4]
    simp
  refine ⟨?_, ?_, ?_⟩
  · have e1 : List.zipWith (fun a b : ℝ × ℝ => a.2 * b.2) (List.ofFn fun t => (times t, evo e a t)) (List.ofFn fun t => (times t, evo e b t)) =
        List.ofFn fun t => evo e a t * evo e b t := by
      rw [List.ofFn_eq_map, List.ofFn_eq_map, List.ofFn_eq_map, List.zipWith_map, List.zipWith_self]
    rw [e1, List.sum_ofFn, evo_orth he]
    simp only [hab]
  · rw [M.times, List.map_ofFn]; rfl
  · rw [List.map_ofFn, List.sum_ofFn]
    show ∑ t, evo e a t = 0
    by_cases hn : n = 0
    · subst hn; simp
    have h5 : ∀ c, ∑ t, fluct s t c = 0 := by
      intro c
      simp only [fluct, Finset.sum_sub_distrib, mean]
      have : (n : ℝ) ≠ 0 := by exact_mod_cast hn
      simp
      field_simp
      simp
    have h6 : ∑ t, evo e a t = ∑ c, mode (fluct s) e a c * ∑ t, fluct s t c := by
      simp only [← mode_dot_snapshot he, Finset.mul_sum]
      rw [Finset.sum_comm]
    rw [h6]
    simp [h5]

/-- The energy given for each mode is its eigenvalue over twice the number of points and of fields; together they are the mean
energy of the fluctuations when the eigenvalues hold all of them. -/
theorem C149_energies (s : Fin n → P → ℝ) (times : Fin n → ℝ) (e : Eig n) (he : IsEig (corr (fluct s)) e) (m : MF P)
    (hm : decomposition s times e .all = .ok m) (cells : Nat) :
    energies cells m = m.eigvals.map (fun v : ℝ => v / (2 * cells * n)) ∧
    (∑ t, ∑ c, (s t c - mean s c) ^ 2 = ∑ a, e.val a →
      (energies cells m).sum = (∑ t, (∑ c, 1 / 2 * (s t c - mean s c) ^ 2) / (cells : ℝ)) / (n : ℝ)) := by
  obtain ⟨M, hE⟩ := all_made he hm
  have h1 : energies cells m = m.eigvals.map (fun v : ℝ => v / (2 * cells * n)) := by
    unfold energies
    rw [M.modes, M.evos, hE, List.zipWith_map, List.zipWith_self, List.map_map]
    apply List.map_congr_left
    intro a _
    have h2 := mode_orth he a a
    have h3 := evo_orth he a a
    simp only [if_true] at h2 h3
    have h4 : ∑ c, 1 / 2 * mode (fluct s) e a c ^ 2 = 1 / 2 := by
      rw [← Finset.mul_sum]
      have : ∑ c, mode (fluct s) e a c ^ 2 = 1 := by
        rw [← h2]; apply Finset.sum_congr rfl; intro c _; ring
      rw [this]; ring
    rw [h4, List.map_ofFn, List.sum_ofFn, List.length_ofFn]
    have h5 : ∑ t, ((fun p : ℝ × ℝ => p.2 ^ 2) ∘ fun t => (times t, evo e a t)) t = e.val a := by
      rw [← h3]; apply Finset.sum_congr rfl; intro t _; simp only [Function.comp]; ring
    rw [h5]
    simp only [Function.comp]
    rw [div_div, div_mul_div_comm, one_mul]
  refine ⟨h1, fun hall => ?_⟩
  rw [h1, hE, List.map_map, ← List.ofFn_eq_map, List.sum_ofFn]
  simp only [Function.comp, ← Finset.sum_div, ← Finset.mul_sum]
  rw [hall, div_div, mul_comm (1 / 2 : ℝ), mul_one_div, div_div]
  congr 1
  ring

/-! ### wanted modes -/

/-- Modes that cannot exist are refused: negative ones, and those beyond the number of fields. -/
theorem C148_wanted (s : Fin n → P → ℝ) (times : Fin n → ℝ) (e : Eig n) (l : List Int) (i : Int) (hi : i ∈ l) (h : i < 0 ∨ (n : Int) < i) :
    decomposition s times e (.list l) = .error .valueError := by
  have hne : l ≠ [] := List.ne_nil_of_mem hi
  have hex : (∃ i ∈ l, i < 0) ∨ (∃ i ∈ l, (n : Int) < i) := h.imp (fun h => ⟨i, hi, h⟩) fun h => ⟨i, hi, h⟩
  unfold decomposition Wanted.ofDecomp
  simp only [if_neg hne, if_pos hex]

/-- The mode just beyond the last one is not refused: it is missing in the base. -/
theorem C148_wanted_violated (s : Fin n → P → ℝ) (times : Fin n → ℝ) (e : Eig n) (h0 : 0 < e.r) (hr : e.r ≤ n) :
    ∃ m, decomposition s times e (.list [0, n]) = .ok m ∧ m.nmb = [0] := by
  have hex : existing e.r [0, n] = [⟨0, h0⟩] := by
    unfold existing
    simp [h0, Nat.not_lt.2 hr]
  have hok : Wanted.ofDecomp n (.list [0, (n : Int)]) = .ok [0, n] := by
    simp only [Wanted.ofDecomp]
    rw [if_neg (by simp), if_neg (by simp)]
    simp
  unfold decomposition
  rw [hok]
  simp only [hex]
  rw [if_neg (by simp)]
  exact ⟨_, rfl, rfl⟩

end IMT.Pod
