import Verif.Reshape.Even
import Mathlib.Algebra.BigOperators.NatAntidiagonal

/-! Convolution of profiles: C231. -/

namespace IMT.Reshape

open IMT.Profile

variable {srt : List Rat → List Nat} {p q : Prof}

/-- Specification: value of a list of measured values at an index, 0 outside of the list (and for masked values). -/
def ext (l : List F) (i : Nat) : Rat := ((l[i]?).getD none).getD 0

/-- Specification: the discrete convolution of two sequences. -/
def conv (a b : Nat → Rat) (n : Nat) : Rat := ∑ ij ∈ Finset.antidiagonal n, a ij.1 * b ij.2

theorem conv_comm (a b : Nat → Rat) (n : Nat) : conv a b n = conv b a n := by
  unfold conv
  rw [← Finset.Nat.sum_antidiagonal_swap]
  exact Finset.sum_congr rfl fun ij _ => mul_comm _ _

/-- The term of the sum. -/
def term (a b : List F) (n k : Nat) : F := mulF (a.getD k none) (b.getD (n - k) none)

theorem fold_spec (g : Nat → F) (L : List Nat) :
    L.foldr (fun k s => addF (g k) s) (some 0) =
      if ∃ k ∈ L, g k = none then none else some ((L.map fun k => (g k).getD 0).sum) := by
  induction L with
  | nil => simp
  | cons k L ih =>
    rw [List.foldr_cons, ih]
    cases hk : g k with
    | none => simp [hk, addF]
    | some v =>
      by_cases hL : ∃ k ∈ L, g k = none
      · rw [if_pos hL, if_pos (by obtain ⟨j, h1, h2⟩ := hL; exact ⟨j, by simp [h1], h2⟩)]
        rfl
      · rw [if_neg hL, if_neg (by rintro ⟨j, h1, h2⟩
                                  rcases List.mem_cons.1 h1 with rfl | h1
                                  · rw [hk] at h2; cases h2
                                  · exact hL ⟨j, h1, h2⟩)]
        simp [addF, hk]

theorem mulF_none {a b : F} : mulF a b = none ↔ a = none ∨ b = none := by
  cases a <;> cases b <;> simp [mulF]

/-- A value of the convolution is masked exactly when one of the products that make it is. -/
theorem convAt_none (a b : List F) (n : Nat) :
    convAt a b n = none ↔ ∃ i j : Nat, i + j = n ∧ ∃ v w, a[i]? = some v ∧ b[j]? = some w ∧ (v = none ∨ w = none) := by
  unfold convAt
  rw [fold_spec fun k => mulF (a.getD k none) (b.getD (n - k) none)]
  constructor
  · intro h
    split at h
    · rename_i hk
      obtain ⟨k, hk, hn⟩ := hk
      rw [List.mem_filter, List.mem_range] at hk
      obtain ⟨h1, h2⟩ := hk
      have h2 := of_decide_eq_true h2
      refine ⟨k, n - k, by omega, a[k], b[n - k], List.getElem?_eq_getElem h2.1, List.getElem?_eq_getElem h2.2, ?_⟩
      rw [mulF_none] at hn
      simpa [List.getD_eq_getElem?_getD, List.getElem?_eq_getElem h2.1, List.getElem?_eq_getElem h2.2] using hn
    · cases h
  · rintro ⟨i, j, rfl, v, w, h1, h2, h3⟩
    rw [if_pos]
    refine ⟨i, ?_, ?_⟩
    · rw [List.mem_filter, List.mem_range]
      refine ⟨by omega, decide_eq_true ⟨getElem?_some_lt h1, ?_⟩⟩
      rw [Nat.add_sub_cancel_left]
      exact getElem?_some_lt h2
    · rw [Nat.add_sub_cancel_left, mulF_none]
      simpa [List.getD_eq_getElem?_getD, h1, h2] using h3

theorem sum_filter_range (f : Nat → Rat) (P : Nat → Bool) (n : Nat) (h : ∀ k, k < n → P k = false → f k = 0) :
    (((List.range n).filter P).map f).sum = ∑ k ∈ Finset.range n, f k := by
  induction n with
  | zero => simp
  | succ n ih =>
    have ih := ih fun k hk => h k (by omega)
    rw [List.range_succ, List.filter_append, List.map_append, List.sum_append, ih, Finset.sum_range_succ]
    cases hP : P n with
    | true => simp [hP]
    | false => simp [hP, h n (by omega) hP]

theorem convAt_value {a b : List F} {n : Nat} {v : Rat} (h : convAt a b n = some v) : v = conv (ext a) (ext b) n := by
  have hnn : ¬ ∃ i j : Nat, i + j = n ∧ ∃ v w, a[i]? = some v ∧ b[j]? = some w ∧ (v = none ∨ w = none) := by
    rw [← convAt_none, h]; simp
  unfold convAt at h
  rw [fold_spec fun k => mulF (a.getD k none) (b.getD (n - k) none)] at h
  split at h
  · cases h
  · have h := Option.some.inj h
    rw [← h]
    unfold conv
    rw [Finset.Nat.sum_antidiagonal_eq_sum_range_succ fun i j => ext a i * ext b j, sum_filter_range]
    · refine Finset.sum_congr rfl fun k hk => ?_
      have hk : k < n + 1 := Finset.mem_range.1 hk
      unfold ext
      rw [List.getD_eq_getElem?_getD, List.getD_eq_getElem?_getD]
      cases h1 : (a[k]?).getD none with
      | none => simp [mulF]
      | some v => cases h2 : (b[n - k]?).getD none <;> simp [mulF]
    · intro k hk hP
      have hP := of_decide_eq_false hP
      rw [List.getD_eq_getElem?_getD, List.getD_eq_getElem?_getD]
      by_cases h1 : k < a.length
      · rw [List.getElem?_eq_none (l := b) (by by_contra hc; exact hP ⟨h1, by omega⟩)]
        cases (a[k]?).getD none <;> rfl
      · rw [List.getElem?_eq_none (l := a) (by omega)]
        rfl

theorem convAt_comm (a b : List F) (n : Nat) : convAt a b n = convAt b a n := by
  cases h : convAt a b n with
  | none =>
    symm
    rw [convAt_none] at h ⊢
    obtain ⟨i, j, e, v, w, h1, h2, h3⟩ := h
    exact ⟨j, i, by omega, w, v, h2, h1, h3.symm⟩
  | some v =>
    cases h' : convAt b a n with
    | none =>
      rw [convAt_none] at h'
      obtain ⟨i, j, e, v, w, h1, h2, h3⟩ := h'
      have : convAt a b n = none := (convAt_none a b n).2 ⟨j, i, by omega, w, v, h2, h1, h3.symm⟩
      rw [this] at h; cases h
    | some w => rw [convAt_value h, convAt_value h', conv_comm]

theorem convolve_comm (a b : List F) (m : Mode) : convolve a b m = convolve b a m := by
  cases m <;> simp only [convolve]
  · rw [Nat.add_comm, show convAt a b = convAt b a from funext fun n => convAt_comm a b n]
  · simp only [Nat.max_comm a.length, Nat.min_comm a.length, convAt_comm a b]
  · simp only [Nat.max_comm a.length, Nat.min_comm a.length, convAt_comm a b]

/-- Specification: number of values and index of the first one in the full convolution of sequences of `n` and `m`
elements, as in the documentation. -/
def size (n m : Nat) : Mode → Nat
  | .full => n + m - 1
  | .same => max n m
  | .valid => max n m - min n m + 1

def offset (n m : Nat) : Mode → Nat
  | .full => 0
  | .same => (min n m - 1) / 2
  | .valid => min n m - 1

theorem convolve_length (a b : List F) (m : Mode) : (convolve a b m).length = size a.length b.length m := by
  cases m <;> simp [convolve, size]

theorem convolve_get (a b : List F) (m : Mode) (i : Nat) (h : i < size a.length b.length m) :
    (convolve a b m)[i]? = some (convAt a b (i + offset a.length b.length m)) := by
  cases m <;> simp only [size] at h <;> simp only [convolve, offset] <;>
    rw [List.getElem?_map, List.getElem?_range h] <;> rfl

/-- Specification: the abscissae go by equal steps. -/
def Steps (x : List Rat) (s : Rat) : Prop := ∀ (i : Nat) (a b : Rat), x[i]? = some a → x[i + 1]? = some b → b - a = s

theorem step_of {x : List Rat} {s : Rat} (h2 : 2 ≤ x.length) (h : Steps x s) : step x = s ∧ ∀ d ∈ steps x, d = s := by
  constructor
  · rcases x with _ | ⟨a, _ | ⟨b, x⟩⟩
    · simp at h2
    · simp at h2
    · simp only [step, steps, List.head?_cons, Option.getD_some]
      exact h 0 a b rfl rfl
  · intro d hd
    obtain ⟨i, a, b, h1, h2, rfl⟩ := (mem_steps x d).1 hd
    exact h i a b h1 h2

theorem sum_nonneg_of {x : List Rat} (h : ∀ a ∈ x, 0 ≤ a) : 0 ≤ x.sum := List.sum_nonneg h

theorem inc_head_le {x : List Rat} (hi : Inc x) {a : Rat} (ha : x[0]? = some a) : ∀ b ∈ x, a ≤ b := by
  intro b hb
  obtain ⟨j, hj⟩ := List.mem_iff_getElem?.1 hb
  rcases Nat.eq_zero_or_pos j with rfl | h0
  · rw [ha] at hj; exact le_of_eq (Option.some.inj hj)
  · exact (Path.inc_get.1 hi 0 j a b ha hj h0).le

/-- The tests pass on even axes that start at 0 or later. -/
theorem tests_pass {x : List Rat} {s : Rat} (hi : Inc x) (h2 : 2 ≤ x.length) (h : Steps x s) (h0 : ∀ a ∈ x, 0 ≤ a) :
    evenSelf x = true ∧ evenOther x = true := by
  obtain ⟨e1, e2⟩ := step_of h2 h
  rcases x with _ | ⟨a, _ | ⟨b, x⟩⟩
  · simp at h2
  · simp at h2
  have hab : a < b := (inc_cons hi).1 b (by simp)
  have ha := h0 a (by simp)
  constructor
  · unfold evenSelf
    rw [List.all_eq_true]
    intro d hd
    rw [e2 d hd, e1, sub_self]
    apply decide_eq_true
    have hl : 0 < ((a :: b :: x).getLast?).getD 0 := by
      rw [List.getLast?_eq_some_getLast (by simp), Option.getD_some]
      have hm : (a :: b :: x).getLast (by simp) ∈ b :: x := by
        rw [List.getLast_cons (by simp)]
        exact List.getLast_mem _
      have := (inc_cons hi).1 _ hm
      linarith
    linarith
  · unfold evenOther
    rw [List.all_eq_true]
    intro d hd
    rw [e2 d hd]
    apply decide_eq_true
    have hs : b - a = s := h 0 a b rfl rfl
    simp only [List.getElem?_cons_succ, List.getElem?_cons_zero, Option.getD_some]
    have hsum : 0 < (a :: b :: x).sum := by
      rw [List.sum_cons, List.sum_cons]
      have := sum_nonneg_of (x := x) fun c hc => h0 c (by simp [hc])
      linarith
    have hlen : (0 : Rat) < ((a :: b :: x).length : Nat) := by
      have : 0 < (a :: b :: x).length := by simp
      exact_mod_cast this
    have := div_pos hsum hlen
    linarith

/-- C231: the convolution of two profiles of the same step holds the discrete convolutions of their values, as many as the
mode says, at multiples of the step, in the product of the units; a value is masked exactly when a masked value takes part in
it. -/
theorem C231_convolution_partial (hs : IsArgsort srt) (hp : Valid p) (hq : Valid q) (ip : Inc p.x) (iq : Inc q.x)
    (np : 2 ≤ p.x.length) (nq : 2 ≤ q.x.length) {s : Rat} (sp : Steps p.x s) (sq : Steps q.x s)
    (pp : ∀ a ∈ p.x, 0 ≤ a) (pq : ∀ a ∈ q.x, 0 ≤ a) (hu : p.ux = q.ux) (m : Mode) :
    ∃ r, convolution srt p q m = .ok r ∧ Valid r ∧ r.ux = p.ux ∧ r.uy = p.uy.mul q.uy ∧
      r.x.length = size p.x.length q.x.length m ∧
      ∀ i, i < size p.x.length q.x.length m → ∃ v, (pts r)[i]? = some ((i : Rat) * s, v) ∧
        (∀ w, v = some w → w = conv (ext p.y) (ext q.y) (i + offset p.x.length q.x.length m)) ∧
        (v = none ↔ ∃ j k : Nat, j + k = i + offset p.x.length q.x.length m ∧
          ∃ a b, p.y[j]? = some a ∧ q.y[k]? = some b ∧ (a = none ∨ b = none)) := by
  obtain ⟨e1, -⟩ := step_of np sp
  obtain ⟨e2, -⟩ := step_of nq sq
  have hs0 : 0 < s := by
    rw [← sp 0 _ _ (List.getElem?_eq_getElem (by omega)) (List.getElem?_eq_getElem (by omega))]
    have := Path.inc_get.1 ip 0 1 _ _ (List.getElem?_eq_getElem (by omega)) (List.getElem?_eq_getElem (by omega)) (by omega)
    linarith
  have hlen : (convolve (getY p) (getY q) m).length = size p.x.length q.x.length m := by
    rw [convolve_length, getY_valid hp, getY_valid hq, hp.1, hq.1]
  have hinc : Inc ((List.range (convolve (getY p) (getY q) m).length).map fun i : Nat => (i : Rat) * step p.x) := by
    unfold Inc
    rw [List.pairwise_map, e1]
    refine List.pairwise_lt_range.imp fun {i j} h => ?_
    have : (i : Rat) < j := by exact_mod_cast h
    nlinarith
  obtain ⟨r, er, hr, rx, rp, u1, u2⟩ := Path.new_inc hs (y := convolve (getY p) (getY q) m) p.ux (p.uy.mul q.uy) hinc (by simp)
  refine ⟨r, ?_, hr, u1, u2, by rw [rx]; simp [hlen], ?_⟩
  · unfold convolution
    rw [if_neg (by omega), (tests_pass ip np sp pp).1, if_neg (by simp), if_neg (by omega), (tests_pass iq nq sq pq).2,
      if_neg (by simp), if_neg (by rw [e1, e2]; simp), if_neg (by simp [hu])]
    exact er
  · intro i hi
    refine ⟨convAt p.y q.y (i + offset p.x.length q.x.length m), ?_, fun w hw => convAt_value hw, convAt_none _ _ _⟩
    rw [rp, Path.zip_get, List.getElem?_map, List.getElem?_range (by rw [hlen]; exact hi), e1, getY_valid hp, getY_valid hq]
    have := convolve_get p.y q.y m i (by rw [hp.1, hq.1]; exact hi)
    rw [hp.1, hq.1] at this
    rw [this]
    rfl

/-- C231: the convolution does not depend on the order of the profiles. -/
theorem C231_comm (ip : Inc p.x) (iq : Inc q.x)
    (np : 2 ≤ p.x.length) (nq : 2 ≤ q.x.length) {s : Rat} (sp : Steps p.x s) (sq : Steps q.x s)
    (pp : ∀ a ∈ p.x, 0 ≤ a) (pq : ∀ a ∈ q.x, 0 ≤ a) (hu : p.ux = q.ux) (m : Mode) :
    convolution srt p q m = convolution srt q p m := by
  have hc : p.uy.mul q.uy = q.uy.mul p.uy := by
    simp only [Sym.mul, Sym.mk.injEq]
    exact ⟨add_comm _ _, add_comm _ _, add_comm _ _, mul_comm _ _⟩
  obtain ⟨e1, -⟩ := step_of np sp
  obtain ⟨e2, -⟩ := step_of nq sq
  obtain ⟨t1, t2⟩ := tests_pass ip np sp pp
  obtain ⟨t3, t4⟩ := tests_pass iq nq sq pq
  unfold convolution
  rw [if_neg (by omega), t1, if_neg (by simp), if_neg (by omega), t4, if_neg (by simp), if_neg (by rw [e1, e2]; simp),
    if_neg (by simp [hu]), if_neg (by omega), t3, if_neg (by simp), if_neg (by omega), t2, if_neg (by simp),
    if_neg (by rw [e1, e2]; simp), if_neg (by simp [hu]), convolve_comm, e1, e2, hu, hc]

/-- C231: profiles of different steps or units are refused. -/
theorem C231_refused (np : 2 ≤ p.x.length) (nq : 2 ≤ q.x.length) (m : Mode) {a b c d : Rat}
    (h1 : p.x[0]? = some a) (h2 : p.x[1]? = some b) (h3 : q.x[0]? = some c) (h4 : q.x[1]? = some d)
    (h : b - a ≠ d - c ∨ p.ux ≠ q.ux) : convolution srt p q m = .error .exception := by
  have hst : ∀ {x : List Rat} {a b : Rat}, x[0]? = some a → x[1]? = some b → step x = b - a := by
    intro x a b h1 h2
    rcases x with _ | ⟨a', _ | ⟨b', x⟩⟩
    · simp at h1
    · simp at h2
    · simp at h1 h2
      simp [step, steps, h1, h2]
  unfold convolution
  rw [if_neg (by omega)]
  by_cases c1 : evenSelf p.x = false
  · rw [if_pos c1]
  rw [if_neg c1, if_neg (by omega)]
  by_cases c2 : evenOther q.x = false
  · rw [if_pos c2]
  rw [if_neg c2, hst h1 h2, hst h3 h4]
  by_cases c3 : b - a = d - c
  · rw [if_neg (by simpa using c3), if_pos (by rcases h with h | h; exacts [absurd c3 h, h])]
  · rw [if_pos (by simpa using c3)]

/-- C231: wherever the two profiles start, the result **starts at 0**: shifting a profile by any length does not change the
convolution. -/
theorem C231_origin_violated (hs : IsArgsort srt) {m : Mode} {r : Prof} (hpos : 0 < step p.x)
    (hne : (convolve (getY p) (getY q) m) ≠ []) (h : convolution srt p q m = .ok r) : r.x.head? = some 0 := by
  unfold convolution at h
  split at h <;> [cases h; skip]
  split at h <;> [cases h; skip]
  split at h <;> [cases h; skip]
  split at h <;> [cases h; skip]
  split at h <;> [cases h; skip]
  split at h <;> [cases h; skip]
  have hinc : Inc ((List.range (convolve (getY p) (getY q) m).length).map fun i : Nat => (i : Rat) * step p.x) := by
    unfold Inc
    rw [List.pairwise_map]
    refine List.pairwise_lt_range.imp fun {i j} h => ?_
    have : (i : Rat) < j := by exact_mod_cast h
    nlinarith
  obtain ⟨r', er, -, rx, -, -, -⟩ := Path.new_inc hs (y := convolve (getY p) (getY q) m) p.ux (p.uy.mul q.uy) hinc (by simp)
  rw [er] at h
  cases h
  rw [rx, List.head?_eq_getElem?, List.getElem?_map, List.getElem?_range (List.length_pos_iff.2 hne)]
  simp

/-- C231: a profile that ends at 0 or before is **refused**, however even it is. -/
theorem C231_negative_violated (np : 2 ≤ p.x.length) {b : Rat} (hb : p.x.getLast? = some b) (h0 : b ≤ 0) (m : Mode) :
    convolution srt p q m = .error .exception := by
  have : evenSelf p.x = false := by
    rcases hx : p.x with _ | ⟨a, _ | ⟨c, x⟩⟩
    · rw [hx] at np; simp at np
    · rw [hx] at np; simp at np
    · unfold evenSelf
      rw [← hx, hb, hx]
      simp only [step, steps, List.head?_cons, Option.getD_some, List.all_cons, sub_self]
      have : ¬ (0 < b * (1 / 10000000000)) := by linarith
      rw [decide_eq_false this, Bool.false_and]
  unfold convolution
  rw [if_neg (by omega), if_pos this]

/-- C231: a profile whose steps **are not equal** is accepted when none is longer than the first one; its values are
convolved as if they were even. -/
theorem C231_uneven_violated (hs : IsArgsort srt) (hp : Valid p) (hq : Valid q) (ip : Inc p.x) (iq : Inc q.x)
    (np : 2 ≤ p.x.length) (nq : 2 ≤ q.x.length) {x0 x1 b : Rat} (h0 : p.x[0]? = some x0) (h1 : p.x[1]? = some x1)
    (hle : ∀ (i : Nat) (u v : Rat), p.x[i]? = some u → p.x[i + 1]? = some v → v - u ≤ x1 - x0)
    (hb : p.x.getLast? = some b) (hpos : 0 < b) (sq : Steps q.x (x1 - x0)) (pq : ∀ a ∈ q.x, 0 ≤ a) (hu : p.ux = q.ux) (m : Mode) :
    ∃ r, convolution srt p q m = .ok r ∧ getY r = convolve p.y q.y m := by
  have e1 : step p.x = x1 - x0 := by
    rcases hx : p.x with _ | ⟨a', _ | ⟨b', x⟩⟩
    · rw [hx] at np; simp at np
    · rw [hx] at np; simp at np
    · rw [hx] at h0 h1
      simp at h0 h1
      simp [step, steps, h0, h1]
  obtain ⟨e2, -⟩ := step_of nq sq
  have hs0 : 0 < x1 - x0 := by
    have := Path.inc_get.1 ip 0 1 _ _ h0 h1 (by omega)
    linarith
  have t1 : evenSelf p.x = true := by
    unfold evenSelf
    rw [List.all_eq_true]
    intro d hd
    obtain ⟨i, u, v, g1, g2, rfl⟩ := (mem_steps _ _).1 hd
    have := hle i u v g1 g2
    apply decide_eq_true
    rw [hb, e1, Option.getD_some]
    linarith
  have hinc : Inc ((List.range (convolve (getY p) (getY q) m).length).map fun i : Nat => (i : Rat) * step p.x) := by
    unfold Inc
    rw [List.pairwise_map, e1]
    refine List.pairwise_lt_range.imp fun {i j} h => ?_
    have : (i : Rat) < j := by exact_mod_cast h
    nlinarith
  obtain ⟨r, er, hr, rx, rp, -, -⟩ := Path.new_inc hs (y := convolve (getY p) (getY q) m) p.ux (p.uy.mul q.uy) hinc (by simp)
  refine ⟨r, ?_, ?_⟩
  · unfold convolution
    rw [if_neg (by omega), t1, if_neg (by simp), if_neg (by omega), (tests_pass iq nq sq pq).2,
      if_neg (by simp), if_neg (by rw [e1, e2]; simp), if_neg (by simp [hu])]
    exact er
  · have : getY r = (pts r).map Prod.snd := by
      rw [getY_valid hr, pts_valid hr, List.map_snd_zip]
      rw [hr.1]
    rw [this, rp, List.map_snd_zip (by simp), getY_valid hp, getY_valid hq]

/-! Two short profiles. -/

def three : Prof where
  x := [0, 1, 2]
  y := [some 1, some 2, some 3]
  m := [false, false, false]
  ux := .m
  uy := .s

def pair' : Prof where
  x := [1, 2]
  y := [some 1, some 10]
  m := [false, false]
  ux := .m
  uy := .one

example : Valid three ∧ Valid pair' ∧ Inc three.x ∧ Inc pair'.x ∧ (∀ a ∈ three.x, 0 ≤ a) ∧ (∀ a ∈ pair'.x, 0 ≤ a) := by
  unfold Valid Inc
  decide +kernel

example : Steps three.x 1 ∧ Steps pair'.x 1 := by
  have key : ∀ (x : List Rat) (s : Rat), (∀ d ∈ steps x, d = s) → Steps x s :=
    fun x s h i a b h1 h2 => h _ ((mem_steps x _).2 ⟨i, a, b, h1, h2, rfl⟩)
  exact ⟨key _ _ (by decide +kernel), key _ _ (by decide +kernel)⟩

example : (convolution argsort three pair' .full).map pts = .ok [(0, some 1), (1, some 12), (2, some 23), (3, some 30)] := by
  decide +kernel

example : (convolution argsort three pair' .valid).map pts = .ok [(0, some 12), (1, some 23)] := by decide +kernel

end IMT.Reshape
