import Verif.Treat.Grad
import Mathlib.Data.Rat.Floor
import Mathlib.Data.List.Chain
import Mathlib.Analysis.Real.Sqrt
import Mathlib.Algebra.Order.Archimedean.Real.Basic

/-!
Properties C125 (fast streamlines), C126 (seeds of the streamlines).
-/

namespace IMT.Treat

section
variable {K : Type} [Field K] [LinearOrder K] [IsStrictOrderedRing K] [FloorRing K]

/-! ### specification -/

/-- The point is in the box of the field. -/
def Inside (ax ay : List K) (p : K × K) : Prop :=
  ax.headD 0 ≤ p.1 ∧ p.1 ≤ ax.getLastD 0 ∧ ay.headD 0 ≤ p.2 ∧ p.2 ≤ ay.getLastD 0

instance (ax ay : List K) (p : K × K) : Decidable (Inside ax ay p) := by unfold Inside; infer_instance

/-- `q` follows `p`: at distance `d`, in the direction of the velocity in `p` (of its opposite when reversed). -/
def Follows (vel : K × K → K × K) (d : K) (rev : Bool) (p q : K × K) : Prop :=
  (q.1 - p.1) ^ 2 + (q.2 - p.2) ^ 2 = d ^ 2 ∧
    ∃ c : K, (if rev then c < 0 else 0 < c) ∧ q.1 - p.1 = c * (vel p).1 ∧ q.2 - p.2 = c * (vel p).2

/-- What a streamline from `p0` is. -/
structure Line (ax ay : List K) (vel : K × K → K × K) (delta d : K) (rev : Bool) (p0 : K × K) (l : List (K × K)) : Prop where
  /-- it starts at the seed -/
  start : l.head? = some p0
  /-- every point but the last is in the box, and is followed by a point in the direction of the velocity -/
  steps : l.IsChain fun p q => Inside ax ay p ∧ Follows vel d rev p q
  /-- its length is bounded -/
  long : (l.length : K) + 1 / 2 ≤ ((ax.length + ay.length : Nat) : K) / delta
  /-- the reasons to stop: length, zero velocity, out of the box, back near an earlier point -/
  stop : ∃ z, l.getLast? = some z ∧
    (((ax.length + ay.length : Nat) : K) / delta ≤ l.length + 3 / 2 ∨ vel z = (0, 0) ∨ ¬ Inside ax ay z ∨
      15 < l.length ∧ ∃ q ∈ l.take (l.length - 10), (q.1 - z.1) ^ 2 + (q.2 - z.2) ^ 2 < d ^ 2 / 2)

/-! ### lemmas -/

omit [IsStrictOrderedRing K] [FloorRing K] in
theorem outside_false {ax ay : List K} {p : K × K} : outside ax ay p = false ↔ Inside ax ay p := by
  unfold outside Inside
  simp [and_assoc]

omit [IsStrictOrderedRing K] [FloorRing K] in
theorem filter_inside (ax ay : List K) (l : List (K × K)) :
    (l.filter fun p => decide (Inside ax ay p)) = l.filter fun p => !outside ax ay p := by
  congr 1
  funext p
  rw [Bool.eq_iff_iff, decide_eq_true_iff, ← outside_false]
  simp

omit [FloorRing K] in
theorem euler_follows {norm : K × K → K} (hn : ∀ v, 0 ≤ norm v ∧ norm v ^ 2 = v.1 ^ 2 + v.2 ^ 2) {vel : K × K → K × K} {d : K}
    (hd : 0 < d) (rev : Bool) {p : K × K} (hv : vel p ≠ (0, 0)) : Follows vel d rev p (euler norm d rev (vel p) p) := by
  obtain ⟨h0, h2⟩ := hn (vel p)
  have hpos : 0 < norm (vel p) := by
    rcases h0.lt_or_eq with h | h
    · exact h
    · exfalso
      rw [← h] at h2
      have e : (vel p).1 ^ 2 + (vel p).2 ^ 2 = 0 := by rw [← h2]; ring
      have s1 := sq_nonneg (vel p).1
      have s2 := sq_nonneg (vel p).2
      have e1 : (vel p).1 = 0 := pow_eq_zero_iff (two_ne_zero) |>.mp (by linarith)
      have e2 : (vel p).2 = 0 := pow_eq_zero_iff (two_ne_zero) |>.mp (by linarith)
      exact hv (Prod.ext e1 e2)
  have hne := hpos.ne'
  unfold Follows euler
  cases rev with
  | false =>
    simp only [Bool.false_eq_true, if_false, add_sub_cancel_left]
    refine ⟨?_, d / norm (vel p), div_pos hd hpos, by ring, by ring⟩
    have : ((vel p).1 / norm (vel p) * d) ^ 2 + ((vel p).2 / norm (vel p) * d) ^ 2 =
        ((vel p).1 ^ 2 + (vel p).2 ^ 2) / norm (vel p) ^ 2 * d ^ 2 := by ring
    rw [this, ← h2, div_self (pow_ne_zero 2 hne), one_mul]
  | true =>
    simp only [if_true, add_sub_cancel_left]
    refine ⟨?_, -(d / norm (vel p)), neg_neg_of_pos (div_pos hd hpos), by rw [div_neg]; ring, by rw [div_neg]; ring⟩
    have : ((vel p).1 / -norm (vel p) * d) ^ 2 + ((vel p).2 / -norm (vel p) * d) ^ 2 =
        ((vel p).1 ^ 2 + (vel p).2 ^ 2) / norm (vel p) ^ 2 * d ^ 2 := by rw [div_neg, div_neg]; ring
    rw [this, ← h2, div_self (pow_ne_zero 2 hne), one_mul]

omit [FloorRing K] in
/-- The loop, from a non-empty list of points in the box. -/
theorem walk_spec {norm : K × K → K} (hn : ∀ v, 0 ≤ norm v ∧ norm v ^ 2 = v.1 ^ 2 + v.2 ^ 2) {vel : K × K → K × K} {d : K}
    (hd : 0 < d) (rev : Bool) {ax ay : List K} :
    ∀ (fuel : Nat) (p : K × K) (rest : List (K × K)), Inside ax ay p →
      (p :: rest).IsChain (fun q p => Inside ax ay p ∧ Follows vel d rev p q) →
      ∃ z l, walk ax ay vel norm d rev fuel (p :: rest) = z :: l ∧ (z :: l).getLast? = (p :: rest).getLast? ∧
        (z :: l).IsChain (fun q p => Inside ax ay p ∧ Follows vel d rev p q) ∧ (z :: l).length ≤ (p :: rest).length + fuel ∧
        ((z :: l).length = (p :: rest).length + fuel ∨ vel z = (0, 0) ∨ ¬ Inside ax ay z ∨ looped d (z :: l) = true) := by
  intro fuel
  induction fuel with
  | zero =>
    intro p rest _ hc
    exact ⟨p, rest, rfl, rfl, hc, le_refl _, .inl rfl⟩
  | succ fuel ih =>
    intro p rest hp hc
    rw [walk]
    by_cases h0 : vel p = (0, 0)
    · rw [if_pos h0]
      exact ⟨p, rest, rfl, rfl, hc, by omega, .inr (.inl h0)⟩
    rw [if_neg h0]
    by_cases h1 : looped d (p :: rest) = true
    · rw [if_pos h1]
      exact ⟨p, rest, rfl, rfl, hc, by omega, .inr (.inr (.inr h1))⟩
    rw [if_neg h1]
    have hc' : (euler norm d rev (vel p) p :: p :: rest).IsChain (fun q p => Inside ax ay p ∧ Follows vel d rev p q) := by
      rw [List.isChain_cons_cons]
      exact ⟨⟨hp, euler_follows hn hd rev h0⟩, hc⟩
    by_cases h2 : outside ax ay (euler norm d rev (vel p) p) = true
    · rw [if_pos h2]
      refine ⟨_, _, rfl, by simp, hc', by simp, .inr (.inr (.inl ?_))⟩
      rw [← outside_false, h2]; simp
    rw [if_neg h2]
    obtain ⟨z, l, e, g, c, n, s⟩ := ih _ (p :: rest) (outside_false.mp (by simpa using h2)) hc'
    refine ⟨z, l, e, by rw [g]; simp, c, by simp at n ⊢; omega, ?_⟩
    rcases s with s | s
    · exact .inl (by rw [s]; simp; omega)
    · exact .inr s

/-- Bounds on `longmax`. -/
theorem longmax_bounds {ax ay : List K} {delta : K} (h0 : 0 < delta) (hx : delta ≤ ax.length) (hy : delta ≤ ay.length) :
    2 ≤ longmax ax ay delta ∧ (longmax ax ay delta : K) ≤ ((ax.length + ay.length : Nat) : K) / delta + 1 / 2 ∧
      ((ax.length + ay.length : Nat) : K) / delta - 1 / 2 ≤ longmax ax ay delta := by
  have h2 : (2 : K) ≤ ((ax.length + ay.length : Nat) : K) / delta := by
    rw [le_div_iff₀ h0]; push_cast; linarith
  unfold longmax
  generalize ((ax.length + ay.length : Nat) : K) / delta = q at h2
  have f1 := Int.floor_le q
  have f2 := Int.lt_floor_add_one q
  have f3 : (2 : Int) ≤ ⌊q⌋ := Int.le_floor.mpr (by exact_mod_cast h2)
  have key : (2 : Int) ≤ roundHalfEven q ∧ (roundHalfEven q : K) ≤ q + 1 / 2 ∧ q - 1 / 2 ≤ (roundHalfEven q : K) := by
    unfold roundHalfEven
    split_ifs with c1 c2 c3
    · exact ⟨f3, by linarith, by linarith⟩
    · refine ⟨by omega, ?_, ?_⟩ <;> push_cast <;> linarith
    · exact ⟨f3, by linarith, by linarith⟩
    · refine ⟨by omega, ?_, ?_⟩ <;> push_cast <;> linarith
  obtain ⟨k1, k2, k3⟩ := key
  have e : ((roundHalfEven q).toNat : Int) = roundHalfEven q := Int.toNat_of_nonneg (by omega)
  have e' : (((roundHalfEven q).toNat : Nat) : K) = (roundHalfEven q : K) := by
    have : ((((roundHalfEven q).toNat : Int)) : K) = (roundHalfEven q : K) := by rw [e]
    rw [← this, Int.cast_natCast]
  refine ⟨by omega, ?_, ?_⟩ <;> rw [e'] <;> assumption

/-! ### C125 -/

/-- C125: for every velocity field and every list of seeds, `get_streamlines_fast` gives one streamline per seed of the box, in
order; it starts at the seed, every further point lies at the fixed distance from the previous one in the direction of the
velocity there, all points but the last are in the box, the number of points is bounded by the size of the grid over `delta`,
and it ends for one of the four documented reasons.
The norm is any function with the property of the euclidean norm. -/
theorem C125_streamlines {ax ay : List K} (hx : ax.headD 0 < ax.getLastD 0) (hy : ay.headD 0 < ay.getLastD 0) {delta : K}
    (h0 : 0 < delta) (hdx : delta ≤ ax.length) (hdy : delta ≤ ay.length) (vel : K × K → K × K) {norm : K × K → K}
    (hn : ∀ v, 0 ≤ norm v ∧ norm v ^ 2 = v.1 ^ 2 + v.2 ^ 2) (rev : Bool) (seeds : List (K × K)) :
    ∃ d, 0 < d ∧ d = delta * ((ax.getLastD 0 - ax.headD 0) / ax.length + (ay.getLastD 0 - ay.headD 0) / ay.length) / 2 ∧
    ∃ lines, streamlinesFast ax ay vel norm delta rev seeds = .ok lines ∧
      List.Forall₂ (Line ax ay vel delta d rev) (seeds.filter fun p => decide (Inside ax ay p)) lines := by
  have lx : (0 : K) < ax.length := by linarith
  have ly : (0 : K) < ay.length := by linarith
  have hd : 0 < deltaAbs ax ay delta := by
    unfold deltaAbs
    have a1 : 0 < (ax.getLastD 0 - ax.headD 0) / ax.length := div_pos (by linarith) lx
    have a2 : 0 < (ay.getLastD 0 - ay.headD 0) / ay.length := div_pos (by linarith) ly
    have : 0 < delta * ((ax.getLastD 0 - ax.headD 0) / ax.length + (ay.getLastD 0 - ay.headD 0) / ay.length) :=
      mul_pos h0 (by linarith)
    linarith
  refine ⟨deltaAbs ax ay delta, hd, rfl, (seeds.filter fun p => !outside ax ay p).map fun p =>
      (walk ax ay vel norm (deltaAbs ax ay delta) rev (longmax ax ay delta - 2) [p]).reverse, ?_, ?_⟩
  · unfold streamlinesFast
    rw [if_neg (not_le.mpr h0), if_neg (by push Not; exact ⟨hdx, hdy⟩)]
  · rw [filter_inside, List.forall₂_map_right_iff]
    apply List.forall₂_same.mpr
    intro p hp
    rw [List.mem_filter] at hp
    have hin : Inside ax ay p := outside_false.mp (by simpa using hp.2)
    obtain ⟨z, l, e, g, c, n, s⟩ := walk_spec hn hd rev (vel := vel) (longmax ax ay delta - 2) p [] hin (by simp)
    obtain ⟨b1, b2, b3⟩ := longmax_bounds h0 hdx hdy
    rw [e]
    simp only [List.length_cons, List.length_nil] at n
    have hl : (((z :: l).reverse).length : K) ≤ longmax ax ay delta - 1 := by
      have : (z :: l).reverse.length + 1 ≤ longmax ax ay delta := by simp; omega
      have : (((z :: l).reverse.length + 1 : Nat) : K) ≤ (longmax ax ay delta : K) := by exact_mod_cast this
      push_cast at this
      linarith
    refine ⟨?_, ?_, by linarith, z, by simp, ?_⟩
    · rw [List.head?_reverse, g]; rfl
    · rw [List.isChain_reverse]; exact c
    · rcases s with s | s | s | s
      · left
        have : (z :: l).reverse.length + 1 = longmax ax ay delta := by simp at s ⊢; omega
        have : (((z :: l).reverse.length + 1 : Nat) : K) = (longmax ax ay delta : K) := by exact_mod_cast this
        push_cast at this
        linarith
      · exact .inr (.inl s)
      · exact .inr (.inr (.inl s))
      · right; right; right
        unfold looped at s
        rw [Bool.and_eq_true, decide_eq_true_iff, List.any_eq_true] at s
        obtain ⟨s1, q, hq, s2⟩ := s
        refine ⟨by simpa using s1, q, ?_, by unfold dist2 at s2; exact of_decide_eq_true s2⟩
        rw [List.reverse_cons, List.take_append_of_le_length (by simp)]
        simpa using hq

/-- C125: reversing is following the opposite velocity. -/
theorem C125_reverse {norm : K × K → K} (hs : ∀ v : K × K, norm (-v.1, -v.2) = norm v) (ax ay : List K)
    (vel : K × K → K × K) (delta : K) (seeds : List (K × K)) :
    streamlinesFast ax ay vel norm delta true seeds =
      streamlinesFast ax ay (fun p => (-(vel p).1, -(vel p).2)) norm delta false seeds := by
  have eu : ∀ (d : K) (p : K × K), euler norm d true (vel p) p = euler norm d false (-(vel p).1, -(vel p).2) p := by
    intro d p
    unfold euler
    simp only [if_true, Bool.false_eq_true, if_false, hs, div_neg, neg_div]
  have w : ∀ (d : K) (fuel : Nat) (pts : List (K × K)), walk ax ay vel norm d true fuel pts =
      walk ax ay (fun p => (-(vel p).1, -(vel p).2)) norm d false fuel pts := by
    intro d fuel
    induction fuel with
    | zero => intro pts; rfl
    | succ fuel ih =>
      intro pts
      cases pts with
      | nil => rfl
      | cons p rest =>
        rw [walk, walk, eu]
        have hz : vel p = (0, 0) ↔ ((-(vel p).1, -(vel p).2) : K × K) = (0, 0) := by
          rw [Prod.ext_iff, Prod.ext_iff]; simp
        by_cases h0 : vel p = (0, 0)
        · rw [if_pos h0, if_pos (hz.mp h0)]
        · rw [if_neg h0, if_neg (fun h => h0 (hz.mpr h)), ih]
  unfold streamlinesFast
  simp only [w]

end

/-- A step too long for the grid, or not positive, is refused. -/
theorem C125_refused (ax ay : List Rat) (vel : Rat × Rat → Rat × Rat) (norm : Rat × Rat → Rat) {delta : Rat} (rev : Bool)
    (seeds : List (Rat × Rat)) (h : delta ≤ 0 ∨ delta > ax.length ∨ delta > ay.length) :
    streamlinesFast ax ay vel norm delta rev seeds = .error Err.valueError := by
  unfold streamlinesFast
  by_cases h0 : delta ≤ 0
  · rw [if_pos h0]
  · rw [if_neg h0, if_pos (by tauto)]

/-- The hypothesis on the norm, for the real numbers: every velocity field is covered. -/
example (vel : ℝ × ℝ → ℝ × ℝ) (seeds : List (ℝ × ℝ)) : ∃ lines,
    streamlinesFast ([0, 1, 2] : List ℝ) [0, 1] vel (fun v => Real.sqrt (v.1 ^ 2 + v.2 ^ 2)) 1 false seeds = .ok lines := by
  obtain ⟨_, _, _, lines, h, _⟩ := C125_streamlines (ax := ([0, 1, 2] : List ℝ)) (ay := [0, 1]) (delta := 1) (by simp) (by simp)
    one_pos (by simp) (by simp) vel (norm := fun v => Real.sqrt (v.1 ^ 2 + v.2 ^ 2))
    (fun v => ⟨Real.sqrt_nonneg _, Real.sq_sqrt (by positivity)⟩) false seeds
  exact ⟨lines, h⟩

/-- A uniform flow of norm 5 from the lower left: the streamline goes straight, and leaves the box. -/
example : streamlinesFast [0, 1, 2, 3] [0, 1, 2, 3] (fun _ => ((3, 4) : Rat × Rat)) (fun _ => 5) 1 false [(0, 0), (9, 9)] =
    .ok [[(0, 0), (9/20, 3/5), (9/10, 6/5), (27/20, 9/5), (9/5, 12/5), (9/4, 3), (27/10, 18/5)]] := by
  decide +kernel

/-! ### C126 -/

/-- C126: seeds given as an array of floats: one streamline per seed of the box, in order, starting at the seed.
Partial: not for integer seeds, see `C126_integers_violated`. -/
theorem C126_starts_partial {ax ay : List Rat} (hx : ax.headD 0 < ax.getLastD 0) (hy : ay.headD 0 < ay.getLastD 0)
    (l : List (Rat × Rat)) :
    starts ax ay (.floats l) = l.filter fun p => decide (Inside ax ay p) := by
  have px : 0 < ax.getLastD 0 - ax.headD 0 := by linarith
  have py : 0 < ay.getLastD 0 - ay.headD 0 := by linarith
  have e : starts ax ay (.floats l) = l.filter fun p => !outside ax ay p := by
    unfold starts seedsIn
    rw [List.filter_map, List.map_map]
    have h1 : (fun p : Rat × Rat => !outsideUnit p) ∘ (fun p : Rat × Rat => (rescale ax p.1, rescale ay p.2)) =
        fun p => !outside ax ay p := by
      funext p
      simp only [Function.comp_apply]
      congr 1
      rw [Bool.eq_iff_iff]
      unfold outsideUnit outside rescale
      simp only [Bool.or_eq_true, decide_eq_true_iff, div_neg_iff, gt_iff_lt, one_lt_div px, one_lt_div py]
      constructor <;> intro h
      · rcases h with ((h | h) | h) | h
        · left; left; left; rcases h with h | h <;> linarith [h.1, h.2]
        · left; left; right; linarith
        · left; right; rcases h with h | h <;> linarith [h.1, h.2]
        · right; linarith
      · rcases h with ((h | h) | h) | h
        · left; left; left; right; constructor <;> linarith
        · left; left; right; linarith
        · left; right; right; constructor <;> linarith
        · right; linarith
    rw [h1]
    have h2 : ((fun p : Rat × Rat => (unscale ax p.1, unscale ay p.2)) ∘ fun p : Rat × Rat => (rescale ax p.1, rescale ay p.2)) = id := by
      funext p
      simp only [Function.comp_apply, unscale, rescale, id]
      rw [div_mul_cancel₀ _ px.ne', div_mul_cancel₀ _ py.ne']
      ext <;> simp
    rw [h2, List.map_id]
  rw [e, filter_inside]

theorem trunc_zero {t : Rat} (h0 : 0 ≤ t) (h1 : t < 1) : trunc t = 0 := by
  unfold trunc
  rw [if_pos h0]
  have : t.floor = 0 := by
    have a : (t.floor : Rat) ≤ t := Int.floor_le t
    have b : t < (t.floor : Rat) + 1 := Int.lt_floor_add_one t
    have c : (t.floor : Rat) < (1 : Int) := by push_cast; linarith
    have d : ((-1 : Int) : Rat) < t.floor := by push_cast; linarith
    rw [Int.cast_lt] at c d
    omega
  rw [this]; rfl

/-- C126 fails for seeds with integer coordinates: every seed inside the field, but off its upper and right edges, gives the
streamline of the lower left corner. -/
theorem C126_integers_violated {ax ay : List Rat} (hx : ax.headD 0 < ax.getLastD 0) (hy : ay.headD 0 < ay.getLastD 0)
    {l : List (Int × Int)}
    (hl : ∀ p ∈ l, ax.headD 0 ≤ p.1 ∧ (p.1 : Rat) < ax.getLastD 0 ∧ ay.headD 0 ≤ p.2 ∧ (p.2 : Rat) < ay.getLastD 0) :
    starts ax ay (.ints l) = l.map fun _ => (ax.headD 0, ay.headD 0) := by
  have px : 0 < ax.getLastD 0 - ax.headD 0 := by linarith
  have py : 0 < ay.getLastD 0 - ay.headD 0 := by linarith
  unfold starts seedsIn
  have e : (l.map fun p : Int × Int => (trunc (rescale ax p.1), trunc (rescale ay p.2))) = l.map fun _ => ((0, 0) : Rat × Rat) := by
    apply List.map_congr_left
    intro p hp
    obtain ⟨h1, h2, h3, h4⟩ := hl p hp
    unfold rescale
    rw [trunc_zero (div_nonneg (by linarith) px.le) ((div_lt_one px).mpr (by linarith)),
      trunc_zero (div_nonneg (by linarith) py.le) ((div_lt_one py).mpr (by linarith))]
  simp only [e]
  rw [List.filter_map, List.map_map]
  have : (fun p : Rat × Rat => !outsideUnit p) ∘ (fun _ : Int × Int => ((0, 0) : Rat × Rat)) = fun _ => true := by
    funext p; simp [outsideUnit]
  rw [this, List.filter_true]
  apply List.map_congr_left
  intro p _
  simp [unscale]

example : starts [0, 5, 10] [0, 10] (.ints [(3, 4), (9, 9)]) = [(0, 0), (0, 0)] := by decide +kernel
example : starts [0, 5, 10] [0, 10] (.floats [(3, 4), (11, 9), (9, 9)]) = [(3, 4), (9, 9)] := by decide +kernel

end IMT.Treat
