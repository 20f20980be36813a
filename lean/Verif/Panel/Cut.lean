import Verif.Panel.Wall

/-!
C157: cutting the edges of an object into panels.  C158: velocities along a line and pressures.
-/

namespace IMT.Panel

open Classical

/-! ### specification -/

/-- The parts of an edge cut into `n` equal ones. -/
noncomputable def parts (n : Nat) (e : (ℝ × ℝ) × (ℝ × ℝ)) : List ((ℝ × ℝ) × (ℝ × ℝ)) :=
  (List.range n).map fun (k : Nat) =>
    ((e.1.1 + k / n * (e.2.1 - e.1.1), e.1.2 + k / n * (e.2.2 - e.1.2)),
     (e.1.1 + (k + 1) / n * (e.2.1 - e.1.1), e.1.2 + (k + 1) / n * (e.2.2 - e.1.2)))

/-! ### rounding -/

theorem round_near (x : ℝ) : |(roundEven x : ℝ) - x| ≤ 1 / 2 := by
  have h1 := Int.floor_le x
  have h2 := Int.lt_floor_add_one x
  unfold roundEven
  rw [abs_le]
  split_ifs with a b c
  · constructor <;> linarith
  · push_cast; constructor <;> linarith
  · constructor <;> linarith
  · push_cast; constructor <;> linarith

theorem round_mono {x : ℝ} {n : Nat} (h : (n : ℝ) ≤ x) : (n : Int) ≤ roundEven x := by
  have h1 : (n : Int) ≤ ⌊x⌋ := Int.le_floor.mpr (by exact_mod_cast h)
  unfold roundEven
  split_ifs <;> omega

/-! ### pairs -/

theorem pairs_cons {α : Type} (a b : α) (l : List α) : pairs (a :: b :: l) = (a, b) :: pairs (b :: l) := by simp [pairs]

theorem pairs_append {α : Type} (l : List α) (a : α) (m : List α) : pairs (l ++ a :: m) = pairs (l ++ [a]) ++ pairs (a :: m) := by
  induction l with
  | nil => simp [pairs]
  | cons b l ih =>
    cases l with
    | nil => simp [pairs]
    | cons c l =>
      rw [List.cons_append, List.cons_append, pairs_cons, List.cons_append, List.cons_append, pairs_cons, List.cons_append]
      rw [← List.cons_append, ih]
      rfl

theorem pairs_map_range {α : Type} (f : Nat → α) (n : Nat) :
    pairs ((List.range n).map f ++ [f n]) = (List.range n).map fun k => (f k, f (k + 1)) := by
  induction n with
  | zero => simp [pairs]
  | succ n ih =>
    rw [List.range_succ, List.map_append, List.map_singleton, List.append_assoc, List.singleton_append, pairs_append, ih, List.map_append]
    simp [pairs]

/-! ### cutting -/

/-- How many parts an edge gets. -/
noncomputable def count (delta : ℝ) (e : (ℝ × ℝ) × (ℝ × ℝ)) : Nat := (roundEven (edgeLen e / delta)).toNat

theorem cutEdge_eq {delta : ℝ} {e : (ℝ × ℝ) × (ℝ × ℝ)} (h : 1 ≤ count delta e) :
    cutEdge delta e = (List.range (count delta e)).map fun (k : Nat) =>
      (e.1.1 + (k : ℝ) / count delta e * (e.2.1 - e.1.1), e.1.2 + (k : ℝ) / count delta e * (e.2.2 - e.1.2)) := by
  unfold cutEdge
  show (if count delta e ≤ 1 then _ else _) = _
  by_cases h1 : count delta e ≤ 1
  · rw [if_pos h1]
    have : count delta e = 1 := by omega
    rw [this]
    simp
  · rw [if_neg h1]
    apply List.map_congr_left
    intro k _
    show (e.1.1 + k * ((e.2.1 - e.1.1) / count delta e), e.1.2 + k * ((e.2.2 - e.1.2) / count delta e)) = _
    ext <;> simp only <;> ring

theorem pairs_cut {delta : ℝ} {e : (ℝ × ℝ) × (ℝ × ℝ)} (h : 1 ≤ count delta e) :
    pairs (cutEdge delta e ++ [e.2]) = parts (count delta e) e := by
  rw [cutEdge_eq h]
  have hn : (count delta e : ℝ) ≠ 0 := by positivity
  have := pairs_map_range (fun (k : Nat) => ((e.1.1 + (k : ℝ) / count delta e * (e.2.1 - e.1.1), e.1.2 + (k : ℝ) / count delta e * (e.2.2 - e.1.2)) : ℝ × ℝ)) (count delta e)
  simp only [div_self hn, one_mul] at this
  rw [show ((e.1.1 + (e.2.1 - e.1.1), e.1.2 + (e.2.2 - e.1.2)) : ℝ × ℝ) = e.2 by ext <;> simp] at this
  rw [this]
  unfold parts
  apply List.map_congr_left
  intro k _
  push_cast
  rfl

theorem cut_head {delta : ℝ} {e : (ℝ × ℝ) × (ℝ × ℝ)} (h : 1 ≤ count delta e) : ∃ l, cutEdge delta e = e.1 :: l := by
  rw [cutEdge_eq h]
  obtain ⟨n, hn⟩ : ∃ n, count delta e = n + 1 := ⟨count delta e - 1, by omega⟩
  rw [hn, List.range_succ_eq_map]
  simp

theorem pairs_cuts {delta : ℝ} : ∀ (p : ℝ × ℝ) (path : List (ℝ × ℝ)), (∀ e ∈ pairs (p :: path), 1 ≤ count delta e) →
    pairs (((pairs (p :: path)).map (cutEdge delta)).flatten ++ [(p :: path).getLast (by simp)]) =
      (pairs (p :: path)).flatMap fun e => parts (count delta e) e := by
  intro p path
  induction path generalizing p with
  | nil => intro _; simp [pairs]
  | cons q path ih =>
    intro h
    rw [pairs_cons] at h ⊢
    have hq := h (p, q) (by simp)
    have ih' := ih q fun e he => h e (by simp [he])
    simp only [List.map_cons, List.flatten_cons, List.flatMap_cons]
    rw [← ih', List.append_assoc]
    have hhead : ∃ l, ((pairs (q :: path)).map (cutEdge delta)).flatten ++ [(q :: path).getLast (by simp)] = q :: l := by
      cases path with
      | nil => exact ⟨[], by simp [pairs]⟩
      | cons r path =>
        rw [pairs_cons]
        obtain ⟨l, hl⟩ := cut_head (delta := delta) (e := (q, r)) (h (q, r) (by rw [pairs_cons]; simp))
        refine ⟨l ++ (((pairs (r :: path)).map (cutEdge delta)).flatten ++ [(q :: r :: path).getLast (by simp)]), ?_⟩
        simp only [List.map_cons, List.flatten_cons, hl]
        simp
    obtain ⟨l, hl⟩ := hhead
    have e2 : (p :: q :: path).getLast (by simp) = (q :: path).getLast (by simp) := by simp
    rw [e2, hl, pairs_append, pairs_cut hq]

theorem min_mem {l : List ℝ} {m : ℝ} (h : l.min? = some m) : m ∈ l ∧ ∀ x ∈ l, m ≤ x := by
  rw [List.min?_eq_some_iff] at h
  exact h

/-- Cutting a closed path with resolution `res` (at least one): the panels are, edge after edge, equal parts of the edges; each edge has
at least `res` of them, whose length differs from the shortest edge over `res` by at most half of it over their number. -/
theorem C157_closed (res : Nat) (hres : 1 ≤ res) (p : ℝ × ℝ) (path : List (ℝ × ℝ)) (hclosed : (p :: path).getLast (by simp) = p)
    (hne : path ≠ []) (hpos : ∀ e ∈ pairs (p :: path), 0 < edgeLen e) :
    ∃ (delta : ℝ) (out : List (ℝ × ℝ)) (n : (ℝ × ℝ) × (ℝ × ℝ) → Nat), 0 < delta ∧ (∀ e ∈ pairs (p :: path), res * delta ≤ edgeLen e) ∧
      (∃ e ∈ pairs (p :: path), edgeLen e = res * delta) ∧
      refine res (p :: path) = .ok out ∧ pairs out = (pairs (p :: path)).flatMap (fun e => parts (n e) e) ∧
      ∀ e ∈ pairs (p :: path), res ≤ n e ∧ |edgeLen e / n e - delta| ≤ delta / (2 * n e) := by
  have hr : (0 : ℝ) < res := by exact_mod_cast hres
  obtain ⟨q, path', rfl⟩ := List.exists_cons_of_ne_nil hne
  obtain ⟨m, hm⟩ : ∃ m, ((pairs (p :: q :: path')).map edgeLen).min? = some m := by
    rw [pairs_cons]
    cases h : (((p, q) :: pairs (q :: path')).map edgeLen).min? with
    | none => rw [List.min?_eq_none_iff] at h; simp at h
    | some m => exact ⟨m, rfl⟩
  obtain ⟨hmem, hle⟩ := min_mem hm
  obtain ⟨e0, he0, hm0⟩ := List.mem_map.mp hmem
  have hmpos : 0 < m := by rw [← hm0]; exact hpos e0 he0
  have hd : 0 < m / res := by positivity
  have hcount : ∀ e ∈ pairs (p :: q :: path'), res ≤ count (m / res) e ∧ |(count (m / res) e : ℝ) - edgeLen e / (m / res)| ≤ 1 / 2 := by
    intro e he
    have h1 : m ≤ edgeLen e := hle _ (List.mem_map_of_mem he)
    have h2 : (res : ℝ) ≤ edgeLen e / (m / res) := by
      rw [le_div_iff₀ hd]
      calc (res : ℝ) * (m / res) = m := by field_simp
        _ ≤ _ := h1
    have h3 := round_mono h2
    have h4 : ((count (m / res) e : Nat) : Int) = roundEven (edgeLen e / (m / res)) := by
      unfold count
      exact Int.toNat_of_nonneg (by omega)
    refine ⟨by omega, ?_⟩
    have h5 := round_near (edgeLen e / (m / res))
    rw [← h4] at h5
    exact_mod_cast h5
  refine ⟨m / res, ((pairs (p :: q :: path')).map (cutEdge (m / res))).flatten ++ [p], count (m / res), hd, ?_, ?_, ?_, ?_, ?_⟩
  · intro e he
    rw [mul_div_cancel₀ _ hr.ne']
    exact hle _ (List.mem_map_of_mem he)
  · exact ⟨e0, he0, by rw [mul_div_cancel₀ _ hr.ne', hm0]⟩
  · unfold refine
    rw [hm]
    simp only [List.head?_cons]
    rw [if_neg hd.ne']
  · have := pairs_cuts (delta := m / res) p (q :: path') fun e he => le_trans hres (hcount e he).1
    rw [hclosed] at this
    exact this
  · intro e he
    obtain ⟨h1, h2⟩ := hcount e he
    refine ⟨h1, ?_⟩
    have hn : (0 : ℝ) < count (m / res) e := by
      have : 1 ≤ count (m / res) e := le_trans hres h1
      exact_mod_cast this
    have e1 : edgeLen e / count (m / res) e - m / res = -((m / res) / count (m / res) e * (count (m / res) e - edgeLen e / (m / res))) := by
      field_simp
      ring
    rw [e1, abs_neg, abs_mul, abs_of_pos (by positivity)]
    calc _ ≤ m / res / count (m / res) e * (1 / 2) := mul_le_mul_of_nonneg_left h2 (by positivity)
      _ = _ := by field_simp

/-- A solid is always closed before it is cut. -/
theorem C157_close (coords : List (ℝ × ℝ)) (h : coords ≠ []) :
    ∃ p path, close coords = p :: path ∧ (p :: path).getLast (by simp) = p ∧ coords.head? = some p ∧ coords <+: close coords := by
  obtain ⟨p, l, rfl⟩ := List.exists_cons_of_ne_nil h
  unfold close
  simp only [List.head?_cons, List.getLast?_eq_some_getLast (List.cons_ne_nil p l)]
  by_cases hc : p.1 ≠ ((p :: l).getLast (by simp)).1 ∨ p.2 ≠ ((p :: l).getLast (by simp)).2
  · rw [if_pos hc]
    exact ⟨p, l ++ [p], by simp, by simp, rfl, by simp⟩
  · rw [if_neg hc]
    push Not at hc
    exact ⟨p, l, rfl, (Prod.ext hc.1 hc.2).symm, rfl, List.prefix_refl _⟩

/-- A square met by this. -/
example : ∃ p path, close [(0, 0), (1, 0), (1, 1), (0, 1)] = p :: path ∧ path ≠ [] ∧ ∀ e ∈ pairs (p :: path), 0 < edgeLen e := by
  refine ⟨(0, 0), [(1, 0), (1, 1), (0, 1), (0, 0)], by unfold close; norm_num, by simp, ?_⟩
  intro e he
  simp only [pairs, List.tail_cons, List.zip_cons_cons, List.zip_nil_right, List.mem_cons, List.not_mem_nil, or_false] at he
  unfold edgeLen
  rcases he with rfl | rfl | rfl | rfl <;> norm_num

/-- An open boundary does not end where it is asked to: the last panel goes back to its beginning. -/
theorem C157_open_violated (res : Nat) (path out : List (ℝ × ℝ)) (h : refine res path = .ok out) (hopen : path.getLast? ≠ path.head?) :
    out.getLast? = path.head? ∧ out.getLast? ≠ path.getLast? := by
  unfold refine at h
  split at h
  · rename_i p0 m h0 hm
    split_ifs at h
    injection h with h
    have : out.getLast? = some p0 := by rw [← h]; simp
    rw [this, ← h0]
    exact ⟨rfl, Ne.symm hopen⟩
  · simp at h

/-- A single straight wall is refused with the resolution by default. -/
theorem C157_wall_violated (wall : Bool) (p q : ℝ × ℝ) : ∃ e, mkObj1 wall [p, q] 1 = .error e := by
  unfold mkObj1
  rw [if_neg (by norm_num)]
  by_cases hm : edgeLen (p, q) = 0
  · refine ⟨.exception, ?_⟩
    have : refine 1 [p, q] = .error .exception := by
      unfold refine
      have : ((pairs [p, q]).map edgeLen).min? = some 0 := by simp [pairs, hm, List.min?]
      rw [this]
      simp
    rw [this]
  · refine ⟨.valueError, ?_⟩
    have hrd : roundEven (1 : ℝ) = 1 := by unfold roundEven; norm_num
    have : refine 1 [p, q] = .ok [p, p] := by
      unfold refine
      have : ((pairs [p, q]).map edgeLen).min? = some (edgeLen (p, q)) := by simp [pairs, List.min?]
      rw [this]
      simp only [List.head?_cons]
      rw [if_neg (by simpa using hm)]
      simp [pairs, cutEdge, hm, hrd]
    rw [this]
    simp [pairs, mkPanels, mkPanel]

/-! ### C158: along a line -/

theorem linspace_get {a b : ℝ} {res k : Nat} (hres : 2 ≤ res) (hk : k < res) : (linspace a b res)[k]? = some (a + k / ((res : ℝ) - 1) * (b - a)) := by
  unfold linspace
  rw [if_neg (by omega), List.getElem?_map, List.getElem?_range hk]
  simp only [Option.map_some, Option.some.injEq]
  ring

theorem onLine_get (u alpha : ℝ) (l : List Src) (a b : ℝ × ℝ) {res k : Nat} (hres : 2 ≤ res) (hk : k < res) :
    (onLine u alpha l a b res)[k]? = some
      (absc a (min a.1 b.1) (min a.2 b.2) (a.1 + k / ((res : ℝ) - 1) * (b.1 - a.1), a.2 + k / ((res : ℝ) - 1) * (b.2 - a.2)),
       velocity u alpha l (a.1 + k / ((res : ℝ) - 1) * (b.1 - a.1)) (a.2 + k / ((res : ℝ) - 1) * (b.2 - a.2))) := by
  unfold onLine
  rw [List.getElem?_map, List.zip, List.getElem?_zipWith, linspace_get hres hk, linspace_get hres hk]
  rfl

/-- Going along a line on which both coordinates increase, the profile shows, at each of the equally spaced points from the first end to
the second, the distance to the first end and the velocity there. -/
theorem C158_line_partial (u alpha : ℝ) (l : List Src) (a b : ℝ × ℝ) (h1 : a.1 ≤ b.1) (h2 : a.2 ≤ b.2) (res k : Nat) (hres : 2 ≤ res) (hk : k < res) :
    (onLine u alpha l a b res)[k]? = some
      (k / ((res : ℝ) - 1) * √((b.1 - a.1) ^ 2 + (b.2 - a.2) ^ 2),
       velocity u alpha l (a.1 + k / ((res : ℝ) - 1) * (b.1 - a.1)) (a.2 + k / ((res : ℝ) - 1) * (b.2 - a.2))) ∧
    (onLine u alpha l a b res).length = res := by
  have hr : (0 : ℝ) < (res : ℝ) - 1 := by have : (2 : ℝ) ≤ res := by exact_mod_cast hres
                                          linarith
  constructor
  · rw [onLine_get u alpha l a b hres hk]
    congr 2
    unfold absc
    rw [min_eq_left h1, min_eq_left h2]
    simp only [add_sub_cancel_left, sub_self]
    rw [show ((k : ℝ) / ((res : ℝ) - 1) * (b.1 - a.1)) ^ 2 + ((k : ℝ) / ((res : ℝ) - 1) * (b.2 - a.2)) ^ 2 =
      ((k : ℝ) / ((res : ℝ) - 1)) ^ 2 * ((b.1 - a.1) ^ 2 + (b.2 - a.2) ^ 2) by ring, Real.sqrt_mul (by positivity), Real.sqrt_sq (by positivity)]
    simp
  · unfold onLine linspace
    rw [if_neg (by omega), if_neg (by omega)]
    simp

/-- Going the other way, the abscissae are minus the distances. -/
theorem C158_backwards_violated (u alpha : ℝ) (l : List Src) (a b : ℝ × ℝ) (h1 : b.1 ≤ a.1) (h2 : b.2 ≤ a.2) (res k : Nat) (hres : 2 ≤ res) (hk : k < res) :
    ((onLine u alpha l a b res)[k]?).map Prod.fst = some (-(k / ((res : ℝ) - 1) * √((b.1 - a.1) ^ 2 + (b.2 - a.2) ^ 2))) := by
  have hr : (0 : ℝ) < (res : ℝ) - 1 := by have : (2 : ℝ) ≤ res := by exact_mod_cast hres
                                          linarith
  have hk' : (k : ℝ) / ((res : ℝ) - 1) ≤ 1 := by
    rw [div_le_one hr]
    have : (k : ℝ) + 1 ≤ res := by exact_mod_cast hk
    linarith
  rw [onLine_get u alpha l a b hres hk]
  simp only [Option.map_some, Option.some.injEq]
  unfold absc
  rw [min_eq_right h1, min_eq_right h2]
  set t := (k : ℝ) / ((res : ℝ) - 1)
  rw [show (a.1 + t * (b.1 - a.1) - b.1) ^ 2 + (a.2 + t * (b.2 - a.2) - b.2) ^ 2 = (1 - t) ^ 2 * ((b.1 - a.1) ^ 2 + (b.2 - a.2) ^ 2) by ring,
    Real.sqrt_mul (by positivity), Real.sqrt_sq (by linarith),
    show (a.1 - b.1) ^ 2 + (a.2 - b.2) ^ 2 = (b.1 - a.1) ^ 2 + (b.2 - a.2) ^ 2 by ring]
  ring

/-- On a line where one coordinate increases and the other decreases, the last abscissa is the difference of the sides instead of the
length of the line. -/
theorem C158_slanted_violated (u alpha : ℝ) (l : List Src) (a b : ℝ × ℝ) (h1 : a.1 < b.1) (h2 : b.2 < a.2) (res : Nat) (hres : 2 ≤ res) :
    ((onLine u alpha l a b res)[res - 1]?).map Prod.fst = some ((b.1 - a.1) - (a.2 - b.2)) ∧
      (b.1 - a.1) - (a.2 - b.2) ≠ √((b.1 - a.1) ^ 2 + (b.2 - a.2) ^ 2) := by
  have hr : (0 : ℝ) < (res : ℝ) - 1 := by have : (2 : ℝ) ≤ res := by exact_mod_cast hres
                                          linarith
  constructor
  · rw [onLine_get u alpha l a b hres (by omega)]
    simp only [Option.map_some, Option.some.injEq]
    rw [Nat.cast_sub (by omega), Nat.cast_one, div_self hr.ne']
    unfold absc
    rw [min_eq_left h1.le, min_eq_right h2.le]
    rw [show (a.1 + 1 * (b.1 - a.1) - a.1) ^ 2 + (a.2 + 1 * (b.2 - a.2) - b.2) ^ 2 = (b.1 - a.1) ^ 2 by ring,
      show (a.1 - a.1) ^ 2 + (a.2 - b.2) ^ 2 = (a.2 - b.2) ^ 2 by ring, Real.sqrt_sq (by linarith), Real.sqrt_sq (by linarith)]
  · have : b.1 - a.1 ≤ √((b.1 - a.1) ^ 2 + (b.2 - a.2) ^ 2) := by
      apply Real.le_sqrt_of_sq_le
      nlinarith [sq_nonneg (b.2 - a.2)]
    linarith

/-- The pressure coefficient is one where the fluid is at rest, never more, zero where it has the speed of the free stream, and goes
down when the speed goes up. -/
theorem C158_pressure (u : ℝ) (hu : u ≠ 0) (v w : ℝ × ℝ) :
    cp u v ≤ 1 ∧ (cp u v = 1 ↔ v = (0, 0)) ∧ (cp u v = 0 ↔ √(v.1 ^ 2 + v.2 ^ 2) = |u|) ∧
      (cp u v < cp u w ↔ √(w.1 ^ 2 + w.2 ^ 2) < √(v.1 ^ 2 + v.2 ^ 2)) := by
  have hu2 : 0 < u ^ 2 := by positivity
  unfold cp
  refine ⟨?_, ?_, ?_, ?_⟩
  · have : 0 ≤ (v.1 ^ 2 + v.2 ^ 2) / u ^ 2 := by positivity
    linarith
  · constructor
    · intro h
      have h1 : (v.1 ^ 2 + v.2 ^ 2) / u ^ 2 = 0 := by linarith
      rw [div_eq_zero_iff] at h1
      rcases h1 with h1 | h1
      · ext
        · simp only; nlinarith [sq_nonneg v.1, sq_nonneg v.2]
        · simp only; nlinarith [sq_nonneg v.1, sq_nonneg v.2]
      · exact absurd h1 hu2.ne'
    · rintro rfl; simp
  · rw [sub_eq_zero, eq_comm, div_eq_one_iff_eq hu2.ne']
    constructor
    · intro h; rw [h]; exact Real.sqrt_sq_eq_abs u
    · intro h
      have := congrArg (· ^ 2) h
      simp only [sq_abs] at this
      rw [Real.sq_sqrt (by positivity)] at this
      exact this
  · rw [Real.sqrt_lt_sqrt_iff (by positivity), sub_lt_sub_iff_left, div_lt_div_iff_of_pos_right hu2]

end IMT.Panel
