import Verif.Tidy.Model
import Verif.Reshape.Doublons

/-! C269: gradient of a profile at a position. -/

namespace IMT.Tidy

open Profile

/-! ### specification -/

/-- The profile shows the values `Y i` at the `n` evenly spaced abscissae `x0 + i d`. -/
def EvenProf (p : Prof) (n : Nat) (x0 d : Rat) (Y : Nat → Rat) : Prop :=
  Valid p ∧ p.x = (List.range n).map (fun i : Nat => x0 + (i : Rat) * d) ∧ p.y = (List.range n).map fun i => some (Y i)

/-- The slope at each of `n` points: centred differences inside, differences with the only neighbour at the ends. -/
def slope (n : Nat) (d : Rat) (Y : Nat → Rat) (i : Nat) : Rat :=
  if i = 0 then (Y 1 - Y 0) / d else if i + 1 = n then (Y i - Y (i - 1)) / d else (Y (i + 1) - Y (i - 1)) / (2 * d)

/-! ### the broken line -/

/-- The broken line through `(i, Y i)`, in the coordinate `u = (x - x0) / d`. -/
def ev : Nat → (Nat → Rat) → Rat → Rat
  | n + 3, Y, u => if u ≤ 1 then Y 0 + (Y 1 - Y 0) * u else ev (n + 2) (fun i => Y (i + 1)) (u - 1)
  | _, Y, u => Y 0 + (Y 1 - Y 0) * u

theorem nodes_succ (n : Nat) (x0 d : Rat) (Y : Nat → Rat) :
    ((List.range (n + 1)).map fun i : Nat => (x0 + (i : Rat) * d, Y i)) =
      (x0, Y 0) :: (List.range n).map fun i : Nat => (x0 + d + (i : Rat) * d, Y (i + 1)) := by
  rw [List.range_succ_eq_map, List.map_cons, List.map_map]
  congr 1
  · simp
  · apply List.map_congr_left
    intro i _
    simp only [Function.comp_apply, Prod.mk.injEq, and_true]
    push_cast
    ring

theorem line_unit (x0 d a b u : Rat) (hd : d ≠ 0) : line (x0, a) (x0 + d, b) (x0 + u * d) = a + (b - a) * u := by
  unfold line
  simp only [add_sub_cancel_left]
  field_simp

theorem broken_ev (n : Nat) {x0 d : Rat} (hd : 0 < d) (Y : Nat → Rat) (u : Rat) :
    broken ((List.range (n + 2)).map fun i : Nat => (x0 + (i : Rat) * d, Y i)) (x0 + u * d) = ev (n + 2) Y u := by
  induction n generalizing x0 Y u with
  | zero =>
    rw [nodes_succ, nodes_succ]
    simp only [List.range_zero, List.map_nil]
    unfold broken
    rw [line_unit _ _ _ _ _ hd.ne']
    rfl
  | succ n ih =>
    have hn := nodes_succ (n + 2) x0 d Y
    have hn1 := nodes_succ (n + 1) (x0 + d) d fun i => Y (i + 1)
    have hn2 := nodes_succ n (x0 + d + d) d fun i => Y (i + 1 + 1)
    rw [show n + 1 + 2 = n + 2 + 1 by omega, hn]
    rw [show n + 2 = n + 1 + 1 by omega, hn1, hn2]
    unfold broken
    rw [show n + 1 + 1 + 1 = n + 3 by omega]
    unfold ev
    have hle : x0 + u * d ≤ x0 + d ↔ u ≤ 1 := by
      constructor
      · intro h; by_contra hc; nlinarith
      · intro h; nlinarith
    by_cases hu : u ≤ 1
    · rw [if_pos (hle.2 hu), if_pos hu]
      exact line_unit _ _ _ _ _ hd.ne'
    · rw [if_neg (fun h => hu (hle.1 h)), if_neg hu]
      rw [← hn2, ← hn1]
      have := ih (x0 := x0 + d) (fun i => Y (i + 1)) (u - 1)
      rw [show x0 + d + (u - 1) * d = x0 + u * d by ring] at this
      exact this

/-- The values continued on both sides. -/
def cont (n : Nat) (Y : Nat → Rat) (k : Int) : Rat :=
  if k < 0 then Y 0 + k * (Y 1 - Y 0) else if k < n then Y k.toNat else Y (n - 1) + (k - (n - 1 : Nat)) * (Y (n - 1) - Y (n - 2))

theorem cont_low {n : Nat} (hn : 2 ≤ n) (Y : Nat → Rat) {k : Int} (hk : k ≤ 1) : cont n Y k = Y 0 + k * (Y 1 - Y 0) := by
  unfold cont
  by_cases h : k < 0
  · rw [if_pos h]
  · rw [if_neg h, if_pos (by omega)]
    rcases (show k = 0 ∨ k = 1 by omega) with rfl | rfl
    · simp
    · simp

theorem cont_succ {n : Nat} (hn : 2 ≤ n) (Y : Nat → Rat) {k : Int} (hk : 1 ≤ k) : cont (n + 1) Y k = cont n (fun i => Y (i + 1)) (k - 1) := by
  unfold cont
  rw [if_neg (show ¬ k < 0 by omega), if_neg (show ¬ k - 1 < 0 by omega)]
  by_cases h : k < (n + 1 : Nat)
  · rw [if_pos h, if_pos (by push_cast at h ⊢; omega)]
    simp only
    congr 1
    omega
  · rw [if_neg h, if_neg (by push_cast at h ⊢; omega)]
    simp only
    rw [show n + 1 - 1 = n by omega, show n - 1 + 1 = n by omega, show n - 2 + 1 = n - 1 by omega, show n + 1 - 2 = n - 1 by omega]
    congr 2
    push_cast [Nat.cast_sub (show 1 ≤ n by omega)]
    ring

theorem ev_cont (n : Nat) (Y : Nat → Rat) (k : Int) {t : Rat} (h0 : 0 ≤ t) (h1 : t ≤ 1) :
    ev (n + 2) Y (k + t) = (1 - t) * cont (n + 2) Y k + t * cont (n + 2) Y (k + 1) := by
  induction n generalizing Y k with
  | zero =>
    unfold ev
    have hc : ∀ j : Int, cont 2 Y j = Y 0 + j * (Y 1 - Y 0) := by
      intro j
      by_cases hj : j ≤ 1
      · exact cont_low (by omega) Y hj
      · unfold cont
        rw [if_neg (by omega), if_neg (by push_cast; omega)]
        push_cast
        ring
    rw [show 0 + 2 = 2 by rfl, hc, hc]
    push_cast
    ring
  | succ n ih =>
    unfold ev
    by_cases hk : k ≤ 0
    · rw [if_pos (by
        have : (k : Rat) ≤ 0 := by exact_mod_cast hk
        linarith), cont_low (by omega) Y (by omega), cont_low (by omega) Y (by omega)]
      push_cast
      ring
    · have hk1 : 1 ≤ k := by omega
      have e : ((k : Rat) + t) - 1 = ((k - 1 : Int) : Rat) + t := by push_cast; ring
      have hs := ih (fun i => Y (i + 1)) (k - 1)
      rw [← cont_succ (by omega) Y hk1, show k - 1 + 1 = (k + 1) - 1 by omega, ← cont_succ (by omega) Y (by omega)] at hs
      by_cases hle : (k : Rat) + t ≤ 1
      · have hk' : (1 : Rat) ≤ k := by exact_mod_cast hk1
        have ht : t = 0 := by linarith
        have hkk : (k : Rat) = 1 := by linarith
        have hkk' : k = 1 := by exact_mod_cast hkk
        subst ht hkk'
        rw [if_pos hle]
        have : cont (n + 1 + 2) Y 1 = Y 0 + (1 : Int) * (Y 1 - Y 0) := cont_low (by omega) Y (by omega)
        rw [this]
        push_cast
        ring
      · rw [if_neg hle, e]
        exact hs

theorem ev_left (n : Nat) (Y : Nat → Rat) {u : Rat} (hu : u ≤ 1) : ev (n + 2) Y u = Y 0 + (Y 1 - Y 0) * u := by
  cases n with
  | zero => rfl
  | succ n => unfold ev; rw [if_pos hu]

theorem ev_right (n : Nat) (Y : Nat → Rat) {u : Rat} (hu : (n : Rat) ≤ u) : ev (n + 2) Y u = Y (n + 1) + (Y (n + 1) - Y n) * (u - (n + 1)) := by
  induction n generalizing Y u with
  | zero => unfold ev; simp; ring
  | succ n ih =>
    unfold ev
    push_cast at hu
    by_cases h : u ≤ 1
    · have h0 : (0 : Rat) ≤ n := by positivity
      have hn : (n : Rat) = 0 := by linarith
      have hn' : n = 0 := by exact_mod_cast hn
      have hu1 : u = 1 := by linarith
      subst hn' hu1
      rw [if_pos le_rfl]
      push_cast
      ring
    · rw [if_neg h, ih (fun i => Y (i + 1)) (u := u - 1) (by linarith)]
      push_cast
      ring

theorem ev_affine (n : Nat) (a b : Rat) (u : Rat) : ev (n + 2) (fun i => a * i + b) u = a * u + b := by
  induction n generalizing b u with
  | zero => unfold ev; push_cast; ring
  | succ n ih =>
    unfold ev
    by_cases h : u ≤ 1
    · rw [if_pos h]; push_cast; ring
    · rw [if_neg h]
      have := ih (a + b) (u - 1)
      rw [show (fun i : Nat => a * ((i + 1 : Nat) : Rat) + b) = fun i : Nat => a * (i : Rat) + (a + b) by funext i; push_cast; ring, this]
      ring

/-! ### the profile -/

theorem even_zip {p : Prof} {n : Nat} {x0 d : Rat} {Y : Nat → Rat} (hp : EvenProf p n x0 d Y) :
    p.x.zip ((List.range n).map Y) = (List.range n).map fun i : Nat => (x0 + (i : Rat) * d, Y i) := by
  rw [hp.2.1, List.zip_map']

theorem allSome_even {p : Prof} {n : Nat} {x0 d : Rat} {Y : Nat → Rat} (hp : EvenProf p n x0 d Y) :
    Reshape.allSome (getY p) = some ((List.range n).map Y) := by
  rw [getY_valid hp.1, hp.2.2, Reshape.allSome_some, List.map_map]
  rfl

theorem getD_even {p : Prof} {n : Nat} {x0 d : Rat} {Y : Nat → Rat} (hp : EvenProf p n x0 d Y) {i : Nat} (hi : i < n) :
    p.x.getD i 0 = x0 + (i : Rat) * d := by
  rw [hp.2.1, List.getD_eq_getElem?_getD, List.getElem?_map, List.getElem?_range hi]
  rfl

theorem evenly_even {p : Prof} {n : Nat} {x0 d : Rat} {Y : Nat → Rat} (hp : EvenProf p n x0 d Y) (hn : 2 ≤ n) (hd : 0 < d) : Meas.evenly p.x = true := by
  have hs : List.zipWith (fun a b => b - a) p.x p.x.tail = List.replicate (n - 1) d := by
    rw [hp.2.1]
    apply List.ext_getElem
    · simp
    · intro i h1 h2
      simp only [List.getElem_zipWith, List.getElem_tail, List.getElem_map, List.getElem_range, List.getElem_replicate]
      push_cast
      ring
  unfold Meas.evenly
  simp only
  rw [hs, getD_even hp (show 1 < n by omega), getD_even hp (show 0 < n by omega)]
  rw [List.all_eq_true]
  intro x hx
  rw [List.eq_of_mem_replicate hx]
  obtain ⟨m, hm⟩ : ∃ m, n - 1 = m + 1 := ⟨n - 2, by omega⟩
  have hmax : (List.replicate (n - 1) d).max? = some d := by
    rw [List.max?_eq_some_iff]
    rw [hm]
    exact ⟨by simp, fun b hb => (List.eq_of_mem_replicate hb).le⟩
  rw [hmax]
  simp only [Option.getD_some, decide_eq_true_eq]
  push_cast
  rw [show d - (x0 + 1 * d - (x0 + 0 * d)) = 0 by ring, abs_zero]
  linarith

/-- The gradient in terms of the broken line. -/
theorem gradientAt_eq {p : Prof} {n : Nat} {x0 d : Rat} {Y : Nat → Rat} (hp : EvenProf p (n + 2) x0 d Y) (hd : 0 < d) (u : Rat) (h : Rat) (wanted : Option Rat)
    (hw : wanted.getD d = h * d) :
    gradientAt p (x0 + u * d) wanted = .ok (if u < 0 then (ev (n + 2) Y (u + h) - ev (n + 2) Y u) / (h * d)
      else if (n + 1 : Rat) < u then (ev (n + 2) Y u - ev (n + 2) Y (u - h)) / (h * d)
      else (ev (n + 2) Y (u + h) - ev (n + 2) Y (u - h)) / (2 * (h * d))) := by
  have hl : p.x.length = n + 2 := by rw [hp.2.1]; simp
  have h01 : p.x.getD 1 0 - p.x.getD 0 0 = d := by
    rw [getD_even hp (show 1 < n + 2 by omega), getD_even hp (show 0 < n + 2 by omega)]
    push_cast
    ring
  unfold gradientAt
  rw [if_neg (by omega), if_neg (by rw [evenly_even hp (by omega) hd]; simp), allSome_even hp]
  simp only
  rw [even_zip hp, h01, hw]
  have hb := fun v => broken_ev n hd (x0 := x0) Y v
  rw [show x0 + u * d + h * d = x0 + (u + h) * d by ring, show x0 + u * d - h * d = x0 + (u - h) * d by ring, hb, hb, hb]
  have hlo : (p.x.all fun x => decide (x0 + u * d < x)) = true ↔ u < 0 := by
    rw [List.all_eq_true]
    constructor
    · intro h
      have := h (x0 + ((0 : Nat) : Rat) * d) (by rw [hp.2.1]; exact List.mem_map.2 ⟨0, by simp, rfl⟩)
      rw [decide_eq_true_eq] at this
      push_cast at this
      by_contra hc
      nlinarith
    · intro h x hx
      rw [hp.2.1] at hx
      obtain ⟨i, -, rfl⟩ := List.mem_map.1 hx
      rw [decide_eq_true_eq]
      have : (0 : Rat) ≤ i := by positivity
      nlinarith
  have hup : (p.x.all fun x => decide (x < x0 + u * d)) = true ↔ (n + 1 : Rat) < u := by
    rw [List.all_eq_true]
    constructor
    · intro h
      have := h (x0 + ((n + 1 : Nat) : Rat) * d) (by rw [hp.2.1]; exact List.mem_map.2 ⟨n + 1, by simp, rfl⟩)
      rw [decide_eq_true_eq] at this
      push_cast at this
      by_contra hc
      nlinarith
    · intro h x hx
      rw [hp.2.1] at hx
      obtain ⟨i, hi, rfl⟩ := List.mem_map.1 hx
      rw [decide_eq_true_eq]
      have : (i : Rat) ≤ n + 1 := by
        have := List.mem_range.1 hi
        exact_mod_cast (show i ≤ n + 1 by omega)
      nlinarith
  by_cases c1 : u < 0
  · rw [if_pos (hlo.2 c1), if_pos c1]
  · rw [if_neg (fun h => c1 (hlo.1 h)), if_neg c1]
    by_cases c2 : (n + 1 : Rat) < u
    · rw [if_pos (hup.2 c2), if_pos c2]
    · rw [if_neg (fun h => c2 (hup.1 h)), if_neg c2]

theorem slope_cont {n : Nat} {d : Rat} (hd : 0 < d) (Y : Nat → Rat) {i : Nat} (hi : i < n + 2) :
    (cont (n + 2) Y ((i : Int) + 1) - cont (n + 2) Y ((i : Int) - 1)) / (2 * d) = slope (n + 2) d Y i := by
  unfold slope
  by_cases h0 : i = 0
  · subst h0
    rw [if_pos rfl, cont_low (by omega) Y (by simp), cont_low (by omega) Y (by simp)]
    push_cast
    field_simp
    ring
  · rw [if_neg h0]
    have hm : cont (n + 2) Y ((i : Int) - 1) = Y (i - 1) := by
      unfold cont
      rw [if_neg (by omega), if_pos (by push_cast; omega)]
      congr 1
      omega
    by_cases h1 : i + 1 = n + 2
    · rw [if_pos h1, hm]
      have : i = n + 1 := by omega
      subst this
      unfold cont
      rw [if_neg (by omega), if_neg (by push_cast; omega)]
      simp only [show n + 2 - 1 = n + 1 by omega, show n + 2 - 2 = n by omega, show n + 1 - 1 = n by omega]
      push_cast
      field_simp
      ring
    · rw [if_neg h1, hm]
      have : cont (n + 2) Y ((i : Int) + 1) = Y (i + 1) := by
        unfold cont
        rw [if_neg (by omega), if_pos (by push_cast; omega)]
        congr 1
      rw [this]

/-! ### C269 -/

/-- **C269** At a point of an evenly spaced profile, and between two points, the gradient is the slope at the point, interpolated linearly between the
two points. -/
theorem C269_between {p : Prof} {n : Nat} {x0 d : Rat} {Y : Nat → Rat} (hp : EvenProf p n x0 d Y) (hd : 0 < d) {i : Nat} (hi : i + 1 < n) {t : Rat}
    (h0 : 0 ≤ t) (h1 : t ≤ 1) :
    gradientAt p (x0 + ((i : Rat) + t) * d) none = .ok ((1 - t) * slope n d Y i + t * slope n d Y (i + 1)) := by
  obtain ⟨n, rfl⟩ : ∃ m, n = m + 2 := ⟨n - 2, by omega⟩
  rw [gradientAt_eq hp hd _ 1 none (by simp)]
  have hi0 : (0 : Rat) ≤ i := by positivity
  have hin : (i : Rat) ≤ n := by exact_mod_cast (show i ≤ n by omega)
  rw [if_neg (by linarith), if_neg (by linarith)]
  have e1 : (i : Rat) + t + 1 = ((i + 1 : Int) : Rat) + t := by push_cast; ring
  have e2 : (i : Rat) + t - 1 = ((i - 1 : Int) : Rat) + t := by push_cast; ring
  rw [e1, e2, ev_cont n Y _ h0 h1, ev_cont n Y _ h0 h1, ← slope_cont hd Y (show i < n + 2 by omega), ← slope_cont hd Y (show i + 1 < n + 2 by omega)]
  congr 1
  rw [show ((i + 1 : Nat) : Int) - 1 = (i : Int) by push_cast; ring, show ((i + 1 : Nat) : Int) + 1 = (i : Int) + 1 + 1 by push_cast; ring,
    show (i : Int) - 1 + 1 = (i : Int) by ring]
  ring

/-- **C269** Outside, it is the slope of the nearest segment. -/
theorem C269_outside {p : Prof} {n : Nat} {x0 d : Rat} {Y : Nat → Rat} (hp : EvenProf p n x0 d Y) (hn : 2 ≤ n) (hd : 0 < d) {x : Rat} :
    (x < x0 → gradientAt p x none = .ok ((Y 1 - Y 0) / d)) ∧
    (x0 + ((n - 1 : Nat) : Rat) * d < x → gradientAt p x none = .ok ((Y (n - 1) - Y (n - 2)) / d)) := by
  obtain ⟨n, rfl⟩ : ∃ m, n = m + 2 := ⟨n - 2, by omega⟩
  have hx : x = x0 + ((x - x0) / d) * d := by field_simp; ring
  have hg := gradientAt_eq hp hd ((x - x0) / d) 1 none (by simp)
  rw [← hx] at hg
  rw [hg]
  constructor
  · intro h
    have hu : (x - x0) / d < 0 := div_neg_of_neg_of_pos (by linarith) hd
    rw [if_pos hu, ev_left n Y (by linarith), ev_left n Y (by linarith)]
    congr 1
    rw [one_mul]
    ring
  · intro h
    rw [show n + 2 - 1 = n + 1 by omega] at h ⊢
    rw [show n + 2 - 2 = n by omega]
    have hu : (n + 1 : Rat) < (x - x0) / d := by
      rw [lt_div_iff₀ hd]
      push_cast at h
      linarith
    have h0 : (0 : Rat) ≤ n := by positivity
    rw [if_neg (by linarith), if_pos hu, ev_right n Y (by linarith), ev_right n Y (by linarith)]
    congr 1
    rw [one_mul]
    ring

/-- **C269** The gradient of an affine profile is its slope, at every position and for every interval. -/
theorem C269_affine {p : Prof} {n : Nat} {x0 d a b : Rat} (hp : EvenProf p n x0 d fun i => a * (x0 + i * d) + b) (hn : 2 ≤ n) (hd : 0 < d) (x : Rat)
    {h : Rat} (hh : h ≠ 0) : gradientAt p x (some h) = .ok a ∧ gradientAt p x none = .ok a := by
  obtain ⟨n, rfl⟩ : ∃ m, n = m + 2 := ⟨n - 2, by omega⟩
  have hx : x = x0 + ((x - x0) / d) * d := by field_simp; ring
  have hY : (fun i : Nat => a * (x0 + i * d) + b) = fun i : Nat => (a * d) * (i : Rat) + (a * x0 + b) := by funext i; ring
  rw [hY] at hp
  have key : ∀ (w : Option Rat) (k : Rat), k ≠ 0 → w.getD d = k * d → gradientAt p x w = .ok a := by
    intro w k hk hw
    have hg := gradientAt_eq hp hd ((x - x0) / d) k w hw
    rw [← hx] at hg
    rw [hg]
    simp only [ev_affine]
    congr 1
    split
    · field_simp; ring
    · split
      · field_simp; ring
      · field_simp; ring
  refine ⟨key (some h) (h / d) (div_ne_zero hh hd.ne') ?_, key none 1 one_ne_zero (by simp)⟩
  simp only [Option.getD_some]
  field_simp

/-- **C269** The profile of gradients shows the slopes, times the number that the quotient of the units carries. -/
theorem C269_profile {p : Prof} {n : Nat} {x0 d : Rat} {Y : Nat → Rat} (hp : EvenProf p n x0 d Y) (hn : 2 ≤ n) (hd : 0 < d) :
    ∃ q, gradientProfile p = .ok q ∧ EvenProf q n x0 d (fun i => slope n d Y i * SF.unitNum (p.uy.div p.ux)) ∧ q.ux = p.ux ∧
      q.uy.Compat (p.uy.div p.ux) ∧ SF.unitNum (p.uy.div p.ux) * q.uy.size = p.uy.size / p.ux.size := by
  have hl : p.x.length = n := by rw [hp.2.1]; simp
  have h01 : p.x.getD 1 0 - p.x.getD 0 0 = d := by
    rw [getD_even hp (show 1 < n by omega), getD_even hp (show 0 < n by omega)]
    push_cast
    ring
  have hy : ∀ i, i < n → p.y.getD i none = some (Y i) := by
    intro i hi
    rw [hp.2.2, List.getD_eq_getElem?_getD, List.getElem?_map, List.getElem?_range hi]
    rfl
  have hyl : p.y.length = n := by rw [hp.2.2]; simp
  have hg : ((List.range n).map fun i => (Meas.gradAt (getY p) d i).map (· * SF.unitNum (p.uy.div p.ux))) =
      (List.range n).map fun i => some (slope n d Y i * SF.unitNum (p.uy.div p.ux)) := by
    apply List.map_congr_left
    intro i hi
    have hi := List.mem_range.1 hi
    rw [getY_valid hp.1]
    unfold Meas.gradAt slope
    rw [hyl]
    by_cases c0 : i = 0
    · rw [if_pos c0, if_pos c0, hy 1 (by omega), hy 0 (by omega)]
      rfl
    · rw [if_neg c0, if_neg c0]
      by_cases c1 : i + 1 = n
      · rw [if_pos c1, if_pos c1, hy i hi, hy (i - 1) (by omega)]
        rfl
      · rw [if_neg c1, if_neg c1, hy (i + 1) (by omega), hy (i - 1) (by omega)]
        rfl
  unfold gradientProfile
  rw [if_neg (by omega), if_neg (by rw [evenly_even hp hn hd]; simp), h01, hl, hg]
  refine ⟨_, rfl, ⟨⟨?_, rfl, hp.1.2.2⟩, hp.2.1, rfl⟩, rfl, ?_, ?_⟩
  · show (List.map _ _).length = p.x.length
    rw [hl]
    simp
  · show (SF.unitSym (p.uy.div p.ux)).Compat _
    unfold SF.unitSym
    split
    · next h => exact ⟨h.1.symm, h.2.1.symm, h.2.2.symm⟩
    · exact ⟨rfl, rfl, rfl⟩
  · show SF.unitNum (p.uy.div p.ux) * (SF.unitSym (p.uy.div p.ux)).size = _
    unfold SF.unitNum SF.unitSym
    split
    · simp [Sym.one, Sym.div]
    · simp [Sym.div]

/-- **C269** The gradient at a position does not take the units into account: where the quotient of the units is a number other than 1 (mm over m), it
differs from what the profile of gradients shows at the same point, unless it is null. -/
theorem C269_units_violated {p : Prof} {n : Nat} {x0 d : Rat} {Y : Nat → Rat} (hp : EvenProf p n x0 d Y) (hn : 2 ≤ n) (hd : 0 < d)
    (hu : (p.uy.div p.ux).Compat Sym.one) (h1 : p.uy.size / p.ux.size ≠ 1) {i : Nat} (hi : i + 1 < n) (hs : slope n d Y i ≠ 0) :
    ∃ q v w, gradientProfile p = .ok q ∧ (x0 + (i : Rat) * d, some v) ∈ pts q ∧ gradientAt p (x0 + (i : Rat) * d) none = .ok w ∧ v ≠ w := by
  obtain ⟨q, e, hq, -, -, -⟩ := C269_profile hp hn hd
  have hg := C269_between hp hd hi (t := 0) le_rfl zero_le_one
  rw [add_zero, sub_zero, one_mul, zero_mul, add_zero] at hg
  refine ⟨q, slope n d Y i * SF.unitNum (p.uy.div p.ux), _, e, ?_, hg, ?_⟩
  · rw [pts_valid hq.1, hq.2.1, hq.2.2, List.zip_map', List.mem_map]
    exact ⟨i, List.mem_range.2 (by omega), rfl⟩
  · have hnum : SF.unitNum (p.uy.div p.ux) = p.uy.size / p.ux.size := by
      unfold SF.unitNum
      rw [if_pos hu]
      rfl
    intro hc
    rw [hnum] at hc
    have : slope n d Y i * (p.uy.size / p.ux.size - 1) = 0 := by linarith
    rcases mul_eq_zero.1 this with h | h
    · exact hs h
    · exact h1 (by linarith)

/-! ### examples -/

/-- Displacements in mm along an abscissa in m. -/
def bend : Prof := ⟨[0, 2, 4, 6], [some 0, some 4, some 6, some 20], [false, false, false, false], .m, .mm⟩

theorem bend_even : EvenProf bend 4 0 2 fun i => [0, 4, 6, 20].getD i 0 :=
  ⟨⟨rfl, by decide, by decide +kernel⟩, by decide +kernel, by decide +kernel⟩

example : gradientAt bend 3 none = .ok (11 / 4) := by decide +kernel
example : (bend.uy.div bend.ux).Compat Sym.one ∧ bend.uy.size / bend.ux.size ≠ 1 ∧ slope 4 2 (fun i => [0, 4, 6, 20].getD i 0) 1 ≠ 0 := by
  refine ⟨by decide, by decide +kernel, by decide +kernel⟩

end IMT.Tidy
