import Verif.Crit.DevSort

/-!
Property C278: `get_angle_deviation` measures how evenly the neighbours of a point are spread in direction.
-/

namespace IMT.Crit

open Real

/-! ### lemmas -/

theorem motif_two {nx ny : Nat} {r : Rat} {motif : List (Int × Int)} (h : motifInd nx ny r = .ok motif) (hne : motif ≠ []) :
    2 ≤ motif.length ∧ 1 ≤ r := by
  have hr : 0 < r := by
    by_contra hn
    unfold motifInd Disc.around at h
    rw [if_pos (not_lt.1 hn)] at h
    cases h
  rw [motif_ok nx ny hr] at h
  injection h with h
  obtain ⟨q, t, e⟩ := List.exists_cons_of_ne_nil hne
  have hq : q ∈ motif := by rw [e]; simp
  rw [← h, show q = (q.1, q.2) from rfl, mem_motif hr] at hq
  have hd : (1 : Rat) ≤ r ^ 2 := by
    refine le_trans ?_ hq.2
    have h1 : (1 : Int) ≤ q.1 ^ 2 + q.2 ^ 2 := by
      rcases hq.1 with h1 | h1
      · have := Int.one_le_abs h1
        nlinarith [sq_abs q.1, sq_nonneg q.2]
      · have := Int.one_le_abs h1
        nlinarith [sq_abs q.2, sq_nonneg q.1]
    exact_mod_cast h1
  have hr1 : 1 ≤ r := by nlinarith
  refine ⟨?_, hr1⟩
  have m1 : ((1, 0) : Int × Int) ∈ motif := by rw [← h, mem_motif hr]; exact ⟨.inl (by decide), by simpa using hd⟩
  have m2 : ((0, 1) : Int × Int) ∈ motif := by rw [← h, mem_motif hr]; exact ⟨.inr (by decide), by simpa using hd⟩
  rw [List.mem_iff_getElem] at m1 m2
  obtain ⟨a, ha, ea⟩ := m1
  obtain ⟨b, hb, eb⟩ := m2
  by_contra hl
  have : a = b := by omega
  subst this
  rw [ea] at eb
  exact absurd eb (by decide)

/-- What a shown value is. -/
theorem dev_some {t : Treat} {p : ℝ} {nx ny : Nat} {f : Vel ℝ} {mask : Int → Int → Bool} {r : Rat} {g : Nat → Nat → Option ℝ}
    (hg : devField t p nx ny f mask r = .ok g) {i j : Nat} {v : ℝ} (hv : g i j = some v) :
    1 ≤ p ∧ 1 ≤ r ∧ ∃ motif as, motifInd nx ny r = .ok motif ∧ 2 ≤ motif.length ∧ (neighbours t f motif i j).mapM (angleOf t) = some as ∧ deviation p as = v := by
  unfold devField at hg
  split at hg
  · cases hg
  · next hp =>
    split at hg
    · cases hg
    · next motif hm =>
      split at hg
      · cases hg
      · next hne =>
        injection hg with hg
        subst hg
        dsimp only at hv
        split at hv
        · cases hv
        · rw [Option.map_eq_some_iff] at hv
          obtain ⟨as, h1, h2⟩ := hv
          obtain ⟨h3, h4⟩ := motif_two hm hne
          exact ⟨not_lt.1 hp, h4, motif, as, hm, h3, h1, h2⟩

theorem angle_range {t : Treat} {w : ℝ × ℝ} {a : ℝ} (h : angleOf t w = some a) : (0 ≤ a ∧ a < 2 * π) ∧ a = Pbi.theta w.1 w.2 := by
  have : a = Pbi.theta w.1 w.2 := by
    unfold angleOf at h
    split at h
    · exact (Option.some.inj h).symm
    · split at h
      · cases h
      · exact (Option.some.inj h).symm
  exact ⟨this ▸ Pbi.theta_range _ _, this⟩

theorem mapM_spec {α β : Type} {f : α → Option β} : ∀ {l : List α} {m : List β}, l.mapM f = some m ↔ List.Forall₂ (fun a b => f a = some b) l m
  | [], m => by
    rw [List.mapM_nil]
    constructor
    · intro h; injection h with h; subst h; exact .nil
    · intro h; cases h; rfl
  | a :: l, m => by
    rw [List.mapM_cons]
    constructor
    · intro h
      simp only [Option.bind_eq_bind, Option.bind_eq_some_iff, Option.pure_def, Option.some.injEq] at h
      obtain ⟨b, hb, n, hn, rfl⟩ := h
      exact .cons hb (mapM_spec.1 hn)
    · intro h
      cases h with
      | cons hb hn => rw [hb, mapM_spec.2 hn]; rfl

/-- The angles are the directions of the vectors. -/
theorem angles_dir {t : Treat} {w : List (ℝ × ℝ)} {as : List ℝ} (h : w.mapM (angleOf t) = some as) (h0 : t ≠ .plain ∨ ∀ x ∈ w, x ≠ (0, 0)) :
    List.Forall₂ IsDir w as := by
  rw [mapM_spec] at h
  rw [List.forall₂_iff_get] at h ⊢
  refine ⟨h.1, fun k h1 h2 => ?_⟩
  have e := h.2 k h1 h2
  have hne : w.get ⟨k, h1⟩ ≠ (0, 0) := by
    rcases h0 with h0 | h0
    · unfold angleOf at e
      split at e
      · exact absurd rfl h0
      · split at e
        · cases e
        · next hz => exact ne_zero_iff.2 hz
    · exact h0 _ (List.get_mem _ _)
  rw [(angle_range e).2]
  exact dir_theta hne

theorem forall₂_unique {w : List (ℝ × ℝ)} {as bs : List ℝ} (h : List.Forall₂ IsDir w as) (h' : List.Forall₂ IsDir w bs) : as = bs := by
  induction h generalizing bs with
  | nil => cases h'; rfl
  | cons ha _ ih =>
    cases h' with
    | cons hb ht => rw [dir_unique ha hb, ih ht]

theorem mem_of_forall₂ {w : List (ℝ × ℝ)} {as : List ℝ} (h : List.Forall₂ IsDir w as) :
    (∀ x ∈ w, ∃ a ∈ as, IsDir x a) ∧ ∀ a ∈ as, ∃ x ∈ w, IsDir x a := by
  induction h with
  | nil => simp
  | cons hx _ ih =>
    refine ⟨fun x hm => ?_, fun a hm => ?_⟩
    · rcases List.mem_cons.1 hm with rfl | hm
      · exact ⟨_, List.mem_cons_self, hx⟩
      · obtain ⟨a, ha, hd⟩ := ih.1 x hm; exact ⟨a, List.mem_cons_of_mem _ ha, hd⟩
    · rcases List.mem_cons.1 hm with rfl | hm
      · exact ⟨_, List.mem_cons_self, hx⟩
      · obtain ⟨x, hx', hd⟩ := ih.2 a hm; exact ⟨x, List.mem_cons_of_mem _ hx', hd⟩

theorem devField_congr {t : Treat} {p : ℝ} {nx ny : Nat} {f f' : Vel ℝ} {mask : Int → Int → Bool} {r : Rat}
    (h : ∀ motif, motif ≠ [] → ∀ i j : Nat, ((neighbours t f motif i j).mapM (angleOf t)).map (deviation p) =
      ((neighbours t f' motif i j).mapM (angleOf t)).map (deviation p)) :
    devField t p nx ny f mask r = devField t p nx ny f' mask r := by
  unfold devField
  split
  · rfl
  · split
    · rfl
    · split
      · rfl
      · next hne =>
        congr 1
        funext i j
        rw [h _ hne i j]

theorem mapM_none {α β : Type} {f : α → Option β} : ∀ {l : List α}, l.mapM f = none ↔ ∃ x ∈ l, f x = none
  | [] => by simp
  | a :: l => by
    rw [List.mapM_cons]
    have ih := mapM_none (f := f) (l := l)
    cases ha : f a with
    | none => simp [ha]
    | some b =>
      cases hl : l.mapM f with
      | none =>
        obtain ⟨x, hx, he⟩ := ih.1 hl
        simp only [Option.bind_eq_bind, Option.bind_some, Option.bind_none, true_iff]
        exact ⟨x, List.mem_cons_of_mem _ hx, he⟩
      | some m =>
        have hno : ¬ ∃ x ∈ l, f x = none := fun h => by rw [ih.2 h] at hl; cases hl
        simp only [Option.bind_eq_bind, Option.bind_some, Option.pure_def, reduceCtorEq, false_iff]
        rintro ⟨x, hx, he⟩
        rcases List.mem_cons.1 hx with rfl | hx
        · rw [ha] at he; cases he
        · exact hno ⟨x, hx, he⟩

/-! ### C278 -/

/-- The velocities around a point: the points at index distance at most the radius (the motif of C128), as they are or relatively to
their mean. -/
noncomputable def Around (galilean : Bool) (f : Vel ℝ) (motif : List (Int × Int)) (i j : Int) : List (ℝ × ℝ) :=
  let n : ℝ := motif.length
  let u : ℝ := if galilean then (motif.map fun m => f.vx (m.1 + i) (m.2 + j)).sum / n else 0
  let v : ℝ := if galilean then (motif.map fun m => f.vy (m.1 + i) (m.2 + j)).sum / n else 0
  motif.map fun m => (f.vx (m.1 + i) (m.2 + j) - u, f.vy (m.1 + i) (m.2 + j) - v)

/-- The treatment for each kind of velocities. -/
def treat (galilean : Bool) : Treat := if galilean then .galilean else .plain

theorem neighbours_around (galilean : Bool) (f : Vel ℝ) (motif : List (Int × Int)) (i j : Int) :
    neighbours (treat galilean) f motif i j = Around galilean f motif i j := by
  cases galilean
  · unfold neighbours Around treat
    simp
  · unfold neighbours Around treat meanAround
    simp

/-- C278: the angle deviation lies between zero and one wherever it is shown, whatever the treatment and the order. -/
theorem C278_bounds {t : Treat} {p : ℝ} {nx ny : Nat} {f : Vel ℝ} {mask : Int → Int → Bool} {r : Rat} {g : Nat → Nat → Option ℝ}
    (hg : devField t p nx ny f mask r = .ok g) {i j : Nat} {v : ℝ} (hv : g i j = some v) : 0 ≤ v ∧ v ≤ 1 := by
  obtain ⟨hp, -, motif, as, -, h2, h3, rfl⟩ := dev_some hg hv
  have hf := mapM_spec.1 h3
  have hlen := hf.length_eq
  have hr : ∀ a ∈ as, 0 ≤ a ∧ a < 2 * π := by
    intro a ha
    rw [List.forall₂_iff_get] at hf
    obtain ⟨k, hk, rfl⟩ := List.mem_iff_getElem.1 ha
    exact (angle_range (hf.2 k (by rw [hlen]; exact hk) hk)).1
  exact (dev_spec hp (by rw [← hlen]; simpa [neighbours] using h2) hr).1

/-- C278: where no velocity used is null, the deviation is zero exactly when all the neighbours go in the same direction, and one exactly
when their directions are evenly spread over the turn. -/
theorem C278_extremes {galilean : Bool} {p : ℝ} {nx ny : Nat} {f : Vel ℝ} {mask : Int → Int → Bool} {r : Rat} {g : Nat → Nat → Option ℝ}
    (hg : devField (treat galilean) p nx ny f mask r = .ok g) {i j : Nat} {v : ℝ} (hv : g i j = some v) {motif : List (Int × Int)}
    (hm : motifInd nx ny r = .ok motif) (h0 : ∀ w ∈ Around galilean f motif i j, w ≠ (0, 0)) :
    (v = 0 ↔ ∃ a, ∀ w ∈ Around galilean f motif i j, IsDir w a) ∧
    (v = 1 ↔ ∃ as a, List.Forall₂ IsDir (Around galilean f motif i j) as ∧
      as.Perm ((List.range motif.length).map fun k : Nat => a + k * (2 * π / motif.length))) := by
  obtain ⟨hp, -, motif', as, h1, h2, h3, rfl⟩ := dev_some hg hv
  rw [hm] at h1
  injection h1 with h1
  subst h1
  rw [neighbours_around] at h3
  have hd := angles_dir h3 (.inr h0)
  have hlen : as.length = motif.length := by rw [← hd.length_eq]; simp [Around]
  obtain ⟨m1, m2⟩ := mem_of_forall₂ hd
  have hr : ∀ a ∈ as, 0 ≤ a ∧ a < 2 * π := fun a ha => by
    obtain ⟨x, -, hx⟩ := m2 a ha
    exact ⟨hx.2.1, hx.2.2.1⟩
  obtain ⟨-, z, o⟩ := dev_spec hp (by rw [hlen]; exact h2) hr
  rw [hlen] at o
  refine ⟨z.trans ⟨?_, ?_⟩, o.trans ⟨?_, ?_⟩⟩
  · rintro ⟨a, ha⟩
    refine ⟨a, fun w hw => ?_⟩
    obtain ⟨b, hb, hdb⟩ := m1 w hw
    rw [← ha b hb]; exact hdb
  · rintro ⟨a, ha⟩
    refine ⟨a, fun b hb => ?_⟩
    obtain ⟨x, hx, hdx⟩ := m2 b hb
    exact dir_unique hdx (ha x hx)
  · rintro ⟨a, ha⟩
    exact ⟨as, a, hd, ha⟩
  · rintro ⟨bs, a, hb, ha⟩
    rw [forall₂_unique hb hd] at ha
    exact ⟨a, ha⟩

/-- C278: the deviation is shown where the other criteria are, if no velocity relative to the mean is null; without treatment, wherever they
are. -/
theorem C278_shown {galilean : Bool} {p : ℝ} (hp : 1 ≤ p) {nx ny : Nat} {f : Vel ℝ} {mask : Int → Int → Bool} {r : Rat} (hr : 1 ≤ r) :
    ∃ g motif, devField (treat galilean) p nx ny f mask r = .ok g ∧ motifInd nx ny r = .ok motif ∧
      ∀ i j : Nat, i < nx → j < ny → ((g i j).isSome ↔ Clear nx ny mask r i j ∧ (galilean = true → ∀ w ∈ Around true f motif i j, w ≠ (0, 0))) := by
  have hr0 : 0 < r := by linarith
  have hm := motif_ok nx ny hr0
  have hne : (disc r).eraseIdx ((disc r).length / 2) ≠ [] := by
    apply List.ne_nil_of_mem (a := ((1, 0) : Int × Int))
    rw [mem_motif hr0]
    refine ⟨.inl (by decide), ?_⟩
    have : (1 : Rat) ≤ r ^ 2 := by nlinarith
    simpa using this
  have key : ∀ i j : Nat, (((neighbours (treat galilean) f ((disc r).eraseIdx ((disc r).length / 2)) i j).mapM (angleOf (treat galilean))).map (deviation p)).isSome ↔
      (galilean = true → ∀ w ∈ Around true f ((disc r).eraseIdx ((disc r).length / 2)) i j, w ≠ (0, 0)) := by
    intro i j
    rw [neighbours_around, Option.isSome_map, ← not_iff_not, Bool.not_eq_true, Option.isSome_eq_false_iff, Option.isNone_iff_eq_none, mapM_none]
    cases galilean
    · simp [treat, angleOf]
    · simp only [treat, if_true, angleOf, forall_const, not_forall, not_not, exists_prop]
      constructor
      · rintro ⟨w, hw, h⟩
        refine ⟨w, hw, ?_⟩
        by_contra hn
        rw [if_neg (ne_zero_iff.1 hn)] at h
        cases h
      · rintro ⟨w, hw, rfl⟩
        exact ⟨_, hw, by simp⟩
  refine ⟨_, _, by unfold devField; rw [if_neg (not_lt.2 hp), hm]; simp only [hne, if_false]; rfl, hm, fun i j hi hj => ?_⟩
  have hh := hidden_iff (mask := mask) hr0 hi hj
  cases hb : hidden nx ny r mask ((disc r).eraseIdx ((disc r).length / 2)) i j with
  | true =>
    rw [hb] at hh
    simp only [if_true, Option.isSome_none, Bool.false_eq_true, false_iff]
    intro hc
    exact absurd (hh.2 hc.1) (by decide)
  | false =>
    simp only [Bool.false_eq_true, if_false]
    rw [key i j]
    exact ⟨fun h => ⟨hh.1 hb, h⟩, fun h => h.2⟩

theorem neighbours_scaled {c : ℝ} (t : Treat) (f : Vel ℝ) (motif : List (Int × Int)) (i j : Int) :
    neighbours t (scaled c f) motif i j = (neighbours t f motif i j).map fun w => (c * w.1, c * w.2) := by
  have e1 : meanAround (scaled c f).vx motif i j = c * meanAround f.vx motif i j := mean_scale c f.vx motif i j
  have e2 : meanAround (scaled c f).vy motif i j = c * meanAround f.vy motif i j := mean_scale c f.vy motif i j
  unfold neighbours
  rw [List.map_map, e1, e2]
  apply List.map_congr_left
  intro m _
  cases t <;> simp only [scaled, Function.comp_apply, Prod.mk.injEq] <;> constructor <;> ring

/-- C278: the deviation is the same for velocities any number of times larger. -/
theorem C278_scale (t : Treat) {p : ℝ} {nx ny : Nat} {f : Vel ℝ} {mask : Int → Int → Bool} {r : Rat} {c : ℝ} (hc : 0 < c) :
    devField t p nx ny (scaled c f) mask r = devField t p nx ny f mask r := by
  apply devField_congr
  intro motif _ i j
  rw [neighbours_scaled, List.mapM_map]
  congr 2
  funext w
  simp only [Function.comp_apply]
  have e : (c * w.1) ^ 2 + (c * w.2) ^ 2 = 0 ↔ w.1 ^ 2 + w.2 ^ 2 = 0 := by
    rw [show (c * w.1) ^ 2 + (c * w.2) ^ 2 = c ^ 2 * (w.1 ^ 2 + w.2 ^ 2) by ring]
    constructor
    · intro h
      rcases mul_eq_zero.1 h with h | h
      · exact absurd h (by positivity)
      · exact h
    · intro h; rw [h, mul_zero]
  cases t <;> simp only [angleOf, theta_factor hc, e]

/-- C278: with 'galilean_inv', the deviation is the same in any frame in translation. -/
theorem C278_galilean {p : ℝ} {nx ny : Nat} {f : Vel ℝ} {mask : Int → Int → Bool} {r : Rat} (a b : ℝ) :
    devField .galilean p nx ny (moved a b f) mask r = devField .galilean p nx ny f mask r := by
  apply devField_congr
  intro motif hm i j
  congr 2
  have e1 : meanAround (moved a b f).vx motif i j = meanAround f.vx motif i j + a := mean_moved f.vx a hm i j
  have e2 : meanAround (moved a b f).vy motif i j = meanAround f.vy motif i j + b := mean_moved f.vy b hm i j
  unfold neighbours
  apply List.map_congr_left
  intro m _
  simp only [e1, e2, Prod.mk.injEq]
  simp only [moved]
  constructor <;> ring

/-- The velocities turned by the angle of cosine `c` and sine `s`. -/
def spun (c s : ℝ) (f : Vel ℝ) : Vel ℝ := ⟨fun i j => c * f.vx i j - s * f.vy i j, fun i j => s * f.vx i j + c * f.vy i j, f.dx, f.dy⟩

theorem mean_comb (x y : ℝ) (g h : Int → Int → ℝ) (motif : List (Int × Int)) (i j : Int) :
    meanAround (fun a b => x * g a b + y * h a b) motif i j = x * meanAround g motif i j + y * meanAround h motif i j := by
  unfold meanAround
  have : (motif.map fun m => x * g (m.1 + i) (m.2 + j) + y * h (m.1 + i) (m.2 + j)).sum =
      x * (motif.map fun m => g (m.1 + i) (m.2 + j)).sum + y * (motif.map fun m => h (m.1 + i) (m.2 + j)).sum := by
    induction motif with
    | nil => simp
    | cons m motif ih => simp only [List.map_cons, List.sum_cons, ih]; ring
  rw [this]; ring

/-- C278: with 'galilean_inv' the deviation is the same when all the velocities turn together, by any angle. -/
theorem C278_turned {p : ℝ} {nx ny : Nat} {f : Vel ℝ} {mask : Int → Int → Bool} {r : Rat} {c s : ℝ} (hcs : c ^ 2 + s ^ 2 = 1) :
    devField .galilean p nx ny (spun c s f) mask r = devField .galilean p nx ny f mask r := by
  apply devField_congr
  intro motif _ i j
  have e1 : meanAround (spun c s f).vx motif i j = c * meanAround f.vx motif i j - s * meanAround f.vy motif i j := by
    have := mean_comb c (-s) f.vx f.vy motif i j
    rw [show (spun c s f).vx = fun a b => c * f.vx a b + -s * f.vy a b by funext a b; simp only [spun]; ring, this]; ring
  have e2 : meanAround (spun c s f).vy motif i j = s * meanAround f.vx motif i j + c * meanAround f.vy motif i j := mean_comb s c f.vx f.vy motif i j
  have en : neighbours .galilean (spun c s f) motif i j = (neighbours .galilean f motif i j).map fun w => (c * w.1 - s * w.2, s * w.1 + c * w.2) := by
    unfold neighbours
    rw [List.map_map, e1, e2]
    apply List.map_congr_left
    intro m _
    simp only [spun, Function.comp_apply, Prod.mk.injEq]
    constructor <;> ring
  rw [en, List.mapM_map]
  have ea : (angleOf .galilean ∘ fun w : ℝ × ℝ => (c * w.1 - s * w.2, s * w.1 + c * w.2)) = fun w => (angleOf .galilean w).map (turnBy (Pbi.theta c s)) := by
    funext w
    simp only [Function.comp_apply, angleOf]
    rw [show (c * w.1 - s * w.2) ^ 2 + (s * w.1 + c * w.2) ^ 2 = w.1 ^ 2 + w.2 ^ 2 by linear_combination (w.1 ^ 2 + w.2 ^ 2) * hcs]
    split
    · rfl
    · next h => rw [Option.map_some, theta_turn h hcs]
  rw [ea]
  generalize neighbours .galilean f motif i j = w
  cases hw : w.mapM (angleOf .galilean) with
  | none =>
    have : w.mapM (fun w => (angleOf .galilean w).map (turnBy (Pbi.theta c s))) = none := by
      rw [mapM_none] at hw ⊢
      obtain ⟨x, hx, he⟩ := hw
      exact ⟨x, hx, by rw [he]; rfl⟩
    rw [this]
  | some as =>
    have h2 : w.mapM (fun w => (angleOf .galilean w).map (turnBy (Pbi.theta c s))) = some (as.map (turnBy (Pbi.theta c s))) := by
      rw [mapM_spec] at hw ⊢
      rw [List.forall₂_map_right_iff]
      exact hw.imp fun a b h => by rw [h]; rfl
    rw [h2, Option.map_some, Option.map_some, deviation_turn _ (Pbi.theta_range c s)]
    intro a ha
    obtain ⟨x, -, hx⟩ := (mem_of_forall₂ (angles_dir hw (.inl nofun))).2 a ha
    exact ⟨hx.2.1, hx.2.2.1⟩

/-- C278: the lack of evenness is proportional to the departures of the gaps between neighbouring directions from even ones, whatever the
order: when all the departures are `c` times larger, one minus the deviation is `c` times larger. -/
theorem C278_departure {p : ℝ} (hp : 1 ≤ p) {l l' : List ℝ} (hl : l.length = l'.length) {c : ℝ} (hc : 0 ≤ c)
    (h : List.Forall₂ (fun d d' => d' - 2 * π / l.length = c * (d - 2 * π / l.length)) (gaps (l.insertionSort (· ≤ ·))) (gaps (l'.insertionSort (· ≤ ·)))) :
    1 - deviation p l' = c * (1 - deviation p l) := by
  have hs : ∀ {d d' : List ℝ}, List.Forall₂ (fun x x' => x' - 2 * π / l.length = c * (x - 2 * π / l.length)) d d' →
      (d'.map fun x => |x - 2 * π / l.length| ^ p).sum = c ^ p * (d.map fun x => |x - 2 * π / l.length| ^ p).sum := by
    intro d d' hd
    induction hd with
    | nil => simp
    | cons hx _ ih =>
      rw [List.map_cons, List.map_cons, List.sum_cons, List.sum_cons, ih, hx, abs_mul, abs_of_nonneg hc, mul_rpow hc (abs_nonneg _)]
      ring
  have hsp : spread p l.length (gaps (l'.insertionSort (· ≤ ·))) = c * spread p l.length (gaps (l.insertionSort (· ≤ ·))) := by
    unfold spread
    rw [hs h, mul_rpow (rpow_nonneg hc p) (sum_nonneg' _ _ _), ← rpow_mul hc, mul_one_div_cancel (by linarith), rpow_one]
  unfold deviation
  rw [← hl, hsp]
  ring

/-- C278 fails for 'local': the x component of the centre is taken off both components.  In a uniform flow, where every velocity relative to
the centre is null and has no direction, a value is shown at every point computed, and it says that all the neighbours go the same way, unless
the two components are equal. -/
theorem C278_local_violated {p : ℝ} (hp : 1 ≤ p) {nx ny : Nat} {mask : Int → Int → Bool} {r : Rat} (hr : 1 ≤ r) (dx dy : ℝ) {u v : ℝ} (huv : u ≠ v) :
    ∃ g, devField .local' p nx ny ⟨fun _ _ => u, fun _ _ => v, dx, dy⟩ mask r = .ok g ∧
      ∀ i j : Nat, i < nx → j < ny → Clear nx ny mask r i j → g i j = some 0 := by
  have hr0 : 0 < r := by linarith
  have hm := motif_ok nx ny hr0
  have hne : (disc r).eraseIdx ((disc r).length / 2) ≠ [] := by
    apply List.ne_nil_of_mem (a := ((1, 0) : Int × Int))
    rw [mem_motif hr0]
    refine ⟨.inl (by decide), ?_⟩
    have : (1 : Rat) ≤ r ^ 2 := by nlinarith
    simpa using this
  refine ⟨_, by unfold devField; rw [if_neg (not_lt.2 hp), hm]; simp only [hne, if_false]; rfl, fun i j hi hj hc => ?_⟩
  have h2 := (motif_two hm hne).1
  rw [(hidden_iff hr0 hi hj).2 hc]
  simp only [Bool.false_eq_true, if_false]
  generalize (disc r).eraseIdx ((disc r).length / 2) = motif at h2
  have hmap : (neighbours .local' ⟨fun _ _ => u, fun _ _ => v, dx, dy⟩ motif i j).mapM (angleOf .local') = some (motif.map fun _ => Pbi.theta (u - u) (v - u)) := by
    rw [mapM_spec]
    unfold neighbours
    rw [List.forall₂_map_left_iff, List.forall₂_map_right_iff, List.forall₂_same]
    intro m _
    simp only [angleOf]
    have hvu : v - u ≠ 0 := fun h => huv (by linarith)
    rw [if_neg (by rw [sub_self, zero_pow two_ne_zero, zero_add]; positivity)]
  rw [hmap, Option.map_some]
  congr 1
  refine (dev_spec hp (by rw [List.length_map]; exact h2) ?_).2.1.2 ⟨Pbi.theta (u - u) (v - u), ?_⟩
  · intro a ha
    obtain ⟨m, -, rfl⟩ := List.mem_map.1 ha
    exact Pbi.theta_range _ _
  · intro x hx
    obtain ⟨m, -, rfl⟩ := List.mem_map.1 hx
    rfl

/-! ### a vortex -/

theorem motif_nine : (disc (19 / 10)).eraseIdx ((disc (19 / 10)).length / 2) = [(-1, -1), (0, -1), (1, -1), (-1, 0), (1, 0), (-1, 1), (0, 1), (1, 1)] := by
  decide +kernel

theorem dir_axis {x y a : ℝ} (hn : x ^ 2 + y ^ 2 = 1) (ha : 0 ≤ a ∧ a < 2 * π) (hc : cos a = x) (hs : sin a = y) : Pbi.theta x y = a := by
  have h0 : ((x, y) : ℝ × ℝ) ≠ (0, 0) := ne_zero_iff.2 (by simp only [hn]; norm_num)
  exact dir_unique (w := (x, y)) (dir_theta h0) ⟨h0, ha.1, ha.2, by simp only [hn, sqrt_one]; linarith, by simp only [hn, sqrt_one]; linarith⟩

theorem dir_diag {x y a : ℝ} (hn : x ^ 2 + y ^ 2 = 2) (ha : 0 ≤ a ∧ a < 2 * π) (hc : cos a = x * (√2 / 2)) (hs : sin a = y * (√2 / 2)) : Pbi.theta x y = a := by
  have h0 : ((x, y) : ℝ × ℝ) ≠ (0, 0) := ne_zero_iff.2 (by simp only [hn]; norm_num)
  have h2 : √2 * √2 = (2 : ℝ) := mul_self_sqrt (by norm_num)
  refine dir_unique (w := (x, y)) (dir_theta h0) ⟨h0, ha.1, ha.2, ?_, ?_⟩
  · simp only [hn]; rw [hc]; linear_combination (x / 2) * h2
  · simp only [hn]; rw [hs]; linear_combination (y / 2) * h2

theorem eight : ([(-1, -1), (0, -1), (1, -1), (-1, 0), (1, 0), (-1, 1), (0, 1), (1, 1)] : List (Int × Int)).map (fun m => Pbi.theta m.1 m.2) =
    [5 * (2 * π / 8), 6 * (2 * π / 8), 7 * (2 * π / 8), 4 * (2 * π / 8), 0, 3 * (2 * π / 8), 2 * (2 * π / 8), 1 * (2 * π / 8)] := by
  have hp := pi_pos
  have t1 : Pbi.theta 1 1 = 1 * (2 * π / 8) := dir_diag (by norm_num) (by constructor <;> linarith)
    (by rw [show 1 * (2 * π / 8) = π / 4 by ring, cos_pi_div_four]; ring) (by rw [show 1 * (2 * π / 8) = π / 4 by ring, sin_pi_div_four]; ring)
  have t2 : Pbi.theta 0 1 = 2 * (2 * π / 8) := dir_axis (by norm_num) (by constructor <;> linarith)
    (by rw [show 2 * (2 * π / 8) = π / 2 by ring, cos_pi_div_two]) (by rw [show 2 * (2 * π / 8) = π / 2 by ring, sin_pi_div_two])
  have t3 : Pbi.theta (-1) 1 = 3 * (2 * π / 8) := dir_diag (by norm_num) (by constructor <;> linarith)
    (by rw [show 3 * (2 * π / 8) = π - π / 4 by ring, cos_pi_sub, cos_pi_div_four]; ring)
    (by rw [show 3 * (2 * π / 8) = π - π / 4 by ring, sin_pi_sub, sin_pi_div_four]; ring)
  have t4 : Pbi.theta (-1) 0 = 4 * (2 * π / 8) := dir_axis (by norm_num) (by constructor <;> linarith)
    (by rw [show 4 * (2 * π / 8) = π by ring, cos_pi]) (by rw [show 4 * (2 * π / 8) = π by ring, sin_pi])
  have t5 : Pbi.theta (-1) (-1) = 5 * (2 * π / 8) := dir_diag (by norm_num) (by constructor <;> linarith)
    (by rw [show 5 * (2 * π / 8) = π / 4 + π by ring, cos_add_pi, cos_pi_div_four]; ring)
    (by rw [show 5 * (2 * π / 8) = π / 4 + π by ring, sin_add_pi, sin_pi_div_four]; ring)
  have t6 : Pbi.theta 0 (-1) = 6 * (2 * π / 8) := dir_axis (by norm_num) (by constructor <;> linarith)
    (by rw [show 6 * (2 * π / 8) = π / 2 + π by ring, cos_add_pi, cos_pi_div_two]; ring) (by rw [show 6 * (2 * π / 8) = π / 2 + π by ring, sin_add_pi, sin_pi_div_two])
  have t7 : Pbi.theta 1 (-1) = 7 * (2 * π / 8) := dir_diag (by norm_num) (by constructor <;> linarith)
    (by rw [show 7 * (2 * π / 8) = 2 * π - π / 4 by ring, cos_two_pi_sub, cos_pi_div_four]; ring)
    (by rw [show 7 * (2 * π / 8) = 2 * π - π / 4 by ring, sin_two_pi_sub, sin_pi_div_four]; ring)
  have t0 : Pbi.theta 1 0 = 0 := Pbi.theta_right one_pos
  simp only [List.map_cons, List.map_nil, Int.cast_neg, Int.cast_one, Int.cast_zero, t0, t1, t2, t3, t4, t5, t6, t7]

/-- C278: at the centre of a vortex, a source, a sink or a spiral, in any frame with 'galilean_inv' and at rest without treatment, the
deviation with the default radius is one. -/
theorem C278_vortex (galilean : Bool) {p : ℝ} (hp : 1 ≤ p) {nx ny : Nat} {f : Vel ℝ} {mask : Int → Int → Bool} {i j : Nat} (hi : i < nx) (hj : j < ny)
    (hc : Clear nx ny mask (19 / 10) i j) {α β u v : ℝ} (hne : α ^ 2 + β ^ 2 ≠ 0) (huv : galilean = false → u = 0 ∧ v = 0)
    (hx : ∀ a b : Int, f.vx (a + i) (b + j) = u + (α * a - β * b)) (hy : ∀ a b : Int, f.vy (a + i) (b + j) = v + (β * a + α * b)) :
    ∃ g, devField (treat galilean) p nx ny f mask (19 / 10) = .ok g ∧ g i j = some 1 := by
  have hr0 : (0 : Rat) < 19 / 10 := by norm_num
  have hm := motif_ok nx ny hr0
  have hh := (hidden_iff (mask := mask) hr0 hi hj).2 hc
  rw [motif_nine] at hm hh
  refine ⟨_, by unfold devField; rw [if_neg (not_lt.2 hp), hm]; simp only [reduceCtorEq, if_false]; rfl, ?_⟩
  simp only [hh, Bool.false_eq_true, if_false]
  set motif : List (Int × Int) := [(-1, -1), (0, -1), (1, -1), (-1, 0), (1, 0), (-1, 1), (0, 1), (1, 1)] with hmo
  have hN : neighbours (treat galilean) f motif i j = motif.map fun m => (α * m.1 - β * m.2, β * m.1 + α * m.2) := by
    have e1 : meanAround f.vx motif i j = u := by
      unfold meanAround
      simp only [hx, hmo, List.map_cons, List.map_nil, List.sum_cons, List.sum_nil, List.length_cons, List.length_nil]
      push_cast; ring
    have e2 : meanAround f.vy motif i j = v := by
      unfold meanAround
      simp only [hy, hmo, List.map_cons, List.map_nil, List.sum_cons, List.sum_nil, List.length_cons, List.length_nil]
      push_cast; ring
    unfold neighbours
    apply List.map_congr_left
    intro m _
    cases galilean
    · obtain ⟨rfl, rfl⟩ := huv rfl
      simp only [treat, hx, hy, Bool.false_eq_true, if_false, zero_add]
    · simp only [treat, if_true, e1, e2, hx, hy, Prod.mk.injEq]
      constructor <;> ring
  have hk : 0 < √(α ^ 2 + β ^ 2) := Pbi.norm_pos hne
  have hk2 : √(α ^ 2 + β ^ 2) ^ 2 = α ^ 2 + β ^ 2 := sq_sqrt (by positivity)
  set k := √(α ^ 2 + β ^ 2)
  have hcs : (α / k) ^ 2 + (β / k) ^ 2 = 1 := by
    rw [div_pow, div_pow, ← add_div, ← hk2, div_self (by positivity)]
  have hth : ∀ m ∈ motif, Pbi.theta (α * m.1 - β * m.2) (β * m.1 + α * m.2) = turnBy (Pbi.theta (α / k) (β / k)) (Pbi.theta m.1 m.2) ∧
      (α * m.1 - β * m.2) ^ 2 + (β * m.1 + α * m.2) ^ 2 ≠ 0 := by
    intro m hmm
    have h0 : (m.1 : ℝ) ^ 2 + (m.2 : ℝ) ^ 2 ≠ 0 := by
      rw [hmo] at hmm
      fin_cases hmm <;> norm_num
    refine ⟨?_, ?_⟩
    · have q1 : α * m.1 - β * m.2 = k * (α / k * m.1 - β / k * m.2) := by field_simp
      have q2 : β * m.1 + α * m.2 = k * (β / k * m.1 + α / k * m.2) := by field_simp
      rw [← theta_turn h0 hcs, q1, q2, theta_factor hk]
    · rw [show (α * m.1 - β * m.2) ^ 2 + (β * m.1 + α * m.2) ^ 2 = (α ^ 2 + β ^ 2) * ((m.1 : ℝ) ^ 2 + (m.2 : ℝ) ^ 2) by ring]
      exact mul_ne_zero hne h0
  have hmap : (neighbours (treat galilean) f motif i j).mapM (angleOf (treat galilean)) =
      some ((motif.map fun m => Pbi.theta m.1 m.2).map (turnBy (Pbi.theta (α / k) (β / k)))) := by
    rw [hN, mapM_spec, List.map_map, List.forall₂_map_left_iff, List.forall₂_map_right_iff, List.forall₂_same]
    intro m hmm
    obtain ⟨h1, h2⟩ := hth m hmm
    simp only [Function.comp_apply, ← h1]
    cases galilean
    · rfl
    · simp only [treat, if_true, angleOf, if_neg h2]
  have hr : ∀ a ∈ motif.map (fun m => Pbi.theta m.1 m.2), 0 ≤ a ∧ a < 2 * π := by
    intro a ha
    obtain ⟨m, -, rfl⟩ := List.mem_map.1 ha
    exact Pbi.theta_range _ _
  rw [hmap, Option.map_some, deviation_turn hr (Pbi.theta_range _ _)]
  congr 1
  refine (dev_spec hp (by rw [List.length_map, hmo]; decide) hr).2.2.2 ⟨0, ?_⟩
  rw [List.length_map, hmo, eight]
  have e : (List.range ([(-1, -1), (0, -1), (1, -1), (-1, 0), (1, 0), (-1, 1), (0, 1), (1, 1)] : List (Int × Int)).length) = [0, 1, 2, 3, 4, 5, 6, 7] := rfl
  rw [e]
  simp only [List.map_cons, List.map_nil, List.length_cons, List.length_nil]
  push_cast
  norm_num only [zero_add, zero_mul]
  generalize π / 4 = z
  rw [List.perm_iff_count]
  intro w
  simp only [List.count_cons, List.count_nil]
  omega

/-! ### the hypotheses are met -/

/-- A vortex carried by a stream, on a field of five by five points. -/
example : ∃ g, devField .galilean 2 5 5 ⟨fun a b => 3 - (b - 2), fun a b => 1 + (a - 2), 1, 1⟩ (fun _ _ => false) (19 / 10) = .ok g ∧ g 2 2 = some 1 := by
  refine C278_vortex true (by norm_num) (by norm_num) (by norm_num) ?_ (α := 0) (β := 1) (u := 3) (v := 1) (by norm_num) (by simp) ?_ ?_
  · intro a b h
    refine ⟨?_, rfl⟩
    have ha : (((a - 2 : Int)) : Rat) ^ 2 ≤ (19 / 10) ^ 2 := by have := sq_nonneg ((b : Rat) - 2); push_cast at h ⊢; linarith
    have hb : (((b - 2 : Int)) : Rat) ^ 2 ≤ (19 / 10) ^ 2 := by have := sq_nonneg ((a : Rat) - 2); push_cast at h ⊢; linarith
    rw [sq_le_floor (by norm_num)] at ha hb
    norm_num at ha hb
    omega
  · intro a b; push_cast; ring
  · intro a b; push_cast; ring

/-- The same field meets the hypotheses of the other theorems. -/
example : ∃ g v, devField .galilean 2 5 5 ⟨fun a b => 3 - (b - 2), fun a b => 1 + (a - 2), 1, 1⟩ (fun _ _ => false) (19 / 10) = .ok g ∧ g 2 2 = some v ∧
    0 ≤ v ∧ v ≤ 1 := by
  obtain ⟨g, hg, h1⟩ : ∃ g, devField .galilean 2 5 5 ⟨fun a b => 3 - (b - 2), fun a b => 1 + (a - 2), 1, 1⟩ (fun _ _ => false) (19 / 10) = .ok g ∧ g 2 2 = some 1 := by
    refine C278_vortex true (by norm_num) (by norm_num) (by norm_num) ?_ (α := 0) (β := 1) (u := 3) (v := 1) (by norm_num) (by simp) ?_ ?_
    · intro a b h
      refine ⟨?_, rfl⟩
      have ha : (((a - 2 : Int)) : Rat) ^ 2 ≤ (19 / 10) ^ 2 := by have := sq_nonneg ((b : Rat) - 2); push_cast at h ⊢; linarith
      have hb : (((b - 2 : Int)) : Rat) ^ 2 ≤ (19 / 10) ^ 2 := by have := sq_nonneg ((a : Rat) - 2); push_cast at h ⊢; linarith
      rw [sq_le_floor (by norm_num)] at ha hb
      norm_num at ha hb
      omega
    · intro a b; push_cast; ring
    · intro a b; push_cast; ring
  exact ⟨g, 1, hg, h1, C278_bounds hg h1⟩

/-- Two neighbours at a right angle, and the same half as far from opposite directions. -/
example : 1 - deviation 2 [0, 3 * π / 4] = 1 / 2 * (1 - deviation 2 [0, π / 2]) := by
  have hp := pi_pos
  have e1 : ([0, π / 2] : List ℝ).insertionSort (· ≤ ·) = [0, π / 2] := sort_of_perm (List.Perm.refl _) (by simp; linarith)
  have e2 : ([0, 3 * π / 4] : List ℝ).insertionSort (· ≤ ·) = [0, 3 * π / 4] := sort_of_perm (List.Perm.refl _) (by simp; linarith)
  refine C278_departure (p := 2) (c := 1 / 2) (l := [0, π / 2]) (l' := [0, 3 * π / 4]) (by norm_num) rfl (by norm_num) ?_
  rw [e1, e2]
  simp only [gaps, List.tail_cons, List.zipWith_cons_cons, List.zipWith_nil_right, List.cons_append, List.nil_append, List.headD_cons, List.length_cons, List.length_nil]
  refine .cons ?_ (.cons ?_ .nil) <;> simp <;> ring

end IMT.Crit
