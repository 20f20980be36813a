import Verif.Crit.Model

/-!
Property C128: where the non-local criteria are computed, and on which neighbours.
-/

namespace IMT.Crit

/-! ### lemmas: the motif -/

theorem candidates_shift (c : Nat) (r : Rat) : Disc.candidates (c : Rat) r = (Disc.candidates 0 r).map fun x => x + (c : Int) := by
  unfold Disc.candidates
  have h1 : ⌊(c : Rat) + r⌋ = c + ⌊(0 : Rat) + r⌋ := by rw [zero_add, Int.floor_natCast_add]
  have h2 : ⌈(c : Rat) - r⌉ = c + ⌈(0 : Rat) - r⌉ := by rw [zero_sub, sub_eq_add_neg, Int.ceil_natCast_add]
  rw [h1, h2, List.map_map]
  have : ((c : Int) + ⌊(0 : Rat) + r⌋ + 1 - (c + ⌈(0 : Rat) - r⌉)).toNat = (⌊(0 : Rat) + r⌋ + 1 - ⌈(0 : Rat) - r⌉).toNat := by
    congr 1; ring
  rw [this]
  apply List.map_congr_left
  intro k _
  simp only [Function.comp_apply]; ring

theorem candidates_reverse (r : Rat) : (Disc.candidates 0 r).reverse = (Disc.candidates 0 r).map fun x => -x := by
  unfold Disc.candidates
  have h1 : ⌊(0 : Rat) + r⌋ = ⌊r⌋ := by rw [zero_add]
  have h2 : ⌈(0 : Rat) - r⌉ = -⌊r⌋ := by rw [zero_sub, Int.ceil_neg]
  rw [h1, h2]
  apply List.ext_getElem
  · simp
  · intro k hk hk'
    simp only [List.length_reverse, List.length_map, List.length_range] at hk
    simp only [List.getElem_reverse, List.getElem_map, List.getElem_range, List.length_map, List.length_range]
    omega

/-- The disc around the origin, in the order of the code. -/
def disc (r : Rat) : List (Int × Int) :=
  ((Disc.candidates 0 r).flatMap fun y => (Disc.candidates 0 r).map fun x => (x, y)).filter fun p => Disc.accepted 0 0 r p.1 p.2

theorem accepted_shift (cx cy : Nat) (r : Rat) (x y : Int) :
    Disc.accepted (cx : Rat) (cy : Rat) r (x + cx) (y + cy) = Disc.accepted 0 0 r x y := by
  unfold Disc.accepted
  have e1 : (((x + cx : Int) : Rat) - cx) = (x : Rat) - 0 := by push_cast; ring
  have e2 : (((y + cy : Int) : Rat) - cy) = (y : Rat) - 0 := by push_cast; ring
  have e3 : (((x + cx : Int) : Rat) = cx) ↔ ((x : Rat) = 0) := by
    push_cast; constructor <;> intro h <;> linarith
  have e4 : (((y + cy : Int) : Rat) = cy) ↔ ((y : Rat) = 0) := by
    push_cast; constructor <;> intro h <;> linarith
  rw [e1, e2]
  simp only [e3, e4]

theorem around_shift (cx cy : Nat) {r : Rat} (hr : 0 < r) :
    Disc.around (cx : Rat) (cy : Rat) r = .ok ((disc r).map fun p => (p.1 + (cx : Int), p.2 + (cy : Int))) := by
  unfold Disc.around disc
  rw [if_neg (not_le.mpr hr)]
  congr 1
  rw [candidates_shift cx, candidates_shift cy]
  have e : (((Disc.candidates 0 r).map fun x => x + (cy : Int)).flatMap fun y =>
      ((Disc.candidates 0 r).map fun x => x + (cx : Int)).map fun x => (x, y)) =
      ((Disc.candidates 0 r).flatMap fun y => (Disc.candidates 0 r).map fun x => (x, y)).map
        fun p : Int × Int => (p.1 + (cx : Int), p.2 + (cy : Int)) := by
    rw [List.flatMap_map, List.map_flatMap]
    congr 1
    funext y
    rw [List.map_map, List.map_map]
    rfl
  rw [e, List.filter_map]
  congr 1
  apply List.filter_congr
  intro p _
  exact accepted_shift cx cy r p.1 p.2

theorem disc_reverse (r : Rat) : (disc r).reverse = (disc r).map fun p => (-p.1, -p.2) := by
  unfold disc
  rw [← List.filter_reverse, List.reverse_flatMap, candidates_reverse]
  have e : ((Disc.candidates 0 r).map fun x => -x).flatMap (List.reverse ∘ fun y => (Disc.candidates 0 r).map fun x => (x, y)) =
      ((Disc.candidates 0 r).flatMap fun y => (Disc.candidates 0 r).map fun x => (x, y)).map fun p : Int × Int => (-p.1, -p.2) := by
    rw [List.flatMap_map, List.map_flatMap]
    congr 1
    funext y
    simp only [Function.comp_apply]
    rw [← List.map_reverse, candidates_reverse, List.map_map, List.map_map]
    rfl
  rw [e, List.filter_map]
  congr 1
  apply List.filter_congr
  intro p _
  simp only [Function.comp_apply, Disc.accepted, Int.cast_neg, sub_zero, neg_sq, neg_eq_zero]

theorem disc_spec {r : Rat} (hr : 0 < r) :
    (disc r).Nodup ∧ ∀ i j : Int, (i, j) ∈ disc r ↔ (i : Rat) ^ 2 + (j : Rat) ^ 2 ≤ r ^ 2 := by
  obtain ⟨l, e, n, h⟩ := Disc.C80_disc_exact_partial (cx := ((0 : Nat) : Rat)) (cy := ((0 : Nat) : Rat)) hr
  rw [around_shift 0 0 hr] at e
  simp only [Nat.cast_zero, add_zero, Prod.mk.eta, List.map_id_fun', id_eq, Except.ok.injEq] at e
  subst e
  exact ⟨n, fun i j => by simpa using h i j⟩

/-- The middle of the disc is its centre. -/
theorem disc_middle {r : Rat} (hr : 0 < r) : (disc r)[(disc r).length / 2]? = some (0, 0) := by
  obtain ⟨n, h⟩ := disc_spec hr
  have h0 : ((0, 0) : Int × Int) ∈ disc r := (h 0 0).mpr (by have := sq_nonneg r; simpa using this)
  obtain ⟨k, hk⟩ := List.getElem?_of_mem h0
  have lk := (List.getElem?_eq_some_iff.mp hk).1
  have hr' : (disc r).reverse[(disc r).length - 1 - k]? = some (0, 0) := by
    rw [List.getElem?_reverse (by omega), show (disc r).length - 1 - ((disc r).length - 1 - k) = k by omega, hk]
  rw [disc_reverse, List.getElem?_map, Option.map_eq_some_iff] at hr'
  obtain ⟨p, hp, e⟩ := hr'
  have hp0 : p = (0, 0) := by
    obtain ⟨a, b⟩ := p
    simp only [Prod.mk.injEq, neg_eq_zero] at e ⊢
    exact e
  rw [hp0] at hp
  have := (List.getElem?_inj lk n).mp (hk.trans hp.symm)
  rw [show (disc r).length / 2 = k by omega, hk]

theorem motif_ok (nx ny : Nat) {r : Rat} (hr : 0 < r) :
    motifInd nx ny r = .ok ((disc r).eraseIdx ((disc r).length / 2)) := by
  unfold motifInd
  rw [around_shift _ _ hr]
  dsimp only
  rw [List.map_map, List.length_map]
  congr 2
  rw [List.map_congr_left (g := id), List.map_id]
  intro p _
  simp

theorem mem_motif {r : Rat} (hr : 0 < r) (i j : Int) :
    (i, j) ∈ (disc r).eraseIdx ((disc r).length / 2) ↔ (i ≠ 0 ∨ j ≠ 0) ∧ (i : Rat) ^ 2 + (j : Rat) ^ 2 ≤ r ^ 2 := by
  obtain ⟨n, h⟩ := disc_spec hr
  have hm := disc_middle hr
  have hl := (List.getElem?_eq_some_iff.mp hm).1
  have hg : (disc r)[(disc r).length / 2] = (0, 0) := by
    rw [List.getElem?_eq_getElem hl] at hm; exact Option.some.inj hm
  rw [← List.Nodup.erase_getElem n _ hl, hg, n.mem_erase_iff, h]
  simp only [ne_eq, Prod.mk.injEq, not_and_or]

theorem motif_nodup {r : Rat} (hr : 0 < r) : ((disc r).eraseIdx ((disc r).length / 2)).Nodup :=
  (disc_spec hr).1.eraseIdx _

/-- The motif is symmetric. -/
theorem motif_neg {r : Rat} (hr : 0 < r) (i j : Int) :
    (i, j) ∈ (disc r).eraseIdx ((disc r).length / 2) ↔ (-i, -j) ∈ (disc r).eraseIdx ((disc r).length / 2) := by
  rw [mem_motif hr, mem_motif hr]
  simp

/-! ### C128 -/

/-- C128: the neighbours used with `ind=True` are exactly the grid points at index distance at most `r` from the point, itself
excluded, each once, whatever the size of the field. -/
theorem C128_motif (nx ny : Nat) {r : Rat} (hr : 0 < r) :
    ∃ l, motifInd nx ny r = .ok l ∧ l.Nodup ∧
      ∀ i j : Int, (i, j) ∈ l ↔ (i ≠ 0 ∨ j ≠ 0) ∧ (i : Rat) ^ 2 + (j : Rat) ^ 2 ≤ r ^ 2 :=
  ⟨_, motif_ok nx ny hr, motif_nodup hr, mem_motif hr⟩

/-- The disc of radius `r` around `(i, j)` lies in the field and holds no masked point. -/
def Clear (nx ny : Nat) (mask : Int → Int → Bool) (r : Rat) (i j : Int) : Prop :=
  ∀ a b : Int, ((a : Rat) - i) ^ 2 + ((b : Rat) - j) ^ 2 ≤ r ^ 2 → (0 ≤ a ∧ a < nx ∧ 0 ≤ b ∧ b < ny) ∧ mask a b = false

theorem sq_le_floor {r : Rat} (hr : 0 < r) (k : Int) : (k : Rat) ^ 2 ≤ r ^ 2 ↔ -⌊r⌋ ≤ k ∧ k ≤ ⌊r⌋ := by
  rw [sq_le_sq, abs_of_pos hr, abs_le]
  constructor
  · rintro ⟨h1, h2⟩
    refine ⟨?_, Int.le_floor.mpr h2⟩
    have : (-k : Int) ≤ ⌊r⌋ := Int.le_floor.mpr (by push_cast; linarith)
    omega
  · rintro ⟨h1, h2⟩
    have a : ((-k : Int) : Rat) ≤ r := Int.le_floor.mp (by omega)
    push_cast at a
    exact ⟨by linarith, Int.le_floor.mp h2⟩

/-- The mask of the result. -/
theorem hidden_iff {nx ny : Nat} {mask : Int → Int → Bool} {r : Rat} (hr : 0 < r) {i j : Nat} (hi : i < nx) (hj : j < ny) :
    hidden nx ny r mask ((disc r).eraseIdx ((disc r).length / 2)) i j = false ↔ Clear nx ny mask r i j := by
  have hf : 0 ≤ ⌊r⌋ := Int.floor_nonneg.mpr hr.le
  unfold hidden
  simp only [Bool.or_eq_false_iff]
  constructor
  · rintro ⟨⟨h1, h2, h3⟩, h4⟩ a b hab
    unfold nearEdge at h2 h3
    simp only [Bool.or_eq_false_iff, decide_eq_false_iff_not] at h2 h3
    have ka : (((a - i : Int)) : Rat) ^ 2 ≤ r ^ 2 := by
      have := sq_nonneg ((b : Rat) - j); push_cast at hab ⊢; linarith
    have kb : (((b - j : Int)) : Rat) ^ 2 ≤ r ^ 2 := by
      have := sq_nonneg ((a : Rat) - i); push_cast at hab ⊢; linarith
    rw [sq_le_floor hr] at ka kb
    have hin : 0 ≤ a ∧ a < nx ∧ 0 ≤ b ∧ b < ny := by omega
    refine ⟨hin, ?_⟩
    by_cases hz : a = i ∧ b = j
    · rw [hz.1, hz.2]; exact h1
    · by_contra hm
      have hm : mask a b = true := by simpa using hm
      have : nearMasked nx ny mask ((disc r).eraseIdx ((disc r).length / 2)) i j = true := by
        unfold nearMasked
        rw [List.any_eq_true]
        refine ⟨(a, b), ?_, ?_⟩
        · rw [List.mem_flatMap]
          refine ⟨a.toNat, List.mem_range.mpr (by omega), ?_⟩
          rw [List.mem_map]
          refine ⟨b.toNat, List.mem_range.mpr (by omega), ?_⟩
          simp only [Prod.mk.injEq, Int.ofNat_eq_natCast]; omega
        · rw [Bool.and_eq_true, List.any_eq_true]
          refine ⟨hm, ((i : Int) - a, (j : Int) - b), (mem_motif hr _ _).mpr ⟨by omega, ?_⟩, by simp⟩
          push_cast
          have e1 : ((i : Rat) - a) ^ 2 = (a - i) ^ 2 := by ring
          have e2 : ((j : Rat) - b) ^ 2 = (b - j) ^ 2 := by ring
          rw [e1, e2]; exact_mod_cast hab
      rw [this] at h4; cases h4
  · intro h
    have corner : ∀ k : Int, -⌊r⌋ ≤ k → k ≤ ⌊r⌋ → (0 ≤ i + k ∧ i + k < nx) ∧ (0 ≤ j + k ∧ j + k < ny) := by
      intro k k1 k2
      have hk := (sq_le_floor hr k).mpr ⟨k1, k2⟩
      have a := (h (i + k) j (by push_cast; ring_nf; exact_mod_cast hk)).1
      have b := (h i (j + k) (by push_cast; ring_nf; exact_mod_cast hk)).1
      omega
    have c1 := corner ⌊r⌋ (by omega) (le_refl _)
    have c2 := corner (-⌊r⌋) (le_refl _) (by omega)
    have hc := (h i j (by have := sq_nonneg r; simpa using this)).2
    refine ⟨⟨hc, ?_, ?_⟩, ?_⟩
    · unfold nearEdge; simp only [Bool.or_eq_false_iff, decide_eq_false_iff_not]; omega
    · unfold nearEdge; simp only [Bool.or_eq_false_iff, decide_eq_false_iff_not]; omega
    · unfold nearMasked
      rw [List.any_eq_false]
      intro q _ hq
      rw [Bool.and_eq_true, List.any_eq_true] at hq
      obtain ⟨hm, m, hmem, he⟩ := hq
      have he := of_decide_eq_true he
      have hd := ((mem_motif hr m.1 m.2).mp hmem).2
      have e1 : (m.1 : Rat) = (i : Rat) - q.1 := by
        have : m.1 = (i : Int) - q.1 := by omega
        rw [this]; push_cast; ring
      have e2 : (m.2 : Rat) = (j : Rat) - q.2 := by
        have : m.2 = (j : Int) - q.2 := by omega
        rw [this]; push_cast; ring
      have := (h q.1 q.2 (by
        rw [e1, e2] at hd
        have k1 : ((q.1 : Rat) - ((i : Int) : Rat)) ^ 2 = ((i : Rat) - q.1) ^ 2 := by push_cast; ring
        have k2 : ((q.2 : Rat) - ((j : Int) : Rat)) ^ 2 = ((j : Rat) - q.2) ^ 2 := by push_cast; ring
        rw [k1, k2]; exact hd)).2
      rw [this] at hm; cases hm

section
variable {K : Type} [Field K] [LinearOrder K] [IsStrictOrderedRing K]

theorem criterion_ok (sq : K → K) (k : Kind) (nx ny : Nat) (f : Vel K) (mask : Int → Int → Bool) {r : Rat} (hr : 1 ≤ r) :
    criterion sq k nx ny f mask r = .ok fun i j =>
      if hidden nx ny r mask ((disc r).eraseIdx ((disc r).length / 2)) i j then none
      else some (value sq k f ((disc r).eraseIdx ((disc r).length / 2)) i j) := by
  have hr0 : 0 < r := by linarith
  have hne : (disc r).eraseIdx ((disc r).length / 2) ≠ [] := by
    apply List.ne_nil_of_mem (a := ((1, 0) : Int × Int))
    rw [mem_motif hr0]
    refine ⟨.inl (by decide), ?_⟩
    have : (1 : Rat) ≤ r ^ 2 := by nlinarith
    simpa using this
  unfold criterion
  rw [motif_ok nx ny hr0]
  simp only [hne, if_false]

/-- C128: with `ind=True` and a radius of at least one, a criterion is shown at a point exactly when every grid position within
the radius of that point is a point of the field that is not masked; elsewhere it is masked. -/
theorem C128_shown (sq : K → K) (k : Kind) (nx ny : Nat) (f : Vel K) (mask : Int → Int → Bool) {r : Rat} (hr : 1 ≤ r) :
    ∃ g, criterion sq k nx ny f mask r = .ok g ∧
      ∀ i j, i < nx → j < ny → ((∃ v, g i j = some v) ↔ Clear nx ny mask r i j) := by
  have hr0 : 0 < r := by linarith
  refine ⟨_, criterion_ok sq k nx ny f mask hr, ?_⟩
  intro i j hi hj
  rw [← hidden_iff hr0 hi hj]
  cases hidden nx ny r mask ((disc r).eraseIdx ((disc r).length / 2)) i j <;> simp

/-- C128: a criterion shown at a point depends only on the velocities at the points within the radius. -/
theorem C128_local (sq : K → K) (k : Kind) (nx ny : Nat) {f f' : Vel K} (mask : Int → Int → Bool) {r : Rat} (hr : 1 ≤ r)
    (hdx : f.dx = f'.dx) (hdy : f.dy = f'.dy) {i j : Nat}
    (h : ∀ a b : Int, ((a : Rat) - i) ^ 2 + ((b : Rat) - j) ^ 2 ≤ r ^ 2 → f.vx a b = f'.vx a b ∧ f.vy a b = f'.vy a b) :
    ∃ g g', criterion sq k nx ny f mask r = .ok g ∧ criterion sq k nx ny f' mask r = .ok g' ∧ g i j = g' i j := by
  have hr0 : 0 < r := by linarith
  refine ⟨_, _, criterion_ok sq k nx ny f mask hr, criterion_ok sq k nx ny f' mask hr, ?_⟩
  have hv : ∀ m ∈ (disc r).eraseIdx ((disc r).length / 2), f.vx (m.1 + i) (m.2 + j) = f'.vx (m.1 + i) (m.2 + j) ∧
      f.vy (m.1 + i) (m.2 + j) = f'.vy (m.1 + i) (m.2 + j) := by
    intro m hm
    have hd := ((mem_motif hr0 m.1 m.2).mp hm).2
    apply h
    push_cast
    simpa using hd
  have hc : f.vx i j = f'.vx i j ∧ f.vy i j = f'.vy i j := h i j (by have := sq_nonneg r; simpa using this)
  generalize (disc r).eraseIdx ((disc r).length / 2) = motif at hv
  have ht : ∀ cross u v, total sq f motif cross u v i j = total sq f' motif cross u v i j := by
    intro cross u v
    unfold total
    congr 1
    apply List.map_congr_left
    intro m hm
    simp only [(hv m hm).1, (hv m hm).2, hdx, hdy]
  have mx : meanAround f.vx motif i j = meanAround f'.vx motif i j := by
    unfold meanAround; rw [List.map_congr_left fun m hm => (hv m hm).1]
  have my : meanAround f.vy motif i j = meanAround f'.vy motif i j := by
    unfold meanAround; rw [List.map_congr_left fun m hm => (hv m hm).2]
  have hval : value sq k f motif i j = value sq k f' motif i j := by
    cases k <;> simp only [value, gamma1, gamma2, kappa1, kappa2, kappaMean, ht, mx, my, hc.1, hc.2]
  simp only [hval]
end

end IMT.Crit
