import Verif.Topo.Lemmas

/-! C54-C56, C84: topological simplification. -/

namespace IMT.Topo

/-- Total Poincaré-Bendixson index of a set of points: +1 for foci and nodes (types 1, 2, 4, 5), -1 for saddles
(type 3). -/
def totalIndex (pts : List TPt) : Int := (pts.map fun p => pbiOf p.typ).sum

/-- Index of the original points listed in `c`. -/
def clusterIndex (pts : List TPt) (c : List Nat) : Int := (c.map fun k => pbiOf (pt pts k)).sum

/-- Centre of mass, with equal weights, of the original points listed in `c`. -/
def centre (pts : List TPt) (c : List Nat) : Rat × Rat :=
  ((c.map (px pts)).sum / c.length, (c.map (py pts)).sum / c.length)

/-- Everything about 'replacement' at once. -/
theorem replacement_spec {pts : List TPt} {r : Rat} {fuel : Nat} (hne : pts ≠ []) (hf : pts.length < fuel) :
    ∃ (s : SS) (mem : Nat → List Nat),
      simplify .replacement fuel (some r) pts = some (.ok (finish pts.length s)) ∧
      CInv pts s mem ∧
      ∀ a b, a < b → a ∈ alive pts.length s → b ∈ alive pts.length s → r ^ 2 < sd s a b := by
  have hn : 0 < pts.length := List.length_pos_iff.mpr hne
  have hal : (alive pts.length (init pts)).length < fuel := by
    refine lt_of_le_of_lt (List.length_filter_le _ _) ?_
    simpa using hf
  obtain ⟨s, hs⟩ := loop_replacement_terminates (r2 := r ^ 2) fuel (init pts) (dinv_init pts) hal
  obtain ⟨hd, ⟨mem, hc⟩, hstop⟩ := loop_replacement_inv fuel _ s _ (dinv_init pts) (cinv_init pts) hs
  refine ⟨s, mem, ?_, hc, ?_⟩
  · unfold simplify
    rw [if_neg (by simpa using hne)]
    simp only [Option.map_some]
    rw [hs]; rfl
  · intro a b hab ha hb
    exact stop_min hn hstop a b _ (mem_alive.mp ha).1 (mem_alive.mp hb).1 (hd.full a b hab ha hb)

/-- C54, 'replacement': the total index of the simplified points is that of the original points.
Partial: only when no simplified point is left with the unknown type 0, which the code gives to a group of points
of total index other than -1, 0, 1 (`C54_replacement_violated`). -/
theorem C54_replacement_partial {pts : List TPt} {r : Rat} {fuel : Nat} (hne : pts ≠ []) (hf : pts.length < fuel) :
    ∃ out, simplify .replacement fuel (some r) pts = some (.ok out) ∧
      ((∀ p ∈ out, p.typ ≠ 0) → totalIndex out = totalIndex pts) := by
  obtain ⟨s, mem, h1, hc, -⟩ := replacement_spec (r := r) hne hf
  refine ⟨_, h1, fun h0 => ?_⟩
  have hidx : ∀ i ∈ (alive pts.length s).filter fun i => s.pbis i ≠ 0,
      pbiOf (newType (s.types i) (s.pbis i)) = s.pbis i := by
    intro i hi
    obtain ⟨hi1, hi2⟩ := List.mem_filter.mp hi
    apply pbi_newType
    · rw [hc.pbis i hi1, hc.types i hi1]; simp [total, Function.comp_def]
    · left
      exact h0 ⟨s.xs i, s.ys i, newType (s.types i) (s.pbis i)⟩ (List.mem_map.mpr ⟨i, hi, rfl⟩)
    · simpa using hi2
  have : totalIndex (finish pts.length s) =
      (((alive pts.length s).filter fun i => s.pbis i ≠ 0).map s.pbis).sum := by
    unfold totalIndex finish
    rw [List.map_map]
    congr 1
    exact List.map_congr_left hidx
  rw [this, sum_filter_ne_zero]
  have h2 : (alive pts.length s).map s.pbis =
      (alive pts.length s).map fun a => total (fun k => pbiOf (pt pts k)) (mem a) :=
    List.map_congr_left hc.pbis
  rw [h2, ← total_flatMap, total_perm _ hc.part, sum_range_pt]; rfl

/-- C54, 'only_delete': the total index is conserved, whatever the points. -/
theorem C54_only_delete {pts : List TPt} {r : Rat} {fuel : Nat} (hne : pts ≠ [])
    (hf : pts.length * pts.length < fuel) :
    ∃ out, simplify .onlyDelete fuel (some r) pts = some (.ok out) ∧ totalIndex out = totalIndex pts := by
  obtain ⟨s, pairs, hs, h, -⟩ := loop_onlyDelete (r2 := r ^ 2) fuel (init pts) [] (odinv_init pts _)
    (lt_of_le_of_lt (finiteCells_le _ _) hf)
  refine ⟨finish pts.length s, ?_, ?_⟩
  · unfold simplify
    rw [if_neg (by simpa using hne)]
    simp only [Option.map_some]
    rw [hs]; rfl
  · have e1 : totalIndex (finish pts.length s) =
        (((alive pts.length s).filter fun i => s.pbis i ≠ 0).map s.pbis).sum := by
      unfold totalIndex finish
      rw [List.map_map]
      congr 1
      apply List.map_congr_left
      intro i _
      simp [h.types, h.pbis, newType]
    rw [e1, sum_filter_ne_zero]
    have e2 := total_perm (fun k => pbiOf (pt pts k)) h.part
    rw [total_append, sum_range_pt] at e2
    have e3 : total (fun k => pbiOf (pt pts k)) (pairs.flatMap fun p => [p.1, p.2]) = 0 := by
      have hopp := h.opp
      generalize pairs = ps at hopp
      induction ps with
      | nil => rfl
      | cons p ps ih =>
        rw [List.flatMap_cons, total_append, ih fun q hq => hopp q (by simp [hq])]
        have := (hopp p (by simp)).1
        simpa [total] using this
    rw [e3, add_zero] at e2
    rw [h.pbis]
    exact e2

/-- C54 fails for 'replacement': two close foci (total index 2) become one point of type 0, of index 0. -/
theorem C54_replacement_violated :
    (simplify .replacement 3 (some 1) [⟨0, 0, 1⟩, ⟨1/2, 0, 1⟩]).getD (.error .exception) = .ok [⟨1/4, 0, 0⟩] ∧
    totalIndex [⟨0, 0, 1⟩, ⟨1/2, 0, 1⟩] = 2 ∧ totalIndex [⟨1/4, 0, 0⟩] = 0 := by decide +kernel

/-- C55: 'replacement' terminates for every finite radius, and the remaining points are pairwise further apart
than the radius. -/
theorem C55_terminates_separated {pts : List TPt} {r : Rat} {fuel : Nat} (hne : pts ≠ []) (hf : pts.length < fuel) :
    ∃ out, simplify .replacement fuel (some r) pts = some (.ok out) ∧
      out.Pairwise fun p q => r ^ 2 < (p.x - q.x) ^ 2 + (p.y - q.y) ^ 2 := by
  obtain ⟨s, mem, h1, -, hsep⟩ := replacement_spec (r := r) hne hf
  refine ⟨_, h1, ?_⟩
  unfold finish
  rw [List.pairwise_map]
  have hsorted : (((List.range pts.length).filter s.filt).filter fun i => s.pbis i ≠ 0).Pairwise (· < ·) :=
    (List.pairwise_lt_range.filter _).filter _
  refine (List.pairwise_iff_forall_sublist.mpr ?_)
  intro a b hab
  have hmem : ∀ c ∈ [a, b], c ∈ alive pts.length s := fun c hc =>
    (List.mem_filter.mp (hab.subset hc)).1
  have hlt : a < b := by
    have := (hsorted.sublist hab)
    simpa using this
  exact hsep a b hlt (hmem a (by simp)) (hmem b (by simp))

/-- C55: no point at all is refused (the minimum of an empty array). -/
theorem C55_empty_refused (k : Kind) (fuel : Nat) (r : Option Rat) :
    simplify k fuel r [] = some (.error .valueError) := rfl

/-- C55: an infinite radius, which the property excludes, makes the loop run for ever. -/
theorem C55_infinite_radius_diverges (k : Kind) (pts : List TPt) (hne : pts ≠ []) (fuel : Nat) :
    simplify k fuel none pts = none := by
  have : ∀ (fuel : Nat) (s : SS), loop k pts.length none fuel s = none := by
    intro fuel
    induction fuel with
    | zero => intro s; rfl
    | succ m ih =>
      intro s
      unfold loop step stops
      rw [if_neg (by simp)]
      cases k <;> exact ih _
  unfold simplify
  rw [if_neg (by simpa using hne)]
  simp [this]

/-- C56: there is a partition of the original points in groups such that the simplified points are, in order, the
centres of mass of the groups of non-zero total index; in particular each simplified point is the equally weighted
barycentre of the points it stands for. -/
theorem C56_barycentre {pts : List TPt} {r : Rat} {fuel : Nat} (hne : pts ≠ []) (hf : pts.length < fuel) :
    ∃ (out : List TPt) (groups : List (List Nat)),
      simplify .replacement fuel (some r) pts = some (.ok out) ∧
      groups.flatten.Perm (List.range pts.length) ∧ (∀ c ∈ groups, c ≠ []) ∧
      out.map (fun p => (p.x, p.y)) = (groups.filter fun c => clusterIndex pts c ≠ 0).map (centre pts) := by
  obtain ⟨s, mem, h1, hc, -⟩ := replacement_spec (r := r) hne hf
  refine ⟨_, (alive pts.length s).map mem, h1, ?_, ?_, ?_⟩
  · rw [← List.flatMap_def]; exact hc.part
  · intro c hcm
    obtain ⟨a, ha, rfl⟩ := List.mem_map.mp hcm
    exact hc.ne a ha
  · rw [List.filter_map, List.map_map]
    unfold finish
    rw [List.map_map]
    have hfil : ((List.range pts.length).filter s.filt).filter (fun i => decide (s.pbis i ≠ 0)) =
        (alive pts.length s).filter ((fun c => decide (clusterIndex pts c ≠ 0)) ∘ mem) := by
      apply List.filter_congr
      intro a ha
      have := hc.pbis a ha
      simp only [Function.comp]
      unfold clusterIndex
      rw [this]; rfl
    rw [hfil]
    apply List.map_congr_left
    intro a ha
    have ha' := (List.mem_filter.mp ha).1
    have hlen : ((mem a).length : Rat) ≠ 0 := by
      have := List.length_pos_iff.mpr (hc.ne a ha')
      exact_mod_cast (by omega : (mem a).length ≠ 0)
    simp only [Function.comp, centre]
    rw [Prod.mk.injEq]
    constructor
    · rw [eq_div_iff hlen]; exact hc.x a ha'
    · rw [eq_div_iff hlen]; exact hc.y a ha'

/-- C56: merging conserves the overall centre of mass: the groups' centres weighted by their sizes add up to the
sum of the original positions. -/
theorem C56_mass_conserved (pts : List TPt) (groups : List (List Nat))
    (hp : groups.flatten.Perm (List.range pts.length)) (hne : ∀ c ∈ groups, c ≠ []) :
    (groups.map fun c => (c.length : Rat) * (centre pts c).1).sum = ((List.range pts.length).map (px pts)).sum ∧
    (groups.map fun c => (c.length : Rat) * (centre pts c).2).sum = ((List.range pts.length).map (py pts)).sum := by
  have key : ∀ f : Nat → Rat, (groups.map fun c => (c.length : Rat) * ((c.map f).sum / c.length)).sum =
      ((List.range pts.length).map f).sum := by
    intro f
    rw [← (hp.map f).sum_eq]
    clear hp
    induction groups with
    | nil => rfl
    | cons c cs ih =>
      rw [List.map_cons, List.sum_cons, List.flatten_cons, List.map_append, List.sum_append,
        ih fun d hd => hne d (by simp [hd])]
      congr 1
      have : ((c.length : Nat) : Rat) ≠ 0 := by
        have := List.length_pos_iff.mpr (hne c (by simp))
        exact_mod_cast (by omega : c.length ≠ 0)
      rw [mul_div_cancel₀ _ this]
  exact ⟨key _, key _⟩

/-- C84 ('only_delete'): the points removed form disjoint pairs of opposite index, each pair within the radius; the
others (of non-zero index) are kept unchanged and in order; no two kept points of opposite index are within the
radius. -/
theorem C84_only_delete {pts : List TPt} {r : Rat} {fuel : Nat} (hne : pts ≠ [])
    (hf : pts.length * pts.length < fuel) :
    ∃ (kept : List Nat) (pairs : List (Nat × Nat)),
      simplify .onlyDelete fuel (some r) pts = some (.ok ((kept.filter fun i => pbiOf (pt pts i) ≠ 0).map fun i =>
        ⟨px pts i, py pts i, pt pts i⟩)) ∧
      kept.Pairwise (· < ·) ∧ (kept ++ pairs.flatMap fun p => [p.1, p.2]).Perm (List.range pts.length) ∧
      (∀ p ∈ pairs, pbiOf (pt pts p.1) + pbiOf (pt pts p.2) = 0 ∧
        (px pts p.1 - px pts p.2) ^ 2 + (py pts p.1 - py pts p.2) ^ 2 ≤ r ^ 2) ∧
      ∀ a ∈ kept, ∀ b ∈ kept, a < b → pbiOf (pt pts a) + pbiOf (pt pts b) = 0 →
        r ^ 2 < (px pts a - px pts b) ^ 2 + (py pts a - py pts b) ^ 2 := by
  have hn : 0 < pts.length := List.length_pos_iff.mpr hne
  obtain ⟨s, pairs, hs, h, hstop⟩ := loop_onlyDelete (r2 := r ^ 2) fuel (init pts) [] (odinv_init pts _)
    (lt_of_le_of_lt (finiteCells_le _ _) hf)
  refine ⟨alive pts.length s, pairs, ?_, List.pairwise_lt_range.filter _, h.part, h.opp, ?_⟩
  · unfold simplify
    rw [if_neg (by simpa using hne)]
    simp only [Option.map_some]
    rw [hs, Option.map_some]
    unfold finish
    rw [h.pbis, h.types, h.xs, h.ys]
    rfl
  · intro a ha b hb hab hz
    have hsome := h.full a b hab ha hb hz
    obtain ⟨v, hv⟩ := Option.isSome_iff_exists.mp hsome
    obtain ⟨-, -, -, h4⟩ := h.fin a b v hv
    rw [← h4]
    exact stop_min hn hstop a b v (mem_alive.mp ha).1 (mem_alive.mp hb).1 hv

/-- Four points: a close focus/saddle pair and two isolated foci; the pair disappears. -/
example : (simplify .replacement 5 (some 1) [⟨0, 0, 1⟩, ⟨1/2, 0, 3⟩, ⟨5, 5, 1⟩, ⟨9, 9, 2⟩]).getD
    (.error .exception) = .ok [⟨5, 5, 1⟩, ⟨9, 9, 2⟩] := by decide +kernel

/-- A chain of three points merged two by two: the result is their centre of mass. -/
example : (simplify .replacement 4 (some 1) [⟨0, 0, 1⟩, ⟨1, 0, 3⟩, ⟨1/2, 1/2, 4⟩]).getD
    (.error .exception) = .ok [⟨1/2, 1/6, 1⟩] := by decide +kernel

example : (simplify .onlyDelete 10 (some 1) [⟨0, 0, 1⟩, ⟨1/2, 0, 1⟩, ⟨1/4, 0, 3⟩]).getD
    (.error .exception) = .ok [⟨1/2, 0, 1⟩] := by decide +kernel

end IMT.Topo
