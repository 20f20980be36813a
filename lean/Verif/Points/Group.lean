import Verif.Points.GroupModel
import Verif.Points.Props

namespace IMT.Points

/-! ### Clusters -/

theorem withLabel_length {α β : Type} (l : List α) (k : List β) (labels : List Int) (lab : Int)
    (h1 : l.length = labels.length) (h2 : k.length = labels.length) :
    (withLabel l labels lab).length = (withLabel k labels lab).length := by
  induction labels generalizing l k with
  | nil => simp [withLabel]
  | cons a t ih =>
    cases l with
    | nil => simp at h1
    | cons x l =>
      cases k with
      | nil => simp at h2
      | cons y k =>
        have := ih l k (by simpa using h1) (by simpa using h2)
        simp only [withLabel, List.length_map] at this
        simp only [withLabel, List.length_map, List.zip_cons_cons, List.filter_cons]
        split <;> simp [this]

theorem withLabel_zipWith {α β γ : Type} (f : α → β → γ) (l : List α) (k : List β) (labels : List Int) (lab : Int)
    (h1 : l.length = labels.length) (h2 : k.length = labels.length) :
    withLabel (List.zipWith f l k) labels lab = List.zipWith f (withLabel l labels lab) (withLabel k labels lab) := by
  induction labels generalizing l k with
  | nil => simp [withLabel]
  | cons a t ih =>
    cases l with
    | nil => simp at h1
    | cons x l =>
      cases k with
      | nil => simp at h2
      | cons y k =>
        have := ih l k (by simpa using h1) (by simpa using h2)
        simp only [withLabel] at this
        simp only [withLabel, List.zip_cons_cons, List.filter_cons, List.zipWith_cons_cons]
        split <;> simp [this]

theorem withLabel_map {α β : Type} (f : α → β) (l : List α) (labels : List Int) (lab : Int) :
    withLabel (l.map f) labels lab = (withLabel l labels lab).map f := by
  simp only [withLabel, List.zip_map_left, List.filter_map, List.map_map]
  rfl

theorem oneCluster_spec {p : P} (h : Aligned p) {labels : List Int} (hl : labels.length = p.xy.length) {lab : Int}
    (hm : lab ∈ labels) :
    ∃ q, oneCluster p labels lab = .ok q ∧ rows q = withLabel (rows p) labels lab ∧ q.ux = p.ux ∧ q.uy = p.uy ∧
      q.uv = p.uv ∧ Aligned q := by
  have hpos : p.xy ≠ [] := by
    intro h0; rw [h0] at hl; simp at hl; rw [hl] at hm; simp at hm
  unfold oneCluster new setV
  simp only
  rcases h with h | h
  · have : ¬ p.v.length = p.xy.length := by
      rw [h]; intro h0; exact hpos (List.length_eq_zero_iff.mp h0.symm)
    rw [if_neg this, if_pos (.inl (by simp [h]))]
    refine ⟨_, rfl, ?_, rfl, rfl, rfl, .inl h⟩
    simp only [rows, h, if_true]
    rw [withLabel_map]
  · rw [if_pos h]
    have hlen := withLabel_length p.v p.xy labels lab (by omega) (by omega)
    rw [if_pos (.inr hlen)]
    have hv : p.v ≠ [] := by
      intro h0; rw [h0] at h; exact hpos (List.length_eq_zero_iff.mp h.symm)
    refine ⟨_, rfl, ?_, rfl, rfl, rfl, .inr hlen⟩
    simp only [rows]
    rw [if_neg hv, withLabel_zipWith _ _ _ _ _ hl.symm (by omega)]
    by_cases hw : withLabel p.v labels lab = []
    · rw [if_pos hw, hw]
      have : withLabel p.xy labels lab = [] := by
        rw [← List.length_eq_zero_iff, ← hlen, hw]; rfl
      rw [this]; rfl
    · rw [if_neg hw]

theorem mapM_spec {α β : Type} (f : α → Res β) (R : α → β → Prop) (l : List α) (h : ∀ a ∈ l, ∃ b, f a = .ok b ∧ R a b) :
    ∃ r, l.mapM f = .ok r ∧ List.Forall₂ R l r := by
  induction l with
  | nil => exact ⟨[], rfl, .nil⟩
  | cons a t ih =>
    obtain ⟨b, hb, hR⟩ := h a (by simp)
    obtain ⟨r, hr, hF⟩ := ih fun a ha => h a (by simp [ha])
    refine ⟨b :: r, ?_, .cons hR hF⟩
    rw [List.mapM_cons, hb, hr]; rfl

/-- C282: whatever DBSCAN finds, `get_clusters` returns one set per label, with exactly the points of that label, in their
order, each with its value, and in the units of the source. -/
theorem C282_sets {p : P} (h : Aligned p) {labels uniq : List Int} (hl : labels.length = p.xy.length)
    (hu : Listing labels uniq) :
    ∃ r, clusters p labels uniq = .ok r ∧ List.Forall₂ (fun k q =>
      rows q = (((rows p).zip labels).filter fun a => decide (a.2 = k)).map Prod.fst ∧
      q.ux = p.ux ∧ q.uy = p.uy ∧ q.uv = p.uv ∧ Aligned q) uniq r :=
  mapM_spec _ _ _ fun k hk => by
    obtain ⟨q, h1, h2, h3, h4, h5, h6⟩ := oneCluster_spec h hl ((hu.2 k).mp hk)
    exact ⟨q, h1, h2, h3, h4, h5, h6⟩

theorem flatMap_filter_perm {α : Type} (l : List (α × Int)) (u : List Int) (hn : u.Nodup) (h : ∀ a ∈ l, a.2 ∈ u) :
    (u.flatMap fun k => l.filter fun a => decide (a.2 = k)).Perm l := by
  induction u generalizing l with
  | nil =>
    cases l with
    | nil => simp
    | cons a t => exact absurd (h a (by simp)) (by simp)
  | cons k u ih =>
    rw [List.flatMap_cons]
    have hn' := List.nodup_cons.mp hn
    have := ih (l.filter fun a => decide (a.2 ≠ k)) hn'.2 (by
      intro a ha
      rw [List.mem_filter] at ha
      have := h a ha.1
      simp only [List.mem_cons] at this
      rcases this with h0 | h0
      · exact absurd h0 (by simpa using ha.2)
      · exact h0)
    have he : (u.flatMap fun k' => (l.filter fun a => decide (a.2 ≠ k)).filter fun a => decide (a.2 = k')) =
        u.flatMap fun k' => l.filter fun a => decide (a.2 = k') := by
      apply List.flatMap_congr
      intro k' hk'
      rw [List.filter_filter]
      apply List.filter_congr
      intro a _
      by_cases h1 : a.2 = k'
      · have : k' ≠ k := fun h2 => hn'.1 (h2 ▸ hk')
        simp [h1, this]
      · simp [h1]
    rw [he] at this
    refine (List.Perm.append_left _ this).trans ?_
    have := List.filter_append_perm (fun a : α × Int => decide (a.2 = k)) l
    refine List.Perm.trans (List.Perm.of_eq ?_) this
    congr 1
    apply List.filter_congr
    intro a _
    simp

/-- C282 (nothing lost, nothing twice): the points of the returned sets, together, are the points of the source. -/
theorem C282_all {p : P} (h : Aligned p) {labels uniq : List Int} (hl : labels.length = p.xy.length)
    (hu : Listing labels uniq) {r : List P} (hr : clusters p labels uniq = .ok r) :
    (r.flatMap rows).Perm (rows p) ∧ ∀ q ∈ r, rows q ≠ [] := by
  obtain ⟨r', h1, h2⟩ := C282_sets h hl hu
  rw [h1] at hr
  cases hr
  have hlen : labels.length = (rows p).length := by rw [rows_length h, hl]
  constructor
  · have he : r.flatMap rows = uniq.flatMap fun k =>
        (((rows p).zip labels).filter fun a => decide (a.2 = k)).map Prod.fst := by
      clear hu h1
      induction h2 with
      | nil => rfl
      | cons a _ ih => rw [List.flatMap_cons, List.flatMap_cons, ih, a.1]
    rw [he]
    have := (flatMap_filter_perm ((rows p).zip labels) uniq hu.1 (fun a ha =>
      (hu.2 _).mpr (List.of_mem_zip ha).2)).map Prod.fst
    rw [List.map_flatMap, List.map_fst_zip (by omega)] at this
    exact this
  · intro q hq
    obtain ⟨k, hk, hkq⟩ : ∃ k ∈ uniq, rows q =
        (((rows p).zip labels).filter fun a => decide (a.2 = k)).map Prod.fst := by
      clear hu h1 hlen
      induction h2 with
      | nil => simp at hq
      | cons a _ ih =>
        simp only [List.mem_cons] at hq
        rcases hq with rfl | hq
        · exact ⟨_, by simp, a.1⟩
        · obtain ⟨k, hk, h⟩ := ih hq
          exact ⟨k, by simp [hk], h⟩
    rw [hkq]
    have hm := (hu.2 k).mp hk
    obtain ⟨i, hi, hki⟩ := List.getElem_of_mem hm
    have : (((rows p)[i]'(by omega)), k) ∈ (rows p).zip labels := by
      rw [List.mem_iff_getElem]
      refine ⟨i, by simp; omega, ?_⟩
      simp [hki]
    intro h0
    rw [List.map_eq_nil_iff, List.filter_eq_nil_iff] at h0
    exact h0 _ this (by simp)

theorem forall₂_of_mem {α β : Type} {R : α → β → Prop} {l : List α} {r : List β} (h : List.Forall₂ R l r) {a : α}
    (ha : a ∈ l) : ∃ b ∈ r, R a b := by
  induction h with
  | nil => simp at ha
  | cons h1 _ ih =>
    simp only [List.mem_cons] at ha
    rcases ha with rfl | ha
    · exact ⟨_, by simp, h1⟩
    · obtain ⟨b, hb, h⟩ := ih ha
      exact ⟨b, by simp [hb], h⟩

theorem forall₂_of_mem' {α β : Type} {R : α → β → Prop} {l : List α} {r : List β} (h : List.Forall₂ R l r) {b : β}
    (hb : b ∈ r) : ∃ a ∈ l, R a b := by
  induction h with
  | nil => simp at hb
  | cons h1 _ ih =>
    simp only [List.mem_cons] at hb
    rcases hb with rfl | hb
    · exact ⟨_, by simp, h1⟩
    · obtain ⟨a, ha, h⟩ := ih hb
      exact ⟨a, by simp [ha], h⟩

theorem mem_withLabel {α : Type} {l : List α} {labels : List Int} {k : Int} {a : α} :
    a ∈ withLabel l labels k ↔ ∃ i : Nat, l[i]? = some a ∧ labels[i]? = some k := by
  unfold withLabel
  constructor
  · intro h
    rw [List.mem_map] at h
    obtain ⟨⟨x, j⟩, h1, rfl⟩ := h
    rw [List.mem_filter] at h1
    obtain ⟨h1, h2⟩ := h1
    have h2 : j = k := by simpa using h2
    subst h2
    obtain ⟨i, hi⟩ := List.mem_iff_getElem?.mp h1
    rw [List.getElem?_zip_eq_some] at hi
    exact ⟨i, hi⟩
  · rintro ⟨i, h1, h2⟩
    rw [List.mem_map]
    refine ⟨(a, k), ?_, rfl⟩
    rw [List.mem_filter]
    refine ⟨List.mem_iff_getElem?.mpr ⟨i, ?_⟩, by simp⟩
    rw [List.getElem?_zip_eq_some]
    exact ⟨h1, h2⟩

/-- C282 (what the sets are): for the labels of DBSCAN, core points close to each other come back in the same set, and
every set with a point close to a core point has, for each of its points, a core point of the same set close to it.
Missing: the points that are close to no core point, `C282_noise_violated`. -/
theorem C282_dense_partial {p : P} (h : Aligned p) {l : List (Rat × Rat)} (hp : p.xy = l.map fun a => (some a.1, some a.2))
    {eps : Rat} {m : Nat} {labels uniq : List Int} (hd : IsDbscan l eps m labels) (hu : Listing labels uniq)
    {r : List P} (hr : clusters p labels uniq = .ok r) :
    (∀ i j, Core l eps m i → Core l eps m j → Close l eps i j →
      ∃ q ∈ r, (∃ a, (rows p)[i]? = some a ∧ a ∈ rows q) ∧ ∃ a, (rows p)[j]? = some a ∧ a ∈ rows q) ∧
    ∀ q ∈ r, (∃ i : Nat, ∃ k, (rows p)[i]? = some k ∧ k ∈ rows q ∧ ∀ j, Core l eps m j → ¬ Close l eps j i) ∨
      ∀ a ∈ rows q, ∃ i j : Nat, (rows p)[i]? = some a ∧ Core l eps m j ∧ Close l eps j i ∧
        ∃ b, (rows p)[j]? = some b ∧ b ∈ rows q := by
  have hlen : labels.length = p.xy.length := by rw [hd.length, hp]; simp
  have hrl : (rows p).length = l.length := by rw [rows_length h, hp]; simp
  obtain ⟨r', h1, h2⟩ := C282_sets h hlen hu
  rw [h1] at hr
  cases hr
  have row : ∀ i, i < l.length → ∃ a, (rows p)[i]? = some a := fun i hi =>
    ⟨_, List.getElem?_eq_getElem (by omega)⟩
  constructor
  · intro i j hi hj hij
    have hlab := hd.core i j hi hj hij
    have hil : i < labels.length := by rw [hd.length]; exact hi.2
    obtain ⟨k, hk⟩ : ∃ k, labels[i]? = some k := ⟨_, List.getElem?_eq_getElem hil⟩
    obtain ⟨q, hq, hR⟩ := forall₂_of_mem h2 ((hu.2 k).mpr (List.mem_of_getElem? hk))
    obtain ⟨a, ha⟩ := row i hi.2
    obtain ⟨b, hb⟩ := row j hj.2
    have hw : rows q = withLabel (rows p) labels k := hR.1
    exact ⟨q, hq, ⟨a, ha, hw ▸ mem_withLabel.mpr ⟨i, ha, hk⟩⟩, b, hb, hw ▸ mem_withLabel.mpr ⟨j, hb, hlab ▸ hk⟩⟩
  · intro q hq
    obtain ⟨k, hk, hR⟩ := forall₂_of_mem' h2 hq
    have hw : rows q = withLabel (rows p) labels k := hR.1
    by_cases hk1 : k = -1
    · left
      have hne := (C282_all h hlen hu h1).2 q hq
      obtain ⟨a, ha⟩ := List.exists_mem_of_ne_nil _ hne
      have ha' := ha
      rw [hw] at ha
      obtain ⟨i, hi1, hi2⟩ := mem_withLabel.mp ha
      have hil : i < l.length := by
        have := (List.getElem?_eq_some_iff.mp hi1).1; omega
      exact ⟨i, a, hi1, ha', (hd.noise i hil).mp (hk1 ▸ hi2)⟩
    · right
      intro a ha
      rw [hw] at ha
      obtain ⟨i, hi1, hi2⟩ := mem_withLabel.mp ha
      have hil : i < l.length := by
        have := (List.getElem?_eq_some_iff.mp hi1).1; omega
      obtain ⟨j, hj1, hj2, hj3⟩ := hd.border i hil (by rw [hi2]; simp [hk1])
      obtain ⟨b, hb⟩ := row j hj1.2
      exact ⟨i, j, hi1, hj1, hj2, b, hb, hw ▸ mem_withLabel.mpr ⟨j, hb, hj3.trans hi2⟩⟩

/-- C282 is violated for the points that belong to no cluster: whatever their number and however far they are from each
other, they come back as one set among the clusters. -/
theorem C282_noise_violated {p : P} (h : Aligned p) {l : List (Rat × Rat)}
    (hp : p.xy = l.map fun a => (some a.1, some a.2)) {eps : Rat} {m : Nat} {labels uniq : List Int}
    (hd : IsDbscan l eps m labels) (hu : Listing labels uniq) {r : List P} (hr : clusters p labels uniq = .ok r)
    (hn : ∃ i < l.length, ∀ j, Core l eps m j → ¬ Close l eps j i) :
    ∃ q ∈ r, ∀ a, a ∈ rows q ↔ ∃ i : Nat, (rows p)[i]? = some a ∧ ∀ j, Core l eps m j → ¬ Close l eps j i := by
  have hlen : labels.length = p.xy.length := by rw [hd.length, hp]; simp
  have hrl : (rows p).length = l.length := by rw [rows_length h, hp]; simp
  obtain ⟨r', h1, h2⟩ := C282_sets h hlen hu
  rw [h1] at hr
  cases hr
  obtain ⟨i, hi, hin⟩ := hn
  obtain ⟨q, hq, hR⟩ := forall₂_of_mem h2 ((hu.2 (-1)).mpr (List.mem_of_getElem? ((hd.noise i hi).mpr hin)))
  have hw : rows q = withLabel (rows p) labels (-1) := hR.1
  refine ⟨q, hq, fun a => ?_⟩
  rw [hw, mem_withLabel]
  constructor
  · rintro ⟨j, h3, h4⟩
    have hjl : j < l.length := by
      have := (List.getElem?_eq_some_iff.mp h3).1; omega
    exact ⟨j, h3, (hd.noise j hjl).mp h4⟩
  · rintro ⟨j, h3, h4⟩
    have hjl : j < l.length := by
      have := (List.getElem?_eq_some_iff.mp h3).1; omega
    exact ⟨j, h3, (hd.noise j hjl).mpr h4⟩

/-- Two points close to each other and a third one far away: DBSCAN with `min_samples = 2` labels them 0, 0 and -1, and
two sets come back. -/
example : clusters exP [0, -1, 0] [0, -1] =
    .ok [⟨[(some 1, some 5), (some 2, some 0)], [some 10, some 30], .mm, .mm, .s⟩,
      ⟨[(some 3, some 2)], [some 20], .mm, .mm, .s⟩] := by rfl

/-- Three points, of which two are close to each other. -/
def exL : List (Rat × Rat) := [(0, 0), (1, 0), (9, 9)]

theorem exL_close (i j : Nat) (hi : i < 3) (hj : j < 3) : Close exL 2 i j ↔ (i = j ∨ i < 2 ∧ j < 2) := by
  have : i = 0 ∨ i = 1 ∨ i = 2 := by omega
  have : j = 0 ∨ j = 1 ∨ j = 2 := by omega
  rcases ‹i = 0 ∨ _› with rfl | rfl | rfl <;> rcases ‹j = 0 ∨ _› with rfl | rfl | rfl <;>
    simp [Close, exL, dist2] <;> norm_num

theorem exL_core (i : Nat) : Core exL 2 2 i ↔ i < 2 := by
  constructor
  · rintro ⟨h1, h2⟩
    have h2 : i < 3 := h2
    by_contra h3
    have : i = 2 := by omega
    subst this
    simp [show exL.length = 3 from rfl, List.range_succ, List.filter_cons, exL_close] at h1
  · intro h
    refine ⟨?_, by simp [exL]; omega⟩
    have : i = 0 ∨ i = 1 := by omega
    rcases this with rfl | rfl <;>
      simp [show exL.length = 3 from rfl, List.range_succ, List.filter_cons, exL_close]

/-- DBSCAN with a radius of 2 and `min_samples = 2` labels them 0, 0 and -1: the hypotheses of `C282_dense_partial` and
of `C282_noise_violated` are met. -/
example : IsDbscan exL 2 2 [0, 0, -1] ∧ Listing [0, 0, -1] [0, -1] ∧
    ∃ i < exL.length, ∀ j, Core exL 2 2 j → ¬ Close exL 2 j i := by
  refine ⟨⟨rfl, ?_, ?_, ?_⟩, ⟨by decide, by simp⟩, 2, by simp [exL], ?_⟩
  · intro i hi
    have : i = 0 ∨ i = 1 ∨ i = 2 := by simp [exL] at hi; omega
    rcases this with rfl | rfl | rfl
    · simp only [List.getElem?_cons_zero, Option.some.injEq]
      refine ⟨fun h => by omega, fun h => absurd ((exL_close 0 0 (by omega) (by omega)).mpr (.inl rfl))
        (h 0 ((exL_core 0).mpr (by omega)))⟩
    · simp only [List.getElem?_cons_succ, List.getElem?_cons_zero, Option.some.injEq]
      refine ⟨fun h => by omega, fun h => absurd ((exL_close 0 1 (by omega) (by omega)).mpr (.inr (by omega)))
        (h 0 ((exL_core 0).mpr (by omega)))⟩
    · simp only [List.getElem?_cons_succ, List.getElem?_cons_zero, true_iff]
      intro j hj hc
      rw [exL_core] at hj
      rw [exL_close j 2 (by omega) (by omega)] at hc
      omega
  · intro i hi hn
    have : i = 0 ∨ i = 1 ∨ i = 2 := by simp [exL] at hi; omega
    rcases this with rfl | rfl | rfl
    · exact ⟨0, (exL_core 0).mpr (by omega), (exL_close 0 0 (by omega) (by omega)).mpr (.inl rfl), rfl⟩
    · exact ⟨0, (exL_core 0).mpr (by omega), (exL_close 0 1 (by omega) (by omega)).mpr (.inr (by omega)), rfl⟩
    · exact absurd rfl hn
  · intro i j hi hj _
    rw [exL_core] at hi hj
    have h1 : i = 0 ∨ i = 1 := by omega
    have h2 : j = 0 ∨ j = 1 := by omega
    rcases h1 with rfl | rfl <;> rcases h2 with rfl | rfl <;> rfl
  · intro j hj hc
    rw [exL_core] at hj
    rw [exL_close j 2 (by omega) (by omega)] at hc
    omega

/-! ### Units -/

/-- C283: changing the unit of an axis keeps every physical position and every value, and gives the asked unit. -/
theorem C283_positions (q : Kinded) (u : Sym) (h0 : u.size ≠ 0) :
    (q.p.ux.Compat u → (changeUnit q .x u).2 = .ok ⟨⟩ ∧ (changeUnit q .x u).1.p.ux = u ∧
      (changeUnit q .x u).1.p.xy.map (fun c => (si u c.1, c.2)) = q.p.xy.map (fun c => (si q.p.ux c.1, c.2)) ∧
      (changeUnit q .x u).1.p.v = q.p.v ∧ (changeUnit q .x u).1.p.uy = q.p.uy ∧ (changeUnit q .x u).1.p.uv = q.p.uv) ∧
    (q.p.uy.Compat u → (changeUnit q .y u).2 = .ok ⟨⟩ ∧ (changeUnit q .y u).1.p.uy = u ∧
      (changeUnit q .y u).1.p.xy.map (fun c => (c.1, si u c.2)) = q.p.xy.map (fun c => (c.1, si q.p.uy c.2)) ∧
      (changeUnit q .y u).1.p.v = q.p.v ∧ (changeUnit q .y u).1.p.ux = q.p.ux ∧
      (changeUnit q .y u).1.p.uv = q.p.uv) := by
  have key : ∀ (w : Sym) (c : F), si u (c.map (· * fact w u)) = si w c := by
    intro w c
    cases c with
    | none => rfl
    | some a =>
      simp only [si, fact, Option.map_some, Option.some.injEq]
      field_simp
  refine ⟨fun hc => ?_, fun hc => ?_⟩
  · simp only [changeUnit, if_pos hc, List.map_map]
    refine ⟨trivial, trivial, ?_, trivial, trivial, trivial⟩
    apply List.map_congr_left
    intro c _
    simp [key]
  · simp only [changeUnit, if_pos hc, List.map_map]
    refine ⟨trivial, trivial, ?_, trivial, trivial, trivial⟩
    apply List.map_congr_left
    intro c _
    simp [key]

/-- C283 (values): the physical values are kept as well.  Missing: values stored as integers, `C283_integers_violated`. -/
theorem C283_values_partial (q : Kinded) (u : Sym) (h0 : u.size ≠ 0) (hc : q.p.uv.Compat u) (hi : q.vInt = false) :
    (changeUnit q .v u).2 = .ok ⟨⟩ ∧ (changeUnit q .v u).1.p.uv = u ∧
      (changeUnit q .v u).1.p.v.map (si u) = q.p.v.map (si q.p.uv) ∧
      (changeUnit q .v u).1.p.xy = q.p.xy ∧ (changeUnit q .v u).1.p.ux = q.p.ux ∧
      (changeUnit q .v u).1.p.uy = q.p.uy := by
  simp only [changeUnit, if_pos hc, hi, Bool.false_eq_true, false_and, if_false, List.map_map]
  refine ⟨trivial, trivial, ?_, trivial, trivial, trivial⟩
  apply List.map_congr_left
  intro c _
  cases c with
  | none => rfl
  | some a =>
    simp only [Function.comp, si, fact, Option.map_some, Option.some.injEq]
    field_simp

/-- C283 (refusal): a unit of another dimension is refused and the set is left as it was. -/
theorem C283_refused (q : Kinded) (a : Axe) (u : Sym)
    (hc : ¬ (match a with | .x => q.p.ux | .y => q.p.uy | .v => q.p.uv).Compat u) :
    changeUnit q a u = (q, .error .valueError) := by
  cases a <;> simp only at hc <;> simp only [changeUnit, if_neg hc]

/-- C283 (there and back): coming back to the first unit gives the first set. -/
theorem C283_back (q : Kinded) (u : Sym) (h0 : u.size ≠ 0) (h1 : q.p.ux.size ≠ 0) (hc : q.p.ux.Compat u) :
    (changeUnit (changeUnit q .x u).1 .x q.p.ux).1 = q := by
  have hc' : u.Compat q.p.ux := ⟨hc.1.symm, hc.2.1.symm, hc.2.2.symm⟩
  simp only [changeUnit, if_pos hc, if_pos hc', List.map_map]
  have : ((fun c : F × F => (c.1.map (· * fact u q.p.ux), c.2)) ∘ fun c : F × F => (c.1.map (· * fact q.p.ux u), c.2)) =
      id := by
    funext ⟨a, b⟩
    cases a with
    | none => rfl
    | some a =>
      simp only [Function.comp, Option.map_some, id, Prod.mk.injEq, Option.some.injEq, and_true, fact]
      field_simp
  rw [this]; simp

/-- C283 is violated: the unit of values given as integers cannot be changed to one of another size. -/
theorem C283_integers_violated (q : Kinded) (u : Sym) (hc : q.p.uv.Compat u) (hi : q.vInt = true) (hv : q.p.v ≠ [])
    (hs : q.p.uv.size ≠ u.size) : changeUnit q .v u = (q, .error .typeError) := by
  simp only [changeUnit, if_pos hc]
  rw [if_pos ⟨hi, hv, hs⟩]

example : (changeUnit ⟨exP, false⟩ .x .m).1.p.xy =
    [(some (1/1000), some 5), (some (3/1000), some 2), (some (2/1000), some 0)] ∧
    (changeUnit ⟨exP, false⟩ .v .ms).1.p.v = [some 10000, some 20000, some 30000] := by decide +kernel

/-- The hypotheses of `C283_integers_violated` are met by seconds changed to milliseconds. -/
example : exP.uv.Compat .ms ∧ exP.v ≠ [] ∧ exP.uv.size ≠ Sym.ms.size := by decide +kernel

/-! ### The array behind a set of points -/

/-- The operations that write in the array of the set. -/
def Act.inPlace : Act → Bool
  | .origin _ _ | .scale _ _ | .unitX _ => true
  | .add _ | .crop _ _ => false

/-- The set after a history. -/
def hist (s : Shared) (h : List Act) : Shared := h.foldl (fun s a => a.run s) s

theorem run_own (a : Act) (s : Shared) {l : List (F × F)} (h : s.own = some l) :
    (a.run s).arr = s.arr ∧ ∃ l', (a.run s).own = some l' := by
  cases a <;> simp only [Act.run, Shared.write, h]
  · exact ⟨trivial, _, rfl⟩
  · exact ⟨trivial, _, rfl⟩
  · split
    · exact ⟨rfl, _, rfl⟩
    · exact ⟨rfl, _, h⟩
  · exact ⟨trivial, _, rfl⟩
  · exact ⟨trivial, _, rfl⟩

theorem hist_own (h : List Act) (s : Shared) {l : List (F × F)} (ho : s.own = some l) : (hist s h).arr = s.arr := by
  induction h generalizing s l with
  | nil => rfl
  | cons a t ih =>
    obtain ⟨h1, l', h2⟩ := run_own a s ho
    rw [hist, List.foldl_cons]
    rw [← h1]
    exact ih _ h2

theorem run_shared (a : Act) (s : Shared) (h : s.own = none) (ha : a.inPlace = true) :
    (a.run s).own = none ∧ (a.run s).arr = (a.run s).xy := by
  cases a <;> simp only [Act.inPlace, Bool.false_eq_true] at ha <;> simp only [Act.run, Shared.write, h]
  · simp [Shared.xy]
  · simp [Shared.xy]
  · split
    · simp [Shared.xy]
    · simp [Shared.xy, h]

theorem hist_shared (h : List Act) (s : Shared) (ho : s.own = none) (hi : ∀ a ∈ h, a.inPlace = true) :
    (hist s h).own = none := by
  induction h generalizing s with
  | nil => exact ho
  | cons a t ih =>
    rw [hist, List.foldl_cons]
    exact ih _ (run_shared a s ho (hi a (by simp))).1 fun b hb => hi b (by simp [hb])

theorem run_new (a : Act) (s : Shared) (ha : a.inPlace = false) : (a.run s).arr = s.arr ∧ ∃ l, (a.run s).own = some l := by
  cases a <;> simp only [Act.inPlace, Bool.true_eq_false] at ha <;> simp only [Act.run]
  · exact ⟨trivial, _, rfl⟩
  · exact ⟨trivial, _, rfl⟩

/-- C284: the array from which a set of points was made is left alone by every history of the set that begins with an
operation giving the set an array of its own (`add`, `crop`).  Missing: the other histories, `C284_array_violated`. -/
theorem C284_array_partial (arr : List (F × F)) (u : Sym) (a : Act) (h : List Act) (ha : a.inPlace = false) :
    (hist (made arr u) (a :: h)).arr = arr := by
  obtain ⟨h1, l, h2⟩ := run_new a (made arr u) ha
  rw [hist, List.foldl_cons]
  exact (hist_own h _ h2).trans h1

/-- C284 is violated: as long as a set is moved, scaled or has its unit changed, the array from which it was made holds,
at every moment, the positions of the set. -/
theorem C284_array_violated (arr : List (F × F)) (u : Sym) (h : List Act) (hi : ∀ a ∈ h, a.inPlace = true) :
    (hist (made arr u) h).arr = (hist (made arr u) h).xy := by
  unfold Shared.xy
  rw [hist_shared h _ rfl hi]

/-- C284 is violated by every displacement: setting the origin of a set to another point changes the array from which the
set was made, and so every other set made from it. -/
theorem C284_origin_violated (arr : List (F × F)) (u : Sym) (x y : Rat) (hxy : x ≠ 0 ∨ y ≠ 0)
    (ha : ∃ a b : Rat, (some a, some b) ∈ arr) :
    (hist (made arr u) [.origin (some x) (some y)]).arr = arr.map (fun c => (c.1.map (· - x), c.2.map (· - y))) ∧
    (hist (made arr u) [.origin (some x) (some y)]).arr ≠ arr := by
  have he : (hist (made arr u) [.origin (some x) (some y)]).arr =
      arr.map (fun c => (c.1.map (· - x), c.2.map (· - y))) := rfl
  refine ⟨he, ?_⟩
  rw [he]
  intro h0
  obtain ⟨a, b, hab⟩ := ha
  have hid : arr.map (fun c => (c.1.map (· - x), c.2.map (· - y))) = arr.map id := by rw [h0]; simp
  have := (List.map_inj_left.mp hid) _ hab
  simp only [Option.map_some, id, Prod.mk.injEq, Option.some.injEq] at this
  rcases hxy with hx | hy
  · exact hx (by linarith [this.1])
  · exact hy (by linarith [this.2])

/-- C284 (what the set shows): whatever is shared, each operation acts on the positions of the set as it should. -/
theorem C284_set (s : Shared) :
    (∀ x y, ((Act.origin x y).run s).xy = s.xy.map fun c => (c.1.map (· - x.getD 0), c.2.map (· - y.getD 0))) ∧
    (∀ sx sy, ((Act.scale sx sy).run s).xy = s.xy.map fun c => (c.1.map (· * sx), c.2.map (· * sy))) ∧
    (∀ pt, ((Act.add pt).run s).xy = s.xy ++ [pt]) ∧
    (∀ ix iy, ((Act.crop ix iy).run s).xy = s.xy.filter fun c => !(out ix c.1 || out iy c.2)) ∧
    ∀ w, w.size ≠ 0 → s.ux.Compat w → ((Act.unitX w).run s).ux = w ∧
      ((Act.unitX w).run s).xy.map (fun c => (si w c.1, c.2)) = s.xy.map fun c => (si s.ux c.1, c.2) := by
  refine ⟨fun x y => ?_, fun sx sy => ?_, fun pt => rfl, fun ix iy => sel_map _ _, fun w hw hc => ?_⟩
  · cases h : s.own <;> simp [Act.run, Shared.write, Shared.xy, h]
  · cases h : s.own <;> simp [Act.run, Shared.write, Shared.xy, h]
  · have key : ∀ c : F, si w (c.map (· * fact s.ux w)) = si s.ux c := by
      intro c
      cases c with
      | none => rfl
      | some a =>
        simp only [si, fact, Option.map_some, Option.some.injEq]
        field_simp
    cases h : s.own <;> simp [Act.run, Shared.write, Shared.xy, h, if_pos hc, key, Function.comp_def]

example : (hist (made exP.xy .mm) [.origin (some 1) none, .add (some 0, some 0), .scale 2 2]).arr =
    [(some 0, some 5), (some 2, some 2), (some 1, some 0)] := by decide +kernel

end IMT.Points
