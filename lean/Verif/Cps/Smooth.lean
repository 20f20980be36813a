import Verif.Cps.SmoothModel
import Verif.Cps.Crop
import Verif.TPoints.Smooth

/-! C372: smoothing of trajectories. -/

namespace IMT.Cps

open Cp (Kind kinds)
open Points (P F rows)
open TPoints (Scipy Tos smoothPts Made Means Averaged)

variable {s : Scipy}

/-! ### lemmas -/

theorem smoothSets_ok {size : Option Nat} (h0 : size ≠ some 0) : ∀ l : List P, (∀ p ∈ l, ∃ xs ys vs, Made p xs ys vs) →
    ∃ l', smoothSets s (.uniform size) l = (l', .ok ⟨⟩) ∧ List.Forall₂ (Averaged (size.getD 3)) l l' := by
  intro l
  induction l with
  | nil => exact fun _ => ⟨[], rfl, .nil⟩
  | cons p ps ih =>
    intro h
    obtain ⟨l', e, hl⟩ := ih fun q hq => h q (List.mem_cons_of_mem _ hq)
    obtain ⟨xs, ys, vs, hp⟩ := h p List.mem_cons_self
    obtain ⟨q, ha, eq⟩ := TPoints.C358_uniform_partial (s := s) hp h0 true
    rw [if_pos rfl] at eq
    refine ⟨q :: l', ?_, .cons ha hl⟩
    simp only [smoothSets, eq, e]

theorem smoothKinds_ok {size : Option Nat} (h0 : size ≠ some 0) : ∀ (ks : List Kind) (c : CP) (T : Kind → List P), ks.Nodup → (∀ k, Has c k (T k)) →
    (∀ k, ∀ p ∈ T k, ∃ xs ys vs, Made p xs ys vs) →
    ∃ r, smoothKinds s (.uniform size) c ks = (r, .ok ⟨⟩) ∧ r.pts = c.pts ∧ r.times = c.times ∧ r.ux = c.ux ∧ r.uy = c.uy ∧ r.ut = c.ut ∧ r.eps = c.eps ∧
      ∀ k, (k ∈ ks → ∃ T', Has r k T' ∧ List.Forall₂ (Averaged (size.getD 3)) (T k) T') ∧ (k ∉ ks → r.traj k = c.traj k) := by
  intro ks
  induction ks with
  | nil => exact fun c T _ _ _ => ⟨c, rfl, rfl, rfl, rfl, rfl, rfl, rfl, fun k => ⟨fun h => absurd h List.not_mem_nil, fun _ => rfl⟩⟩
  | cons a ks ih =>
    intro c T hn hT hm
    obtain ⟨t, e1, e2⟩ := hT a
    obtain ⟨l, e3, hl⟩ := smoothSets_ok (s := s) h0 t.sets (by rw [e2]; exact hm a)
    have hna := (List.nodup_cons.mp hn).1
    have hstep : ∃ c' : CP, c' = { c with traj := fun k' => if k' = a then some { t with sets := l } else c.traj k' } := ⟨_, rfl⟩
    obtain ⟨c', hc'⟩ := hstep
    have hHas : ∀ k, Has c' k (if k = a then l else T k) := by
      intro k
      by_cases hk : k = a
      · subst hk
        exact ⟨{ t with sets := l }, by rw [hc']; simp, by simp⟩
      · obtain ⟨u, u1, u2⟩ := hT k
        exact ⟨u, by rw [hc']; simp [hk, u1], by simp [hk, u2]⟩
    have hmade : ∀ k, ∀ p ∈ (if k = a then l else T k), ∃ xs ys vs, Made p xs ys vs := by
      intro k p hp
      by_cases hk : k = a
      · rw [if_pos hk] at hp
        obtain ⟨i, hi⟩ := List.getElem?_of_mem hp
        obtain ⟨q, -, hq⟩ : ∃ q, q ∈ t.sets ∧ Averaged (size.getD 3) q p := by
          have := List.forall₂_iff_get.mp hl
          obtain ⟨hlen, hall⟩ := this
          have hil : i < l.length := (List.getElem?_eq_some_iff.mp hi).1
          refine ⟨t.sets.get ⟨i, by omega⟩, List.get_mem _ _, ?_⟩
          have := hall i (by omega) hil
          rw [List.getElem?_eq_getElem hil, Option.some.injEq] at hi
          rw [← hi]
          exact this
        obtain ⟨-, -, -, xs, ys, vs, -, hp', -⟩ := hq
        exact ⟨xs, ys, vs, hp'⟩
      · rw [if_neg hk] at hp
        exact hm k p hp
    obtain ⟨r, r0, r1, r2, r3, r4, r5, r6, r7⟩ := ih c' _ (List.nodup_cons.mp hn).2 hHas hmade
    refine ⟨r, ?_, by rw [r1, hc'], by rw [r2, hc'], by rw [r3, hc'], by rw [r4, hc'], by rw [r5, hc'], by rw [r6, hc'], ?_⟩
    · simp only [smoothKinds, e1, e3]
      rw [← hc']
      exact r0
    · intro k
      by_cases hk : k = a
      · subst hk
        refine ⟨fun _ => ⟨l, ?_, e2 ▸ hl⟩, fun h => absurd List.mem_cons_self h⟩
        refine ⟨{ t with sets := l }, ?_, rfl⟩
        rw [(r7 k).2 hna, hc']
        simp
      · refine ⟨fun h => ?_, fun h => ?_⟩
        · have := (r7 k).1 ((List.mem_cons.mp h).resolve_left hk)
          rwa [if_neg hk] at this
        · rw [(r7 k).2 (fun h' => h (List.mem_cons_of_mem _ h')), hc']
          simp [hk]

/-! ### C372 -/

/-- **C372** `smooth_traj('uniform', size)` replaces each trajectory of each kind, in order, by the one with coordinates averaged over `size` neighbours; the
points and the times of the object are left unchanged. -/
theorem C372_smoothed_partial {size : Option Nat} (h0 : size ≠ some 0) {c : CP} {T : Kind → List P} (hT : ∀ k, Has c k (T k))
    (hm : ∀ k, ∀ p ∈ T k, ∃ xs ys vs, Made p xs ys vs) :
    ∃ r, smoothTraj s (.uniform size) c = (r, .ok ⟨⟩) ∧ r.pts = c.pts ∧ r.times = c.times ∧
      ∀ k, ∃ T', Has r k T' ∧ List.Forall₂ (Averaged (size.getD 3)) (T k) T' := by
  obtain ⟨r, r0, r1, r2, -, -, -, -, r7⟩ := smoothKinds_ok (s := s) h0 kinds c T (by decide) hT hm
  exact ⟨r, r0, r1, r2, fun k => (r7 k).1 (all_kinds k)⟩

/-- **C372** Before the trajectories are computed, `smooth_traj` is refused and changes nothing. -/
theorem C372_refused (tos : Tos) {c : CP} (h : c.traj .foc = none) : smoothTraj s tos c = (c, .error .typeError) := by
  unfold smoothTraj kinds smoothKinds
  rw [h]

/-- **C372** is violated: the times of the trajectory are averaged too, as if they were positions: it starts later than it did. -/
theorem C372_times_violated {p q : P} {xs ys vs : List Rat} {t0 t1 : Rat} (hp : Made p xs ys (t0 :: t1 :: vs)) (h : Averaged 3 p q) :
    q.v.head? = some (some ((2 * t0 + t1) / 3)) := by
  obtain ⟨a, b, ws, a', b', ws', h1, h2, -, -, h5, -⟩ := h
  have e : ws = t0 :: t1 :: vs := by
    have := h1.v.symm.trans hp.v
    exact List.map_injective_iff.mpr (Option.some_injective _) this
  subst e
  have := h5.2 0 (by simp)
  have hw : ws'.head? = some ((2 * t0 + t1) / 3) := by
    rw [List.head?_eq_getElem?, this]
    unfold Reshape.windowMean
    rw [Finset.sum_range_succ, Finset.sum_range_succ, Finset.sum_range_one]
    have c0 : Reshape.clamp (t0 :: t1 :: vs).length (((0 : Nat) : Int) + ((0 : Nat) : Int) - ((3 / 2 : Nat) : Int)) = 0 := by
      unfold Reshape.clamp; simp only [List.length_cons]; omega
    have c1 : Reshape.clamp (t0 :: t1 :: vs).length (((0 : Nat) : Int) + ((1 : Nat) : Int) - ((3 / 2 : Nat) : Int)) = 0 := by
      unfold Reshape.clamp; simp only [List.length_cons]; omega
    have c2 : Reshape.clamp (t0 :: t1 :: vs).length (((0 : Nat) : Int) + ((2 : Nat) : Int) - ((3 / 2 : Nat) : Int)) = 1 := by
      unfold Reshape.clamp; simp only [List.length_cons]; omega
    rw [c0, c1, c2]
    simp
    ring
  rw [h2.v, List.head?_map, hw]
  rfl

theorem two_times {p q : P} {xs ys : List Rat} {t0 t1 : Rat} (hp : Made p xs ys [t0, t1]) (h : Averaged 3 p q) :
    q.v = [some ((2 * t0 + t1) / 3), some ((t0 + 2 * t1) / 3)] ∧ Traj q := by
  obtain ⟨a, b, ws, a', b', ws', h1, h2, h3, -, h5, -⟩ := h
  have e : ws = [t0, t1] := by
    have := h1.v.symm.trans hp.v
    exact List.map_injective_iff.mpr (Option.some_injective _) this
  subst e
  have l := h5.1
  have w0 := h5.2 0 (by simp)
  have w1 := h5.2 1 (by simp)
  unfold Reshape.windowMean at w0 w1
  rw [Finset.sum_range_succ, Finset.sum_range_succ, Finset.sum_range_one] at w0 w1
  have c0 : Reshape.clamp [t0, t1].length (((0 : Nat) : Int) + ((0 : Nat) : Int) - ((3 / 2 : Nat) : Int)) = 0 := rfl
  have c1 : Reshape.clamp [t0, t1].length (((0 : Nat) : Int) + ((1 : Nat) : Int) - ((3 / 2 : Nat) : Int)) = 0 := rfl
  have c2 : Reshape.clamp [t0, t1].length (((0 : Nat) : Int) + ((2 : Nat) : Int) - ((3 / 2 : Nat) : Int)) = 1 := rfl
  have d0 : Reshape.clamp [t0, t1].length (((1 : Nat) : Int) + ((0 : Nat) : Int) - ((3 / 2 : Nat) : Int)) = 0 := rfl
  have d1 : Reshape.clamp [t0, t1].length (((1 : Nat) : Int) + ((1 : Nat) : Int) - ((3 / 2 : Nat) : Int)) = 1 := rfl
  have d2 : Reshape.clamp [t0, t1].length (((1 : Nat) : Int) + ((2 : Nat) : Int) - ((3 / 2 : Nat) : Int)) = 1 := rfl
  rw [c0, c1, c2] at w0
  rw [d0, d1, d2] at w1
  obtain ⟨u, v, rfl⟩ : ∃ u v, ws' = [u, v] := by
    match ws', l with
    | [u, v], _ => exact ⟨u, v, rfl⟩
  simp at w0 w1
  have hlen : a'.length = 2 := by
    rcases h2.sized with h | h
    · cases h
    · simpa using h.symm
  have hb : b'.length = 2 := by rw [← h2.same, hlen]
  refine ⟨?_, ?_, ?_⟩
  · rw [h2.v, w0, w1]
    simp only [List.map_cons, List.map_nil, List.cons.injEq, Option.some.injEq, and_true]
    constructor <;> ring
  · rw [h2.v, h2.xy]
    simp [hlen, hb]
  · rw [h2.xy, ← List.length_pos_iff]
    simp [hlen, hb]

theorem units_kept {c : CP} {p q : P} {n : Nat} (hu : Units c p) (h : Averaged n p q) : Units c q := by
  obtain ⟨-, -, -, -, -, -, -, -, -, -, -, u1, u2, u3⟩ := h
  exact ⟨u1.trans hu.1, u2.trans hu.2.1, u3.trans hu.2.2⟩

/-- **C372** is violated: on two instants, when `clean_traj` then rebuilds the points from the smoothed trajectories, no point is left at all, as no trajectory
is any more at a time of the object. -/
theorem C372_lost_violated {c : CP} {t0 t1 : Rat} (ht : c.times = [t0, t1]) (hlt : t0 < t1) (he : c.eps ≠ none) (h0 : c.ux.size ≠ 0) (h1 : c.uy.size ≠ 0)
    (h2 : c.ut.size ≠ 0) {T : Kind → List P} (hT : ∀ k, Has c k (T k)) (hm : ∀ k, ∀ p ∈ T k, Units c p ∧ ∃ xs ys, Made p xs ys [t0, t1]) (n : Nat) :
    ∃ r r', smoothTraj s (.uniform none) c = (r, .ok ⟨⟩) ∧ cleanTraj n r = .ok r' ∧ ∀ k, ∀ p ∈ r'.pts k, rows p = [] := by
  obtain ⟨r, r0, r1, r2, r3, r4, r5, r6, r7⟩ := smoothKinds_ok (s := s) (size := none) (by simp) kinds c T (by decide) hT
    (fun k p hp => by obtain ⟨-, xs, ys, h⟩ := hm k p hp; exact ⟨xs, ys, _, h⟩)
  have hr : ∀ k, ∃ T', Has r k T' ∧ List.Forall₂ (Averaged 3) (T k) T' := fun k => (r7 k).1 (all_kinds k)
  choose T' hT' hA using hr
  have hq : ∀ k, ∀ q ∈ T' k, (Traj q ∧ Units r q) ∧ q.v = [some ((2 * t0 + t1) / 3), some ((t0 + 2 * t1) / 3)] := by
    intro k q hq
    obtain ⟨hlen, hall⟩ := List.forall₂_iff_get.mp (hA k)
    obtain ⟨i, hi, rfl⟩ := List.getElem_of_mem hq
    have ha := hall i (by omega) hi
    obtain ⟨hu, xs, ys, hmade⟩ := hm k _ (List.get_mem (T k) ⟨i, by omega⟩)
    obtain ⟨e1, e2⟩ := two_times hmade ha
    have hu' := units_kept hu ha
    refine ⟨⟨e2, ?_⟩, e1⟩
    unfold Units at hu' ⊢
    rw [r3, r4, r5]
    exact hu'
  obtain ⟨r', e, -, hk⟩ := C241_clean (c := r) n (by rw [r6]; exact he) (by rw [r3]; exact h0) (by rw [r4]; exact h1) (by rw [r5]; exact h2) hT'
    (fun k q h => (hq k q h).1)
  refine ⟨r, r', r0, e, ?_⟩
  intro k p hp
  obtain ⟨-, hlen, hj⟩ := hk k
  obtain ⟨j, hj', rfl⟩ := List.getElem_of_mem hp
  have hjt : j < r.times.length := by omega
  obtain ⟨p', e1, e2⟩ := hj j r.times[j] (List.getElem?_eq_getElem hjt)
  rw [List.getElem?_eq_getElem hj', Option.some.injEq] at e1
  rw [e1, e2]
  unfold instant
  rw [List.filter_eq_nil_iff]
  intro a ha
  rw [List.mem_flatMap] at ha
  obtain ⟨q, hqm, haq⟩ := ha
  obtain ⟨-, hv⟩ := hq k q (List.mem_filter.mp hqm).1
  have htime : time a = some ((2 * t0 + t1) / 3) ∨ time a = some ((t0 + 2 * t1) / 3) := by
    unfold rows at haq
    rw [hv, if_neg (by simp)] at haq
    match hxy : q.xy with
    | [] => rw [hxy] at haq; simp at haq
    | [x] => rw [hxy] at haq; simp at haq; rw [haq]; exact .inl rfl
    | x :: y :: l =>
      rw [hxy] at haq
      simp at haq
      rcases haq with rfl | rfl
      · exact .inl rfl
      · exact .inr rfl
  have hmem : r.times[j] = t0 ∨ r.times[j] = t1 := by
    have hin : ∀ x ∈ r.times, x = t0 ∨ x = t1 := by
      rw [r2, ht]
      simp
    exact hin _ (List.getElem_mem hjt)
  simp only [decide_eq_true_eq]
  intro hta
  rcases htime with h | h <;> rcases hmem with h' | h' <;> rw [h, h', Option.some.injEq] at hta <;> linarith

/-! ### the hypotheses hold on a collection -/

/-- Two instants, with a trajectory of each kind. -/
def exPair : CP :=
  { pts := fun _ => [⟨[(some 0, some 0)], [some 0], .mm, .mm, .s⟩, ⟨[(some 1, some 0)], [some 1], .mm, .mm, .s⟩],
    times := [0, 1], ut := .s, ux := .mm, uy := .mm, traj := fun _ => some ⟨false, [exT 0 0]⟩, eps := some 2 }

theorem exT_made : Made (exT 0 0) [0, 1] [0, 0] [0, 1] := by
  constructor <;> simp [exT]

example : ∃ r r', smoothTraj s (.uniform none) exPair = (r, .ok ⟨⟩) ∧ cleanTraj 2 r = .ok r' ∧ ∀ k, ∀ p ∈ r'.pts k, rows p = [] :=
  C372_lost_violated (c := exPair) (T := fun _ => [exT 0 0]) rfl (by norm_num) (by simp [exPair]) (by simp [exPair, Sym.mm]) (by simp [exPair, Sym.mm])
    (by simp [exPair, Sym.s]) (fun _ => ⟨_, rfl, rfl⟩) (fun _ p hp => by
      rw [List.mem_singleton] at hp
      subst hp
      exact ⟨⟨rfl, rfl, rfl⟩, _, _, exT_made⟩) 2

example : ∃ r, smoothTraj s (.uniform (some 5)) exPair = (r, .ok ⟨⟩) ∧ r.pts = exPair.pts := by
  obtain ⟨r, h1, h2, -⟩ := C372_smoothed_partial (s := s) (size := some 5) (by simp) (c := exPair) (T := fun _ => [exT 0 0]) (fun _ => ⟨_, rfl, rfl⟩)
    (fun _ p hp => by
      rw [List.mem_singleton] at hp
      subst hp
      exact ⟨_, _, _, exT_made⟩)
  exact ⟨r, h1, h2⟩

end IMT.Cps
