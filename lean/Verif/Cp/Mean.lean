import Verif.Prelude
import Mathlib.Data.List.Sort
import Mathlib.Data.List.Perm.Subperm
import Mathlib.Data.List.Flatten

/-! Grouping of trajectories into mean trajectories, `/repo/IMTreatment/vortex_detection/vortex_detection.py` lines
899-1116.

The resemblance test (lines 987-1004: relative lengths, convolution of the difference with the running reference) is an
arbitrary function `join` of the group built so far, in joining order, and of the candidate.  The averaging test
(lines 1029-1046: is there a time step with `min_nmb_to_avg` values) is an arbitrary function `avg` of the group.
Exceptions inside these tests are not modelled. -/

namespace IMT.Cp.Mean

/-- What is known of the trajectories: how many there are, which are too short, which join a group, which groups can be
averaged. -/
structure Inp where
  n : Nat
  short : Nat → Bool
  join : List Nat → Nat → Bool
  avg : List Nat → Bool

/-- The state of the loops: the trajectories whose `used` flag is set (in the order in which the flags are set, so that
`np.sum(used)` is the length), those counted in `nmb_too_short`, and `used_traj_inds`.  `av_x is None` is an empty group
(lines 950-955, 975-984). -/
structure St where
  used : List Nat
  tooShort : List Nat
  group : List Nat

/-- One iteration of the `for` loop, vortex_detection.py:963-1015. -/
def visit (p : Inp) (s : St) (i : Nat) : St :=
  if i ∈ s.used then s
  else if p.short i then ⟨s.used ++ [i], s.tooShort ++ [i], s.group⟩
  else if s.group = [] then ⟨s.used ++ [i], s.tooShort, [i]⟩
  else if p.join s.group i then ⟨s.used ++ [i], s.tooShort, s.group ++ [i]⟩
  else s

/-- The whole `for` loop, vortex_detection.py:963-1015. -/
def pass (p : Inp) (s : St) : St := (List.range p.n).foldl (visit p) s

/-- The inner `while True`, vortex_detection.py:956-1015; `old` is `old_used`, `none` for the initial -1. -/
def inner (p : Inp) : Nat → Option Nat → St → Option St
  | 0, _, _ => none
  | f + 1, old, s => if old = some s.used.length then some s else inner p f (some s.used.length) (pass p s)

/-- The outer `while True`, vortex_detection.py:945-1064: the groups in the order they are made, with the flag telling
whether they gave a mean trajectory, and the too short trajectories. -/
def outer (p : Inp) : Nat → List Nat → List Nat → Option (List (List Nat × Bool) × List Nat)
  | 0, _, _ => none
  | f + 1, used, ts =>
    match inner p (p.n + 2) none ⟨used, ts, []⟩ with
    | none => none
    | some s =>
      if s.group = [] then some ([], s.tooShort)
      else (outer p f s.used s.tooShort).map fun r => ((s.group, p.avg s.group) :: r.1, r.2)

/-- Sorting by decreasing `nmb_traj_used`, vortex_detection.py:1066-1067 (stable sort then reversal). -/
def byUse (l : List (List Nat)) : List (List Nat) :=
  (l.insertionSort fun a b => a.length ≤ b.length).reverse

/-- The answer: the trajectories behind each mean trajectory (`base_trajs`), the skipped ones, and the too short ones. -/
structure Out where
  means : List (List Nat)
  skipped : List Nat
  tooShort : List Nat
  deriving DecidableEq

/-- `get_mean_trajectory`, vortex_detection.py:899-1116.  The fuel is enough (`C63_terminates`). -/
def run (p : Inp) : Option Out :=
  (outer p (p.n + 1) [] []).map fun r =>
    ⟨byUse ((r.1.filter fun g => g.2).map Prod.fst), ((r.1.filter fun g => !g.2).map Prod.fst).flatten, r.2⟩

/-! ### Proofs -/

/-- Invariant of the passes relative to the state at the start of the round. -/
structure Inv (p : Inp) (s0 s : St) : Prop where
  sub : ∀ i ∈ s.used, i < p.n
  nodup : s.used.Nodup
  used : s.used.Perm (s0.used ++ ((s.tooShort.drop s0.tooShort.length) ++ s.group))
  ts : s0.tooShort <+: s.tooShort
  short : ∀ i ∈ s.tooShort.drop s0.tooShort.length, p.short i = true
  group : ∀ i ∈ s.group, p.short i = false

theorem visit_inv {p : Inp} {s0 s : St} (h : Inv p s0 s) {i : Nat} (hi : i < p.n) : Inv p s0 (visit p s i) := by
  unfold visit
  by_cases h1 : i ∈ s.used
  · rw [if_pos h1]; exact h
  rw [if_neg h1]
  have hlen : s0.tooShort.length ≤ s.tooShort.length := h.ts.length_le
  have hsub : ∀ j ∈ s.used ++ [i], j < p.n := by
    intro j hj
    rcases List.mem_append.mp hj with hj | hj
    · exact h.sub j hj
    · rw [List.mem_singleton] at hj; omega
  have hnd : (s.used ++ [i]).Nodup := by
    rw [List.nodup_append]
    exact ⟨h.nodup, by simp, fun a ha b hb => by rw [List.mem_singleton] at hb; subst hb; exact fun e => h1 (e ▸ ha)⟩
  by_cases h2 : p.short i = true
  · rw [if_pos h2]
    refine ⟨hsub, hnd, ?_, h.ts.trans (List.prefix_append _ _), ?_, h.group⟩
    · simp only
      rw [List.drop_append_of_le_length hlen]
      refine (h.used.append_right [i]).trans ?_
      simp only [List.append_assoc]
      exact (List.Perm.refl _).append ((List.Perm.refl _).append List.perm_append_comm)
    · simp only
      rw [List.drop_append_of_le_length hlen]
      intro j hj
      rcases List.mem_append.mp hj with hj | hj
      · exact h.short j hj
      · rw [List.mem_singleton] at hj; subst hj; exact h2
  rw [if_neg h2]
  have h2' : p.short i = false := by simpa using h2
  by_cases h3 : s.group = []
  · rw [if_pos h3]
    refine ⟨hsub, hnd, ?_, h.ts, h.short, by simp [h2']⟩
    simp only
    have := h.used.append_right [i]
    rw [h3] at this
    simpa only [List.append_assoc, List.nil_append] using this
  · rw [if_neg h3]
    by_cases h4 : p.join s.group i = true
    · rw [if_pos h4]
      refine ⟨hsub, hnd, ?_, h.ts, h.short, ?_⟩
      · simpa only [List.append_assoc] using h.used.append_right [i]
      · intro j hj
        rcases List.mem_append.mp hj with hj | hj
        · exact h.group j hj
        · rw [List.mem_singleton] at hj; subst hj; exact h2'
    · rw [if_neg h4]; exact h

theorem fold_inv {p : Inp} {s0 : St} (l : List Nat) (hl : ∀ i ∈ l, i < p.n) {s : St} (h : Inv p s0 s) :
    Inv p s0 (l.foldl (visit p) s) := by
  induction l generalizing s with
  | nil => exact h
  | cons i l ih => exact ih (fun j hj => hl j (by simp [hj])) (visit_inv h (hl i (by simp)))

theorem pass_inv {p : Inp} {s0 s : St} (h : Inv p s0 s) : Inv p s0 (pass p s) :=
  fold_inv _ (fun _ hi => List.mem_range.mp hi) h

/-- A visit leaves the state alone or sets exactly one more flag. -/
theorem visit_step (p : Inp) (s : St) (i : Nat) :
    visit p s i = s ∨ (visit p s i).used.length = s.used.length + 1 := by
  unfold visit
  split
  · exact .inl rfl
  · split
    · right; simp
    · split
      · right; simp
      · split
        · right; simp
        · exact .inl rfl

theorem fold_grow (p : Inp) (l : List Nat) (s : St) : s.used.length ≤ (l.foldl (visit p) s).used.length := by
  induction l generalizing s with
  | nil => simp
  | cons i l ih =>
    refine le_trans ?_ (ih (visit p s i))
    rcases visit_step p s i with h | h
    · rw [h]
    · omega

/-- A pass that sets no flag has changed nothing, at no step. -/
theorem fold_stable (p : Inp) (l : List Nat) (s : St) (h : (l.foldl (visit p) s).used.length = s.used.length) :
    (l.foldl (visit p) s) = s ∧ ∀ i ∈ l, visit p s i = s := by
  induction l generalizing s with
  | nil => exact ⟨rfl, by simp⟩
  | cons i l ih =>
    rw [List.foldl_cons] at h ⊢
    rcases visit_step p s i with hv | hv
    · rw [hv] at h ⊢
      obtain ⟨h1, h2⟩ := ih s h
      refine ⟨h1, ?_⟩
      intro j hj
      rcases List.mem_cons.mp hj with rfl | hj
      · exact hv
      · exact h2 j hj
    · have := fold_grow p l (visit p s i)
      omega

/-- Nothing is left to do in a state. -/
def Stable (p : Inp) (s : St) : Prop := ∀ i, i < p.n → visit p s i = s

theorem length_le {l : List Nat} {n : Nat} (h1 : l.Nodup) (h2 : ∀ i ∈ l, i < n) : l.length ≤ n := by
  have := (List.subperm_of_subset h1 (l₂ := List.range n) fun i hi => List.mem_range.mpr (h2 i hi)).length_le
  simpa using this

theorem inner_ok {p : Inp} {s0 : St} (f : Nat) (s : St) (h : Inv p s0 s) (old : Option Nat)
    (hold : old = none ∧ p.n + 2 ≤ f + s.used.length ∨
      ∃ m, old = some m ∧ m ≤ s.used.length ∧ p.n + 1 ≤ f + m ∧ (m = s.used.length → Stable p s)) :
    ∃ r, inner p f old s = some r ∧ Inv p s0 r ∧ Stable p r := by
  induction f generalizing s old with
  | zero =>
    exfalso
    have := length_le h.nodup h.sub
    rcases hold with ⟨-, h1⟩ | ⟨m, -, h2, h3, -⟩ <;> omega
  | succ f ih =>
    unfold inner
    have hg := fold_grow p (List.range p.n) s
    have hst : s.used.length = (pass p s).used.length → Stable p (pass p s) := by
      intro he
      obtain ⟨h1, h2⟩ := fold_stable p (List.range p.n) s he.symm
      unfold pass
      rw [h1]
      intro i hi
      exact h2 i (List.mem_range.mpr hi)
    rcases hold with ⟨rfl, h1⟩ | ⟨m, rfl, h2, h3, h4⟩
    · rw [if_neg (by simp)]
      exact ih (pass p s) (pass_inv h) _ (.inr ⟨_, rfl, hg, by omega, hst⟩)
    · by_cases hm : m = s.used.length
      · rw [if_pos (by rw [hm])]
        exact ⟨s, rfl, h, h4 hm⟩
      · rw [if_neg (by simpa using hm)]
        exact ih (pass p s) (pass_inv h) _ (.inr ⟨_, rfl, hg, by omega, hst⟩)

theorem inner_from {p : Inp} {used ts : List Nat} (h1 : ∀ i ∈ used, i < p.n) (h2 : used.Nodup) :
    ∃ r, inner p (p.n + 2) none ⟨used, ts, []⟩ = some r ∧ Inv p ⟨used, ts, []⟩ r ∧ Stable p r := by
  apply inner_ok
  · exact ⟨h1, h2, by simp, List.prefix_refl _, by simp, by simp⟩
  · left; exact ⟨rfl, by omega⟩

/-- In a stable state every trajectory without flag is long enough, there is a group, and it does not join it. -/
theorem stable_iff {p : Inp} {s : St} (h : Stable p s) {i : Nat} (hi : i < p.n) (hu : i ∉ s.used) :
    s.group ≠ [] ∧ p.join s.group i = false := by
  have := h i hi
  unfold visit at this
  rw [if_neg hu] at this
  have hne : ∀ a b, (⟨s.used ++ [i], a, b⟩ : St) ≠ s := by
    intro a b e
    have := congrArg (fun x : St => x.used.length) e
    simp at this
  split at this
  · exact absurd this (hne _ _)
  · split at this
    · exact absurd this (hne _ _)
    · split at this
      · exact absurd this (hne _ _)
      · rename_i h1 h2; exact ⟨h1, by simpa using h2⟩

/-- What the outer loop returns. -/
structure Spec (p : Inp) (used ts : List Nat) (gs : List (List Nat × Bool)) (ts' : List Nat) : Prop where
  perm : (used ++ (ts'.drop ts.length ++ (gs.map Prod.fst).flatten)).Perm (List.range p.n)
  pre : ts <+: ts'
  short : ∀ i ∈ ts'.drop ts.length, p.short i = true
  long : ∀ g ∈ gs, g.1 ≠ [] ∧ g.2 = p.avg g.1 ∧ ∀ i ∈ g.1, p.short i = false
  sat : gs.Pairwise fun g h => ∀ i ∈ h.1, p.join g.1 i = false

theorem outer_ok {p : Inp} (f : Nat) (used ts : List Nat) (h1 : ∀ i ∈ used, i < p.n) (h2 : used.Nodup)
    (hf : p.n + 1 ≤ f + used.length) :
    ∃ gs ts', outer p f used ts = some (gs, ts') ∧ Spec p used ts gs ts' := by
  induction f generalizing used ts with
  | zero =>
    exfalso
    have := length_le h2 h1
    omega
  | succ f ih =>
    obtain ⟨s, e, hi, hs⟩ := inner_from (ts := ts) h1 h2
    unfold outer
    rw [e]
    simp only
    by_cases hg : s.group = []
    · rw [if_pos hg]
      refine ⟨[], s.tooShort, rfl, ?_, hi.ts, hi.short, by simp, List.Pairwise.nil⟩
      have hall : ∀ i, i < p.n → i ∈ s.used := by
        intro i hin
        by_contra hu
        exact (stable_iff hs hin hu).1 hg
      have hp : s.used.Perm (List.range p.n) := by
        rw [List.perm_ext_iff_of_nodup hi.nodup List.nodup_range]
        intro i
        rw [List.mem_range]
        exact ⟨hi.sub i, hall i⟩
      have := hi.used
      rw [hg] at this
      simpa using this.symm.trans hp
    · rw [if_neg hg]
      have hlen : used.length < s.used.length := by
        have := hi.used.length_eq
        rw [List.length_append, List.length_append] at this
        have := List.length_pos_iff.mpr hg
        simp only at *
        omega
      obtain ⟨gs, ts', e', sp⟩ := ih s.used s.tooShort hi.sub hi.nodup (by omega)
      rw [e']
      obtain ⟨d, hd⟩ := hi.ts
      obtain ⟨d', hd'⟩ := sp.pre
      simp only at hd
      have q1 : s.tooShort.drop ts.length = d := by rw [← hd]; simp
      have q2 : ts'.drop s.tooShort.length = d' := by rw [← hd']; simp
      have q3 : ts'.drop ts.length = d ++ d' := by rw [← hd', ← hd]; simp
      have hu := hi.used
      simp only [q1] at hu
      have hsp := sp.perm
      rw [q2] at hsp
      refine ⟨(s.group, p.avg s.group) :: gs, ts', rfl, ?_, ?_, ?_, ?_, ?_⟩
      · rw [q3]
        refine List.Perm.trans ?_ hsp
        refine List.Perm.trans ?_ (hu.symm.append_right _)
        simp only [List.map_cons, List.flatten_cons, List.append_assoc]
        refine (List.Perm.refl _).append ((List.Perm.refl _).append ?_)
        rw [← List.append_assoc, ← List.append_assoc]
        exact List.perm_append_comm.append_right _
      · exact hi.ts.trans sp.pre
      · rw [q3]
        intro i hi'
        rcases List.mem_append.mp hi' with hx | hx
        · have := hi.short
          simp only [q1] at this
          exact this i hx
        · have := sp.short
          rw [q2] at this
          exact this i hx
      · intro g hgm
        rcases List.mem_cons.mp hgm with rfl | hgm
        · exact ⟨hg, rfl, hi.group⟩
        · exact sp.long g hgm
      · rw [List.pairwise_cons]
        refine ⟨?_, sp.sat⟩
        intro g hgm i hig
        have hmem : i ∈ (gs.map Prod.fst).flatten := List.mem_flatten.mpr ⟨g.1, List.mem_map.mpr ⟨g, hgm, rfl⟩, hig⟩
        have hn : (s.used ++ (d' ++ (gs.map Prod.fst).flatten)).Nodup := hsp.nodup_iff.mpr List.nodup_range
        have hin : i < p.n := by
          have := hsp.mem_iff.mp (show i ∈ s.used ++ (d' ++ (gs.map Prod.fst).flatten) by simp only [List.mem_append]; exact .inr (.inr hmem))
          exact List.mem_range.mp this
        have hnu : i ∉ s.used := by
          intro hu'
          exact (List.nodup_append.mp hn).2.2 i hu' i (List.mem_append.mpr (.inr hmem)) rfl
        exact (stable_iff hs hin hnu).2

theorem byUse_perm (l : List (List Nat)) : (byUse l).Perm l :=
  (List.reverse_perm _).trans (List.perm_insertionSort _ l)

theorem byUse_sorted (l : List (List Nat)) : (byUse l).Pairwise fun a b => b.length ≤ a.length := by
  unfold byUse
  rw [List.pairwise_reverse]
  have t1 : Std.Total (fun a b : List Nat => a.length ≤ b.length) := ⟨fun a b => Nat.le_total _ _⟩
  have t2 : IsTrans (List Nat) (fun a b : List Nat => a.length ≤ b.length) := ⟨fun a b c h1 h2 => Nat.le_trans h1 h2⟩
  exact List.pairwise_insertionSort _ l

theorem split_perm (gs : List (List Nat × Bool)) :
    (((gs.filter fun g => g.2).map Prod.fst).flatten ++ ((gs.filter fun g => !g.2).map Prod.fst).flatten).Perm
      (gs.map Prod.fst).flatten := by
  induction gs with
  | nil => simp
  | cons g gs ih =>
    obtain ⟨g, b⟩ := g
    cases b
    · simp only [List.filter_cons, Bool.not_false, Bool.false_eq_true, if_false, if_true, List.map_cons,
        List.flatten_cons]
      refine List.Perm.trans ?_ (ih.append_left g)
      rw [← List.append_assoc, ← List.append_assoc]
      exact List.perm_append_comm.append_right _
    · simp only [List.filter_cons, Bool.not_true, Bool.false_eq_true, if_false, if_true, List.map_cons,
        List.flatten_cons, List.append_assoc]
      exact ih.append_left g

/-- C63 (termination): whatever the resemblance and averaging tests answer, the nested loops end. -/
theorem C63_terminates (p : Inp) : ∃ r, run p = some r := by
  obtain ⟨gs, ts', e, -⟩ := outer_ok (p := p) (p.n + 1) [] [] (by simp) (by simp) (by simp)
  exact ⟨_, by unfold run; rw [e]; rfl⟩

/-- C63 (partition): every trajectory is counted exactly once: in one mean trajectory, among the skipped ones, or among
the too short ones; the latter are exactly those below the minimal length; no mean trajectory is empty, every one could be
averaged, and they are given by decreasing number of trajectories used. -/
theorem C63_partition {p : Inp} {r : Out} (h : run p = some r) :
    (r.means.flatten ++ r.skipped ++ r.tooShort).Perm (List.range p.n) ∧
    (∀ i, i ∈ r.tooShort ↔ i < p.n ∧ p.short i = true) ∧
    (∀ g ∈ r.means, g ≠ [] ∧ p.avg g = true) ∧
    r.means.Pairwise (fun a b => b.length ≤ a.length) := by
  obtain ⟨gs, ts', e, sp⟩ := outer_ok (p := p) (p.n + 1) [] [] (by simp) (by simp) (by simp)
  unfold run at h
  rw [e] at h
  simp only [Option.map_some, Option.some.injEq] at h
  subst h
  have hp := sp.perm
  simp only [List.length_nil, List.drop_zero, List.nil_append] at hp
  have hshort := sp.short
  simp only [List.length_nil, List.drop_zero] at hshort
  refine ⟨?_, ?_, ?_, byUse_sorted _⟩
  · refine List.Perm.trans ?_ hp
    refine List.Perm.trans ?_ List.perm_append_comm
    refine List.Perm.append_right _ ?_
    exact ((byUse_perm _).flatten.append_right _).trans (split_perm gs)
  · intro i
    constructor
    · intro hi
      exact ⟨List.mem_range.mp (hp.mem_iff.mp (List.mem_append.mpr (.inl hi))), hshort i hi⟩
    · rintro ⟨hi, hs⟩
      rcases List.mem_append.mp (hp.mem_iff.mpr (List.mem_range.mpr hi)) with h | h
      · exact h
      · rw [List.mem_flatten] at h
        obtain ⟨g, hg, hig⟩ := h
        obtain ⟨g', hg', rfl⟩ := List.mem_map.mp hg
        rw [(sp.long g' hg').2.2 i hig] at hs
        cases hs
  · intro g hg
    have := (byUse_perm _).mem_iff.mp hg
    obtain ⟨g', hg', rfl⟩ := List.mem_map.mp this
    obtain ⟨hg1, hg2⟩ := List.mem_filter.mp hg'
    obtain ⟨h1, h2, -⟩ := sp.long g' hg1
    exact ⟨h1, by rw [← h2]; exact hg2⟩

/-- C63 (saturation): groups are made one after the other, and a trajectory of a later group was refused by the complete
reference of every earlier group, so that the order of the trajectories inside a pass does not lose a match. -/
theorem C63_saturated {p : Inp} {gs : List (List Nat × Bool)} {ts : List Nat}
    (h : outer p (p.n + 1) [] [] = some (gs, ts)) :
    gs.Pairwise fun g h => ∀ i ∈ h.1, p.join g.1 i = false := by
  obtain ⟨gs', ts', e, sp⟩ := outer_ok (p := p) (p.n + 1) [] [] (by simp) (by simp) (by simp)
  rw [e] at h
  simp only [Option.some.injEq, Prod.mk.injEq] at h
  rw [← h.1]
  exact sp.sat

/-- Six trajectories; 2 is too short; resemblance by parity, except that 5 joins only a group that has 1 and 3. -/
def exInp : Inp := ⟨6, fun i => i = 2, fun g i => if i = 5 then g.contains 3 else (g.head? == some (i % 2)),
  fun g => decide (1 < g.length)⟩

example : run exInp = some ⟨[[1, 3, 5], [0, 4]], [], [2]⟩ := by decide +kernel

example : run ⟨3, fun _ => false, fun _ _ => false, fun g => g = [1]⟩ = some ⟨[[1]], [0, 2], []⟩ := by decide +kernel

end IMT.Cp.Mean
