import Verif.Fill.Spec
import Mathlib.Tactic.Linarith
import Mathlib.Tactic.FieldSimp
import Mathlib.Tactic.Ring
import Mathlib.Data.Finset.Max
import Mathlib.Algebra.Order.BigOperators.Group.List

/-! Lemmas on the nodes used by the interpolation. -/

namespace IMT.Fill

open SF (Reads)

theorem mem_pairs {f : SF} {q : Nat × Nat} : q ∈ f.indexPairs ↔ q.1 < f.ax.length ∧ q.2 < f.ay.length := by
  obtain ⟨i, j⟩ := q
  simp [SF.indexPairs]

theorem mem_good {f : SF} {red : Bool} {q : Nat × Nat} : q ∈ good f red ↔
    q.1 < f.ax.length ∧ q.2 < f.ay.length ∧ f.mask.get q.1 q.2 = false ∧ (red = true → dilated f q.1 q.2 = true) := by
  unfold good
  rw [List.mem_filter, mem_pairs]
  cases red <;> simp [and_assoc]

theorem dilated_iff {f : SF} {i j : Nat} : dilated f i j = true ↔
    ∃ a b, a < f.ax.length ∧ b < f.ay.length ∧ f.mask.get a b = true ∧ touches i j a b = true := by
  unfold dilated
  rw [List.any_eq_true]
  constructor
  · rintro ⟨⟨a, b⟩, h1, h2⟩
    rw [mem_pairs] at h1
    simp only [Bool.and_eq_true] at h2
    exact ⟨a, b, h1.1, h1.2, h2.1, h2.2⟩
  · rintro ⟨a, b, h1, h2, h3, h4⟩
    exact ⟨(a, b), mem_pairs.2 ⟨h1, h2⟩, by simp [h3, h4]⟩

theorem touches_iff {i j a b : Nat} : touches i j a b = true ↔ a ≤ i + 1 ∧ i ≤ a + 1 ∧ b ≤ j + 1 ∧ j ≤ b + 1 ∧ ¬ (a = i + 1 ∧ b = j + 1) := by
  unfold touches
  simp [and_assoc]
  intros
  tauto

variable {f : SF}

theorem cell_visible (hf : f.WF) {i j : Nat} (hi : i < f.ax.length) (hj : j < f.ay.length) (h : f.mask.get i j = false) :
    ∃ v, f.cell i j = some v := by
  rw [SF.Reads.cellMask hf hi hj] at h
  cases e : f.cell i j with
  | none => rw [e] at h; simp at h
  | some v => exact ⟨v, rfl⟩

theorem mask_of_cell (hf : f.WF) {i j : Nat} (hi : i < f.ax.length) (hj : j < f.ay.length) : f.mask.get i j = (f.cell i j).isNone :=
  SF.Reads.cellMask hf hi hj

/-- The nodes are visible points of the field. -/
theorem node_reads (hf : f.WF) {red : Bool} {n : Node} (h : n ∈ nodes f red) : f.Reads n.x n.y (some n.v) := by
  obtain ⟨⟨i, j⟩, hq, rfl⟩ := List.mem_map.1 h
  obtain ⟨h1, h2, h3, -⟩ := mem_good.1 hq
  obtain ⟨v, hv⟩ := cell_visible hf h1 h2 h3
  simp only at h1 h2 h3 hv
  refine ⟨i, j, ?_, ?_, ?_⟩
  · simp [node, List.getElem?_eq_getElem h1]
  · simp [node, List.getElem?_eq_getElem h2]
  · simp [node, hv]

/-- A visible cell next to a masked one is a node. -/
theorem node_of (hf : f.WF) {red : Bool} {i j : Nat} {x y v : Rat} (hx : f.ax[i]? = some x) (hy : f.ay[j]? = some y) (hv : f.cell i j = some v)
    (hd : red = true → dilated f i j = true) : (⟨x, y, v⟩ : Node) ∈ nodes f red := by
  refine List.mem_map.2 ⟨(i, j), mem_good.2 ⟨getElem?_some_lt hx, getElem?_some_lt hy, ?_, hd⟩, ?_⟩
  · rw [mask_of_cell hf (getElem?_some_lt hx) (getElem?_some_lt hy), hv]; rfl
  · simp [node, hx, hy, hv]

/-- A visible node at the smallest distance. -/
theorem exists_nearest (hf : f.WF) {a b c : Rat} (h : f.Reads a b (some c)) (x y : Rat) : ∃ x' y' v, Nearest f x y x' y' v := by
  have hn : (⟨a, b, c⟩ : Node) ∈ nodes f false := by
    obtain ⟨i, j, h1, h2, h3⟩ := h
    exact node_of hf h1 h2 h3 (by simp)
  obtain ⟨n, h1, h2⟩ := Finset.exists_min_image (nodes f false).toFinset (fun n => dist2 x y n.x n.y) ⟨_, List.mem_toFinset.2 hn⟩
  refine ⟨n.x, n.y, n.v, node_reads hf (List.mem_toFinset.1 h1), ?_⟩
  rintro x'' y'' v' ⟨i, j, r1, r2, r3⟩
  exact h2 _ (List.mem_toFinset.2 (node_of hf r1 r2 r3 (by simp)))

theorem sq_lt_of {a b c : Rat} (h1 : c < b) (h2 : b ≤ a) : (b - a) * (b - a) < (c - a) * (c - a) := by nlinarith

theorem sq_lt_of' {a b c : Rat} (h1 : b < c) (h2 : a ≤ b) : (b - a) * (b - a) < (c - a) * (c - a) := by nlinarith

/-- A nearest visible point of a masked point touches a masked cell: moving one step towards the masked point brings nearer. -/
theorem nearest_dilated (hf : f.WF) {x y x' y' v : Rat} (hm : f.Reads x y none) (hn : Nearest f x y x' y' v) {i' j' : Nat}
    (hi' : f.ax[i']? = some x') (hj' : f.ay[j']? = some y') (hv : f.cell i' j' = some v) : dilated f i' j' = true := by
  obtain ⟨i, j, hi, hj, hc⟩ := hm
  have li := getElem?_some_lt hi
  have lj := getElem?_some_lt hj
  have li' := getElem?_some_lt hi'
  have lj' := getElem?_some_lt hj'
  have xi : ∀ k, (hk : k < f.ax.length) → f.ax[k]? = some f.ax[k] := fun k hk => List.getElem?_eq_getElem hk
  have yi : ∀ k, (hk : k < f.ay.length) → f.ay[k]? = some f.ay[k] := fun k hk => List.getElem?_eq_getElem hk
  have ltx : ∀ {a b : Nat} {u w : Rat}, f.ax[a]? = some u → f.ax[b]? = some w → a < b → u < w := by
    intro a b u w ha hb hab
    obtain ⟨la, ea⟩ := List.getElem?_eq_some_iff.1 ha
    obtain ⟨lb, eb⟩ := List.getElem?_eq_some_iff.1 hb
    rw [← ea, ← eb]
    exact List.pairwise_iff_getElem.1 hf.incx a b la lb hab
  have lty : ∀ {a b : Nat} {u w : Rat}, f.ay[a]? = some u → f.ay[b]? = some w → a < b → u < w := by
    intro a b u w ha hb hab
    obtain ⟨la, ea⟩ := List.getElem?_eq_some_iff.1 ha
    obtain ⟨lb, eb⟩ := List.getElem?_eq_some_iff.1 hb
    rw [← ea, ← eb]
    exact List.pairwise_iff_getElem.1 hf.incy a b la lb hab
  -- a cell nearer than the nearest is masked
  have key : ∀ {a b : Nat} {u w : Rat}, f.ax[a]? = some u → f.ay[b]? = some w → dist2 x y u w < dist2 x y x' y' → touches i' j' a b = true →
      dilated f i' j' = true := by
    intro a b u w ha hb hd ht
    refine dilated_iff.2 ⟨a, b, getElem?_some_lt ha, getElem?_some_lt hb, ?_, ht⟩
    rw [mask_of_cell hf (getElem?_some_lt ha) (getElem?_some_lt hb)]
    cases e : f.cell a b with
    | none => rfl
    | some z => exact absurd (hn.2 u w z ⟨a, b, ha, hb, e⟩) (not_le.2 hd)
  rcases lt_trichotomy i' i with h | h | h
  · have h1 := xi (i' + 1) (by omega)
    refine key h1 hj' ?_ (touches_iff.2 (by omega))
    unfold dist2
    have s1 := ltx hi' h1 (by omega)
    have s2 : f.ax[i' + 1] ≤ x := by
      rcases Nat.lt_or_ge (i' + 1) i with g | g
      · exact (ltx h1 hi g).le
      · have : i' + 1 = i := by omega
        have h2 := h1
        rw [show f.ax[i' + 1]? = f.ax[i]? by rw [this], hi] at h2
        exact (Option.some.inj h2).symm.le
    have := sq_lt_of s1 s2
    linarith
  · subst h
    rw [hi] at hi'
    cases hi'
    rcases lt_trichotomy j' j with h | h | h
    · have h1 := yi (j' + 1) (by omega)
      refine key hi h1 ?_ (touches_iff.2 (by omega))
      unfold dist2
      have s1 := lty hj' h1 (by omega)
      have s2 : f.ay[j' + 1] ≤ y := by
        rcases Nat.lt_or_ge (j' + 1) j with g | g
        · exact (lty h1 hj g).le
        · have : j' + 1 = j := by omega
          have h2 := h1
          rw [show f.ay[j' + 1]? = f.ay[j]? by rw [this], hj] at h2
          exact (Option.some.inj h2).symm.le
      have := sq_lt_of s1 s2
      linarith
    · subst h
      rw [hc] at hv; cases hv
    · have h1 := yi (j' - 1) (by omega)
      refine key hi h1 ?_ (touches_iff.2 (by omega))
      unfold dist2
      have s1 := lty h1 hj' (by omega)
      have s2 : y ≤ f.ay[j' - 1] := by
        rcases Nat.lt_or_ge j (j' - 1) with g | g
        · exact (lty hj h1 g).le
        · have : j' - 1 = j := by omega
          have h2 := h1
          rw [show f.ay[j' - 1]? = f.ay[j]? by rw [this], hj] at h2
          exact (Option.some.inj h2).le
      have := sq_lt_of' s1 s2
      linarith
  · have h1 := xi (i' - 1) (by omega)
    refine key h1 hj' ?_ (touches_iff.2 (by omega))
    unfold dist2
    have s1 := ltx h1 hi' (by omega)
    have s2 : x ≤ f.ax[i' - 1] := by
      rcases Nat.lt_or_ge i (i' - 1) with g | g
      · exact (ltx hi h1 g).le
      · have : i' - 1 = i := by omega
        have h2 := h1
        rw [show f.ax[i' - 1]? = f.ax[i]? by rw [this], hi] at h2
        exact (Option.some.inj h2).le
    have := sq_lt_of' s1 s2
    linarith

/-- The nearest interpolator, on the reduced or on all the nodes, gives the value of a nearest visible point. -/
theorem nearest_ok {s : Scipy} (hs : s.Ok) (hf : f.WF) (red : Bool) {x y : Rat} (hm : f.Reads x y none) {a b c : Rat} (h : f.Reads a b (some c)) :
    nodes f red ≠ [] ∧ ∃ x' y' v k, Nearest f x y x' y' v ∧ k = s.near ((nodes f red).map fun n => (n.x, n.y)) x y ∧
      (nodes f red)[k]? = some ⟨x', y', v⟩ ∧ nearest s (nodes f red) x y = v := by
  obtain ⟨x', y', v, hn⟩ := exists_nearest hf h x y
  obtain ⟨i', j', h1, h2, h3⟩ := hn.1
  have hmem : (⟨x', y', v⟩ : Node) ∈ nodes f red := node_of hf h1 h2 h3 fun _ => nearest_dilated hf hm hn h1 h2 h3
  have hne : nodes f red ≠ [] := List.ne_nil_of_mem hmem
  have hlt := hs.near_lt ((nodes f red).map fun n => (n.x, n.y)) (by simpa using hne) x y
  rw [List.length_map] at hlt
  refine ⟨hne, ?_⟩
  set k := s.near ((nodes f red).map fun n => (n.x, n.y)) x y with hk
  have hg : (nodes f red)[k]? = some (nodes f red)[k] := List.getElem?_eq_getElem hlt
  refine ⟨(nodes f red)[k].x, (nodes f red)[k].y, (nodes f red)[k].v, k, ⟨node_reads hf (List.getElem_mem hlt), ?_⟩, rfl, hg, ?_⟩
  · intro x'' y'' v' hr
    refine le_trans ?_ (hn.2 x'' y'' v' hr)
    have := hs.near_min ((nodes f red).map fun n => (n.x, n.y)) x y ((nodes f red)[k].x, (nodes f red)[k].y)
      (by rw [List.getElem?_map, ← hk, hg]; rfl) (x', y') (List.mem_map.2 ⟨_, hmem, rfl⟩)
    exact this
  · unfold nearest
    rw [← hk, hg]; rfl

/-! ### barycentres -/

theorem sum_le_of {ns : List Node} {w : Node → Rat} (h : ∀ n ∈ ns, 0 ≤ w n) {g : Node → Rat} {c : Rat} (hc : ∀ n ∈ ns, g n ≤ c) :
    (ns.map fun n => w n * g n).sum ≤ (ns.map w).sum * c := by
  induction ns with
  | nil => simp
  | cons n ns ih =>
    have := ih (fun m hm => h m (by simp [hm])) (fun m hm => hc m (by simp [hm]))
    have h1 := h n (by simp)
    have h2 := hc n (by simp)
    simp only [List.map_cons, List.sum_cons]
    nlinarith

theorem le_sum_of {ns : List Node} {w : Node → Rat} (h : ∀ n ∈ ns, 0 ≤ w n) {g : Node → Rat} {c : Rat} (hc : ∀ n ∈ ns, c ≤ g n) :
    (ns.map w).sum * c ≤ (ns.map fun n => w n * g n).sum := by
  induction ns with
  | nil => simp
  | cons n ns ih =>
    have := ih (fun m hm => h m (by simp [hm])) (fun m hm => hc m (by simp [hm]))
    have h1 := h n (by simp)
    have h2 := hc n (by simp)
    simp only [List.map_cons, List.sum_cons]
    nlinarith

theorem affine_sum {ns : List Node} {w : Node → Rat} {a b c : Rat} (hv : ∀ n ∈ ns, n.v = a * n.x + b * n.y + c) :
    (ns.map fun n => w n * n.v).sum = a * (ns.map fun n => w n * n.x).sum + b * (ns.map fun n => w n * n.y).sum + c * (ns.map w).sum := by
  induction ns with
  | nil => simp
  | cons n ns ih =>
    have := ih (fun m hm => hv m (by simp [hm]))
    simp only [List.map_cons, List.sum_cons, this, hv n (by simp)]
    ring

/-- The weights of two nodes. -/
theorem bary_two {ns : List Node} (hnd : ns.Nodup) {n m : Node} (hn : n ∈ ns) (hm : m ∈ ns) (hne : n ≠ m) {t : Rat} (h0 : 0 ≤ t) (h1 : t ≤ 1) :
    Bary (fun k => if k = n then 1 - t else if k = m then t else 0) ns ((1 - t) * n.x + t * m.x) ((1 - t) * n.y + t * m.y) := by
  have key : ∀ (l : List Node), l.Nodup → ∀ g : Node → Rat, (l.map fun k => (if k = n then 1 - t else if k = m then t else 0) * g k).sum =
      (if n ∈ l then (1 - t) * g n else 0) + if m ∈ l then t * g m else 0 := by
    intro l
    induction l with
    | nil => intro _ g; simp
    | cons k l ih =>
      intro hl g
      rw [List.nodup_cons] at hl
      rw [List.map_cons, List.sum_cons, ih hl.2 g]
      by_cases e1 : k = n
      · subst e1
        have : k ≠ m := hne
        simp [hl.1, Ne.symm this]
      · by_cases e2 : k = m
        · subst e2
          simp [hl.1, hne, e1]
          ring
        · simp [e1, e2, Ne.symm e1, Ne.symm e2]
  refine ⟨fun k _ => ?_, ?_, ?_, ?_⟩
  · split_ifs <;> linarith
  · have := key ns hnd fun _ => 1
    simp only [mul_one] at this
    rw [this, if_pos hn, if_pos hm]; ring
  · rw [key ns hnd, if_pos hn, if_pos hm]
  · rw [key ns hnd, if_pos hn, if_pos hm]

theorem nodup_pairs : f.indexPairs.Nodup := by
  unfold SF.indexPairs
  rw [List.nodup_flatMap]
  refine ⟨fun i _ => (List.nodup_range).map (fun a b h => by simpa using h), ?_⟩
  apply List.Nodup.pairwise_of_forall_ne List.nodup_range
  intro a _ b _ hab
  simp only [Function.onFun, List.disjoint_left, List.mem_map]
  rintro q ⟨_, _, rfl⟩ ⟨_, _, h⟩
  exact hab (by simpa using (congrArg Prod.fst h).symm)

theorem nodup_nodes (hf : f.WF) (red : Bool) : (nodes f red).Nodup := by
  unfold nodes
  refine List.Nodup.map_on ?_ (nodup_pairs.filter _)
  rintro ⟨i, j⟩ hq ⟨a, b⟩ hr h
  obtain ⟨h1, h2, -⟩ := mem_good.1 hq
  obtain ⟨h3, h4, -⟩ := mem_good.1 hr
  simp only at h1 h2 h3 h4
  simp only [node, Node.mk.injEq, List.getElem?_eq_getElem h1, List.getElem?_eq_getElem h2, List.getElem?_eq_getElem h3,
    List.getElem?_eq_getElem h4, Option.getD_some] at h
  have e1 := hf.incx.idx_inj (List.getElem?_eq_getElem h1) (by rw [List.getElem?_eq_getElem h3, h.1])
  have e2 := hf.incy.idx_inj (List.getElem?_eq_getElem h2) (by rw [List.getElem?_eq_getElem h4, h.2.1])
  rw [e1, e2]

/-- Going up from a visible index to a masked one, some step leaves the visible ones. -/
theorem step_out {p : Nat → Prop} {a b : Nat} (hab : a < b) (ha : p a) (hb : ¬ p b) : ∃ k, a ≤ k ∧ k < b ∧ p k ∧ ¬ p (k + 1) := by
  induction b with
  | zero => omega
  | succ b ih =>
    by_cases h : p b
    · exact ⟨b, by omega, by omega, h, hb⟩
    · rcases Nat.lt_or_ge a b with g | g
      · obtain ⟨k, h1, h2, h3, h4⟩ := ih g h
        exact ⟨k, h1, by omega, h3, h4⟩
      · have : a = b := by omega
        subst this; exact absurd ha h

theorem step_in {p : Nat → Prop} {a b : Nat} (hab : a < b) (ha : ¬ p a) (hb : p b) : ∃ k, a ≤ k ∧ k < b ∧ ¬ p k ∧ p (k + 1) := by
  obtain ⟨k, h1, h2, h3, h4⟩ := step_out (p := fun n => ¬ p n) hab ha (not_not_intro hb)
  exact ⟨k, h1, h2, h3, not_not.1 h4⟩

end IMT.Fill
