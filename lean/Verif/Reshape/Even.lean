import Verif.Reshape.Augment

/-! Evenly spaced profiles: C230. -/

namespace IMT.Reshape

open IMT.Profile

variable {srt : List Rat → List Nat} {p : Prof}

/-- Specification: every step differs from the first one by less than a millionth of some step (of the largest one). -/
def Even (x : List Rat) : Prop :=
  ∀ x0 x1, x[0]? = some x0 → x[1]? = some x1 → ∀ (i : Nat) (a b : Rat), x[i]? = some a → x[i + 1]? = some b →
    ∃ (j : Nat) (c d : Rat), x[j]? = some c ∧ x[j + 1]? = some d ∧ |b - a - (x1 - x0)| < 1 / 1000000 * (d - c)

theorem mem_steps (x : List Rat) (d : Rat) :
    d ∈ steps x ↔ ∃ (i : Nat) (a b : Rat), x[i]? = some a ∧ x[i + 1]? = some b ∧ d = b - a := by
  induction x with
  | nil => simp [steps]
  | cons a x ih =>
    rcases x with _ | ⟨b, x⟩
    · simp only [steps, List.not_mem_nil, false_iff]
      rintro ⟨i, a', b', -, h, -⟩
      simp at h
    · simp only [steps, List.mem_cons]
      rw [ih]
      constructor
      · rintro (rfl | ⟨i, a', b', h1, h2, h3⟩)
        · exact ⟨0, a, b, rfl, rfl, rfl⟩
        · exact ⟨i + 1, a', b', h1, h2, h3⟩
      · rintro ⟨i, a', b', h1, h2, h3⟩
        cases i with
        | zero =>
          simp at h1 h2
          subst h1 h2
          exact Or.inl h3
        | succ i => exact Or.inr ⟨i, a', b', h1, h2, h3⟩

theorem steps_pos {x : List Rat} (hi : Inc x) : ∀ d ∈ steps x, 0 < d := by
  intro d hd
  obtain ⟨i, a, b, h1, h2, rfl⟩ := (mem_steps x d).1 hd
  have := Path.inc_get.1 hi i (i + 1) a b h1 h2 (by omega)
  linarith

theorem steps_length (x : List Rat) : (steps x).length = x.length - 1 := by
  induction x with
  | nil => rfl
  | cons a x ih =>
    rcases x with _ | ⟨b, x⟩
    · rfl
    · simp only [steps, List.length_cons] at ih ⊢
      omega

theorem steps_sum : ∀ (x : List Rat) (a b : Rat), x.head? = some a → x.getLast? = some b → (steps x).sum = b - a
  | [], _, _, h, _ => by simp at h
  | [c], a, b, h, h' => by simp at h h'; simp [steps, ← h, ← h']
  | c :: d :: x, a, b, h, h' => by
    have hc : c = a := by simpa using h
    have := steps_sum (d :: x) d b rfl (by simpa using h')
    simp only [steps, List.sum_cons, this]
    rw [hc]; ring

theorem largest_mem {l : List Rat} (h : l ≠ []) : largest l ∈ l ∧ ∀ d ∈ l, d ≤ largest l := by
  unfold largest
  cases e : l.max? with
  | none => rw [List.max?_eq_none_iff] at e; exact absurd e h
  | some m => exact List.max?_eq_some_iff.1 e

theorem even_iff {x : List Rat} (h : 2 ≤ x.length) : even x = true ↔ Even x := by
  rcases x with _ | ⟨x0, _ | ⟨x1, x⟩⟩
  · simp at h
  · simp at h
  have hne : steps (x0 :: x1 :: x) ≠ [] := by simp [steps]
  have hh : ((steps (x0 :: x1 :: x)).head?).getD 0 = x1 - x0 := by simp [steps]
  obtain ⟨hm, hle⟩ := largest_mem hne
  unfold even Even
  rw [List.all_eq_true, hh]
  constructor
  · intro H y0 y1 e0 e1 i a b h1 h2
    simp at e0 e1
    subst e0 e1
    obtain ⟨j, c, d, g1, g2, g3⟩ := (mem_steps _ _).1 hm
    have := of_decide_eq_true (H (b - a) ((mem_steps _ _).2 ⟨i, a, b, h1, h2, rfl⟩))
    rw [g3] at this
    exact ⟨j, c, d, g1, g2, this⟩
  · intro H d hd
    obtain ⟨i, a, b, h1, h2, rfl⟩ := (mem_steps _ _).1 hd
    obtain ⟨j, c, d, g1, g2, g3⟩ := H x0 x1 rfl rfl i a b h1 h2
    have := hle (d - c) ((mem_steps _ _).2 ⟨j, c, d, g1, g2, rfl⟩)
    apply decide_eq_true
    linarith

/-! ### already even -/

/-- C230: a profile whose steps are equal up to a millionth is returned as it is. -/
theorem C230_already (h2 : 2 ≤ p.x.length) (he : Even p.x) (dx : Option Rat) : evenlySpace srt p dx = .ok p := by
  unfold evenlySpace
  rw [if_neg (by omega), if_pos ((even_iff h2).2 he)]

/-- C230: the step asked for is **ignored** when the steps are already equal: the profile keeps its own. -/
theorem C230_step_violated (h2 : 2 ≤ p.x.length) {s : Rat} (hs : 0 < s)
    (he : ∀ (i : Nat) (a b : Rat), p.x[i]? = some a → p.x[i + 1]? = some b → b - a = s) (d : Rat) :
    evenlySpace srt p (some d) = .ok p := by
  refine C230_already h2 ?_ _
  intro x0 x1 e0 e1 i a b h1 h2
  refine ⟨0, x0, x1, e0, e1, ?_⟩
  rw [he i a b h1 h2, he 0 x0 x1 e0 e1, sub_self, abs_zero]
  linarith

/-- C230: a profile of one point is refused. -/
theorem C230_one_point (h : p.x.length < 2) (dx : Option Rat) : evenlySpace srt p dx = .error .indexError := by
  unfold evenlySpace
  rw [if_pos h]

/-! ### not even yet -/

theorem ends : ∀ l : List Rat, 2 ≤ l.length →
    ∃ a m b, l = a :: m ++ [b] ∧ slice l 1 (l.length - 1) = m ∧ l.head? = some a ∧ l.getLast? = some b := by
  intro l hl
  rcases l with _ | ⟨a, l⟩
  · simp at hl
  · rcases List.eq_nil_or_concat l with rfl | ⟨m, b, rfl⟩
    · simp at hl
    · refine ⟨a, m, b, by simp, ?_, rfl, ?_⟩
      · simp [slice]
      · rw [List.concat_eq_append, ← List.cons_append, List.getLast?_concat]

theorem linspace_get (a b : Rat) (n i : Nat) (h : i ≤ n) : (linspace a b n)[i]? = some (a + i * ((b - a) / n)) := by
  unfold linspace
  rw [List.getElem?_map, List.getElem?_range (by omega)]
  rfl

theorem linspace_length (a b : Rat) (n : Nat) : (linspace a b n).length = n + 1 := by simp [linspace]

theorem linspace_inc {a b : Rat} (h : a < b) {n : Nat} (hn : n ≠ 0) : Inc (linspace a b n) := by
  rw [Path.inc_get]
  intro i j u v h1 h2 hij
  have hi := getElem?_some_lt h1
  have hj := getElem?_some_lt h2
  rw [linspace_length] at hi hj
  rw [linspace_get _ _ _ _ (by omega)] at h1 h2
  rw [← Option.some.inj h1, ← Option.some.inj h2]
  have hp : 0 < (b - a) / n := div_pos (by linarith) (by exact_mod_cast Nat.pos_of_ne_zero hn)
  have : (i : Rat) < j := by exact_mod_cast hij
  nlinarith

theorem lin_pairs {l : List (Rat × Rat)} {t : Rat} (hI : Inc (l.map Prod.fst)) (h2 : 2 ≤ l.length)
    (h : ∃ a ∈ l, a.1 ≤ t) (h' : ∃ b ∈ l, t ≤ b.1) :
    ∃ A a b B, l = A ++ a :: b :: B ∧ a.1 ≤ t ∧ t ≤ b.1 ∧ lin l t = some (onLine a.1 a.2 b.1 b.2 t) := by
  have e : l = (l.map fun r => ((r.1, (r.1, r.2)) : Knot)).map fun k => (k.1, k.2.2) := by
    rw [List.map_map]; exact (List.map_id' l).symm
  obtain ⟨a0, ha, hat⟩ := h
  obtain ⟨b0, hb, hbt⟩ := h'
  have hI' : Inc ((l.map fun r => ((r.1, (r.1, r.2)) : Knot)).map Prod.fst) := by rw [List.map_map]; exact hI
  obtain ⟨A, a, b, B, h1, h2, h3, h4⟩ := lin_split (l.map fun r => ((r.1, (r.1, r.2)) : Knot)) t hI' (by simpa using h2)
    ⟨_, List.mem_map.2 ⟨a0, ha, rfl⟩, hat⟩ ⟨_, List.mem_map.2 ⟨b0, hb, rfl⟩, hbt⟩
  have h4 := h4 fun k => k.2.2
  rw [← e] at h4
  obtain ⟨L1, L2, rfl, e1, e2⟩ := List.map_eq_append_iff.1 h1
  obtain ⟨a', L3, rfl, e3, e4⟩ := List.map_eq_cons_iff.1 e2
  obtain ⟨b', L4, rfl, e5, e6⟩ := List.map_eq_cons_iff.1 e4
  subst e3 e5
  refine ⟨L1, a', b', L4, rfl, h2, h3, ?_⟩
  rw [h4]
  have hab : a'.1 < b'.1 := by
    rw [h1] at hI'
    exact (inc_split hI').1
  rw [← line_onLine hab]

/-- Number of intervals: the mean step by default. -/
theorem intervals_none {x : List Rat} {a b : Rat} (h2 : 2 ≤ x.length) (ha : x.head? = some a) (hb : x.getLast? = some b)
    (hab : a < b) : intervals x none = x.length - 1 := by
  unfold intervals
  rw [ha, hb]
  simp only [Option.getD_some, Option.getD_none]
  rw [steps_sum x a b ha hb, steps_length]
  have h1 : b - a ≠ 0 := by linarith
  have h3 : ((x.length - 1 : Nat) : Rat) ≠ 0 := by
    have : x.length - 1 ≠ 0 := by omega
    exact_mod_cast this
  have : (b - a) / ((b - a) / ((x.length - 1 : Nat) : Rat)) = ((x.length - 1 : Nat) : Rat) := by field_simp
  rw [this]
  have hf : (((x.length - 1 : Nat) : Rat)).floor = ((x.length - 1 : Nat) : Int) := by
    show ⌊((x.length - 1 : Nat) : Rat)⌋ = _
    exact Int.floor_natCast _
  rw [hf]
  rfl

theorem intervals_some {x : List Rat} {a b d : Rat} (ha : x.head? = some a) (hb : x.getLast? = some b)
    (hd : 0 < d) (hab : a ≤ b) : (intervals x (some d) : Rat) * d ≤ b - a ∧ b - a < ((intervals x (some d) : Rat) + 1) * d := by
  unfold intervals
  rw [ha, hb]
  simp only [Option.getD_some]
  have h0 : 0 ≤ (b - a) / d := div_nonneg (by linarith) hd.le
  have hf : ((b - a) / d).floor = ⌊(b - a) / d⌋ := rfl
  rw [hf]
  have hnn : 0 ≤ ⌊(b - a) / d⌋ := Int.floor_nonneg.2 h0
  have hc : ((⌊(b - a) / d⌋.toNat : Nat) : Rat) = ((⌊(b - a) / d⌋ : Int) : Rat) := by
    have : ((⌊(b - a) / d⌋.toNat : Nat) : Int) = ⌊(b - a) / d⌋ := Int.toNat_of_nonneg hnn
    exact_mod_cast congrArg (fun z : Int => (z : Rat)) this
  rw [hc]
  constructor
  · have := Int.floor_le ((b - a) / d)
    rwa [le_div_iff₀ hd] at this
  · have := Int.lt_floor_add_one ((b - a) / d)
    rwa [div_lt_iff₀ hd] at this

theorem pts_head (h : Valid p) {r : Rat × F} (hr : (pts p).head? = some r) : p.x.head? = some r.1 ∧ (getY p).head? = some r.2 := by
  rw [getY_valid h]
  rw [pts_valid h] at hr
  have hl := h.1
  rcases hx : p.x with _ | ⟨a, x⟩ <;> rcases hy : p.y with _ | ⟨b, y⟩ <;> rw [hx, hy] at hr
  · simp at hr
  · simp at hr
  · simp at hr
  · simp at hr
    rw [← hr]
    simp

theorem pts_last (h : Valid p) {r : Rat × F} (hr : (pts p).getLast? = some r) :
    p.x.getLast? = some r.1 ∧ (getY p).getLast? = some r.2 := by
  rw [getY_valid h]
  rw [List.getLast?_eq_getElem?, pts_valid h, Path.zip_get] at hr
  rw [List.getLast?_eq_getElem?, List.getLast?_eq_getElem?]
  rw [List.length_zip, h.1, min_self] at hr
  rw [h.1]
  cases hx : p.x[p.x.length - 1]? <;> cases hy : p.y[p.x.length - 1]? <;> rw [hx, hy] at hr <;> simp at hr
  rw [← hr]
  exact ⟨rfl, rfl⟩

/-- The extreme unmasked points are those of the ends. -/
theorem valid_ends (h : Valid p) {a va b vb : Rat} (hh : (pts p).head? = some (a, some va))
    (hl : (pts p).getLast? = some (b, some vb)) : (a, va) ∈ valid p ∧ (b, vb) ∈ valid p :=
  ⟨(mem_valid h).2 (List.mem_of_mem_head? hh), (mem_valid h).2 (List.mem_of_mem_getLast? hl)⟩

/-- What `interp1d` gives at the new abscissae. -/
theorem lin_valid (h : Valid p) (hi : Inc p.x) {a va b vb t : Rat} (hab : a < b) (ha : (a, va) ∈ valid p)
    (hb : (b, vb) ∈ valid p) (h1 : a ≤ t) (h2 : t ≤ b) :
    ∃ A x1 v1 x2 v2 B, valid p = A ++ (x1, v1) :: (x2, v2) :: B ∧ x1 ≤ t ∧ t ≤ x2 ∧
      lin (valid p) t = some (onLine x1 v1 x2 v2 t) := by
  have hI := valid_inc h hi
  have h2' : 2 ≤ (valid p).length := by
    by_contra hc
    have hne : valid p ≠ [] := List.ne_nil_of_mem ha
    obtain ⟨r, hr⟩ := List.length_eq_one_iff.1 (by have := List.length_pos_iff.2 hne; omega : (valid p).length = 1)
    rw [hr, List.mem_singleton] at ha hb
    have := congrArg Prod.fst (ha.trans hb.symm)
    simp at this
    linarith
  obtain ⟨A, r, s, B, e1, e2, e3, e4⟩ := lin_pairs hI h2' ⟨(a, va), ha, h1⟩ ⟨(b, vb), hb, h2⟩
  exact ⟨A, r.1, r.2, s.1, s.2, B, e1, e2, e3, e4⟩

theorem lin_at (h : Valid p) (hi : Inc p.x) {a va b vb c vc : Rat} (hab : a < b) (ha : (a, va) ∈ valid p)
    (hb : (b, vb) ∈ valid p) (hc : (c, vc) ∈ valid p) : lin (valid p) c = some vc := by
  have hI := valid_inc h hi
  have h2 : 2 ≤ (valid p).length := by
    by_contra hn
    have hne : valid p ≠ [] := List.ne_nil_of_mem ha
    obtain ⟨r, hr⟩ := List.length_eq_one_iff.1 (by have := List.length_pos_iff.2 hne; omega : (valid p).length = 1)
    rw [hr, List.mem_singleton] at ha hb
    have := congrArg Prod.fst (ha.trans hb.symm)
    simp at this
    linarith
  have e : valid p = ((valid p).map fun r => ((r.1, (r.1, r.2)) : Knot)).map fun k => (k.1, k.2.2) := by
    rw [List.map_map]; exact (List.map_id' _).symm
  have := lin_knot (K := (valid p).map fun r => ((r.1, (r.1, r.2)) : Knot)) (by rw [List.map_map]; exact hI) (by simpa using h2)
    (List.mem_map.2 ⟨(c, vc), hc, rfl⟩) fun k => k.2.2
  rwa [← e] at this

/-- The new values, when the ends are not masked. -/
theorem evenY_ok (h : Valid p) (hi : Inc p.x) {a va b vb : Rat} (hab : a < b) (hh : (pts p).head? = some (a, some va))
    (hl : (pts p).getLast? = some (b, some vb)) {n : Nat} (hn : n ≠ 0) :
    evenY p (linspace a b n) = .ok ((linspace a b n).map (lin (valid p))) := by
  obtain ⟨ma, mb⟩ := valid_ends h hh hl
  have hx : ∀ t ∈ linspace a b n, a ≤ t ∧ t ≤ b := by
    intro t ht
    obtain ⟨i, hit⟩ := List.mem_iff_getElem?.1 ht
    have hlt := getElem?_some_lt hit
    rw [linspace_length] at hlt
    rw [linspace_get _ _ _ _ (by omega)] at hit
    rw [← Option.some.inj hit]
    have n0 : (0 : Rat) < n := by exact_mod_cast Nat.pos_of_ne_zero hn
    have hin : (i : Rat) ≤ n := by exact_mod_cast Nat.lt_succ_iff.1 hlt
    have i0 : (0 : Rat) ≤ i := by positivity
    have hp : 0 ≤ (b - a) / n := div_nonneg (by linarith) n0.le
    have hq : n * ((b - a) / n) = b - a := by field_simp
    constructor
    · nlinarith
    · nlinarith
  have h2 : ¬ (valid p).length < 2 := by
    intro hc
    have hne : valid p ≠ [] := List.ne_nil_of_mem ma
    obtain ⟨r, hr⟩ := List.length_eq_one_iff.1 (by have := List.length_pos_iff.2 hne; omega : (valid p).length = 1)
    rw [hr, List.mem_singleton] at ma mb
    have := congrArg Prod.fst (ma.trans mb.symm)
    simp at this
    linarith
  obtain ⟨u, m, v, e, es, eh, el⟩ := ends (linspace a b n) (by rw [linspace_length]; omega)
  have hu : u = a := by
    rw [List.head?_eq_getElem?, linspace_get _ _ _ _ (by omega)] at eh
    rw [← Option.some.inj eh]; simp
  have hv : v = b := by
    rw [List.getLast?_eq_getElem?, linspace_length, linspace_get _ _ _ _ (by omega)] at el
    rw [← Option.some.inj el]
    have n0 : (n : Rat) ≠ 0 := by exact_mod_cast hn
    simp only [Nat.add_sub_cancel]
    field_simp
    ring
  unfold evenY
  rw [if_neg h2, es, if_neg]
  · congr 1
    rw [(pts_head h hh).2, (pts_last h hl).2, e, hu, hv]
    simp only [List.cons_append, List.map_cons, List.map_append, List.map_nil, Option.getD_some]
    rw [lin_at h hi hab ma mb ma, lin_at h hi hab ma mb mb]
  · rw [Bool.not_eq_true, List.any_eq_false]
    intro t ht
    obtain ⟨h1, h2⟩ := hx t (by rw [e]; simp [ht])
    obtain ⟨A, x1, v1, x2, v2, B, -, -, -, e4⟩ := lin_valid h hi hab ma mb h1 h2
    rw [e4]
    simp

/-- C230: otherwise the abscissae go by equal steps from the first to the last one, as many as before or, with a step `dx`,
the most intervals not shorter than `dx`; the values are those of the broken line through the unmasked points, and nothing
is masked. -/
theorem C230_even_partial (hs : IsArgsort srt) (h : Valid p) (hi : Inc p.x) (he : ¬ Even p.x) {dx : Option Rat} {a va b vb : Rat}
    (hh : (pts p).head? = some (a, some va)) (hl : (pts p).getLast? = some (b, some vb)) (hab : a < b)
    (hd : ∀ d, dx = some d → 0 < d ∧ d ≤ b - a) :
    ∃ q n, evenlySpace srt p dx = .ok q ∧ n ≠ 0 ∧ (dx = none → n + 1 = p.x.length) ∧
      (∀ d, dx = some d → d ≤ (b - a) / n ∧ (b - a) / (n + 1) < d) ∧ Valid q ∧ q.ux = p.ux ∧ q.uy = p.uy ∧
      q.x.length = n + 1 ∧ (∀ i ≤ n, q.x[i]? = some (a + i * ((b - a) / n))) ∧ (∀ r ∈ pts q, r.2 ≠ none) ∧
      (∀ x v, (x, some v) ∈ pts q → ∃ A x1 v1 x2 v2 B, valid p = A ++ (x1, v1) :: (x2, v2) :: B ∧ x1 ≤ x ∧ x ≤ x2 ∧
        v = onLine x1 v1 x2 v2 x) := by
  obtain ⟨ma, mb⟩ := valid_ends h hh hl
  have hxa := (pts_head h hh).1
  have hxb := (pts_last h hl).1
  have h2 : 2 ≤ p.x.length := by
    by_contra hc
    have hne : p.x ≠ [] := by intro hc; rw [hc] at hxa; simp at hxa
    obtain ⟨r, hr⟩ := List.length_eq_one_iff.1 (by have := List.length_pos_iff.2 hne; omega : p.x.length = 1)
    rw [hr] at hxa hxb
    simp at hxa hxb
    linarith
  have hn : intervals p.x dx ≠ 0 ∧ (dx = none → intervals p.x dx + 1 = p.x.length) ∧
      ∀ d, dx = some d → d ≤ (b - a) / (intervals p.x dx : Nat) ∧ (b - a) / ((intervals p.x dx : Nat) + 1) < d := by
    cases dx with
    | none =>
      rw [intervals_none h2 hxa hxb hab]
      exact ⟨by omega, fun _ => by omega, fun d hc => by cases hc⟩
    | some d =>
      obtain ⟨d0, d1⟩ := hd d rfl
      obtain ⟨i1, i2⟩ := intervals_some hxa hxb d0 hab.le
      have hne : intervals p.x (some d) ≠ 0 := by
        intro hc
        rw [hc] at i2
        simp at i2
        linarith
      refine ⟨hne, fun hc => (by cases hc), fun d' hd' => ?_⟩
      cases hd'
      have n0 : (0 : Rat) < (intervals p.x (some d) : Nat) := by exact_mod_cast Nat.pos_of_ne_zero hne
      constructor
      · rw [le_div_iff₀ n0]; linarith
      · rw [div_lt_iff₀ (by linarith)]; linarith
  obtain ⟨hn0, hn1, hn2⟩ := hn
  have hinc := linspace_inc hab hn0
  obtain ⟨q, eq, hq, qx, qp, u1, u2⟩ := Path.new_inc hs (y := (linspace a b (intervals p.x dx)).map (lin (valid p))) p.ux p.uy hinc (by simp)
  have hev : even p.x = false := by
    rw [← Bool.not_eq_true]
    exact fun hc => he ((even_iff h2).1 hc)
  have hrange : ∀ (i : Nat), i ≤ intervals p.x dx →
      a ≤ a + (i : Rat) * ((b - a) / (intervals p.x dx : Nat)) ∧ a + (i : Rat) * ((b - a) / (intervals p.x dx : Nat)) ≤ b := by
    intro i hin
    have n0 : (0 : Rat) < (intervals p.x dx : Nat) := by exact_mod_cast Nat.pos_of_ne_zero hn0
    have hin : (i : Rat) ≤ (intervals p.x dx : Nat) := by exact_mod_cast hin
    have i0 : (0 : Rat) ≤ i := by positivity
    have hp : 0 ≤ (b - a) / (intervals p.x dx : Nat) := div_nonneg (by linarith) n0.le
    have hq : (intervals p.x dx : Nat) * ((b - a) / (intervals p.x dx : Nat)) = b - a := by field_simp
    constructor
    · nlinarith
    · nlinarith
  have hpq : ∀ r ∈ pts q, ∃ A x1 v1 x2 v2 B, valid p = A ++ (x1, v1) :: (x2, v2) :: B ∧ x1 ≤ r.1 ∧ r.1 ≤ x2 ∧
      r.2 = some (onLine x1 v1 x2 v2 r.1) := by
    intro r hr
    rw [qp, List.mem_iff_getElem?] at hr
    obtain ⟨i, hir⟩ := hr
    have hlt := getElem?_some_lt hir
    rw [List.length_zip, List.length_map, linspace_length, min_self] at hlt
    rw [Path.zip_get, List.getElem?_map, linspace_get _ _ _ _ (by omega)] at hir
    obtain ⟨r1, r2⟩ := hrange i (by omega)
    obtain ⟨A, x1, v1, x2, v2, B, e1, e2, e3, e4⟩ := lin_valid h hi hab ma mb r1 r2
    have hir := Option.some.inj hir
    refine ⟨A, x1, v1, x2, v2, B, e1, ?_, ?_, ?_⟩
    · rw [← hir]; exact e2
    · rw [← hir]; exact e3
    · rw [← hir]; exact e4
  refine ⟨q, intervals p.x dx, ?_, hn0, hn1, hn2, hq, u1, u2, by rw [qx, linspace_length], ?_, ?_, ?_⟩
  · unfold evenlySpace
    rw [if_neg (by omega), hev, hxa, hxb]
    simp only [Option.getD_some, Bool.false_eq_true, if_false]
    rw [evenY_ok h hi hab hh hl hn0]
    exact eq
  · intro i hin
    rw [qx, linspace_get _ _ _ _ hin]
  · intro r hr hn
    obtain ⟨A, x1, v1, x2, v2, B, -, -, -, e4⟩ := hpq r hr
    rw [e4] at hn
    cases hn
  · intro x v hx
    obtain ⟨A, x1, v1, x2, v2, B, e1, e2, e3, e4⟩ := hpq _ hx
    exact ⟨A, x1, v1, x2, v2, B, e1, e2, e3, Option.some.inj e4⟩

/-- C230: a step longer than the profile is refused. -/
theorem C230_long_step (h : Valid p) (he : ¬ Even p.x) (h2 : 2 ≤ p.x.length) {d a b : Rat}
    (ha : p.x.head? = some a) (hb : p.x.getLast? = some b) (hab : a ≤ b) (hd : b - a < d) :
    evenlySpace srt p (some d) = .error .valueError := by
  have d0 : 0 < d := by linarith
  obtain ⟨i1, i2⟩ := intervals_some ha hb d0 hab
  have hn : intervals p.x (some d) = 0 := by
    by_contra hc
    have : (1 : Rat) ≤ (intervals p.x (some d) : Nat) := by exact_mod_cast Nat.pos_of_ne_zero hc
    nlinarith
  have hev : even p.x = false := by
    rw [← Bool.not_eq_true]
    exact fun hc => he ((even_iff h2).1 hc)
  unfold evenlySpace
  rw [if_neg (by omega), hev, ha, hb, hn]
  simp only [Option.getD_some, Bool.false_eq_true, if_false]
  unfold evenY
  by_cases hv : (valid p).length < 2
  · rw [if_pos hv]
  · rw [if_neg hv]
    have hs : slice (linspace a b 0) 1 ((linspace a b 0).length - 1) = [] := by simp [slice, linspace]
    rw [hs]
    simp only [List.any_nil, Bool.false_eq_true, if_false, List.map_nil]
    unfold new
    rw [if_pos (by simp [linspace])]

theorem masked_end (he : ¬ Even p.x) (h2 : 2 ≤ p.x.length) (hi : Inc p.x) {dx : Option Rat} {a b : Rat}
    (ha : p.x.head? = some a) (hb : p.x.getLast? = some b)
    {i : Nat} (h0 : 0 < i) (hin : i < intervals p.x dx)
    (hout : (∀ r ∈ valid p, a + i * ((b - a) / (intervals p.x dx : Nat)) < r.1) ∨
      (∀ r ∈ valid p, r.1 < a + i * ((b - a) / (intervals p.x dx : Nat)))) :
    evenlySpace srt p dx = .error .valueError := by
  have hev : even p.x = false := by
    rw [← Bool.not_eq_true]
    exact fun hc => he ((even_iff h2).1 hc)
  have hlow : ∀ (l : List (Rat × Rat)) (t : Rat), (∀ r ∈ l, t < r.1) → lin l t = none := by
    intro l t ht
    rcases l with _ | ⟨r, _ | ⟨s, l⟩⟩
    · rfl
    · rfl
    · unfold lin
      rw [if_pos (ht r (by simp))]
  have hhigh : ∀ (l : List (Rat × Rat)) (t : Rat), (∀ r ∈ l, r.1 < t) → lin l t = none := by
    intro l
    induction l with
    | nil => intro t _; rfl
    | cons r l ih =>
      intro t ht
      rcases l with _ | ⟨s, l⟩
      · rfl
      · unfold lin
        by_cases hc : t < r.1
        · rw [if_pos hc]
        · rw [if_neg hc, if_neg (not_le.2 (ht s (by simp)))]
          exact ih t fun r hr => ht r (by simp [hr])
  have hnone : lin (valid p) (a + i * ((b - a) / (intervals p.x dx : Nat))) = none := by
    rcases hout with h | h
    · exact hlow _ _ h
    · exact hhigh _ _ h
  unfold evenlySpace
  rw [if_neg (by omega), hev, ha, hb]
  simp only [Option.getD_some, Bool.false_eq_true, if_false]
  unfold evenY
  by_cases hv : (valid p).length < 2
  · rw [if_pos hv]
  · rw [if_neg hv, if_pos]
    rw [List.any_eq_true]
    refine ⟨a + i * ((b - a) / (intervals p.x dx : Nat)), ?_, by rw [hnone]; rfl⟩
    rw [List.mem_iff_getElem?]
    refine ⟨i - 1, ?_⟩
    rw [linspace_length]
    unfold slice
    rw [List.getElem?_drop, List.getElem?_take, if_pos (by omega), show 1 + (i - 1) = i by omega, linspace_get _ _ _ _ (by omega)]

/-- C230: a new abscissa strictly inside the profile but out of the unmasked points makes it **fail**, although the profile
has unmasked points: masked ends are not handled. -/
theorem C230_masked_end_violated (he : ¬ Even p.x) (hi : Inc p.x) {a b : Rat} (ha : p.x.head? = some a)
    (hb : p.x.getLast? = some b) (hab : a < b) {i : Nat} (h0 : 0 < i) (hin : i < p.x.length - 1)
    (hout : (∀ r ∈ valid p, a + i * ((b - a) / (p.x.length - 1 : Nat)) < r.1) ∨
      (∀ r ∈ valid p, r.1 < a + i * ((b - a) / (p.x.length - 1 : Nat)))) :
    evenlySpace srt p none = .error .valueError := by
  have e := intervals_none (by omega : 2 ≤ p.x.length) ha hb hab
  exact masked_end he (by omega) hi ha hb h0 (e ▸ hin) (e ▸ hout)

/-! A profile with uneven steps and a masked point. -/

def bumpy : Prof where
  x := [0, 1, 3, 4, 6]
  y := [some 0, some 2, some 4, none, some 10]
  m := [false, false, false, true, false]
  ux := .m
  uy := .s

example : Valid bumpy ∧ Inc bumpy.x ∧ (pts bumpy).head? = some (0, some 0) ∧ (pts bumpy).getLast? = some (6, some 10) := by
  unfold Valid Inc
  decide +kernel

example : ¬ Even bumpy.x := by
  rw [← even_iff (by decide)]
  decide +kernel

example : evenlySpace argsort bumpy (some 2) =
    .ok ⟨[0, 2, 4, 6], [some 0, some 3, some 6, some 10], [false, false, false, false], .m, .s⟩ := by decide +kernel

/-- The first points masked. -/
def lateStart : Prof where
  x := [0, 1, 3, 4, 6]
  y := [none, none, some 4, some 5, some 10]
  m := [true, true, false, false, false]
  ux := .m
  uy := .s

example : Inc lateStart.x ∧ lateStart.x.head? = some 0 ∧ lateStart.x.getLast? = some 6 ∧ (∃ i, 0 < i ∧ i < lateStart.x.length - 1 ∧
    ∀ r ∈ valid lateStart, 0 + (i : Rat) * ((6 - 0) / (lateStart.x.length - 1 : Nat)) < r.1) := by
  refine ⟨?_, rfl, rfl, 1, ?_⟩
  · unfold Inc; decide +kernel
  · decide +kernel

end IMT.Reshape
