import Verif.Scalar.GeomLemmas

/-! Helper lemmas for `extend` and `import_from_arrays`. -/

namespace IMT

theorem Inc.append {l m : List Rat} (hl : Inc l) (hm : Inc m) (h : ∀ a ∈ l, ∀ b ∈ m, a < b) : Inc (l ++ m) := by
  unfold Inc at *
  rw [List.pairwise_append]
  exact ⟨hl, hm, h⟩

theorem Inc.range_map {n : Nat} {g : Nat → Rat} (h : ∀ i j, i < j → g i < g j) : Inc ((List.range n).map g) := by
  unfold Inc
  rw [List.pairwise_map]
  exact List.pairwise_lt_range.imp fun hab => h _ _ hab

theorem cast_lt {i j : Nat} (h : i < j) : (i : Rat) + 1 ≤ j := by
  have : i + 1 ≤ j := h
  exact_mod_cast this

namespace Axis

/-- `a` and `b` are the two first points of the axis. -/
theorem extend_spec {l : List Rat} (h : Inc l) (h2 : 2 ≤ l.length) (nl nr : Nat) :
    ∃ out, extend l nl nr = .ok out ∧ Inc out ∧ out.length = nl + l.length + nr ∧
      (∀ i, i < l.length → out[nl + i]? = l[i]?) ∧
      (∀ a b, l[0]? = some a → l[1]? = some b → ∀ k : Nat, k < nl →
        out[k]? = some (a - ((nl : Rat) - k) * (b - a))) ∧
      (∀ y z, l[l.length - 2]? = some y → l[l.length - 1]? = some z → ∀ k : Nat, k < nr →
        out[nl + l.length + k]? = some (z + ((k : Rat) + 1) * (z - y))) := by
  obtain ⟨a, b, t, hab⟩ : ∃ a b t, l = a :: b :: t := by
    match l, h2 with
    | a :: b :: t, _ => exact ⟨a, b, t, rfl⟩
  obtain ⟨z, y, u, hzy⟩ : ∃ z y u, l.reverse = z :: y :: u := by
    have : 2 ≤ l.reverse.length := by simpa using h2
    match hr : l.reverse, this with
    | z :: y :: u, _ => exact ⟨z, y, u, rfl⟩
  have ha : l[0]? = some a := by rw [hab]; rfl
  have hb : l[1]? = some b := by rw [hab]; rfl
  have hz : l[l.length - 1]? = some z := by
    have : l.reverse[0]? = some z := by rw [hzy]; rfl
    rw [List.getElem?_reverse (by omega)] at this
    simpa using this
  have hy : l[l.length - 2]? = some y := by
    have : l.reverse[1]? = some y := by rw [hzy]; rfl
    rw [List.getElem?_reverse (by omega)] at this
    rw [show l.length - 2 = l.length - 1 - 1 by omega]; exact this
  have dab : 0 < b - a := by have := h.get_lt ha hb (by omega); linarith
  have dyz : 0 < z - y := by have := h.get_lt hy hz (by omega); linarith
  let p := before a (b - a) nl
  let q := after z (z - y) nr
  have hpre : extendPre l nl = .ok p := by
    unfold extendPre
    by_cases h0 : nl = 0
    · simp [h0, p, before]
    · rw [if_neg h0, hab]
  have hpost : extendPost l nr = .ok q := by
    unfold extendPost
    by_cases h0 : nr = 0
    · simp [h0, q, after]
    · rw [if_neg h0, hzy]
  have lp : p.length = nl := by simp [p, before]
  have lq : q.length = nr := by simp [q, after]
  refine ⟨p ++ l ++ q, ?_, ?_, ?_, ?_, ?_, ?_⟩
  · unfold extend
    rw [hpre, hpost]
  · have incp : Inc p := Inc.range_map (n := nl) (g := fun k => a - (b - a) * nl + (b - a) * k) fun i j hij => by
      have := cast_lt hij
      nlinarith [mul_lt_mul_of_pos_left (show (i : Rat) < j by linarith) dab]
    have incq : Inc q := Inc.range_map (n := nr) (g := fun k => z + (z - y) + (z - y) * k) fun i j hij => by
      have := cast_lt hij
      nlinarith [mul_lt_mul_of_pos_left (show (i : Rat) < j by linarith) dyz]
    have hpa : ∀ c ∈ p, c < a := by
      intro c hc
      simp only [p, before, List.mem_map, List.mem_range] at hc
      obtain ⟨k, hk, rfl⟩ := hc
      have := cast_lt hk
      nlinarith [mul_lt_mul_of_pos_left (show (k : Rat) < nl by linarith) dab]
    have hqz : ∀ c ∈ q, z < c := by
      intro c hc
      simp only [q, after, List.mem_map, List.mem_range] at hc
      obtain ⟨k, hk, rfl⟩ := hc
      have : (0 : Rat) ≤ k := Nat.cast_nonneg k
      nlinarith [mul_nonneg (le_of_lt dyz) this]
    have hla : ∀ c ∈ l, a ≤ c := by
      intro c hc
      obtain ⟨i, hi⟩ := List.getElem?_of_mem hc
      exact h.get_le ha hi (Nat.zero_le _)
    have hlz : ∀ c ∈ l, c ≤ z := by
      intro c hc
      obtain ⟨i, hi⟩ := List.getElem?_of_mem hc
      exact h.get_le hi hz (by have := getElem?_some_lt hi; omega)
    refine (incp.append h fun c hc d hd => lt_of_lt_of_le (hpa c hc) (hla d hd)).append incq ?_
    intro c hc d hd
    rcases List.mem_append.mp hc with hc | hc
    · have := hpa c hc; have := hqz d hd; have := hla z (List.mem_of_getElem? hz); linarith
    · exact lt_of_le_of_lt (hlz c hc) (hqz d hd)
  · simp [lp, lq]; omega
  · intro i hi
    rw [List.getElem?_append_left (by simp [lp]; omega), List.getElem?_append_right (by omega), lp]
    congr 1; omega
  · intro a' b' ha' hb' k hk
    rw [ha] at ha'; cases ha'
    rw [hb] at hb'; cases hb'
    rw [List.getElem?_append_left (by simp [lp]; omega), List.getElem?_append_left (by omega)]
    simp only [p, before, List.getElem?_map, List.getElem?_range hk, Option.map_some, Option.some.injEq]
    ring
  · intro y' z' hy' hz' k hk
    rw [hy] at hy'; cases hy'
    rw [hz] at hz'; cases hz'
    rw [List.getElem?_append_right (by simp [lp])]
    have : nl + l.length + k - (p ++ l).length = k := by simp [lp]
    rw [this]
    simp only [q, after, List.getElem?_map, List.getElem?_range hk, Option.map_some, Option.some.injEq]
    ring

end Axis

namespace SF

/-- The decision "first coordinate larger than the last" is no for an increasing axis. -/
theorem rev_false {l : List Rat} (h : Inc l) : isRev l = false := by
  unfold isRev
  split
  · rename_i a b ha hb
    simpa using Axis.head_le_last h ha hb
  · rfl

/-- The decision is yes for a decreasing axis of at least two points. -/
theorem rev_true {l : List Rat} (h : Inc l.reverse) (h2 : 2 ≤ l.length) : isRev l = true := by
  unfold isRev
  rw [head?_eq_get0, getLast?_eq_get, List.getElem?_eq_getElem (by omega), List.getElem?_eq_getElem (by omega)]
  simp only [gt_iff_lt, decide_eq_true_eq]
  have h1 := List.pairwise_reverse.mp h
  exact (List.pairwise_iff_getElem.mp h1) 0 (l.length - 1) (by omega) (by omega) (by omega)

/-- The mask array obtained from the mask argument. -/
def MaskArg.get (m : MaskArg) (i j : Nat) : Bool :=
  match m with
  | .none => false
  | .bool b => b
  | .array g => g.get i j

def MaskArg.shape (m : MaskArg) (v : Grid (Option Rat)) : Prop :=
  match m with
  | .array g => g.nx = v.nx ∧ g.ny = v.ny
  | _ => True

/-- The import of arrays of the direct shape, with its reversals. -/
theorem import_direct {ax ay : List Rat} {v : Grid (Option Rat)} {m : MaskArg} {ux uy uv : Sym}
    (hx : v.nx = ax.length) (hy : v.ny = ay.length) (h2x : 2 ≤ ax.length) (h2y : 2 ≤ ay.length)
    (hm : m.shape v) :
    ∃ g, importArrays ax ay v m ux uy uv = .ok g ∧
      g.ax = (if isRev ax then ax.reverse else ax) ∧ g.ay = (if isRev ay then ay.reverse else ay) ∧
      g.val.nx = ax.length ∧ g.val.ny = ay.length ∧ g.mask.nx = ax.length ∧ g.mask.ny = ay.length ∧
      (∀ i j, g.val.get i j = v.get (if isRev ax then ax.length - 1 - i else i)
        (if isRev ay then ay.length - 1 - j else j)) ∧
      (∀ i j, g.mask.get i j = (m.get i j || (v.get i j).isNone)) ∧
      g.ux = ux ∧ g.uy = uy ∧ g.uv = uv := by
  unfold importArrays
  have hn : ¬ (ay.length < 2 ∨ ax.length < 2) := by omega
  rw [if_neg hn]
  have hs : decide (ax.length = v.ny ∧ ay.length = v.nx ∧ ax.length ≠ ay.length) = false := by
    rw [decide_eq_false_iff_not]; omega
  simp only [hs, Bool.false_eq_true, if_false]
  refine ⟨_, rfl, rfl, rfl, ?_, ?_, ?_, ?_, ?_, ?_, rfl, rfl, rfl⟩
  · cases isRev ax <;> cases isRev ay <;> simp [Grid.flipX, Grid.flipY, hx]
  · cases isRev ax <;> cases isRev ay <;> simp [Grid.flipX, Grid.flipY, hy]
  · cases m with
    | none => simpa [Grid.map2, Grid.const] using hx
    | bool b => simpa [Grid.map2, Grid.const] using hx
    | array g => simpa [Grid.map2, hm.1] using hx
  · cases m with
    | none => simpa [Grid.map2, Grid.const] using hy
    | bool b => simpa [Grid.map2, Grid.const] using hy
    | array g => simpa [Grid.map2, hm.2] using hy
  · intro i j
    cases isRev ax <;> cases isRev ay <;> simp [Grid.flipX, Grid.flipY, hx, hy]
  · intro i j
    cases m <;> simp [Grid.map2, Grid.const, MaskArg.get]

theorem import_transposed {ax ay : List Rat} {v : Grid (Option Rat)} {m : MaskArg} {ux uy uv : Sym}
    (hx : v.nx = ay.length) (hy : v.ny = ax.length) (hne : ax.length ≠ ay.length)
    (hm : m.shape v) :
    importArrays ax ay v m ux uy uv = importArrays ax ay v.transpose
      (match m with
        | .none => .none
        | .bool b => .bool b
        | .array g => .array g.transpose) ux uy uv := by
  unfold importArrays
  by_cases hn : ay.length < 2 ∨ ax.length < 2
  · rw [if_pos hn, if_pos hn]
  · rw [if_neg hn, if_neg hn]
    have hs : decide (ax.length = v.ny ∧ ay.length = v.nx ∧ ax.length ≠ ay.length) = true := by
      rw [decide_eq_true_eq]; omega
    have hs' : decide (ax.length = v.transpose.ny ∧ ay.length = v.transpose.nx ∧ ax.length ≠ ay.length) = false := by
      rw [decide_eq_false_iff_not]; simp only [Grid.transpose]; omega
    simp only [hs, hs', Bool.false_eq_true, if_false, if_true]
    cases m with
    | none => rfl
    | bool b => rfl
    | array g => rfl

end SF
end IMT
