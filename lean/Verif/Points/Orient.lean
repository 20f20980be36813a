import Verif.Points.OrientModel
import Verif.Points.Props

/-! C311 to C313, and more on C27. -/

namespace IMT.Points

/-! ### C27 -/

/-- C27 is violated: whenever the x units have different sizes, a point of the right operand which is not on the y axis is
found at another physical place in the sum. -/
theorem C27_place_violated {p q r : P} (hp : p.xy ≠ []) (h0 : 0 < p.ux.size) (h1 : 0 < q.ux.size)
    (hs : p.ux.size ≠ q.ux.size) (hr : (plus p q).2 = .ok r) {k : Nat} {a : Rat} {b : F} (ha : a ≠ 0)
    (hk : q.xy[k]? = some (some a, b)) :
    ∃ c, r.xy[p.xy.length + k]? = some c ∧ si r.ux c.1 ≠ si q.ux (some a) := by
  have hq : q.xy ≠ [] := by rintro h; rw [h] at hk; simp at hk
  unfold plus at hr
  rw [if_neg hp, if_neg hq] at hr
  split at hr
  · cases hr
  unfold new setV at hr
  simp only at hr
  split at hr
  · cases hr
    refine ⟨(some (a * fact p.ux q.ux), b.map (· * fact p.uy q.uy)), ?_, ?_⟩
    · simp only
      rw [List.getElem?_append_right (by omega)]
      simp [converted, hk]
    · simp only [si, Option.map_some, ne_eq, Option.some.injEq, fact]
      intro h
      apply hs
      have h2 : p.ux.size * p.ux.size = q.ux.size * q.ux.size := by
        have : a * (p.ux.size * p.ux.size) = a * (q.ux.size * q.ux.size) := by
          field_simp at h
          linear_combination a * h
        exact mul_left_cancel₀ ha this
      exact (mul_self_inj h0.le h1.le).mp h2
  · cases hr

/-! ### C311 -/

theorem zip_append_rows {p q r : P} {a b : List Dirs} (hp : Aligned p) (ha : a.length = p.xy.length)
    (h : rows r = rows p ++ rows q) : (rows r).zip (a ++ b) = (rows p).zip a ++ (rows q).zip b := by
  rw [h, List.zip_append]
  rw [rows_length hp, ha]

/-- C311: for sets in the same units, which both have values or both have none, with as many directions, the sum has the
points of both sets in order, each one with its own value and directions; the units are kept and the right operand does not
change.  Missing: other units, `C311_place_violated`; sets without directions, `C311_plain_violated`. -/
theorem C311_sum_partial {p q : OP Dirs} (hp : OAligned p) (hq : OAligned q) (hv : p.pts.v = [] ↔ q.pts.v = [])
    (hx : p.pts.ux = q.pts.ux) (hy : p.pts.uy = q.pts.uy) (hw : p.pts.uv = q.pts.uv) (h0 : p.pts.ux.size ≠ 0)
    (h1 : p.pts.uy.size ≠ 0) (h2 : p.pts.uv.size ≠ 0) (hd : p.ori ≠ [] → q.ori ≠ [] → nDirs p.ori = nDirs q.ori) :
    (p.plus q).1 = q.pts ∧ ∃ r, (p.plus q).2 = .ok r ∧ r.rows = p.rows ++ q.rows ∧ OAligned r ∧
      r.pts.ux = p.pts.ux ∧ r.pts.uy = p.pts.uy ∧ r.pts.uv = p.pts.uv := by
  obtain ⟨e1, s, e2, e3, e4, e5, e6⟩ := C27_sum_partial hp.1 hq.1 hv hx hy hw h0 h1 h2
  obtain ⟨hpa, hpo⟩ := hp
  obtain ⟨hqa, hqo⟩ := hq
  have hlen : s.xy.length = p.pts.xy.length + q.pts.xy.length ∧ Aligned s := by
    unfold plus at e2
    split at e2
    · rename_i h; cases e2; exact ⟨by rw [h]; simp, hqa⟩
    split at e2
    · rename_i h; cases e2; exact ⟨by rw [h]; simp, hpa⟩
    split at e2
    · cases e2
    · unfold new setV at e2
      simp only at e2
      split at e2
      · rename_i h
        cases e2
        refine ⟨by simp [converted], ?_⟩
        rcases h with h | h
        · exact .inl (List.length_eq_zero_iff.mp h)
        · exact .inr h
      · cases e2
  have key : sumOri p q = .ok (p.ori ++ q.ori) := by
    unfold sumOri appendOri
    by_cases hpe : p.pts.xy = []
    · rw [if_pos hpe]
      have : p.ori = [] := by rw [← List.length_eq_zero_iff, hpo, hpe]; rfl
      rw [this]; rfl
    rw [if_neg hpe]
    by_cases hqe : q.pts.xy = []
    · rw [if_pos hqe]
      have : q.ori = [] := by rw [← List.length_eq_zero_iff, hqo, hqe]; rfl
      rw [this, List.append_nil]
    rw [if_neg hqe, if_pos]
    apply hd
    · intro h; rw [h] at hpo; exact hpe (List.length_eq_zero_iff.mp hpo.symm)
    · intro h; rw [h] at hqo; exact hqe (List.length_eq_zero_iff.mp hqo.symm)
  have hl : (p.ori ++ q.ori).length = s.xy.length := by rw [List.length_append, hpo, hqo, hlen.1]
  unfold OP.plus
  generalize plus p.pts q.pts = g at e1 e2
  obtain ⟨q', t⟩ := g
  simp only at e1 e2
  subst e1 e2
  simp only [key, finish, setOri]
  refine ⟨by trivial, ⟨s, p.ori ++ q.ori⟩, ?_, ?_, ⟨hlen.2, hl⟩, e4, e5, e6⟩
  · rw [if_neg (by rw [hl]; simp)]
  · exact zip_append_rows hpa hpo e3

/-- C311 (refusal): two non-empty sets with different numbers of directions are not added. -/
theorem C311_directions_refused {p q : OP Dirs} (hp : p.pts.xy ≠ []) (hq : q.pts.xy ≠ []) (hd : nDirs p.ori ≠ nDirs q.ori) :
    ∃ e, (p.plus q).2 = .error e := by
  unfold OP.plus
  split
  · exact ⟨.valueError, by simp [sumOri, appendOri, finish, hp, hq, hd]⟩
  · exact ⟨_, rfl⟩

/-- C311: what a sum gives is always aligned: as many directions entries as points, and no value or one per point. -/
theorem C311_aligned {p q r : OP Dirs} (hp : OAligned p) (hq : OAligned q) (h : (p.plus q).2 = .ok r) : OAligned r := by
  unfold OP.plus at h
  split at h
  · rename_i q' s hs
    have hsa : Aligned s ∧ (s.xy.length = 0 → p.pts.xy = [] ∧ q.pts.xy = []) := by
      unfold plus at hs
      split at hs
      · rename_i hpe; cases hs; exact ⟨hq.1, fun h' => ⟨hpe, List.length_eq_zero_iff.mp h'⟩⟩
      rename_i h1
      split at hs
      · cases hs; exact ⟨hp.1, fun h' => absurd (List.length_eq_zero_iff.mp h') h1⟩
      split at hs
      · cases hs
      · unfold new setV at hs
        simp only at hs
        split at hs
        · rename_i hc
          cases hs
          refine ⟨?_, ?_⟩
          · rcases hc with hc | hc
            · exact .inl (List.length_eq_zero_iff.mp hc)
            · exact .inr hc
          · intro h'
            simp [h1] at h'
        · cases hs
    unfold finish at h
    split at h
    · rename_i o ho
      unfold setOri at h
      simp only at h
      split at h
      · cases h
      · rename_i hn
        cases h
        refine ⟨hsa.1, ?_⟩
        by_cases h0 : s.xy.length = 0
        · obtain ⟨hpe, hqe⟩ := hsa.2 h0
          unfold sumOri at ho
          rw [if_pos hpe] at ho
          cases ho
          simp only
          rw [hq.2, hqe, h0]; rfl
        · by_contra hne
          exact hn ⟨h0, hne⟩
    · cases h
  · cases h

/-- C311 is violated: when the x units have different sizes, a point of the right operand is found at another physical
place. -/
theorem C311_place_violated {p q r : OP Dirs} (hp : p.pts.xy ≠ []) (h0 : 0 < p.pts.ux.size) (h1 : 0 < q.pts.ux.size)
    (hs : p.pts.ux.size ≠ q.pts.ux.size) (hr : (p.plus q).2 = .ok r) {k : Nat} {a : Rat} {b : F} (ha : a ≠ 0)
    (hk : q.pts.xy[k]? = some (some a, b)) :
    ∃ c, r.pts.xy[p.pts.xy.length + k]? = some c ∧ si r.pts.ux c.1 ≠ si q.pts.ux (some a) := by
  unfold OP.plus at hr
  split at hr
  · rename_i q' s hs'
    have : s = r.pts := by
      unfold finish at hr
      split at hr
      · unfold setOri at hr
        simp only at hr
        split at hr
        · cases hr
        · cases hr; rfl
      · cases hr
    subst this
    exact C27_place_violated hp h0 h1 hs (by rw [hs']) ha hk
  · cases hr

/-- C311 is violated: points without directions that are not empty are never added, and AttributeError comes after the
units were found to agree (and after the coordinates of the right operand were converted). -/
theorem C311_plain_violated {p : OP Dirs} {q : P} (hq : q.xy ≠ []) :
    (p.plusPlain q).1 = (plus p.pts q).1 ∧
    ((∃ s, (plus p.pts q).2 = .ok s) → (p.plusPlain q).2 = .error .attributeError) := by
  unfold OP.plusPlain
  split
  · rename_i q' s h
    rw [h]
    split
    · exact ⟨rfl, fun _ => rfl⟩
    · exact ⟨rfl, fun _ => rfl⟩
  · rename_i q' e h
    rw [h]
    exact ⟨rfl, by rintro ⟨s, h⟩; cases h⟩

/-! ### C312 -/

/-- C312: decomposing gives one set of one point for each point, in order, with its own value and directions, and the units
of the set.  Missing: several points without values, `C312_no_values_violated`. -/
theorem C312_decompose_partial {p : OP Dirs} (h : OAligned p) (hv : p.pts.v.length = p.pts.xy.length) :
    ∃ l, p.decompose = .ok l ∧ l.flatMap OP.rows = p.rows ∧ l.length = p.pts.xy.length ∧
      ∀ s ∈ l, OAligned s ∧ s.pts.xy.length = 1 ∧ s.pts.v.length = 1 ∧ s.pts.ux = p.pts.ux ∧ s.pts.uy = p.pts.uy ∧
        s.pts.uv = p.pts.uv := by
  unfold OP.decompose
  obtain ⟨-, ho⟩ := h
  by_cases h1 : p.pts.xy.length = 1
  · rw [if_pos h1]
    refine ⟨[p], rfl, by simp, by simp [h1], ?_⟩
    intro s hs
    rw [List.mem_singleton] at hs
    subst hs
    exact ⟨⟨.inr hv, ho⟩, h1, by rw [hv, h1], rfl, rfl, rfl⟩
  · rw [if_neg h1, if_neg (by omega)]
    refine ⟨_, rfl, ?_, by simp [hv, ho], ?_⟩
    · have hr : rows p.pts = List.zipWith (fun c w => (c, some w)) p.pts.xy p.pts.v := by
        unfold rows
        by_cases hve : p.pts.v = []
        · rw [if_pos hve]
          rw [hve] at hv
          have : p.pts.xy = [] := List.length_eq_zero_iff.mp hv.symm
          simp [this]
        · rw [if_neg hve]
      unfold OP.rows
      rw [hr]
      have gen : ∀ (x : List (F × F)) (w : List F) (o : List Dirs),
          (((x.zip w).zip o).map (piece p)).flatMap (fun q => (Points.rows q.pts).zip q.ori) =
            (List.zipWith (fun c w => (c, some w)) x w).zip o := by
        intro x
        induction x with
        | nil => intro w o; simp
        | cons c x ih =>
          intro w o
          rcases w with _ | ⟨a, w⟩
          · simp
          · rcases o with _ | ⟨d, o⟩
            · simp
            · have := ih w o
              simp only [List.zip_cons_cons, List.map_cons, List.flatMap_cons, List.zipWith_cons_cons] at this ⊢
              rw [this]
              simp [piece, Points.rows]
      exact gen _ _ _
    · intro s hs
      rw [List.mem_map] at hs
      obtain ⟨r, -, rfl⟩ := hs
      exact ⟨⟨.inr rfl, rfl⟩, rfl, rfl, rfl, rfl, rfl⟩

/-- C312 is violated: several points without values are never decomposed. -/
theorem C312_no_values_violated {p : OP Dirs} (hv : p.pts.v = []) (h : 2 ≤ p.pts.xy.length) :
    p.decompose = .error .exception := by
  unfold OP.decompose
  rw [if_neg (by omega), if_pos (by rw [hv, List.length_nil]; omega)]

/-! ### C313 -/

/-- One boolean per direction. -/
def Reverses (r : Rev) (d : Nat) (rv : List Bool) : Prop :=
  (∃ b, r = .one b ∧ rv = List.replicate d b) ∨ (r = .each rv ∧ rv.length = d)

theorem reverses_ok {r : Rev} {d : Nat} {rv : List Bool} : reverses r d = .ok rv ↔ Reverses r d rv := by
  unfold reverses Reverses
  cases r with
  | one b =>
    constructor
    · intro h; cases h; exact .inl ⟨b, rfl, rfl⟩
    · rintro (⟨b', h, rfl⟩ | ⟨h, -⟩)
      · cases h; rfl
      · cases h
  | each l =>
    simp only
    constructor
    · intro h
      split at h
      · cases h; exact .inr ⟨rfl, by assumption⟩
      · cases h
    · rintro (⟨b', h, rfl⟩ | ⟨h, h'⟩)
      · cases h
      · cases h; rw [if_pos h']
  | other =>
    constructor
    · intro h; cases h
    · rintro (⟨b', h, rfl⟩ | ⟨h, h'⟩) <;> cases h

variable {I : Type} {S : List (Rat × Rat) → Bool → List (List (Rat × Rat))}

/-- C313: the streamlines are, for each point and each of its directions that is not zero, the streamlines of the field from
two points on the direction, on both sides of the point, at a quarter of the step of the x axis times the direction, run with
the sense asked for that direction; each one is given with the point in front. -/
theorem C313_streams {x₀ x₁ : Rat} {ax : List Rat} {l : List ((Rat × Rat) × Dirs)} {delta : Rat} {interp : I} {r : Rev}
    {d : Nat} {rv : List Bool} (hd : ∀ q ∈ l, q.2.length = d) (hl : l ≠ []) (hr : Reverses r d rv) :
    ∃ out, streamsFrom S (x₀ :: x₁ :: ax) l delta interp r = .ok out ∧
      ∀ st, st ∈ out ↔ ∃ q ∈ l, ∃ n, ∃ (h₁ : n < q.2.length) (h₂ : n < rv.length), q.2[n] ≠ (0, 0) ∧
        ∃ tail, st = q.1 :: tail ∧
          tail ∈ S [(q.1.1 - q.2[n].1 * ((x₁ - x₀) / 4), q.1.2 - q.2[n].2 * ((x₁ - x₀) / 4)),
                    (q.1.1 + q.2[n].1 * ((x₁ - x₀) / 4), q.1.2 + q.2[n].2 * ((x₁ - x₀) / 4))] rv[n] := by
  have hn : nDirs (l.map Prod.snd) = some d := by
    rcases l with _ | ⟨q, l⟩
    · exact absurd rfl hl
    · simp [nDirs, hd q (by simp)]
  unfold streamsFrom
  rw [hn]
  simp only
  rw [reverses_ok.mpr hr]
  simp only [fromChecked]
  refine ⟨_, rfl, ?_⟩
  intro st
  unfold fromAll
  rw [List.mem_flatMap]
  refine exists_congr fun q => and_congr_right fun hq => ?_
  rw [List.mem_flatMap]
  have e4 : (x₁ - x₀) * (1 / 4) = (x₁ - x₀) / 4 := by ring
  constructor
  · rintro ⟨⟨ev, b⟩, hm, hst⟩
    obtain ⟨n, hn', he⟩ := List.mem_iff_getElem.mp hm
    rw [List.getElem_zip] at he
    simp only [Prod.mk.injEq] at he
    rw [List.length_zip] at hn'
    refine ⟨n, by omega, by omega, ?_⟩
    rw [he.1, he.2]
    unfold fromDir seeds at hst
    simp only [e4] at hst
    split at hst
    · simp at hst
    · rename_i hz
      rw [List.mem_map] at hst
      obtain ⟨tail, ht, rfl⟩ := hst
      exact ⟨hz, tail, rfl, ht⟩
  · rintro ⟨n, h₁, h₂, hz, tail, rfl, ht⟩
    refine ⟨(q.2[n], rv[n]), ?_, ?_⟩
    · rw [List.mem_iff_getElem]
      exact ⟨n, by rw [List.length_zip]; omega, by rw [List.getElem_zip]⟩
    · unfold fromDir seeds
      simp only [e4]
      rw [if_neg hz, List.mem_map]
      exact ⟨tail, ht, rfl⟩

/-- C313: each streamline starts at one of the points. -/
theorem C313_starts {ax : List Rat} {l : List ((Rat × Rat) × Dirs)} {delta : Rat} {interp : I} {r : Rev}
    {out : List (List (Rat × Rat))} (h : streamsFrom S ax l delta interp r = .ok out) :
    ∀ st ∈ out, ∃ q ∈ l, st.head? = some q.1 := by
  intro st hst
  unfold streamsFrom at h
  split at h
  · cases h
  · unfold fromChecked at h
    split at h
    · cases h
    · cases h
      unfold fromAll at hst
      rw [List.mem_flatMap] at hst
      obtain ⟨q, hq, hst⟩ := hst
      rw [List.mem_flatMap] at hst
      obtain ⟨n, -, hst⟩ := hst
      unfold fromDir at hst
      split at hst
      · simp at hst
      · rw [List.mem_map] at hst
        obtain ⟨t, -, rfl⟩ := hst
        exact ⟨q, hq, rfl⟩
    · cases h

/-- C313 (refusals): an empty set and a wrong number of senses. -/
theorem C313_refused {ax : List Rat} {l : List ((Rat × Rat) × Dirs)} {delta : Rat} {interp : I} {r : Rev} {d : Nat}
    (hd : ∀ q ∈ l, q.2.length = d) (hr : l = [] ∨ ¬ ∃ rv, Reverses r d rv) :
    ∃ e, streamsFrom S ax l delta interp r = .error e := by
  unfold streamsFrom
  rcases l with _ | ⟨q, l⟩
  · exact ⟨_, rfl⟩
  · rcases hr with hr | hr
    · cases hr
    · have hn : nDirs ((q :: l).map Prod.snd) = some d := by simp [nDirs, hd q (by simp)]
      rw [hn]
      simp only
      rcases hv : reverses r d with e | rv
      · exact ⟨e, rfl⟩
      · exact absurd ⟨rv, reverses_ok.mp hv⟩ hr

/-- C313 is violated: the spatial discretisation and the interpolation asked for are not used. -/
theorem C313_options_violated {ax : List Rat} {l : List ((Rat × Rat) × Dirs)} {r : Rev} (δ δ' : Rat) (i i' : I) :
    streamsFrom S ax l δ i r = streamsFrom S ax l δ' i' r := rfl

/-! ### Examples -/

/-- Two sets of two and one points with two directions each. -/
def exA : OP Dirs := ⟨⟨[(some 1, some 0), (some 2, some 1)], [some 5, some 6], .mm, .mm, .s⟩, [[(1, 0), (0, 1)], [(1, 1), (0, 0)]]⟩

def exB : OP Dirs := ⟨⟨[(some 4, some 4)], [some 7], .mm, .mm, .s⟩, [[(2, 0), (0, 2)]]⟩

example : OAligned exA ∧ OAligned exB ∧ nDirs exA.ori = nDirs exB.ori ∧ (exA.pts.v = [] ↔ exB.pts.v = []) := by
  refine ⟨⟨.inr rfl, rfl⟩, ⟨.inr rfl, rfl⟩, rfl, ?_⟩
  simp [exA, exB]

example : ((exA.plus exB).2.toOption.map fun r => (r.pts.xy.length, r.pts.v, r.ori)) =
    some (3, [some 5, some 6, some 7], [[(1, 0), (0, 1)], [(1, 1), (0, 0)], [(2, 0), (0, 2)]]) := by decide +kernel

example : (exA.decompose.toOption.map fun l => l.map fun r => r.pts.xy) = some [[(some 1, some 0)], [(some 2, some 1)]] ∧
    (exA.decompose.toOption.map fun l => l.map fun r => r.ori) = some [[[(1, 0), (0, 1)]], [[(1, 1), (0, 0)]]] := by
  decide +kernel

/-- A sum of sets in metres and millimetres succeeds: the hypotheses of `C27_place_violated` are met. -/
example : ((plus ⟨[(some 0, some 0)], [], .m, .m, .one⟩ ⟨[(some 1, some 0)], [], .mm, .m, .one⟩).2.toOption.map P.xy) =
    some [(some 0, some 0), (some 1000, some 0)] := by decide +kernel

/-- Streamlines of a field that goes nowhere: each one is its start; the zero direction gives none. -/
example : (streamsFrom (fun s _ => s.map fun c => [c]) [0, 4, 8] [((1, 1), [(1, 0), (0, 0)])] 1 () (.one false)).toOption =
    some [[(1, 1), (0, 1)], [(1, 1), (2, 1)]] := by decide +kernel

end IMT.Points
