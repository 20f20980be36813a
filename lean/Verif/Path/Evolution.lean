import Verif.Path.Lemmas
import Verif.Scalar.Value

/-! Values of fields along a trajectory, export to a profile, decomposition: C225, C226 and C227. -/

namespace IMT.Path

open IMT.Profile (Prof F take new IsArgsort pts Valid)

variable {srt : List Rat → List Nat} {t : T}

/-- One element raises and the others raise nothing else: that exception is raised. -/
theorem collect_error {α : Type} {l : List (Res α)} {e : Err} (h : ∀ a ∈ l, (∃ b, a = .ok b) ∨ a = .error e)
    (he : .error e ∈ l) : Line.collect l = .error e := by
  induction l with
  | nil => simp at he
  | cons a l ih =>
    rcases h a (by simp) with ⟨b, rfl⟩ | rfl
    · have hl : .error e ∈ l := by simpa using he
      simp only [Line.collect, ih (fun a ha => h a (by simp [ha])) hl]
    · rfl

theorem getValue_total (main : Bool) {f : SF} (hf : f.WF) (x y : Rat) :
    (∃ w, f.getValue main x y = .ok w) ∨ f.getValue main x y = .error .valueError := by
  have total : ∀ (l : List Rat) (v : Rat), Inc l → l ≠ [] →
      (∃ p, Axis.bounds l v = .ok p) ∨ Axis.bounds l v = .error .valueError := by
    intro l v hl hne
    by_cases hv : v < l.head hne ∨ l.getLast hne < v
    · exact Or.inr ((Axis.C01_bounds_refused_iff hl (List.head?_eq_some_head hne)
        (List.getLast?_eq_some_getLast hne)).mpr hv)
    · rw [not_or, not_lt, not_lt] at hv
      obtain ⟨i, j, e, _⟩ := Axis.C01_bounds_bracket hl (List.head?_eq_some_head hne)
        (List.getLast?_eq_some_getLast hne) hv.1 hv.2
      exact Or.inl ⟨_, e⟩
  unfold SF.getValue
  rcases total f.ax x hf.incx hf.nex with ⟨p, hX⟩ | hX
  · rcases total f.ay y hf.incy hf.ney with ⟨q, hY⟩ | hY
    · rw [hX, hY]; exact Or.inl ⟨_, rfl⟩
    · rw [hX, hY]; exact Or.inr rfl
  · rw [hX]; exact Or.inr rfl

/-! ### specification -/

/-- What is plotted along an axis: the coordinates `x` or `y` of the points, or the values attached to them. -/
def coords (t : T) : Ax → List Rat
  | .x => t.xy.map fun p => p.1
  | .y => t.xy.map fun p => p.2
  | .v => t.v

/-- The unit of what is plotted. -/
def coordUnit (t : T) : Ax → Sym
  | .x => t.ux
  | .y => t.uy
  | .v => t.uv

theorem column_eq (t : T) : column t = coords t := by funext a; cases a <;> rfl

theorem unitOf_eq (t : T) : unitOf t = coordUnit t := by funext a; cases a <;> rfl

/-- The end of the two methods, once the values are known. -/
theorem evolution_spec (hs : IsArgsort srt) (a : Ax) (u : Sym) {ys : List F} (hy : ys.length = (column t a).length) :
    ∃ q, evolution srt t a u (.ok ys) = .ok q ∧ Valid q ∧ (pts q).Perm ((column t a).zip ys) ∧
      q.ux = unitOf t a ∧ q.uy = u := by
  obtain ⟨q, e, hv, hp, h1, h2⟩ := Profile.new_perm hs (m := ys.map Option.isNone) (unitOf t a) u hy (by simp [hy])
  rw [Profile.blank_isNone] at hp
  exact ⟨q, e, hv, hp, h1, h2⟩

theorem column_length (a : Ax) (ha : a = .v → t.v.length = t.xy.length) : (column t a).length = t.xy.length := by
  cases a with
  | x => simp [column]
  | y => simp [column]
  | v => exact ha rfl

/-! ### C225 -/

/-- C225: the profile has one point per point of the set: its coordinate on the chosen axis, with the value that
`get_value` gives at that very point (masked when it is NaN). -/
theorem C225_evolution (hs : IsArgsort srt) (main : Bool) (f : SF) (hne : t.xy ≠ []) {a : Ax}
    (ha : a = .v → t.v.length = t.xy.length) {g : Rat × Rat → F}
    (hg : ∀ p ∈ t.xy, f.getValue main p.1 p.2 = .ok (g p)) :
    ∃ q, onSF srt main t f (some a) = .ok q ∧ Valid q ∧ (pts q).Perm ((coords t a).zip (t.xy.map g)) ∧
      q.ux = coordUnit t a ∧ q.uy = f.uv := by
  simp only [← column_eq, ← unitOf_eq]
  obtain ⟨q, e, h⟩ := evolution_spec hs a f.uv (t := t) (ys := t.xy.map g) (by rw [column_length a ha]; simp)
  refine ⟨q, ?_, h⟩
  unfold onSF
  rw [if_neg hne, if_neg]
  · rw [Line.collect_ok t.xy _ g hg]
    exact e
  · rintro ⟨h1, h2⟩
    have h3 := ha h1
    rw [h2] at h3
    exact hne (List.length_eq_zero_iff.1 h3.symm)

/-- C225: on grid points, the values are those that the field shows there. -/
theorem C225_nodes (hs : IsArgsort srt) (main : Bool) {f : SF} (hf : f.WF) (hne : t.xy ≠ []) {a : Ax}
    (ha : a = .v → t.v.length = t.xy.length) {g : Rat × Rat → F} (hg : ∀ p ∈ t.xy, f.Reads p.1 p.2 (g p)) :
    ∃ q, onSF srt main t f (some a) = .ok q ∧ (pts q).Perm ((coords t a).zip (t.xy.map g)) := by
  obtain ⟨q, e, -, h, -⟩ := C225_evolution hs main f hne ha fun p hp => SF.C23_node main hf (hg p hp)
  exact ⟨q, e, h⟩

/-- C225: the default abscissae are the values of the points when there is one per point, and x otherwise. -/
theorem C225_default (main : Bool) (f : SF) :
    (t.v.length = t.xy.length → onSF srt main t f none = onSF srt main t f (some .v)) ∧
    (t.v.length ≠ t.xy.length → onSF srt main t f none = onSF srt main t f (some .x)) := by
  constructor
  · intro h
    unfold onSF defaultAx
    rw [if_pos h]
    rfl
  · intro h
    unfold onSF defaultAx
    rw [if_neg h]
    rfl

/-- C225: one point out of the field: ValueError. -/
theorem C225_outside (main : Bool) {f : SF} (hf : f.WF) {a : Option Ax} {p : Rat × Rat} (hp : p ∈ t.xy)
    (ho : (∀ x ∈ f.ax, p.1 < x) ∨ (∀ x ∈ f.ax, x < p.1) ∨ (∀ y ∈ f.ay, p.2 < y) ∨ (∀ y ∈ f.ay, y < p.2)) :
    onSF srt main t f a = .error .valueError := by
  have hne : t.xy ≠ [] := List.ne_nil_of_mem hp
  unfold onSF
  rw [if_neg hne]
  split
  · rfl
  · rw [collect_error]
    · rfl
    · intro r hr
      obtain ⟨q, -, rfl⟩ := List.mem_map.1 hr
      exact getValue_total main hf q.1 q.2
    · exact List.mem_map.2 ⟨p, hp, SF.C23_out_of_range main hf ho⟩

/-- C225: an empty set gives an empty profile. -/
theorem C225_empty (main : Bool) (f : SF) (a : Option Ax) (h : t.xy = []) :
    ∃ q, onSF srt main t f a = .ok q ∧ Valid q ∧ pts q = [] :=
  ⟨emptyProf, by unfold onSF; rw [if_pos h], by unfold Valid emptyProf; simp, rfl⟩

/-! ### C226 -/

theorem fieldAt_ok {r : Record} (hr : (r.map Prod.fst).Nodup) {time : Rat} {f : SF} (h : (time, f) ∈ r) :
    fieldAt r time = .ok f := by
  unfold fieldAt
  induction r with
  | nil => simp at h
  | cons e r ih =>
    rw [List.filter_cons]
    by_cases he : e.1 = time
    · rw [if_pos (by simpa using he)]
      rcases List.mem_cons.1 h with h | h
      · subst h; rfl
      · exfalso
        rw [List.map_cons, List.nodup_cons] at hr
        apply hr.1
        rw [he]
        exact List.mem_map.2 ⟨_, h, rfl⟩
    · rw [if_neg (by simpa using he)]
      rcases List.mem_cons.1 h with h | h
      · subst h; exact absurd rfl he
      · exact ih (by rw [List.map_cons, List.nodup_cons] at hr; exact hr.2) h

theorem fieldAt_none {r : Record} {time : Rat} (h : ∀ e ∈ r, e.1 ≠ time) : fieldAt r time = .error .indexError := by
  unfold fieldAt
  rw [List.filter_eq_nil_iff.2 (by intro e he; simpa using h e he)]
  rfl

theorem range_rows {β : Type} (hl : t.v.length = t.xy.length) (h : Rat × Rat → Option Rat → β) :
    ((List.range t.xy.length).map fun i => h (t.xy.getD i (0, 0)) t.v[i]?) =
      (rows t).map fun r => h r.2 (some r.1) := by
  unfold rows
  apply List.ext_getElem
  · simp [hl]
  · intro i h1 h2
    have hi : i < t.xy.length := by simpa using h1
    simp [List.getElem?_eq_getElem hi, List.getElem?_eq_getElem (hl ▸ hi : i < t.v.length)]

/-- C226: every value is read in the field of the point's own instant, at the point. -/
theorem C226_evolution (hs : IsArgsort srt) (main : Bool) {r : Record} (u : Sym) (hr : (r.map Prod.fst).Nodup)
    (hne : t.xy ≠ []) (hl : t.v.length = t.xy.length) (a : Ax) {g : Rat × (Rat × Rat) → F}
    (hg : ∀ e ∈ rows t, ∃ f, (e.1, f) ∈ r ∧ f.getValue main e.2.1 e.2.2 = .ok (g e)) :
    ∃ q, onTSF srt main t r u (some a) = .ok q ∧ Valid q ∧ (pts q).Perm ((coords t a).zip ((rows t).map g)) ∧
      q.ux = coordUnit t a ∧ q.uy = u := by
  simp only [← column_eq, ← unitOf_eq]
  have hlen : ((rows t).map g).length = (column t a).length := by
    rw [column_length a fun _ => hl]
    simp [rows, hl]
  obtain ⟨q, e, h⟩ := evolution_spec hs a u (t := t) hlen
  refine ⟨q, ?_, h⟩
  unfold onTSF
  rw [if_neg hne, if_neg]
  · rw [range_rows hl (readAt main r), Line.collect_ok (rows t) _ g]
    · exact e
    · intro e he
      obtain ⟨f, h1, h2⟩ := hg e he
      simp only [readAt, fieldAt_ok hr h1]
      exact h2
  · rintro ⟨-, h2⟩
    rw [h2] at hl
    exact hne (List.length_eq_zero_iff.1 hl.symm)

/-- C226: without `axe_x`, the abscissae are the instants. -/
theorem C226_default (main : Bool) (r : Record) (u : Sym) : onTSF srt main t r u none = onTSF srt main t r u (some .v) := rfl

/-- C226: a point at an instant without field, the other ones being readable: IndexError. -/
theorem C226_missing (main : Bool) {r : Record} (u : Sym) (hr : (r.map Prod.fst).Nodup) (hl : t.v.length = t.xy.length)
    (a : Option Ax) {e : Rat × (Rat × Rat)} (he : e ∈ rows t) (hm : ∀ f, (e.1, f) ∉ r)
    (hg : ∀ e ∈ rows t, (∀ f, (e.1, f) ∉ r) ∨ ∃ f, (e.1, f) ∈ r ∧ ∃ w, f.getValue main e.2.1 e.2.2 = .ok w) :
    onTSF srt main t r u a = .error .indexError := by
  have hz : t.xy ≠ [] := by
    intro h
    unfold rows at he
    rw [h] at he
    simp at he
  have hbad : ∀ e : Rat × (Rat × Rat), (∀ f, (e.1, f) ∉ r) → readAt main r e.2 (some e.1) = .error .indexError := by
    intro e h
    have : fieldAt r e.1 = .error .indexError := fieldAt_none fun q hq hh => h q.2 (by rw [← hh]; exact hq)
    simp only [readAt, this]
  unfold onTSF
  rw [if_neg hz, if_neg]
  · rw [range_rows hl (readAt main r), collect_error (e := .indexError)]
    · rfl
    · intro q hq
      obtain ⟨e', he', rfl⟩ := List.mem_map.1 hq
      rcases hg e' he' with h | ⟨f, h1, w, h2⟩
      · exact Or.inr (hbad e' h)
      · refine Or.inl ⟨w, ?_⟩
        simp only [readAt, fieldAt_ok hr h1]
        exact h2
    · exact List.mem_map.2 ⟨e, he, hbad e hm⟩
  · rintro ⟨-, h2⟩
    rw [h2] at hl
    exact hz (List.length_eq_zero_iff.1 hl.symm)

/-- C226: a set without instants is refused. -/
theorem C226_no_times (main : Bool) (r : Record) (u : Sym) (a : Option Ax) (hne : t.xy ≠ []) (hv : t.v = []) :
    ∃ e, onTSF srt main t r u a = .error e := by
  unfold onTSF
  rw [if_neg hne]
  split
  · exact ⟨_, rfl⟩
  · refine ⟨.indexError, ?_⟩
    rw [collect_error (e := .indexError)]
    · rfl
    · intro q hq
      obtain ⟨i, -, rfl⟩ := List.mem_map.1 hq
      right
      simp [hv, readAt]
    · refine List.mem_map.2 ⟨0, ?_, by simp [hv, readAt]⟩
      rw [List.mem_range]
      exact List.length_pos_iff.2 hne

/-! ### C227 -/

/-- C227: `export_to_profile` gives the points of the set, each abscissa with its own ordinate, in the order of the
abscissae, with the units of the two columns. -/
theorem C227_export (hs : IsArgsort srt) (a b : Ax) (hl : t.v.length = t.xy.length) :
    ∃ q, exportProfile srt t a b = .ok q ∧ Valid q ∧ q.x.Pairwise (· ≤ ·) ∧
      (pts q).Perm ((coords t a).zip ((coords t b).map some)) ∧ q.ux = coordUnit t a ∧ q.uy = coordUnit t b := by
  simp only [← column_eq, ← unitOf_eq]
  obtain ⟨q, e, hv, hp, h1, h2⟩ := Profile.new_flag_perm hs (x := column t a) (y := (column t b).map some) false
    (unitOf t a) (unitOf t b) (by rw [List.length_map, column_length a fun _ => hl, column_length b fun _ => hl])
  exact ⟨q, e, hv, hv.2.2, hp, h1, h2⟩

/-- C227: without values, exporting them is refused, exporting positions is not. -/
theorem C227_no_values (hs : IsArgsort srt) (hv : t.v = []) (hne : t.xy ≠ []) (a b : Ax) :
    (exportProfile srt t a b = .error .valueError) ↔ (a = .v) ≠ (b = .v) := by
  have key : ∀ c : Ax, (column t c).length = if c = .v then 0 else t.xy.length := by
    intro c
    cases c <;> simp [column, hv]
  have hpos : 0 < t.xy.length := List.length_pos_iff.2 hne
  by_cases h : (column t a).length = ((column t b).map some).length
  · obtain ⟨q, e, -⟩ := Profile.new_flag_perm hs (x := column t a) (y := (column t b).map some) false
      (unitOf t a) (unitOf t b) h.symm
    constructor
    · intro h'
      unfold exportProfile at h'
      rw [e] at h'
      cases h'
    · intro h'
      exfalso
      rw [List.length_map, key, key] at h
      apply h'
      by_cases h1 : a = .v <;> by_cases h2 : b = .v <;> simp [h1, h2] at h ⊢
      · exact absurd h.symm (by omega)
      · exact hne h
  · constructor
    · intro _ h'
      apply h
      rw [List.length_map, key, key]
      by_cases h1 : a = .v <;> simp [h1] at h' <;> simp [h1, h']
    · intro _
      unfold exportProfile new
      rw [if_pos h]

/-- C227: `decompose` gives one set of one point for each point, with its own value and the units of the set. -/
theorem C227_decompose (hl : t.v.length = t.xy.length) :
    ∃ l, decompose t = .ok l ∧ l.flatMap rows = rows t ∧
      ∀ s ∈ l, (rows s).length = 1 ∧ s.xy.length = 1 ∧ s.v.length = 1 ∧ s.ux = t.ux ∧ s.uy = t.uy ∧ s.uv = t.uv := by
  unfold decompose
  by_cases h : t.xy.length = 1
  · rw [if_pos h]
    refine ⟨[t], rfl, by simp, ?_⟩
    intro s hs
    rw [List.mem_singleton] at hs
    subst hs
    exact ⟨by simp [rows, hl, h], h, by rw [hl, h], rfl, rfl, rfl⟩
  · rw [if_neg h, if_neg (by omega)]
    refine ⟨_, rfl, ?_, ?_⟩
    · unfold rows
      clear h
      generalize t.xy = l at hl
      generalize t.v = w at hl
      induction l generalizing w with
      | nil => simp at hl; subst hl; rfl
      | cons p l ih =>
        rcases w with _ | ⟨a, w⟩
        · simp at hl
        · have := ih w (by simpa using hl)
          simp only [List.zipWith_cons_cons, List.flatMap_cons, List.zip_cons_cons]
          rw [this]
          rfl
    · intro s hs
      obtain ⟨i, hi, rfl⟩ := List.mem_iff_getElem.1 hs
      rw [List.getElem_zipWith]
      exact ⟨rfl, rfl, rfl, rfl, rfl, rfl⟩

/-- C227: several points without values: refused. -/
theorem C227_decompose_refused (hv : t.v = []) (h : 2 ≤ t.xy.length) : decompose t = .error .exception := by
  unfold decompose
  rw [if_neg (by omega), if_pos (by rw [hv, List.length_nil]; omega)]

/-! ### examples -/

/-- A field 2 × 2 with values 1 to 4. -/
def square : SF where
  ax := [0, 1]
  ay := [0, 1]
  val := ⟨2, 2, fun i j => some (1 + 2 * (i : Rat) + j)⟩
  mask := ⟨2, 2, fun _ _ => false⟩
  ux := Sym.one
  uy := Sym.one
  uv := Sym.one

/-- Two points. -/
def two : T where
  xy := [(1, 1), (0, 1)]
  v := [5, 2]
  ux := Sym.one
  uy := Sym.one
  uv := Sym.one

example : two.v.length = two.xy.length ∧ two.xy ≠ [] ∧ square.getValue true 1 1 = .ok (some 4) ∧
    square.getValue true 0 1 = .ok (some 2) ∧
    onSF Profile.argsort true two square none =
      .ok ⟨[2, 5], [some 2, some 4], [false, false], Sym.one, Sym.one⟩ := by decide +kernel

example : onTSF Profile.argsort true two [(2, square), (5, square)] Sym.one (some .x) =
      .ok ⟨[0, 1], [some 2, some 4], [false, false], Sym.one, Sym.one⟩ ∧
    onTSF Profile.argsort true two [(2, square)] Sym.one (some .x) = .error .indexError := by decide +kernel

end IMT.Path
