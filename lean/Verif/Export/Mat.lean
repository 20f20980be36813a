import Verif.Export.MatModel
import Verif.Scalar.Import
import Verif.Scalar.Geom
import Verif.Vector.Arith
import Verif.Profile.Arith

/-!
Property C296: matlab files of fields and profiles.
-/

namespace IMT.Mat

open Profile (Prof)

/-! ### helper lemmas -/

theorem peel_row {l : List F} (h : 2 ≤ l.length) : peel (asRow l) = .ok (.vec l) := by
  match l, h with
  | a :: b :: l, _ => rfl

theorem peel_single {l : List F} (h : l.length = 1) : peel (asRow l) = .error .typeError := by
  match l, h with
  | [a], _ => rfl

theorem peel_mat {r : Rows} (h : 2 ≤ r.length) : peel r = .ok (.mat r) := by
  match r, h with
  | a :: b :: r, _ => unfold peel; simp

theorem numbers_some (l : List Rat) : numbers (l.map some) = l := by
  unfold numbers
  rw [List.map_map]
  exact List.map_id'' (fun _ => rfl) l

theorem bit_true (b : Bool) : isTrue (bit b) = b := by cases b <;> decide

/-- A grid read back from its rows. -/
theorem grid_rows {α : Type} (f : α → F) (h : F → α) (hf : ∀ a, h (f a) = a) (g : Grid α) (hx : 0 < g.nx) :
    ∃ k : Grid α, gridArg h (some (.mat (rowsOf f g))) = .ok k ∧ k.nx = g.nx ∧ k.ny = g.ny ∧
      ∀ i j, i < g.nx → j < g.ny → k.get i j = g.get i j := by
  refine ⟨_, rfl, by simp [rowsOf], ?_, ?_⟩
  · obtain ⟨n, hn⟩ : ∃ n, g.nx = n + 1 := ⟨g.nx - 1, by omega⟩
    simp [rowsOf, hn, List.range_succ_eq_map]
  · intro i j hi hj
    simp [rowsOf, hi, hj, hf]

theorem peel_grid {α : Type} (f : α → F) (g : Grid α) (h : 2 ≤ g.nx) : peel (rowsOf f g) = .ok (.mat (rowsOf f g)) :=
  peel_mat (by simpa [rowsOf] using h)

theorem arg_of {d : File} {k : Key} {r : Rows} {a : Arr} (h1 : d.get k = some r) (h2 : peel r = .ok a) : arg d k = .ok (some a) := by
  unfold arg
  rw [h1]
  simp only
  rw [h2]

theorem arg_error {d : File} {k : Key} {r : Rows} {e : Err} (h1 : d.get k = some r) (h2 : peel r = .error e) : arg d k = .error e := by
  unfold arg
  rw [h1]
  simp only
  rw [h2]

/-! ### C296 -/

/-- C296 for the scalar fields with at least two points along each axis: what is read back shows the same values at the same positions, with the
same masked points and units. -/
theorem C296_scalar_partial (f : SF) (hf : f.WF) (h2x : 2 ≤ f.ax.length) (h2y : 2 ≤ f.ay.length) :
    ∃ g, importSF (exportSF f) = .ok g ∧ g.WF ∧ (∀ x y r, g.Reads x y r ↔ f.Reads x y r) ∧ g.ux = f.ux ∧ g.uy = f.uy ∧ g.uv = f.uv := by
  have hvx : f.values.nx = f.ax.length := hf.vx
  have hvy : f.values.ny = f.ay.length := hf.vy
  obtain ⟨v, ev, vx, vy, vg⟩ := grid_rows id id (fun _ => rfl) f.values (by omega)
  obtain ⟨m, em, mx, my, mg⟩ := grid_rows bit isTrue bit_true f.mask (by rw [hf.mx]; omega)
  obtain ⟨g, e, w, hr, u⟩ := SF.C15_import_reads_partial (ux := f.ux) (uy := f.uy) (uv := f.uv) (m := .array m) (v := v) (vx.trans hvx)
    (vy.trans hvy) h2x h2y ⟨mx.trans (hf.mx.trans (hvx.symm.trans vx.symm)), my.trans (hf.my.trans (hvy.symm.trans vy.symm))⟩ (.inl hf.incx) (.inl hf.incy)
    (.inl ⟨hf.incx, hf.incy⟩)
  refine ⟨g, ?_, w, ?_, u⟩
  · unfold importSF
    rw [arg_of (d := exportSF f) (k := .axeX) rfl (peel_row (by simpa using h2x)), arg_of (d := exportSF f) (k := .axeY) rfl (peel_row (by simpa using h2y)),
      arg_of (d := exportSF f) (k := .values) rfl (peel_grid id f.values (by omega)),
      arg_of (d := exportSF f) (k := .mask) rfl (peel_grid bit f.mask (by rw [hf.mx]; exact h2x))]
    simp only [bind, vecArg, ev, em, numbers_some]
    exact e
  · intro x y r
    rw [hr]
    have key : ∀ i j, f.ax[i]? = some x → f.ay[j]? = some y → (if (SF.MaskArg.array m).get i j then none else v.get i j) = f.cell i j := by
      intro i j hi hj
      have li := getElem?_some_lt hi
      have lj := getElem?_some_lt hj
      have h1 : (SF.MaskArg.array m).get i j = f.mask.get i j := mg i j (by rw [hf.mx]; exact li) (by rw [hf.my]; exact lj)
      rw [vg i j (by omega) (by omega)]
      simp only [h1, SF.values, SF.cell]
      by_cases h : f.mask.get i j = true <;> simp [h]
    constructor
    · rintro ⟨i, j, hi, hj, rfl⟩
      exact ⟨i, j, hi, hj, (key i j hi hj).symm⟩
    · rintro ⟨i, j, hi, hj, rfl⟩
      exact ⟨i, j, hi, hj, (key i j hi hj).symm⟩

/-- C296 for the vector fields with at least two points along each axis. -/
theorem C296_vector_partial (f : VF) (hf : f.WF) (h2x : 2 ≤ f.ax.length) (h2y : 2 ≤ f.ay.length) :
    ∃ g, importVF (exportVF f) = .ok g ∧ g.WF ∧ (∀ x y r, g.Reads x y r ↔ f.Reads x y r) ∧ g.ux = f.ux ∧ g.uy = f.uy ∧ g.uv = f.uv := by
  obtain ⟨cx, ecx, cxx, cxy, cxg⟩ := grid_rows id id (fun _ => rfl) f.cx (by rw [hf.xx]; omega)
  obtain ⟨cy, ecy, cyx, cyy, cyg⟩ := grid_rows id id (fun _ => rfl) f.cy (by rw [hf.yx]; omega)
  obtain ⟨m, em, mx, my, mg⟩ := grid_rows bit isTrue bit_true f.mask (by rw [hf.mx]; omega)
  obtain ⟨g, e, w, hr, u⟩ := VF.C111_import_reads_partial (ux := f.ux) (uy := f.uy) (uv := f.uv) (m := .array m) (cx := cx) (cy := cy)
    (cxx.trans hf.xx) (cxy.trans hf.xy) (cyx.trans hf.yx) (cyy.trans hf.yy) h2x h2y (mx.trans hf.mx) (my.trans hf.my) (.inl hf.incx) (.inl hf.incy)
    (.inl ⟨hf.incx, hf.incy⟩)
  refine ⟨g, ?_, w, ?_, u⟩
  · unfold importVF
    rw [arg_of (d := exportVF f) (k := .axeX) rfl (peel_row (by simpa using h2x)), arg_of (d := exportVF f) (k := .axeY) rfl (peel_row (by simpa using h2y)),
      arg_of (d := exportVF f) (k := .compX) rfl (peel_grid id f.cx (by rw [hf.xx]; exact h2x)),
      arg_of (d := exportVF f) (k := .compY) rfl (peel_grid id f.cy (by rw [hf.yx]; exact h2x)),
      arg_of (d := exportVF f) (k := .mask) rfl (peel_grid bit f.mask (by rw [hf.mx]; exact h2x))]
    simp only [bind, vecArg, ecx, ecy, em, numbers_some]
    exact e
  · intro x y r
    rw [hr]
    have key : ∀ i j, f.ax[i]? = some x → f.ay[j]? = some y →
        VF.shown (((VF.MaskArg.array m).grid cx.nx cx.ny).get i j) (cx.get i j) (cy.get i j) = f.cell i j := by
      intro i j hi hj
      have li := getElem?_some_lt hi
      have lj := getElem?_some_lt hj
      have : ((VF.MaskArg.array m).grid cx.nx cx.ny).get i j = m.get i j := rfl
      rw [this, mg i j (by rw [hf.mx]; exact li) (by rw [hf.my]; exact lj), cxg i j (by rw [hf.xx]; exact li) (by rw [hf.xy]; exact lj),
        cyg i j (by rw [hf.yx]; exact li) (by rw [hf.yy]; exact lj)]
      rfl
    constructor
    · rintro ⟨i, j, hi, hj, rfl⟩
      exact ⟨i, j, hi, hj, (key i j hi hj).symm⟩
    · rintro ⟨i, j, hi, hj, rfl⟩
      exact ⟨i, j, hi, hj, (key i j hi hj).symm⟩

/-- C296: the matrices `X` and `Y` of the file hold the coordinates of the values. -/
theorem C296_grids (f : SF) (hf : f.WF) (i j : Nat) (x y : Rat) (hx : f.ax[i]? = some x) (hy : f.ay[j]? = some y) :
    ∃ X Y V : Rows, (exportSF f).get .bigX = some X ∧ (exportSF f).get .bigY = some Y ∧ (exportSF f).get .values = some V ∧
      (X[i]?.bind (·[j]?)) = some (some x) ∧ (Y[i]?.bind (·[j]?)) = some (some y) ∧ (V[i]?.bind (·[j]?)) = some (f.cell i j) := by
  have li := getElem?_some_lt hx
  have lj := getElem?_some_lt hy
  refine ⟨_, _, _, rfl, rfl, rfl, by simp [hx, lj], by simp [li, hy], ?_⟩
  have h1 : i < f.values.nx := by have : f.values.nx = f.ax.length := hf.vx; omega
  have h2 : j < f.values.ny := by have : f.values.ny = f.ay.length := hf.vy; omega
  simp [rowsOf, h1, h2]
  rfl

/-- C296 is violated for the fields of which an axis has a single point: their files cannot be read. -/
theorem C296_thin_violated (f : SF) (g : VF) (hf : f.ax.length = 1 ∨ 2 ≤ f.ax.length ∧ f.ay.length = 1)
    (hg : g.ax.length = 1 ∨ 2 ≤ g.ax.length ∧ g.ay.length = 1) :
    importSF (exportSF f) = .error .typeError ∧ importVF (exportVF g) = .error .typeError := by
  constructor
  · unfold importSF
    rcases hf with h | ⟨h1, h2⟩
    · rw [arg_error (d := exportSF f) (k := .axeX) rfl (peel_single (by simpa using h))]; rfl
    · rw [arg_of (d := exportSF f) (k := .axeX) rfl (peel_row (by simpa using h1)),
        arg_error (d := exportSF f) (k := .axeY) rfl (peel_single (by simpa using h2))]; rfl
  · unfold importVF
    rcases hg with h | ⟨h1, h2⟩
    · rw [arg_error (d := exportVF g) (k := .axeX) rfl (peel_single (by simpa using h))]; rfl
    · rw [arg_of (d := exportVF g) (k := .axeX) rfl (peel_row (by simpa using h1)),
        arg_error (d := exportVF g) (k := .axeY) rfl (peel_single (by simpa using h2))]; rfl

/-- C296 for the profiles of at least two points of different abscissae: the same profile is read back. -/
theorem C296_profile_partial (srt : List Rat → List Nat) (hs : Profile.IsArgsort srt) (p : Prof) (hp : Profile.Valid p) (hi : Inc p.x)
    (h : 2 ≤ p.x.length) : importProf srt (exportProf p) = .ok p := by
  have hy : (Profile.getY p).length = p.x.length := by rw [Profile.getY_valid hp]; exact hp.1
  have hm : p.m.length = p.x.length := by rw [hp.2.1, List.length_map]; exact hp.1
  unfold importProf
  rw [arg_of (d := exportProf p) (k := .x) rfl (peel_row (by simpa using h)), arg_of (d := exportProf p) (k := .y) rfl (peel_row (by omega)),
    arg_of (d := exportProf p) (k := .mask) rfl (peel_row (by rw [List.length_map]; omega))]
  simp only [bind, vecArg, numbers_some, List.map_map]
  have e : p.m.map (isTrue ∘ bit) = p.m := List.map_id'' (fun b => bit_true b) _
  rw [e]
  unfold Profile.new Profile.MaskArg.array
  rw [if_neg (by omega), if_neg (by simp only; omega)]
  simp only
  rw [Profile.build_inc hs _ _ hi hy hm, Profile.getY_valid hp]
  obtain ⟨x, y, m, ux, uy⟩ := p
  obtain ⟨h1, h2, h3⟩ := hp
  simp only at h1 h2 h3
  subst h2
  rw [Profile.blank_isNone]
  rfl

/-- C296 is violated for the profiles of one point: their files cannot be read. -/
theorem C296_single_violated (srt : List Rat → List Nat) (p : Prof) (h : p.x.length = 1) : importProf srt (exportProf p) = .error .typeError := by
  unfold importProf
  rw [arg_error (d := exportProf p) (k := .x) rfl (peel_single (by simpa using h))]
  rfl

/-! ### instances -/

example : SF.sample.WF ∧ 2 ≤ SF.sample.ax.length ∧ 2 ≤ SF.sample.ay.length := ⟨SF.sample_WF, by decide, by decide⟩

example : Profile.Valid ⟨[1, 2], [some 4, none], [false, true], Sym.m, Sym.s⟩ ∧ Inc [(1 : Rat), 2] := by
  refine ⟨⟨rfl, rfl, by decide +kernel⟩, by unfold Inc; decide +kernel⟩

end IMT.Mat
