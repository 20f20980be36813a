import Verif.Trace.VecSpecModel
import Verif.Trace.Spectra
import Verif.Turb.Props
import Verif.Turb.Examples

/-!
Property C357: temporal filtering of vector fields.
-/

namespace IMT.Trace

open Temporal (TF mapRes)
open Turb (TVF addSs Record SRecord OnV OnS Shows)
open Profile (IsArgsort)

variable {srt : List Rat → List Nat} {t : TVF} {u : Sym}

/-! ### specification -/

/-- The vectors `new` where the list shows something. -/
def vecOnVisible (l : List (Option (Rat × Rat))) (new : List (Rat × Rat)) : List (Option (Rat × Rat)) := List.zipWith (fun a b => a.map fun _ => b) l new

/-- Some field shows a vector at the node. -/
def VSighted (t : TVF) (x y : Rat) : Prop := ∃ f ∈ t.fields, ∃ v, f.Reads x y (some v)

/-! ### helper lemmas -/

/-- The record of a component. -/
theorem compRecord_spec (hs : IsArgsort srt) (h : Record t u) {comp : VF → Res SF} {pr : Rat × Rat → Rat}
    (hc : ∀ f, OnV t u f → ∃ s, comp f = .ok s ∧ OnS t u s ∧ ∀ i j, i < t.ax.length → j < t.ay.length → s.cell i j = (f.cell i j).map pr) :
    ∃ T, compRecord srt comp t = .ok T ∧ SRecord T u ∧ T.ax = t.ax ∧ T.ay = t.ay ∧ T.times = t.times ∧
      ∀ i j, i < t.ax.length → j < t.ay.length → series T i j = t.fields.map fun f => (f.cell i j).map pr := by
  obtain ⟨fs, e, p⟩ := Turb.map_choice (g := comp) (l := t.fields)
    (P := fun f s => OnS t u s ∧ ∀ i j, i < t.ax.length → j < t.ay.length → s.cell i j = (f.cell i j).map pr) (fun f hf => by
      obtain ⟨s, e, h1, h2⟩ := hc f (h.on hf)
      exact ⟨s, e, h1, h2⟩)
  have hl := p.length_eq
  have hon : ∀ g ∈ fs, OnS t u g := by
    intro g hg
    obtain ⟨k, hk, e⟩ := List.mem_iff_getElem.mp hg
    have := p.get (i := k) (by rw [hl]; exact hk) hk
    simp only [List.get_eq_getElem, e] at this
    exact this.1
  have hne : fs ≠ [] := by
    intro c
    rw [c] at hl
    exact h.ne (List.length_eq_zero_iff.mp hl)
  have ea := Turb.addSs_empty hs t.times fs hne (by rw [h.paired, hl]) h.inc (fun g hg => ⟨(hon g hg).ax, (hon g hg).ay, (hon g hg).ux, (hon g hg).uy⟩) h.tsize
  refine ⟨⟨t.ax, t.ay, t.ux, t.uy, t.times, t.ut, fs, true⟩, by unfold compRecord; simp only [e, ea], ⟨⟨?_, ?_, ?_, ?_, ?_, ?_⟩, h.inc, hne, ?_, h.size, h.tsize⟩, rfl, rfl, rfl, fun i j hi hj => ?_⟩
  · show t.times.length = fs.length
    rw [h.paired, hl]
  · exact fun f hf => (hon f hf).wf
  · exact fun f hf => (hon f hf).ax
  · exact fun f hf => (hon f hf).ay
  · exact fun f hf => (hon f hf).ux
  · exact fun f hf => (hon f hf).uy
  · exact fun f hf => (hon f hf).uv
  · show fs.map _ = _
    clear ea hne hon hl e
    generalize t.fields = l at p
    induction p with
    | nil => rfl
    | cons a _ ih => rw [List.map_cons, List.map_cons, ih, a.2 i j hi hj]

/-- What nodes show. -/
theorem vseen_cell (h : Record t u) {i j : Nat} {x y : Rat} (hi : t.ax[i]? = some x) (hj : t.ay[j]? = some y) :
    VSighted t x y ↔ ∃ v, some v ∈ t.fields.map fun f => f.cell i j := by
  unfold VSighted
  simp only [List.mem_map]
  constructor
  · rintro ⟨f, hf, v, hv⟩
    exact ⟨v, f, hf, ((h.on hf).reads hi hj _).mp hv⟩
  · rintro ⟨v, f, hf, e⟩
    exact ⟨f, hf, v, ((h.on hf).reads hi hj _).mpr e⟩

/-- The filtered component. -/
theorem compFiltering_spec (hs : IsArgsort srt) (h : Record t u) {g : List Rat → List Rat → List Rat}
    (hg : ∀ xs ys, ys.length = xs.length → (g xs ys).length = xs.length) (hv : ∀ x ∈ t.ax, ∀ y ∈ t.ay, VSighted t x y) {comp : VF → Res SF} {pr : Rat × Rat → Rat}
    (hc : ∀ f, OnV t u f → ∃ s, comp f = .ok s ∧ OnS t u s ∧ ∀ i j, i < t.ax.length → j < t.ay.length → s.cell i j = (f.cell i j).map pr) :
    ∃ T, compFiltering srt g comp t = .ok T ∧ SRecord T u ∧ T.ax = t.ax ∧ T.ay = t.ay ∧ T.times = t.times ∧
      ∀ i j, i < t.ax.length → j < t.ay.length → ∃ vals, Completed t.times (t.fields.map fun f => (f.cell i j).map pr) vals ∧
        series T i j = onVisible (t.fields.map fun f => (f.cell i j).map pr) (g t.times vals) := by
  obtain ⟨S, e, hS, s1, s2, s3, s4⟩ := compRecord_spec hs h hc
  obtain ⟨T, eT, hT, h1, h2, h3, h4⟩ := filter_nodes hs hg (nodes S) hS (nodes_nodup hS) (fun _ hc => hc) fun c hc i j hi hj => by
    rw [s1] at hi
    rw [s2] at hj
    obtain ⟨v, hv⟩ := (vseen_cell h hi hj).mp (hv c.1 (List.mem_of_getElem? hi) c.2 (List.mem_of_getElem? hj))
    rw [s4 i j (getElem?_some_lt hi) (getElem?_some_lt hj)]
    obtain ⟨f, hf, ef⟩ := List.mem_map.mp hv
    exact ⟨pr v, List.mem_map.mpr ⟨f, hf, by rw [ef]; rfl⟩⟩
  refine ⟨T, ?_, hT, h1.trans s1, h2.trans s2, h3.trans s3, fun i j hi hj => ?_⟩
  · unfold compFiltering
    simp only [e, eT]
  · obtain ⟨x, hx⟩ := Turb.idx hi
    obtain ⟨y, hy⟩ := Turb.idx hj
    have := (h4 i j x y (by rw [s1]; exact hx) (by rw [s2]; exact hy)).2 (mem_nodes.mpr ⟨by rw [s1]; exact List.mem_of_getElem? hx, by rw [s2]; exact List.mem_of_getElem? hy⟩)
    rw [s4 i j hi hj, s3] at this
    exact this

/-- `mapRes` on lists of the same length. -/
theorem putAll_comps : ∀ (fs : List VF) (xs ys : List SF), xs.length = fs.length → ys.length = fs.length →
    (∀ (k : Nat) f x y, fs[k]? = some f → xs[k]? = some x → ys[k]? = some y → x.val.nx = f.ax.length ∧ x.val.ny = f.ay.length ∧ y.val.nx = f.ax.length ∧ y.val.ny = f.ay.length) →
    mapRes (fun p : VF × SF × SF => putComps p.1 p.2) (fs.zip (xs.zip ys)) =
      .ok (List.zipWith (fun (f : VF) (s : SF × SF) => { f with cx := s.1.values, cy := s.2.values }) fs (xs.zip ys))
  | [], _, _, _, _, _ => by simp [mapRes]
  | f :: fs, x :: xs, y :: ys, h1, h2, h => by
    have ih := putAll_comps fs xs ys (by simpa using h1) (by simpa using h2) fun k f' x' y' a b c => h (k + 1) f' x' y' (by simpa using a) (by simpa using b) (by simpa using c)
    obtain ⟨a, b, c, d⟩ := h 0 f x y rfl rfl rfl
    simp only [List.zip_cons_cons, List.zipWith_cons_cons, mapRes]
    rw [ih]
    unfold putComps
    rw [if_neg (by simp [a, b, c, d])]

/-! ### C357 -/

/-- C357, when each node shows a vector at some time: at each node, at the times when it is not masked, the result shows the components of the
vectors along time, filtered, the masked ones being interpolated first; it is masked at the other times.  The object is changed only if `inplace`
is true. -/
theorem C357_vectors_partial (hs : IsArgsort srt) (h : Record t u) {g : List Rat → List Rat → List Rat}
    (hg : ∀ xs ys, ys.length = xs.length → (g xs ys).length = xs.length) (hv : ∀ x ∈ t.ax, ∀ y ∈ t.ay, VSighted t x y) :
    ∃ T : TVF, vecFiltering srt g t false = (t, .ok (some T)) ∧ vecFiltering srt g t true = (T, .ok none) ∧ T.ax = t.ax ∧ T.ay = t.ay ∧ T.times = t.times ∧
      ∀ x y l, x ∈ t.ax → y ∈ t.ay → Shows t x y l → ∃ us vs, Completed t.times (l.map fun r => r.map Prod.fst) us ∧ Completed t.times (l.map fun r => r.map Prod.snd) vs ∧
        Shows T x y (vecOnVisible l ((g t.times us).zip (g t.times vs))) := by
  obtain ⟨X, eX, hX, x1, x2, x3, x4⟩ := compFiltering_spec hs h hg hv fun f hf => Turb.compX_spec h.lx h.ly hf
  obtain ⟨Y, eY, hY, y1, y2, y3, y4⟩ := compFiltering_spec hs h hg hv fun f hf => Turb.compY_spec h.lx h.ly hf
  have lX : X.fields.length = t.fields.length := by rw [← hX.ok.paired, x3, h.paired]
  have lY : Y.fields.length = t.fields.length := by rw [← hY.ok.paired, y3, h.paired]
  have ep := putAll_comps t.fields X.fields Y.fields lX lY fun k f x y hf hx hy => by
    have wf := h.on (List.mem_of_getElem? hf)
    have wx := hX.ok.wf _ (List.mem_of_getElem? hx)
    have wy := hY.ok.wf _ (List.mem_of_getElem? hy)
    rw [wx.vx, wx.vy, wy.vx, wy.vy, hX.ok.ax _ (List.mem_of_getElem? hx), hX.ok.ay _ (List.mem_of_getElem? hx), hY.ok.ax _ (List.mem_of_getElem? hy),
      hY.ok.ay _ (List.mem_of_getElem? hy), x1, x2, y1, y2, wf.ax, wf.ay]
    exact ⟨rfl, rfl, rfl, rfl⟩
  refine ⟨{ t with fields := List.zipWith (fun (f : VF) (s : SF × SF) => { f with cx := s.1.values, cy := s.2.values }) t.fields (X.fields.zip Y.fields) },
    by unfold vecFiltering; simp only [eX, eY, ep]; rfl, by unfold vecFiltering; simp only [eX, eY, ep]; rfl, rfl, rfl, rfl, fun x y l hmx hmy hl => ?_⟩
  obtain ⟨i, hi⟩ := List.mem_iff_getElem?.mp hmx
  obtain ⟨j, hj⟩ := List.mem_iff_getElem?.mp hmy
  have li := getElem?_some_lt hi
  have lj := getElem?_some_lt hj
  obtain ⟨us, hus, sx⟩ := x4 i j li lj
  obtain ⟨vs, hvs, sy⟩ := y4 i j li lj
  have el := (Turb.shows_cells h hi hj l).mp hl
  refine ⟨us, vs, by rw [el, List.map_map]; exact hus, by rw [el, List.map_map]; exact hvs, ?_⟩
  have gx : (g t.times us).length = t.fields.length := by
    obtain ⟨_, _, _, _, _, _, hlen⟩ := hus
    rw [hg _ _ hlen, h.paired]
  have gy : (g t.times vs).length = t.fields.length := by
    obtain ⟨_, _, _, _, _, _, hlen⟩ := hvs
    rw [hg _ _ hlen, h.paired]
  unfold Shows vecOnVisible
  rw [List.forall₂_iff_get]
  refine ⟨by rw [el]; simp [lX, lY, gx, gy], fun k h1 h2 => ?_⟩
  have hk : k < t.fields.length := by
    simp only [List.length_zipWith] at h1
    omega
  have on := h.on (List.getElem_mem hk)
  have cx : X.fields[k].cell i j = ((t.fields[k].cell i j).map Prod.fst).map fun _ => (g t.times us)[k] := by
    have := congrArg (fun l : List (Option Rat) => l[k]?) sx
    simp only [series, onVisible, List.getElem?_map, List.getElem?_zipWith, List.getElem?_eq_getElem hk, List.getElem?_eq_getElem (show k < X.fields.length by omega),
      List.getElem?_eq_getElem (show k < (g t.times us).length by omega), Option.map_some] at this
    exact Option.some.inj this
  have cy : Y.fields[k].cell i j = ((t.fields[k].cell i j).map Prod.snd).map fun _ => (g t.times vs)[k] := by
    have := congrArg (fun l : List (Option Rat) => l[k]?) sy
    simp only [series, onVisible, List.getElem?_map, List.getElem?_zipWith, List.getElem?_eq_getElem hk, List.getElem?_eq_getElem (show k < Y.fields.length by omega),
      List.getElem?_eq_getElem (show k < (g t.times vs).length by omega), Option.map_some] at this
    exact Option.some.inj this
  simp only [List.get_eq_getElem, List.getElem_zipWith, List.getElem_zip]
  refine ⟨i, j, by simp only [on.ax]; exact hi, by simp only [on.ay]; exact hj, ?_⟩
  have lk : l[k]'(by rw [el, List.length_map]; exact hk) = t.fields[k].cell i j := by simp [el]
  rw [lk]
  unfold VF.cell
  simp only [SF.values, cx, cy]
  have w := on.wf
  by_cases hm : t.fields[k].mask.get i j = true
  · simp [hm]
  · have hm : t.fields[k].mask.get i j = false := by simpa using hm
    have n1 := w.nanx i j (by rw [on.ax]; exact li) (by rw [on.ay]; exact lj)
    have n2 := w.nany i j (by rw [on.ax]; exact li) (by rw [on.ay]; exact lj)
    cases e1 : t.fields[k].cx.get i j with
    | none => rw [n1 e1] at hm; cases hm
    | some a =>
      cases e2 : t.fields[k].cy.get i j with
      | none => rw [n2 e2] at hm; cases hm
      | some b => simp [VF.cell, hm, e1, e2]

/-- C357, for every object: without `inplace` the object is left, and what is returned without exception is a collection; an exception leaves the
object. -/
theorem C357_original (srt : List Rat → List Nat) (g : List Rat → List Rat → List Rat) (t : TVF) (b : Bool) :
    (vecFiltering srt g t false).1 = t ∧ (∀ r, (vecFiltering srt g t false).2 = .ok r → ∃ T, r = some T) ∧
      ∀ e, (vecFiltering srt g t b).2 = .error e → (vecFiltering srt g t b).1 = t := by
  unfold vecFiltering
  cases compFiltering srt g Mirror.compX t with
  | error e => exact ⟨rfl, fun r h => (by cases h), fun e h => rfl⟩
  | ok X =>
    cases compFiltering srt g Mirror.compY t with
    | error e => exact ⟨rfl, fun r h => (by cases h), fun e h => rfl⟩
    | ok Y =>
      dsimp only
      cases mapRes (fun p => putComps p.1 p.2) (t.fields.zip (X.fields.zip Y.fields)) with
      | error e => exact ⟨rfl, fun r h => (by cases h), fun e h => rfl⟩
      | ok fs =>
        refine ⟨rfl, fun r h => ⟨_, (Except.ok.inj h).symm⟩, fun e h => ?_⟩
        cases b <;> cases h

/-- C357 fails when a node is masked at all times: an exception. -/
theorem C357_masked_violated (hs : IsArgsort srt) (h : Record t u) {g : List Rat → List Rat → List Rat}
    (hg : ∀ xs ys, ys.length = xs.length → (g xs ys).length = xs.length) {x y : Rat} (hx : x ∈ t.ax) (hy : y ∈ t.ay) (hv : ¬ VSighted t x y) (b : Bool) :
    vecFiltering srt g t b = (t, .error .exception) := by
  obtain ⟨S, e, hS, s1, s2, s3, s4⟩ := compRecord_spec hs h fun f hf => Turb.compX_spec h.lx h.ly hf
  obtain ⟨i, hi⟩ := List.mem_iff_getElem?.mp hx
  obtain ⟨j, hj⟩ := List.mem_iff_getElem?.mp hy
  have hn : ¬ Sighted S x y := by
    rw [seen_cell hS (by rw [s1]; exact hi) (by rw [s2]; exact hj)]
    rintro ⟨v, hm⟩
    have hm : some v ∈ series S i j := hm
    rw [s4 i j (getElem?_some_lt hi) (getElem?_some_lt hj)] at hm
    obtain ⟨f, hf, ef⟩ := List.mem_map.mp hm
    obtain ⟨w, hw, _⟩ := Option.map_eq_some_iff.mp ef
    exact hv ((vseen_cell h hi hj).mpr ⟨w, List.mem_map.mpr ⟨f, hf, hw⟩⟩)
  have ev := C349_masked_violated hs hS hg (by rw [s1]; exact hx) (by rw [s2]; exact hy) hn false
  have ec : compFiltering srt g Mirror.compX t = .error .exception := by
    unfold compFiltering
    simp only [e]
    unfold getFiltering at ev
    cases hf : filterNodes srt g (nodes S) S with
    | mk T r =>
      cases r with
      | error e' => rw [hf] at ev; simpa using ev
      | ok _ => rw [hf] at ev; simp at ev
  unfold vecFiltering
  rw [ec]

/-! ### examples -/

theorem film_sighted : ∀ x ∈ Turb.film.ax, ∀ y ∈ Turb.film.ay, VSighted Turb.film x y := by
  intro x hx y hy
  obtain ⟨i, hi⟩ := List.mem_iff_getElem?.mp hx
  obtain ⟨j, hj⟩ := List.mem_iff_getElem?.mp hy
  exact (vseen_cell Turb.film_record hi hj).mpr ⟨(6 + (i : Rat), 6 * (j : Rat)), List.mem_map.mpr ⟨Turb.frame 6 fun _ _ => false, by simp [Turb.film], rfl⟩⟩

example : ((vecFiltering Profile.argsort (fun _ vs => vs.map fun v => v + 100) Turb.film false).2.toOption.map fun o => o.map fun T => T.fields.map Turb.cells) = some (some
    [[some (101, 100), some (102, 100), none, none], [some (102, 100), some (103, 100), none, some (103, 102)],
      [some (106, 100), some (107, 100), some (106, 106), some (107, 106)]]) := by decide +kernel

/-- No field sees the point (0, 2). -/
def blindFilm : TVF := { Turb.film with fields := [Turb.frame 1 fun i j => decide (i = 0 ∧ j = 1), Turb.frame 2 fun i j => decide (i = 0 ∧ j = 1), Turb.frame 6 fun i j => decide (i = 0 ∧ j = 1)] }

example : (vecFiltering Profile.argsort (fun _ vs => vs) blindFilm false).2.toOption.isNone := by decide +kernel

end IMT.Trace
