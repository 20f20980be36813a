import Verif.Trace.Model
import Verif.Turb.Scal
import Verif.Axis.Props
import Verif.Line.Section

/-!
Properties C203, C204 and C205: values followed through time, along a trajectory, and written back.
-/

namespace IMT.Trace

open Temporal (TF inside)
open Profile (Prof pts IsArgsort)
open Turb (SRecord ShowsS)

variable {srt : List Rat → List Nat} {t : TF} {u : Sym}

/-! ### specification -/

/-- `(x, y)` is the grid point nearest to `(a, b)`. -/
def Nearest (t : TF) (a b x y : Rat) : Prop :=
  x ∈ t.ax ∧ y ∈ t.ay ∧ (∀ c ∈ t.ax, |x - a| ≤ |c - a|) ∧ ∀ c ∈ t.ay, |y - b| ≤ |c - b|

/-- `a` lies between the ends of an axis. -/
def Covers (l : List Rat) (a : Rat) : Prop := (∃ c ∈ l, c ≤ a) ∧ ∃ c ∈ l, a ≤ c

/-! ### helper lemmas -/

theorem covers_ends {l : List Rat} (hl : Inc l) {a : Rat} (h : Covers l a) :
    ∃ first last, l.head? = some first ∧ l.getLast? = some last ∧ first ≤ a ∧ a ≤ last := by
  obtain ⟨⟨c, hc, h1⟩, d, hd, h2⟩ := h
  have hne : l ≠ [] := List.ne_nil_of_mem hc
  refine ⟨l.head hne, l.getLast hne, List.head?_eq_some_head hne, List.getLast?_eq_some_getLast hne, ?_, ?_⟩
  · obtain ⟨k, hk⟩ := List.mem_iff_getElem?.mp hc
    exact le_trans (hl.get_le (i := 0) (by rw [← head?_eq_get0]; exact List.head?_eq_some_head hne) hk (Nat.zero_le _)) h1
  · obtain ⟨k, hk⟩ := List.mem_iff_getElem?.mp hd
    have hk' := getElem?_some_lt hk
    exact le_trans h2 (hl.get_le hk (by rw [← getLast?_eq_get]; exact List.getLast?_eq_some_getLast hne) (by omega))

theorem not_covers {l : List Rat} {first last a : Rat} (hf : l.head? = some first) (hl : l.getLast? = some last) (h : ¬ Covers l a) :
    a < first ∨ a > last := by
  by_contra hn
  rw [not_or, not_lt, not_lt] at hn
  exact h ⟨⟨first, List.mem_of_head? hf, hn.1⟩, last, List.mem_of_getLast? hl, hn.2⟩

theorem nearest_of {l : List Rat} (hl : Inc l) {a : Rat} (h : Covers l a) :
    ∃ i x, Axis.nearest l a = .ok i ∧ l[i]? = some x ∧ ∀ c ∈ l, |x - a| ≤ |c - a| := by
  obtain ⟨first, last, h1, h2, h3, h4⟩ := covers_ends hl h
  obtain ⟨i, c, e, hi, hm⟩ := Axis.C02_nearest_minimal hl h1 h2 h3 h4
  refine ⟨i, c, e, hi, fun d hd => ?_⟩
  obtain ⟨k, hk⟩ := List.mem_iff_getElem?.mp hd
  exact (hm k d hk).1

theorem nearest_refused {l : List Rat} (hne : l ≠ []) {a : Rat} (h : ¬ Covers l a) : Axis.nearest l a = .error .valueError := by
  have h1 := List.head?_eq_some_head hne
  have h2 := List.getLast?_eq_some_getLast hne
  have := not_covers h1 h2 h
  unfold Axis.nearest Axis.bounds
  simp only [h1, h2, if_pos this]

/-- The axes of a record. -/
theorem axes (h : SRecord t u) : Inc t.ax ∧ Inc t.ay ∧ t.ax ≠ [] ∧ t.ay ≠ [] := by
  obtain ⟨f, fs, hfs⟩ := List.exists_cons_of_ne_nil h.ne
  have hf : f ∈ t.fields := by rw [hfs]; simp
  have w := h.ok.wf f hf
  exact ⟨h.ok.ax f hf ▸ w.incx, h.ok.ay f hf ▸ w.incy, h.ok.ax f hf ▸ w.nex, h.ok.ay f hf ▸ w.ney⟩

theorem cellOf_ok (h : SRecord t u) {a b : Rat} (ha : Covers t.ax a) (hb : Covers t.ay b) :
    ∃ i j x y, cellOf t a b = .ok (i, j) ∧ t.ax[i]? = some x ∧ t.ay[j]? = some y ∧ Nearest t a b x y := by
  obtain ⟨i, x, e1, hi, h1⟩ := nearest_of (axes h).1 ha
  obtain ⟨j, y, e2, hj, h2⟩ := nearest_of (axes h).2.1 hb
  exact ⟨i, j, x, y, by unfold cellOf; simp only [e1, e2], hi, hj, List.mem_of_getElem? hi, List.mem_of_getElem? hj, h1, h2⟩

theorem oneCell_ok (h : SRecord t u) {a b : Rat} (ha : Covers t.ax a) (hb : Covers t.ay b) :
    ∃ i j x y, oneCell t (.at a b) = .ok (i, j) ∧ t.ax[i]? = some x ∧ t.ay[j]? = some y ∧ Nearest t a b x y := by
  obtain ⟨i, j, x, y, e, hi, hj, hn⟩ := cellOf_ok h ha hb
  refine ⟨i, j, x, y, ?_, hi, hj, hn⟩
  have li := getElem?_some_lt hi
  have lj := getElem?_some_lt hj
  simp only [oneCell, e, inGrid]
  rw [if_pos ⟨Int.natCast_nonneg _, by exact_mod_cast li, Int.natCast_nonneg _, by exact_mod_cast lj⟩]
  simp

/-- The times kept by an interval. -/
theorem late_iff (w : Option (Rat × Rat)) (a : Rat) : late w a = !decide (inside w a) := by
  rw [Bool.eq_iff_iff]
  simp only [Bool.not_eq_true', decide_eq_false_iff_not]
  cases w with
  | none => simp [late, inside]
  | some p =>
    obtain ⟨lo, hi⟩ := p
    simp only [late, inside, Bool.or_eq_true, decide_eq_true_eq, not_and_or, not_le, gt_iff_lt]

theorem range_getD {α : Type} (l : List α) (a : α) : (List.range l.length).map (fun n => l.getD n a) = l := by
  apply List.ext_getElem?
  intro n
  rw [List.getElem?_map]
  by_cases h : n < l.length
  · rw [List.getElem?_range h, List.getElem?_eq_getElem h]
    simp [List.getD, List.getElem?_eq_getElem h]
  · rw [List.getElem?_eq_none (by simpa using h), List.getElem?_eq_none (by simpa using h)]
    rfl

theorem zip_range {α β : Type} (l : List α) (k : List β) (a : α) (b : β) (h : l.length = k.length) :
    l.zip k = (List.range l.length).map fun n => (l.getD n a, k.getD n b) := by
  conv_lhs => rw [← range_getD l a, ← range_getD k b, ← h, List.zip_map']

/-- The value and the mask of the field of index `n` at a cell. -/
def look (t : TF) (c : Nat × Nat) (n : Nat) : Option Rat × Bool :=
  ((t.fields.map fun f => f.cell c.1 c.2).getD n none, (t.fields.map fun f => f.mask.get c.1 c.2).getD n false)

theorem sample_ok {cs : List (Nat × Nat)} {k n : Nat} {c : Nat × Nat} (hc : cs[k]? = some c) (hn : n < t.fields.length) :
    sample t cs k n = .ok (look t c n) := by
  unfold sample look
  simp only [hc, List.getElem?_eq_getElem hn, List.getD, List.getElem?_map]
  rfl

theorem blank_look {l : List (Option Rat × Bool)} (h : ∀ e ∈ l, e.2 = true → e.1 = none) :
    Profile.blank (l.map Prod.fst) (l.map Prod.snd) = l.map Prod.fst := by
  unfold Profile.blank
  induction l with
  | nil => rfl
  | cons e l ih =>
    rw [List.map_cons, List.map_cons, List.zipWith_cons_cons, ih fun d hd => h d (by simp [hd])]
    congr 1
    cases hb : e.2 with
    | false => rfl
    | true => rw [h e (by simp) hb]; rfl

theorem look_masked (t : TF) (c : Nat × Nat) (n : Nat) : (look t c n).2 = true → (look t c n).1 = none := by
  unfold look
  simp only [List.getD, List.getElem?_map]
  cases t.fields[n]? with
  | none => simp
  | some f =>
    simp only [Option.map_some, Option.getD_some]
    intro h
    unfold SF.cell
    rw [if_pos h]

theorem kept_sub (t : TF) (ms : List Bool) (w : Option (Rat × Rat)) : ((keptInds t ms w).map fun n => t.times.getD n 0).Sublist t.times := by
  have : ((keptInds t ms w).map fun n => t.times.getD n 0).Sublist ((List.range t.times.length).map fun n => t.times.getD n 0) :=
    (List.filter_sublist).map _
  rwa [range_getD] at this

theorem kept_lt {ms : List Bool} {w : Option (Rat × Rat)} {n : Nat} (h : n ∈ keptInds t ms w) : n < t.times.length := by
  unfold keptInds at h
  simpa using (List.mem_filter.mp h).1

/-- The profile built from the samples of the kept times, the one of rank `k` being read in the cell `φ k`. -/
theorem profile_of (hs : IsArgsort srt) (h : SRecord t u) {p : Where} {w : Option (Rat × Rat)} {cs : List (Nat × Nat)} {ms : List Bool}
    (e : cells t p = .ok (cs, ms)) (hw : badTimes w = false) {φ : Nat → Nat × Nat} (hφ : ∀ k, k < (keptInds t ms w).length → cs[k]? = some (φ k)) :
    ∃ q, timeProfile srt t p w = .ok q ∧ Profile.Valid q ∧ q.ux = t.ut ∧ q.uy = u ∧
      pts q = (keptInds t ms w).zipIdx.map fun e => (t.times.getD e.1 0, (look t (φ e.2) e.1).1) := by
  obtain ⟨f, fs, hfs⟩ := List.exists_cons_of_ne_nil h.ne
  have huv : f.uv = u := h.uv f (by rw [hfs]; simp)
  have hcol : Line.collect ((keptInds t ms w).zipIdx.map fun e => sample t cs e.2 e.1) =
      .ok ((keptInds t ms w).zipIdx.map fun e => look t (φ e.2) e.1) := by
    refine Line.collect_ok _ _ _ fun e he => ?_
    have he := List.mem_zipIdx' he
    refine sample_ok (hφ e.2 he.1) ?_
    rw [← h.ok.paired]
    exact kept_lt (t := t) (ms := ms) (w := w) (by rw [he.2]; exact List.getElem_mem _)
  have hx : Inc ((keptInds t ms w).map fun n => t.times.getD n 0) := h.inc.sublist (kept_sub t ms w)
  have e1 : timeProfile srt t p w = Profile.new srt ((keptInds t ms w).map fun n => t.times.getD n 0)
      (((keptInds t ms w).zipIdx.map fun e => look t (φ e.2) e.1).map Prod.fst)
      (.arr (((keptInds t ms w).zipIdx.map fun e => look t (φ e.2) e.1).map Prod.snd)) t.ut u := by
    unfold timeProfile
    simp only [e, hw, hcol, hfs, huv]
    rfl
  have hy : (((keptInds t ms w).zipIdx.map fun e => look t (φ e.2) e.1).map Prod.fst).length = ((keptInds t ms w).map fun n => t.times.getD n 0).length := by
    simp
  have hm : (((keptInds t ms w).zipIdx.map fun e => look t (φ e.2) e.1).map Prod.snd).length = ((keptInds t ms w).map fun n => t.times.getD n 0).length := by
    simp
  rw [Profile.new_arr _ _ hy hm] at e1
  have hv := (Profile.build_spec hs t.ut u hy hm (srt := srt)).1
  rw [Profile.build_inc hs t.ut u hx hy hm] at e1 hv
  refine ⟨_, e1, hv, rfl, rfl, ?_⟩
  rw [Profile.pts_valid hv]
  show ((keptInds t ms w).map fun n => t.times.getD n 0).zip (Profile.blank _ _) = _
  rw [blank_look fun e he => ?_]
  · have hz : ((keptInds t ms w).map fun n => t.times.getD n 0) = (keptInds t ms w).zipIdx.map fun e => t.times.getD e.1 0 := by
      conv_lhs => rw [← List.zipIdx_map_fst 0 (keptInds t ms w)]
      rw [List.map_map]
      rfl
    rw [hz, List.map_map, List.zip_map']
    rfl
  · obtain ⟨d, _, rfl⟩ := List.mem_map.mp he
    exact look_masked t _ _

theorem cells_at {i j : Nat} {a b : Rat} (e : oneCell t (.at a b) = .ok (i, j)) :
    cells t (.at a b) = .ok (List.replicate t.times.length (i, j), List.replicate t.times.length false) := by
  simp only [cells, e]

theorem kept_plain (t : TF) (w : Option (Rat × Rat)) :
    keptInds t (List.replicate t.times.length false) w = (List.range t.times.length).filter fun k => decide (inside w (t.times.getD k 0)) := by
  unfold keptInds
  congr 1
  funext k
  have : (List.replicate t.times.length false).getD k false = false := by
    simp only [List.getD, List.getElem?_replicate]
    split <;> rfl
  rw [this, late_iff]
  simp

theorem kept_map (w : Option (Rat × Rat)) (l : List (Option Rat)) (hl : t.times.length = l.length) :
    ((List.range t.times.length).filter fun k => decide (inside w (t.times.getD k 0))).map (fun n => (t.times.getD n 0, l.getD n none)) =
      (t.times.zip l).filter fun e => decide (inside w e.1) := by
  rw [zip_range t.times l 0 none hl, List.filter_map]
  rfl

theorem kept_le (t : TF) (ms : List Bool) (w : Option (Rat × Rat)) : (keptInds t ms w).length ≤ t.times.length := by
  have := (List.filter_sublist (p := fun k => !(late w (t.times.getD k 0) || ms.getD k false)) (l := List.range t.times.length)).length_le
  rwa [List.length_range] at this

/-- The profile at one cell. -/
theorem profile_cell (hs : IsArgsort srt) (h : SRecord t u) {p : Where} {w : Option (Rat × Rat)} {i j : Nat}
    (e : cells t p = .ok (List.replicate t.times.length (i, j), List.replicate t.times.length false)) (hw : badTimes w = false) :
    ∃ q, timeProfile srt t p w = .ok q ∧ Profile.Valid q ∧ q.ux = t.ut ∧ q.uy = u ∧
      pts q = (t.times.zip (t.fields.map fun f => f.cell i j)).filter fun e => decide (inside w e.1) := by
  obtain ⟨q, e1, hv, h1, h2, h3⟩ := profile_of hs h e hw (φ := fun _ => (i, j)) fun k hk => by
    rw [List.getElem?_replicate, if_pos (lt_of_lt_of_le hk (kept_le _ _ _))]
  refine ⟨q, e1, hv, h1, h2, ?_⟩
  rw [h3, ← kept_map (t := t) w _ (by rw [List.length_map]; exact h.ok.paired), kept_plain]
  have : ∀ l : List Nat, (l.zipIdx.map fun e => (t.times.getD e.1 0, (look t (i, j) e.1).1)) =
      l.map fun n => (t.times.getD n 0, (t.fields.map fun f => f.cell i j).getD n none) := by
    intro l
    conv_rhs => rw [← List.zipIdx_map_fst 0 l]
    rw [List.map_map]
    rfl
  exact this _

/-! ### C203: the evolution at one point -/

/-- C203: the profile at a position inside the field shows, for each time of the closed interval wanted (every time by default), what
the field of this time shows at the grid point nearest to the position, against the time, in the units of the times and of the
values. -/
theorem C203_profile (hs : IsArgsort srt) (h : SRecord t u) {a b : Rat} (ha : Covers t.ax a) (hb : Covers t.ay b) {w : Option (Rat × Rat)}
    (hw : ∀ lo hi, w = some (lo, hi) → lo < hi) :
    ∃ q x y l, timeProfile srt t (.at a b) w = .ok q ∧ Profile.Valid q ∧ q.ux = t.ut ∧ q.uy = u ∧ Nearest t a b x y ∧ ShowsS t x y l ∧
      pts q = (t.times.zip l).filter fun e => decide (inside w e.1) := by
  obtain ⟨i, j, x, y, e, hi, hj, hn⟩ := oneCell_ok h ha hb
  have hw' : badTimes w = false := by
    cases w with
    | none => rfl
    | some p =>
      obtain ⟨lo, hi⟩ := p
      have := hw lo hi rfl
      simp only [badTimes, decide_eq_false_iff_not, not_le]
      exact this
  obtain ⟨q, e1, hv, h1, h2, h3⟩ := profile_cell hs h (cells_at e) hw'
  exact ⟨q, x, y, _, e1, hv, h1, h2, hn, (Turb.sshows_cells h hi hj _).mpr rfl, h3⟩

/-- C203: positions outside the field and empty time intervals are refused. -/
theorem C203_refused (h : SRecord t u) (a b : Rat) (w : Option (Rat × Rat))
    (hr : ¬ Covers t.ax a ∨ ¬ Covers t.ay b ∨ ∃ lo hi, w = some (lo, hi) ∧ hi ≤ lo) :
    timeProfile srt t (.at a b) w = .error .valueError := by
  by_cases ha : Covers t.ax a
  · by_cases hb : Covers t.ay b
    · rcases hr with hr | hr | ⟨lo, hi, rfl, hr⟩
      · exact absurd ha hr
      · exact absurd hb hr
      · obtain ⟨i, j, x, y, e, _⟩ := oneCell_ok h ha hb
        have : badTimes (some (lo, hi)) = true := by simp only [badTimes, decide_eq_true_eq]; exact hr
        unfold timeProfile
        simp only [cells_at e, this, if_true]
    · have e2 := nearest_refused (axes h).2.2.2 hb
      obtain ⟨i, x, e1, _⟩ := nearest_of (axes h).1 ha
      simp only [timeProfile, cells, oneCell, cellOf, e1, e2]
  · have e1 := nearest_refused (axes h).2.2.1 ha
    simp only [timeProfile, cells, oneCell, cellOf, e1]

/-- C203: with `ind=True` the pair is understood as the indices of a grid point; other numbers are refused. -/
theorem C203_index (hs : IsArgsort srt) (h : SRecord t u) (a b : Rat) :
    (∀ i j : Nat, ∀ x y, a = i → b = j → t.ax[i]? = some x → t.ay[j]? = some y →
      ∃ q l, timeProfile srt t (.ind a b) none = .ok q ∧ Profile.Valid q ∧ q.ux = t.ut ∧ q.uy = u ∧ ShowsS t x y l ∧ pts q = t.times.zip l) ∧
    ((¬ ∃ i j : Nat, a = i ∧ b = j ∧ i < t.ax.length ∧ j < t.ay.length) → timeProfile srt t (.ind a b) none = .error .valueError) := by
  constructor
  · rintro i j x y rfl rfl hi hj
    have li := getElem?_some_lt hi
    have lj := getElem?_some_lt hj
    have e : cells t (.ind i j) = .ok (List.replicate t.times.length (i, j), List.replicate t.times.length false) := by
      have : oneCell t (.ind i j) = .ok (i, j) := by
        simp only [oneCell, cellInd, Rat.den_natCast, Rat.num_natCast, inGrid]
        simp [li, lj]
      simp only [cells, this]
    obtain ⟨q, e1, hv, h1, h2, h3⟩ := profile_cell hs h e (w := none) rfl
    refine ⟨q, _, e1, hv, h1, h2, (Turb.sshows_cells h hi hj _).mpr rfl, ?_⟩
    rw [h3, List.filter_eq_self.mpr fun e _ => by simp [inside]; rfl]
  · intro hr
    have : oneCell t (.ind a b) = .error .valueError := by
      simp only [oneCell, cellInd]
      by_cases hd : a.den ≠ 1 ∨ b.den ≠ 1
      · rw [if_pos hd]
      · rw [if_neg hd]
        rw [not_or, not_not, not_not] at hd
        simp only [inGrid]
        rw [if_neg]
        rintro ⟨h1, h2, h3, h4⟩
        refine hr ⟨a.num.toNat, b.num.toNat, ?_, ?_, by omega, by omega⟩
        · have : ((a.num.toNat : Int) : Rat) = a.num := by rw [Int.toNat_of_nonneg h1]
          rw [← Rat.coe_int_num_of_den_eq_one hd.1]
          exact_mod_cast this.symm
        · have : ((b.num.toNat : Int) : Rat) = b.num := by rw [Int.toNat_of_nonneg h3]
          rw [← Rat.coe_int_num_of_den_eq_one hd.2]
          exact_mod_cast this.symm
    simp only [timeProfile, cells, this]

/-! ### C204: the evolution along a trajectory -/

/-- `l` holds what each field shows at the grid point nearest to the position of the same rank. -/
def Along (t : TF) (xy : List (Rat × Rat)) (l : List (Option Rat)) : Prop :=
  xy.length = t.fields.length ∧ l.length = t.fields.length ∧ ∀ (k : Nat) f p r, t.fields[k]? = some f → xy[k]? = some p → l[k]? = some r →
    ∃ x y, Nearest t p.1 p.2 x y ∧ f.Reads x y r

theorem collect_cells (h : SRecord t u) (xy : List (Rat × Rat)) (hc : ∀ p ∈ xy, Covers t.ax p.1 ∧ Covers t.ay p.2) :
    ∃ cs, Line.collect (xy.map fun p => cellOf t p.1 p.2) = .ok cs ∧ cs.length = xy.length ∧
      ∀ (k : Nat) c p, cs[k]? = some c → xy[k]? = some p → ∃ x y, t.ax[c.1]? = some x ∧ t.ay[c.2]? = some y ∧ Nearest t p.1 p.2 x y := by
  induction xy with
  | nil => exact ⟨[], rfl, rfl, fun k c p hk _ => by simp at hk⟩
  | cons p xy ih =>
    obtain ⟨cs, e, hl, hk⟩ := ih fun q hq => hc q (by simp [hq])
    obtain ⟨i, j, x, y, e1, hi, hj, hn⟩ := cellOf_ok h (hc p (by simp)).1 (hc p (by simp)).2
    refine ⟨(i, j) :: cs, by simp only [List.map_cons, e1, Line.collect, e], by simp [hl], fun k c q h1 h2 => ?_⟩
    cases k with
    | zero =>
      simp only [List.getElem?_cons_zero, Option.some.injEq] at h1 h2
      subst h1 h2
      exact ⟨x, y, hi, hj, hn⟩
    | succ k =>
      rw [List.getElem?_cons_succ] at h1 h2
      exact hk k c q h1 h2

/-- What the fields show along a list of cells. -/
def follow (t : TF) (cs : List (Nat × Nat)) : List (Option Rat) := List.zipWith (fun (f : SF) c => f.cell c.1 c.2) t.fields cs

theorem zipIdx_range (n : Nat) : (List.range n).zipIdx = (List.range n).map fun k => (k, k) := by
  apply List.ext_getElem?
  intro k
  rw [List.getElem?_zipIdx, List.getElem?_map]
  by_cases h : k < n
  · rw [List.getElem?_range h]; simp
  · rw [List.getElem?_eq_none (by simpa using h)]; rfl

theorem kept_all (t : TF) {v : List Rat} (hv : ∀ a ∈ t.times, a ∈ v) :
    keptInds t (t.times.map fun a => decide (a ∉ v)) none = List.range t.times.length := by
  unfold keptInds
  refine List.filter_eq_self.mpr fun k hk => ?_
  have hk : k < t.times.length := by simpa using hk
  simp [late, List.getD, List.getElem?_eq_getElem hk, hv _ (List.getElem_mem hk)]

/-- C204 for points given at exactly the times of the fields, without time interval: the profile shows against each time what the field
shows at the grid point nearest to the position of this time. -/
theorem C204_follow_partial (hs : IsArgsort srt) (h : SRecord t u) {xy : List (Rat × Rat)} (hl : xy.length = t.times.length)
    (hc : ∀ p ∈ xy, Covers t.ax p.1 ∧ Covers t.ay p.2) :
    ∃ q l, timeProfile srt t (.points t.times xy) none = .ok q ∧ Profile.Valid q ∧ q.ux = t.ut ∧ q.uy = u ∧ Along t xy l ∧
      pts q = t.times.zip l := by
  obtain ⟨cs, e, el, hk⟩ := collect_cells h xy hc
  have hp : t.times.length = t.fields.length := h.ok.paired
  have ec : cells t (.points t.times xy) = .ok (cs, t.times.map fun a => decide (a ∉ t.times)) := by
    simp only [cells, e]
  have hkept := kept_all (v := t.times) t fun a ha => ha
  obtain ⟨q, e1, hv, h1, h2, h3⟩ := profile_of hs h ec (w := none) rfl (φ := fun k => cs.getD k (0, 0)) fun k hk => by
    rw [hkept, List.length_range] at hk
    rw [List.getD, List.getElem?_eq_getElem (by omega)]
    rfl
  have hfl : (follow t cs).length = t.times.length := by
    unfold follow; rw [List.length_zipWith]; omega
  refine ⟨q, follow t cs, e1, hv, h1, h2, ⟨by omega, by omega, fun k f p r hf hp hr => ?_⟩, ?_⟩
  · unfold follow at hr
    obtain ⟨f', c, hf', hc', rfl⟩ := List.getElem?_zipWith_eq_some.mp hr
    rw [hf] at hf'
    cases hf'
    obtain ⟨x, y, hi, hj, hn⟩ := hk k c p hc' hp
    have o := h.on (List.mem_of_getElem? hf)
    exact ⟨x, y, hn, (o.reads (t := Turb.frameOf t) hi hj _).mpr rfl⟩
  · rw [h3, hkept, zipIdx_range, List.map_map, zip_range t.times (follow t cs) 0 none hfl.symm]
    refine List.map_congr_left fun k hk' => ?_
    have hk' : k < t.times.length := by simpa using hk'
    have k1 : k < t.fields.length := by omega
    have k2 : k < cs.length := by omega
    simp only [Function.comp, look, follow, List.getD, List.getElem?_map, List.getElem?_zipWith, List.getElem?_eq_getElem k1, List.getElem?_eq_getElem k2]
    rfl

/-- C204 fails with a time interval: when it leaves the first time out, each field is read at the position of the preceding time. -/
theorem C204_interval_violated (hs : IsArgsort srt) (h : SRecord t u) {xy : List (Rat × Rat)} (hl : xy.length = t.times.length)
    (hc : ∀ p ∈ xy, Covers t.ax p.1 ∧ Covers t.ay p.2) {lo hi : Rat} {first : Rat} {rest : List Rat} (ht : t.times = first :: rest)
    (h1 : first < lo) (h2 : ∀ a ∈ rest, lo ≤ a ∧ a ≤ hi) (hlo : lo < hi) :
    ∃ q l, timeProfile srt t (.points t.times xy) (some (lo, hi)) = .ok q ∧ pts q = rest.zip l ∧ l.length = rest.length ∧
      ∀ (k : Nat) f p r, t.fields[k + 1]? = some f → xy[k]? = some p → l[k]? = some r → ∃ x y, Nearest t p.1 p.2 x y ∧ f.Reads x y r := by
  obtain ⟨cs, e, el, hk⟩ := collect_cells h xy hc
  have hp : t.times.length = t.fields.length := h.ok.paired
  have hr : t.times.length = rest.length + 1 := by rw [ht]; rfl
  have ec : cells t (.points t.times xy) = .ok (cs, t.times.map fun a => decide (a ∉ t.times)) := by
    simp only [cells, e]
  have hkept : keptInds t (t.times.map fun a => decide (a ∉ t.times)) (some (lo, hi)) = (List.range rest.length).map (· + 1) := by
    unfold keptInds
    rw [hr, List.range_succ_eq_map, List.filter_cons, if_neg (by simp [ht, late, h1])]
    refine List.filter_eq_self.mpr fun k hk => ?_
    obtain ⟨m, hm, rfl⟩ := List.mem_map.mp hk
    have hm : m < rest.length := by simpa using hm
    have hb := h2 _ (List.getElem_mem hm)
    have hm' : m + 1 < t.times.length := by omega
    have em : t.times.getD (m + 1) 0 = rest[m] := by
      simp [ht, List.getD, hm]
    rw [late_iff, em]
    have hin : inside (some (lo, hi)) rest[m] := hb
    simp [hin, List.getD, hm']
  have hbad : badTimes (some (lo, hi)) = false := by simp only [badTimes, decide_eq_false_iff_not, not_le]; exact hlo
  obtain ⟨q, e1, hv, _, _, h3⟩ := profile_of hs h ec hbad (φ := fun k => cs.getD k (0, 0)) fun k hk => by
    rw [hkept, List.length_map, List.length_range] at hk
    rw [List.getD, List.getElem?_eq_getElem (by omega)]
    rfl
  refine ⟨q, (List.range rest.length).map fun k => (look t (cs.getD k (0, 0)) (k + 1)).1, e1, ?_, by simp, fun k f p r hf hp' hr' => ?_⟩
  · have hz : ∀ g : Nat → Option Rat, rest.zip ((List.range rest.length).map g) = (List.range rest.length).map fun k => (rest.getD k 0, g k) := by
      intro g
      have := List.zip_map' (f := fun n => rest.getD n 0) (g := g) (l := List.range rest.length)
      rwa [range_getD] at this
    rw [h3, hkept, hz]
    apply List.ext_getElem?
    intro k
    by_cases hk' : k < rest.length
    · simp [List.getElem?_zipIdx, hk', ht]
    · rw [List.getElem?_eq_none (by simpa using hk'), List.getElem?_eq_none (by simpa using hk')]
  · have hk' : k < rest.length := by
      have := getElem?_some_lt hf; omega
    rw [List.getElem?_map, List.getElem?_range hk', Option.map_some, Option.some.injEq] at hr'
    have k2 : k < cs.length := by omega
    have hcs : cs[k]? = some (cs.getD k (0, 0)) := by
      rw [List.getD, List.getElem?_eq_getElem k2]; rfl
    obtain ⟨x, y, hi, hj, hn⟩ := hk k _ p hcs hp'
    have o := h.on (List.mem_of_getElem? hf)
    refine ⟨x, y, hn, (o.reads (t := Turb.frameOf t) hi hj _).mpr ?_⟩
    rw [← hr']
    simp only [look, List.getD, List.getElem?_map, hf]
    rfl

/-! ### C205: writing a profile back -/

theorem putAll_cells (i j : Nat) (fs : List SF) (vs : List (Option Rat)) (h : fs.length = vs.length) :
    putAll i j fs vs = List.zipWith (fun f v => put f i j v) fs vs := by
  induction fs generalizing vs with
  | nil => cases vs <;> simp_all [putAll]
  | cons f fs ih =>
    cases vs with
    | nil => simp at h
    | cons v vs => simp only [putAll, List.zipWith_cons_cons, ih vs (by simpa using h)]

theorem put_cell (f : SF) (i j : Nat) (v : Option Rat) (a b : Nat) :
    (put f i j v).cell a b = if f.mask.get a b then none else if a = i ∧ b = j then v else f.cell a b := rfl

theorem put_here (f : SF) (i j : Nat) (v : Option Rat) : (put f i j v).cell i j = if f.mask.get i j then none else v := by
  rw [put_cell]; simp

theorem put_other (f : SF) {i j : Nat} (v : Option Rat) {a b : Nat} (h : ¬ (a = i ∧ b = j)) : (put f i j v).cell a b = f.cell a b := by
  rw [put_cell, if_neg h]
  unfold SF.cell
  split <;> rfl

theorem inject_ok {p : Where} {q : Prof} {c : Nat × Nat} (e : oneCell t p = .ok c) (hq : q.x.length = t.fields.length) :
    inject t p q = .ok { t with fields := putAll c.1 c.2 t.fields (Profile.getY q) } := by
  cases p with
  | points v xy => simp [oneCell] at e
  | «at» a b => simp only [inject, e]; rw [if_neg (by omega)]
  | ind a b => simp only [inject, e]; rw [if_neg (by omega)]

theorem getY_len {q : Prof} (hv : Profile.Valid q) : (Profile.getY q).length = q.x.length := by
  rw [Profile.getY_valid hv]
  exact hv.1

/-- The fields after an injection. -/
theorem inject_fields {q : Prof} (hv : Profile.Valid q) (hq : q.x.length = t.fields.length) {i j : Nat} {k : Nat} {f g : SF}
    {v : Option Rat} (hf : t.fields[k]? = some f) (hg : (putAll i j t.fields (Profile.getY q))[k]? = some g) (hr : (Profile.getY q)[k]? = some v) :
    g = put f i j v := by
  rw [putAll_cells _ _ _ _ (by rw [getY_len hv]; exact hq.symm)] at hg
  obtain ⟨f', v', h1, h2, h3⟩ := List.getElem?_zipWith_eq_some.mp hg
  rw [hf] at h1
  rw [hr] at h2
  cases h1
  cases h2
  exact h3.symm

theorem put_reads (h : SRecord t u) {f : SF} (hf : f ∈ t.fields) {i j : Nat} {x y : Rat} (hi : t.ax[i]? = some x) (hj : t.ay[j]? = some y)
    (v : Option Rat) {x' y' : Rat} {r : Option Rat} (hne : (x', y') ≠ (x, y)) : (put f i j v).Reads x' y' r ↔ f.Reads x' y' r := by
  have ha := h.ok.ax f hf
  have hb := h.ok.ay f hf
  have key : ∀ a b : Nat, f.ax[a]? = some x' → f.ay[b]? = some y' → (put f i j v).cell a b = f.cell a b := by
    intro a b h1 h2
    refine put_other f v fun hab => hne ?_
    rw [ha] at h1
    rw [hb] at h2
    rw [hab.1, hi] at h1
    rw [hab.2, hj] at h2
    rw [Option.some.inj h1, Option.some.inj h2]
  constructor
  · rintro ⟨a, b, h1, h2, h3⟩
    exact ⟨a, b, h1, h2, by rw [← key a b h1 h2]; exact h3⟩
  · rintro ⟨a, b, h1, h2, h3⟩
    exact ⟨a, b, h1, h2, by rw [key a b h1 h2]; exact h3⟩

/-- C205, for fields that are not masked at the point: injecting a profile of as many points as there are fields puts its values, in
order, at the grid point nearest to the position, and changes nothing else. -/
theorem C205_inject_partial (h : SRecord t u) {a b : Rat} (ha : Covers t.ax a) (hb : Covers t.ay b) {q : Prof} (hv : Profile.Valid q)
    (hq : q.x.length = t.fields.length) :
    ∃ T x y, inject t (.at a b) q = .ok T ∧ Nearest t a b x y ∧ T.times = t.times ∧ T.ut = t.ut ∧ T.ax = t.ax ∧ T.ay = t.ay ∧
      T.ux = t.ux ∧ T.uy = t.uy ∧ T.fields.length = t.fields.length ∧
      ∀ (k : Nat) f g v, t.fields[k]? = some f → T.fields[k]? = some g → (Profile.getY q)[k]? = some v →
        g.ax = f.ax ∧ g.ay = f.ay ∧ g.ux = f.ux ∧ g.uy = f.uy ∧ g.uv = f.uv ∧
        (∀ x' y' r, (x', y') ≠ (x, y) → (g.Reads x' y' r ↔ f.Reads x' y' r)) ∧ (∀ s, f.Reads x y (some s) → g.Reads x y v) := by
  obtain ⟨i, j, x, y, e, hi, hj, hn⟩ := oneCell_ok h ha hb
  refine ⟨_, x, y, inject_ok e hq, hn, rfl, rfl, rfl, rfl, rfl, rfl, ?_, fun k f g v hf hg hr => ?_⟩
  · rw [putAll_cells _ _ _ _ (by rw [getY_len hv]; exact hq.symm), List.length_zipWith, getY_len hv]
    omega
  · have := inject_fields hv hq hf hg hr
    subst this
    have hm := List.mem_of_getElem? hf
    refine ⟨rfl, rfl, rfl, rfl, rfl, fun x' y' r hne => put_reads h hm hi hj v hne, fun s hs => ?_⟩
    have o := h.on hm
    refine ⟨i, j, by rw [← h.ok.ax f hm] at hi; exact hi, by rw [← h.ok.ay f hm] at hj; exact hj, ?_⟩
    rw [put_here]
    have hc := (o.reads (t := Turb.frameOf t) hi hj _).mp hs
    have : f.mask.get i j = false := by
      by_contra hb
      have hb : f.mask.get i j = true := by simpa using hb
      unfold SF.cell at hc
      rw [if_pos hb] at hc
      cases hc
    rw [this]
    rfl

/-- C205: reading back the point just written gives the values of the profile against the times of the fields, when no value is
masked. -/
theorem C205_readback (hs : IsArgsort srt) (h : SRecord t u) {a b : Rat} (ha : Covers t.ax a) (hb : Covers t.ay b) {q : Prof}
    (hv : Profile.Valid q) (hq : q.x.length = t.fields.length) (hnm : ∀ v ∈ Profile.getY q, v ≠ none)
    (hvis : ∀ f ∈ t.fields, ∀ x y, Nearest t a b x y → ¬ f.Reads x y none) {T : TF} (e : inject t (.at a b) q = .ok T) :
    ∃ p, timeProfile srt T (.at a b) none = .ok p ∧ pts p = t.times.zip (Profile.getY q) := by
  obtain ⟨i, j, x, y, e', hi, hj, hn⟩ := oneCell_ok h ha hb
  rw [inject_ok e' hq] at e
  cases e
  have hlen : (Profile.getY q).length = t.fields.length := by rw [getY_len hv]; exact hq
  have hmask : ∀ f ∈ t.fields, f.mask.get i j = false := by
    intro f hf
    by_contra hc
    have hc : f.mask.get i j = true := by simpa using hc
    refine hvis f hf x y hn (((h.on hf).reads (t := Turb.frameOf t) hi hj _).mpr ?_)
    unfold SF.cell
    rw [if_pos hc]
  have hcells : (putAll i j t.fields (Profile.getY q)).map (fun f => f.cell i j) = Profile.getY q := by
    rw [putAll_cells _ _ _ _ hlen.symm]
    apply List.ext_getElem?
    intro k
    rw [List.getElem?_map, List.getElem?_zipWith]
    by_cases hk : k < t.fields.length
    · rw [List.getElem?_eq_getElem hk, List.getElem?_eq_getElem (by omega)]
      simp only [Option.map_some, put_cell, hmask _ (List.getElem_mem hk)]
      simp
    · rw [List.getElem?_eq_none (by omega), List.getElem?_eq_none (l := Profile.getY q) (by omega)]
      rfl
  have hmem : ∀ g ∈ putAll i j t.fields (Profile.getY q), ∃ f ∈ t.fields, ∃ v, v ≠ none ∧ g = put f i j v := by
    intro g hg
    rw [putAll_cells _ _ _ _ hlen.symm] at hg
    obtain ⟨k, hk⟩ := List.mem_iff_getElem?.mp hg
    obtain ⟨f, v, h1, h2, h3⟩ := List.getElem?_zipWith_eq_some.mp hk
    exact ⟨f, List.mem_of_getElem? h1, v, hnm v (List.mem_of_getElem? h2), h3.symm⟩
  have hR : SRecord { t with fields := putAll i j t.fields (Profile.getY q) } u := by
    have hpl : (putAll i j t.fields (Profile.getY q)).length = t.fields.length := by
      rw [putAll_cells _ _ _ _ hlen.symm, List.length_zipWith]; omega
    refine ⟨⟨?_, ?_, ?_, ?_, ?_, ?_⟩, h.inc, ?_, ?_, h.size, h.tsize⟩
    · show t.times.length = _
      rw [hpl]; exact h.ok.paired
    · intro g hg
      obtain ⟨f, hf, v, hv', rfl⟩ := hmem g hg
      have w := h.ok.wf f hf
      refine ⟨w.incx, w.incy, w.nex, w.ney, w.vx, w.vy, w.mx, w.my, ?_⟩
      intro a b h1 h2 hnn
      have hnn : (if a = i ∧ b = j then v else f.cell a b) = none := hnn
      show f.mask.get a b = true
      by_cases hab : a = i ∧ b = j
      · rw [if_pos hab] at hnn; exact absurd hnn hv'
      · rw [if_neg hab] at hnn
        rw [SF.Reads.cellMask w h1 h2, hnn]; rfl
    · intro g hg; obtain ⟨f, hf, v, _, rfl⟩ := hmem g hg; exact h.ok.ax f hf
    · intro g hg; obtain ⟨f, hf, v, _, rfl⟩ := hmem g hg; exact h.ok.ay f hf
    · intro g hg; obtain ⟨f, hf, v, _, rfl⟩ := hmem g hg; exact h.ok.ux f hf
    · intro g hg; obtain ⟨f, hf, v, _, rfl⟩ := hmem g hg; exact h.ok.uy f hf
    · intro hc
      have := h.ne
      rw [← List.length_pos_iff] at this
      rw [← hpl] at this
      simp only at hc
      rw [hc] at this
      simp at this
    · intro g hg; obtain ⟨f, hf, v, _, rfl⟩ := hmem g hg; exact h.uv f hf
  obtain ⟨p, e1, _, _, _, h3⟩ := profile_cell hs hR (i := i) (j := j) (p := .at a b) (w := none) (cells_at e') rfl
  refine ⟨p, e1, ?_⟩
  rw [h3, List.filter_eq_self.mpr fun e _ => by simp [inside]; rfl]
  simp only [hcells]

/-- C205: injecting the profile taken at the same position changes no reading. -/
theorem C205_roundtrip (hs : IsArgsort srt) (h : SRecord t u) {a b : Rat} (ha : Covers t.ax a) (hb : Covers t.ay b) {p : Prof}
    (e : timeProfile srt t (.at a b) none = .ok p) :
    ∃ T, inject t (.at a b) p = .ok T ∧ T.fields.length = t.fields.length ∧
      ∀ (k : Nat) f g, t.fields[k]? = some f → T.fields[k]? = some g → ∀ x y r, g.Reads x y r ↔ f.Reads x y r := by
  obtain ⟨i, j, x, y, e', hi, hj, hn⟩ := oneCell_ok h ha hb
  obtain ⟨q, e1, hv, _, _, h3⟩ := profile_cell hs h (cells_at e') (w := none) rfl
  rw [e] at e1
  cases e1
  have h3 : pts p = t.times.zip (t.fields.map fun f => f.cell i j) := by
    rw [h3, List.filter_eq_self.mpr fun e _ => by simp [inside]; rfl]
  have hlen : t.times.length = (t.fields.map fun f => f.cell i j).length := by rw [List.length_map]; exact h.ok.paired
  have hx : p.x = t.times ∧ Profile.getY p = t.fields.map fun f => f.cell i j := by
    have l1 := getY_len hv
    have a1 := congrArg (List.map Prod.fst) h3
    have a2 := congrArg (List.map Prod.snd) h3
    unfold pts at a1 a2
    rw [List.map_fst_zip (by omega), List.map_fst_zip (by omega)] at a1
    rw [List.map_snd_zip (by omega), List.map_snd_zip (by omega)] at a2
    exact ⟨a1, a2⟩
  have hq : p.x.length = t.fields.length := by rw [hx.1]; exact h.ok.paired
  refine ⟨_, inject_ok e' hq, ?_, fun k f g hf hg x' y' r => ?_⟩
  · simp only [putAll_cells _ _ _ _ (by rw [getY_len hv]; exact hq.symm), List.length_zipWith, getY_len hv]
    omega
  · have := inject_fields hv hq hf hg (v := f.cell i j) (by rw [hx.2, List.getElem?_map, hf]; rfl)
    subst this
    have key : ∀ a b, (put f i j (f.cell i j)).cell a b = f.cell a b := by
      intro a b
      by_cases hab : a = i ∧ b = j
      · obtain ⟨rfl, rfl⟩ := hab
        rw [put_here]
        unfold SF.cell
        split <;> rfl
      · exact put_other f _ hab
    constructor
    · rintro ⟨c, d, h1, h2, h4⟩
      exact ⟨c, d, h1, h2, by rw [← key]; exact h4⟩
    · rintro ⟨c, d, h1, h2, h4⟩
      exact ⟨c, d, h1, h2, by rw [key]; exact h4⟩

/-- C205: profiles of another length and positions outside the field are refused. -/
theorem C205_refused (h : SRecord t u) (a b : Rat) (q : Prof)
    (hr : ¬ Covers t.ax a ∨ ¬ Covers t.ay b ∨ q.x.length ≠ t.fields.length) : inject t (.at a b) q = .error .valueError := by
  by_cases ha : Covers t.ax a
  · by_cases hb : Covers t.ay b
    · obtain ⟨i, j, x, y, e, _⟩ := oneCell_ok h ha hb
      have : q.x.length ≠ t.fields.length := by
        rcases hr with hr | hr | hr
        · exact absurd ha hr
        · exact absurd hb hr
        · exact hr
      simp only [inject, e, if_pos this]
    · have e2 := nearest_refused (axes h).2.2.2 hb
      obtain ⟨i, x, e1, _⟩ := nearest_of (axes h).1 ha
      simp only [inject, oneCell, cellOf, e1, e2]
  · have e1 := nearest_refused (axes h).2.2.1 ha
    simp only [inject, oneCell, cellOf, e1]

/-- C205 fails at a masked point: the value of the profile is lost, the point stays masked. -/
theorem C205_masked_violated (h : SRecord t u) {a b : Rat} (ha : Covers t.ax a) (hb : Covers t.ay b) {q : Prof} (hv : Profile.Valid q)
    (hq : q.x.length = t.fields.length) {k : Nat} {f : SF} (hf : t.fields[k]? = some f) (hm : ∀ x y, Nearest t a b x y → f.Reads x y none) :
    ∃ T g x y, inject t (.at a b) q = .ok T ∧ T.fields[k]? = some g ∧ Nearest t a b x y ∧ g.Reads x y none := by
  obtain ⟨i, j, x, y, e, hi, hj, hn⟩ := oneCell_ok h ha hb
  have hlen : (Profile.getY q).length = t.fields.length := by rw [getY_len hv]; exact hq
  have hk := getElem?_some_lt hf
  have hmem := List.mem_of_getElem? hf
  refine ⟨_, put f i j ((Profile.getY q)[k]'(by omega)), x, y, inject_ok e hq, ?_, hn, i, j, ?_, ?_, ?_⟩
  · simp only [putAll_cells _ _ _ _ hlen.symm, List.getElem?_zipWith, hf, List.getElem?_eq_getElem (show k < (Profile.getY q).length by omega)]
  · show f.ax[i]? = _
    rw [h.ok.ax f hmem]; exact hi
  · show f.ay[j]? = _
    rw [h.ok.ay f hmem]; exact hj
  · have hc := ((h.on hmem).reads (t := Turb.frameOf t) hi hj _).mp (hm x y hn)
    rw [put_cell, SF.Reads.cellMask (h.ok.wf f hmem) (by rw [h.ok.ax f hmem]; exact getElem?_some_lt hi)
      (by rw [h.ok.ay f hmem]; exact getElem?_some_lt hj), hc]
    rfl

/-- C205 fails for a masked value of the profile: the point then shows NaN without being masked. -/
theorem C205_nan_violated (h : SRecord t u) {a b : Rat} (ha : Covers t.ax a) (hb : Covers t.ay b) {q : Prof} (hv : Profile.Valid q)
    (hq : q.x.length = t.fields.length) {k : Nat} {f : SF} (hf : t.fields[k]? = some f) (hm : ∀ x y, Nearest t a b x y → ¬ f.Reads x y none)
    (hy : (Profile.getY q)[k]? = some none) :
    ∃ T g i j, inject t (.at a b) q = .ok T ∧ T.fields[k]? = some g ∧ i < g.ax.length ∧ j < g.ay.length ∧ g.mask.get i j = false ∧
      g.cell i j = none := by
  obtain ⟨i, j, x, y, e, hi, hj, hn⟩ := oneCell_ok h ha hb
  have hlen : (Profile.getY q).length = t.fields.length := by rw [getY_len hv]; exact hq
  have hmem := List.mem_of_getElem? hf
  have li : i < f.ax.length := by rw [h.ok.ax f hmem]; exact getElem?_some_lt hi
  have lj : j < f.ay.length := by rw [h.ok.ay f hmem]; exact getElem?_some_lt hj
  have hmask : f.mask.get i j = false := by
    by_contra hc
    have hc : f.mask.get i j = true := by simpa using hc
    refine hm x y hn (((h.on hmem).reads (t := Turb.frameOf t) hi hj _).mpr ?_)
    unfold SF.cell
    rw [if_pos hc]
  refine ⟨_, put f i j none, i, j, inject_ok e hq, ?_, li, lj, hmask, ?_⟩
  · simp only [putAll_cells _ _ _ _ hlen.symm, List.getElem?_zipWith, hf, hy]
  · rw [put_cell, hmask]
    simp

/-- C205 fails for a trajectory: a `Points` object is always refused (an unbound name), unless there is nothing to write. -/
theorem C205_points_violated (h : SRecord t u) {v : List Rat} {xy : List (Rat × Rat)} (hc : ∀ p ∈ xy, Covers t.ax p.1 ∧ Covers t.ay p.2)
    {q : Prof} (hq : q.x.length = t.fields.length) : inject t (.points v xy) q = .error .nameError := by
  obtain ⟨cs, e, _⟩ := collect_cells h xy hc
  have hne : t.fields.length ≠ 0 := by
    have := h.ne
    rwa [← List.length_pos_iff, Nat.pos_iff_ne_zero] at this
  simp only [inject, cells, e]
  rw [if_neg (by omega), if_neg (by omega)]

/-! ### examples -/

/-- Three fields, the point (1, 1/2) being masked. -/
theorem rec3_record : SRecord Temporal.rec3 SF.sample.uv := by
  refine ⟨Temporal.rec3_consistent, by decide +kernel, by decide, ?_, by decide +kernel, by decide +kernel⟩
  intro f hf
  simp only [Temporal.rec3, List.mem_cons, List.not_mem_nil, or_false] at hf
  rcases hf with rfl | rfl | rfl <;> rfl

example : IsArgsort Profile.argsort := Profile.argsort_ok

example : Covers Temporal.rec3.ax (2 / 3) ∧ Covers Temporal.rec3.ay (-3 / 4) :=
  ⟨⟨⟨0, by decide +kernel, by norm_num⟩, 1, by decide +kernel, by norm_num⟩, ⟨-1, by decide +kernel, by norm_num⟩, 1 / 2, by decide +kernel, by norm_num⟩

example : ((timeProfile Profile.argsort Temporal.rec3 (.at (2 / 3) (-3 / 4)) none).toOption.map pts) = some [(1, some 10), (2, some (-10)), (4, some 10)] := by
  decide +kernel

example : ((timeProfile Profile.argsort Temporal.rec3 (.at (2 / 3) (-3 / 4)) (some (3 / 2, 4))).toOption.map pts) = some [(2, some (-10)), (4, some 10)] := by
  decide +kernel

example : ((timeProfile Profile.argsort Temporal.rec3 (.ind 1 1) none).toOption.map pts) = some [(1, none), (2, none), (4, none)] := by
  decide +kernel

example : ((timeProfile Profile.argsort Temporal.rec3 (.points [1, 2, 4] [(0, 0), (1, -1), (3, 1 / 2)]) none).toOption.map pts) =
    some [(1, some 1), (2, some (-10)), (4, some 21)] := by
  decide +kernel

example : ((timeProfile Profile.argsort Temporal.rec3 (.points [1, 2, 4] [(0, 0), (1, -1), (3, 1 / 2)]) (some (3 / 2, 4))).toOption.map pts) =
    some [(2, some (-1)), (4, some 10)] := by
  decide +kernel

/-- A profile to inject. -/
def five : Prof := ⟨[1, 2, 4], [some 5, some 6, none], [false, false, true], Sym.s, SF.sample.uv⟩

example : Profile.Valid five ∧ five.x.length = Temporal.rec3.fields.length := ⟨⟨rfl, by decide +kernel, by decide +kernel⟩, rfl⟩

example : ((inject Temporal.rec3 (.at (2 / 3) (-3 / 4)) five).toOption.map fun T => T.fields.map fun f => [f.cell 1 0, f.cell 0 0]) =
    some [[some 5, some 0], [some 6, some 0], [none, some 0]] := by
  decide +kernel

end IMT.Trace
