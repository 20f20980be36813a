import Verif.Export.VideoModel
import Verif.Display.Line

/-! Videos of scalar fields: C369. -/

namespace IMT.Video

/-! ### specification -/

/-- `v` is the value of one of the fields, at the point of indices `i`, `j`. -/
def Has (l : List (Grid (Option Rat))) (v : Option Rat) : Prop := ∃ g ∈ l, ∃ i < g.nx, ∃ j < g.ny, g.get i j = v

/-! ### lemmas -/

theorem mem_cells {g : Grid (Option Rat)} {v : Option Rat} : v ∈ cells g ↔ ∃ i < g.nx, ∃ j < g.ny, g.get i j = v := by
  simp [cells]

theorem mem_all {l : List (Grid (Option Rat))} {v : Option Rat} : v ∈ l.flatMap cells ↔ Has l v := by
  simp only [List.mem_flatMap, mem_cells, Has]

theorem has_turned {l : List (Grid (Option Rat))} {v : Option Rat} : Has (l.map turned) v ↔ Has l v := by
  constructor
  · rintro ⟨g, hg, i, hi, j, hj, e⟩
    obtain ⟨g', hg', rfl⟩ := List.mem_map.1 hg
    exact ⟨g', hg', j, hj, g'.ny - 1 - i, by simp only [turned] at hi; omega, e⟩
  · rintro ⟨g, hg, i, hi, j, hj, e⟩
    refine ⟨turned g, List.mem_map_of_mem hg, g.ny - 1 - j, by simp only [turned]; omega, i, hi, ?_⟩
    simp only [turned]
    rw [show g.ny - 1 - (g.ny - 1 - j) = j by omega]
    exact e

/-- The fields of the argument. -/
def fields : Source → List (Grid (Option Rat))
  | .array l => l
  | .series l => l

theorem has_frames {s : Source} {v : Option Rat} : Has s.frames v ↔ Has (fields s) v := by
  cases s with
  | array l => rfl
  | series l => exact has_turned

theorem extremes_spec {l : List (Option Rat)} (hn : none ∉ l) (hne : l ≠ []) :
    ∃ lo hi, extremes l = some (lo, hi) ∧ some lo ∈ l ∧ some hi ∈ l ∧ ∀ v, some v ∈ l → lo ≤ v ∧ v ≤ hi := by
  have hm : ∀ v, v ∈ l.filterMap id ↔ some v ∈ l := by intro v; simp
  unfold extremes
  rw [if_neg hn]
  cases h : l.filterMap id with
  | nil =>
    exfalso
    obtain ⟨v, l', rfl⟩ := List.exists_cons_of_ne_nil hne
    cases v with
    | none => exact hn (by simp)
    | some v =>
      have := (hm v).2 (by simp)
      rw [h] at this
      cases this
  | cons a t =>
    obtain ⟨lo, h1⟩ : ∃ lo, Color.minOf (a :: t) = some lo := ⟨_, rfl⟩
    obtain ⟨hi, h2⟩ : ∃ hi, Color.maxOf (a :: t) = some hi := ⟨_, rfl⟩
    rw [h1, h2]
    rw [← h] at h1 h2
    obtain ⟨m1, m2⟩ := Color.minOf_spec h1
    obtain ⟨M1, M2⟩ := Color.maxOf_spec h2
    exact ⟨lo, hi, rfl, (hm lo).1 m1, (hm hi).1 M1, fun v hv => ⟨m2 v ((hm v).2 hv), M2 v ((hm v).2 hv)⟩⟩

theorem video_ok {s : Source} {v : Option Rat} (hv : Has (fields s) v) :
    video s = .ok (s.frames.map fun g => ⟨g.nx, g.ny, fun i j => level (extremes (s.frames.flatMap cells)) (g.get i j)⟩) := by
  unfold video
  rw [if_neg]
  intro h
  have := mem_all.2 (has_frames.2 hv)
  rw [h] at this
  cases this

/-! ### C369 -/

/-- C369: in the video of a series of complete fields, the pixel at the line `r` and the column `c` of a frame is at the point `c` of the x axis and `r` of the y
axis from its end (up on the image); its level is 0 for the lowest of the values of all the fields, 255 for the highest, in proportion between. -/
theorem C369_levels_partial {l : List (Grid (Option Rat))} (hn : ¬ Has l none) {a b : Rat} (ha : Has l (some a)) (hb : Has l (some b)) (hab : a ≠ b) :
    ∃ vid lo hi, video (.series l) = .ok vid ∧ lo < hi ∧ Has l (some lo) ∧ Has l (some hi) ∧ (∀ v, Has l (some v) → lo ≤ v ∧ v ≤ hi) ∧
      vid.length = l.length ∧ ∀ (k : Nat) (g : Grid (Option Rat)), l[k]? = some g → ∃ f, vid[k]? = some f ∧ f.nx = g.ny ∧ f.ny = g.nx ∧
        ∀ i < g.nx, ∀ j < g.ny, ∀ v, g.get i j = some v → f.get (g.ny - 1 - j) i = some ⌊(v - lo) / (hi - lo) * 255⌋ := by
  have hall : ∀ v, v ∈ (Source.series l).frames.flatMap cells ↔ Has l v := fun v => mem_all.trans (has_frames (s := .series l))
  obtain ⟨lo, hi, e, h1, h2, h3⟩ := extremes_spec (l := (Source.series l).frames.flatMap cells) (fun h => hn ((hall _).1 h)) (by
    intro h
    have := (hall _).2 ha
    rw [h] at this
    cases this)
  have hlh : lo < hi := by
    have := h3 a ((hall _).2 ha)
    have := h3 b ((hall _).2 hb)
    rcases lt_or_gt_of_ne hab with h | h <;> linarith
  refine ⟨_, lo, hi, video_ok (s := .series l) ha, hlh, (hall _).1 h1, (hall _).1 h2, fun v hv => h3 v ((hall _).2 hv), by simp [Source.frames], ?_⟩
  intro k g hk
  refine ⟨⟨g.ny, g.nx, fun i j => level (extremes ((Source.series l).frames.flatMap cells)) ((turned g).get i j)⟩, ?_, rfl, rfl, ?_⟩
  · rw [List.getElem?_map]
    simp only [Source.frames]
    rw [List.getElem?_map, hk]
    rfl
  · intro i hi' j hj v hv
    simp only [turned]
    rw [show g.ny - 1 - (g.ny - 1 - j) = j by omega, hv, e]
    unfold level
    simp only
    rw [if_neg hlh.ne']

/-- C369: the levels are from 0 to 255, and follow the order of the values. -/
theorem C369_order {lo hi v w : Rat} (h : lo < hi) (hv : lo ≤ v) (hvw : v ≤ w) (hw : w ≤ hi) :
    0 ≤ ⌊(v - lo) / (hi - lo) * 255⌋ ∧ ⌊(v - lo) / (hi - lo) * 255⌋ ≤ ⌊(w - lo) / (hi - lo) * 255⌋ ∧ ⌊(w - lo) / (hi - lo) * 255⌋ ≤ 255 ∧
      level (some (lo, hi)) (some lo) = some 0 ∧ level (some (lo, hi)) (some hi) = some 255 := by
  have hd : 0 < hi - lo := by linarith
  refine ⟨?_, ?_, ?_, ?_, ?_⟩
  · rw [Int.le_floor]
    push_cast
    exact mul_nonneg (div_nonneg (by linarith) hd.le) (by norm_num)
  · apply Int.floor_le_floor
    exact mul_le_mul_of_nonneg_right (div_le_div_of_nonneg_right (by linarith) hd.le) (by norm_num)
  · have : (w - lo) / (hi - lo) ≤ 1 := by rw [div_le_one hd]; linarith
    have h2 : (w - lo) / (hi - lo) * 255 ≤ ((255 : Int) : Rat) := by push_cast; linarith
    exact (Int.floor_le_floor h2).trans (by rw [Int.floor_intCast])
  · simp [level, h.ne']
  · unfold level
    simp only
    rw [if_neg h.ne', div_self hd.ne']
    norm_num

/-- C369 fails as soon as one point of one field is masked: no pixel of any frame has a level. -/
theorem C369_mask_violated {s : Source} (hn : Has (fields s) none) :
    ∃ vid, video s = .ok vid ∧ vid.length = (fields s).length ∧ ∀ f ∈ vid, ∀ i j, f.get i j = none := by
  refine ⟨_, video_ok hn, ?_, ?_⟩
  · cases s <;> simp [Source.frames, fields]
  · intro f hf i j
    obtain ⟨g, -, rfl⟩ := List.mem_map.1 hf
    have : extremes (s.frames.flatMap cells) = none := by
      unfold extremes
      rw [if_pos (mem_all.2 (has_frames.2 hn))]
    simp only [this]
    rfl

/-- C369 fails for fields that have the same value everywhere: no pixel has a level. -/
theorem C369_uniform_violated {s : Source} {a : Rat} (ha : Has (fields s) (some a)) (hu : ∀ v, Has (fields s) v → v = some a) :
    ∃ vid, video s = .ok vid ∧ ∀ f ∈ vid, ∀ i j, f.get i j = none := by
  have hall : ∀ v, v ∈ s.frames.flatMap cells ↔ Has (fields s) v := fun v => mem_all.trans has_frames
  refine ⟨_, video_ok ha, ?_⟩
  intro f hf i j
  obtain ⟨g, -, rfl⟩ := List.mem_map.1 hf
  obtain ⟨lo, hi, e, h1, h2, -⟩ := extremes_spec (l := s.frames.flatMap cells) (fun h => by cases hu _ ((hall _).1 h)) (by
    intro h
    have := (hall _).2 ha
    rw [h] at this
    cases this)
  have e1 := hu _ ((hall _).1 h1)
  have e2 := hu _ ((hall _).1 h2)
  cases e1
  cases e2
  simp only [e]
  cases hv : g.get i j with
  | none => rfl
  | some v => simp [level]

/-- C369 fails for an array of fields: the frames are not turned, the line of a pixel is the index along x and its column the index along y. -/
theorem C369_array_violated {l : List (Grid (Option Rat))} {v : Option Rat} (hv : Has l v) {k : Nat} {g : Grid (Option Rat)} (hk : l[k]? = some g) :
    ∃ va vs f f', video (.array l) = .ok va ∧ video (.series l) = .ok vs ∧ va[k]? = some f ∧ vs[k]? = some f' ∧ f.nx = g.nx ∧ f.ny = g.ny ∧
      f'.nx = g.ny ∧ f'.ny = g.nx ∧ ∀ i < g.nx, ∀ j < g.ny, f.get i j = f'.get (g.ny - 1 - j) i := by
  have same : extremes ((Source.array l).frames.flatMap cells) = extremes ((Source.series l).frames.flatMap cells) := by
    have hA : ∀ v, v ∈ (Source.array l).frames.flatMap cells ↔ Has l v := fun v => mem_all.trans (has_frames (s := .array l))
    have hS : ∀ v, v ∈ (Source.series l).frames.flatMap cells ↔ Has l v := fun v => mem_all.trans (has_frames (s := .series l))
    by_cases hn : Has l none
    · unfold extremes
      rw [if_pos ((hA _).2 hn), if_pos ((hS _).2 hn)]
    · obtain ⟨lo, hi, e, h1, h2, h3⟩ := extremes_spec (fun h => hn ((hA _).1 h)) (List.ne_nil_of_mem ((hA _).2 hv))
      obtain ⟨lo', hi', e', h1', h2', h3'⟩ := extremes_spec (fun h => hn ((hS _).1 h)) (List.ne_nil_of_mem ((hS _).2 hv))
      rw [e, e']
      have q1 := h3 lo' ((hA _).2 ((hS _).1 h1'))
      have q2 := h3 hi' ((hA _).2 ((hS _).1 h2'))
      have q3 := h3' lo ((hS _).2 ((hA _).1 h1))
      have q4 := h3' hi ((hS _).2 ((hA _).1 h2))
      rw [le_antisymm q1.1 q3.1, le_antisymm q2.2 q4.2]
  refine ⟨_, _, ⟨g.nx, g.ny, fun i j => level (extremes ((Source.array l).frames.flatMap cells)) (g.get i j)⟩,
    ⟨g.ny, g.nx, fun i j => level (extremes ((Source.series l).frames.flatMap cells)) ((turned g).get i j)⟩,
    video_ok (s := .array l) hv, video_ok (s := .series l) hv, ?_, ?_, rfl, rfl, rfl, rfl, ?_⟩
  · rw [List.getElem?_map]
    simp only [Source.frames]
    rw [hk]
    rfl
  · rw [List.getElem?_map]
    simp only [Source.frames]
    rw [List.getElem?_map, hk]
    rfl
  · intro i hi j hj
    simp only [turned]
    rw [show g.ny - 1 - (g.ny - 1 - j) = j by omega, same]

/-- C369: no field, or fields without point, are refused. -/
theorem C369_empty {s : Source} (h : ∀ v, ¬ Has (fields s) v) : video s = .error .valueError := by
  unfold video
  rw [if_pos]
  rw [List.eq_nil_iff_forall_not_mem]
  intro v hv
  exact h v (has_frames.1 (mem_all.1 hv))

/-! ### examples -/

/-- One field of 2 by 3 points, from 0 to 5. -/
def sample : Grid (Option Rat) := ⟨2, 3, fun i j => some ((3 * i + j : Nat) : Rat)⟩

example : (video (.series [sample])).toOption.map (fun l => l.map fun f => (List.range f.nx).map fun r => (List.range f.ny).map (f.get r)) =
    some [[[some 102, some 255], [some 51, some 204], [some 0, some 153]]] := by decide +kernel

example : ¬ Has [sample] none ∧ Has [sample] (some 0) ∧ Has [sample] (some 5) := by
  refine ⟨?_, ⟨sample, by simp, 0, by decide, 0, by decide, by decide +kernel⟩, ⟨sample, by simp, 1, by decide, 2, by decide, by decide +kernel⟩⟩
  rintro ⟨g, hg, i, -, j, -, h⟩
  rw [List.mem_singleton] at hg
  subst hg
  cases h

end IMT.Video
