import Verif.Vortex.Model
import Mathlib.Data.List.Sublists
import Mathlib.Algebra.BigOperators.Group.List.Basic
import Mathlib.Tactic.Abel

/-!
C144, C145: after any history of additions, removals, questions and evolutions, the velocity given by a vortex system is the one of
the vortices, walls and custom fields it has now.
-/

namespace IMT.Vortex

/-! ### specification -/

/-- A vortex seen through a list of walls, one after the other: its position is reflected in each, it turns the other way at each
reflection. -/
def seenIn (ws : List Wall) (v : Vort) : Vort :=
  { v with
    x0 := (ws.foldl (fun q w => w.symmetry q) (v.x0, v.y0)).1
    y0 := (ws.foldl (fun q w => w.symmetry q) (v.x0, v.y0)).2
    rot := v.rot * (-1) ^ ws.length }

/-- The velocity induced by vortices between walls: the sum, over every choice of some of the walls (none of them included) in
order, of the velocities of the vortices seen in these walls. -/
noncomputable def induced (walls : List Wall) (vs : List Vort) (x y : ℝ) : ℝ × ℝ :=
  (walls.sublists.map fun ws => (vs.map fun v => (seenIn ws v).vector x y).sum).sum

/-- What a system contains. -/
structure Content where
  vs : List Vort
  walls : List Wall
  fields : List (ℝ → ℝ → ℝ × ℝ)

/-- The velocity of the content at a point. -/
noncomputable def Content.velocity (c : Content) (x y : ℝ) : ℝ × ℝ :=
  induced c.walls c.vs x y + (c.fields.map fun f => f x y).sum

/-- The vortex without its identifier. -/
def bare (v : Vort) : Vort := { v with id := 0 }

/-- What one operation should do to the content, `fn` being the functions of the custom fields. -/
noncomputable def Content.step (fn : Nat → ℝ → ℝ → ℝ × ℝ) (c : Content) : Op → Content
  | .addVortex v => { c with vs := c.vs ++ [bare v] }
  | .addWall w => { c with walls := c.walls ++ [w] }
  | .addField k => { c with fields := c.fields ++ [fn k] }
  | .remove i =>
    if 0 ≤ i then { c with vs := c.vs.eraseIdx i.toNat }
    else if -(c.vs.length : Int) ≤ i then { c with vs := c.vs.eraseIdx (c.vs.length + i).toNat } else c
  | .ask _ _ _ _ => c
  | .evolve dt =>
    if 0 < dt then
      { c with vs := c.vs.map fun v => if v.movable then
          { v with x0 := v.x0 + dt * (c.velocity v.x0 v.y0).1, y0 := v.y0 + dt * (c.velocity v.x0 v.y0).2 } else v }
    else c

/-- No removal counts further back than the first vortex. -/
def Counted (fn : Nat → ℝ → ℝ → ℝ × ℝ) : Content → List Op → Prop
  | _, [] => True
  | c, op :: ops =>
    (match op with
      | .remove i => -(c.vs.length : Int) ≤ i
      | _ => True) ∧ Counted fn (c.step fn op) ops

/-! ### images -/

theorem images_concat (ws : List Wall) (w : Wall) (vs : List Vort) :
    images (ws ++ [w]) vs = images ws vs ++ (images ws vs).map (mirror w) ++ vs.map (mirror w) := by
  simp [images, List.foldl_append]

/-- A vortex reflected by each wall in turn. -/
def through (ws : List Wall) (v : Vort) : Vort := ws.foldl (fun v w => mirror w v) v

theorem through_concat (ws : List Wall) (w : Wall) (v : Vort) : through (ws ++ [w]) v = mirror w (through ws v) := by
  simp [through, List.foldl_append]

theorem vector_congr {v w : Vort} (hk : v.kind = w.kind) (hx : v.x0 = w.x0) (hy : v.y0 = w.y0) (hr : v.rot = w.rot) (x y : ℝ) :
    v.vector x y = w.vector x y := by
  unfold Vort.vector; rw [hk, hx, hy, hr]

theorem through_seen (ws : List Wall) (v : Vort) :
    (through ws v).kind = (seenIn ws v).kind ∧ (through ws v).x0 = (seenIn ws v).x0 ∧
      (through ws v).y0 = (seenIn ws v).y0 ∧ (through ws v).rot = (seenIn ws v).rot := by
  induction ws using List.reverseRecOn with
  | nil => simp [through, seenIn]
  | append_singleton ws w ih =>
    obtain ⟨hk, hx, hy, hr⟩ := ih
    rw [through_concat]
    refine ⟨?_, ?_, ?_, ?_⟩
    · simpa [mirror, seenIn] using hk
    · simp only [mirror, hx, hy, seenIn, List.foldl_append, List.foldl_cons, List.foldl_nil]
    · simp only [mirror, hx, hy, seenIn, List.foldl_append, List.foldl_cons, List.foldl_nil]
    · simp only [mirror, hr, seenIn, List.length_append, List.length_singleton, pow_succ]; ring

/-- All vortices, real and imaginary, are the real ones through each choice of walls. -/
theorem images_perm (walls : List Wall) (vs : List Vort) :
    (vs ++ images walls vs).Perm (walls.sublists.flatMap fun ws => vs.map (through ws)) := by
  induction walls using List.reverseRecOn with
  | nil =>
    have : through [] = id := by funext v; rfl
    simp [images, this]
  | append_singleton ws w ih =>
    rw [images_concat, List.sublists_concat, List.flatMap_append, List.flatMap_map]
    have e : (ws.sublists.flatMap fun l => vs.map (through (l ++ [w]))) =
        (ws.sublists.flatMap fun l => vs.map (through l)).map (mirror w) := by
      rw [List.map_flatMap]
      congr 1
      funext l
      rw [List.map_map]
      congr 1
      funext v
      exact through_concat l w v
    rw [e]
    have h2 := ih.append (ih.map (mirror w))
    refine List.Perm.trans ?_ h2
    rw [List.map_append, List.append_assoc, List.append_assoc]
    refine List.Perm.append_left _ (List.Perm.append_left _ ?_)
    exact List.perm_append_comm

theorem sum_flatMap {α : Type} (l : List α) (f : α → List (ℝ × ℝ)) : (l.flatMap f).sum = (l.map fun a => (f a).sum).sum := by
  induction l with
  | nil => rfl
  | cons a l ih => rw [List.flatMap_cons, List.sum_append, ih, List.map_cons, List.sum_cons]

theorem total_append (a b : List Vort) (x y : ℝ) : total (a ++ b) x y = total a x y + total b x y := by
  simp [total]

theorem total_induced (walls : List Wall) (vs : List Vort) (x y : ℝ) :
    total vs x y + total (images walls vs) x y = induced walls vs x y := by
  rw [← total_append]
  unfold total
  rw [List.Perm.sum_eq ((images_perm walls vs).map fun v => v.vector x y), List.map_flatMap, sum_flatMap]
  unfold induced
  congr 1
  apply List.map_congr_left
  intro ws _
  rw [List.map_map]
  congr 1
  apply List.map_congr_left
  intro v _
  obtain ⟨hk, hx, hy, hr⟩ := through_seen ws v
  exact vector_congr hk hx hy hr x y

/-! ### identifiers -/

theorem mirror_id (w : Wall) (v : Vort) : (mirror w v).id = v.id := rfl

theorem dropId_append (k : Nat) (a b : List Vort) : dropId k (a ++ b) = dropId k a ++ dropId k b := by
  simp [dropId, List.filter_append]

theorem dropId_mirror (k : Nat) (w : Wall) (l : List Vort) : dropId k (l.map (mirror w)) = (dropId k l).map (mirror w) := by
  unfold dropId
  rw [List.filter_map, List.map_map, List.map_map]
  congr 1
  funext v
  show (if v.id > k then _ else _) = mirror w (if v.id > k then _ else _)
  split_ifs <;> rfl

theorem images_dropId (k : Nat) (walls : List Wall) (vs : List Vort) : images walls (dropId k vs) = dropId k (images walls vs) := by
  induction walls using List.reverseRecOn with
  | nil => rfl
  | append_singleton ws w ih => rw [images_concat, images_concat, ih, dropId_append, dropId_append, dropId_mirror, dropId_mirror]

theorem images_filter (p : Nat → Bool) (walls : List Wall) (vs : List Vort) :
    images walls (vs.filter fun v => p v.id) = (images walls vs).filter fun v => p v.id := by
  induction walls using List.reverseRecOn with
  | nil => rfl
  | append_singleton ws w ih =>
    rw [images_concat, images_concat, ih, List.filter_append, List.filter_append, List.filter_map, List.filter_map]
    rfl

theorem images_bare (walls : List Wall) (vs : List Vort) : (images walls vs).map bare = images walls (vs.map bare) := by
  induction walls using List.reverseRecOn with
  | nil => rfl
  | append_singleton ws w ih =>
    rw [images_concat, images_concat, ← ih, List.map_append, List.map_append]
    simp only [List.map_map]
    rfl

theorem total_bare (vs : List Vort) (x y : ℝ) : total (vs.map bare) x y = total vs x y := by
  unfold total
  rw [List.map_map]
  rfl

theorem induced_bare (walls : List Wall) (vs : List Vort) (x y : ℝ) : induced walls (vs.map bare) x y = induced walls vs x y := by
  rw [← total_induced, ← total_induced, total_bare, ← images_bare, total_bare]

/-- The identifiers are the positions. -/
def Numbered (a : Nat) (l : List Vort) : Prop := l.map (fun v => v.id) = List.range' a l.length

theorem Numbered.cons {a : Nat} {v : Vort} {l : List Vort} : Numbered a (v :: l) ↔ v.id = a ∧ Numbered (a + 1) l := by
  unfold Numbered
  rw [List.length_cons, List.range'_succ, List.map_cons, List.cons.injEq]

theorem Numbered.mem {a : Nat} {l : List Vort} (h : Numbered a l) {v : Vort} (hv : v ∈ l) : a ≤ v.id ∧ v.id < a + l.length := by
  have : v.id ∈ l.map (fun v => v.id) := List.mem_map_of_mem hv
  rw [h, List.mem_range'_1] at this
  exact this

theorem Numbered.append {a : Nat} {l : List Vort} (h : Numbered a l) (v : Vort) (hv : v.id = a + l.length) :
    Numbered a (l ++ [v]) := by
  unfold Numbered at *
  rw [List.map_append, h, List.length_append, List.length_singleton, List.range'_concat, List.map_singleton, hv]
  simp

theorem Numbered.getElem {a n : Nat} {l : List Vort} (h : Numbered a l) {v : Vort} (hv : l[n]? = some v) : v.id = a + n := by
  have : (l.map (fun v => v.id))[n]? = some v.id := by rw [List.getElem?_map, hv]; rfl
  rw [h] at this
  obtain ⟨hn, e⟩ := List.getElem?_eq_some_iff.mp this
  rw [← e, List.getElem_range']
  omega

theorem dropId_lt {a k : Nat} {l : List Vort} (h : Numbered a l) (hk : k < a) :
    Numbered (a - 1) (dropId k l) ∧ (dropId k l).map bare = l.map bare := by
  induction l generalizing a with
  | nil => exact ⟨rfl, rfl⟩
  | cons v l ih =>
    obtain ⟨hv, hl⟩ := Numbered.cons.mp h
    obtain ⟨i1, i2⟩ := ih hl (by omega)
    have e : dropId k (v :: l) = { v with id := v.id - 1 } :: dropId k l := by
      have hne : ¬ v.id = k := by omega
      have hgt : v.id > k := by omega
      unfold dropId
      rw [List.filter_cons, if_pos (by simpa using hne), List.map_cons, if_pos hgt]
    rw [e]
    refine ⟨Numbered.cons.mpr ⟨by simp [hv], ?_⟩, ?_⟩
    · rw [show a - 1 + 1 = a + 1 - 1 by omega]; exact i1
    · simp only [List.map_cons, i2]; rfl

theorem dropId_numbered {a k : Nat} {l : List Vort} (h : Numbered a l) (hk : a ≤ k) (hk' : k < a + l.length) :
    Numbered a (dropId k l) ∧ (dropId k l).map bare = (l.map bare).eraseIdx (k - a) := by
  induction l generalizing a with
  | nil => simp at hk'; omega
  | cons v l ih =>
    obtain ⟨hv, hl⟩ := Numbered.cons.mp h
    by_cases e : k = a
    · subst e
      have e : dropId k (v :: l) = dropId k l := by simp [dropId, List.filter_cons, hv]
      obtain ⟨i1, i2⟩ := dropId_lt (k := k) hl (by omega)
      rw [e]
      refine ⟨by simpa using i1, ?_⟩
      rw [i2]; simp
    · obtain ⟨i1, i2⟩ := ih hl (by omega) (by simp at hk'; omega)
      have e2 : dropId k (v :: l) = v :: dropId k l := by
        have hne : ¬ v.id = k := by omega
        have hgt : ¬ v.id > k := by omega
        unfold dropId
        rw [List.filter_cons, if_pos (by simpa using hne), List.map_cons, if_neg hgt]
      rw [e2]
      refine ⟨Numbered.cons.mpr ⟨hv, i1⟩, ?_⟩
      obtain ⟨j, hj⟩ : ∃ j, k - a = j + 1 := ⟨k - a - 1, by omega⟩
      rw [List.map_cons, i2, List.map_cons, hj, List.eraseIdx_cons_succ, show k - (a + 1) = j by omega]

/-! ### the invariant -/

/-- The state of a system whose content is `c`. -/
structure Holds (h : Heap) (s : Sys) (c : Content) : Prop where
  numbered : Numbered 0 s.vortex
  count : s.currId = s.vortex.length
  images : s.refresh = false → s.im = images s.walls s.vortex
  vs : c.vs = s.vortex.map bare
  walls : c.walls = s.walls
  fields : c.fields = s.cfs.map h.fn
  cfs : ∀ k ∈ s.cfs, h.id k < s.currCf

theorem holds_new (h : Heap) : Holds h Sys.new ⟨[], [], []⟩ :=
  ⟨rfl, rfl, fun _ => rfl, rfl, rfl, rfl, fun _ hk => by simp [Sys.new] at hk⟩

theorem current_im {h : Heap} {s : Sys} {c : Content} (H : Holds h s c) : s.current.im = images s.walls s.vortex := by
  unfold Sys.current
  split
  · rfl
  · rename_i hr; exact H.images (by simpa using hr)

theorem current_vortex (s : Sys) : s.current.vortex = s.vortex := by unfold Sys.current; split <;> rfl

theorem images_mem_id {walls : List Wall} {vs : List Vort} {v : Vort} (hv : v ∈ images walls vs) : ∃ u ∈ vs, u.id = v.id := by
  induction walls using List.reverseRecOn generalizing v with
  | nil => simp [images] at hv
  | append_singleton ws w ih =>
    rw [images_concat] at hv
    rcases List.mem_append.mp hv with hv | hv
    · rcases List.mem_append.mp hv with hv | hv
      · exact ih hv
      · obtain ⟨u, hu, rfl⟩ := List.mem_map.mp hv
        obtain ⟨t, ht, e⟩ := ih hu
        exact ⟨t, ht, e⟩
    · obtain ⟨u, hu, rfl⟩ := List.mem_map.mp hv
      exact ⟨u, hu, rfl⟩

theorem vector_all {h : Heap} {s : Sys} {c : Content} (H : Holds h s c) (x y : ℝ) :
    (s.vector h x y .all .all).2 = c.velocity x y := by
  have h1 : (s.current.vortex.filter fun v => Sel.all.has s.currId v.id) = s.vortex := by
    rw [current_vortex]
    apply List.filter_eq_self.mpr
    intro v hv
    have := (H.numbered.mem hv).2
    simp only [Sel.has, decide_eq_true_eq, H.count]
    omega
  have h2 : (s.current.im.filter fun v => Sel.all.has s.currId v.id) = images s.walls s.vortex := by
    rw [current_im H]
    apply List.filter_eq_self.mpr
    intro v hv
    obtain ⟨u, hu, e⟩ := images_mem_id hv
    have := (H.numbered.mem hu).2
    simp only [Sel.has, decide_eq_true_eq, H.count]
    omega
  have h3 : (s.cfs.filter fun k => Sel.all.has s.currCf (h.id k)) = s.cfs := by
    apply List.filter_eq_self.mpr
    intro k hk
    simp only [Sel.has, decide_eq_true_eq]
    exact H.cfs k hk
  unfold Sys.vector
  simp only [h1, h2, h3]
  rw [total_induced]
  unfold Content.velocity
  rw [H.vs, H.walls, H.fields, induced_bare, List.map_map]
  rfl

theorem pyIndex_eq {n : Nat} {i : Int} (h : -(n : Int) ≤ i) :
    pyIndex n i = if 0 ≤ i then (if i < n then some i.toNat else none) else some (n + i).toNat := by
  unfold pyIndex
  by_cases hi : i < 0
  · have h0 : ¬ 0 ≤ i := by omega
    have h1 : (0 : Int) ≤ n + i := by omega
    have h2 : (n : Int) + i < n := by omega
    simp only [hi, h0, if_true, if_false]
    rw [if_pos h1, if_pos h2]
  · have h0 : 0 ≤ i := by omega
    simp [hi, h0]

theorem holds_drop {h : Heap} {s : Sys} {c : Content} (H : Holds h s c) {n : Nat} (hn : n < s.vortex.length) :
    Holds h { s with vortex := dropId n s.vortex, im := dropId n s.im, currId := s.currId - 1 }
      { c with vs := c.vs.eraseIdx n } := by
  obtain ⟨i1, i2⟩ := dropId_numbered (k := n) H.numbered (Nat.zero_le _) (by omega)
  have hl : (dropId n s.vortex).length = s.vortex.length - 1 := by
    have e := congrArg List.length i2
    simp only [List.length_map, Nat.sub_zero, List.length_eraseIdx] at e
    rw [e, if_pos hn]
  refine ⟨i1, ?_, ?_, ?_, H.walls, H.fields, H.cfs⟩
  · show s.currId - 1 = (dropId n s.vortex).length
    rw [hl, H.count]
  · intro hr
    show dropId n s.im = images s.walls (dropId n s.vortex)
    rw [H.images hr, images_dropId]
  · show c.vs.eraseIdx n = (dropId n s.vortex).map bare
    rw [i2, H.vs, Nat.sub_zero]

theorem holds_step {h : Heap} {s : Sys} {c : Content} (H : Holds h s c) (op : Op)
    (hop : match op with
      | .remove i => -(c.vs.length : Int) ≤ i
      | _ => True) :
    Holds (step (h, s) op).1 (step (h, s) op).2 (c.step h.fn op) ∧ (step (h, s) op).1.fn = h.fn := by
  have hlen : c.vs.length = s.vortex.length := by rw [H.vs, List.length_map]
  cases op with
  | addVortex v =>
    refine ⟨⟨?_, ?_, ?_, ?_, H.walls, H.fields, H.cfs⟩, rfl⟩
    · exact H.numbered.append _ (by simp [H.count])
    · simp [step, Sys.addVortex, H.count]
    · intro hr; simp [step, Sys.addVortex] at hr
    · simp [step, Sys.addVortex, Content.step, H.vs, bare]
  | addWall w =>
    refine ⟨⟨H.numbered, H.count, ?_, H.vs, ?_, H.fields, H.cfs⟩, rfl⟩
    · intro hr; simp [step, Sys.addWall] at hr
    · simp [step, Sys.addWall, Content.step, H.walls]
  | addField k =>
    refine ⟨⟨H.numbered, H.count, H.images, H.vs, H.walls, ?_, ?_⟩, rfl⟩
    · simp [step, addField, Content.step, H.fields]
    · intro j hj
      simp only [step, addField, List.mem_append, List.mem_singleton] at hj ⊢
      by_cases e : j = k
      · simp [e]
      · rw [if_neg e]
        rcases hj with hj | hj
        · exact Nat.lt_succ_of_lt (H.cfs j hj)
        · exact absurd hj e
  | remove i =>
    simp only at hop
    rw [hlen] at hop
    have hp := pyIndex_eq hop
    by_cases h0 : 0 ≤ i
    · rw [if_pos h0] at hp
      by_cases h1 : i < s.vortex.length
      · rw [if_pos h1] at hp
        have hn : i.toNat < s.vortex.length := by omega
        have hg : s.vortex[i.toNat]? = some (s.vortex[i.toNat]'hn) := List.getElem?_eq_getElem hn
        have hid : (s.vortex[i.toNat]'hn).id = i.toNat := by rw [H.numbered.getElem hg]; omega
        have e : s.remove i = .ok { s with vortex := dropId i.toNat s.vortex, im := dropId i.toNat s.im, currId := s.currId - 1 } := by
          unfold Sys.remove
          rw [hp]
          simp only [hg, hid]
        simp only [step, e, Content.step, if_pos h0]
        exact ⟨holds_drop H hn, trivial⟩
      · rw [if_neg h1] at hp
        have e : s.remove i = .error .indexError := by unfold Sys.remove; rw [hp]
        have e2 : c.vs.eraseIdx i.toNat = c.vs := List.eraseIdx_of_length_le (by omega)
        simp only [step, e, Content.step, if_pos h0, e2]
        exact ⟨H, trivial⟩
    · rw [if_neg h0] at hp
      have hn : (s.vortex.length + i).toNat < s.vortex.length := by omega
      have hg : s.vortex[(s.vortex.length + i).toNat]? = some (s.vortex[(s.vortex.length + i).toNat]'hn) := List.getElem?_eq_getElem hn
      have hid : (s.vortex[(s.vortex.length + i).toNat]'hn).id = (s.vortex.length + i).toNat := by
        rw [H.numbered.getElem hg]; omega
      have e : s.remove i = .ok { s with vortex := (dropId (s.vortex.length + i).toNat s.vortex), im := (dropId (s.vortex.length + i).toNat s.im), currId := s.currId - 1 } := by
        unfold Sys.remove
        rw [hp]
        simp only [hg, hid]
      simp only [step, e, Content.step, if_neg h0, hlen, if_pos hop]
      exact ⟨holds_drop H hn, trivial⟩
  | ask x y vsel csel =>
    refine ⟨?_, rfl⟩
    have e : (step (h, s) (.ask x y vsel csel)).2 = s.current := rfl
    rw [e]
    show Holds h s.current c
    by_cases hr : s.refresh = true
    · have e : s.current = s.refreshed := by unfold Sys.current; rw [if_pos hr]
      rw [e]
      exact ⟨H.numbered, H.count, fun _ => rfl, H.vs, H.walls, H.fields, H.cfs⟩
    · have e : s.current = s := by unfold Sys.current; rw [if_neg hr]
      rw [e]; exact H
  | evolve dt =>
    by_cases hd : dt ≤ 0
    · have e : s.evolution h dt = .error .valueError := by unfold Sys.evolution; rw [if_pos hd]
      simp only [step, e, Content.step, if_neg (not_lt.mpr hd)]
      exact ⟨H, trivial⟩
    · have e : s.evolution h dt = .ok (Sys.refreshed { s with vortex := s.vortex.map (moved h s dt) }) := by
        unfold Sys.evolution; rw [if_neg hd]
      simp only [step, e, Content.step, if_pos (not_le.mp hd)]
      refine ⟨⟨?_, ?_, fun _ => rfl, ?_, H.walls, H.fields, H.cfs⟩, trivial⟩
      · show Numbered 0 (s.vortex.map (moved h s dt))
        unfold Numbered
        rw [List.map_map, List.length_map, ← H.numbered]
        congr 1
        funext v
        simp only [Function.comp, moved]
        split <;> rfl
      · show s.currId = (s.vortex.map (moved h s dt)).length
        rw [List.length_map, H.count]
      · show _ = (s.vortex.map (moved h s dt)).map bare
        rw [H.vs, List.map_map, List.map_map]
        apply List.map_congr_left
        intro v _
        simp only [Function.comp, moved, vector_all H]
        by_cases hm : v.movable = true
        · have hb : (bare v).movable = true := hm
          rw [if_pos hm, if_pos hb]
          rfl
        · have hb : ¬ (bare v).movable = true := hm
          rw [if_neg hm, if_neg hb]

theorem holds_run (fn : Nat → ℝ → ℝ → ℝ × ℝ) (ops : List Op) :
    ∀ {h : Heap} {s : Sys} {c : Content}, h.fn = fn → Holds h s c → Counted fn c ops →
      Holds (ops.foldl step (h, s)).1 (ops.foldl step (h, s)).2 (ops.foldl (Content.step fn) c) := by
  induction ops with
  | nil => intro h s c _ H _; exact H
  | cons op ops ih =>
    intro h s c hf H hc
    obtain ⟨h1, h2⟩ := hc
    have hs := holds_step H op h1
    rw [List.foldl_cons, List.foldl_cons, ← hf]
    have := ih (h := (step (h, s) op).1) (s := (step (h, s) op).2) (c := c.step h.fn op) (hs.2.trans hf) hs.1 (by rw [hf]; exact h2)
    rw [hf] at this ⊢
    exact this

/-! ### C144 -/

/-- After any history on a new system, the velocity at any point is the one of its present content: the vortices added and not
removed, where the evolutions have put them, seen in the walls added so far, and the custom fields. -/
theorem C144_history_partial (h : Heap) (ops : List Op) (hc : Counted h.fn ⟨[], [], []⟩ ops) (x y : ℝ) :
    ((ops.foldl step (h, Sys.new)).2.vector (ops.foldl step (h, Sys.new)).1 x y .all .all).2 =
      (ops.foldl (Content.step h.fn) ⟨[], [], []⟩).velocity x y := vector_all (holds_run h.fn ops rfl (holds_new h) hc) x y

/-- The field made on a grid shows at each point the velocity given for this point. -/
theorem C144_field (h : Heap) (ops : List Op) (hc : Counted h.fn ⟨[], [], []⟩ ops) (x y : ℝ) :
    (ops.foldl step (h, Sys.new)).2.fieldAt (ops.foldl step (h, Sys.new)).1 x y =
      ((ops.foldl step (h, Sys.new)).2.vector (ops.foldl step (h, Sys.new)).1 x y .all .all).2 := by
  have H := holds_run h.fn ops rfl (holds_new h) hc
  rw [vector_all H]
  unfold Sys.fieldAt Content.velocity
  rw [current_vortex, current_im H, total_induced, H.vs, H.walls, H.fields, induced_bare, List.map_map]
  rfl

/-- The number of vortices, their order and the positions of the fixed ones: the content of a history without removal is the list of
the added vortices, those which are not movable being where they were added. -/
theorem C144_kept (fn : Nat → ℝ → ℝ → ℝ × ℝ) (ops : List Op) (hr : ∀ i, Op.remove i ∉ ops) :
    List.Forall₂ (fun (a b : Vort) => a.kind = b.kind ∧ a.rot = b.rot ∧ a.movable = b.movable ∧
        (a.movable = false → a.x0 = b.x0 ∧ a.y0 = b.y0))
      (ops.foldl (Content.step fn) ⟨[], [], []⟩).vs
      (ops.filterMap fun op => match op with
        | .addVortex v => some v
        | _ => none) := by
  suffices ∀ (c : Content) (l : List Vort),
      List.Forall₂ (fun (a b : Vort) => a.kind = b.kind ∧ a.rot = b.rot ∧ a.movable = b.movable ∧
        (a.movable = false → a.x0 = b.x0 ∧ a.y0 = b.y0)) c.vs l →
      List.Forall₂ (fun (a b : Vort) => a.kind = b.kind ∧ a.rot = b.rot ∧ a.movable = b.movable ∧
        (a.movable = false → a.x0 = b.x0 ∧ a.y0 = b.y0))
        (ops.foldl (Content.step fn) c).vs (l ++ ops.filterMap fun op => match op with
        | .addVortex v => some v
        | _ => none) by
    simpa using this ⟨[], [], []⟩ [] List.Forall₂.nil
  induction ops with
  | nil => intro c l h; simpa using h
  | cons op ops ih =>
    intro c l h
    have ih' := ih (fun i hi => hr i (List.mem_cons_of_mem _ hi))
    rw [List.foldl_cons]
    cases op with
    | addVortex v =>
      have := ih' (c.step fn (.addVortex v)) (l ++ [v]) (by
        refine List.rel_append h ?_
        exact List.Forall₂.cons ⟨rfl, rfl, rfl, fun _ => ⟨rfl, rfl⟩⟩ List.Forall₂.nil)
      simpa using this
    | addWall w => simpa using ih' (c.step fn (.addWall w)) l h
    | addField k => simpa using ih' (c.step fn (.addField k)) l h
    | remove i => exact absurd (List.mem_cons_self) (hr i)
    | ask x y a b => simpa using ih' (c.step fn (.ask x y a b)) l h
    | evolve dt =>
      suffices hs : List.Forall₂ _ (c.step fn (.evolve dt)).vs l by simpa using ih' (c.step fn (.evolve dt)) l hs
      unfold Content.step
      simp only
      split
      · rw [List.forall₂_map_left_iff]
        refine List.Forall₂.imp ?_ h
        rintro a b ⟨h1, h2, h3, h4⟩
        split
        · rename_i hm
          exact ⟨h1, h2, h3, fun hf => by simp [hm] at hf⟩
        · exact ⟨h1, h2, h3, h4⟩
      · exact h

/-- Removing with an index before the first vortex, down to twice the number of vortices, removes a vortex instead of raising. -/
theorem C144_index_violated (s : Sys) (i : Int) (h1 : i < -(s.vortex.length : Int)) (h2 : -(2 * s.vortex.length : Int) ≤ i)
    (hn : Numbered 0 s.vortex) :
    ∃ s', s.remove i = .ok s' ∧ s'.vortex.map bare = (s.vortex.map bare).eraseIdx (2 * s.vortex.length + i).toNat ∧
      s'.vortex.length + 1 = s.vortex.length := by
  set n := s.vortex.length with hlen
  have hp : pyIndex n i = some (2 * n + i).toNat := by
    unfold pyIndex
    have a1 : i < 0 := by omega
    have a2 : ¬ (0 : Int) ≤ n + i := by omega
    have a3 : (0 : Int) ≤ n + (n + i) := by omega
    simp only [a1, if_true]
    rw [if_neg a2, if_pos a3]
    congr 2
    ring
  have hk : (2 * n + i).toNat < s.vortex.length := by omega
  have hg : s.vortex[(2 * n + i).toNat]? = some (s.vortex[(2 * n + i).toNat]'hk) := List.getElem?_eq_getElem hk
  have hid : (s.vortex[(2 * n + i).toNat]'hk).id = (2 * n + i).toNat := by rw [hn.getElem hg]; omega
  have e : s.remove i = .ok { s with vortex := (dropId (2 * n + i).toNat s.vortex), im := (dropId (2 * n + i).toNat s.im), currId := s.currId - 1 } := by
    unfold Sys.remove
    rw [← hlen, hp]
    simp only [hg, hid]
  obtain ⟨_, i2⟩ := dropId_numbered (k := (2 * n + i).toNat) hn (Nat.zero_le _) (by omega)
  refine ⟨_, e, by rw [i2, Nat.sub_zero], ?_⟩
  have e2 := congrArg List.length i2
  simp only [List.length_map, Nat.sub_zero, List.length_eraseIdx, if_pos hk] at e2
  show (dropId (2 * n + i).toNat s.vortex).length + 1 = n
  omega

/-- The attribute `nmb_vortex` is not lowered by a removal. -/
theorem C144_count_violated (s : Sys) (i : Int) (s' : Sys) (h : s.remove i = .ok s') : s'.nmb = s.nmb := by
  unfold Sys.remove at h
  split at h
  · exact absurd h (by simp)
  · split at h
    · exact absurd h (by simp)
    · injection h with h
      rw [← h]

/-- A custom field added to one system, then to another one already holding as many fields as the first has ever had, is no longer
in the velocities of the first one, although it still is in the fields made from it. -/
theorem C144_shared_field_violated (h : Heap) (k : Nat) (t : Sys) (ht : 1 ≤ t.currCf) (x y : ℝ) :
    let a := addField h Sys.new k
    let b := addField a.1 t k
    (a.2.vector a.1 x y .all .all).2 = h.fn k x y ∧
    (a.2.vector b.1 x y .all .all).2 = (0, 0) ∧
    a.2.fieldAt b.1 x y = h.fn k x y := by
  refine ⟨?_, ?_, ?_⟩
  · simp [addField, Sys.new, Sys.vector, Sys.current, Sel.has, total]
  · have : ¬ t.currCf = 0 := by omega
    simp [addField, Sys.new, Sys.vector, Sys.current, Sel.has, total, this]
    rfl
  · simp [addField, Sys.new, Sys.fieldAt, Sys.current, total]

/-! ### C145 -/

theorem filter_numbered {a k : Nat} {l : List Vort} (h : Numbered a l) (hk : a ≤ k) (v : Vort) (hv : l[k - a]? = some v) :
    (l.filter fun u => decide (u.id = k)) = [v] := by
  induction l generalizing a with
  | nil => simp at hv
  | cons u l ih =>
    obtain ⟨hu, hl⟩ := Numbered.cons.mp h
    by_cases e : k = a
    · subst e
      simp only [Nat.sub_self, List.getElem?_cons_zero, Option.some.injEq] at hv
      rw [List.filter_cons, if_pos (by simp [hu]), hv]
      congr 1
      apply List.filter_eq_nil_iff.mpr
      intro t ht
      have := (hl.mem ht).1
      simp; omega
    · rw [List.filter_cons, if_neg (by simp [hu]; omega)]
      obtain ⟨j, hj⟩ : ∃ j, k - a = j + 1 := ⟨k - a - 1, by omega⟩
      rw [hj, List.getElem?_cons_succ] at hv
      exact ih hl (by omega) (by rw [show k - (a + 1) = j by omega]; exact hv)

/-- Asked for one vortex, a system gives the velocity induced by this vortex and its images alone. -/
theorem C145_one (h : Heap) (ops : List Op) (hc : Counted h.fn ⟨[], [], []⟩ ops) (k : Nat) (v : Vort)
    (hv : (ops.foldl (Content.step h.fn) ⟨[], [], []⟩).vs[k]? = some v) (x y : ℝ) :
    ((ops.foldl step (h, Sys.new)).2.vector (ops.foldl step (h, Sys.new)).1 x y (.ids [k]) .none).2 =
      induced (ops.foldl (Content.step h.fn) ⟨[], [], []⟩).walls [v] x y := by
  have H := holds_run h.fn ops rfl (holds_new h) hc
  set s := (ops.foldl step (h, Sys.new)).2
  set g := (ops.foldl step (h, Sys.new)).1
  set c := ops.foldl (Content.step h.fn) ⟨[], [], []⟩
  rw [H.vs, List.getElem?_map] at hv
  obtain ⟨u, hu, rfl⟩ := Option.map_eq_some_iff.mp hv
  have hf : (s.vortex.filter fun v => (Sel.ids [k]).has s.currId v.id) = [u] := by
    have e : (fun v : Vort => (Sel.ids [k]).has s.currId v.id) = fun v => decide (v.id = k) := by
      funext v; simp [Sel.has]
    rw [e]
    exact filter_numbered H.numbered (Nat.zero_le _) u (by simpa using hu)
  have hi : (images s.walls s.vortex).filter (fun v => (Sel.ids [k]).has s.currId v.id) = images s.walls [u] := by
    rw [← images_filter (fun i => (Sel.ids [k]).has s.currId i), hf]
  have hcf : (s.cfs.filter fun c => Sel.none.has s.currCf (g.id c)) = [] := by simp [Sel.has]
  unfold Sys.vector
  simp only [current_vortex, current_im H, hf, hi, hcf]
  rw [total_induced, H.walls]
  simp only [List.map_nil, List.sum_nil, add_zero]
  rw [← induced_bare]
  rfl

theorem induced_cons (walls : List Wall) (v : Vort) (vs : List Vort) (x y : ℝ) :
    induced walls (v :: vs) x y = induced walls [v] x y + induced walls vs x y := by
  unfold induced
  simp only [List.map_cons, List.sum_cons, List.map_nil, List.sum_nil, add_zero]
  rw [List.sum_map_add]

theorem induced_sum (walls : List Wall) (vs : List Vort) (x y : ℝ) :
    (vs.map fun v => induced walls [v] x y).sum = induced walls vs x y := by
  induction vs with
  | nil => simp [induced]
  | cons v vs ih => rw [List.map_cons, List.sum_cons, ih, ← induced_cons]

/-- The vectors of `get_compounded_vector` of a system without custom fields add up to its velocity. -/
theorem C145_sum (h : Heap) (ops : List Op) (hc : Counted h.fn ⟨[], [], []⟩ ops) (hf : ∀ k, Op.addField k ∉ ops) (x y : ℝ) :
    ((ops.foldl step (h, Sys.new)).2.compounded (ops.foldl step (h, Sys.new)).1 x y false).1.sum =
      ((ops.foldl step (h, Sys.new)).2.vector (ops.foldl step (h, Sys.new)).1 x y .all .all).2 := by
  have H := holds_run h.fn ops rfl (holds_new h) hc
  have h1 := C144_history_partial h ops hc x y
  have h2 := fun k v hv => C145_one h ops hc k v hv x y
  have hfields : (ops.foldl (Content.step h.fn) ⟨[], [], []⟩).fields = [] := by
    suffices ∀ c : Content, c.fields = [] → (ops.foldl (Content.step h.fn) c).fields = [] from this _ rfl
    clear hc H h1 h2
    induction ops with
    | nil => intro c e; exact e
    | cons op ops ih =>
      intro c e
      rw [List.foldl_cons]
      refine ih (fun k hk => hf k (List.mem_cons_of_mem _ hk)) _ ?_
      cases op with
      | addField k => exact absurd List.mem_cons_self (hf k)
      | addVortex v => exact e
      | addWall v => exact e
      | ask _ _ _ _ => exact e
      | remove i => simp only [Content.step]; split_ifs <;> exact e
      | evolve dt => simp only [Content.step]; split_ifs <;> exact e
  rw [h1]
  generalize ops.foldl (Content.step h.fn) ⟨[], [], []⟩ = c at *
  generalize (ops.foldl step (h, Sys.new)).2 = s at *
  generalize (ops.foldl step (h, Sys.new)).1 = g at *
  unfold Content.velocity
  rw [hfields, List.map_nil, List.sum_nil, add_zero, ← induced_sum]
  show ((List.range s.currId).map fun i => (s.vector g x y (.ids [i]) .none).2).sum = _
  have hlen : s.currId = c.vs.length := by rw [H.count, H.vs, List.length_map]
  congr 1
  apply List.ext_getElem
  · simp [hlen]
  · intro n hn1 hn2
    rw [List.getElem_map, List.getElem_map, List.getElem_range]
    exact h2 n _ (List.getElem?_eq_getElem _)

/-- The detailed vectors asked before anything else leave out the images: those of a vortex and a wall just added. -/
theorem C145_detailed_violated (h : Heap) (v : Vort) (w : Wall) (x y : ℝ) :
    let s := (Sys.new.addVortex v).addWall w
    (s.compounded h x y true).1 = [v.vector x y] ∧
    (s.vector h x y .all .all).2 = v.vector x y + (mirror w v).vector x y ∧
    ((s.vector h x y .all .all).1.compounded h x y true).1 = [v.vector x y, (mirror w v).vector x y] := by
  refine ⟨?_, ?_, ?_⟩
  · simp [Sys.new, Sys.addVortex, Sys.addWall, Sys.compounded]; rfl
  · simp [Sys.new, Sys.addVortex, Sys.addWall, Sys.vector, Sys.current, Sys.refreshed, images, Sel.has, total, mirror_id]; rfl
  · simp [Sys.new, Sys.addVortex, Sys.addWall, Sys.vector, Sys.current, Sys.refreshed, images, Sys.compounded]; exact ⟨rfl, rfl⟩

theorem remove_last {h : Heap} {s : Sys} {c : Content} (H : Holds h s c) (hc : 0 < c.vs.length) :
    ∃ s', s.remove (-1) = .ok s' ∧ Holds h s' { c with vs := c.vs.eraseIdx (c.vs.length - 1) } := by
  have hlen : c.vs.length = s.vortex.length := by rw [H.vs, List.length_map]
  have hp : pyIndex s.vortex.length (-1) = some (s.vortex.length - 1) := by
    rw [pyIndex_eq (by omega), if_neg (by decide)]
    congr 1
    omega
  have hn : s.vortex.length - 1 < s.vortex.length := by omega
  have hg : s.vortex[s.vortex.length - 1]? = some (s.vortex[s.vortex.length - 1]'hn) := List.getElem?_eq_getElem hn
  have hid : (s.vortex[s.vortex.length - 1]'hn).id = s.vortex.length - 1 := by rw [H.numbered.getElem hg]; omega
  refine ⟨_, ?_, hlen ▸ holds_drop H hn⟩
  unfold Sys.remove
  rw [hp]
  simp only [hg, hid, hlen]

/-- The map of the velocities that a movable vortex would have gives at each point the one of the system with this vortex put there,
and leaves the system for the next point with the same content; the map of a fixed vortex cannot be made. -/
theorem C145_map {h : Heap} {s : Sys} {c : Content} (H : Holds h s c) (v : Vort) (x y : ℝ) :
    (v.movable = true → ∃ s', s.velocityMap h v x y = .ok (s',
        Content.velocity { c with vs := c.vs ++ [bare { v with x0 := x, y0 := y }] } x y) ∧ Holds h s' c) ∧
    (v.movable = false → s.velocityMap h v x y = .error .exception) := by
  refine ⟨fun hm => ?_, fun hm => by simp [Sys.velocityMap, hm]⟩
  set v' : Vort := { v with x0 := x, y0 := y }
  have H1 : Holds h (s.addVortex v') { c with vs := c.vs ++ [bare v'] } := (holds_step H (.addVortex v') trivial).1
  have H2 : Holds h ((s.addVortex v').vector h x y .all .all).1 { c with vs := c.vs ++ [bare v'] } :=
    (holds_step H1 (.ask x y .all .all) trivial).1
  have hl : ({ c with vs := c.vs ++ [bare v'] } : Content).vs.length = c.vs.length + 1 := by simp
  obtain ⟨s', e, H3⟩ := remove_last H2 (by rw [hl]; omega)
  refine ⟨s', ?_, ?_⟩
  · unfold Sys.velocityMap
    rw [if_pos hm]
    show (match ((s.addVortex v').vector h x y .all .all).1.remove (-1) with
      | .error e => (.error e : Res (Sys × (ℝ × ℝ)))
      | .ok s' => .ok (s', ((s.addVortex v').vector h x y .all .all).2)) = _
    rw [e, vector_all H1]
  · rw [hl] at H3
    have e2 : (c.vs ++ [bare v']).eraseIdx (c.vs.length + 1 - 1) = c.vs := by
      rw [Nat.add_sub_cancel, List.eraseIdx_append_of_length_le (le_refl _)]
      simp
    simp only [e2] at H3
    exact H3

/-- A history meeting the hypotheses: two vortices, a wall, a question, the first vortex removed, an evolution. -/
example (v w : Vort) (h : Heap) :
    Counted h.fn ⟨[], [], []⟩ [.addVortex v, .addVortex w, .addWall (.atY 0), .ask 1 2 .all .all, .remove (-2), .evolve 1, .remove 0] := by
  simp [Counted, Content.step]

end IMT.Vortex
