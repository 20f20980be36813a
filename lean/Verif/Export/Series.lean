import Verif.Export.SeriesLemmas
import Verif.File.Props

/-!
Properties C292 (records of pictures), C293 (records of DaVis files), C294 (records of saved fields) and C295 (conversions).
-/

namespace IMT.Series

open Temporal (TF addField entries Paired Sorted)

variable {srt : List Rat → List Nat}

/-! ### C292: pictures -/

/-- The pictures asked for: those of rank `i` from `lo` (included) to `hi` (excluded), one out of `incr`. -/
def Asked (lo hi incr i : Nat) : Prop := lo ≤ i ∧ i < hi ∧ incr ∣ i - lo

instance (lo hi incr i : Nat) : Decidable (Asked lo hi incr i) := by unfold Asked; infer_instance

/-- The pictures asked for, each with its time, in the order of the ranks. -/
def chosen {α : Type} (lo hi incr : Nat) (l : List α) : List α := pick l ((List.range l.length).filter fun i => decide (Asked lo hi incr i))

/-- The bounds of the window, if any, are those of pictures. -/
def Fits (n : Nat) : Option Window → Prop
  | none => True
  | some w => 0 ≤ w.lo ∧ w.hi ≤ n

def bounds (n : Nat) : Option Window → Nat × Nat
  | none => (0, n)
  | some w => (w.lo.toNat, w.hi.toNat)

theorem times_ok {n : Nat} {times : Option (List Rat)} (h : ∀ ts, times = some ts → ts.length = n) :
    pictureTimes n times = .ok (times.getD ((List.range n).map fun k : Nat => (k : Rat))) ∧
      (times.getD ((List.range n).map fun k : Nat => (k : Rat))).length = n := by
  cases times with
  | none => exact ⟨rfl, by simp⟩
  | some ts =>
    have := h ts rfl
    refine ⟨?_, this⟩
    unfold pictureTimes
    simp only
    rw [if_neg (fun e => e this)]
    rfl

theorem pick_range {α : Type} (l : List α) : pick l (List.range l.length) = l := by
  unfold pick
  induction l with
  | nil => rfl
  | cons a l ih =>
    rw [List.length_cons, List.range_succ_eq_map, List.filterMap_cons, List.filterMap_map]
    simpa [Function.comp_def] using ih

theorem pick_map {α β : Type} (f : α → β) (l : List α) (is : List Nat) : pick (l.map f) is = (pick l is).map f := by
  unfold pick
  rw [List.map_filterMap]
  congr 1
  funext i
  simp

theorem chosen_sublist {α : Type} (lo hi incr : Nat) (l : List α) : (chosen lo hi incr l).Sublist l := by
  have : (chosen lo hi incr l).Sublist (pick l (List.range l.length)) := List.filter_sublist.filterMap _
  rwa [pick_range] at this

theorem chosen_ranks {α : Type} {lo hi incr : Nat} (h0 : 0 < incr) (l : List α) (h : hi ≤ l.length) : chosen lo hi incr l = pick l (ranks lo hi incr) := by
  unfold chosen
  rw [ranks_filter h0 h]
  rfl

theorem load_ranks {α : Type} (hs : Profile.IsArgsort srt) {load : α → Res SF} {g : α → SF} {A : List Rat} {files : List α}
    (hl : ∀ a ∈ files, load a = .ok (g a) ∧ (g a).ax = A) {ts : List Rat} (ht : ts.length = files.length) {u : Sym} (hu : u.size ≠ 0)
    {lo hi incr : Nat} (hi' : hi ≤ files.length) (h0 : 0 < incr) :
    ∃ r, loadAt srt load files ts u TF.empty (ranks lo hi incr) = .ok r ∧ Paired r ∧ Sorted r ∧
      (entries r).Perm (chosen lo hi incr (ts.zip (files.map g))) ∧ (r.fields ≠ [] → r.ut = u) := by
  have hlen : (ts.zip (files.map g)).length = files.length := by simp [ht]
  rw [loadAt_eq (fun a ha => (hl a ha).1) ht u TF.empty _ (by
    intro i hi2
    have := (mem_ranks h0 i).mp hi2
    omega)]
  obtain ⟨r, e, p, so, perm, hut⟩ := addTimed_spec (t := TF.empty) hs A hu ((pick (ts.zip (files.map g)) (ranks lo hi incr)).map fun q => (q.2, q.1, u))
    rfl List.Pairwise.nil (fun h => absurd rfl h) (by
      intro f hf
      obtain ⟨q, hq, rfl⟩ := List.mem_map.mp hf
      refine ⟨?_, rfl⟩
      obtain ⟨i, _, hi3⟩ := List.mem_filterMap.mp hq
      have := (List.of_mem_zip (List.mem_of_getElem? hi3)).2
      obtain ⟨a, ha, e⟩ := List.mem_map.mp this
      rw [← e]
      exact (hl a ha).2)
  refine ⟨r, e, p, so, ?_, hut⟩
  rw [chosen_ranks h0 _ (by omega)]
  refine perm.trans ?_
  rw [List.map_map]
  have : entries TF.empty = [] := rfl
  rw [this, List.append_nil]
  exact List.Perm.of_eq (List.map_id'' (fun q => rfl) _)

/-- C292, for windows within the pictures: the record holds exactly the pictures asked for, each at its time (its rank by default), in the order of
time, in the unit of the times; the arguments are left as they were.  If the times increase with the names, so do the fields. -/
theorem C292_pictures_partial {N α : Type} [LinearOrder N] (hs : Profile.IsArgsort srt) (load : α → Res SF) (g : α → SF) (A : List Rat)
    (found : List (N × α)) (hl : ∀ p ∈ found, load p.2 = .ok (g p.2) ∧ (g p.2).ax = A) (times : Option (List Rat))
    (ht : ∀ ts, times = some ts → ts.length = found.length) (u : Sym) (hu : u.size ≠ 0) (w : Option Window) (hw : Fits found.length w) (incr : Nat)
    (h0 : 0 < incr) :
    ∃ r, importPictures srt load found times u w incr = (w, .ok r) ∧ Sorted r ∧ (r.fields ≠ [] → r.ut = u) ∧
      (entries r).Perm (chosen (bounds found.length w).1 (bounds found.length w).2 incr
        ((times.getD ((List.range found.length).map fun k : Nat => (k : Rat))).zip ((inOrder found).map g))) ∧
      ((times.getD ((List.range found.length).map fun k : Nat => (k : Rat))).Pairwise (· < ·) →
        entries r = chosen (bounds found.length w).1 (bounds found.length w).2 incr
          ((times.getD ((List.range found.length).map fun k : Nat => (k : Rat))).zip ((inOrder found).map g))) := by
  obtain ⟨e1, e2⟩ := times_ok ht
  have hlen := inOrder_length found
  have hb : window found.length w = (w, .ok (bounds found.length w)) ∧ (bounds found.length w).2 ≤ found.length := by
    cases w with
    | none => exact ⟨rfl, le_refl _⟩
    | some w =>
      obtain ⟨h1, h2⟩ := hw
      unfold window bounds
      refine ⟨?_, by simp only; omega⟩
      simp only
      rw [if_neg (by omega), if_neg (by omega)]
  obtain ⟨r, er, p, so, perm, hut⟩ := load_ranks hs (load := load) (g := g) (A := A) (files := inOrder found) (u := u)
    (lo := (bounds found.length w).1) (hi := (bounds found.length w).2) (incr := incr)
    (fun a ha => by obtain ⟨n, hn⟩ := inOrder_mem ha; exact hl _ hn) (e2.trans hlen.symm) hu (by omega) h0
  refine ⟨r, ?_, so, hut, perm, fun hinc => ?_⟩
  · unfold importPictures
    rw [e1, hb.1]
    simp only
    rw [if_neg (by omega), er]
  · refine entries_of_inc p so perm ?_
    have h1 := (chosen_sublist (bounds found.length w).1 (bounds found.length w).2 incr
      ((times.getD ((List.range found.length).map fun k : Nat => (k : Rat))).zip ((inOrder found).map g))).map Prod.fst
    rw [List.map_fst_zip (by simp [e2, hlen])] at h1
    exact hinc.sublist h1

/-- C292: the order in which the files are found does not matter. -/
theorem C292_order {N α : Type} [LinearOrder N] (load : α → Res SF) (found other : List (N × α)) (h : found.Perm other)
    (hd : (found.map Prod.fst).Nodup) (times : Option (List Rat)) (u : Sym) (w : Option Window) (incr : Nat) :
    importPictures srt load found times u w incr = importPictures srt load other times u w incr := by
  unfold importPictures
  rw [inOrder_perm h hd, h.length_eq]

/-- C292: as many times as pictures, windows that begin at a picture and a positive increment are required. -/
theorem C292_refused {N α : Type} [LinearOrder N] (load : α → Res SF) (found : List (N × α)) (times : Option (List Rat)) (u : Sym)
    (w : Option Window) (incr : Nat) :
    (∀ ts, times = some ts → ts.length ≠ found.length → importPictures srt load found times u w incr = (w, .error .valueError)) ∧
    (∀ v, times = none → w = some v → v.lo < 0 → importPictures srt load found times u w incr = (w, .error .valueError)) ∧
    (times = none → w = none → incr = 0 → importPictures srt load found times u w incr = (w, .error .zeroDivision)) := by
  refine ⟨?_, ?_, ?_⟩
  · rintro ts rfl h
    simp [importPictures, pictureTimes, h]
  · rintro v rfl rfl h
    simp [importPictures, pictureTimes, window, h]
  · rintro rfl rfl rfl
    simp [importPictures, pictureTimes, window]

/-- C292 is violated for the windows that end after the last picture: the list given by the caller is changed. -/
theorem C292_argument_violated {N α : Type} [LinearOrder N] (load : α → Res SF) (found : List (N × α)) (u : Sym) (w : Window)
    (h1 : 0 ≤ w.lo) (h2 : (found.length : Int) < w.hi) (h3 : w.frozen = false) (incr : Nat) :
    (importPictures srt load found none u (some w) incr).1 = some { w with hi := found.length } ∧
      (importPictures srt load found none u (some w) incr).1 ≠ some w := by
  have e : (importPictures srt load found none u (some w) incr).1 = some { w with hi := found.length } := by
    unfold importPictures pictureTimes window
    simp only
    rw [if_neg (by omega), if_pos h2, h3]
    simp only [Bool.false_eq_true, if_false]
    split <;> rfl
  refine ⟨e, ?_⟩
  rw [e]
  intro h
  have := congrArg Window.hi (Option.some.inj h)
  simp only at this
  omega

/-- C292 is violated for such windows given as a tuple: they are refused. -/
theorem C292_tuple_violated {N α : Type} [LinearOrder N] (load : α → Res SF) (found : List (N × α)) (u : Sym) (w : Window)
    (h1 : 0 ≤ w.lo) (h2 : (found.length : Int) < w.hi) (h3 : w.frozen = true) (incr : Nat) :
    importPictures srt load found none u (some w) incr = (some w, .error .typeError) := by
  unfold importPictures pictureTimes window
  simp only
  rw [if_neg (by omega), if_pos h2, h3]
  rfl

/-! ### C293: DaVis files -/

theorem davisTimes_const (incr : Nat) (t dt : Rat) (u : Sym) (n : Nat) :
    davisTimes incr t (List.replicate n (some (dt, u))) = (List.range n).map fun k : Nat => (t + ((k : Rat) + 1) * (dt * incr), u) := by
  induction n generalizing t with
  | zero => rfl
  | succ n ih =>
    rw [List.replicate_succ, List.range_succ_eq_map, List.map_cons, List.map_map]
    unfold davisTimes
    rw [ih]
    simp only [stepOf, Option.getD_some, List.cons.injEq, Prod.mk.injEq, and_true]
    refine ⟨by push_cast; ring, ?_⟩
    apply List.map_congr_left
    intro k _
    simp only [Function.comp_apply, Prod.mk.injEq, and_true]
    push_cast
    ring

/-- C293, for files with the same positive time step: the record holds exactly the fields asked for, in the order of the names, separated by the time
step times the increment. -/
theorem C293_davis_partial {N : Type} [LinearOrder N] (hs : Profile.IsArgsort srt) (found : List (N × SF × Option (Rat × Sym))) (A : List Rat)
    (dt : Rat) (hdt : 0 < dt) (u : Sym) (hu : u.size ≠ 0) (hf : ∀ p ∈ found, p.2.1.ax = A ∧ p.2.2 = some (dt, u)) (w : Option (Nat × Nat))
    (incr : Nat) (h0 : 0 < incr) :
    ∃ r, importIM7s srt found w incr = .ok r ∧ Sorted r ∧ (r.fields ≠ [] → r.ut = u) ∧
      r.fields = chosen (w.getD (0, found.length)).1 (min (w.getD (0, found.length)).2 found.length) incr ((inOrder found).map Prod.fst) ∧
      ∀ (k : Nat) (x : Rat), r.times[k]? = some x → x = ((k : Rat) + 1) * (incr * dt) := by
  have hlen := inOrder_length found
  generalize hR : ranks (w.getD (0, found.length)).1 (min (w.getD (0, found.length)).2 found.length) incr = R
  generalize hP : pick (inOrder found) R = P
  have hP2 : ∀ q ∈ P, q.1.ax = A ∧ q.2 = some (dt, u) := by
    intro q hq
    rw [← hP] at hq
    obtain ⟨i, _, hi⟩ := List.mem_filterMap.mp hq
    obtain ⟨n, hn⟩ := inOrder_mem (List.mem_of_getElem? hi)
    exact hf _ hn
  have hD : P.map Prod.snd = List.replicate P.length (some (dt, u)) := by
    rw [List.eq_replicate_iff]
    refine ⟨by simp, ?_⟩
    intro b hb
    obtain ⟨q, hq, rfl⟩ := List.mem_map.mp hb
    exact (hP2 q hq).2
  have e0 : importIM7s srt found w incr = addTimed srt TF.empty ((P.map Prod.fst).zip
      ((List.range P.length).map fun k : Nat => (0 + ((k : Rat) + 1) * (dt * incr), u))) := by
    unfold importIM7s
    rw [if_neg (by omega), Int.toNat_natCast, hR, hP, hD, davisTimes_const]
  obtain ⟨r, e, p, so, perm, hut⟩ := addTimed_spec (t := TF.empty) hs A hu ((P.map Prod.fst).zip
      ((List.range P.length).map fun k : Nat => (0 + ((k : Rat) + 1) * (dt * incr), u))) rfl List.Pairwise.nil (fun h => absurd rfl h) (by
    intro f hf
    obtain ⟨h1, h2⟩ := List.of_mem_zip (a := f.1) (b := f.2) hf
    obtain ⟨q, hq, e1⟩ := List.mem_map.mp h1
    obtain ⟨k, _, e2⟩ := List.mem_map.mp h2
    exact ⟨by rw [← e1]; exact (hP2 q hq).1, by rw [← e2]⟩)
  have e1 : ((P.map Prod.fst).zip ((List.range P.length).map fun k : Nat => (0 + ((k : Rat) + 1) * (dt * incr), u))).map (fun f => (f.2.1, f.1)) =
      ((List.range P.length).map fun k : Nat => ((k : Rat) + 1) * (incr * dt)).zip (P.map Prod.fst) := by
    apply List.ext_getElem?
    intro i
    by_cases hi : i < P.length
    · simp [List.zip, hi, mul_comm dt]
    · simp [List.zip, hi]
  rw [e1, show entries TF.empty = [] from rfl, List.append_nil] at perm
  have hinc : ((List.range P.length).map fun k : Nat => ((k : Rat) + 1) * (incr * dt)).Pairwise (· < ·) := by
    rw [List.pairwise_map]
    refine List.pairwise_lt_range.imp ?_
    intro a b h
    have h1 : (a : Rat) < b := by exact_mod_cast h
    have h2 : (0 : Rat) < incr * dt := mul_pos (by exact_mod_cast h0) hdt
    exact mul_lt_mul_of_pos_right (by linarith) h2
  have ent := entries_of_inc p so perm (by rw [List.map_fst_zip (by simp)]; exact hinc)
  have ef : r.fields = P.map Prod.fst := by
    rw [← Temporal.entries_snd p, ent, List.map_snd_zip (by simp)]
  have et : r.times = (List.range P.length).map fun k : Nat => ((k : Rat) + 1) * (incr * dt) := by
    rw [← Temporal.entries_fst p, ent, List.map_fst_zip (by simp)]
  refine ⟨r, e0.trans e, so, hut, ?_, ?_⟩
  · rw [chosen_ranks h0 _ (by simp [hlen]), pick_map, hR, hP, ef]
  · intro k x hx
    rw [et, List.getElem?_map] at hx
    by_cases hk : k < P.length
    · rw [List.getElem?_range hk] at hx
      simpa using hx.symm
    · rw [List.getElem?_eq_none (by simpa using hk)] at hx
      cases hx

/-- C293 is violated for the times: a file has not the same time when a part of the files or all of them are read, except when the increment is the
rank of the first file plus one. -/
theorem C293_part_violated (dt : Rat) (hdt : 0 < dt) (u : Sym) (n start incr k : Nat) (h : incr ≠ start + 1) (hk : start + k * incr < n) (m : Nat)
    (hm : k < m) :
    (davisTimes incr 0 (List.replicate m (some (dt, u))))[k]? ≠ (davisTimes 1 0 (List.replicate n (some (dt, u))))[start + k * incr]? := by
  rw [davisTimes_const, davisTimes_const, List.getElem?_map, List.getElem?_map, List.getElem?_range hm, List.getElem?_range hk]
  simp only [Option.map_some, ne_eq, Option.some.injEq, Prod.mk.injEq, and_true, zero_add]
  intro e
  have e2 : ((k : Rat) + 1) * incr = ((start + k * incr : Nat) : Rat) + 1 := by
    have h3 : (((k : Rat) + 1) * incr - (((start + k * incr : Nat) : Rat) + 1)) * dt = 0 := by
      push_cast at e ⊢
      linarith
    rcases mul_eq_zero.mp h3 with h4 | h4
    · linarith
    · exact absurd h4 (ne_of_gt hdt)
  have e3 : (k + 1) * incr = start + k * incr + 1 := by exact_mod_cast e2
  rw [Nat.succ_mul] at e3
  omega

/-- C293 is violated for the origin: the first file is never at time 0. -/
theorem C293_origin_violated (dt : Rat) (hdt : 0 < dt) (u : Sym) (incr : Nat) (h0 : 0 < incr) (ds : List (Option (Rat × Sym))) :
    ∃ x, (davisTimes incr 0 (some (dt, u) :: ds))[0]? = some (x, u) ∧ 0 < x := by
  refine ⟨0 + dt * incr, rfl, ?_⟩
  have : (0 : Rat) < incr := by exact_mod_cast h0
  rw [zero_add]
  exact mul_pos hdt this

/-- C293 is violated for spatial records of vector files: they cannot be made, unless of no file. -/
theorem C293_spatial_violated {N α S : Type} [LinearOrder N] (empty : S) (found : List (N × α)) (h : found ≠ []) (incr : Int) :
    importVC7sSpatial empty found none incr = .error (if incr ≤ 0 then .valueError else .typeError) := by
  unfold importVC7sSpatial
  split
  · rfl
  · rename_i h1
    have hn : 0 < found.length := List.length_pos_iff.mpr h
    have hm : 0 ∈ ranks ((none : Option (Nat × Nat)).getD (0, found.length)).1
        (min ((none : Option (Nat × Nat)).getD (0, found.length)).2 found.length) incr.toNat := by
      refine (mem_ranks (by omega) 0).mpr ⟨by simp, ?_, by simp⟩
      simpa using hn
    have hx : 0 < (inOrder found).length := by rw [inOrder_length]; exact hn
    have hp : (inOrder found)[0] ∈ pick (inOrder found) (ranks ((none : Option (Nat × Nat)).getD (0, found.length)).1
        (min ((none : Option (Nat × Nat)).getD (0, found.length)).2 found.length) incr.toNat) :=
      List.mem_filterMap.mpr ⟨0, hm, List.getElem?_eq_getElem hx⟩
    split
    · rename_i e; rw [e] at hp; cases hp
    · rfl

/-! ### C294: records of saved fields -/

/-- C294: the record that is saved holds, once each, the scalar fields of the saved files of the folder. -/
theorem C294_content_partial (hs : Profile.IsArgsort srt) (found : List (File.Path × Obj)) (A : List Rat) (hA : ∀ f ∈ scalars found, f.ax = A)
    (s : File.Store Obj) (p : File.Path) :
    ∃ r, imtsToImt srt found s p = (File.exportFile s (.tsf r) p true, .ok ⟨⟩) ∧ r.fields.Perm (scalars found) := by
  obtain ⟨r, e, pr, perm⟩ := Temporal.addAll_spec hs A (scalars found) (t := TF.empty) rfl (fun h => absurd rfl h) hA
  refine ⟨r, by unfold imtsToImt; rw [e], ?_⟩
  rw [← Temporal.entries_snd pr]
  refine (perm.map Prod.snd).trans ?_
  simp [show entries TF.empty = [] from rfl, Function.comp_def]

/-- What the fields of the folder are. -/
theorem C294_files (found : List (File.Path × Obj)) (f : SF) :
    f ∈ scalars found ↔ ∃ p, (p, Obj.sf f) ∈ found ∧ (File.ext p = File.imt ∨ File.ext p = File.cimt) := by
  unfold scalars
  rw [List.mem_filterMap]
  constructor
  · rintro ⟨⟨p, o⟩, h1, h2⟩
    simp only at h2
    split at h2
    · rename_i h3
      cases o <;> simp at h2
      subst h2
      exact ⟨p, h1, h3⟩
    · cases h2
  · rintro ⟨p, h1, h2⟩
    exact ⟨(p, .sf f), h1, by simp only; rw [if_pos h2]⟩

/-- C294 is violated for the times: all the fields of the record are at time 0. -/
theorem C294_times_violated (hs : Profile.IsArgsort srt) (found : List (File.Path × Obj)) (A : List Rat) (hA : ∀ f ∈ scalars found, f.ax = A)
    (s : File.Store Obj) (p : File.Path) :
    ∃ r, imtsToImt srt found s p = (File.exportFile s (.tsf r) p true, .ok ⟨⟩) ∧ r.times = List.replicate (scalars found).length 0 := by
  obtain ⟨r, e, pr, perm⟩ := Temporal.addAll_spec hs A (scalars found) (t := TF.empty) rfl (fun h => absurd rfl h) hA
  refine ⟨r, by unfold imtsToImt; rw [e], Temporal.times_zero pr (by simpa [show entries TF.empty = [] from rfl] using perm)⟩

/-! ### C295: conversions -/

/-- C295 for the folders, when the names are different: each DaVis file of the folder is saved under its name in the other folder, as compressed as
asked, and nothing else is changed. -/
theorem C295_folder {α : Type} (load : α → Res Obj) (g : α → Obj) (l : List (File.Path × α)) (hl : ∀ q ∈ l, load q.2 = .ok (g q.2)) (dst : File.Path)
    (compressed : Bool) (s : File.Store Obj) (hd : (l.map fun q => File.written compressed (dst ++ '/' :: stem q.1)).Nodup) :
    ∃ s', im7ToImt load (.dir l) dst compressed s = (s', .ok ⟨⟩) ∧
      (∀ q ∈ l, (File.ext q.1 = im7 ∨ File.ext q.1 = IM7) → s' (File.written compressed (dst ++ '/' :: stem q.1)) = some (compressed, g q.2)) ∧
      (∀ n, (∀ q ∈ l, (File.ext q.1 = im7 ∨ File.ext q.1 = IM7) → n ≠ File.written compressed (dst ++ '/' :: stem q.1)) → s' n = s n) := by
  have key : ∀ (l : List (File.Path × α)) (s : File.Store Obj), (∀ q ∈ l, load q.2 = .ok (g q.2)) →
      (l.map fun q => File.written compressed (dst ++ '/' :: stem q.1)).Nodup →
      ∃ s', convertAll [im7, IM7] load dst compressed s l = (s', .ok ⟨⟩) ∧
        (∀ q ∈ l, File.ext q.1 ∈ [im7, IM7] → s' (File.written compressed (dst ++ '/' :: stem q.1)) = some (compressed, g q.2)) ∧
        (∀ n, (∀ q ∈ l, File.ext q.1 ∈ [im7, IM7] → n ≠ File.written compressed (dst ++ '/' :: stem q.1)) → s' n = s n) := by
    intro l
    induction l with
    | nil => intro s _ _; exact ⟨s, rfl, by simp, fun _ _ => rfl⟩
    | cons q l ih =>
      obtain ⟨p, a⟩ := q
      intro s hl hd
      rw [List.map_cons, List.nodup_cons] at hd
      have hl' : ∀ q ∈ l, load q.2 = .ok (g q.2) := fun q hq => hl q (List.mem_cons_of_mem _ hq)
      by_cases hp : File.ext p ∈ [im7, IM7]
      · obtain ⟨s', e, h1, h2⟩ := ih (File.exportFile s (g a) (dst ++ '/' :: stem p) compressed) hl' hd.2
        refine ⟨s', ?_, ?_, ?_⟩
        · unfold convertAll
          rw [if_pos hp, hl (p, a) List.mem_cons_self]
          exact e
        · intro q hq hx
          rcases List.mem_cons.mp hq with rfl | hq
          · rw [h2]
            · unfold File.exportFile; rw [if_pos rfl]
            · intro q hq _ e2
              exact hd.1 (List.mem_map.mpr ⟨q, hq, e2.symm⟩)
          · exact h1 q hq hx
        · intro n hn
          rw [h2 n fun q hq => hn q (List.mem_cons_of_mem _ hq)]
          unfold File.exportFile
          rw [if_neg (hn (p, a) List.mem_cons_self hp)]
      · obtain ⟨s', e, h1, h2⟩ := ih s hl' hd.2
        refine ⟨s', ?_, ?_, ?_⟩
        · unfold convertAll
          rw [if_neg hp]
          exact e
        · intro q hq hx
          rcases List.mem_cons.mp hq with rfl | hq
          · exact absurd hx hp
          · exact h1 q hq hx
        · intro n hn
          exact h2 n fun q hq => hn q (List.mem_cons_of_mem _ hq)
  obtain ⟨s', e, h1, h2⟩ := key l s hl hd
  refine ⟨s', e, fun q hq h => h1 q hq (by simpa using h), fun n hn => h2 n fun q hq h => hn q hq (by simpa using h)⟩

/-- C295 is violated for single files: they are compressed even if asked not to be. -/
theorem C295_compressed_violated {α : Type} (load : α → Res Obj) (p : File.Path) (a : α) (o : Obj) (hp : File.ext p = im7 ∨ File.ext p = IM7)
    (h : load a = .ok o) (dst : File.Path) (c : Bool) (s : File.Store Obj) :
    im7ToImt load (.file p a) dst c s = (File.exportFile s o dst true, .ok ⟨⟩) := by
  unfold im7ToImt readIM7
  simp only
  rw [if_pos hp, h]

/-- C295 is violated for single vector files: none can be converted. -/
theorem C295_vector_violated {α : Type} (load : α → Res Obj) (p : File.Path) (a : α) (hp : File.ext p = vc7 ∨ File.ext p = VC7) (dst : File.Path)
    (there c : Bool) (s : File.Store Obj) : ∃ e, vc7ToImt load (.file p a) dst there c s = (s, .error e) := by
  unfold vc7ToImt readIM7
  cases there with
  | false => exact ⟨_, rfl⟩
  | true =>
    simp only [if_true]
    rw [if_neg]
    · exact ⟨_, rfl⟩
    · rcases hp with h | h <;> rw [h] <;> decide

/-- C295 is violated for new names: nothing can be converted into a file or a folder that does not exist. -/
theorem C295_new_violated {α : Type} (load : α → Res Obj) (src : Node α) (dst : File.Path) (c : Bool) (s : File.Store Obj) :
    vc7ToImt load src dst false c s = (s, .error .osError) := by
  cases src <;> rfl

/-! ### instances -/

/-- Three pictures found in disorder, of which the first and the third are asked for with an increment of two. -/
example : ((importPictures Profile.argsort (fun f : SF => .ok f) [(2, SF.sample), (0, SF.sample.neg), (1, SF.sample)] none Sym.s none 2).2.toOption.map
    fun r => (r.times, r.fields.map fun f => f.cell 1 0)) = some ([0, 2], [some (-10), some 10]) := by decide +kernel

example : Fits 3 (some ⟨1, 3, true⟩) ∧ chosen 1 3 2 ["a", "b", "c"] = ["b"] := ⟨⟨by decide, by decide⟩, by decide +kernel⟩

/-- Three DaVis files of step 2: the last two are at 2 and 4, although they are at 4 and 6 when all are read. -/
example : ((importIM7s Profile.argsort [(0, SF.sample, some (2, Sym.s)), (1, SF.sample, some (2, Sym.s)), (2, SF.sample.neg, some (2, Sym.s))]
      (some (1, 3)) 1).toOption.map fun r => (r.times, r.fields.map fun f => f.cell 1 0)) = some ([2, 4], [some 10, some (-10)]) ∧
    ((importIM7s Profile.argsort [(0, SF.sample, some (2, Sym.s)), (1, SF.sample, some (2, Sym.s)), (2, SF.sample.neg, some (2, Sym.s))]
      none 1).toOption.map fun r => r.times) = some [2, 4, 6] := by decide +kernel

example : ((scalars [("a.imt".toList, .sf SF.sample), ("b.txt".toList, .sf SF.sample), ("c.cimt".toList, .other)]).map fun f => f.cell 1 0) =
    [some 10] := by decide +kernel

/-- Two files with different names in a folder. -/
example : ([("d/a.im7".toList, SF.sample), ("d/b.IM7".toList, SF.sample.neg)].map fun q =>
    File.written false ("e".toList ++ '/' :: stem q.1)) = ["e/a.imt".toList, "e/b.imt".toList] := by decide +kernel

end IMT.Series
