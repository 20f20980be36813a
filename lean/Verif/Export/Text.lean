import Verif.Export.TextModel
import Verif.Profile.Arith

/-!
Property C291: text files of points, profiles and critical points.
-/

namespace IMT.Text

open Points (P F)
open Profile (Prof)
open Cp (Kind kinds)
open Cps (CP)

/-! ### helper lemmas -/

theorem column_of {rows : List Row} {c : Nat} (h1 : 2 ≤ rows.length) (h2 : ∀ r ∈ rows, c ≤ r.length) :
    column rows c = .ok (rows.map fun r => r.getD (c - 1) none) := by
  unfold column
  rw [if_neg (by omega), if_pos (by simpa using h2)]

/-- The names of the files of critical points are different. -/
theorem critName_inj {fmt : Rat → List Char} (hf : Function.Injective fmt)
    {base tu : List Char} {k l : Kind} {t u : Rat} (h : critName fmt base tu k t = critName fmt base tu l u) : k = l ∧ t = u := by
  unfold critName at h
  simp only [List.append_assoc, List.append_cancel_left_eq] at h
  cases k <;> cases l <;> simp [kindName] at h <;> simp <;> exact hf (by simpa using h)

theorem write_other {α : Type} (name : α → File.Path) (row : α → List Row) (l : List α) (d : Disk) (n : File.Path) (h : ∀ a ∈ l, n ≠ name a) :
    l.foldl (fun d a => write d (name a) (row a)) d n = d n := by
  induction l generalizing d with
  | nil => rfl
  | cons a l ih =>
    rw [List.foldl_cons, ih _ fun b hb => h b (List.mem_cons_of_mem _ hb)]
    exact if_neg (h a List.mem_cons_self)

theorem write_mem {α : Type} (name : α → File.Path) (row : α → List Row) (l : List α) (d : Disk) (a : α) (ha : a ∈ l)
    (h : ∀ b ∈ l, name b = name a → b = a) : l.foldl (fun d a => write d (name a) (row a)) d (name a) = some (row a) := by
  induction l generalizing d with
  | nil => cases ha
  | cons b l ih =>
    rw [List.foldl_cons]
    by_cases hm : a ∈ l
    · exact ih _ hm fun c hc => h c (List.mem_cons_of_mem _ hc)
    · have hab : a = b := by rcases List.mem_cons.mp ha with e | e; exacts [e, absurd e hm]
      subst hab
      rw [write_other]
      · exact if_pos rfl
      · intro c hc e
        exact hm (h c (List.mem_cons_of_mem _ hc) e.symm ▸ hc)

/-- All the files of critical points, in the order of writing. -/
def files (c : CP) : List (Kind × Rat × P) := kinds.flatMap fun k => (c.times.zip (c.pts k)).map fun q => (k, q)

theorem exportCrit_eq (fmt : Rat → List Char) (base tu : List Char) (c : CP) (d : Disk) :
    exportCrit fmt base tu c d = (files c).foldl (fun d q => write d (critName fmt base tu q.1 q.2.1) (exportPts q.2.2)) d := by
  unfold exportCrit files
  rw [List.foldl_flatMap]
  congr 1
  funext d k
  unfold exportKind
  rw [List.foldl_map]

/-! ### C291 -/

/-- C291 for the sets of at least two points (with a value each, or no value): what was written is read back, given the units. -/
theorem C291_points_partial (p : P) (h : 2 ≤ p.xy.length) (hv : p.v = [] ∨ p.v.length = p.xy.length) :
    importPts (exportPts p) 1 2 (if p.v = [] then 0 else 3) p.ux p.uy p.uv = .ok p := by
  obtain ⟨xy, v, ux, uy, uv⟩ := p
  simp only at h hv ⊢
  by_cases hn : v = []
  · subst hn
    rw [if_pos rfl]
    have e : exportPts ⟨xy, [], ux, uy, uv⟩ = xy.map fun q => [q.1, q.2] := rfl
    rw [e]
    unfold importPts
    rw [if_neg (by omega), column_of (by simpa using h) (by intro r hr; obtain ⟨q, _, rfl⟩ := List.mem_map.mp hr; simp), column_of (by simpa using h) (by intro r hr; obtain ⟨q, _, rfl⟩ := List.mem_map.mp hr; simp)]
    simp only [if_true, List.map_map]
    have z : (xy.map ((fun r : Row => r.getD (1 - 1) none) ∘ fun q => [q.1, q.2])).zip
        (xy.map ((fun r : Row => r.getD (2 - 1) none) ∘ fun q => [q.1, q.2])) = xy := by
      rw [List.zip_map']
      simp
    rw [z]
    simp [Points.new, Points.setV]
  · have hl : v.length = xy.length := hv.resolve_left hn
    rw [if_neg hn]
    have e : exportPts ⟨xy, v, ux, uy, uv⟩ = (xy.zip v).map fun q => [q.1.1, q.1.2, q.2] := by
      unfold exportPts
      rw [if_neg (by simpa using hn)]
    rw [e]
    have hz : 2 ≤ ((xy.zip v).map fun q : (F × F) × F => [q.1.1, q.1.2, q.2]).length := by simp [hl]; omega
    unfold importPts
    rw [if_neg (by omega), column_of hz (by intro r hr; obtain ⟨q, _, rfl⟩ := List.mem_map.mp hr; simp), column_of hz (by intro r hr; obtain ⟨q, _, rfl⟩ := List.mem_map.mp hr; simp), column_of hz (by intro r hr; obtain ⟨q, _, rfl⟩ := List.mem_map.mp hr; simp)]
    simp only [List.map_map, if_neg (by omega : ¬ (3 : Nat) = 0)]
    have z : ((xy.zip v).map ((fun r : Row => r.getD (1 - 1) none) ∘ fun q => [q.1.1, q.1.2, q.2])).zip
        ((xy.zip v).map ((fun r : Row => r.getD (2 - 1) none) ∘ fun q => [q.1.1, q.1.2, q.2])) = xy := by
      rw [List.zip_map']
      have : (xy.zip v).map (fun a => (((fun r : Row => r.getD (1 - 1) none) ∘ fun q : (F × F) × F => [q.1.1, q.1.2, q.2]) a,
          ((fun r : Row => r.getD (2 - 1) none) ∘ fun q : (F × F) × F => [q.1.1, q.1.2, q.2]) a)) = (xy.zip v).map Prod.fst := by
        apply List.map_congr_left
        intro a _
        simp
      rw [this, List.map_fst_zip (by omega)]
    have w : ((xy.zip v).map ((fun r : Row => r.getD (3 - 1) none) ∘ fun q => [q.1.1, q.1.2, q.2])) = v := by
      have : (xy.zip v).map ((fun r : Row => r.getD (3 - 1) none) ∘ fun q : (F × F) × F => [q.1.1, q.1.2, q.2]) = (xy.zip v).map Prod.snd := by
        apply List.map_congr_left
        intro a _
        simp
      rw [this, List.map_snd_zip (by omega)]
    rw [z, w]
    simp [Points.new, Points.setV, hl]

/-- C291 is violated for the sets of one point and for the empty ones: the file that was written cannot be read, whatever the columns. -/
theorem C291_single_violated (p : P) (h : p.xy.length ≤ 1) (xc yc vc : Nat) (hx : 1 ≤ xc) (hy : 1 ≤ yc) (ux uy uv : Sym) :
    importPts (exportPts p) xc yc vc ux uy uv = .error .indexError := by
  have hl : (exportPts p).length ≤ 1 := by
    unfold exportPts
    split
    · simpa using h
    · simp only [List.length_map, List.length_zip]; omega
  unfold importPts column
  rw [if_neg (by omega), if_pos hl]

/-- C291 for the profiles of at least two points: the profile read back is sorted and has the points of the profile that was written, masked
points included, given the units; it is the same profile when no two points have the same abscissa. -/
theorem C291_profile_partial (srt : List Rat → List Nat) (hs : Profile.IsArgsort srt) (p : Prof) (hp : Profile.Valid p) (h : 2 ≤ p.x.length) :
    ∃ q, importProf srt (exportProf p) 1 2 p.ux p.uy = .ok q ∧ Profile.Valid q ∧ q.ux = p.ux ∧ q.uy = p.uy ∧
      (Profile.pts q).Perm (Profile.pts p) ∧ (Inc p.x → q = p) := by
  have hy : (Profile.getY p).length = p.x.length := by rw [Profile.getY_valid hp]; exact hp.1
  have hz : 2 ≤ (exportProf p).length := by simp [exportProf, hy]; omega
  have e : importProf srt (exportProf p) 1 2 p.ux p.uy = Profile.new srt p.x (Profile.getY p) (.flag false) p.ux p.uy := by
    unfold importProf
    rw [if_neg (by omega), column_of hz (by unfold exportProf; intro r hr; obtain ⟨q, _, rfl⟩ := List.mem_map.mp hr; simp), column_of hz (by unfold exportProf; intro r hr; obtain ⟨q, _, rfl⟩ := List.mem_map.mp hr; simp)]
    simp only [exportProf, List.map_map]
    congr 1
    · have : ((p.x.zip (Profile.getY p)).map ((fun a : F => a.getD 0) ∘ (fun r : Row => r.getD (1 - 1) none) ∘ fun q => [some q.1, q.2])) =
          (p.x.zip (Profile.getY p)).map Prod.fst := by
        apply List.map_congr_left
        intro a _
        simp
      rw [this, List.map_fst_zip (by omega)]
    · have : ((p.x.zip (Profile.getY p)).map ((fun r : Row => r.getD (2 - 1) none) ∘ fun q => [some q.1, q.2])) =
          (p.x.zip (Profile.getY p)).map Prod.snd := by
        apply List.map_congr_left
        intro a _
        simp
      rw [this, List.map_snd_zip (by omega)]
  obtain ⟨q, hq, hv, hperm, h1, h2⟩ := Profile.new_flag_perm hs false p.ux p.uy hy
  refine ⟨q, e.trans hq, hv, h1, h2, hperm, fun hinc => ?_⟩
  rw [Profile.new_flag false p.ux p.uy hy, Profile.build_inc hs p.ux p.uy hinc hy (by simp), ← hy, Profile.blank_false, Profile.getY_valid hp] at hq
  rw [← Except.ok.inj hq]
  obtain ⟨x, y, m, ux, uy⟩ := p
  simp only [Prof.mk.injEq, true_and, and_true]
  exact hp.2.1.symm

/-- C291 is violated for the profiles of less than two points. -/
theorem C291_single_profile_violated (srt : List Rat → List Nat) (p : Prof) (h : p.x.length ≤ 1) (xc yc : Nat) (hx : 1 ≤ xc) (hy : 1 ≤ yc)
    (ux uy : Sym) : importProf srt (exportProf p) xc yc ux uy = .error .indexError := by
  have hl : (exportProf p).length ≤ 1 := by
    simp only [exportProf, List.length_map, List.length_zip]; omega
  unfold importProf column
  rw [if_neg (by omega), if_pos hl]

/-- C291 for the critical points: provided that two times are not written alike and that the times are distinct, there is one file per kind and
time, which holds the points of that kind at that time, as the file of this set of points alone would; no other file is changed. -/
theorem C291_crit (fmt : Rat → List Char) (hf : Function.Injective fmt)
    (base tu : List Char) (c : CP) (hd : c.times.Nodup) (d : Disk) :
    (∀ (k : Kind) (i : Nat) (t : Rat) (p : P), c.times[i]? = some t → (c.pts k)[i]? = some p →
      exportCrit fmt base tu c d (critName fmt base tu k t) = some (exportPts p)) ∧
    (∀ n, (∀ k, ∀ t ∈ c.times, n ≠ critName fmt base tu k t) → exportCrit fmt base tu c d n = d n) := by
  refine ⟨fun k i t p ht hp => ?_, fun n hn => ?_⟩
  · rw [exportCrit_eq]
    have hz : (t, p) ∈ c.times.zip (c.pts k) := List.mem_of_getElem? (List.getElem?_zip_eq_some (z := (t, p)) |>.mpr ⟨ht, hp⟩)
    have hm : (k, t, p) ∈ files c := List.mem_flatMap.mpr ⟨k, by cases k <;> decide, List.mem_map.mpr ⟨_, hz, rfl⟩⟩
    refine write_mem (fun q : Kind × Rat × P => critName fmt base tu q.1 q.2.1) (fun q => exportPts q.2.2) (files c) d (k, t, p) hm ?_
    rintro ⟨l, u, q⟩ hb e
    obtain ⟨rfl, rfl⟩ := critName_inj hf e
    obtain ⟨l', _, hq⟩ := List.mem_flatMap.mp hb
    obtain ⟨r, hr, e⟩ := List.mem_map.mp hq
    simp only [Prod.mk.injEq] at e
    obtain ⟨rfl, rfl⟩ := e
    obtain ⟨j, hj⟩ := List.getElem?_of_mem hr
    obtain ⟨h1, h2⟩ := List.getElem?_zip_eq_some (z := (u, q)) |>.mp hj
    have : i = j := (List.getElem?_inj (List.getElem?_eq_some_iff.mp ht).1 hd).mp (ht.trans h1.symm)
    subst this
    rw [hp] at h2
    rw [Option.some.inj h2]
  · rw [exportCrit_eq]
    refine write_other _ _ _ _ _ ?_
    rintro ⟨l, u, q⟩ hb
    obtain ⟨l', _, hq⟩ := List.mem_flatMap.mp hb
    obtain ⟨r, hr, e⟩ := List.mem_map.mp hq
    simp only [Prod.mk.injEq] at e
    obtain ⟨rfl, rfl⟩ := e
    exact hn _ u (List.of_mem_zip hr).1

/-! ### instances -/

/-- Two points with a value each, one of which is masked. -/
example : (2 : Nat) ≤ (⟨[(some 1, some 2), (some 3, none)], [some 5, none], Sym.m, Sym.m, Sym.one⟩ : P).xy.length ∧
    exportPts ⟨[(some 1, some 2), (some 3, none)], [some 5, none], Sym.m, Sym.m, Sym.one⟩ = [[some 1, some 2, some 5], [some 3, none, none]] := by
  decide +kernel

/-- A profile of two points, one of which is masked. -/
example : Profile.Valid ⟨[1, 2], [some 4, none], [false, true], Sym.m, Sym.s⟩ ∧ Inc [(1 : Rat), 2] ∧
    exportProf ⟨[1, 2], [some 4, none], [false, true], Sym.m, Sym.s⟩ = [[some 1, some 4], [some 2, none]] := by
  refine ⟨⟨rfl, rfl, ?_⟩, ?_, by decide +kernel⟩
  · decide +kernel
  · unfold Inc; decide +kernel

/-- Critical points at two times, and a way of writing these times. -/
example (fmt : Rat → List Char) (hf : Function.Injective fmt) (p q : P) (d : Disk) :
    exportCrit fmt "cp".toList "s".toList ⟨fun k => if k = .foc then [p, q] else [⟨[], [], Sym.m, Sym.m, Sym.one⟩, q], [0, 1], Sym.s, Sym.m, Sym.m, fun _ => none, none⟩ d
      ("cp/foc_t=".toList ++ fmt 1 ++ "s.txt".toList) = some (exportPts q) := by
  have := (C291_crit fmt hf "cp".toList "s".toList ⟨fun k => if k = .foc then [p, q] else [⟨[], [], Sym.m, Sym.m, Sym.one⟩, q], [0, 1], Sym.s, Sym.m, Sym.m,
    fun _ => none, none⟩ (by change [(0 : Rat), 1].Nodup; decide +kernel) d).1 .foc 1 1 q rfl rfl
  simpa [critName, kindName] using this

end IMT.Text
