import Verif.Display.LinkModel
import Mathlib.Logic.Relation
import Mathlib.Data.List.Basic
import Mathlib.Tactic.Linarith

/-!
# Properties of linked figures
-/

namespace IMT.Browse

/-- `w` is `v`, or is linked to a figure that is connected to `v`. -/
def Connected (s : Net) (v w : Nat) : Prop :=
  Relation.ReflTransGen (fun a b => b ∈ s.linked a) v w

/-- Every figure is linked to figures among the `n` ones. -/
def Net.Among (n : Nat) (s : Net) : Prop := ∀ v, ∀ g ∈ s.linked v, g < n

/-! ## C305: links go both ways -/

theorem mem_append_linked (s : Net) (a b x y : Nat) :
    y ∈ (s.append a b).linked x ↔ y ∈ s.linked x ∨ (x = a ∧ y = b) := by
  unfold Net.append
  by_cases hx : x = a
  · subst hx; simp
  · simp [hx]

theorem mem_link (s : Net) (hs : ∀ x y, y ∈ s.linked x → x ∈ s.linked y) (a b x y : Nat) :
    y ∈ (s.link a b).linked x ↔ y ∈ s.linked x ∨ (x = a ∧ y = b) ∨ (x = b ∧ y = a) := by
  unfold Net.link
  by_cases hb : b ∈ s.linked a
  · rw [if_pos hb]
    constructor
    · exact .inl
    · rintro (h | ⟨rfl, rfl⟩ | ⟨rfl, rfl⟩)
      · exact h
      · exact hb
      · exact hs _ _ hb
  · rw [if_neg hb]
    simp only
    have ha : a ∉ s.linked b := fun h => hb (hs _ _ h)
    split
    · rename_i h
      rw [mem_append_linked] at h ⊢
      rcases h with h | ⟨h1, h2⟩
      · exact absurd h ha
      · subst h1
        tauto
    · rw [mem_append_linked, mem_append_linked]
      tauto

/-- **C305.**  After any sequence of links the links go both ways, and they are
exactly those asked for. -/
theorem C305_both_ways (s : Net) (hs : ∀ v, s.linked v = []) (pairs : List (Nat × Nat))
    (x y : Nat) :
    y ∈ (pairs.foldl (fun s p => s.link p.1 p.2) s).linked x ↔
      (x, y) ∈ pairs ∨ (y, x) ∈ pairs := by
  suffices H : ∀ (s : Net), (∀ x y, y ∈ s.linked x → x ∈ s.linked y) → ∀ x y,
      (y ∈ (pairs.foldl (fun s p => s.link p.1 p.2) s).linked x ↔
        y ∈ s.linked x ∨ (x, y) ∈ pairs ∨ (y, x) ∈ pairs) by
    rw [H s (by intro x y h; rw [hs x] at h; cases h) x y, hs x]
    simp
  induction pairs with
  | nil => intro s _ x y; simp
  | cons p ps ih =>
    obtain ⟨a, b⟩ := p
    intro s hsym x y
    rw [List.foldl_cons, ih (s.link a b) ?_ x y, mem_link s hsym]
    · simp only [List.mem_cons, Prod.mk.injEq]
      tauto
    · intro x y h
      rw [mem_link s hsym] at h ⊢
      rcases h with h | h | h
      · exact .inl (hsym x y h)
      · exact .inr (.inr ⟨h.2, h.1⟩)
      · exact .inr (.inl ⟨h.2, h.1⟩)

/-! ## C306: linked figures show the same frame -/

/-- The figures not on frame `k`. -/
def off (n : Nat) (s : Net) (k : Int) : Nat :=
  ((List.range n).filter (fun w => s.ind w ≠ k)).length

/-- What an update does to the figures. -/
structure Post (s s1 : Net) (v : Nat) (l : List Nat) : Prop where
  linked : s1.linked = s.linked
  change : ∀ w, (s1.ind w = s.ind w ∧ s1.incr w = s.incr w) ∨
    (s.ind w ≠ s.ind v ∧ s1.ind w = s.ind v ∧ s1.incr w = s.incr v ∧ Connected s v w)
  near : ∀ g ∈ l, s1.ind g = s.ind v
  far : ∀ w, s.ind w ≠ s.ind v → s1.ind w = s.ind v → ∀ g ∈ s.linked w, s1.ind g = s.ind v

theorem off_copy (n : Nat) (s : Net) (v g : Nat) (hg : g < n) (hne : s.ind g ≠ s.ind v) :
    off n (s.copy v g) (s.ind v) + 1 ≤ off n s (s.ind v) := by
  unfold off
  have hsub : ((List.range n).filter (fun w => (s.copy v g).ind w ≠ s.ind v)).Sublist
      ((List.range n).filter (fun w => s.ind w ≠ s.ind v)) := by
    refine List.monotone_filter_right _ ?_
    intro w hw
    by_cases hwg : w = g
    · subst hwg; simp [Net.copy] at hw
    · simpa [Net.copy, hwg] using hw
  refine Nat.lt_of_le_of_ne hsub.length_le ?_
  intro heq
  have := hsub.eq_of_length heq
  have hmem : g ∈ (List.range n).filter (fun w => s.ind w ≠ s.ind v) := by
    simp [hg, hne]
  rw [← this] at hmem
  simp [Net.copy] at hmem

theorem push_post (n : Nat) (f : Nat) : ∀ (s : Net) (v : Nat), s.Among n →
    off n s (s.ind v) ≤ f → Post s (Net.push (f + 1) s v) v (s.linked v) := by
  induction f with
  | zero =>
    intro s v hA hoff
    have hall : ∀ g ∈ s.linked v, s.ind g = s.ind v := by
      intro g hg
      by_contra hne
      have hmem : g ∈ (List.range n).filter (fun w => s.ind w ≠ s.ind v) := by
        simp [hA v g hg, hne]
      have : (List.range n).filter (fun w => s.ind w ≠ s.ind v) = [] :=
        List.length_eq_zero_iff.mp (Nat.le_zero.mp hoff)
      rw [this] at hmem
      cases hmem
    have hid : Net.push 1 s v = s := by
      simp only [Net.push]
      generalize s.linked v = l at hall
      induction l with
      | nil => rfl
      | cons g l ih =>
        simp only [List.foldl_cons, hall g (by simp), ne_eq, not_true, if_false]
        exact ih (fun x hx => hall x (by simp [hx]))
    rw [show (0 : Nat) + 1 = 1 from rfl, hid]
    exact ⟨rfl, fun w => .inl ⟨rfl, rfl⟩, hall, fun w h1 h2 => absurd h2 h1⟩
  | succ f ih =>
    intro s v hA hoff
    have hloop : ∀ (l : List Nat) (t : Net), (∀ g ∈ l, g ∈ t.linked v) → t.Among n →
        off n t (t.ind v) ≤ f + 1 →
        Post t (l.foldl (fun s g => if s.ind g ≠ s.ind v then Net.push (f + 1) (s.copy v g) g
          else s) t) v l := by
      intro l
      induction l with
      | nil =>
        intro t _ _ _
        exact ⟨rfl, fun w => .inl ⟨rfl, rfl⟩, by simp, fun w h1 h2 => absurd h2 h1⟩
      | cons g l ihl =>
        intro t hl hAt ht
        rw [List.foldl_cons]
        by_cases hne : t.ind g ≠ t.ind v
        · rw [if_pos hne]
          have hgv : g ≠ v := fun h => hne (by rw [h])
          have hcv : (t.copy v g).ind v = t.ind v := by simp [Net.copy, Ne.symm hgv]
          have hcg : (t.copy v g).ind g = t.ind v := by simp [Net.copy]
          have hcc : (t.copy v g).incr g = t.incr v := by simp [Net.copy]
          have hoc := off_copy n t v g (hAt v g (hl g (by simp))) hne
          have hp := ih (t.copy v g) g hAt (by rw [hcg]; omega)
          set u := Net.push (f + 1) (t.copy v g) g with hu
          have hlu : u.linked = t.linked := hp.linked
          -- what the inner update did, seen from `t`
          have hch : ∀ w, (u.ind w = t.ind w ∧ u.incr w = t.incr w) ∨
              (t.ind w ≠ t.ind v ∧ u.ind w = t.ind v ∧ u.incr w = t.incr v ∧
                Connected t v w) := by
            intro w
            by_cases hwg : w = g
            · subst hwg
              rcases hp.change w with h | h
              · exact .inr ⟨hne, h.1.trans hcg, h.2.trans hcc,
                  Relation.ReflTransGen.single (hl w (by simp))⟩
              · exact absurd rfl h.1
            · rcases hp.change w with h | h
              · exact .inl ⟨by rw [h.1]; simp [Net.copy, hwg], by rw [h.2]; simp [Net.copy, hwg]⟩
              · refine .inr ⟨?_, h.2.1.trans hcg, h.2.2.1.trans hcc, ?_⟩
                · have := h.1
                  rw [hcg] at this
                  simpa [Net.copy, hwg] using this
                · exact (Relation.ReflTransGen.single (hl g (by simp))).trans h.2.2.2
          have huv : u.ind v = t.ind v := by
            rcases hch v with h | h
            · exact h.1
            · exact h.2.1
          have hucv : u.incr v = t.incr v := by
            rcases hch v with h | h
            · exact h.2
            · exact h.2.2.1
          have hfar : ∀ w, t.ind w ≠ t.ind v → u.ind w = t.ind v →
              ∀ x ∈ t.linked w, u.ind x = t.ind v := by
            intro w hw huw x hx
            by_cases hwg : w = g
            · subst hwg
              exact (hp.near x hx).trans hcg
            · have := hp.far w (by rw [hcg]; simpa [Net.copy, hwg] using hw)
                (by rw [hcg]; exact huw) x hx
              exact this.trans hcg
          have hoff_u : off n u (u.ind v) ≤ f + 1 := by
            rw [huv]
            refine le_trans ?_ ht
            unfold off
            refine (List.monotone_filter_right _ ?_).length_le
            intro w hw
            rcases hch w with h | h
            · simpa [h.1] using hw
            · simp [h.2.1] at hw
          have hq := ihl u (by rw [hlu]; exact fun x hx => hl x (by simp [hx]))
            (by unfold Net.Among; rw [hlu]; exact hAt) hoff_u
          refine ⟨hq.linked.trans hlu, ?_, ?_, ?_⟩
          · intro w
            rcases hq.change w with h | h
            · rcases hch w with h' | h'
              · exact .inl ⟨h.1.trans h'.1, h.2.trans h'.2⟩
              · exact .inr ⟨h'.1, h.1.trans h'.2.1, h.2.trans h'.2.2.1, h'.2.2.2⟩
            · refine .inr ⟨?_, h.2.1.trans huv, h.2.2.1.trans hucv, ?_⟩
              · intro heq
                rcases hch w with h' | h'
                · exact h.1 (by rw [h'.1, huv, heq])
                · exact h'.1 heq
              · have := h.2.2.2
                unfold Connected at this ⊢
                rw [hlu] at this
                exact this
          · intro x hx
            rcases List.mem_cons.mp hx with rfl | hx
            · rcases hq.change x with h | h
              · rw [h.1]
                rcases hch x with h' | h'
                · rcases hp.change x with h'' | h''
                  · exact h''.1.trans hcg
                  · exact absurd rfl h''.1
                · exact h'.2.1
              · exact h.2.1.trans huv
            · exact (hq.near x hx).trans huv
          · intro w hw hw' x hx
            by_cases huw : u.ind w = t.ind v
            · have := hfar w hw huw x hx
              rcases hq.change x with h | h
              · exact h.1.trans this
              · exact h.2.1.trans huv
            · exact (hq.far w (by rw [huv]; exact huw) (by rw [huv]; exact hw') x
                (by rw [hlu]; exact hx)).trans huv
        · rw [if_neg hne]
          have hq := ihl t (fun x hx => hl x (by simp [hx])) hAt ht
          refine ⟨hq.linked, hq.change, ?_, hq.far⟩
          intro x hx
          rcases List.mem_cons.mp hx with rfl | hx
          · rcases hq.change x with h | h
            · rw [h.1]; exact not_not.mp hne
            · exact h.2.1
          · exact hq.near x hx
    have := hloop (s.linked v) s (fun _ h => h) hA hoff
    simpa only [Net.push] using this

theorem move_post (n : Nat) (s : Net) (hA : s.Among n) (v : Nat) (hv : v < n) (k : Int) :
    Post { s with ind := fun x => if x = v then k else s.ind x } (s.move n v k) v (s.linked v) := by
  obtain ⟨m, rfl⟩ : ∃ m, n = m + 1 := ⟨n - 1, by omega⟩
  refine push_post (m + 1) m { s with ind := fun x => if x = v then k else s.ind x } v hA ?_
  unfold off
  simp only [if_true]
  have hsub : ((List.range (m + 1)).filter
      (fun w => (if w = v then k else s.ind w) ≠ k)).Sublist ((List.range (m + 1)).filter (· ≠ v)) := by
    refine List.monotone_filter_right _ ?_
    intro w hw
    by_cases hwv : w = v
    · simp [hwv] at hw
    · simp [hwv]
  have hlen := hsub.length_le
  have hlt : ((List.range (m + 1)).filter (· ≠ v)).length < (List.range (m + 1)).length := by
    rw [List.length_filter_lt_length_iff_exists]
    exact ⟨v, List.mem_range.mpr hv, by simp⟩
  rw [List.length_range] at hlt
  omega

/-- **C306.**  When a figure goes to a frame that no figure connected to it
shows, all of them go to that frame with the same step, and the other figures
stay where they are. -/
theorem C306_all_follow_partial (n : Nat) (s : Net) (hA : s.Among n) (v : Nat) (hv : v < n)
    (k : Int) (hk : ∀ w, Connected s v w → w ≠ v → s.ind w ≠ k) (w : Nat) :
    (Connected s v w → (s.move n v k).ind w = k ∧ (s.move n v k).incr w = s.incr v) ∧
    (¬ Connected s v w → (s.move n v k).ind w = s.ind w ∧ (s.move n v k).incr w = s.incr w) := by
  have hp := move_post n s hA v hv k
  have hcon : ∀ x, Connected { s with ind := fun x => if x = v then k else s.ind x } v x
      ↔ Connected s v x := fun x => Iff.rfl
  constructor
  · intro hw
    have hind : (s.move n v k).ind w = k := by
      induction hw with
      | refl =>
        rcases hp.change v with h | h
        · simpa using h.1
        · simpa using h.2.1
      | @tail a b ha hb ih =>
        by_cases hav : a = v
        · subst hav
          simpa using hp.near b hb
        · have := hp.far a (by simp only [hav, if_false, if_true]; exact hk a ha hav)
            (by simp only [if_true]; exact ih) b hb
          simpa using this
    refine ⟨hind, ?_⟩
    rcases hp.change w with h | h
    · by_cases hwv : w = v
      · subst hwv; exact h.2
      · have h1 := h.1
        simp only [hwv, if_false] at h1
        exact absurd (h1.symm.trans hind) (hk w hw hwv)
    · exact h.2.2.1
  · intro hw
    have hwv : w ≠ v := fun h => hw (h ▸ Relation.ReflTransGen.refl)
    rcases hp.change w with h | h
    · refine ⟨?_, h.2⟩
      have := h.1
      simpa [hwv] using this
    · exact absurd h.2.2.2 hw

/-- **C306.**  Figures that show the same frame as the figures they are linked
to keep doing so, whatever frame one of them goes to. -/
theorem C306_same_frame (n : Nat) (s : Net) (hA : s.Among n)
    (hs : ∀ x, ∀ y ∈ s.linked x, s.ind y = s.ind x) (v : Nat) (hv : v < n) (k : Int) :
    ∀ w, (Connected s v w → (s.move n v k).ind w = k) ∧
      (¬ Connected s v w → (s.move n v k).ind w = s.ind w) := by
  have hcon : ∀ w, Connected s v w → s.ind w = s.ind v := by
    intro w hw
    induction hw with
    | refl => rfl
    | tail _ hb ih => exact (hs _ _ hb).trans ih
  intro w
  by_cases hk : s.ind v = k
  · have hp := move_post n s hA v hv k
    constructor
    · intro hw
      rcases hp.change w with h | h
      · rw [h.1]
        simp only
        split
        · rfl
        · rw [hcon w hw, hk]
      · simpa using h.2.1
    · intro hw
      have hwv : w ≠ v := fun h => hw (h ▸ Relation.ReflTransGen.refl)
      rcases hp.change w with h | h
      · simpa [hwv] using h.1
      · exact absurd h.2.2.2 hw
  · have h := C306_all_follow_partial n s hA v hv k
      (fun x hx _ => by rw [hcon x hx]; exact hk) w
    exact ⟨fun hw => (h.1 hw).1, fun hw => (h.2 hw).1⟩

/-- **C306 fails** behind a figure that is already on the frame: the figures
linked to it alone are left where they are. -/
theorem C306_behind_violated (s : Net) (i k : Int) (hik : i ≠ k) (h0 : s.linked 0 = [1])
    (h1 : s.linked 1 = [0, 2]) (h2 : s.linked 2 = [1]) (hi1 : s.ind 1 = k) (hi2 : s.ind 2 = i) :
    Connected s 0 2 ∧ (s.move 3 0 k).ind 0 = k ∧ (s.move 3 0 k).ind 2 = i := by
  refine ⟨(Relation.ReflTransGen.single (by rw [h0]; simp)).tail (b := 1) (by rw [h1]; simp), ?_, ?_⟩
  · simp [Net.move, Net.push, h0, hi1]
  · simp [Net.move, Net.push, h0, hi1, hi2]

/-- **C306 fails** when a figure is linked: linking alone does not bring the two
figures to the same frame. -/
theorem C306_link_violated (s : Net) (a b : Nat) (h : s.ind a ≠ s.ind b) :
    (s.link a b).ind a ≠ (s.link a b).ind b := by
  have hind : (s.link a b).ind = s.ind := by
    unfold Net.link
    by_cases hb : b ∈ s.linked a
    · rw [if_pos hb]
    · rw [if_neg hb]
      by_cases ha : a ∈ (s.append a b).linked b
      · simp only [if_pos ha]; rfl
      · simp only [if_neg ha]; rfl
  rw [hind]
  exact h

/-- **C306 fails** on figures with fewer frames: the index they are given is
that of no frame of theirs. -/
theorem C306_length_violated (n : Nat) (s : Net) (hA : s.Among n) (indMax : Nat → Nat)
    (hs : ∀ x, ∀ y ∈ s.linked x, s.ind y = s.ind x) (v w : Nat) (hv : v < n)
    (hw : w ∈ s.linked v) (k : Int) (hk : k ≤ indMax v) (hlen : (indMax w : Int) < k) :
    (s.move n v k).ind v ≤ indMax v ∧ (indMax w : Int) < (s.move n v k).ind w := by
  have h := C306_same_frame n s hA hs v hv k
  rw [(h v).1 Relation.ReflTransGen.refl, (h w).1 (Relation.ReflTransGen.single hw)]
  exact ⟨hk, hlen⟩

/-- Four figures, three of them linked in a chain. -/
def Net.sample : Net :=
  ([(0, 1), (1, 2), (2, 1)].foldl (fun s p => s.link p.1 p.2)
    ⟨fun _ => [], fun _ => 4, fun _ => 1⟩ : Net)

example : (List.range 4).map (Net.sample.move 4 2 7).ind = [7, 7, 7, 4] ∧
    (List.range 4).map Net.sample.linked = [[1], [0, 2], [1], []] := by
  decide +kernel

example : ∀ x < 4, ∀ y ∈ Net.sample.linked x, Net.sample.ind y = Net.sample.ind x ∧ y < 4 := by
  decide +kernel

end IMT.Browse
