import Verif.Display.DeskModel
import Verif.Display.Limits

/-! # C379: animations of a figure -/

namespace IMT.Browse

/-- **C379.**  The animation of the current figure, given as such or not given,
holds the frames of its manager, and no other figure is changed. -/
theorem C379_current_partial (d : Desk) (i : Nat) (s : Bm) (hc : d.cur = some i) (hs : d.figs[i]? = some (some s)) (fig : Option Nat)
    (_hf : fig = none ∨ fig = some i) (f0 f1 : Int) :
    ∃ d', saveAnimation d true fig (some (f0, f1)) = (d', .ok (saveAnim s f0 f1).1) ∧ d'.cur = some i ∧ d'.figs.length = d.figs.length ∧
      d'.figs[i]? = some (some (saveAnim s f0 f1).2) ∧ ∀ j, j ≠ i → d'.figs[j]? = d.figs[j]? := by
  have hi : i < d.figs.length := (List.getElem?_eq_some_iff.mp hs).1
  refine ⟨⟨d.figs.set i (some (saveAnim s f0 f1).2), d.cur⟩, ?_, hc, by simp, by simp [hi], fun j hj => ?_⟩
  · unfold saveAnimation Desk.gcf
    rw [hc]
    simp only [hs, hc, if_true, interval]
  · simp only
    rw [List.getElem?_set_ne hj.symm]

/-- **C379.**  With no interval given, the animation of the current figure, its manager moving by steps of one, holds
the fields 1 to the last one, in order, and the manager is back on its frame. -/
theorem C379_all_partial (d : Desk) (i : Nat) (s : Bm) (hc : d.cur = some i) (hs : d.figs[i]? = some (some s)) (hn : s.num = none)
    (h1 : s.incr = 1) (fig : Option Nat) (_hf : fig = none ∨ fig = some i) :
    ∃ d' l s', saveAnimation d true fig none = (d', .ok l) ∧ l = (List.range s.indMax).map (fun k : Nat => (k : Int) + 1) ∧
      d'.figs[i]? = some (some s') ∧ s'.ind = s.ind ∧ ∀ j, j ≠ i → d'.figs[j]? = d.figs[j]? := by
  have e : saveAnimation d true fig none = saveAnimation d true fig (some (0, s.indMax)) := by
    unfold saveAnimation Desk.gcf
    rw [hc]
    simp only [hs, interval]
  obtain ⟨d', g, _, _, g4, g5⟩ := C379_current_partial d i s hc hs fig _hf 0 s.indMax
  obtain ⟨a1, a2, _⟩ := C302_animation_partial s hn h1 0 s.indMax (by omega) le_rfl
  refine ⟨d', _, _, by rw [e]; exact g, ?_, g4, a2, g5⟩
  rw [a1]
  simp only [sub_zero, Int.toNat_natCast]
  exact List.map_congr_left fun k _ => by omega

/-- **C379.**  An unknown writer is refused, nothing is changed. -/
theorem C379_writer (d : Desk) (i : Nat) (s : Bm) (hc : d.cur = some i) (hs : d.figs[i]? = some (some s)) (fig : Option Nat)
    (f : Option (Int × Int)) : saveAnimation d false fig f = (d, .error .valueError) := by
  unfold saveAnimation Desk.gcf
  rw [hc]
  simp only [hs, Bool.false_eq_true, if_false]

/-- **C379 fails** when another figure than the current one is given: the frames
written are those of the current figure, and the one given is not touched. -/
theorem C379_figure_violated (d : Desk) (i j : Nat) (s q : Bm) (hc : d.cur = some i) (hs : d.figs[i]? = some (some s))
    (hq : d.figs[j]? = some (some q)) (hij : j ≠ i) (f0 f1 : Int) :
    ∃ d', saveAnimation d true (some j) (some (f0, f1)) = (d', .ok (saveAnim s f0 f1).1) ∧ d'.figs[j]? = some (some q) := by
  obtain ⟨d', g, _, _, _, g5⟩ := C379_current_partial d i s hc hs none (Or.inl rfl) f0 f1
  exact ⟨d', g, by rw [g5 j hij]; exact hq⟩

/-- **C379 fails** when the figure given has a manager and the current one has
none: an exception. -/
theorem C379_plain_violated (d : Desk) (i j : Nat) (hc : d.cur = some i) (hs : d.figs[i]? = some none)
    (avail : Bool) (f : Option (Int × Int)) : saveAnimation d avail (some j) f = (d, .error .exception) := by
  unfold saveAnimation Desk.gcf
  rw [hc]
  simp only [hs]

/-- **C379 fails** without a current figure: an exception, and an empty figure
is opened. -/
theorem C379_empty_violated (d : Desk) (hc : d.cur = none) (avail : Bool) (fig : Option Nat) (f : Option (Int × Int)) :
    saveAnimation d avail fig f = (⟨d.figs ++ [none], some d.figs.length⟩, .error .exception) := by
  unfold saveAnimation Desk.gcf
  rw [hc]
  simp only [List.getElem?_append_right le_rfl, Nat.sub_self, List.getElem?_cons_zero]

/-- **C379 fails** for `record_animation`: any other kind than `gif` and `mp4`
writes nothing, without a word, and `mp4` asks for a writer which is not the
one of matplotlib, `ffmpeg`. -/
theorem C379_kind_violated (kind : String) : (kind ≠ "gif" ∧ kind ≠ "mp4" ↔ recordWriter kind = none) ∧ recordWriter kind ≠ some "ffmpeg" := by
  unfold recordWriter
  by_cases h1 : kind = "gif"
  · simp [h1]
  · by_cases h2 : kind = "mp4"
    · simp [h2]
    · simp [h1, h2]

example : ((create [4]).toOption.map fun s => (saveAnimation ⟨[none, some s], some 1⟩ true (some 1) none).2.toOption) = some (some [1, 2, 3]) := by
  decide +kernel

example : ((create [4]).toOption.map fun s => ((create [3]).toOption.map fun q =>
    (saveAnimation ⟨[some q, some s], some 1⟩ true (some 0) none).2.toOption)) = some (some (some [1, 2, 3])) := by
  decide +kernel

end IMT.Browse
