import Verif.Proofs.Redraw
/-! Segment pen calls as contours: C88. -/
namespace Verif.Props
open Verif Verif.PointPens Verif.Spec.PointPens Verif.Spec.Draw

variable {P K C : Type}

/-! ### C88 -/

/-- Whatever calls keep the protocol of segment pens, `SegmentToPointPen` does not raise and its contours describe, in order, the paths that the calls draw.
Missing from the full claim: quadratic loops without on-curve points that have fewer than two points or coinciding ends. -/
theorem C88_paths_partial [DecidableEq P] (evs : List (SEvent P C)) (items : List (Spec.Draw.Path P ⊕ C)) (h : paint .idle evs = some items) (hl : ∀ x ∈ items, PlainLoop x) :
    ∃ out, runPen segStep none evs = .ok (none, out) ∧ List.Forall₂ Describes items out := paint_describes evs .idle none items .idle h hl

/-- A drawing that the reader would accept, through `PointToSegmentPen` and `SegmentToPointPen`: neither raises, and every contour that has points comes out
describing the same path. -/
theorem C88_redraw_partial [DecidableEq P] (d : List (Item P K C)) (h : ∀ it ∈ d, Acceptable it) (hl : ∀ it ∈ d, LoopEnds it) :
    ∃ evs out, runPen (segmentPenStep false) none (events d) = .ok (none, evs) ∧ runPen segStep none evs = .ok (none, out) ∧
      List.Forall₂ Redrawn (d.filter VisiblePart) out := drawing_redrawn d h hl

/-- The full claim fails: a loop of three points of which the last coincides with the first loses one of them, so it is another curve. -/
theorem C88_refuted_loop : paint (C := Unit) .idle [.qCurveTo [some 0, some 5, some 0, (none : Option Nat)], .closePath] = some [.inl (.loop [0, 5, 0])] ∧
    runPen segStep none [.qCurveTo [some 0, some 5, some 0, (none : Option Nat)], .closePath] = .ok (none, [(.inl [(0, none), (5, none)] : List (CPoint Nat) ⊕ Unit)]) :=
  ⟨by decide +kernel, rfl⟩

/-- A triangle whose closing line is implied, a cubic curve that returns to its start, an open path, a loop and a component. -/
def calls88 : List (SEvent Nat Nat) := [.moveTo 1, .lineTo 2, .lineTo 3, .closePath, .moveTo 4, .lineTo 5, .curveTo [6, 7, 4], .closePath, .moveTo 8, .qCurveTo [some 9, some 10], .endPath,
  .qCurveTo [some 11, some 12, none], .closePath, .addComponent 13]

/-- What they draw. -/
def items88 : List (Spec.Draw.Path Nat ⊕ Nat) := [.inl (.closed 1 [.line 1 2, .line 2 3, .line 3 1]), .inl (.closed 4 [.line 4 5, .curve 5 [6, 7] 4]), .inl (.open 8 [.qcurve 8 [9] 10]),
  .inl (.loop [11, 12]), .inr 13]

example : paint .idle calls88 = some items88 := by decide +kernel

example : ∃ out, runPen segStep none calls88 = .ok (none, out) ∧ List.Forall₂ Describes items88 out :=
  C88_paths_partial calls88 items88 (by decide +kernel) (by
    intro x hx
    simp only [items88, List.mem_cons, List.not_mem_nil, or_false] at hx
    rcases hx with rfl | rfl | rfl | rfl | rfl
    · trivial
    · trivial
    · trivial
    · exact ⟨11, [], 12, rfl, by decide⟩
    · trivial)

example : runPen segStep none calls88 = .ok (none, [.inl [(1, some .line), (2, some .line), (3, some .line)], .inl [(4, some .curve), (5, some .line), (6, none), (7, none)],
    .inl [(8, some .move), (9, none), (10, some .qcurve)], .inl [(11, none), (12, none)], .inr 13]) := rfl

/-- A contour that starts with one off-curve point and has another one before its end. -/
def points88 : List (Point Nat Unit) := [⟨6, none, false, none, ()⟩, ⟨4, some .curve, false, some c!"n", ()⟩, ⟨5, some .line, true, none, ()⟩, ⟨7, none, false, none, ()⟩]

theorem acceptable88 : Acceptable (C := Nat) (.contour (some c!"i") points88) := by
  refine ⟨?_, by unfold points88; simp⟩
  have hp : IsPath (typedPoints points88) (.closed 4 [.line 4 5, .curve 5 [7, 6] 4]) :=
    IsPath.closed (pre := [(6, none)]) (post := [(5, some c!"line"), (7, none)]) (t := c!"curve") (by simp) (by decide) (by simp)
      (.line (.off (.off (.curve (.nil _)))))
  exact good_of_small hp (by decide) (by intro g hg; simp at hg; rcases hg with rfl | rfl <;> simp [SmallSeg])

example : ∃ evs out, runPen (segmentPenStep false) none (events [.contour (some c!"i") points88, .component 3, .contour none []]) = .ok (none, evs) ∧ runPen segStep none evs = .ok (none, out) ∧
    List.Forall₂ Redrawn ([Item.contour (some c!"i") points88, .component 3, .contour none []].filter VisiblePart) out :=
  C88_redraw_partial _ (by
    intro it hit
    simp only [List.mem_cons, List.not_mem_nil, or_false] at hit
    rcases hit with rfl | rfl | rfl
    · exact acceptable88
    · trivial
    · exact ⟨⟨by simp, by simp, by simp, by simp⟩, by simp⟩) (by
    intro it hit
    simp only [List.mem_cons, List.not_mem_nil, or_false] at hit
    rcases hit with rfl | rfl | rfl
    · intro h
      exact nomatch h ⟨4, some .curve, false, some c!"n", ()⟩ (by simp [points88])
    · trivial
    · intro _ a m b h; cases h)

end Verif.Props
