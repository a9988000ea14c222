import Verif.Proofs.SegmentDraw
import Verif.Props.PenStack
import Verif.Props.Draw
/-! Drawing a glyph on any segment pen, also when it fails in the middle: C109. -/
namespace Verif.Props
open Verif Verif.Glif Verif.PointPens Verif.GlyphSet Verif.GlifPen Verif.SegmentDraw Verif.Spec.Draw Verif.Spec.GlifPen Verif.Spec.SegmentDraw

/-- Whenever the calls of the reader can be turned into segments, on every segment pen: it gets the segments one after the other up to the first
call that raises; what it raises is raised; otherwise the outcome and the attributes are those of reading. -/
theorem C109_any_pen_partial (E : Env) (accepts : Str → Bool) (validate hasObj hasPen : Bool) (versions : List Int) (tree : Elem) (a : Dict Str PyVal) (evs : List SegmentCall)
    (he : segmentEvents ((readOnto E record accepts validate hasObj hasPen versions tree ⟨a, []⟩).1.pen.map asCall) = .ok evs)
    {τ : Type} (Q : AnySegmentPen τ) (hQ : TakesComponents Q) (s : τ) :
    let kept := readOnto E record accepts validate hasObj hasPen versions tree ⟨a, []⟩
    let read := readOnto E (segmentPen Q) accepts validate hasObj hasPen versions tree ⟨a, ⟨s, none⟩⟩
    read.1.pen.out = (receive Q s evs).1 ∧
    (∀ x, (receive Q s evs).2 = some x → read.2 = .error x) ∧
    ((receive Q s evs).2 = none → read.2 = kept.2 ∧ read.1.attrs = kept.1.attrs) := by
  obtain ⟨r1, r2, r3⟩ := C107_any_pen E (segmentPen Q) accepts validate hasObj hasPen versions tree a ⟨s, none⟩
  dsimp only at r1 r2 r3 ⊢
  rw [drawOn_segmentPen hQ] at r1 r2 r3
  unfold segmentEvents at he
  rcases hr : runPen (segmentPenStep false) none (((readOnto E record accepts validate hasObj hasPen versions tree ⟨a, []⟩).1.pen.map asCall).map penEvent) with e | ⟨p, evs'⟩
  · rw [hr] at he; cases he
  · rw [hr] at he
    injection he with he
    dsimp only at he
    subst he
    obtain ⟨k1, k2, -⟩ := send_segments Q _ s none p evs' hr
    rw [receive_eq, r1, ← k2]
    exact ⟨k1, r2, r3⟩

/-- With validation the calls of the reader can be turned into segments. -/
theorem events109 (E : Env) (accepts : Str → Bool) (hasObj hasPen : Bool) (versions : List Int) (tree : Elem) (a : Dict Str PyVal) :
    let kept := readOnto E record accepts true hasObj hasPen versions tree ⟨a, []⟩
    ∃ (d : List Spec.Glif.Item) (rest : List Call) (evs : List SegmentCall) (items : List (Spec.Draw.Path PyVal ⊕ (PyVal × PyVal))),
      segmentEvents (kept.1.pen.map asCall) = .ok evs ∧
      kept.1.pen.map asCall = Spec.Glif.drawing d ++ rest ∧ (∀ it ∈ d, Spec.Glif.GoodItem it) ∧ (kept.2 = .ok () → rest = []) ∧
      (∀ c ∈ rest, c ≠ .endPath ∧ ∀ g t i, c ≠ .addComponent g t i) ∧
      paint .idle evs = some items ∧ List.Forall₂ Drawn (d.filter Visible) items := by
  obtain ⟨parts, rest, h1, h2, h3, h4⟩ := shape108 E accepts true hasObj hasPen versions tree a
  obtain ⟨d, h5, h6⟩ := parts_drawing parts h2
  obtain ⟨evs, items, h7, h8, h9⟩ := drawing_drawn d h6
  refine ⟨d, rest.map asCall, evs, items, ?_, by rw [h1, List.map_append, h5], h6, fun h => by rw [h4 h]; rfl, ?_, h8, h9⟩
  · rw [h1, List.map_append, h5, segmentEvents, List.map_append, runPen_append _ _ _ _ _ _ h7]
    rcases h3 with rfl | ⟨i, points, rfl, hp⟩
    · simp [runPen]
    · obtain ⟨l, hl⟩ := rest_waits (i.map orNone) points hp
      rw [hl]
      simp
  · intro c hc
    rcases h3 with rfl | ⟨i, points, rfl, hp⟩
    · cases hc
    · rw [List.map_cons, List.mem_cons, List.mem_map] at hc
      rcases hc with rfl | ⟨c, hc, rfl⟩
      · exact ⟨fun h => (nomatch h), fun _ _ _ h => nomatch h⟩
      · obtain ⟨x, y, t, n, b, i, rfl⟩ := hp c hc
        exact ⟨fun h => (nomatch h), fun _ _ _ h => nomatch h⟩

/-- With validation they always can. What a segment pen gets keeps the pen protocol and draws, in order, the components and the paths of the contours
read, each whole; when the reading fails the contour it fails in is not begun. -/
theorem C109_draw_partial (E : Env) (accepts : Str → Bool) (hasObj hasPen : Bool) (versions : List Int) (tree : Elem) (a : Dict Str PyVal) :
    let kept := readOnto E record accepts true hasObj hasPen versions tree ⟨a, []⟩
    ∃ (d : List Spec.Glif.Item) (rest : List Call) (evs : List SegmentCall) (items : List (Spec.Draw.Path PyVal ⊕ (PyVal × PyVal))),
      kept.1.pen.map asCall = Spec.Glif.drawing d ++ rest ∧ (∀ it ∈ d, Spec.Glif.GoodItem it) ∧ (kept.2 = .ok () → rest = []) ∧
      (∀ c ∈ rest, c ≠ .endPath ∧ ∀ g t i, c ≠ .addComponent g t i) ∧
      paint .idle evs = some items ∧ List.Forall₂ Drawn (d.filter Visible) items ∧
      ∀ {τ : Type} (Q : AnySegmentPen τ), TakesComponents Q → ∀ s : τ,
        let read := readOnto E (segmentPen Q) accepts true hasObj hasPen versions tree ⟨a, ⟨s, none⟩⟩
        read.1.pen.out = (receive Q s evs).1 ∧
        (∀ x, (receive Q s evs).2 = some x → read.2 = .error x) ∧
        ((receive Q s evs).2 = none → read.2 = kept.2 ∧ read.1.attrs = kept.1.attrs) := by
  obtain ⟨d, rest, evs, items, h0, h⟩ := events109 E accepts hasObj hasPen versions tree a
  exact ⟨d, rest, evs, items, h.1, h.2.1, h.2.2.1, h.2.2.2.1, h.2.2.2.2.1, h.2.2.2.2.2, fun Q hQ s => C109_any_pen_partial E accepts true hasObj hasPen versions tree a evs h0 Q hQ s⟩

/-- A segment pen that takes three calls. -/
def full109 : AnySegmentPen (List SegmentCall) := fun s c => if s.length < 3 then (s ++ [c], none) else (s, some .indexError)

example : TakesComponents recordSegments ∧ TakesComponents full109 := by
  refine ⟨fun s c => by simp [recordSegments], fun s c => ?_⟩
  unfold full109
  by_cases h : s.length < 3 <;> simp [h]

/-- The first contour arrives whole, the second, in which the reading fails, not at all; and a pen that takes three calls. -/
example : (readOnto env107 (segmentPen recordSegments) (fun _ => true) true true true [1, 2] (tree108 c!"nine") ⟨[], ⟨[], none⟩⟩).1.pen.out =
      [.moveTo (.tuple [.int 1, .int 2]), .lineTo (.tuple [.int 3, .int 4]), .qCurveTo [some (.tuple [.int 5, .int 5]), some (.tuple [.int 6, .int 7])], .endPath] ∧
    (readOnto env107 (segmentPen recordSegments) (fun _ => true) true true true [1, 2] (tree108 c!"nine") ⟨[], ⟨[], none⟩⟩).2.toOption = none ∧
    (readOnto env107 (segmentPen full109) (fun _ => true) true true true [1, 2] (tree108 c!"9") ⟨[], ⟨[], none⟩⟩).1.pen.out.length = 3 ∧
    (readOnto env107 (segmentPen full109) (fun _ => true) true true true [1, 2] (tree108 c!"9") ⟨[], ⟨[], none⟩⟩).2 = .error .indexError := by
  refine ⟨by decide +kernel, by decide +kernel, by decide +kernel, by decide +kernel⟩

/-- So `glyphSet[name].draw(pen)` on a pen that keeps all calls is the drawing of C86. -/
theorem C109_agrees (E : Env) (w : World) (name : Str) :
    (∀ attrs evs, draw E w name true = .ok (attrs, evs) → drawOnto E recordSegments w name true [] = (⟨attrs, evs⟩, .ok ())) ∧
    (∀ x, draw E w name true = .error x → (drawOnto E recordSegments w name true []).2 = .error x) := by
  unfold draw drawOnto readGlyph
  by_cases hn : (!Dict.has w.1.contents name) = true
  · rw [if_pos hn, if_pos hn]
    exact ⟨fun _ _ h => (nomatch h), fun x h => by cases h; rfl⟩
  rw [if_neg hn, if_neg hn]
  rcases getGLIF w name with e | b
  · exact ⟨fun _ _ h => (nomatch h), fun x h => by cases h; rfl⟩
  dsimp only
  rcases glifTree b with e | t
  · exact ⟨fun _ _ h => (nomatch h), fun x h => by cases h; rfl⟩
  dsimp only
  generalize (if w.1.version < 3 then [1] else [1, 2] : List Int) = versions
  obtain ⟨d, rest, evs, items, hs, -⟩ := events109 E (fun _ => true) true true versions t []
  obtain ⟨k1, -, k3⟩ := C109_any_pen_partial E (fun _ => true) true true true versions t [] evs hs recordSegments (fun _ _ => by simp [recordSegments]) []
  rw [receive_record] at k1 k3
  obtain ⟨k4, k5⟩ := k3 rfl
  rw [agree_tree]
  rcases hq : readOnto E (segmentPen recordSegments) (fun _ => true) true true true versions t ⟨[], ⟨[], none⟩⟩ with ⟨⟨b', s', p'⟩, r⟩
  rw [hq] at k1 k4 k5
  dsimp only at k1 k4 k5
  rcases hr : readOnto E record (fun _ => true) true true true versions t ⟨[], []⟩ with ⟨⟨a, cs⟩, x | v⟩
  · rw [hr] at k4
    exact ⟨fun _ _ h => (nomatch h), fun y h => by cases h; exact k4⟩
  · rw [hr] at k4 k5 hs
    dsimp only at k4 k5 hs
    simp only [outcome, Except.map, hs]
    refine ⟨fun attrs evs' h => ?_, fun _ h => nomatch h⟩
    cases h
    rw [k1, k4, k5]
    rfl

example : (draw env71 src86 c!"a" true).toOption.map (fun r => r.2.length) = some 16 ∧
    (drawOnto env71 recordSegments src86 c!"a" true []).1.pen.length = 16 ∧ (drawOnto env71 recordSegments src86 c!"b" true []).2 = .error .keyError := by
  refine ⟨by decide +kernel, by decide +kernel, by decide +kernel⟩

/-- A glyph with an off-curve point before a line. -/
def tree109 : Elem :=
  .mk c!"glyph" [(c!"name", c!"A"), (c!"format", c!"2")] none none
    [.mk c!"outline" [] none none
      [.mk c!"contour" [] none none
        [.mk c!"point" [(c!"x", c!"1"), (c!"y", c!"2"), (c!"type", c!"line")] none none [],
         .mk c!"point" [(c!"x", c!"3"), (c!"y", c!"4"), (c!"type", c!"qcurve")] none none [],
         .mk c!"point" [(c!"x", c!"5"), (c!"y", c!"5")] none none [],
         .mk c!"point" [(c!"x", c!"6"), (c!"y", c!"7"), (c!"type", c!"line")] none none []]]]

/-- Without validation the calls of the reader cannot always be turned into segments: a glyph that can be read raises `AssertionError` when it is drawn, and the segment
pen is left with a path that has been begun and not ended. With validation nothing is drawn. -/
theorem C109_unvalidated_refuted :
    (readOnto env107 record (fun _ => true) false true true [1, 2] tree109 ⟨[], []⟩).2.toOption = some () ∧
    (readOnto env107 (segmentPen recordSegments) (fun _ => true) false true true [1, 2] tree109 ⟨[], ⟨[], none⟩⟩).2 = .error .assertionError ∧
    (readOnto env107 (segmentPen recordSegments) (fun _ => true) false true true [1, 2] tree109 ⟨[], ⟨[], none⟩⟩).1.pen.out =
      [.moveTo (.tuple [.int 1, .int 2]), .qCurveTo [some (.tuple [.int 3, .int 4])]] ∧
    (readOnto env107 (segmentPen recordSegments) (fun _ => true) true true true [1, 2] tree109 ⟨[], ⟨[], none⟩⟩).1.pen.out = [] := by
  refine ⟨by decide +kernel, by decide +kernel, by decide +kernel, by decide +kernel⟩

/-- A segment pen whose `addComponent` keeps the component and then raises `TypeError`, once. -/
def once109 : AnySegmentPen (List SegmentCall) := fun s c => (s ++ [c], if s.isEmpty then some .typeError else none)

/-- `TakesComponents` is needed: a `TypeError` out of the segment pen's `addComponent` is taken for a pen that does not know the keyword. The component is
added again, and the exception is lost. -/
theorem C109_component_refuted :
    (readOnto env107 (segmentPen once109) (fun _ => true) true true true [1, 2]
      (.mk c!"glyph" [(c!"name", c!"A"), (c!"format", c!"2")] none none [.mk c!"outline" [] none none [.mk c!"component" [(c!"base", c!"B")] none none []]]) ⟨[], ⟨[], none⟩⟩).1.pen.out =
      [.addComponent (.str c!"B", .tuple [.int 1, .int 0, .int 0, .int 1, .int 0, .int 0]), .addComponent (.str c!"B", .tuple [.int 1, .int 0, .int 0, .int 1, .int 0, .int 0])] ∧
    (readOnto env107 (segmentPen once109) (fun _ => true) true true true [1, 2]
      (.mk c!"glyph" [(c!"name", c!"A"), (c!"format", c!"2")] none none [.mk c!"outline" [] none none [.mk c!"component" [(c!"base", c!"B")] none none []]]) ⟨[], ⟨[], none⟩⟩).2.toOption = some () := by
  refine ⟨by decide +kernel, by decide +kernel⟩

end Verif.Props
