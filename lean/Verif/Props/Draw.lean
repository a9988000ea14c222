import Verif.Proofs.ReverseGlyph
import Verif.Props.Glif
import Verif.Props.Copy
/-! Drawing glyphs with segment pens: C86. -/
namespace Verif.Props
open Verif Verif.GlyphSet Verif.PointPens Verif.Spec.Draw

/-! ### C86 -/

/-- Every glyph that can be read can be drawn with a segment pen; the calls keep the pen protocol and draw, in order, the components and the paths
that the points of the contours describe. Nothing is left out but contours without points and closing lines of length zero. -/
theorem C86_draw (E : Glif.Env) (w : World) (name : Str) (hasObj : Bool) (attrs : Dict Str PyVal) (calls : List Glif.Call)
    (h : readGlyph E w name hasObj true true = .ok (attrs, calls)) : ∃ d evs items, calls = Spec.Glif.drawing d ∧ segmentEvents calls = .ok evs ∧
      paint .idle evs = some items ∧ List.Forall₂ Drawn (d.filter Visible) items := by
  obtain ⟨b, t, -, -, ht⟩ : ∃ b t, getGLIF w name = .ok b ∧ glifTree b = .ok t ∧
      Glif.readGlyphTree E true hasObj true (if w.1.version < 3 then [1] else [1, 2]) t = .ok (attrs, calls) := by
    unfold readGlyph at h
    split at h
    · cases h
    · split at h
      · cases h
      · exact ⟨_, _, by assumption, by assumption, h⟩
  obtain ⟨d, rfl, hd⟩ := C43_contours E hasObj true _ t attrs calls ht
  obtain ⟨evs, items, h1, h2, h3⟩ := drawing_drawn d hd
  exact ⟨d, evs, items, rfl, by rw [segmentEvents, h1], h2, h3⟩

/-- So `glyphSet[name].draw(pen)` raises exactly what `readGlyph` raises, and otherwise sets the same attributes. -/
theorem C86_outcome (E : Glif.Env) (w : World) (name : Str) :
    (draw E w name true).map Prod.fst = (readGlyph E w name true true true).map Prod.fst := by
  unfold draw
  cases hm : Dict.has w.1.contents name with
  | false =>
    have : Dict.get? w.1.contents name = none := Dict.get?_eq_none_iff.2 (Dict.has_eq_false_iff.1 hm)
    simp [readGlyph, getGLIF, this, Except.map]
  | true =>
    cases hr : readGlyph E w name true true true with
    | error e => rfl
    | ok r =>
      obtain ⟨attrs, calls⟩ := r
      obtain ⟨d, evs, items, -, h, -⟩ := C86_draw E w name true attrs calls hr
      simp [h, Except.map]

/-- The points of a contour describe one path only. -/
theorem C86_path_unique {P : Type} (l : List (P × Option Str)) (p q : Spec.Draw.Path P) (hp : IsPath l p) (hq : IsPath l q) : p = q := isPath_unique hp hq

/-- A glyph whose outline has an open contour, a triangle, a curve that starts with off-curve points, a loop without on-curve points,
a single point, an empty contour and a component. -/
def text86 : Str := c!"<glyph name='a' format='2'><outline>\
<contour><point x='1' y='0' type='move'/><point x='2' y='0' type='line'/></contour>\
<contour><point x='3' y='0' type='line'/><point x='4' y='0' type='line'/><point x='4' y='4' type='line' smooth='yes'/></contour>\
<contour identifier='c'><point x='5' y='0'/><point x='6' y='0' type='curve' name='n'/><point x='7' y='0' type='line'/><point x='8' y='0' identifier='p'/></contour>\
<contour><point x='9' y='0'/><point x='10' y='0'/></contour>\
<contour><point x='11' y='0' type='curve'/></contour><contour/><component base='b'/></outline></glyph>"

/-- A glyph set with this glyph. -/
def src86 : World :=
  ({ dir := [c!"glyphs"], contents := [(c!"a", c!"a.glif")], existing := none, reverse := none, havePrevious := true, version := 3, validateRead := true },
   { canon := id, log := [], nodes := [([c!"glyphs"], .dir), ([c!"glyphs", c!"a.glif"], .file (utf8 text86))] })

private def at86 (x y : Int) : PyVal := .tuple [.int x, .int y]

example : (draw env71 src86 c!"a" true).toOption.map Prod.snd = some [.moveTo (at86 1 0), .lineTo (at86 2 0), .endPath,
    .moveTo (at86 3 0), .lineTo (at86 4 0), .lineTo (at86 4 4), .closePath,
    .moveTo (at86 6 0), .lineTo (at86 7 0), .curveTo [at86 8 0, at86 5 0, at86 6 0], .closePath,
    .qCurveTo [some (at86 9 0), some (at86 10 0), none], .closePath, .moveTo (at86 11 0), .endPath,
    .addComponent (.str c!"b", .tuple [.int 1, .int 0, .int 0, .int 1, .int 0, .int 0])] := by decide +kernel

/-! ### C87 -/

/-- Any contour that describes a path: the reversed contour describes the same path backwards. -/
theorem C87_contour {P K C : Type} (i : Option Str) (l : List (Point P K)) (hk : ∀ p ∈ l, ∀ s, p.seg ≠ some (.other s)) (p : Spec.Draw.Path P)
    (hp : IsPath (l.map fun x => (x.pt, x.seg.map stName)) p) :
    ∃ (r : List (Point P K)) (p' : Spec.Draw.Path P), runPen (revStep (C := C)) none (.beginPath i :: (l.map .addPoint ++ [.endPath])) = .ok (none, .beginPath i :: (r.map .addPoint ++ [.endPath])) ∧
      IsPath (r.map fun x => (x.pt, x.seg.map stName)) p' ∧ Backwards p p' := by
  obtain ⟨R, p', h1, h2, h3⟩ := reverse_path l hk hp
  exact ⟨R, p', revPen_contour i l h1, h2, h3⟩

/-- Every glyph that can be read can be reversed: the pen does not raise, keeps components, points and identifiers, and every contour describes the same path
backwards. Reversing the result gives the glyph again. -/
theorem C87_glyph (E : Glif.Env) (versions : List Int) (b : Bytes) (attrs : Dict Str PyVal) (calls : List Glif.Call)
    (h : GlifFile.readGlyphFromBytes E true true true versions b = .ok (attrs, calls)) : ∃ d d', calls = Spec.Glif.drawing d ∧
      reversedCalls calls = .ok (Spec.Glif.drawing d') ∧ List.Forall₂ ReversedItem d d' ∧ reversedCalls (Spec.Glif.drawing d') = .ok calls := by
  obtain ⟨d, d', h1, h2, h3, h4, -, -⟩ := glyph_reversed (Glif.readBytes_fine h)
  exact ⟨d, d', h1, h2, h4, h3⟩

/-- The reversed glyph can be written, and is read again as it is. -/
theorem C87_written_partial (E : Glif.Env) (hE : Spec.Glif.ReprLaws E) (versions versions' : List Int) (hv : 2 ∈ versions') (b : Bytes) (attrs : Dict Str PyVal) (calls : List Glif.Call)
    (h : GlifFile.readGlyphFromBytes E true true true versions b = .ok (attrs, calls)) (hc : Spec.Glif.Clean attrs calls) :
    ∃ calls' b' attrs'' calls'', reversedCalls calls = .ok calls' ∧
      GlifFile.writeGlyphToBytes E true 2 (Spec.Glif.delivered attrs c!"name") (Spec.Glif.asObj attrs) (some calls') = .ok b' ∧
      GlifFile.readGlyphFromBytes E true true true versions' b' = .ok (attrs'', calls'') ∧ List.Forall₂ Spec.Glif.SameCall calls' calls'' ∧
      Spec.Glif.SameGlyph (Spec.Glif.delivered attrs c!"name") (Spec.Glif.asObj attrs) attrs'' := by
  obtain ⟨d, d', -, h2, -, -, h5, h6⟩ := glyph_reversed (Glif.readBytes_fine h)
  obtain ⟨b', attrs'', calls'', k1, k2, k3, k4⟩ := fine_rewrite hE hv h5 (h6 hc)
  exact ⟨_, b', attrs'', calls'', h2, k1, k2, k3, k4⟩

/-- What is read from the glyph above. -/
def read87 : Dict Str PyVal × List Glif.Call := ((GlifFile.readGlyphFromBytes env71 true true true [1, 2] (utf8 text86)).toOption).getD ([], [])

theorem read87_eq : GlifFile.readGlyphFromBytes env71 true true true [1, 2] (utf8 text86) = .ok (read87.1, read87.2) := by
  have h : (GlifFile.readGlyphFromBytes env71 true true true [1, 2] (utf8 text86)).toOption.isSome = true := by decide +kernel
  unfold read87
  revert h
  cases GlifFile.readGlyphFromBytes env71 true true true [1, 2] (utf8 text86) with
  | error e => intro h; cases h
  | ok b => intro _; rfl

theorem clean87 : Spec.Glif.Clean read87.1 read87.2 where
  data := by decide +kernel
  calls := by decide +kernel
  note := by decide +kernel
  lib := by
    have : Spec.Glif.delivered read87.1 c!"lib" = .none := by decide +kernel
    rw [this]
    simp [Spec.Plist.Fits]

/-- The hypotheses hold for it: it is reversed, written and read. -/
example : ∃ calls' b' attrs'' calls'', reversedCalls read87.2 = .ok calls' ∧
    GlifFile.writeGlyphToBytes env71 true 2 (Spec.Glif.delivered read87.1 c!"name") (Spec.Glif.asObj read87.1) (some calls') = .ok b' ∧
    GlifFile.readGlyphFromBytes env71 true true true [1, 2] b' = .ok (attrs'', calls'') ∧ List.Forall₂ Spec.Glif.SameCall calls' calls'' ∧
    Spec.Glif.SameGlyph (Spec.Glif.delivered read87.1 c!"name") (Spec.Glif.asObj read87.1) attrs'' :=
  C87_written_partial env71 reprLaws71 [1, 2] [1, 2] (by decide) _ _ _ read87_eq clean87

/-- The third contour: it starts with the same off-curve point, and the types have moved. -/
example : (reversedCalls read87.2).toOption.map (fun c => (c.drop 9).take 6) = some [.beginPath (.str c!"c"), .addPoint (at86 5 0) .none (.bool false) .none .none,
    .addPoint (at86 8 0) .none (.bool false) .none (.str c!"p"), .addPoint (at86 7 0) (.str c!"curve") (.bool false) .none .none,
    .addPoint (at86 6 0) (.str c!"line") (.bool false) (.str c!"n") .none, .endPath] := by decide +kernel

/-- Its path, and the path of the reversed contour. -/
example : Backwards (.closed 6 [.line 6 7, .curve 7 [8, 5] 6] : Spec.Draw.Path Nat) (.closed 7 [.line 7 6, .curve 6 [5, 8] 7]) :=
  .closed 6 7 [.line 6 7, .curve 7 [8, 5] 6] [.curve 6 [5, 8] 7] [.line 7 6] rfl rfl

end Verif.Props
