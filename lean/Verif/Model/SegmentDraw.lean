import Verif.Model.PenStack
/-! `PointToSegmentPen`, `Lib/ufoLib/pointPen.py` 45-197, in front of any segment pen, and `Glyph.draw`, `Lib/ufoLib/glifLib.py` 73-84, with it: what
the segment pen has got at every moment. `Model/PointPens.lean` and `Model/Draw.lean` give the same without effects. -/
namespace Verif.SegmentDraw
open Verif Verif.PointPens Verif.GlifPen Verif.GlyphSet

/-- A call on a segment pen. -/
abbrev SegmentCall := SEvent PyVal (PyVal × PyVal)

/-- A segment pen: what a call does to its state, and whether it raises. -/
abbrev AnySegmentPen (τ : Type) := τ → SegmentCall → τ × Option Exc

/-- Calls of the segment pen, one after the other. -/
def sendSegments {τ : Type} (Q : AnySegmentPen τ) (s : τ) : List SegmentCall → τ × Option Exc
  | [] => (s, none)
  | c :: cs => match Q s c with
    | (s, some x) => (s, some x)
    | (s, none) => sendSegments Q s cs

/-- The segment loop of `_flushContour`, pointPen.py 175-190: the calls made, and the assertion that fails after them. -/
def callsUntil (closed implied : Bool) : List (Segment PyVal PyVal) → List SegmentCall × Option Exc
  | [] => ([], none)
  | s :: rest =>
    match segmentCall (!(!rest.isEmpty || implied || !closed)) s.1 s.2 with
    | .error e => ([], some e)
    | .ok evs => match callsUntil closed implied rest with
      | (more, r) => (evs ++ more, r)

/-- The end of `_flushContour`, pointPen.py 191-194, which is not reached when an assertion has failed. -/
def thenCall (last : SegmentCall) : List SegmentCall × Option Exc → List SegmentCall × Option Exc
  | (evs, some e) => (evs, some e)
  | (evs, none) => (evs ++ [last], none)

/-- `PointToSegmentPen._flushContour`, pointPen.py 152-194: the calls made, and the assertion that fails after them. -/
def flushUntil (implied : Bool) (segments : List (Segment PyVal PyVal)) : List SegmentCall × Option Exc :=
  match segments with
  | [] => ([], some .assertionError)
  | (.move, pts) :: rest =>
    match pts with
    | [some p] => match thenCall .endPath (callsUntil false implied rest) with
      | (evs, r) => (.moveTo p.pt :: evs, r)
    | _ => ([], some .assertionError)
  | segs =>
    match (segs.getLast?.bind fun s => s.2.getLast?) with
    | none => ([], some .indexError)
    | some x => match thenCall .closePath (callsUntil true implied segs) with
      | (evs, r) => ((match x with | some p => [.moveTo p.pt] | none => []) ++ evs, r)

/-- The pen behind and `currentPath`, pointPen.py 54-55, 144-147. -/
structure Segmenting (τ : Type) where
  out : τ
  path : Option (List (Point PyVal PyVal))

/-- `endPath` with a path, pointPen.py 92-137: `currentPath` is reset before the flush. -/
def flushPath {τ : Type} (Q : AnySegmentPen τ) (o : τ) (l : List (Point PyVal PyVal)) : Segmenting τ × Option Exc :=
  match segmentsOf l with
  | none => (⟨o, none⟩, none)
  | some segs => match flushUntil false segs with
    | (evs, r) => match sendSegments Q o evs with
      | (o, some x) => (⟨o, none⟩, some x)
      | (o, none) => (⟨o, none⟩, r)

/-- One call on a `PointToSegmentPen`, pointPen.py 57-60, 90-137, 136-137, 196-197: the keyword is accepted everywhere and not passed on. -/
def segmentPen {τ : Type} (Q : AnySegmentPen τ) : AnyPen (Segmenting τ) := fun s c =>
  match c, s.path with
  | .beginPath _, some _ => (s, some .assertionError)
  | .beginPath _, none => (⟨s.out, some []⟩, none)
  | .addPoint .., none => (s, some .attributeError)
  | .addPoint pt t smooth name i, some l =>
    (⟨s.out, some (l ++ [⟨pt, segmentTypeOf t, decide (smooth = .bool true), strArg name, i.getD .none⟩])⟩, none)
  | .endPath, none => (s, some .assertionError)
  | .endPath, some l => flushPath Q s.out l
  | .addComponent g t _, _ => match Q s.out (.addComponent (g, t)) with
    | (o, r) => (⟨o, s.path⟩, r)

/-- `glyphSet[name].draw(pen)`, glifLib.py 455-458, 73-84, on the state of the pen: the attributes of the glyph object, the pen, and the outcome. -/
def drawOnto {τ : Type} (E : Glif.Env) (Q : AnySegmentPen τ) (w : World) (name : Str) (validate : Bool) (s : τ) : Effects τ × Except Exc Unit :=
  if !Dict.has w.1.contents name then (⟨[], s⟩, .error .keyError)
  else match getGLIF w name with
    | .error e => (⟨[], s⟩, .error e)
    | .ok b => match glifTree b with
      | .error e => (⟨[], s⟩, .error e)
      | .ok t => match readOnto E (segmentPen Q) (fun _ => true) validate true true (if w.1.version < 3 then [1] else [1, 2]) t ⟨[], ⟨s, none⟩⟩ with
        | (f, r) => (⟨f.attrs, f.pen.out⟩, r)

end Verif.SegmentDraw
