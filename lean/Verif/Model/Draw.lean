import Verif.Model.PointPens
import Verif.Model.GlyphTable
/-! Drawing a glyph of a glyph set with a segment pen: `Glyph.draw`, `glifLib.py` 73-84, through `PointToSegmentPen`, `pointPen.py` 45-197. -/
namespace Verif.PointPens
open Verif

variable {P K C : Type}

/-- One call on a `PointToSegmentPen`, pointPen.py 58-60, 90-138, 196-197. State: `currentPath`. Output: the calls made on the segment
pen. `addPoint` with `currentPath = None` raises `AttributeError`; `addComponent` does not look at the path. -/
def segmentPenStep (implied : Bool) (s : Option (List (Point P K))) : PEvent P K C → Except Exc (Option (List (Point P K)) × List (SEvent P C))
  | .beginPath _ => match s with
    | none => .ok (some [], [])
    | some _ => .error .assertionError
  | .addPoint p => match s with
    | none => .error .attributeError
    | some l => .ok (some (l ++ [p]), [])
  | .endPath => match s with
    | none => .error .assertionError
    | some l => match toSegments implied l with
      | .error e => .error e
      | .ok evs => .ok (none, evs)
  | .addComponent c => .ok (s, [.addComponent c])

end Verif.PointPens

namespace Verif.GlyphSet
open Verif Verif.PointPens

/-- `segmentType` as the pens compare it: `None`, one of the four names, or anything else (which they treat alike). -/
def segmentTypeOf : PyVal → Option ST
  | .none => none
  | .str t => some (if t = c!"move" then .move else if t = c!"line" then .line else if t = c!"curve" then .curve
      else if t = c!"qcurve" then .qcurve else .other t)
  | _ => some (.other [])

/-- A string argument, `None` for other values (names and identifiers reach the segment pen in no way). -/
def strArg : PyVal → Option Str
  | .str s => some s
  | _ => none

/-- A call of the reader (glifLib.py 1140-1146, 1193-1197, 1217-1222, 1245-1249) as call on a pen: coordinates and base glyph with transformation as
given, the rest as above. -/
def penEvent : Glif.Call → PEvent PyVal PyVal (PyVal × PyVal)
  | .beginPath i => .beginPath (strArg i)
  | .addPoint pt t smooth name identifier => .addPoint ⟨pt, segmentTypeOf t, decide (smooth = .bool true), strArg name, identifier⟩
  | .endPath => .endPath
  | .addComponent g t _ => .addComponent (g, t)

/-- The calls a segment pen receives when the point pen receives the given ones, `PointToSegmentPen(pen)`, glifLib.py 77-78. -/
def segmentEvents (calls : List Glif.Call) : Except Exc (List (SEvent PyVal (PyVal × PyVal))) :=
  match runPen (segmentPenStep false) none (calls.map penEvent) with
  | .error e => .error e
  | .ok r => .ok r.2

/-- `glyphSet[name].draw(pen)`, glifLib.py 455-458, 73-84: the attributes set on the glyph and the calls made on the pen. Simplification: the
glyph is read completely before the pen is called, so when an error is met nothing has been drawn (`Model/SegmentDraw.lean` has it call by call). -/
def draw (E : Glif.Env) (w : World) (name : Str) (validate : Bool) : Except Exc (Dict Str PyVal × List (SEvent PyVal (PyVal × PyVal))) :=
  if !Dict.has w.1.contents name then .error .keyError
  else match readGlyph E w name true true validate with
    | .error e => .error e
    | .ok (attrs, calls) => match segmentEvents calls with
      | .error e => .error e
      | .ok evs => .ok (attrs, evs)

/-- A call of the reader as call on a filtering point pen: as `penEvent`, with the identifier of components. -/
def pointEvent : Glif.Call → PEvent PyVal PyVal (PyVal × PyVal × PyVal)
  | .beginPath i => .beginPath (strArg i)
  | .addPoint pt t smooth name identifier => .addPoint ⟨pt, segmentTypeOf t, decide (smooth = .bool true), strArg name, identifier⟩
  | .endPath => .endPath
  | .addComponent g t i => .addComponent (g, t, i)

/-- `None` or a string as argument. -/
def argOf : Option Str → PyVal
  | none => .none
  | some s => .str s

/-- A segment type as argument. -/
def typeArg : Option ST → PyVal
  | none => .none
  | some .move => .str c!"move"
  | some .line => .str c!"line"
  | some .curve => .str c!"curve"
  | some .qcurve => .str c!"qcurve"
  | some (.other s) => .str s

/-- A call a filtering point pen makes, as call on the pen that writes glyphs, pointPen.py 380-388, 402-407. -/
def pointCall : PEvent PyVal PyVal (PyVal × PyVal × PyVal) → Glif.Call
  | .beginPath i => .beginPath (argOf i)
  | .addPoint p => .addPoint p.pt (typeArg p.seg) (.bool p.smooth) (argOf p.name) p.kwargs
  | .endPath => .endPath
  | .addComponent c => .addComponent c.1 c.2.1 c.2.2

/-- The calls that come out of a `ReverseContourPointPen`, pointPen.py 325-407. -/
def reversedCalls (calls : List Glif.Call) : Except Exc (List Glif.Call) :=
  match runPen revStep none (calls.map pointEvent) with
  | .error e => .error e
  | .ok r => .ok (r.2.map pointCall)

end Verif.GlyphSet
