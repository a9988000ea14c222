import Verif.Model.Draw
import Verif.Model.GlifFile
/-! Glyph objects that are kept: `glyphSet[name]` gives an object that reads its glyph each time it is drawn, `glifLib.py` 62-84 and 455-458, and such objects as arguments of
`writeGlyph`, 359-426 and 581-628. -/
namespace Verif.GlyphSet
open Verif Verif.Glif

/-- `Glyph`, glifLib.py 62-72: its name and the attributes set on it so far. The glyph set is an argument of the functions below, since it changes. -/
structure Kept where
  name : Str
  attrs : Obj

/-- `GlyphSet.__getitem__`, glifLib.py 455-458. -/
def getitem (w : World) (name : Str) : Except Exc Kept :=
  if !Dict.has w.1.contents name then .error .keyError else .ok ⟨name, fun _ => none⟩

/-- The attributes after reading has set those it found, `_relaxedSetattr`, glifLib.py 1357-1361. -/
def absorb (o : Obj) (attrs : Dict Str PyVal) : Obj := fun k => match Dict.get? attrs k with
  | some v => some v
  | none => o k

/-- `Glyph.drawPoints`, glifLib.py 80-84: the object afterwards and the calls made on the pen. Simplification: what has been set and drawn when reading raises is left out. -/
def drawObject (E : Glif.Env) (w : World) (g : Kept) : Except Exc (Kept × List Glif.Call) :=
  match readGlyph E w g.name true true w.1.validateRead with
  | .error e => .error e
  | .ok (attrs, calls) => .ok (⟨g.name, absorb g.attrs attrs⟩, calls)

/-- `Glyph.draw`, glifLib.py 73-78, with the simplification of `draw` in `Model/Draw.lean`. -/
def drawSegments (E : Glif.Env) (w : World) (g : Kept) : Except Exc (Kept × List (PointPens.SEvent PyVal (PyVal × PyVal))) :=
  match drawObject E w g with
  | .error e => .error e
  | .ok (g', calls) => match segmentEvents calls with
    | .error e => .error e
    | .ok evs => .ok (g', evs)

/-- Drawing an object several times while the glyph set changes; the first exception ends it. -/
def drawAll (E : Glif.Env) : Kept → List World → Except Exc Kept
  | g, [] => .ok g
  | g, w :: ws => match drawObject E w g with
    | .error e => .error e
    | .ok (g', _) => drawAll E g' ws

/-- The object as `_writeGlyphToBytes` sees it when it is drawn while it is written: all attributes but `lib` are taken before the drawing (glifLib.py 593-609), `lib` after
it (621-622). -/
def seenBy (before after : Obj) : Obj := fun k => if k = c!"lib" then after k else before k

/-- `_writeGlyphToBytes(name, g, g.drawPoints, ...)`, glifLib.py 581-628, for an object `g` of the glyph set `w`. When the drawing raises, that is the exception, unless there
was one before. -/
def writeKept (E : Glif.Env) (validate : Bool) (fv : Nat) (name : PyVal) (w : World) (g : Kept) : Except Exc Bytes :=
  match drawObject E w g with
  | .error e => match writeGlyphTree E validate fv name (seenBy g.attrs fun _ => none) none with
    | .error e' => .error e'
    | .ok _ => .error e
  | .ok (g', calls) => GlifFile.writeGlyphToBytes E validate fv name (seenBy g.attrs g'.attrs) (some calls)

end Verif.GlyphSet
