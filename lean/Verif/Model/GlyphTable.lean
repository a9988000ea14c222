import Verif.Model.GlifScan
import Verif.Model.Ufo
/-! Tables made from all glyphs of a glyph set, `glifLib.py` 460-505, and the character mapping, `__init__.py` 664-680. -/
namespace Verif.GlyphSet
open Verif

/-- The tree of a GLIF file. Simplifications: only UTF-8 files are read, by the XML parser of `Verif/Spec/Xml.lean`; files that are not well-formed
raise (expat reports what it finds before the error, and an incomplete file raises no error in `_fetchUnicodes` and the like: see
`Verif/Model/Expat.lean`, which makes no difference for well-formed files by C111). -/
def glifTree (b : Bytes) : Except Exc Elem :=
  match utf8Decode b with
  | none => .error .xmlParseError
  | some s => match Spec.Xml.parse s with
    | none => .error .xmlParseError
    | some e => .ok e

/-- The value fetched for one glyph: `getGLIF` followed by one of the `_fetch…` functions. -/
def fetchGlyph {α : Type} (fetch : Elem → Except Exc α) (w : World) (name : Str) : Except Exc α :=
  match getGLIF w name with
  | .error e => .error e
  | .ok b => match glifTree b with
    | .error e => .error e
    | .ok t => fetch t

/-- The loop of `getUnicodes`, `getComponentReferences` and `getImageReferences`, glifLib.py 472-475, 487-490, 502-505. -/
def fetchAll {α : Type} (fetch : Elem → Except Exc α) (w : World) (table : Dict Str α) : List Str → Except Exc (Dict Str α)
  | [] => .ok table
  | n :: ns => match fetchGlyph fetch w n with
    | .error e => .error e
    | .ok v => fetchAll fetch w (Dict.set table n v) ns

/-- `getUnicodes`, glifLib.py 462-475. -/
def getUnicodes (w : World) (names : Option (List Str)) : Except Exc (Dict Str (List Int)) :=
  fetchAll Glif.fetchUnicodes w [] (names.getD (keys w.1))

/-- `getComponentReferences`, glifLib.py 477-490. -/
def getComponentReferences (w : World) (names : Option (List Str)) : Except Exc (Dict Str (List Str)) :=
  fetchAll Glif.fetchComponentBases w [] (names.getD (keys w.1))

/-- `getImageReferences`, glifLib.py 492-505. -/
def getImageReferences (w : World) (names : Option (List Str)) : Except Exc (Dict Str (Option Str)) :=
  fetchAll Glif.fetchImageFileName w [] (names.getD (keys w.1))

/-- `readGlyph`, glifLib.py 314-358: the attributes set on the glyph object and the calls made on the pen. -/
def readGlyph (E : Glif.Env) (w : World) (name : Str) (hasObj hasPen validate : Bool) : Except Exc (Dict Str PyVal × List Glif.Call) :=
  match getGLIF w name with
  | .error e => .error e
  | .ok b => match glifTree b with
    | .error e => .error e
    | .ok t => Glif.readGlyphTree E validate hasObj hasPen (if w.1.version < 3 then [1] else [1, 2]) t

end Verif.GlyphSet

namespace Verif.Ufo
open Verif

/-- The inner loop of `getCharacterMapping`, `__init__.py` 675-679. -/
def addCodes (name : Str) (cmap : Dict Int (List Str)) : List Int → Dict Int (List Str)
  | [] => cmap
  | code :: codes => match Dict.get? cmap code with
    | some names => addCodes name (Dict.set cmap code (names ++ [name])) codes
    | none => addCodes name (Dict.set cmap code [name]) codes

/-- The outer loop, `__init__.py` 673-674. -/
def characterMap (table : Dict Str (List Int)) : Dict Int (List Str) := table.foldl (fun cmap e => addCodes e.1 cmap e.2) []

/-- `getCharacterMapping`, `__init__.py` 664-680. -/
def getCharacterMapping (F : FloatCodec) (fs : FS) (version : Int) (layerName : Option Str) (validate : Bool) : Except Exc (Dict Int (List Str)) :=
  match readerGlyphSet F fs version layerName validate with
  | .error e => .error e
  | .ok gs => match GlyphSet.getUnicodes (gs, fs) none with
    | .error e => .error e
    | .ok table => .ok (characterMap table)

/-! ### Paths of UFOs -/

/-- `os.path.split` on POSIX: the part up to the last slash, without trailing slashes unless it consists of slashes only, and the rest. -/
def splitPath (path : Str) : Str × Str :=
  let name := (path.reverse.takeWhile (· ≠ '/')).reverse
  let head := (path.reverse.dropWhile (· ≠ '/')).reverse
  let stripped := (head.reverse.dropWhile (· = '/')).reverse
  (if stripped = [] then head else stripped, name)

/-- `os.path.join(dir, name)` on POSIX. -/
def joinPath (dir name : Str) : Str :=
  if name.head? = some '/' then name
  else if dir = [] ∨ dir.getLast? = some '/' then dir ++ name
  else dir ++ ['/'] ++ name

/-- `makeUFOPath`, `__init__.py` 1609-1621. -/
def makeUFOPath (path : Str) : Str :=
  let p := splitPath path
  joinPath p.1 (join ['.'] [join ['.'] (splitOn '.' p.2).dropLast, c!"ufo"])

end Verif.Ufo
