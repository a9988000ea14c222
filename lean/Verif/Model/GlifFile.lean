import Verif.Model.Glif
import Verif.Model.GlyphTable
import Verif.Model.Xml
/-! Glyphs as text: the end of `_writeGlyphToBytes`, `writeGlyphToString` and `readGlyphFromString`, `glifLib.py` 541-667.

The text is what the serializer in `Lib/ufoLib/etree.py` writes, the one used when lxml is not installed. -/
namespace Verif.GlifFile
open Verif Verif.Glif

/-- The text of a tree, glifLib.py 624-627, before it is encoded. -/
def treeText (tree : Elem) : Except Exc Str :=
  match Xml.tostring false true tree with
  | .error e => .error e
  | .ok s => .ok (Xml.xmlDeclaration ++ ['\n'] ++ s)

/-- `_writeGlyphToBytes`, glifLib.py 581-628. -/
def writeGlyphToBytes (E : Env) (validate : Bool) (fv : Nat) (name : PyVal) (o : Obj) (draw : Option (List Call)) : Except Exc Bytes :=
  match writeGlyphTree E validate fv name o draw with
  | .error e => .error e
  | .ok tree => match treeText tree with
    | .error e => .error e
    | .ok s => .ok (utf8 s)

/-- `writeGlyphToString`, glifLib.py 631-667. The bytes are UTF-8 by construction, so decoding them cannot fail in the code; the model
says what happens if it did. -/
def writeGlyphToString (E : Env) (validate : Bool) (fv : Nat) (name : PyVal) (o : Obj) (draw : Option (List Call)) : Except Exc Str :=
  match writeGlyphToBytes E validate fv name o draw with
  | .error e => .error e
  | .ok b => match utf8Decode b with
    | none => .error .valueError
    | some s => .ok s

/-- `readGlyphFromString`, glifLib.py 541-575, for a `bytes` argument: `_glifTreeFromString` (877-884) and `_readGlyphFromTree`. -/
def readGlyphFromBytes (E : Env) (validate hasObj hasPen : Bool) (versions : List Int) (b : Bytes) : Except Exc (Dict Str PyVal × List Call) :=
  match GlyphSet.glifTree b with
  | .error e => .error e
  | .ok t => readGlyphTree E validate hasObj hasPen versions t

/-- `readGlyphFromString` for a `str` argument, which is encoded first. -/
def readGlyphFromString (E : Env) (validate hasObj hasPen : Bool) (versions : List Int) (s : Str) : Except Exc (Dict Str PyVal × List Call) :=
  readGlyphFromBytes E validate hasObj hasPen versions (utf8 s)

/-- `GlyphSet.writeGlyph`, glifLib.py 359-426, with the glyph that is written: `GlyphSet.writeGlyph` of the model with the bytes made by
`_writeGlyphToBytes`. -/
def writeGlyph (E : Env) (L : Casing) (naming : GlyphSet.Naming) (w : GlyphSet.World) (name : Str) (formatVersion : Option Int) (validate : Bool) (o : Obj) (draw : Option (List Call)) :
    GlyphSet.World × Except Exc Unit :=
  GlyphSet.writeGlyph L naming w name formatVersion fun v => writeGlyphToBytes E validate v.toNat (.str name) o draw

end Verif.GlifFile
