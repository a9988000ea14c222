import Verif.Model.Images
import Verif.Model.LayerInfo
import Verif.Model.FontInfo
/-! The calls that can be made on a `UFOWriter`, and histories of them. -/
namespace Verif.Ufo
open Verif Verif.IO Verif.Converters

/-- `FONTINFO_FILENAME`, `__init__.py` 85. -/
def fontinfoName : Str := c!"fontinfo.plist"

/-- `setKerningGroupConversionRenameMaps`, `__init__.py` 1098-1121. -/
def setMaps (w : World) (side1 side2 : Dict Str Str) : World :=
  if 3 ≤ w.1.version then w else ({ w.1 with renameMap := some (flipMaps side1 side2) }, w.2)

/-- `writeInfo`, `__init__.py` 1175-1215: `FontInfo.writeInfo` makes the dictionary. -/
def writeInfo (E : FontInfo.Env) (w : World) (info : Str → Option PyVal) (validate : Bool) : World × Except Exc Unit :=
  match FontInfo.writeInfo E w.1.version.toNat validate info with
  | .error e => (w, .error e)
  | .ok d =>
    let r := writePlist E.F w.1.havePrevious w.2 [fontinfoName] (.dict (d.map fun e => (.str e.1, e.2)))
    ((w.1, r.1), r.2)

/-- `readInfo`, `__init__.py` 460-508: `FontInfo.readInfo` works on the dictionary. Simplification: a dictionary with keys that are not strings is
rejected. -/
def readInfo (E : FontInfo.Env) (fs : FS) (version : Int) (validate : Bool) : Except Exc (Dict Str PyVal) :=
  match getPlist E.F fs [fontinfoName] (some (.dict [])) with
  | .error e => .error e
  | .ok (.dict d) => match rowOf d with
    | .error e => .error e
    | .ok t => FontInfo.readInfo E version.toNat validate t
  | .ok _ => .error .ufoLibError

/-- The calls on a writer, and the calls on a glyph set it gave out (in whatever state that glyph set is). -/
inductive Op where
  | maps (side1 side2 : Dict Str Str)
  | info (info : Str → Option PyVal) (validate : Bool)
  | lib (lib : PyVal) (validate : Bool)
  | groups (groups : Dict Str (List Str)) (validate : Bool)
  | kerning (kerning : Dict (Str × Str) PyVal) (validate : Bool)
  | features (text : Str)
  | glyphSet (layer : Option Str) (default validateRead : Bool)
  | rename (layer new : Option Str) (default : Bool)
  | delete (layer : Option Str)
  | layerContents (order : Option (List (Option Str))) (validate : Bool)
  | image (name : Str) (data : Bytes) (validate : Bool)
  | removeImage (name : Str)
  | bytes (path : Path) (data : Bytes)
  | remove (path : Path) (force removeEmptyParents : Bool)
  | copy (source : FS) (sourcePath path : Path)
  | copyImage (source : FS) (sourceName name : Str)
  | glyph (gs : GlyphSet.GlyphSet) (op : GlyphSet.Op)
  | layerInfo (gs : GlyphSet.GlyphSet) (info : Str → Option PyVal) (validate : Bool)

/-- One call: the state afterwards (also when it raises) and the outcome. -/
def step (E : FontInfo.Env) (L : Casing) (w : World) : Op → World × Except Exc Unit
  | .maps a b => (setMaps w a b, .ok ())
  | .info i validate => writeInfo E w i validate
  | .lib v validate => writeLib E.F w v validate
  | .groups g validate => writeGroups E.F w g validate
  | .kerning k validate => writeKerning E.F w k validate
  | .features s => writeFeatures w s
  | .glyphSet n d v =>
    let r := getGlyphSet L E.F w n d v
    (r.1, r.2.map fun _ => ())
  | .rename n m d => renameGlyphSet L w n m d
  | .delete n => deleteGlyphSet w n
  | .layerContents o validate => writeLayerContents E.F w o validate
  | .image n d validate => writeImage w n d validate
  | .removeImage n => removeImage w n
  | .bytes p d =>
    let r := writeBytesToPath w.1.havePrevious w.2 p d
    ((w.1, r.1), r.2)
  | .remove p force re =>
    let r := removePath w.2 p force re
    ((w.1, r.1), r.2)
  | .copy src p q =>
    let r := copyFromReader src w.2 p q
    ((w.1, r.1), r.2)
  | .copyImage src n m => copyImageFromReader src w n m
  | .glyph gs op =>
    let r := GlyphSet.step L E.F (gs, w.2) op
    ((w.1, r.1.2), r.2)
  | .layerInfo gs info validate =>
    let r := GlyphSet.writeLayerInfo E.F (gs, w.2) info validate
    ((w.1, r.1.2), r.2)

/-- A history of calls, each made whether or not the earlier ones raised. -/
def run (E : FontInfo.Env) (L : Casing) (w : World) : List Op → World
  | [] => w
  | op :: ops => run E L (step E L w op).1 ops

/-- A writer is opened, calls are made, and it is given up. `rootExisted` is `os.path.exists(path)` when the writer is opened with a path (`__init__.py` 849, 862),
`false` when it is given a file system. -/
structure Session where
  rootExisted : Bool
  version : Int
  creator : PyVal
  validate : Bool
  ops : List Op

/-- `havePreviousFile`, `__init__.py` 785-905. -/
def Session.havePrevious (s : Session) (fs : FS) : Bool := s.rootExisted || fs.exists [metainfoName]

/-- The opening of a session. -/
def Session.open (E : FontInfo.Env) (s : Session) (fs : FS) : FS × Except Exc Writer :=
  openWriter E.F (s.havePrevious fs) fs s.version s.creator s.validate

/-- A whole session: the files afterwards and whether the opening succeeded. -/
def Session.run (E : FontInfo.Env) (L : Casing) (s : Session) (fs : FS) : FS × Bool :=
  match s.open E fs with
  | (fs', .error _) => (fs', false)
  | (fs', .ok w) => ((Ufo.run E L (w, fs') s.ops).2, true)

/-- A sequence of sessions: the files afterwards and the versions of the successful openings. -/
def runSessions (E : FontInfo.Env) (L : Casing) (fs : FS) : List Session → FS × List Int
  | [] => (fs, [])
  | s :: rest =>
    let r := s.run E L fs
    let t := runSessions E L r.1 rest
    (t.1, if r.2 then s.version :: t.2 else t.2)

end Verif.Ufo
