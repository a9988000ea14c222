import Verif.Model.Images
/-! The calls that take a path or file name, with the string as it is given: `/`, `.` and `..` have the meaning the `fs` package gives them
(`fs.path.normpath`, `fs.path.dirname` and `fs.subfs.SubFS`, as documented; the package is not part of /repo). In the other models a path is a list of names
and a file name is one name. `renameGlyphSet` is only modelled there. -/
namespace Verif.PathNames
open Verif Verif.IO Verif.Ufo Verif.GlyphSet Verif.Validators

/-- `fs.path.normpath` on the components: empty ones and `.` are dropped, `..` takes back one component, and one that there is not raises `IllegalBackReference`
(a `ValueError`, here `none`). `acc` is what is kept so far, innermost first. -/
def normParts : List Str → List Str → Option Path
  | [], acc => some acc.reverse
  | c :: cs, acc =>
    if c = [] ∨ c = c!"." then normParts cs acc
    else if c = c!".." then match acc with
      | [] => none
      | _ :: acc => normParts cs acc
    else normParts cs (c :: acc)

/-- The path below the root of a file system a string stands for, `abspath(normpath(path))`: every method of `fs.base.FS` begins with this. -/
def resolve (s : Str) : Option Path := normParts (splitOn '/' s) []

/-- The directory `fs.path.dirname(path)` stands for: the string up to its last `/`. It never climbs further than the whole string. -/
def dirOf (s : Str) : Path := (normParts (splitOn '/' s).dropLast []).getD []

/-- `"%s/%s" % (directory, fileName)`, `__init__.py` 1546, 1555, 1567 and 1568. -/
def inDirectory (d name : Str) : Str := d ++ '/' :: name

/-- `fs.exists(path)`. -/
def existsAt (fs : FS) (s : Str) : Except Exc Bool :=
  match resolve s with
  | none => .error .valueError
  | some p => .ok (fs.exists p)

/-- `readBytesFromPath`, `__init__.py` 123-132. -/
def readBytesAt (fs : FS) (s : Str) : Except Exc (Option Bytes) :=
  match resolve s with
  | none => .error .valueError
  | some p => readBytesFromPath fs p

/-- `writeBytesToPath`, `__init__.py` 997-1015. -/
def writeBytesAt (havePrevious : Bool) (fs : FS) (s : Str) (data : Bytes) : FS × Except Exc Unit :=
  match resolve s with
  | none => (fs, .error .valueError)
  | some p =>
    if havePrevious && unchanged fs p data then (fs, .ok ())
    else match fs.setbytes p data with
      | .ok fs' => (fs', .ok ())
      | .error .fileExpected => (fs, .error .ufoLibError)
      | .error .resourceNotFound => match fs.makedirs (dirOf s) with
        | .error e => (fs, .error e)
        | .ok fs1 => match fs1.setbytes p data with
          | .error e => (fs1, .error e)
          | .ok fs2 => (fs2, .ok ())
      | .error e => (fs, .error e)

/-- `removePath`, `__init__.py` 1044-1066. -/
def removeAt (fs : FS) (s : Str) (force removeEmptyParents : Bool) : FS × Except Exc Unit :=
  match resolve s with
  | none => (fs, .error .valueError)
  | some p => match removeNode fs p force with
    | (fs', .error e) => (fs', .error e)
    | (fs', .ok ()) => if removeEmptyParents then removeEmpty fs' (dirOf s).reverse else (fs', .ok ())

/-- `copyFromReader`, `__init__.py` 977-995, cf. `Ufo.copyFromReader`. -/
def copyAt (src fs : FS) (s t : Str) : FS × Except Exc Unit :=
  match resolve s with
  | none => (fs, .error .valueError)
  | some p =>
    if src.exists p = false then (fs, .error .ufoLibError)
    else match resolve t with
      | none => (fs, .error .valueError)
      | some q =>
        if fs.exists q then (fs, .error .ufoLibError)
        else match fs.makedirs (dirOf t) with
          | .error e => (fs, .error e)
          | .ok fs1 => match src.node? p with
            | some (.file d) => match fs1.setbytes q d with
              | .error e => (fs1, .error e)
              | .ok fs2 => (fs2, .ok ())
            | _ => match fs1.makedir q with
              | .error e => (fs1, .error e)
              | .ok fs2 => ((below src p).foldl (copyEntry q) fs2, .ok ())

/-! ### images -/

/-- `writeImage`, `__init__.py` 1532-1546. -/
def writeImageAt (w : Ufo.World) (name : Str) (data : Bytes) (validate : Bool) : Ufo.World × Except Exc Unit :=
  if w.1.version < 3 then (w, .error .ufoLibError)
  else if validate && !pngValidator data then (w, .error .ufoLibError)
  else
    let r := writeBytesAt w.1.havePrevious w.2 (inDirectory imagesName name) data
    ((w.1, r.1), r.2)

/-- `removeImage`, `__init__.py` 1548-1555. -/
def removeImageAt (w : Ufo.World) (name : Str) : Ufo.World × Except Exc Unit :=
  if w.1.version < 3 then (w, .error .ufoLibError)
  else
    let r := removeAt w.2 (inDirectory imagesName name) false true
    ((w.1, r.1), r.2)

/-- `copyImageFromReader`, `__init__.py` 1557-1570. -/
def copyImageAt (src : FS) (w : Ufo.World) (source dest : Str) : Ufo.World × Except Exc Unit :=
  if w.1.version < 3 then (w, .error .ufoLibError)
  else
    let r := copyAt src w.2 (inDirectory imagesName source) (inDirectory imagesName dest)
    ((w.1, r.1), r.2)

/-- `readImage`, `__init__.py` 726-748: the name is resolved in the file system `opendir(IMAGES_DIRNAME)`, not in that of the UFO. -/
def readImageAt (fs : FS) (version : Int) (name : Str) (validate : Bool) : Except Exc Bytes :=
  if version < 3 then .error .ufoLibError
  else match fs.node? [imagesName] with
    | none => .error .resourceNotFound
    | some (.file _) => .error .directoryExpected
    | some .dir => match resolve name with
      | none => .error .valueError
      | some p => match fs.getbytes (imagesName :: p) with
        | .error e => .error e
        | .ok data => if validate && !pngValidator data then .error .ufoLibError else .ok data

/-! ### glyphs: the file system of a `GlyphSet` is the directory of its layer, `glifLib.py` 141-156 -/

/-- The test of `rebuildContents`, `glifLib.py` 190-201: does every file exist? -/
def filesThere (fs : FS) (dir : Path) : List (Str × Str) → Except Exc Bool
  | [] => .ok true
  | e :: rest => match resolve e.2 with
    | none => .error .valueError
    | some p => if fs.exists (dir ++ p) then filesThere fs dir rest else .ok false

/-- The validation in `rebuildContents`, `glifLib.py` 186-203, cf. `GlyphSet.checkContents`. -/
def checkContentsAt (fs : FS) (dir : Path) (validate : Bool) (v : PyVal) : Except Exc (Dict Str Str) :=
  match v with
  | .dict d => match tableOf d with
    | none => .error .glifLibError
    | some t => match (if validate then filesThere fs dir t else .ok true) with
      | .error e => .error e
      | .ok false => .error .glifLibError
      | .ok true => .ok (t.foldl (fun d e => Dict.set d e.1 e.2) [])
  | _ => .error .glifLibError

/-- `rebuildContents`, `glifLib.py` 178-207. -/
def rebuildContentsAt (F : FloatCodec) (gs : GlyphSet.GlyphSet) (fs : FS) (validate : Bool) : Except Exc GlyphSet.GlyphSet :=
  match getPlist F fs (gs.dir ++ [contentsName]) (some (.dict [])) with
  | .error e => .error e
  | .ok v => match checkContentsAt fs gs.dir validate v with
    | .error e => .error e
    | .ok t => .ok { gs with contents := t, existing := none, reverse := none }

/-- `GlyphSet.__init__`, `glifLib.py` 109-173. -/
def openGlyphSetAt (F : FloatCodec) (fs : FS) (dir : Path) (version : Nat) (validateRead : Bool) : Except Exc GlyphSet.GlyphSet :=
  if version = 1 ∨ version = 2 ∨ version = 3 then
    rebuildContentsAt F
      { dir := dir, contents := [], existing := none, reverse := none,
        havePrevious := fs.exists (dir ++ [contentsName]), version := version, validateRead := validateRead }
      fs validateRead
  else .error .glifLibError

/-- `getGLIF`, `glifLib.py` 281-302. -/
def getGLIFAt (w : GlyphSet.World) (name : Str) : Except Exc Bytes :=
  match Dict.get? w.1.contents name with
  | none => .error .keyError
  | some f => match resolve f with
    | none => .error .valueError
    | some p => match w.2.getbytes (w.1.dir ++ p) with
      | .error .resourceNotFound => .error .glifLibError
      | r => r

/-- `writeGlyph`, `glifLib.py` 359-426, cf. `GlyphSet.writeGlyph`. -/
def writeGlyphAt (L : Casing) (naming : Naming) (w : GlyphSet.World) (name : Str) (formatVersion : Option Int)
    (data : Int → Except Exc Bytes) : GlyphSet.World × Except Exc Unit :=
  match glifVersion w.1 formatVersion with
  | .error e => (w, .error e)
  | .ok v =>
    match assignFile L naming w.1 name with
    | (gs, .error e) => ((gs, w.2), .error e)
    | (gs, .ok f) => match data v with
      | .error e => ((gs, w.2), .error e)
      | .ok d => match resolve f with
        | none => ((gs, w.2), .error .valueError)
        | some p =>
          let r := storeGlyph gs.havePrevious w.2 (gs.dir ++ p) d
          ((gs, r.1), r.2)

/-- `deleteGlyph`, `glifLib.py` 428-439. -/
def deleteGlyphAt (L : Casing) (w : GlyphSet.World) (name : Str) : GlyphSet.World × Except Exc Unit :=
  match Dict.get? w.1.contents name with
  | none => (w, .error .keyError)
  | some f => match resolve f with
    | none => (w, .error .valueError)
    | some p => match w.2.remove (w.1.dir ++ p) with
      | .error e => (w, .error e)
      | .ok fs => match dropExisting w.1 f with
        | .error e => ((w.1, fs), .error e)
        | .ok gs1 => match dropReverse L gs1 f with
          | .error e => ((gs1, fs), .error e)
          | .ok gs2 => (({ gs2 with contents := Dict.erase gs2.contents name }, fs), .ok ())

/-- One call on a glyph set, cf. `GlyphSet.step`. -/
def stepAt (L : Casing) (F : FloatCodec) (w : GlyphSet.World) : GlyphSet.Op → GlyphSet.World × Except Exc Unit
  | .write naming name fv data => writeGlyphAt L naming w name fv data
  | .delete name => deleteGlyphAt L w name
  | .reverse => (((getReverseContents L w.1).1, w.2), .ok ())
  | .save => writeContents F w
  | .rebuild validate => match rebuildContentsAt F w.1 w.2 validate with
    | .error e => (w, .error e)
    | .ok gs => ((gs, w.2), .ok ())

/-- A history of calls, cf. `GlyphSet.run`. -/
def runAt (L : Casing) (F : FloatCodec) (w : GlyphSet.World) : List GlyphSet.Op → GlyphSet.World
  | [] => w
  | op :: ops => runAt L F (stepAt L F w op).1 ops

/-! ### layers -/

/-- `_readLayerContents`, `__init__.py` 577-591 and 1319-1327, cf. `Ufo.readLayerTable`. -/
def readLayerTableAt (F : FloatCodec) (fs : FS) (validate : Bool) : Except Exc (List (Str × Str)) :=
  match getPlist F fs [layercontentsName] none with
  | .error e => .error e
  | .ok v =>
    match (if validate then layerContentsValidator (existsAt fs) v else .ok true) with
    | .error e => .error e
    | .ok false => .error .ufoLibError
    | .ok true => match v with
      | .list l => layerEntriesOf l
      | _ => .error .typeError

/-- `UFOReader.getGlyphSet`, `__init__.py` 622-662, for a layer given by name. -/
def readerGlyphSetAt (F : FloatCodec) (fs : FS) (version : Int) (layerName : Str) (validateRead : Bool) : Except Exc GlyphSet.GlyphSet :=
  match (if version < 3 then .ok [(defaultLayerName, glyphsName)] else readLayerTableAt F fs validateRead) with
  | .error e => .error e
  | .ok t => match t.find? (fun e => decide (e.1 = layerName)) with
    | none => .error .ufoLibError
    | some e => match resolve e.2 with
      | none => .error .valueError
      | some p => match fs.node? p with
        | none => .error .ufoLibError
        | some (.file _) => .error .directoryExpected
        | some .dir => openGlyphSetAt F fs p version.toNat validateRead

/-- `deleteGlyphSet`, `__init__.py` 1518-1528. -/
def deleteGlyphSetAt (w : Ufo.World) (layerName : Option Str) : Ufo.World × Except Exc Unit :=
  if w.1.version < 3 then (w, .ok ())
  else match findDirectory w.1.layers layerName with
    | .error e => (w, .error e)
    | .ok dir => match removeAt w.2 dir false false with
      | (fs, .error e) => ((w.1, fs), .error e)
      | (fs, .ok ()) => match layerName with
        | none => ((w.1, fs), .error .keyError)
        | some n => if Dict.has w.1.layers n then (({ w.1 with layers := Dict.erase w.1.layers n }, fs), .ok ())
          else ((w.1, fs), .error .keyError)

/-- `_getGlyphSetFormatVersion3`, `__init__.py` 1432-1471, cf. `Ufo.getGlyphSet3`. -/
def getGlyphSetAt (L : Casing) (F : FloatCodec) (w : Ufo.World) (layerName : Str) (defaultLayer validateRead : Bool) :
    Ufo.World × Except Exc GlyphSet.GlyphSet :=
  if defaultLayer && defaultConflict w.1.layers layerName then (w, .error .ufoLibError)
  else match layerDirectory L w.1.layers layerName defaultLayer with
    | .error e => (w, .error e)
    | .ok dir => match resolve dir with
      | none => (w, .error .valueError)
      | some p => match w.2.makedir p with
        | .error e => (w, .error e)
        | .ok fs => (({ w.1 with layers := Dict.set w.1.layers layerName dir }, fs), openGlyphSetAt F fs p 3 validateRead)

end Verif.PathNames
