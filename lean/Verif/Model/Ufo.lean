import Verif.Model.GlyphSet
import Verif.Model.Validators
import Verif.Model.Converters
/-! Model of `UFOReader` and `UFOWriter`, `__init__.py` 205-1585, on an open file system (`self.fs`).

Not modelled: zip files and temporary copies (the file system given to the model is the one `self.fs` stands for),
closing, modification times, warnings, `getFileObjectForPath` and the other methods that hand out open files. -/
namespace Verif.Ufo
open Verif Verif.IO Verif.GlyphSet Verif.Validators Verif.Kerning Verif.Converters

/-! ### file names, `__init__.py` 81-93 -/

/-- `METAINFO_FILENAME` -/
def metainfoName : Str := c!"metainfo.plist"
/-- `LIB_FILENAME` -/
def libName : Str := c!"lib.plist"
/-- `GROUPS_FILENAME` -/
def groupsName : Str := c!"groups.plist"
/-- `KERNING_FILENAME` -/
def kerningName : Str := c!"kerning.plist"
/-- `FEATURES_FILENAME` -/
def featuresName : Str := c!"features.fea"
/-- `LAYERCONTENTS_FILENAME` -/
def layercontentsName : Str := c!"layercontents.plist"
/-- `IMAGES_DIRNAME` -/
def imagesName : Str := c!"images"
/-- `DEFAULT_GLYPHS_DIRNAME` -/
def glyphsName : Str := c!"glyphs"
/-- `DEFAULT_LAYER_NAME` -/
def defaultLayerName : Str := c!"public.default"

/-- `supportedUFOFormatVersions`, `__init__.py` 95. -/
def supported (v : Int) : Bool := v == 1 || v == 2 || v == 3

/-! ### removing and writing raw files -/

/-- The loop of `fs.tools.remove_empty`: the empty directories on the way up are removed. The path is given innermost component first. -/
def removeEmpty (fs : FS) : (revPath : List Str) → FS × Except Exc Unit
  | [] => (fs, .ok ())
  | c :: rest =>
    match fs.removedir (rest.reverse ++ [c]) with
    | .error .directoryNotEmpty => (fs, .ok ())
    | .error e => (fs, .error e)
    | .ok fs' => removeEmpty fs' rest

/-- The first part of `removePath`, `__init__.py` 1054-1062. -/
def removeNode (fs : FS) (p : Path) (force : Bool) : FS × Except Exc Unit :=
  match fs.remove p with
  | .ok fs' => (fs', .ok ())
  | .error .fileExpected => match fs.removetree p with
    | .ok fs' => (fs', .ok ())
    | .error e => (fs, .error e)
  | .error .resourceNotFound => if force then (fs, .ok ()) else (fs, .error .ufoLibError)
  | .error e => (fs, .error e)

/-- `removePath`, `__init__.py` 1044-1066. -/
def removePath (fs : FS) (p : Path) (force removeEmptyParents : Bool) : FS × Except Exc Unit :=
  match removeNode fs p force with
  | (fs', .error e) => (fs', .error e)
  | (fs', .ok ()) => if removeEmptyParents then removeEmpty fs' p.dropLast.reverse else (fs', .ok ())

/-- `writeBytesToPath`, `__init__.py` 997-1015. `makedirs` makes no directory when it fails: what exists above a file are
directories already. -/
def writeBytesToPath (havePrevious : Bool) (fs : FS) (p : Path) (data : Bytes) : FS × Except Exc Unit :=
  if havePrevious && unchanged fs p data then (fs, .ok ())
  else match fs.setbytes p data with
    | .ok fs' => (fs', .ok ())
    | .error .fileExpected => (fs, .error .ufoLibError)
    | .error .resourceNotFound => match fs.makedirs p.dropLast with
      | .error e => (fs, .error e)
      | .ok fs1 => match fs1.setbytes p data with
        | .error e => (fs1, .error e)
        | .ok fs2 => (fs2, .ok ())
    | .error e => (fs, .error e)

/-! ### opening -/

/-- The attributes of a `UFOWriter`. -/
structure Writer where
  version : Int
  /-- `layerContents` -/
  layers : Dict Str Str
  havePrevious : Bool
  validate : Bool
  /-- `_downConversionKerningData["groupRenameMap"]` -/
  renameMap : Option (Dict Str Str)

/-- A writer and the file system it works on. -/
abbrev World := Writer × FS

/-- Python `int(v)`. For bytes the ASCII rules of `int(str)` are used. -/
def intOfVal : PyVal → Except Exc Int
  | .bool b => .ok (if b then 1 else 0)
  | .int i => .ok i
  | .float (.fin q) => .ok (q.num.tdiv q.den)
  | .float .nan => .error .valueError
  | .float (.inf _) => .error .overflowError
  | .str s => match pyInt s with
    | some i => .ok i
    | none => .error .valueError
  | .bytes b => match pyInt (b.map fun x => Char.ofNat x.toNat) with
    | some i => .ok i
    | none => .error .valueError
  | _ => .error .typeError

/-- The format version of an existing UFO as `UFOWriter.__init__` finds it, `__init__.py` 907-917; `none` when there is no
previous file. -/
def previousVersion (F : FloatCodec) (havePrevious : Bool) (fs : FS) : Except Exc (Option Int) :=
  if havePrevious then
    match getPlist F fs [metainfoName] none with
    | .error e => .error e
    | .ok (.dict d) => match intOfVal ((get d c!"formatVersion").getD .none) with
      | .error .overflowError => .error .overflowError
      | .error _ => .error .ufoLibError
      | .ok i => if supported i then .ok (some i) else .error .ufoLibError
    | .ok _ => .error .attributeError
  else .ok none

/-- The entries of an accepted or unvalidated layercontents.plist, `__init__.py` 1325-1327. Simplification: tables whose entries are not
pairs of strings raise `ValueError`. -/
def layerEntriesOf : List PyVal → Except Exc (List (Str × Str))
  | [] => .ok []
  | .list [.str n, .str d] :: rest => match layerEntriesOf rest with
    | .error e => .error e
    | .ok t => .ok ((n, d) :: t)
  | _ :: _ => .error .valueError

/-- `fileSystem.exists` as `layerContentsValidator` calls it. -/
def dirExists (fs : FS) (d : Str) : Except Exc Bool := .ok (fs.exists [d])

/-- Reading and checking layercontents.plist, `__init__.py` 586-591 and 1319-1327. -/
def readLayerTable (F : FloatCodec) (fs : FS) (validate : Bool) : Except Exc (List (Str × Str)) :=
  match getPlist F fs [layercontentsName] none with
  | .error e => .error e
  | .ok v =>
    match (if validate then layerContentsValidator (dirExists fs) v else .ok true) with
    | .error e => .error e
    | .ok false => .error .ufoLibError
    | .ok true => match v with
      | .list l => layerEntriesOf l
      | _ => .error .typeError

/-- The initial `layerContents`, `__init__.py` 922-930. -/
def initialLayers (F : FloatCodec) (fs : FS) (previous : Option Int) (validate : Bool) : Except Exc (Dict Str Str) :=
  if previous.any (fun p => decide (3 ≤ p)) then
    match readLayerTable F fs validate with
    | .error e => .error e
    | .ok t => .ok (t.foldl (fun d e => Dict.set d e.1 e.2) [])
  else .ok (if fs.exists [glyphsName] then [(defaultLayerName, glyphsName)] else [])

/-- The value of metainfo.plist, `__init__.py` 1089-1094. -/
def metaInfo (creator : PyVal) (version : Int) : PyVal :=
  .dict [(.str c!"creator", creator), (.str c!"formatVersion", .int version)]

/-- `UFOWriter.__init__`, `__init__.py` 785-932. `havePrevious` is `os.path.exists(path)` for a path and
`fs.exists("metainfo.plist")` for a file system object. -/
def openWriter (F : FloatCodec) (havePrevious : Bool) (fs : FS) (version : Int) (creator : PyVal) (validate : Bool) :
    FS × Except Exc Writer :=
  if supported version = false then (fs, .error .ufoLibError)
  else match previousVersion F havePrevious fs with
    | .error e => (fs, .error e)
    | .ok previous =>
      if previous.any (fun p => decide (version < p)) then (fs, .error .ufoLibError)
      else match initialLayers F fs previous validate with
        | .error e => (fs, .error e)
        | .ok layers => match writePlist F havePrevious fs [metainfoName] (metaInfo creator version) with
          | (fs', .error e) => (fs', .error e)
          | (fs', .ok ()) =>
            (fs', .ok { version := version, layers := layers, havePrevious := havePrevious, validate := validate, renameMap := none })

/-- `readMetaInfo`, `__init__.py` 374-398. Simplification: without validation a version that is not an integer raises `TypeError`
(the code fails at its first use). -/
def readMetaInfo (F : FloatCodec) (fs : FS) (validate : Bool) : Except Exc Int :=
  match getPlist F fs [metainfoName] none with
  | .error e => .error e
  | .ok (.dict d) => match get d c!"formatVersion" with
    | none => .error .keyError
    | some v => match (match v with | .int i => some i | .bool b => some (if b then 1 else 0) | _ => none) with
      | none => if validate then .error .ufoLibError else .error .typeError
      | some i => if validate && !supported i then .error .ufoLibError else .ok i
  | .ok _ => if validate then .error .ufoLibError else .error .typeError

/-! ### lib, groups, kerning, features -/

/-- Truth of a value, as in `if libDict:`. -/
def truthy : PyVal → Bool
  | .none => false
  | .bool b => b
  | .int i => decide (i ≠ 0)
  | .float (.fin q) => decide (q ≠ 0)
  | .str s => !s.isEmpty
  | .bytes b => !b.isEmpty
  | .list l => !l.isEmpty
  | .tuple l => !l.isEmpty
  | .dict d => !d.isEmpty
  | _ => true

/-- The end of the three property list writers, e.g. `__init__.py` 1285-1288: an empty value removes the file of an existing UFO. -/
def writeOrRemove (F : FloatCodec) (w : World) (name : Str) (empty : Bool) (v : PyVal) : World × Except Exc Unit :=
  if !empty then
    let r := writePlist F w.1.havePrevious w.2 [name] v
    ((w.1, r.1), r.2)
  else if w.1.havePrevious then
    let r := removePath w.2 [name] true false
    ((w.1, r.1), r.2)
  else (w, .ok ())

/-- `writeLib`, `__init__.py` 1271-1288. -/
def writeLib (F : FloatCodec) (w : World) (lib : PyVal) (validate : Bool) : World × Except Exc Unit :=
  if validate && !fontLibValidator lib then (w, .error .ufoLibError)
  else writeOrRemove F w libName (!truthy lib) lib

/-- The groups that go into the file, `__init__.py` 1138-1167. -/
def groupsToWrite (w : Writer) (groups : Dict Str (List Str)) : Dict Str (List Str) :=
  match w.renameMap with
  | some m => if w.version < 3 then remapGroups m groups else groups
  | none => groups

/-- `writeGroups`, `__init__.py` 1123-1171, for a dictionary of lists of strings (with validation nothing else is accepted). -/
def writeGroups (F : FloatCodec) (w : World) (groups : Dict Str (List Str)) (validate : Bool) : World × Except Exc Unit :=
  if validate && !groupsValidator (groupsVal groups) then (w, .error .ufoLibError)
  else writeOrRemove F w groupsName (groupsToWrite w.1 groups).isEmpty (groupsVal (groupsToWrite w.1 groups))

/-- Nested kerning as a Python value. -/
def kerningVal (k : Dict Str (Dict Str PyVal)) : PyVal :=
  .dict (k.map fun r => (.str r.1, .dict (r.2.map fun e => (.str e.1, e.2))))

/-- The kerning that goes into the file, `__init__.py` 1248-1263. -/
def kerningToWrite (w : Writer) (kerning : Dict (Str × Str) PyVal) : Dict Str (Dict Str PyVal) :=
  nest (match w.renameMap with
    | some m => if w.version < 3 then remapKerning m kerning else kerning
    | none => kerning)

/-- `writeKerning`, `__init__.py` 1217-1267, for a dictionary whose keys are pairs of strings (with validation nothing else is accepted). -/
def writeKerning (F : FloatCodec) (w : World) (kerning : Dict (Str × Str) PyVal) (validate : Bool) : World × Except Exc Unit :=
  if validate && !kerning.all (fun e => isNumber e.2) then (w, .error .ufoLibError)
  else writeOrRemove F w kerningName (kerningToWrite w.1 kerning).isEmpty (kerningVal (kerningToWrite w.1 kerning))

/-- `writeFeatures`, `__init__.py` 1292-1307, for a string. -/
def writeFeatures (w : World) (features : Str) : World × Except Exc Unit :=
  if w.1.version = 1 then (w, .error .ufoLibError)
  else if !features.isEmpty then
    let r := writeBytesToPath w.1.havePrevious w.2 [featuresName] (utf8 features)
    ((w.1, r.1), r.2)
  else if w.1.havePrevious then
    let r := removePath w.2 [featuresName] true false
    ((w.1, r.1), r.2)
  else (w, .ok ())

/-- `readLib`, `__init__.py` 546-560. -/
def readLib (F : FloatCodec) (fs : FS) (validate : Bool) : Except Exc PyVal :=
  match getPlist F fs [libName] (some (.dict [])) with
  | .error e => .error e
  | .ok v => if validate && !fontLibValidator v then .error .ufoLibError else .ok v

/-- `readGroups` for format version 3, `__init__.py` 405-424. -/
def readGroups3 (F : FloatCodec) (fs : FS) (validate : Bool) : Except Exc PyVal :=
  match getPlist F fs [groupsName] (some (.dict [])) with
  | .error e => .error e
  | .ok v => if validate && !groupsValidator v then .error .ufoLibError else .ok v

/-- The row of nested kerning, `__init__.py` 539. Simplification: keys that are not strings raise. -/
def rowOf : List (PyVal × PyVal) → Except Exc (Dict Str PyVal)
  | [] => .ok []
  | (.str s, v) :: rest => match rowOf rest with
    | .error e => .error e
    | .ok r => .ok ((s, v) :: r)
  | _ :: _ => .error .typeError

/-- Nested kerning as read from the file, `__init__.py` 538. -/
def rowsOf : List (PyVal × PyVal) → Except Exc (Dict Str (Dict Str PyVal))
  | [] => .ok []
  | (.str s, .dict row) :: rest => match rowOf row with
    | .error e => .error e
    | .ok r => match rowsOf rest with
      | .error e => .error e
      | .ok t => .ok ((s, r) :: t)
  | _ :: _ => .error .typeError

/-- `readKerning` for format version 3, `__init__.py` 516-542. -/
def readKerning3 (F : FloatCodec) (fs : FS) (validate : Bool) : Except Exc (Dict (Str × Str) PyVal) :=
  match getPlist F fs [kerningName] (some (.dict [])) with
  | .error e => .error e
  | .ok v =>
    if validate && !kerningValidator v then .error .ufoLibError
    else match v with
      | .dict d => match rowsOf d with
        | .error e => .error e
        | .ok t => .ok (flatten t)
      | _ => .error .typeError

/-- `readFeatures`, `__init__.py` 564-573: PyFilesystem opens text files with `newline=""`, so line ends are kept. A file that is not
UTF-8 raises `UnicodeDecodeError`, a `ValueError`. -/
def readFeatures (fs : FS) : Except Exc Str :=
  match fs.getbytes [featuresName] with
  | .error .resourceNotFound => .ok []
  | .error e => .error e
  | .ok b => match utf8Decode b with
    | none => .error .valueError
    | some s => .ok s

/-! ### layers -/

/-- The layer name for `None`, `__init__.py` 1390-1395: the last layer mapped to the default directory. -/
def defaultLayerOf (layers : Dict Str Str) : Str :=
  layers.foldl (fun n e => if e.2 = glyphsName then e.1 else n) defaultLayerName

/-- The check for the default flag, `__init__.py` 1438-1444. -/
def defaultConflict (layers : Dict Str Str) (layerName : Str) : Bool :=
  layers.any fun e => if e.2 = glyphsName then e.1 ≠ layerName else e.1 = layerName

/-- The directory for a layer, `__init__.py` 1445-1461. -/
def layerDirectory (L : Casing) (layers : Dict Str Str) (layerName : Str) (defaultLayer : Bool) : Except Exc Str :=
  match Dict.get? layers layerName with
  | some d => .ok d
  | none =>
    if defaultLayer then .ok glyphsName
    else Filenames.userNameToFileName L layerName ((Dict.values layers).map L.lower) c!"glyphs." []

/-- `_getGlyphSetFormatVersion3`, `__init__.py` 1432-1473. -/
def getGlyphSet3 (L : Casing) (F : FloatCodec) (w : World) (layerName : Str) (defaultLayer validateRead : Bool) :
    World × Except Exc GlyphSet.GlyphSet :=
  if defaultLayer && defaultConflict w.1.layers layerName then (w, .error .ufoLibError)
  else match layerDirectory L w.1.layers layerName defaultLayer with
    | .error e => (w, .error e)
    | .ok dir => match w.2.makedir [dir] with
      | .error e => (w, .error e)
      | .ok fs => (({ w.1 with layers := Dict.set w.1.layers layerName dir }, fs), openGlyphSet F fs [dir] 3 validateRead)

/-- `_getGlyphSetFormatVersion1`, `__init__.py` 1408-1418: the stray comma after `makedir(...)` makes `glyphSubFS` a tuple, and `GlyphSet`
raises `TypeError`. `_getGlyphSetFormatVersion2`, `__init__.py` 1420-1430. -/
def getGlyphSet12 (F : FloatCodec) (w : World) (validateRead : Bool) : World × Except Exc GlyphSet.GlyphSet :=
  match w.2.makedir [glyphsName] with
  | .error e => (w, .error e)
  | .ok fs =>
    if w.1.version = 1 then ((w.1, fs), .error .typeError)
    else ((w.1, fs), openGlyphSet F fs [glyphsName] 2 validateRead)

/-- `getGlyphSet`, `__init__.py` 1368-1406. -/
def getGlyphSet (L : Casing) (F : FloatCodec) (w : World) (layerName : Option Str) (defaultLayer validateRead : Bool) :
    World × Except Exc GlyphSet.GlyphSet :=
  if w.1.version < 3 ∧ (defaultLayer = false ∨ layerName ≠ none) then (w, .error .ufoLibError)
  else if layerName = none ∧ defaultLayer = false then (w, .error .ufoLibError)
  else if w.1.version < 3 then getGlyphSet12 F w validateRead
  else getGlyphSet3 L F w (layerName.getD (defaultLayerOf w.1.layers)) defaultLayer validateRead

/-- `_findDirectoryForLayerName`, `__init__.py` 1355-1366. -/
def findDirectory (layers : Dict Str Str) (layerName : Option Str) : Except Exc Str :=
  match layers.find? (fun e => decide (layerName = none ∧ e.2 = glyphsName ∨ layerName = some e.1)) with
  | none => .error .ufoLibError
  | some e => if e.2 = [] then .error .ufoLibError else .ok e.2

/-- The checks of `renameGlyphSet`, `__init__.py` 1487-1504: `none` when there is nothing to do, else the new name. -/
def renameCheck (layers : Dict Str Str) (layerName newLayerName : Option Str) (defaultLayer : Bool) : Except Exc (Option Str) :=
  if layerName = newLayerName then
    match layerName with
    | none => .error .keyError
    | some n => match Dict.get? layers n with
      | none => .error .keyError
      | some d =>
        if d ≠ glyphsName ∧ defaultLayer = false then .ok none
        else if d = glyphsName ∧ defaultLayer = true then .ok none
        else .ok (some n)
  else
    let n := newLayerName.getD defaultLayerName
    if Dict.has layers n then .error .ufoLibError
    else if defaultLayer ∧ glyphsName ∈ Dict.values layers then .error .ufoLibError
    else .ok (some n)

/-- The new directory, `__init__.py` 1507-1511. -/
def renameDirectory (L : Casing) (layers : Dict Str Str) (newLayerName : Str) (defaultLayer : Bool) : Except Exc Str :=
  if defaultLayer then .ok glyphsName
  else Filenames.userNameToFileName L newLayerName ((Dict.values layers).map L.lower) c!"glyphs." []

/-- `renameGlyphSet`, `__init__.py` 1475-1516. -/
def renameGlyphSet (L : Casing) (w : World) (layerName newLayerName : Option Str) (defaultLayer : Bool) : World × Except Exc Unit :=
  if w.1.version < 3 then (w, .ok ())
  else match renameCheck w.1.layers layerName newLayerName defaultLayer with
    | .error e => (w, .error e)
    | .ok none => (w, .ok ())
    | .ok (some newName) => match findDirectory w.1.layers layerName with
      | .error e => (w, .error e)
      | .ok oldDir => match renameDirectory L w.1.layers newName defaultLayer with
        | .error e => (w, .error e)
        | .ok newDir => match layerName with
          | none => (w, .error .keyError)
          | some n =>
            let r := w.2.movedir [oldDir] [newDir]
            (({ w.1 with layers := Dict.set (Dict.erase w.1.layers n) newName newDir }, r.1), r.2)

/-- `deleteGlyphSet`, `__init__.py` 1518-1528. -/
def deleteGlyphSet (w : World) (layerName : Option Str) : World × Except Exc Unit :=
  if w.1.version < 3 then (w, .ok ())
  else match findDirectory w.1.layers layerName with
    | .error e => (w, .error e)
    | .ok dir => match removePath w.2 [dir] false false with
      | (fs, .error e) => ((w.1, fs), .error e)
      | (fs, .ok ()) => match layerName with
        | none => ((w.1, fs), .error .keyError)
        | some n => if Dict.has w.1.layers n then (({ w.1 with layers := Dict.erase w.1.layers n }, fs), .ok ())
          else ((w.1, fs), .error .keyError)

/-- `[(layerName, self.layerContents[layerName]) for layerName in layerOrder]`, `__init__.py` 1352. -/
def orderedLayers (layers : Dict Str Str) : List Str → Except Exc (List (Str × Str))
  | [] => .ok []
  | n :: rest => match Dict.get? layers n with
    | none => .error .keyError
    | some d => match orderedLayers layers rest with
      | .error e => .error e
      | .ok t => .ok ((n, d) :: t)

/-- The layer contents as a Python value, a list of tuples. -/
def layersVal (t : List (Str × Str)) : PyVal := .list (t.map fun e => .tuple [.str e.1, .str e.2])

/-- The layer order, `__init__.py` 1339-1349. -/
def layerOrderOf (layers : Dict Str Str) (layerOrder : Option (List (Option Str))) : List Str :=
  match layerOrder with
  | some l => l.map fun n => n.getD defaultLayerName
  | none => Dict.keys layers

/-- `writeLayerContents`, `__init__.py` 1330-1353. -/
def writeLayerContents (F : FloatCodec) (w : World) (layerOrder : Option (List (Option Str))) (validate : Bool) : World × Except Exc Unit :=
  if w.1.version < 3 then (w, .ok ())
  else
    let order := layerOrderOf w.1.layers layerOrder
    if validate && !(order.all (fun n => Dict.has w.1.layers n) && (Dict.keys w.1.layers).all fun n => decide (n ∈ order)) then (w, .error .ufoLibError)
    else match orderedLayers w.1.layers order with
      | .error e => (w, .error e)
      | .ok t =>
        let r := writePlist F w.1.havePrevious w.2 [layercontentsName] (layersVal t)
        ((w.1, r.1), r.2)

/-- `UFOReader._readLayerContents`, `__init__.py` 577-591. -/
def readLayers (F : FloatCodec) (fs : FS) (version : Int) (validate : Bool) : Except Exc (List (Str × Str)) :=
  if version < 3 then .ok [(defaultLayerName, glyphsName)]
  else readLayerTable F fs validate

/-- `getLayerNames`, `__init__.py` 593-604. -/
def getLayerNames (F : FloatCodec) (fs : FS) (version : Int) (validate : Bool) : Except Exc (List Str) :=
  match readLayers F fs version validate with
  | .error e => .error e
  | .ok t => .ok (t.map Prod.fst)

/-- `getDefaultLayerName`, `__init__.py` 606-620. -/
def getDefaultLayerName (F : FloatCodec) (fs : FS) (version : Int) (validate : Bool) : Except Exc Str :=
  match readLayers F fs version validate with
  | .error e => .error e
  | .ok t => match t.find? (fun e => decide (e.2 = glyphsName)) with
    | none => .error .ufoLibError
    | some e => .ok e.1

/-- The layer name of `UFOReader.getGlyphSet`, `__init__.py` 641-642. -/
def resolveLayer (F : FloatCodec) (fs : FS) (version : Int) (layerName : Option Str) (validateRead : Bool) : Except Exc Str :=
  match layerName with
  | some n => .ok n
  | none => getDefaultLayerName F fs version validateRead

/-- `UFOReader.getGlyphSet`, `__init__.py` 622-662. -/
def readerGlyphSet (F : FloatCodec) (fs : FS) (version : Int) (layerName : Option Str) (validateRead : Bool) : Except Exc GlyphSet.GlyphSet :=
  match resolveLayer F fs version layerName validateRead with
  | .error e => .error e
  | .ok n => match readLayers F fs version validateRead with
    | .error e => .error e
    | .ok t => match t.find? (fun e => decide (e.1 = n)) with
      | none => .error .ufoLibError
      | some e => match fs.node? [e.2] with
        | none => .error .ufoLibError
        | some (.file _) => .error .directoryExpected
        | some .dir => openGlyphSet F fs [e.2] version.toNat validateRead

end Verif.Ufo
