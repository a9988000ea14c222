import Verif.Model.Faults
import Verif.Model.Expat
import Verif.Model.KerningReader
/-! The methods of `UFOReader` and `GlyphSet` that read, and the opening of readers and writers, as sequences of calls on the file system (cf. `Model/UfoMethods.lean`): between two of them other
programs can do something, and each of them can fail. That they give without interruption what the models of the methods give is `read_run` and `openWriterP_run` in `Proofs/ReaderMethods.lean`.
`getDataDirectoryListing` (see Model/Walk.lean) and `getImageDirectoryListing` are left out. -/
namespace Verif.Ufo
open Verif Verif.IO Verif.Validators Verif.Converters Verif.Kerning

/-- What is at a path: `opendir` (`__init__.py` 651, 740) asks for it. Reading the file stands for it: this gives the bytes of a file, raises `FileExpected` for a directory and
`ResourceNotFound` if there is nothing. -/
def openDirP {α : Type} (p : Path) (missing : Exc) (k : Prog (Except Exc α)) : Prog (Except Exc α) :=
  .get p fun r => match r with
    | .ok _ => .ret (.error .directoryExpected)
    | .error .fileExpected => k
    | .error .resourceNotFound => .ret (.error missing)
    | .error e => .ret (.error e)

/-- Going on with a value. -/
def thenP {α β : Type} (p : Prog (Except Exc α)) (k : α → Prog (Except Exc β)) : Prog (Except Exc β) :=
  p.bind fun r => match r with
    | .error e => .ret (.error e)
    | .ok a => k a

/-- `readMetaInfo`, `__init__.py` 374-398, after the file was read. -/
def versionOf (validate : Bool) : PyVal → Except Exc Int
  | .dict d => match Validators.get d c!"formatVersion" with
    | none => .error .keyError
    | some v => match (match v with | .int i => some i | .bool b => some (if b then 1 else 0) | _ => none) with
      | none => if validate then .error .ufoLibError else .error .typeError
      | some i => if validate && !supported i then .error .ufoLibError else .ok i
  | _ => if validate then .error .ufoLibError else .error .typeError

/-- `readInfo`, `__init__.py` 460-508, after the file was read. -/
def infoOf (E : FontInfo.Env) (version : Int) (validate : Bool) : PyVal → Except Exc (Dict Str PyVal)
  | .dict d => match rowOf d with
    | .error e => .error e
    | .ok t => FontInfo.readInfo E version.toNat validate t
  | _ => .error .ufoLibError

/-- `readKerning` for format version 3, `__init__.py` 516-542, after the file was read. -/
def kerningOf (validate : Bool) (v : PyVal) : Except Exc (Dict (Str × Str) PyVal) :=
  if validate && !kerningValidator v then .error .ufoLibError
  else match v with
    | .dict d => match rowsOf d with
      | .error e => .error e
      | .ok t => .ok (flatten t)
    | _ => .error .typeError

/-- `readLayerInfo`, glifLib.py 233-251, after the file was read. -/
def layerInfoOf (F : FloatCodec) (validate : Bool) : PyVal → Except Exc (List (PyVal × PyVal))
  | .dict d => if validate then (GlyphSet.validateLayerInfo F d).map fun _ => d else .ok d
  | _ => .error (if validate then .glifLibError else .attributeError)

/-- `readFeatures`, `__init__.py` 564-573. -/
def featuresP : Prog (Except Exc Str) :=
  .get [featuresName] fun r => .ret (match r with
    | .error .resourceNotFound => .ok []
    | .error e => .error e
    | .ok b => match utf8Decode b with
      | none => .error .valueError
      | some s => .ok s)

/-- The loop of `layerContentsValidator`, validators.py 792-827, which asks the file system for the directories. -/
def layerEntriesP {α : Type} (k : Bool → Prog (Except Exc α)) (names dirs : List Str) : List PyVal → Prog (Except Exc α)
  | [] => k (decide (c!"glyphs" ∈ dirs))
  | .list [.str layerName, .str directoryName] :: rest =>
    if directoryName ≠ c!"glyphs" ∧ startsWith directoryName c!"glyphs." = false then k false
    else if layerName = [] then k false
    else .has [directoryName] fun x =>
      if x = false then k false
      else if layerName = c!"public.default" ∧ directoryName ≠ c!"glyphs" then k false
      else if layerName ∈ names then k false
      else if directoryName ∈ dirs then k false
      else layerEntriesP k (names ++ [layerName]) (dirs ++ [directoryName]) rest
  | _ :: _ => k false

/-- The table of layers as a value, `__init__.py` 591 and 1325-1327. -/
def layerTableOf : PyVal → Except Exc (List (Str × Str))
  | .list l => layerEntriesOf l
  | _ => .error .typeError

/-- Reading and checking layercontents.plist, `__init__.py` 586-591 and 1319-1327. -/
def layerTableP (F : FloatCodec) (validate : Bool) : Prog (Except Exc (List (Str × Str))) :=
  thenP (getPlistP F [layercontentsName] none) fun v =>
    if validate then match v with
      | .list l => layerEntriesP (fun ok => .ret (if ok then layerTableOf v else .error .ufoLibError)) [] [] l
      | _ => .ret (.error .ufoLibError)
    else .ret (layerTableOf v)

/-- `UFOReader._readLayerContents`, `__init__.py` 577-591. -/
def readLayersP (F : FloatCodec) (version : Int) (validate : Bool) : Prog (Except Exc (List (Str × Str))) :=
  if version < 3 then .ret (.ok [(defaultLayerName, glyphsName)]) else layerTableP F validate

/-- `getDefaultLayerName`, `__init__.py` 606-620. -/
def defaultLayerP (F : FloatCodec) (version : Int) (validate : Bool) : Prog (Except Exc Str) :=
  thenP (readLayersP F version validate) fun t => .ret (match t.find? (fun e => decide (e.2 = glyphsName)) with
    | none => .error .ufoLibError
    | some e => .ok e.1)

/-- The layer name of `UFOReader.getGlyphSet`, `__init__.py` 641-642. -/
def resolveLayerP (F : FloatCodec) (version : Int) (layerName : Option Str) (validate : Bool) : Prog (Except Exc Str) :=
  match layerName with
  | some n => .ret (.ok n)
  | none => defaultLayerP F version validate

/-- `UFOReader.getGlyphSet`, `__init__.py` 622-662. -/
def readerGlyphSetP (F : FloatCodec) (version : Int) (layerName : Option Str) (validate : Bool) : Prog (Except Exc GlyphSet.GlyphSet) :=
  thenP (resolveLayerP F version layerName validate) fun n =>
    thenP (readLayersP F version validate) fun t => match t.find? (fun e => decide (e.1 = n)) with
      | none => .ret (.error .ufoLibError)
      | some e => openDirP [e.2] .ufoLibError (openP F [e.2] version.toNat validate)

/-- `readImage`, `__init__.py` 726-748. -/
def imageP (version : Int) (name : Str) (validate : Bool) : Prog (Except Exc Bytes) :=
  if version < 3 then .ret (.error .ufoLibError)
  else openDirP [imagesName] .resourceNotFound (.get [imagesName, name] fun r => .ret (match r with
    | .error e => .error e
    | .ok data => if validate && !pngValidator data then .error .ufoLibError else .ok data))

/-- `getGLIF`, glifLib.py 281-302. -/
def glifP (gs : GlyphSet.GlyphSet) (name : Str) : Prog (Except Exc Bytes) :=
  match Dict.get? gs.contents name with
  | none => .ret (.error .keyError)
  | some f => .get (gs.dir ++ [f]) fun r => .ret (match r with
    | .error .resourceNotFound => .error .glifLibError
    | r => r)

/-- The loop of `getUnicodes`, `getComponentReferences` and `getImageReferences`, glifLib.py 472-475, 487-490, 502-505. -/
def fetchP {α : Type} (fetch : Bytes → Except Exc α) (gs : GlyphSet.GlyphSet) (table : Dict Str α) : List Str → Prog (Except Exc (Dict Str α))
  | [] => .ret (.ok table)
  | n :: ns => thenP (glifP gs n) fun b => match fetch b with
    | .error e => .ret (.error e)
    | .ok v => fetchP fetch gs (Dict.set table n v) ns

/-- `readGlyph`, glifLib.py 314-358, after the file was read. -/
def glyphOf (G : Glif.Env) (version : Nat) (hasObj hasPen validate : Bool) (b : Bytes) : Except Exc (Dict Str PyVal × List Glif.Call) :=
  match GlyphSet.glifTree b with
  | .error e => .error e
  | .ok t => Glif.readGlyphTree G validate hasObj hasPen (if version < 3 then [1] else [1, 2]) t

/-- The readers of groups and kerning for format versions 1 and 2: `_upConvertKerning`, `__init__.py` 301-346, reads groups.plist and then kerning.plist when there is nothing in the cache, and
kerning.plist and then groups.plist when there is. -/
def convertedP (F : FloatCodec) (conv : PyVal → PyVal → Except Exc (Converters.Converted PyVal)) (cache : Option KerningReader.Cache) (kind : KerningReader.Kind) (validate : Bool) :
    Prog (Except Exc KerningReader.Ret) :=
  match cache with
  | some d => thenP (getPlistP F [kerningName] (some (.dict []))) fun k =>
    if !PyVal.pyEq k d.originalKerning then .ret (.error .ufoLibError)
    else thenP (getPlistP F [groupsName] (some (.dict []))) fun g => .ret (KerningReader.step conv cache ⟨kind, validate, .ok k, .ok g⟩).1
  | none => thenP (getPlistP F [groupsName] (some (.dict []))) fun g =>
    if validate && (KerningReader.checkedGroups g).isNone then .ret (.error .ufoLibError)
    else thenP (getPlistP F [kerningName] (some (.dict []))) fun k => .ret (KerningReader.step conv none ⟨kind, validate, .ok k, .ok g⟩).1

/-- The methods that read, with the type of what they give. -/
inductive ReadCall : Type → Type where
  | version (validate : Bool) : ReadCall Int
  | info (version : Int) (validate : Bool) : ReadCall (Dict Str PyVal)
  | lib (validate : Bool) : ReadCall PyVal
  | groups3 (validate : Bool) : ReadCall PyVal
  | kerning3 (validate : Bool) : ReadCall (Dict (Str × Str) PyVal)
  | converted (conv : PyVal → PyVal → Except Exc (Converters.Converted PyVal)) (cache : Option KerningReader.Cache) (kind : KerningReader.Kind) (validate : Bool) : ReadCall KerningReader.Ret
  | features : ReadCall Str
  | layerNames (version : Int) (validate : Bool) : ReadCall (List Str)
  | defaultLayer (version : Int) (validate : Bool) : ReadCall Str
  | glyphSet (version : Int) (layer : Option Str) (validate : Bool) : ReadCall GlyphSet.GlyphSet
  | mapping (version : Int) (layer : Option Str) (validate : Bool) : ReadCall (Dict Int (List Str))
  | bytes (path : Path) : ReadCall (Option Bytes)
  | image (version : Int) (name : Str) (validate : Bool) : ReadCall Bytes
  | glif (gs : GlyphSet.GlyphSet) (name : Str) : ReadCall Bytes
  | glyph (gs : GlyphSet.GlyphSet) (name : Str) (hasObj hasPen validate : Bool) : ReadCall (Dict Str PyVal × List Glif.Call)
  | layerInfo (gs : GlyphSet.GlyphSet) (validate : Bool) : ReadCall (List (PyVal × PyVal))
  | unicodes (gs : GlyphSet.GlyphSet) (names : Option (List Str)) : ReadCall (Dict Str (List Int))
  | components (gs : GlyphSet.GlyphSet) (names : Option (List Str)) : ReadCall (Dict Str (List Str))
  | images (gs : GlyphSet.GlyphSet) (names : Option (List Str)) : ReadCall (Dict Str (Option Str))

/-- What they give when the files do not change: the models of the methods. -/
def ReadCall.read (E : FontInfo.Env) (G : Glif.Env) (fs : FS) : {α : Type} → ReadCall α → Except Exc α
  | _, .version b => readMetaInfo E.F fs b
  | _, .info v b => Ufo.readInfo E fs v b
  | _, .lib b => readLib E.F fs b
  | _, .groups3 b => readGroups3 E.F fs b
  | _, .kerning3 b => readKerning3 E.F fs b
  | _, .converted conv cache kind b =>
    (KerningReader.step conv cache ⟨kind, b, getPlist E.F fs [kerningName] (some (.dict [])), getPlist E.F fs [groupsName] (some (.dict []))⟩).1
  | _, .features => readFeatures fs
  | _, .layerNames v b => getLayerNames E.F fs v b
  | _, .defaultLayer v b => getDefaultLayerName E.F fs v b
  | _, .glyphSet v n b => readerGlyphSet E.F fs v n b
  | _, .mapping v n b => getCharacterMappingOf E.F fs v n b
  | _, .bytes p => readBytesFromPath fs p
  | _, .image v n b => readImage fs v n b
  | _, .glif gs n => GlyphSet.getGLIF (gs, fs) n
  | _, .glyph gs n o p b => GlyphSet.readGlyph G (gs, fs) n o p b
  | _, .layerInfo gs b => GlyphSet.readLayerInfo E.F (gs, fs) b
  | _, .unicodes gs ns => GlyphSet.getUnicodesOf (gs, fs) ns
  | _, .components gs ns => GlyphSet.getComponentReferencesOf (gs, fs) ns
  | _, .images gs ns => GlyphSet.getImageReferencesOf (gs, fs) ns

/-- The methods as programs. -/
def ReadCall.prog (E : FontInfo.Env) (G : Glif.Env) : {α : Type} → ReadCall α → Prog (Except Exc α)
  | _, .version b => thenP (getPlistP E.F [metainfoName] none) fun v => .ret (versionOf b v)
  | _, .info v b => thenP (getPlistP E.F [fontinfoName] (some (.dict []))) fun d => .ret (infoOf E v b d)
  | _, .lib b => thenP (getPlistP E.F [libName] (some (.dict []))) fun v => .ret (if b && !fontLibValidator v then .error .ufoLibError else .ok v)
  | _, .groups3 b => thenP (getPlistP E.F [groupsName] (some (.dict []))) fun v => .ret (if b && !groupsValidator v then .error .ufoLibError else .ok v)
  | _, .kerning3 b => thenP (getPlistP E.F [kerningName] (some (.dict []))) fun v => .ret (kerningOf b v)
  | _, .converted conv cache kind b => convertedP E.F conv cache kind b
  | _, .features => featuresP
  | _, .layerNames v b => thenP (readLayersP E.F v b) fun t => .ret (.ok (t.map Prod.fst))
  | _, .defaultLayer v b => defaultLayerP E.F v b
  | _, .glyphSet v n b => readerGlyphSetP E.F v n b
  | _, .mapping v n b => thenP (readerGlyphSetP E.F v n b) fun gs =>
    thenP (fetchP Glif.fetchUnicodesOf gs [] (GlyphSet.keys gs)) fun t => .ret (.ok (characterMap t))
  | _, .bytes p => .get p fun r => .ret (match r with
    | .ok b => .ok (some b)
    | .error .resourceNotFound => .ok none
    | .error e => .error e)
  | _, .image v n b => imageP v n b
  | _, .glif gs n => glifP gs n
  | _, .glyph gs n o p b => thenP (glifP gs n) fun d => .ret (glyphOf G gs.version o p b d)
  | _, .layerInfo gs b => thenP (getPlistP E.F (gs.dir ++ [GlyphSet.layerinfoName]) (some (.dict []))) fun v => .ret (layerInfoOf E.F b v)
  | _, .unicodes gs ns => fetchP Glif.fetchUnicodesOf gs [] (ns.getD (GlyphSet.keys gs))
  | _, .components gs ns => fetchP Glif.fetchComponentBasesOf gs [] (ns.getD (GlyphSet.keys gs))
  | _, .images gs ns => fetchP Glif.fetchImageFileNameOf gs [] (ns.getD (GlyphSet.keys gs))

/-! ### reading while the files change -/

/-- A program that reads while other programs change the files: the states of the files at the moments at which it uses the file system, and the result. -/
inductive Prog.Sees {α : Type} : Prog α → List FS → α → Prop
  | ret {a} : Sees (.ret a) [] a
  | get {p k fs l a} : Sees (k (fs.getbytes p)) l a → Sees (.get p k) (fs :: l) a
  | has {p k fs l a} : Sees (k (fs.exists p)) l a → Sees (.has p k) (fs :: l) a

/-! ### opening a writer -/

/-- The format version of an existing UFO, `__init__.py` 907-917, after metainfo.plist was read. -/
def previousOf : PyVal → Except Exc (Option Int)
  | .dict d => match intOfVal ((Validators.get d c!"formatVersion").getD .none) with
    | .error .overflowError => .error .overflowError
    | .error _ => .error .ufoLibError
    | .ok i => if supported i then .ok (some i) else .error .ufoLibError
  | _ => .error .attributeError

/-- The initial `layerContents`, `__init__.py` 922-930. -/
def initialLayersP (F : FloatCodec) (previous : Option Int) (validate : Bool) : Prog (Except Exc (Dict Str Str)) :=
  if previous.any (fun p => decide (3 ≤ p)) then
    thenP (layerTableP F validate) fun t => .ret (.ok (t.foldl (fun d e => Dict.set d e.1 e.2) []))
  else .has [glyphsName] fun x => .ret (.ok (if x then [(defaultLayerName, glyphsName)] else []))

/-- `UFOWriter.__init__`, `__init__.py` 785-932, from line 907 on. -/
def openWriterP (F : FloatCodec) (havePrevious : Bool) (version : Int) (creator : PyVal) (validate : Bool) : Prog (Except Exc Writer) :=
  if supported version = false then .ret (.error .ufoLibError)
  else thenP (if havePrevious then thenP (getPlistP F [metainfoName] none) fun v => .ret (previousOf v) else .ret (.ok none)) fun previous =>
    if previous.any (fun p => decide (version < p)) then .ret (.error .ufoLibError)
    else thenP (initialLayersP F previous validate) fun layers =>
      thenP (writePlistP F havePrevious [metainfoName] (metaInfo creator version)) fun _ =>
        .ret (.ok { version := version, layers := layers, havePrevious := havePrevious, validate := validate, renameMap := none })

end Verif.Ufo
