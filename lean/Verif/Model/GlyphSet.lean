import Verif.Model.PlistIO
import Verif.Model.Filenames
/-! Model of the `GlyphSet` class, `glifLib.py` 91-515: the table of file names, its two caches, and the files. -/
namespace Verif.GlyphSet
open Verif Verif.IO

/-- The attributes of a `GlyphSet`. `dir` is the directory `self.fs` stands for. -/
structure GlyphSet where
  dir : Path
  contents : Dict Str Str
  /-- `_existingFileNames` -/
  existing : Option (Dict Str Str)
  /-- `_reverseContents` -/
  reverse : Option (Dict Str Str)
  /-- `_havePreviousFile` -/
  havePrevious : Bool
  /-- `ufoFormatVersion` -/
  version : Nat
  validateRead : Bool

/-- A glyph set and the file system it works on. -/
abbrev World := GlyphSet × FS

/-- `CONTENTS_FILENAME`, glifLib.py 52. -/
def contentsName : Str := c!"contents.plist"

/-- A function from glyph names and existing file names to file names (the `glyphNameToFileNameFunc` argument). -/
abbrev Naming := Str → Dict Str Str → Except Exc Str

/-- `glyphNameToFileName`, glifLib.py 522-534. -/
def defaultNaming (L : Casing) : Naming := fun name existing =>
  Filenames.userNameToFileName L name (Dict.keys existing) [] c!".glif"

/-- The table stored in `contents.plist`, when it maps strings to strings. -/
def tableOf : List (PyVal × PyVal) → Option (Dict Str Str)
  | [] => some []
  | (.str k, .str v) :: d => match tableOf d with
    | none => none
    | some t => some ((k, v) :: t)
  | _ :: _ => none

/-- The validation of `rebuildContents`, glifLib.py 190-204. Simplification: an unvalidated table that does not map
strings to strings is rejected as well (the code would go on with it and fail later). -/
def checkContents (fs : FS) (dir : Path) (validate : Bool) (v : PyVal) : Except Exc (Dict Str Str) :=
  match v with
  | .dict d => match tableOf d with
    | none => .error .glifLibError
    | some t =>
      if validate && t.any (fun e => !fs.exists (dir ++ [e.2])) then .error .glifLibError
      else .ok (t.foldl (fun d e => Dict.set d e.1 e.2) [])
  | _ => .error .glifLibError

/-- `rebuildContents`, glifLib.py 178-207; nothing is changed when it raises. -/
def rebuildContents (F : FloatCodec) (gs : GlyphSet) (fs : FS) (validate : Bool) : Except Exc GlyphSet :=
  match getPlist F fs (gs.dir ++ [contentsName]) (some (.dict [])) with
  | .error e => .error e
  | .ok v => match checkContents fs gs.dir validate v with
    | .error e => .error e
    | .ok t => .ok { gs with contents := t, existing := none, reverse := none }

/-- `GlyphSet.__init__`, glifLib.py 109-173, for a directory of an open file system. -/
def openGlyphSet (F : FloatCodec) (fs : FS) (dir : Path) (version : Nat) (validateRead : Bool) : Except Exc GlyphSet :=
  if version = 1 ∨ version = 2 ∨ version = 3 then
    rebuildContents F
      { dir := dir, contents := [], existing := none, reverse := none,
        havePrevious := fs.exists (dir ++ [contentsName]), version := version, validateRead := validateRead }
      fs validateRead
  else .error .glifLibError

/-- The loop of `getReverseContents`, glifLib.py 218-220. -/
def reversed (L : Casing) (contents : Dict Str Str) : Dict Str Str :=
  contents.foldl (fun d e => Dict.set d (L.lower e.2) e.1) []

/-- `getReverseContents`, glifLib.py 209-222. -/
def getReverseContents (L : Casing) (gs : GlyphSet) : GlyphSet × Dict Str Str :=
  match gs.reverse with
  | some r => (gs, r)
  | none => ({ gs with reverse := some (reversed L gs.contents) }, reversed L gs.contents)

/-- The property list value of the table. -/
def contentsVal (t : Dict Str Str) : PyVal := .dict (t.map fun e => (.str e.1, .str e.2))

/-- `writeContents`, glifLib.py 224-229. -/
def writeContents (F : FloatCodec) (w : World) : World × Except Exc Unit :=
  let r := writePlist F w.1.havePrevious w.2 (w.1.dir ++ [contentsName]) (contentsVal w.1.contents)
  ((w.1, r.1), r.2)

/-- `getGLIF`, glifLib.py 281-302. -/
def getGLIF (w : World) (name : Str) : Except Exc Bytes :=
  match Dict.get? w.1.contents name with
  | none => .error .keyError
  | some f => match w.2.getbytes (w.1.dir ++ [f]) with
    | .error .resourceNotFound => .error .glifLibError
    | r => r

/-- The choice and check of the GLIF version in `writeGlyph`, glifLib.py 386-398. -/
def glifVersion (gs : GlyphSet) (formatVersion : Option Int) : Except Exc Int :=
  let v := match formatVersion with
    | some v => v
    | none => if 3 ≤ gs.version then 2 else 1
  if ¬(v = 1 ∨ v = 2) then .error .glifLibError
  else if v = 2 ∧ gs.version < 3 then .error .glifLibError
  else .ok v

/-- `_existingFileNames` as built in glifLib.py 403-406. -/
def existingOf (L : Casing) (contents : Dict Str Str) : Dict Str Str :=
  (Dict.values contents).foldl (fun d f => Dict.set d f (L.lower f)) []

/-- The file name lookup of `writeGlyph`, glifLib.py 401-411: a name that is not in the table is given a file name,
and the table and the caches are updated at once. -/
def assignFile (L : Casing) (naming : Naming) (gs : GlyphSet) (name : Str) : GlyphSet × Except Exc Str :=
  match Dict.get? gs.contents name with
  | some f => (gs, .ok f)
  | none =>
    let ex := gs.existing.getD (existingOf L gs.contents)
    match naming name ex with
    | .error e => ({ gs with existing := some ex }, .error e)
    | .ok f =>
      ({ gs with
          contents := Dict.set gs.contents name f
          existing := some (Dict.set ex f (L.lower f))
          reverse := gs.reverse.map fun r => Dict.set r (L.lower f) name }, .ok f)

/-- The end of `writeGlyph`, glifLib.py 419-426. -/
def storeGlyph (havePrevious : Bool) (fs : FS) (p : Path) (data : Bytes) : FS × Except Exc Unit :=
  if havePrevious && unchanged fs p data then (fs, .ok ())
  else match fs.setbytes p data with
    | .error e => (fs, .error e)
    | .ok fs' => (fs', .ok ())

/-- `writeGlyph`, glifLib.py 359-426. `data` is what `_writeGlyphToBytes` returns or raises for the chosen GLIF version;
`naming` is `self.glyphNameToFileName` at this call (it may be stateful). -/
def writeGlyph (L : Casing) (naming : Naming) (w : World) (name : Str) (formatVersion : Option Int)
    (data : Int → Except Exc Bytes) : World × Except Exc Unit :=
  match glifVersion w.1 formatVersion with
  | .error e => (w, .error e)
  | .ok v =>
    match assignFile L naming w.1 name with
    | (gs, .error e) => ((gs, w.2), .error e)
    | (gs, .ok f) => match data v with
      | .error e => ((gs, w.2), .error e)
      | .ok d =>
        let r := storeGlyph gs.havePrevious w.2 (gs.dir ++ [f]) d
        ((gs, r.1), r.2)

/-- `del self._existingFileNames[fileName]`, glifLib.py 435-436. -/
def dropExisting (gs : GlyphSet) (f : Str) : Except Exc GlyphSet :=
  match gs.existing with
  | none => .ok gs
  | some ex => if Dict.has ex f then .ok { gs with existing := some (Dict.erase ex f) } else .error .keyError

/-- `del self._reverseContents[...]`, glifLib.py 437-438. -/
def dropReverse (L : Casing) (gs : GlyphSet) (f : Str) : Except Exc GlyphSet :=
  match gs.reverse with
  | none => .ok gs
  | some r => if Dict.has r (L.lower f) then .ok { gs with reverse := some (Dict.erase r (L.lower f)) } else .error .keyError

/-- `deleteGlyph`, glifLib.py 428-439. -/
def deleteGlyph (L : Casing) (w : World) (name : Str) : World × Except Exc Unit :=
  match Dict.get? w.1.contents name with
  | none => (w, .error .keyError)
  | some f => match w.2.remove (w.1.dir ++ [f]) with
    | .error e => (w, .error e)
    | .ok fs => match dropExisting w.1 f with
      | .error e => ((w.1, fs), .error e)
      | .ok gs1 => match dropReverse L gs1 f with
        | .error e => ((gs1, fs), .error e)
        | .ok gs2 => (({ gs2 with contents := Dict.erase gs2.contents name }, fs), .ok ())

/-- `keys`, glifLib.py 443-444. -/
def keys (gs : GlyphSet) : List Str := Dict.keys gs.contents

/-- The calls of a history. -/
inductive Op where
  | write (naming : Naming) (name : Str) (formatVersion : Option Int) (data : Int → Except Exc Bytes)
  | delete (name : Str)
  | reverse
  | save
  | rebuild (validate : Bool)

/-- One call: the state afterwards (also when it raises) and the outcome. -/
def step (L : Casing) (F : FloatCodec) (w : World) : Op → World × Except Exc Unit
  | .write naming name fv data => writeGlyph L naming w name fv data
  | .delete name => deleteGlyph L w name
  | .reverse => (((getReverseContents L w.1).1, w.2), .ok ())
  | .save => writeContents F w
  | .rebuild validate => match rebuildContents F w.1 w.2 validate with
    | .error e => (w, .error e)
    | .ok gs => ((gs, w.2), .ok ())

/-- A history of calls, each made whether or not the earlier ones raised. -/
def run (L : Casing) (F : FloatCodec) (w : World) : List Op → World
  | [] => w
  | op :: ops => run L F (step L F w op).1 ops

end Verif.GlyphSet
