import Verif.Model.UfoZip
/-! UFOs on file system objects that the program has made itself: `UFOReader(filesystem)`, `UFOWriter(filesystem)` and `GlyphSet(filesystem)`. `__init__.py` 253-280, 760-762, 865-932 and
1571-1579, glifLib.py 137-143 and 507-509.

Calls on a writer whose file system was closed are in Model/Faults.lean. -/
namespace Verif.Ufo
open Verif Verif.IO Verif.Validators

/-- An object of `fs.base.FS`: the files, and whether it is open (`check()` raises otherwise). -/
structure FsObject where
  fs : FS
  isOpen : Bool

/-- `UFOReader(filesystem)`, `__init__.py` 253-280: the format version. -/
def readObject (F : FloatCodec) (o : FsObject) (validate : Bool) : Except Exc Int :=
  if o.isOpen then readMetaInfo F o.fs validate else .error .ufoLibError

/-- Whether `UFOWriter.__init__` calls `self.fs.close()`, `__init__.py` 907-917: the version is not a number (only `ValueError` and `TypeError` are caught), or not a
supported one. -/
def closesFS (F : FloatCodec) (havePrevious : Bool) (fs : FS) : Bool :=
  havePrevious && match getPlist F fs [metainfoName] none with
    | .ok (.dict d) => match intOfVal ((get d c!"formatVersion").getD .none) with
      | .error .overflowError => false
      | .error _ => true
      | .ok i => !supported i
    | _ => false

/-- `UFOWriter(filesystem)`, `__init__.py` 865-932: the object afterwards, and the writer. -/
def writeObject (F : FloatCodec) (o : FsObject) (version : Int) (creator : PyVal) (validate : Bool) : FsObject × Except Exc Writer :=
  if supported version = false then (o, .error .ufoLibError)
  else if o.isOpen = false then (o, .error .ufoLibError)
  else
    let previous := o.fs.exists [metainfoName]
    let r := openWriter F previous o.fs version creator validate
    (⟨r.1, !closesFS F previous o.fs⟩, r.2)

/-- `GlyphSet(filesystem)`, glifLib.py 129-172; `dir` is the directory the object stands for. -/
def glyphsObject (F : FloatCodec) (o : FsObject) (dir : Path) (version : Nat) (validate : Bool) : Except Exc GlyphSet.GlyphSet :=
  if version = 1 ∨ version = 2 ∨ version = 3 then
    if o.isOpen then GlyphSet.openGlyphSet F o.fs dir version validate else .error .glifLibError
  else .error .glifLibError

/-- What is done with an object: a reader is opened and closed, a writer is opened, used and closed, a glyph set is opened and closed (none of these `close` methods does anything with
an object that was given, `_shouldClose`, `__init__.py` 268 and 891, glifLib.py 143), or the program closes the object. -/
inductive Use where
  | read (validate : Bool)
  | write (version : Int) (creator : PyVal) (validate : Bool) (ops : List Op)
  | glyphs (dir : Path) (version : Nat) (validate : Bool)
  | close

/-- One of these: the object afterwards, and whether opening the reader, the writer or the glyph set succeeded. -/
def Use.run (E : FontInfo.Env) (L : Casing) (o : FsObject) : Use → FsObject × Bool
  | .read validate => (o, (readObject E.F o validate).toOption.isSome)
  | .write version creator validate ops => match writeObject E.F o version creator validate with
    | (o', .error _) => (o', false)
    | (o', .ok w) => ({ o' with fs := (Ufo.run E L (w, o'.fs) ops).2 }, true)
  | .glyphs dir version validate => (o, (glyphsObject E.F o dir version validate).toOption.isSome)
  | .close => ({ o with isOpen := false }, true)

/-- One after another. -/
def runUses (E : FontInfo.Env) (L : Casing) (o : FsObject) : List Use → FsObject × List Bool
  | [] => (o, [])
  | u :: us =>
    let r := u.run E L o
    let t := runUses E L r.1 us
    (t.1, r.2 :: t.2)

end Verif.Ufo
