import Verif.Model.FS
import Verif.Model.PlistFile
/-! Reading and writing property lists and raw bytes through the file system: the methods `UFOReader`,
`UFOWriter` and `GlyphSet` share (`__init__.py` 108-198). -/
namespace Verif.IO
open Verif Verif.Plist

/-- `_readBytesFromPath`, `__init__.py` 123-132: `None` when the file does not exist. -/
def readBytesFromPath (fs : FS) (p : Path) : Except Exc (Option Bytes) :=
  match fs.getbytes p with
  | .ok b => .ok (some b)
  | .error .resourceNotFound => .ok none
  | .error e => .error e

/-- `plistlib.load(f)` of a file with these bytes. Simplification: only UTF-8 files are read (an XML declaration
may name another encoding). -/
def loadBytes (F : FloatCodec) (b : Bytes) : Except Exc PyVal :=
  match utf8Decode b with
  | none => .error .xmlParseError
  | some s => loads F s

/-- `_getPlist`, `__init__.py` 135-160. Every other exception becomes `UFOLibError`. -/
def getPlist (F : FloatCodec) (fs : FS) (p : Path) (default : Option PyVal) : Except Exc PyVal :=
  match fs.getbytes p with
  | .error .resourceNotFound => match default with
    | none => .error .ufoLibError
    | some v => .ok v
  | .error _ => .error .ufoLibError
  | .ok b => match loadBytes F b with
    | .error _ => .error .ufoLibError
    | .ok v => .ok v

/-- `plistlib.dumps(obj)` with the default options. -/
def dumpBytes (F : FloatCodec) (v : PyVal) : Except Exc Bytes :=
  match dumps F true v with
  | .error e => .error e
  | .ok s => .ok (utf8 s)

/-- The test of `__init__.py` 185, also made in `glifLib.py` 420-425 and `__init__.py` 1004-1007 and 1554-1556: is the
file there with this data? For a directory `getbytes` raises `FileExpected`; so does the `setbytes` that follows
when this is false, so the two cases are not kept apart here. -/
def unchanged (fs : FS) (p : Path) (data : Bytes) : Bool :=
  match fs.getbytes p with
  | .ok b => b == data
  | .error _ => false

/-- `_writePlist`, `__init__.py` 163-198. When there was no previous file the target is opened (and so emptied)
before the value is converted; a failing conversion leaves the emptied file (simplification: nothing of the
failing value has been written yet). -/
def writePlist (F : FloatCodec) (havePrevious : Bool) (fs : FS) (p : Path) (v : PyVal) : FS × Except Exc Unit :=
  if havePrevious then
    match dumpBytes F v with
    | .error _ => (fs, .error .ufoLibError)
    | .ok data =>
      if unchanged fs p data then (fs, .ok ())
      else match fs.setbytes p data with
        | .error e => (fs, .error e)
        | .ok fs' => (fs', .ok ())
  else
    match fs.setbytes p [] with
    | .error e => (fs, .error e)
    | .ok fs1 => match dumpBytes F v with
      | .error _ => (fs1, .error .ufoLibError)
      | .ok data => match fs1.setbytes p data with
        | .error e => (fs1, .error e)
        | .ok fs2 => (fs2, .ok ())

end Verif.IO
