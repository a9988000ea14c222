import Verif.Model.Ufo
/-! Model of the parts of `UFOReader` and `UFOWriter` for images and arbitrary data files: `__init__.py` 684-748 and 977-995, 1530-1567. -/
namespace Verif.Ufo
open Verif Verif.IO

/-- `DATA_DIRNAME`, `__init__.py` 82. -/
def dataName : Str := c!"data"

/-- The signature in `pngValidator`, `validators.py` 768. -/
def pngSignature : Bytes := [0x89, 0x50, 0x4E, 0x47, 0x0D, 0x0A, 0x1A, 0x0A]

/-- `pngValidator`, `validators.py` 751-770, for `data` and for a file object at its start. -/
def pngValidator (data : Bytes) : Bool := data.take 8 == pngSignature

/-- `writeImage`, `__init__.py` 1532-1546. -/
def writeImage (w : World) (name : Str) (data : Bytes) (validate : Bool) : World × Except Exc Unit :=
  if w.1.version < 3 then (w, .error .ufoLibError)
  else if validate && !pngValidator data then (w, .error .ufoLibError)
  else
    let r := writeBytesToPath w.1.havePrevious w.2 [imagesName, name] data
    ((w.1, r.1), r.2)

/-- `removeImage`, `__init__.py` 1548-1555. -/
def removeImage (w : World) (name : Str) : World × Except Exc Unit :=
  if w.1.version < 3 then (w, .error .ufoLibError)
  else
    let r := removePath w.2 [imagesName, name] false true
    ((w.1, r.1), r.2)

/-- `readImage`, `__init__.py` 726-748. -/
def readImage (fs : FS) (version : Int) (name : Str) (validate : Bool) : Except Exc Bytes :=
  if version < 3 then .error .ufoLibError
  else match fs.node? [imagesName] with
    | none => .error .resourceNotFound
    | some (.file _) => .error .directoryExpected
    | some .dir => match fs.getbytes [imagesName, name] with
      | .error e => .error e
      | .ok data => if validate && !pngValidator data then .error .ufoLibError else .ok data

/-- The loop of `getImageDirectoryListing`, `__init__.py` 711-723: the names of the files in the directory, with validation only of those that
are PNG files. Names are listed as stored, cf. `FS.listdir`. -/
def listImages (fs : FS) (validate : Bool) : List Str :=
  fs.nodes.filterMap fun e =>
    if e.1.dropLast = fs.key [imagesName] then
      match e.2 with
      | .dir => none
      | .file data => if validate && !pngValidator data then none else e.1.getLast?
    else none

/-- `getImageDirectoryListing`, `__init__.py` 698-724. -/
def getImageDirectoryListing (fs : FS) (version : Int) (validate : Bool) : Except Exc (List Str) :=
  if version < 3 then .ok []
  else match fs.node? [imagesName] with
    | none => .ok []
    | some (.file _) => .error .ufoLibError
    | some .dir => .ok (listImages fs validate)

/-- `getDataDirectoryListing`, `__init__.py` 684-697: the paths of the files below `data`, relative to it. A missing directory and
a file of that name give the empty list. -/
def getDataDirectoryListing (fs : FS) : List Path :=
  match fs.node? [dataName] with
  | some .dir => fs.nodes.filterMap fun e => match e with
    | (k, .file _) => if (fs.key [dataName]).isPrefixOf k then some (k.drop 1) else none
    | _ => none
  | _ => []

/-! ### copying from another UFO -/

/-- What lies below a path, with paths relative to it. -/
def below (src : FS) (p : Path) : List (Path × Node) :=
  src.nodes.filterMap fun e =>
    if (src.key p).isPrefixOf e.1 && e.1 != src.key p then some (e.1.drop p.length, e.2) else none

/-- One entry of `fs.copy.copy_dir`: `makedir(recreate=True)` or copying a file. -/
def copyEntry (dst : Path) (fs : FS) (e : Path × Node) : FS :=
  match e.2 with
  | .dir => fs.perform (.mkdir (fs.key (dst ++ e.1)))
  | .file d => fs.perform (.write (fs.key (dst ++ e.1)) d)

/-- `copyFromReader`, `__init__.py` 977-995. `src` is the file system of the reader. Simplifications: the entries are copied in the order in which
the source lists them, and that a file and a directory of the source have the same name in the destination (possible when only
the destination ignores case) is not an error. -/
def copyFromReader (src fs : FS) (p q : Path) : FS × Except Exc Unit :=
  if src.exists p = false then (fs, .error .ufoLibError)
  else if fs.exists q then (fs, .error .ufoLibError)
  else match fs.makedirs q.dropLast with
    | .error e => (fs, .error e)
    | .ok fs1 => match src.node? p with
      | some (.file d) => match fs1.setbytes q d with
        | .error e => (fs1, .error e)
        | .ok fs2 => (fs2, .ok ())
      | _ => match fs1.makedir q with
        | .error e => (fs1, .error e)
        | .ok fs2 => ((below src p).foldl (copyEntry q) fs2, .ok ())

/-- `copyImageFromReader`, `__init__.py` 1557-1570: nothing is validated. -/
def copyImageFromReader (src : FS) (w : World) (source dest : Str) : World × Except Exc Unit :=
  if w.1.version < 3 then (w, .error .ufoLibError)
  else
    let r := copyFromReader src w.2 [imagesName, source] [imagesName, dest]
    ((w.1, r.1), r.2)

end Verif.Ufo
