import Verif.Model.FileObjects
import Verif.Model.PlistOptions
/-! The property list functions on open files, and the deprecated ones that take a path or an open file: `load`, `dump`, `readPlist` and `writePlist`, `plistlib.py` 469-575.
Open files are those of Model/FileObjects.lean; paths are taken to be resolved. -/
namespace Verif.PlistPaths
open Verif Verif.FileObjects Verif.PlistOptions

/-- `path_or_file`: a string, one of the files the program has opened, or an object with neither `read` nor `write`. -/
inductive Arg where
  | path (p : Path)
  | file (i : Nat)
  | other
  deriving DecidableEq, Repr

/-- The files the program has opened so far, closed or not, and the disk. -/
structure Proc where
  files : List File
  fs : FS

/-- `open(path, mode)`. -/
def openPath (s : Proc) (p : Path) (m : Mode) : Proc × Except Exc Nat :=
  match openFile s.fs p m with
  | .error e => (s, .error e)
  | .ok fs => (⟨s.files ++ [newFile p m], fs⟩, .ok s.files.length)

/-- `fp.close()`. -/
def closeFile (s : Proc) : Option Nat → Proc
  | none => s
  | some i => match s.files[i]? with
    | none => s
    | some f => ⟨s.files.set i (event (f, s.fs) .close).1.1, (event (f, s.fs) .close).1.2⟩

/-- The value of the bytes: `etree.parse` with a `PlistTarget`. Only UTF-8, as in Model/PlistIO.lean. -/
def parseBytes (F : FloatCodec) (builtin : Bool) (b : Bytes) : Except Exc PlVal :=
  match utf8Decode b with
  | none => .error .xmlParseError
  | some t => loads F builtin t

/-- `load(fp, use_builtin_types)`, `plistlib.py` 469-484. Simplification: the whole rest of the file has been read also when the parser refuses it. -/
def load (F : FloatCodec) (builtin : Bool) (s : Proc) : Option Nat → Proc × Except Exc PlVal
  | none => (s, .error .attributeError)
  | some i => match s.files[i]? with
    | none => (s, .error .attributeError)
    | some f => match s.fs.getbytes f.path with
      | .error e => (s, if f.closed || f.mode != .r then .error .valueError else .error e)
      | .ok d => match read f s.fs d.length with
        | (_, .error e) => (s, .error e)
        | (f', .ok b) => ({ s with files := s.files.set i f' }, parseBytes F builtin b)

/-- `dump(value, fp, ...)`, `plistlib.py` 492-524: the tree is made before anything is written. The header and the tree are one piece here. -/
def dump (F : FloatCodec) (o : Options) (v : PlVal) (s : Proc) : Option Nat → Proc × Except Exc Unit
  | none => (s, .error .attributeError)
  | some i => match s.files[i]? with
    | none => (s, .error .attributeError)
    | some f => match dumps F o v with
      | .error e => (s, .error e)
      | .ok t => (⟨s.files.set i (event (f, s.fs) (.write (utf8 t))).1.1, (event (f, s.fs) (.write (utf8 t))).1.2⟩, (event (f, s.fs) (.write (utf8 t))).2)

/-- `plistlib.py` 553-556 and 566-569: the file to use and `did_open`. -/
def openArg (s : Proc) (m : Mode) : Arg → Proc × Except Exc (Option Nat × Bool)
  | .path p => match openPath s p m with
    | (s', .error e) => (s', .error e)
    | (s', .ok i) => (s', .ok (some i, true))
  | .file i => (s, .ok (some i, false))
  | .other => (s, .ok (none, false))

/-- `readPlist(path_or_file)`, `plistlib.py` 551-561. -/
def readPlist (F : FloatCodec) (s : Proc) (a : Arg) : Proc × Except Exc PlVal :=
  match openArg s .r a with
  | (s1, .error e) => (s1, .error e)
  | (s1, .ok (fp, didOpen)) =>
    (if didOpen then closeFile (load F false s1 fp).1 fp else (load F false s1 fp).1, (load F false s1 fp).2)

/-- `writePlist(value, path_or_file)`, `plistlib.py` 564-574. -/
def writePlist (F : FloatCodec) (comparable : List PlVal → Bool) (s : Proc) (v : PlVal) (a : Arg) : Proc × Except Exc Unit :=
  match openArg s .w a with
  | (s1, .error e) => (s1, .error e)
  | (s1, .ok (fp, didOpen)) =>
    (if didOpen then closeFile (dump F ⟨true, false, false, true, comparable⟩ v s1 fp).1 fp else (dump F ⟨true, false, false, true, comparable⟩ v s1 fp).1,
      (dump F ⟨true, false, false, true, comparable⟩ v s1 fp).2)

end Verif.PlistPaths
