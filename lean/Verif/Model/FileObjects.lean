import Verif.Model.PathNames
/-! The methods that hand out open files: `UFOReader.getReadFileForPath`, `__init__.py` 354-372, and `UFOWriter.getFileObjectForPath`, `__init__.py` 1017-1042, and what the
caller does with such a file.

What PyFilesystem and Python's `io` do is taken to be this: `open` with `r` needs a file; `w` makes the file or empties it; `a` makes it or leaves it; `x` makes it and raises
`FileExists` when there is something (here `fsError`). An open file that is written to keeps data back: at any moment some of it may go to the disk, and closing the file
puts all of it there. Modes with `+` and `seek` are in Model/UpdateFiles.lean; text is UTF-8 (`encoding="utf-8"`), and line ends are kept. -/
namespace Verif.FileObjects
open Verif Verif.IO Verif.Ufo Verif.PathNames

/-- The first character of the mode. -/
inductive Mode where
  | r | w | a | x
  deriving DecidableEq, Repr

/-- `self.fs.open(path, mode)`: the file system afterwards. -/
def openFile (fs : FS) (p : Path) : Mode → Except Exc FS
  | .r => match fs.getbytes p with
    | .error e => .error e
    | .ok _ => .ok fs
  | .w => fs.setbytes p []
  | .a => match fs.node? p with
    | some (.file _) => .ok fs
    | _ => fs.setbytes p []
  | .x => match fs.node? p with
    | some _ => .error .fsError
    | none => fs.setbytes p []

/-- `isinstance(e, fs.errors.ResourceError)`: the exceptions of `open` that are about what is at the path (`fsError` comes from a file that is in the place of a directory,
or from `x`). -/
def resourceError : Exc → Bool
  | .resourceNotFound => true
  | .fileExpected => true
  | .directoryExpected => true
  | .fsError => true
  | _ => false

/-- An open file: where, how far it has been read, and the data kept back. -/
structure File where
  path : Path
  mode : Mode
  position : Nat
  pending : Bytes
  closed : Bool
  deriving DecidableEq, Repr

/-- A file just opened. -/
def newFile (p : Path) (m : Mode) : File := ⟨p, m, 0, [], false⟩

/-- What is returned: an open file, `None`, or an exception (as a value, not raised). -/
inductive Returned where
  | file (f : File)
  | none
  | exception (e : Exc)
  deriving DecidableEq, Repr

/-- `getReadFileForPath`, `__init__.py` 354-372. With an encoding the same file is opened as text, see `readText`. -/
def getReadFile (fs : FS) (s : Str) : Except Exc Returned :=
  match resolve s with
  | none => .error .valueError
  | some p => match openFile fs p .r with
    | .ok _ => .ok (.file (newFile p .r))
    | .error .resourceNotFound => .ok .none
    | .error e => .error e

/-- `getFileObjectForPath`, `__init__.py` 1017-1042. Line 1040 has `return UFOLibError(...)`, not `raise`. -/
def getFileObject (fs : FS) (s : Str) (m : Mode) : FS × Except Exc Returned :=
  match resolve s with
  | none => (fs, .error .valueError)
  | some p => match openFile fs p m with
    | .ok fs' => (fs', .ok (.file (newFile p m)))
    | .error .resourceNotFound =>
      if m = .r then (fs, .ok .none)
      else match fs.makedirs (dirOf s) with
        | .error e => (fs, .error e)
        | .ok fs1 => match openFile fs1 p m with
          | .error e => (fs1, .error e)
          | .ok fs2 => (fs2, .ok (.file (newFile p m)))
    | .error e => if resourceError e then (fs, .ok (.exception .ufoLibError)) else (fs, .error e)

/-! ### using the file -/

/-- The bytes go to the end of the file (a file that has been removed meanwhile is no longer in the file system). -/
def putBytes (fs : FS) (p : Path) (b : Bytes) : FS :=
  match fs.getbytes p with
  | .error _ => fs
  | .ok old => match fs.setbytes p (old ++ b) with
    | .error _ => fs
    | .ok fs' => fs'

/-- What can happen to an open file: bytes are written to it, text is written to it, it is closed; `io` or the operating system puts the first `n` bytes it has kept back
on the disk; something else happens to the file system. -/
inductive Event where
  | write (data : Bytes)
  | writeText (text : Str)
  | close
  | flush (n : Nat)
  | other (fs : FS)

/-- One event. Writing to a closed file or one opened for reading raises `ValueError` (`io.UnsupportedOperation` is one). -/
def event (s : File × FS) : Event → (File × FS) × Except Exc Unit
  | .write d => if s.1.closed || s.1.mode == .r then (s, .error .valueError) else (({ s.1 with pending := s.1.pending ++ d }, s.2), .ok ())
  | .writeText t => if s.1.closed || s.1.mode == .r then (s, .error .valueError) else (({ s.1 with pending := s.1.pending ++ utf8 t }, s.2), .ok ())
  | .close => (({ s.1 with pending := [], closed := true }, if s.1.closed || s.1.mode == .r then s.2 else putBytes s.2 s.1.path s.1.pending), .ok ())
  | .flush n => (({ s.1 with pending := s.1.pending.drop n }, if s.1.closed || s.1.mode == .r then s.2 else putBytes s.2 s.1.path (s.1.pending.take n)), .ok ())
  | .other fs => ((s.1, fs), .ok ())

/-- Events one after the other. -/
def events (s : File × FS) : List Event → File × FS
  | [] => s
  | e :: es => events (event s e).1 es

/-- `f.read(n)` on a file opened for reading. -/
def read (f : File) (fs : FS) (n : Nat) : File × Except Exc Bytes :=
  if f.closed || f.mode != .r then (f, .error .valueError)
  else match fs.getbytes f.path with
    | .error e => (f, .error e)
    | .ok d => ({ f with position := f.position + ((d.drop f.position).take n).length }, .ok ((d.drop f.position).take n))

/-- Reading pieces of the given sizes one after the other. -/
def readPieces (f : File) (fs : FS) : List Nat → Except Exc Bytes
  | [] => .ok []
  | n :: ns => match read f fs n with
    | (_, .error e) => .error e
    | (f', .ok d) => match readPieces f' fs ns with
      | .error e => .error e
      | .ok ds => .ok (d ++ ds)

/-- `f.read()` on a file opened with `encoding="utf-8"`: `UnicodeDecodeError`, a `ValueError`, for other bytes. -/
def readText (f : File) (fs : FS) : Except Exc Str :=
  match fs.getbytes f.path with
  | .error e => .error e
  | .ok d => match utf8Decode d with
    | none => .error .valueError
    | some s => .ok s

end Verif.FileObjects
