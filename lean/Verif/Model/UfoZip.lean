import Verif.Model.UfoHistory
/-! UFOs at a path: packages (directories) and zip archives. `UFOReader.__init__`, `UFOWriter.__init__` and `close`, `__init__.py` 214-280, 785-885,
1571-1579 and 1593-1609.

What the libraries do is taken to be this: `OSFS(path)` works on the directory itself. `ZipFS(path)` reads the archive. `ZipFS(path, write=True)` collects files in a
temporary place and makes the archive when it is closed, replacing what is at the path; the `with` statement closes it also when an exception is raised. File
systems that are never closed (the process stops, or they are garbage collected) leave the archive alone: simplification, PyFilesystem also closes a file system when
it is garbage collected. Archives compare names like the file system they were made from. -/
namespace Verif.Ufo
open Verif Verif.IO

/-- `UFOFileStructure`, `__init__.py` 98-100. -/
inductive Structure where
  | zip | package
  deriving DecidableEq, Repr

/-- What is at a path. -/
inductive Target where
  | nothing
  | file
  | package (fs : FS)
  | zip (fs : FS)

/-- The `structure` argument of `UFOWriter`, and its attribute: absent, a member of the enumeration, or a string. -/
inductive StructureArg where
  | absent
  | member (s : Structure)
  | text (t : Str)
  deriving DecidableEq, Repr

/-- `UFOFileStructure(structure)`, `__init__.py` 98-100. -/
def toStructure : StructureArg → Option Structure
  | .absent => none
  | .member s => some s
  | .text t => if t = c!"zip" then some .zip else if t = c!"package" then some .package else none

/-- `_sniffFileStructure`, `__init__.py` 1593-1609. -/
def sniff : Target → Except Exc Structure
  | .zip _ => .ok .zip
  | .package _ => .ok .package
  | .file => .error .ufoLibError
  | .nothing => .error .ufoLibError

/-- A directory in the root of an archive other than `__MACOSX`, `__init__.py` 233-234 and 832-833. -/
def rootDir? : Path × Node → Option Str
  | ([d], .dir) => if d ≠ c!"__MACOSX" then some d else none
  | _ => none

/-- `rootDirs`, `__init__.py` 230-235 and 829-834. -/
def rootDirs (fs : FS) : List Str := fs.nodes.filterMap rootDir?

/-- An entry below a directory in the root, seen from there. -/
def below? (d : Str) : Path × Node → Option (Path × Node)
  | (c :: x :: rest, n) => if c = d then some (x :: rest, n) else none
  | _ => none

/-- `opendir`, `__init__.py` 239-241 and 842-844: the file system below a directory in the root. -/
def subFS (fs : FS) (d : Str) : FS := { canon := fs.canon, nodes := fs.nodes.filterMap (below? d), log := [] }

/-- The root directory of an archive, `__init__.py` 231-245 and 830-845. -/
def openRoot (fs : FS) : Except Exc FS :=
  match rootDirs fs with
  | [d] => .ok (subFS fs d)
  | _ => .error .ufoLibError

/-- The archive with a file system copied into a directory `root`, `__init__.py` 1576-1577 and 849-852. -/
def archive (root : Str) (fs : FS) : FS :=
  { canon := fs.canon
    nodes := ([root], .dir) :: (fs.nodes.filter fun e => e.1 != []).map fun e => (root :: e.1, e.2)
    log := [] }

/-- The file system a `UFOReader` works on, `__init__.py` 218-253. -/
def readerFS (t : Target) : Except Exc FS :=
  match t with
  | .zip fs => openRoot fs
  | .package fs => .ok fs
  | t => (sniff t).map fun _ => ⟨id, [], []⟩

/-- `UFOReader(path)`, `__init__.py` 214-280: the file system it works on and the format version. -/
def openReader (F : FloatCodec) (t : Target) (validate : Bool) : Except Exc (FS × Int) :=
  match readerFS t with
  | .error e => .error e
  | .ok fs => match readMetaInfo F fs validate with
    | .error e => .error e
    | .ok v => .ok (fs, v)

/-- The structure a writer for an existing path uses, `__init__.py` 803-819. -/
def existingStructure (t : Target) (arg : StructureArg) : Except Exc Structure :=
  match sniff t with
  | .error e => .error e
  | .ok s => match arg with
    | .absent => .ok s
    | arg => match toStructure arg with
      | none => .error .ufoLibError
      | some a => if a = s then .ok s else .error .ufoLibError

/-- The structure, the file system and `havePreviousFile`, `__init__.py` 801-855. `dirOk` says that the parent directory exists; `canon` is how new file systems compare names. -/
def prepare (canon : Str → Str) (t : Target) (dirOk : Bool) (arg : StructureArg) : Except Exc (StructureArg × FS × Bool) :=
  match t with
  | .nothing =>
    if dirOk = false then .error .ufoLibError
    else .ok (if arg = .absent then .member .package else arg, ⟨canon, [], []⟩, false)
  | t => match existingStructure t arg with
    | .error e => .error e
    | .ok s => match readerFS t with
      | .error e => .error e
      | .ok fs => .ok (.member s, fs, true)

/-- An open `UFOWriter`: its state, the file system it works on, `_fileStructure`, and whether it was closed. -/
structure Handle where
  writer : Writer
  fs : FS
  structure_ : StructureArg
  closed : Bool

/-- Whether the writer works on an archive (`structure is UFOFileStructure.ZIP`). -/
def isZip (s : StructureArg) : Bool := s == .member .zip

/-- `UFOWriter(path)`, `__init__.py` 785-932: what is at the path afterwards, and the writer. -/
def openPath (F : FloatCodec) (canon : Str → Str) (t : Target) (dirOk : Bool) (arg : StructureArg) (version : Int) (creator : PyVal) (validate : Bool) :
    Target × Except Exc Handle :=
  if supported version = false then (t, .error .ufoLibError)
  else match prepare canon t dirOk arg with
    | .error e => (t, .error e)
    | .ok (s, fs, previous) =>
      let r := openWriter F previous fs version creator validate
      (if isZip s then t else .package r.1, r.2.map fun w => ⟨w, r.1, s, false⟩)

/-- A call on an open writer: packages are changed in place. -/
def call (E : FontInfo.Env) (L : Casing) (s : Handle × Target) (op : Op) : (Handle × Target) × Except Exc Unit :=
  let r := step E L (s.1.writer, s.1.fs) op
  (({ s.1 with writer := r.1.1, fs := r.1.2 }, if isZip s.1.structure_ then s.2 else .package r.1.2), r.2)

/-- Calls, each made whether or not the earlier ones raised. -/
def calls (E : FontInfo.Env) (L : Casing) (s : Handle × Target) : List Op → Handle × Target
  | [] => s
  | op :: ops => calls E L (call E L s op).1 ops

/-- `close`, `__init__.py` 1571-1579. `base` is the base name of the path without extension (line 1575). A closed file system cannot be copied, so a second `close` on an
existing archive raises inside the `with` statement. -/
def close (base : Str) (s : Handle × Target) : (Handle × Target) × Except Exc Unit :=
  let h := { s.1 with closed := true }
  if isZip s.1.structure_ then
    if s.1.closed then
      if s.1.writer.havePrevious then ((h, .zip (archive (base ++ c!".ufo") ⟨s.1.fs.canon, [], []⟩)), .error .fsError)
      else ((h, s.2), .ok ())
    else ((h, .zip (archive (base ++ c!".ufo") s.1.fs)), .ok ())
  else ((h, s.2), .ok ())

end Verif.Ufo
