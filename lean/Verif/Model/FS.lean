import Verif.Py.Str
import Verif.Py.Dict
import Verif.Py.Utf8
/-! The file system interface of the `fs` package (PyFilesystem2) as far as ufoLib calls it through `self.fs`
(`__init__.py` 17-24, `glifLib.py` 20-24).

A file system is a finite map from absolute paths to nodes. `canon` says how the file system compares names:
the identity on a case sensitive file system, a case folding function on a case insensitive one. Every mutation
is also appended to `log`, so that "the file is not rewritten" and "the process stops at this point" can be
stated. Paths are lists of components: the `/`-joined strings of the code are taken apart, and a name that
itself holds a `/` is one component (simplification). Permissions, links, `..` components, time stamps and
closing of file systems are not modelled. -/
namespace Verif

/-- A path below the root of the file system. -/
abbrev Path := List Str

/-- What is stored at a path. -/
inductive Node where
  | file (data : Bytes)
  | dir
  deriving DecidableEq, Repr

/-- The primitive mutations, each on canonical paths. -/
inductive Prim where
  | write (p : Path) (data : Bytes)
  | remove (p : Path)
  | mkdir (p : Path)
  | rmtree (p : Path)
  | move (src dst : Path)
  deriving DecidableEq, Repr

/-- The nodes strictly below or at `p` are dropped. -/
def dropTree (nodes : Dict Path Node) (p : Path) : Dict Path Node :=
  nodes.filter fun e => !(p.isPrefixOf e.1)

/-- The nodes below or at `src`, with `src` replaced by `dst`. -/
def subTree (nodes : Dict Path Node) (src dst : Path) : Dict Path Node :=
  (nodes.filter fun e => src.isPrefixOf e.1).map fun e => (dst ++ e.1.drop src.length, e.2)

/-- The effect of a primitive mutation. `move` copies the tree over what is at `dst` and then drops the source
(`fs.move.move_dir`). -/
def Prim.apply (nodes : Dict Path Node) : Prim → Dict Path Node
  | .write p d => Dict.set nodes p (.file d)
  | .remove p => Dict.erase nodes p
  | .mkdir p => Dict.set nodes p .dir
  | .rmtree p => dropTree nodes p
  | .move src dst =>
    dropTree ((subTree nodes src dst).foldl (fun d e => Dict.set d e.1 e.2) nodes) src

structure FS where
  canon : Str → Str
  nodes : Dict Path Node
  log : List Prim

namespace FS

/-- The name under which the file system stores a path. -/
def key (fs : FS) (p : Path) : Path := p.map fs.canon

/-- Perform a primitive mutation and record it. -/
def perform (fs : FS) (a : Prim) : FS :=
  { fs with nodes := a.apply fs.nodes, log := fs.log ++ [a] }

/-- The node at a path; the root always exists. -/
def node? (fs : FS) (p : Path) : Option Node :=
  if p = [] then some .dir else Dict.get? fs.nodes (fs.key p)

/-- `fs.exists(path)`. -/
def «exists» (fs : FS) (p : Path) : Bool := (fs.node? p).isSome

/-- `fs.isfile(path)`. -/
def isfile (fs : FS) (p : Path) : Bool :=
  match fs.node? p with
  | some (.file _) => true
  | _ => false

/-- `fs.isdir(path)`. -/
def isdir (fs : FS) (p : Path) : Bool :=
  match fs.node? p with
  | some .dir => true
  | _ => false

/-- `fs.getbytes(path)`; the same for `fs.open(path, "rb")` followed by reading everything. -/
def getbytes (fs : FS) (p : Path) : Except Exc Bytes :=
  match fs.node? p with
  | some (.file d) => .ok d
  | some .dir => .error .fileExpected
  | none => .error .resourceNotFound

/-- `fs.setbytes(path, data)`; the parent directory has to exist. -/
def setbytes (fs : FS) (p : Path) (data : Bytes) : Except Exc FS :=
  match fs.node? p.dropLast with
  | none => .error .resourceNotFound
  | some (.file _) => .error .fsError
  | some .dir =>
    match fs.node? p with
    | some .dir => .error .fileExpected
    | _ => .ok (fs.perform (.write (fs.key p) data))

/-- `fs.remove(path)`. -/
def remove (fs : FS) (p : Path) : Except Exc FS :=
  match fs.node? p with
  | some (.file _) => .ok (fs.perform (.remove (fs.key p)))
  | some .dir => .error .fileExpected
  | none => .error .resourceNotFound

/-- `fs.makedir(path, recreate=True)`. -/
def makedir (fs : FS) (p : Path) : Except Exc FS :=
  match fs.node? p with
  | some .dir => .ok fs
  | some (.file _) => .error .directoryExpected
  | none =>
    match fs.node? p.dropLast with
    | none => .error .resourceNotFound
    | some (.file _) => .error .directoryExpected
    | some .dir => .ok (fs.perform (.mkdir (fs.key p)))

/-- `fs.makedirs(path, recreate=True)`: the missing directories on the way are made, outermost first. `done` is
the part of the path dealt with already. -/
def makedirsFrom (fs : FS) (done : Path) : Path → Except Exc FS
  | [] => .ok fs
  | c :: rest =>
    match fs.makedir (done ++ [c]) with
    | .error e => .error e
    | .ok fs' => makedirsFrom fs' (done ++ [c]) rest

/-- `fs.makedirs(path, recreate=True)`. -/
def makedirs (fs : FS) (p : Path) : Except Exc FS := makedirsFrom fs [] p

/-- `fs.listdir(path)`: the names of the entries of a directory (as stored, i.e. canonical: simplification for
case insensitive file systems, which remember the case a file was created with). -/
def listdir (fs : FS) (p : Path) : Except Exc (List Str) :=
  match fs.node? p with
  | none => .error .resourceNotFound
  | some (.file _) => .error .directoryExpected
  | some .dir =>
    .ok (fs.nodes.filterMap fun e => if e.1.dropLast = fs.key p then e.1.getLast? else none)

/-- `fs.removetree(path)` of a directory other than the root. -/
def removetree (fs : FS) (p : Path) : Except Exc FS :=
  match fs.node? p with
  | some .dir => .ok (fs.perform (.rmtree (fs.key p)))
  | some (.file _) => .error .directoryExpected
  | none => .error .resourceNotFound

/-- `fs.removedir(path)`: only empty directories. -/
def removedir (fs : FS) (p : Path) : Except Exc FS :=
  match fs.node? p with
  | some .dir =>
    if fs.nodes.any (fun e => (fs.key p).isPrefixOf e.1 && e.1 != fs.key p) then .error .directoryNotEmpty
    else .ok (fs.perform (.remove (fs.key p)))
  | some (.file _) => .error .directoryExpected
  | none => .error .resourceNotFound

/-- `fs.movedir(src, dst, create=True)`, that is `fs.move.move_dir`: the destination is made first, then the source is opened. -/
def movedir (fs : FS) (src dst : Path) : FS × Except Exc Unit :=
  match fs.makedir dst with
  | .error e => (fs, .error e)
  | .ok fs' => match fs'.node? src with
    | none => (fs', .error .resourceNotFound)
    | some (.file _) => (fs', .error .directoryExpected)
    | some .dir => (fs'.perform (.move (fs'.key src) (fs'.key dst)), .ok ())

end FS
end Verif
