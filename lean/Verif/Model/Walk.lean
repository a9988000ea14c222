import Verif.Model.Images
/-! The listing of the data directory as a walk, `__init__.py` 684-699: `walk.files()` of PyFilesystem goes through the directories breadth first and scans each of them once.
Between two scans other programs may change the files, and each scan may fail. Scanning one directory is taken to be one moment (simplification); names are listed as stored,
cf. `FS.listdir`. -/
namespace Verif.Ufo
open Verif

/-- How looking at a directory fails: with one of the exceptions `fs.errors.ResourceError` (the directory is not there, or is not a directory), or with another one of
PyFilesystem (`PermissionDenied`, `OperationFailed`). -/
inductive ScanFailure where
  | resource | other
  deriving DecidableEq, Repr

/-- A moment at which the reader looks at the file system: the files then, and whether the file system fails. -/
structure Look where
  fs : FS
  failure : Option ScanFailure

/-- The entries of a directory: names, and whether they are directories; `fs.scandir`. -/
def entries (fs : FS) (d : Path) : List (Str × Bool) :=
  fs.nodes.filterMap fun e => if e.1.dropLast = fs.key d then e.1.getLast?.map fun n => (n, decide (e.2 = .dir)) else none

/-- Scanning a directory, or opening it (line 696). -/
def Look.scan (m : Look) (d : Path) : Except ScanFailure (List (Str × Bool)) :=
  match m.failure with
  | some e => .error e
  | none => if m.fs.node? d = some .dir then .ok (entries m.fs d) else .error .resource

/-- The entries that are directories, or those that are files, as paths. -/
def pick (dirs : Bool) (d : Path) (l : List (Str × Bool)) : List Path := (l.filter fun e => e.2 == dirs).map fun e => d ++ [e.1]

/-- The walk: each moment serves the first directory of the queue. None: the walk has not ended with these moments. -/
def walk : List Look → List Path → List Path → Option (Except ScanFailure (List Path))
  | _, [], found => some (.ok found)
  | [], _ :: _, _ => none
  | m :: ms, d :: queue, found => match m.scan d with
    | .error e => some (.error e)
    | .ok l => walk ms (queue ++ pick true d l) (found ++ pick false d l)

/-- `getDataDirectoryListing`, `__init__.py` 684-699: `opendir` and then the walk; any `ResourceError` in them gives the empty list (line 698), other exceptions are passed on. -/
def listData : List Look → Option (Except ScanFailure (List Path))
  | [] => none
  | m :: ms => match m.scan [dataName] with
    | .error .resource => some (.ok [])
    | .error e => some (.error e)
    | .ok _ => (walk ms [[dataName]] []).map fun r => match r with
      | .error .resource => .ok []
      | .error e => .error e
      | .ok l => .ok (l.map (List.drop 1))

end Verif.Ufo
