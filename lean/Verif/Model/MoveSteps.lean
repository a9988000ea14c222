import Verif.Model.FS
/-! What `fs.movedir(src, dst, create=True)` (called in `__init__.py` 1516) does one after the other. `Model/FS.lean` does it at once; that the outcome is the same is `C125_whole`. -/
namespace Verif.Ufo
open Verif

/-- The entries at and below a directory, with the paths under which the file system stores them. -/
def entriesBelow (fs : FS) (src : Path) : List (Path × Node) := fs.nodes.filter fun e => src.isPrefixOf e.1

/-- One entry in `fs.copy.copy_dir`, which `__init__.py` 1516 calls by way of `fs.move.move_dir`: a directory is made, a file is written. -/
def copyStep (src dst : Path) (e : Path × Node) : Prim :=
  match e.2 with
  | .dir => .mkdir (dst ++ e.1.drop src.length)
  | .file d => .write (dst ++ e.1.drop src.length) d

/-- `fs.move.move_dir` (`__init__.py` 1516): the destination is made, the entries of the source are copied in some order, and then the entries of the source are removed in some order. -/
def moveSteps (src dst : Path) (copied removed : List (Path × Node)) : List Prim :=
  .mkdir dst :: (copied.map (copyStep src dst) ++ removed.map fun e => .remove e.1)

end Verif.Ufo
