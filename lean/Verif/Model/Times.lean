import Verif.Model.GlyphSet
import Mathlib.Data.Rat.Defs
import Mathlib.Algebra.Order.Ring.Rat
/-! Modification times: `_getFileModificationTime` (`__init__.py` 108-120), which readers, writers and glyph sets have as a method, and
`GlyphSet.getGLIFModificationTime` (glifLib.py 302-311).

The times are those that the file system keeps. They are taken from the record of the mutations: the time of a node is the time of the last mutation that made, wrote
or moved it, or changed the entries of the directory. Simplifications: writing to a file counts as a change of its directory also when the file was there; a directory that
is moved onto another marks everything below the destination; `setModificationTime`, which sets the time of the whole UFO, is not modelled, nor file systems that keep no times
(there the result is None). -/
namespace Verif

/-- The clock of a file system: when each mutation takes place, and the times of what was there before the first. -/
structure Clock where
  tick : Nat → Rat
  start : Path → Rat

/-- The mutation gives this node a new time. -/
def Prim.marks : Prim → Path → Bool
  | .write p _, k => p == k || p.dropLast == k
  | .remove p, k => p == k || p.dropLast == k
  | .mkdir p, k => p == k || p.dropLast == k
  | .rmtree p, k => p.isPrefixOf k || p.dropLast == k
  | .move s d, k => s.isPrefixOf k || d.isPrefixOf k || s.dropLast == k || d.dropLast == k

/-- The time of a node after these mutations, of which the first is the `n`-th of all. -/
def stampFrom (c : Clock) (k : Path) : Nat → Rat → List Prim → Rat
  | _, t, [] => t
  | n, t, a :: log => stampFrom c k (n + 1) (if a.marks k then c.tick n else t) log

/-- The time that the file system keeps for a node. -/
def FS.stamp (c : Clock) (fs : FS) (k : Path) : Rat := stampFrom c k 0 (c.start k) fs.log

/-- `_getFileModificationTime`, `__init__.py` 108-120: None if there is nothing at the path. -/
def getFileModificationTime (c : Clock) (fs : FS) (p : Path) : Option Rat :=
  match fs.node? p with
  | none => none
  | some _ => some (fs.stamp c (fs.key p))

/-- `getGLIFModificationTime`, glifLib.py 302-311. -/
def GlyphSet.getGLIFModificationTime (c : Clock) (w : GlyphSet.World) (n : Str) : Except Exc (Option Rat) :=
  match Dict.get? w.1.contents n with
  | none => .error .keyError
  | some f => .ok (getFileModificationTime c w.2 (w.1.dir ++ [f]))

end Verif
