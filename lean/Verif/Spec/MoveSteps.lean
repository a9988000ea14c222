import Verif.Model.MoveSteps
import Verif.Spec.Interrupt
/-! A directory that is being moved when the process stops. -/
namespace Verif.Spec.MoveSteps
open Verif Verif.Ufo Verif.Spec.Interrupt

/-- Orders in which a tree is copied and removed: everything once, directories before what is in them when copying, and after it when removing. -/
structure Orders (fs : FS) (src : Path) (copied removed : List (Path × Node)) : Prop where
  all : copied.Perm (entriesBelow fs (fs.key src))
  gone : removed.Perm (entriesBelow fs (fs.key src))
  down : copied.Pairwise fun e f => ¬ f.1 <+: e.1
  up : removed.Pairwise fun e f => ¬ e.1 <+: f.1

/-- What is left when the process stops, or the file system raises an exception, while the directory `src` is moved to `dst`; a file that is being written holds the beginning of its data. -/
def StoppedMove (fs : FS) (src dst : Path) (left : FS) : Prop :=
  ∃ copied removed, Orders fs src copied removed ∧ StoppedIn fs (moveSteps (fs.key src) (fs.key dst) copied removed) left

/-- The same files and directories. -/
def SameNodes (fs fs' : FS) : Prop := ∀ p : Path, fs'.node? p = fs.node? p

end Verif.Spec.MoveSteps
