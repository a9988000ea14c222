import Verif.Model.FS
import Verif.Model.UfoFont
/-! What it means that the files of a UFO are a tree, apart from any call. -/
namespace Verif.Spec.Tree
open Verif

/-- What exists lies in directories that exist, all the way up; so nothing lies in a file. -/
def Tree (fs : FS) : Prop := ∀ p q : Path, fs.exists p = true → q <+: p → q ≠ p → fs.isdir q = true

/-- No file below the directory `a` of the UFO would come where the directory `b` has a directory. -/
def NoClash (fs : FS) (a b : Str) : Prop := ∀ r : Path, fs.isfile (a :: r) = true → fs.isdir (b :: r) = false

/-- Names below `p` that the source tells apart are told apart by the destination. -/
def ToldApart (src fs : FS) (p : Path) : Prop :=
  ∀ x y : Path, src.exists (p ++ x) = true → src.exists (p ++ y) = true → (x.map src.canon).map fs.canon = (y.map src.canon).map fs.canon → x.map src.canon = y.map src.canon

end Verif.Spec.Tree
