import Verif.Py.Str
import Verif.Model.FS
/-! What path strings stand for. -/
namespace Verif.Spec.PathNames
open Verif

/-- A name an entry of a directory can have. -/
structure Name (c : Str) : Prop where
  nonempty : c ≠ []
  here : c ≠ c!"."
  up : c ≠ c!".."
  slash : '/' ∉ c

/-- The string is made of these pieces with `/` between them. -/
structure Written (s : Str) (l : List Str) : Prop where
  some : l ≠ []
  pieces : ∀ c ∈ l, '/' ∉ c
  text : s = join c!"/" l

/-- Walking from one directory to another piece by piece, never above the root. -/
inductive Walk : Path → List Str → Path → Prop where
  | done (d : Path) : Walk d [] d
  | empty {d cs e} : Walk d cs e → Walk d ([] :: cs) e
  | here {d cs e} : Walk d cs e → Walk d (c!"." :: cs) e
  | up {d x cs e} : Walk d cs e → Walk (d ++ [x]) (c!".." :: cs) e
  | down {d c cs e} : Name c → Walk (d ++ [c]) cs e → Walk d (c :: cs) e

/-- The string leads there from the root. -/
def Leads (s : Str) (p : Path) : Prop := ∃ l, Written s l ∧ Walk [] l p

/-- Nowhere on the way more steps have been taken up than down. -/
def Stays (s : Str) : Prop :=
  ∀ l, Written s l → ∀ n, (l.take n).countP (fun c => decide (c = c!"..")) ≤
    (l.take n).countP (fun c => decide (c ≠ [] ∧ c ≠ c!"." ∧ c ≠ c!".."))

/-- Two file systems that agree on everything in a directory. -/
def AgreeIn (dir : Path) (a b : FS) : Prop := a.canon = b.canon ∧ ∀ p, a.node? (dir ++ p) = b.node? (dir ++ p)

end Verif.Spec.PathNames
