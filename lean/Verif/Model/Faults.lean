import Verif.Model.UfoMethods
/-! File systems that fail: no space is left, permissions are missing, the file system was closed, the network is gone. The calls on a `UFOWriter` and its glyph sets are sequences of
calls on the file system (`Model/UfoMethods.lean`), each of which can raise an exception `fs.errors.FSError` that is none of those the code asks for (`ResourceNotFound`, `FileExpected`,
`DirectoryExpected`, `DirectoryNotEmpty`). The `except` clauses are those in `__init__.py` 135-198, 977-1066 and glifLib.py 178-279, 359-439. -/
namespace Verif.Ufo
open Verif Verif.IO

/-- The paths a method works on. -/
def Method.paths : Method → List Path
  | .setbytes p _ => [p]
  | .remove p => [p]
  | .makedir p => [p]
  | .makedirs p => [p]
  | .removetree p => [p]
  | .removedir p => [p]
  | .movedir p q => [p, q]
  | .copyEntry q _ => [q]

/-- What a method that fails can have done to the files: anything below the entries of the root directory in which its paths are (a file that is cut off, directories that are made or removed in
part), and nothing elsewhere. -/
def Method.Harms (m : Method) (fs fs' : FS) : Prop :=
  fs'.canon = fs.canon ∧ ∀ c x, m ≠ .removetree [] → (∀ p ∈ m.paths, ∀ d, p.head? = some d → fs.canon d ≠ fs.canon c) → fs'.node? (c :: x) = fs.node? (c :: x)

/-- A program on a file system that can fail each time it is used: the files in the end, whether something has failed, and the result. There is none if `exists` raises, which
the code catches nowhere. -/
inductive Prog.Suffers {α : Type} : Prog α → FS → Bool → FS → Option α → Prop
  | ret {a fs} : Suffers (.ret a) fs false fs (some a)
  | get {p k fs b fs' r} : Suffers (k (fs.getbytes p)) fs b fs' r → Suffers (.get p k) fs b fs' r
  | getFails {p k fs b fs' r} : Suffers (k (.error .fsError)) fs b fs' r → Suffers (.get p k) fs true fs' r
  | has {p k fs b fs' r} : Suffers (k (fs.exists p)) fs b fs' r → Suffers (.has p k) fs b fs' r
  | hasFails {p k fs} : Suffers (.has p k) fs true fs none
  | call {m k fs b fs' r} : Suffers (k (m.run fs).2) (m.run fs).1 b fs' r → Suffers (.call m k) fs b fs' r
  | callFails {m k fs fs1 b fs' r} : m.Harms fs fs1 → Suffers (k (.error .fsError)) fs1 b fs' r → Suffers (.call m k) fs true fs' r

/-- A program on a file system that is closed, so that everything fails and nothing is done. -/
def Prog.closed {α : Type} : Prog α → Option α
  | .ret a => some a
  | .get _ k => (k (.error .fsError)).closed
  | .has _ _ => none
  | .call _ k => (k (.error .fsError)).closed

/-- Calls one after another, all of which return normally: the objects and the files in the end, and whether something has failed. -/
inductive User.Succeeds (E : FontInfo.Env) (L : Casing) : User → FS → List FontCall → Bool → User → FS → Prop
  | nil {u fs} : Succeeds E L u fs [] false u fs
  | cons {u fs c cs b b' u1 fs1 u' fs'} : (u.prog E L c).Suffers fs b fs1 (some (u1, .ok ())) → Succeeds E L u1 fs1 cs b' u' fs' → Succeeds E L u fs (c :: cs) (b || b') u' fs'

end Verif.Ufo
