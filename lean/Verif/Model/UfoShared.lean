import Verif.Model.UfoFont
/-! Several programs at work on one UFO, each with its own `UFOWriter`. -/
namespace Verif.Ufo
open Verif

/-- What a program holds: a `UFOWriter` and the glyph sets it has been given, `__init__.py` 752-960 and `glifLib.py` 86-176. -/
structure User where
  writer : Writer
  sets : List GlyphSet.GlyphSet

/-- The program on a file system. -/
def User.on (u : User) (fs : FS) : Font := { writer := u.writer, fs := fs, sets := u.sets }

/-- Programs and the one file system their writers are opened on. Nothing in `UFOWriter` or `GlyphSet` is shared between two writers (no module or class
attribute of `__init__.py` or `glifLib.py` is ever assigned by a method), and no file is locked. -/
structure Shared where
  users : List User
  fs : FS

/-- One call of the program number `i`, cf. `Font.step`. The calls are made one after another: a call is not interrupted by a call of another program (simplification). -/
def Shared.step (E : FontInfo.Env) (L : Casing) (s : Shared) (i : Nat) (c : FontCall) : Shared × Except Exc Unit :=
  match s.users[i]? with
  | none => (s, .error .indexError)
  | some u =>
    let r := (u.on s.fs).step E L c
    ({ users := s.users.set i { writer := r.1.writer, sets := r.1.sets }, fs := r.1.fs }, r.2)

/-- A schedule: the calls of all programs in the order in which they are made, each made whether or not the earlier ones raised. -/
def Shared.run (E : FontInfo.Env) (L : Casing) (s : Shared) : List (Nat × FontCall) → Shared
  | [] => s
  | (i, c) :: rest => Shared.run E L (s.step E L i c).1 rest

/-- The outcomes of the calls of the program number `i` in a schedule. -/
def Shared.outcomes (E : FontInfo.Env) (L : Casing) (i : Nat) (s : Shared) : List (Nat × FontCall) → List (Except Exc Unit)
  | [] => []
  | (j, c) :: rest =>
    let r := s.step E L j c
    if j = i then r.2 :: Shared.outcomes E L i r.1 rest else Shared.outcomes E L i r.1 rest

/-- The outcomes of the calls of one program. -/
def Font.results (E : FontInfo.Env) (L : Casing) (f : Font) : List FontCall → List (Except Exc Unit)
  | [] => []
  | c :: cs => (f.step E L c).2 :: Font.results E L (f.step E L c).1 cs

end Verif.Ufo
