import Verif.Model.UfoZip
/-! `with UFOWriter(path) as writer: ...`, `__init__.py` 1581-1585.

The statements in the block are calls on the writer and its glyph sets; the block ends with the first exception, of a call or of the program itself. -/
namespace Verif.Ufo
open Verif Verif.IO

/-- The block of the statement: the calls one after another, up to the first that raises; `own` is an exception that the program itself raises after them. -/
def block (E : FontInfo.Env) (L : Casing) (own : Option Exc) (s : Handle × Target) : List Op → (Handle × Target) × Except Exc Unit
  | [] => (s, match own with
    | none => .ok ()
    | some e => .error e)
  | op :: ops => match call E L s op with
    | (s', .error e) => (s', .error e)
    | (s', .ok ()) => block E L own s' ops

/-- The statement: `__enter__` returns the writer (1581-1582), `__exit__` closes it in any case and returns None (1584-1585), so that an exception goes on; one that `close`
raises takes its place. -/
def withWriter (E : FontInfo.Env) (L : Casing) (base : Str) (own : Option Exc) (s : Handle × Target) (ops : List Op) : (Handle × Target) × Except Exc Unit :=
  let b := block E L own s ops
  match close base b.1 with
  | (s', .error e) => (s', .error e)
  | (s', .ok ()) => (s', b.2)

end Verif.Ufo
