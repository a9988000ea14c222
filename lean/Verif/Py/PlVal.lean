import Verif.Py.Val
/-! Python values as `plistlib` distinguishes them. -/
namespace Verif

/-- The Python values `_make_element` distinguishes: those of `PyVal`, `bytearray` and `plistlib.Data`. -/
inductive PlVal where
  | none
  | bool (b : Bool)
  | int (i : Int)
  | float (f : Flt)
  | str (s : Str)
  | bytes (b : List UInt8)
  | bytearray (b : List UInt8)
  | data (b : List UInt8)
  | date (d : PyDate)
  | list (l : List PlVal)
  | tuple (l : List PlVal)
  | dict (d : List (PlVal × PlVal))
  | other (n : Nat)
  deriving Repr

end Verif
