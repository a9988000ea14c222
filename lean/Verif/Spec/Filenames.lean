import Verif.Py.Str
/-! What a user expects of generated file names, stated without reference to the model. -/
namespace Verif.Spec.Filenames
open Verif

/-- Characters that may not occur in a file name on common systems: control characters, DEL and
`" * + / : < > ? [ \ ] |`. -/
def IllegalChar (c : Char) : Prop :=
  c.toNat < 32 ∨ c.toNat = 127 ∨
  c = '"' ∨ c = '*' ∨ c = '+' ∨ c = '/' ∨ c = ':' ∨ c = '<' ∨ c = '>' ∨ c = '?' ∨ c = '[' ∨ c = '\\' ∨ c = ']' ∨ c = '|'

/-- `p` is a dot-separated component of `s`. -/
def Component (p s : Str) : Prop :=
  '.' ∉ p ∧ ∃ a b, s = a ++ p ++ b ∧ (a = [] ∨ ∃ a', a = a' ++ ['.']) ∧ (b = [] ∨ ∃ b', b = '.' :: b')

/-- Device names reserved by Windows, as listed by the UFO 3 specification (lower case). -/
def deviceNames : List Str :=
  [c!"con", c!"prn", c!"aux", c!"clock$", c!"nul", c!"a:-z:",
   c!"com1", c!"com2", c!"com3", c!"com4", c!"lpt1", c!"lpt2", c!"lpt3"]

/-- `p` is a reserved device name, ignoring case. -/
def Reserved (L : Casing) (p : Str) : Prop := L.lower p ∈ deviceNames

instance (L : Casing) (p : Str) : Decidable (Reserved L p) := inferInstanceAs (Decidable (_ ∈ _))

/-- `p` is an underscore followed by a reserved device name. -/
def EscapedReserved (L : Casing) : Str → Bool
  | '_' :: q => decide (Reserved L q)
  | _ => false

/-- Equal ignoring case. -/
def SameFile (L : Casing) (a b : Str) : Prop := L.lower a = L.lower b

end Verif.Spec.Filenames
