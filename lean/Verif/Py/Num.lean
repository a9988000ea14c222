import Verif.Py.Val
/-! Numbers as text: `int(str)`, `float(str)`, `repr(float)`, whitespace. -/
namespace Verif

/-- Characters for which Python's `str.isspace()` holds (and which `strip`, `int`, `float` remove at the ends). -/
def isSpace (c : Char) : Bool :=
  let n := c.toNat
  (9 ≤ n && n ≤ 13) || (28 ≤ n && n ≤ 32) || n == 0x85 || n == 0xA0 || n == 0x1680 || (0x2000 ≤ n && n ≤ 0x200A) ||
    n == 0x2028 || n == 0x2029 || n == 0x202F || n == 0x205F || n == 0x3000

/-- `s.lstrip()`. -/
def lstrip (s : Str) : Str := s.dropWhile isSpace

/-- `s.rstrip()`. -/
def rstrip (s : Str) : Str := (s.reverse.dropWhile isSpace).reverse

/-- `s.strip()`. -/
def strip (s : Str) : Str := rstrip (lstrip s)

/-- Decimal digits with single underscores between digits, as `int()` accepts (ASCII digits only; CPython also accepts
the decimal digits of other scripts). `prev` says whether the previous character was a digit. -/
def digitsUnderscore (prev : Bool) (acc : Nat) : Str → Option Nat
  | [] => if prev then some acc else none
  | c :: cs =>
    if isDigit c then digitsUnderscore true (acc * 10 + digitVal c) cs
    else if c = '_' && prev then digitsUnderscore false acc cs
    else none

/-- Python `int(s)` for a string: surrounding whitespace, optional sign, digits with underscores; `none` is `ValueError`.
(Python >= 3.6 syntax.) -/
def pyInt (s : Str) : Option Int :=
  match strip s with
  | '-' :: ds => (digitsUnderscore false 0 ds).map fun (n : Nat) => -(n : Int)
  | '+' :: ds => (digitsUnderscore false 0 ds).map fun (n : Nat) => (n : Int)
  | ds => (digitsUnderscore false 0 ds).map fun (n : Nat) => (n : Int)

/-- `repr(float)` and `float(str)`. `parse` returns `none` for `ValueError`. -/
structure FloatCodec where
  repr : Flt → Str
  parse : Str → Option Flt

/-- Printable ASCII character other than space. -/
def isGraph (c : Char) : Bool := 33 ≤ c.toNat && c.toNat ≤ 126

/-- What the theorems use of `repr`/`float`: reading a printed float gives it back, a printed float is not an integer
literal, and it consists of printable ASCII characters other than space and the XML markup characters. -/
structure FloatCodec.Lawful (F : FloatCodec) : Prop where
  parse_repr : ∀ f, F.parse (F.repr f) = some f
  pyInt_repr : ∀ f, pyInt (F.repr f) = none
  repr_ne_nil : ∀ f, F.repr f ≠ []
  repr_graph : ∀ f, ∀ c ∈ F.repr f, isGraph c = true
  repr_plain : ∀ f, ∀ c ∈ F.repr f, c ≠ '<' ∧ c ≠ '&' ∧ c ≠ '>' ∧ c ≠ '"' ∧ c ≠ ','
  parse_int : ∀ s i, pyInt s = some i → ∃ f, F.parse s = some f

end Verif
