import Verif.Py.Num
/-! Hexadecimal numbers as text: `"%04X" % i` and `int(s, 16)`. -/
namespace Verif

/-- An upper case hexadecimal digit. -/
def hexDigit (n : Nat) : Char := if n < 10 then Char.ofNat (48 + n) else Char.ofNat (55 + n)

/-- Digits of a natural number, upper case, without leading zeros. -/
def natHexAux : Nat → Nat → Str
  | 0, _ => []
  | fuel + 1, n => if n < 16 then [hexDigit n] else natHexAux fuel (n / 16) ++ [hexDigit (n % 16)]

/-- `"%X" % n`. -/
def natHex (n : Nat) : Str := natHexAux (n + 1) n

/-- `"%04X" % i`: the sign counts for the width. -/
def hex4 : Int → Str
  | .ofNat n => zfill 4 (natHex n)
  | .negSucc n => '-' :: zfill 3 (natHex (n + 1))

/-- The value of a hexadecimal digit, upper or lower case. -/
def hexVal (c : Char) : Option Nat :=
  if isDigit c then some (digitVal c)
  else if 'A' ≤ c && c ≤ 'F' then some (c.toNat - 55)
  else if 'a' ≤ c && c ≤ 'f' then some (c.toNat - 87)
  else none

/-- Hexadecimal digits with single underscores between digits. -/
def hexUnderscore (prev : Bool) (acc : Nat) : Str → Option Nat
  | [] => if prev then some acc else none
  | c :: cs => match hexVal c with
    | some d => hexUnderscore true (acc * 16 + d) cs
    | none => if c = '_' && prev then hexUnderscore false acc cs else none

/-- The digits after the sign: an optional prefix `0x`, which an underscore may follow. -/
def hexBody (s : Str) : Option Nat :=
  match s with
  | '0' :: 'x' :: '_' :: ds => hexUnderscore false 0 ds
  | '0' :: 'X' :: '_' :: ds => hexUnderscore false 0 ds
  | '0' :: 'x' :: ds => hexUnderscore false 0 ds
  | '0' :: 'X' :: ds => hexUnderscore false 0 ds
  | ds => hexUnderscore false 0 ds

/-- Python `int(s, 16)` for a string; `none` is `ValueError` (ASCII digits only). -/
def pyInt16 (s : Str) : Option Int :=
  match strip s with
  | '-' :: ds => (hexBody ds).map fun (n : Nat) => -(n : Int)
  | '+' :: ds => (hexBody ds).map fun (n : Nat) => (n : Int)
  | ds => (hexBody ds).map fun (n : Nat) => (n : Int)

end Verif
