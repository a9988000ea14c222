import Verif.Py.Hex
import Mathlib.Data.List.Forall2
/-! Numbers as text, the way Python's `int` reads them, in terms of the digits. -/
namespace Verif.Spec.Numerals
open Verif

/-- The value of a digit; letters of both cases. -/
def DigitOf (base : Nat) (c : Char) (d : Nat) : Prop := d < base ∧ (c!"0123456789abcdef"[d]? = some c ∨ c!"0123456789ABCDEF"[d]? = some c)

/-- A number written with digits. -/
def Digits (base : Nat) (s : Str) (n : Nat) : Prop := s ≠ [] ∧ ∃ ds, List.Forall₂ (DigitOf base) s ds ∧ n = ds.foldl (fun a d => a * base + d) 0

/-- Digits with single underscores between them. -/
def Grouped (base : Nat) (s : Str) (n : Nat) : Prop :=
  Digits base (s.filter (· ≠ '_')) n ∧ s.head? ≠ some '_' ∧ s.getLast? ≠ some '_' ∧ ¬ ['_', '_'] <:+: s

/-- What may follow the sign: in base 16 also with `0x` in front, and perhaps an underscore after it. -/
def Unsigned (base : Nat) (s : Str) (n : Nat) : Prop :=
  Grouped base s n ∨ base = 16 ∧ ∃ x ∈ [c!"0x", c!"0X", c!"0x_", c!"0X_"], ∃ rest, s = x ++ rest ∧ Grouped base rest n

/-- A number with an optional sign. -/
def Literal (base : Nat) (s : Str) (i : Int) : Prop :=
  ∃ n : Nat, (Unsigned base s n ∧ i = n) ∨ (∃ t, s = '+' :: t ∧ Unsigned base t n ∧ i = n) ∨ (∃ t, s = '-' :: t ∧ Unsigned base t n ∧ i = -n)

/-- White space for `int`: the characters of Unicode that are white space, by their numbers. -/
def White (c : Char) : Prop :=
  c.toNat ∈ [9, 10, 11, 12, 13, 28, 29, 30, 31, 32, 0x85, 0xA0, 0x1680, 0x2000, 0x2001, 0x2002, 0x2003, 0x2004, 0x2005, 0x2006, 0x2007, 0x2008, 0x2009,
    0x200A, 0x2028, 0x2029, 0x202F, 0x205F, 0x3000]

/-- The text of a number, white space around it allowed. -/
def Says (base : Nat) (s : Str) (i : Int) : Prop :=
  ∃ w t w', s = w ++ t ++ w' ∧ (∀ c ∈ w, White c) ∧ (∀ c ∈ w', White c) ∧ Literal base t i

end Verif.Spec.Numerals
