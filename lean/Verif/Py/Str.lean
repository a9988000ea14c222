/-! Python strings as lists of characters.

`Str` models Python's `str` (no lone surrogates). `c!"..."` is a literal of that type. -/

namespace Verif

abbrev Str := List Char

/-- `c!"abc"` is the literal `['a', 'b', 'c']`. -/
syntax:max "c!" str : term
macro_rules
  | `(c! $s:str) => do
    let cs := s.getString.toList.map fun ch => Lean.Syntax.mkCharLit ch
    let ts : Array (Lean.TSyntax `term) := (cs.map fun x => ⟨x.raw⟩).toArray
    `(([ $ts,* ] : List Char))

/-- The exception classes the modelled code can raise (messages are not modelled). -/
inductive Exc where
  | indexError | keyError | typeError | valueError | attributeError | assertionError | overflowError
  | nameTranslationError | ufoLibError | glifLibError | resourceNotFound | notImplementedError
  | plistParseError | xmlParseError | fsError | fileExpected | directoryExpected | directoryExists | directoryNotEmpty
  deriving DecidableEq, Repr

/-- The character-casing interface: `lower` models `str.lower()`. -/
structure Casing where
  lower : Str → Str

/-- ASCII digit. -/
def isDigit (c : Char) : Bool := '0' ≤ c && c ≤ '9'

/-- Laws of CPython's `str.lower` that the theorems use. `_` and the ASCII digits are caseless and not
case-ignorable, so they are unchanged and the text on either side is lowered independently (this includes the
final-sigma rule, the only context dependent rule of `str.lower`). -/
structure Casing.Lawful (L : Casing) : Prop where
  lower_nil : L.lower [] = []
  lower_sep : ∀ (a b : Str) (c : Char), c = '_' ∨ isDigit c = true →
    L.lower (a ++ c :: b) = L.lower a ++ c :: L.lower b

/-- Lower-casing of one ASCII character. -/
def asciiLowerChar (c : Char) : Char :=
  if 'A' ≤ c ∧ c ≤ 'Z' then Char.ofNat (c.toNat + 32) else c

/-- The restriction of `str.lower` to ASCII: the instance used for examples and counterexamples. -/
def asciiCasing : Casing := ⟨fun s => s.map asciiLowerChar⟩

/-- Python `s[:k]` for any integer `k`. -/
def pySliceTo (s : Str) (k : Int) : Str :=
  if 0 ≤ k then s.take k.toNat else s.take (s.length - (-k).toNat)

/-- Python `s.split(c)` for a one-character separator. -/
def splitOn (c : Char) : Str → List Str
  | [] => [[]]
  | x :: xs =>
    if x = c then [] :: splitOn c xs
    else match splitOn c xs with
      | [] => [[x]]
      | p :: ps => (x :: p) :: ps

/-- Python `sep.join(parts)`. -/
def join (sep : Str) : List Str → Str
  | [] => []
  | [p] => p
  | p :: q :: ps => p ++ sep ++ join sep (q :: ps)

/-- Python `s.startswith(p)`. -/
def startsWith (s p : Str) : Bool := p.isPrefixOf s

/-- `s.replace(old, "")` with fuel (`fuel >= s.length` is enough; for non-empty `old`). -/
def removeAllAux (old : Str) : Nat → Str → Str
  | 0, s => s
  | _ + 1, [] => []
  | fuel + 1, c :: rest =>
    if startsWith (c :: rest) old then removeAllAux old fuel ((c :: rest).drop old.length)
    else c :: removeAllAux old fuel rest

/-- Python `s.replace(old, "")` for a non-empty `old`: removes non-overlapping occurrences from the left. -/
def removeAll (old s : Str) : Str := removeAllAux old s.length s

/-- Digit character of a number below ten. -/
def digitChar (n : Nat) : Char := Char.ofNat (48 + n)

/-- Value of a digit character. -/
def digitVal (c : Char) : Nat := c.toNat - 48

/-- Decimal digits with fuel (`fuel > n` is enough). -/
def natReprAux : Nat → Nat → Str
  | 0, _ => []
  | fuel + 1, n => if n < 10 then [digitChar n] else natReprAux fuel (n / 10) ++ [digitChar (n % 10)]

/-- Python `str(n)` for `n >= 0`. -/
def natRepr (n : Nat) : Str := natReprAux (n + 1) n

/-- Python `str(n)`. -/
def intRepr : Int → Str
  | .ofNat n => natRepr n
  | .negSucc n => '-' :: natRepr (n + 1)

/-- Python `s.zfill(w)` for an unsigned `s`. -/
def zfill (w : Nat) (s : Str) : Str := List.replicate (w - s.length) '0' ++ s

end Verif
