import Verif.Py.Str
/-! Model of `Lib/ufoLib/filenames.py`. -/
namespace Verif.Filenames
open Verif

/-- `illegalCharacters`, filenames.py 9-11: the thirteen listed characters, `chr(1)`..`chr(31)` and `chr(0x7F)`. -/
def illegalCharacters : List Char :=
  ['"', '*', '+', '/', ':', '<', '>', '?', '[', '\\', ']', '|', Char.ofNat 0]
    ++ (List.range 31).map (fun i => Char.ofNat (i + 1)) ++ [Char.ofNat 0x7F]

/-- `reservedFileNames`, filenames.py 12-13 (already lower-cased there). -/
def reservedFileNames : List Str :=
  [c!"con", c!"prn", c!"aux", c!"clock$", c!"nul", c!"a:-z:", c!"com1",
   c!"lpt1", c!"lpt2", c!"lpt3", c!"com2", c!"com3", c!"com4"]

/-- `maxFileNameLength`, filenames.py 14. -/
def maxFileNameLength : Nat := 255

/-- The `while` loops of `handleClash1` (filenames.py 147-157) and `handleClash2` (193-202): try
`mk counter`, at most `tries` times, starting at `counter`; `none` when every attempt is taken. -/
def clashLoop (L : Casing) (existing : List Str) (mk : Nat → Str) : (tries : Nat) → (counter : Nat) → Option Str
  | 0, _ => none
  | tries + 1, counter =>
    if L.lower (mk counter) ∈ existing then clashLoop L existing mk tries (counter + 1)
    else some (mk counter)

/-- `handleClash2`, filenames.py 165-207. `int("9" * maxLength)` raises `ValueError` when `maxLength <= 0`;
otherwise it is `10^maxLength - 1`, the first attempt is always made and attempts stop when the
counter reaches that value, i.e. `max 1 (maxValue - 1)` attempts. -/
def handleClash2 (L : Casing) (existing : List Str) (pre suf : Str) : Except Exc Str :=
  let maxLength := maxFileNameLength - pre.length - suf.length
  if maxLength = 0 then .error .valueError
  else
    let maxValue := 10 ^ maxLength - 1
    match clashLoop L existing (fun counter => pre ++ natRepr counter ++ suf) (max 1 (maxValue - 1)) 1 with
    | none => .error .nameTranslationError
    | some n => .ok n

/-- The user name used by `handleClash1`, filenames.py 137-143 (a negative slice bound when it is too long). -/
def clash1Name (userName pre suf : Str) : Str :=
  if pre.length + userName.length + suf.length + 15 > maxFileNameLength then
    let l := pre.length + userName.length + suf.length + 15
    pySliceTo userName ((maxFileNameLength : Int) - (l : Int))
  else userName

/-- `handleClash1`, filenames.py 109-163. Counters 1 .. 999999999999998 are tried. -/
def handleClash1 (L : Casing) (userName : Str) (existing : List Str) (pre suf : Str) : Except Exc Str :=
  let userName := clash1Name userName pre suf
  match clashLoop L existing (fun counter => pre ++ (userName ++ zfill 15 (natRepr counter)) ++ suf) 999999999999998 1 with
  | some n => .ok n
  | none => handleClash2 L existing pre suf

/-- One step of the filter loop, filenames.py 82-90. -/
def filterChar (L : Casing) (c : Char) : Str :=
  if c ∈ illegalCharacters then ['_']
  else if L.lower [c] ≠ [c] then [c, '_']
  else [c]

/-- Leading period replacement, filenames.py 79-80 (`userName[0]` raises `IndexError` on the empty name). -/
def fixLeadingPeriod (userName pre : Str) : Except Exc Str :=
  if pre = [] then
    match userName with
    | [] => .error .indexError
    | c :: rest => if c = '.' then .ok ('_' :: rest) else .ok (c :: rest)
  else .ok userName

/-- Reserved part handling, filenames.py 96-101. -/
def fixReserved (L : Casing) (userName : Str) : Str :=
  join ['.'] ((splitOn '.' userName).map fun part => if L.lower part ∈ reservedFileNames then '_' :: part else part)

/-- `userNameToFileName`, filenames.py 21-107. The `isinstance(userName, unicode)` test (72) is the type `Str`. -/
def userNameToFileName (L : Casing) (userName : Str) (existing : List Str) (pre suf : Str) : Except Exc Str :=
  match fixLeadingPeriod userName pre with
  | .error e => .error e
  | .ok userName =>
    let userName := userName.flatMap (filterChar L)
    let sliceLength : Int := (maxFileNameLength : Int) - pre.length - suf.length
    let userName := pySliceTo userName sliceLength
    let userName := fixReserved L userName
    let fullName := pre ++ userName ++ suf
    if L.lower fullName ∈ existing then handleClash1 L userName existing pre suf
    else .ok fullName

end Verif.Filenames
