import Verif.Model.GlyphSet
/-! What a glyph set has to do, independent of the model: the record of the calls made and what they entail. -/
namespace Verif.Spec.GlyphSet
open Verif

/-- A call and how it ended, as the caller sees it. -/
inductive Call where
  /-- `writeGlyph` returned; `data` is the GLIF text of the glyph. -/
  | wrote (name : Str) (data : Bytes)
  /-- `writeGlyph` raised. -/
  | writeFailed (name : Str)
  /-- `deleteGlyph` returned. -/
  | deleted (name : Str)
  /-- `deleteGlyph` raised. -/
  | deleteFailed (name : Str)
  /-- A call that concerns no particular glyph. -/
  | other

/-- What the caller can expect of a glyph name. -/
inductive Status where
  /-- There is no such glyph. -/
  | absent
  /-- The glyph is there with this text. -/
  | holds (data : Bytes)
  /-- Nothing can be said (after a failure). -/
  | unknown
  deriving DecidableEq

/-- How one call changes what is expected of the glyph `n`. A failed write does not change a glyph that is there. -/
def Status.after (n : Str) (s : Status) : Call → Status
  | .wrote m d => if m = n then .holds d else s
  | .writeFailed m => if m = n ∧ s = .absent then .unknown else s
  | .deleted m => if m = n then .absent else s
  | .deleteFailed m => if m = n ∧ s ≠ .absent then .unknown else s
  | .other => s

/-- What is expected of the glyph `n` after these calls. -/
def Status.history (n : Str) (s : Status) : List Call → Status
  | [] => s
  | c :: cs => Status.history n (s.after n c) cs

/-- The outcome `r` of `getGLIF` is as expected. -/
def Expects (r : Except Exc Bytes) : Status → Prop
  | .absent => r = .error .keyError
  | .holds d => r = .ok d
  | .unknown => True

open Verif.GlyphSet in
/-- The call record of one step. -/
def call (w : World) (op : Op) (r : Except Exc Unit) : Call :=
  match op, r with
  | .write _ n fv data, .ok _ => match data (fv.getD (if 3 ≤ w.1.version then 2 else 1)) with
    | .ok d => .wrote n d
    | .error _ => .other
  | .write _ n _ _, .error _ => .writeFailed n
  | .delete n, .ok _ => .deleted n
  | .delete n, .error _ => .deleteFailed n
  | _, _ => .other

open Verif.GlyphSet in
/-- The call record of a history. -/
def calls (L : Casing) (F : FloatCodec) (w : World) : List Op → List Call
  | [] => []
  | op :: ops => call w op (step L F w op).2 :: calls L F (step L F w op).1 ops

/-- No two glyphs share a file when file names are compared after `fold`. -/
def Distinct (fold : Str → Str) (table : Dict Str Str) : Prop :=
  ∀ n m f g, Dict.get? table n = some f → Dict.get? table m = some g → fold f = fold g → n = m

/-- No glyph is stored in the file `f`. -/
def Avoids (fold : Str → Str) (f : Str) (table : Dict Str Str) : Prop :=
  ∀ n g, Dict.get? table n = some g → fold g ≠ fold f

/-- `str.lower` on ASCII text. -/
def AsciiCasing (L : Casing) : Prop := ∀ s : Str, (∀ c ∈ s, c.toNat < 128) → L.lower s = s.map asciiLowerChar

/-- ASCII letters, digits and the period. -/
def SafeChar (c : Char) : Prop := ('a' ≤ c ∧ c ≤ 'z') ∨ ('A' ≤ c ∧ c ≤ 'Z') ∨ isDigit c = true ∨ c = '.'

instance (c : Char) : Decidable (SafeChar c) := by unfold SafeChar; infer_instance

/-- A glyph name that the default naming function maps to its own file: letters, digits and periods, not starting with a
period, short enough not to be clipped. -/
structure SafeName (n : Str) : Prop where
  chars : ∀ c ∈ n, SafeChar c
  nonempty : n ≠ []
  start : n.head? ≠ some '.'
  short : n.length + (n.filter fun c => 'A' ≤ c ∧ c ≤ 'Z').length ≤ 250

/-- `str.lower` as far as file names need it: a second time it changes nothing, and an ASCII character at the end is changed by itself. -/
structure CaseLaws (lower : Str → Str) : Prop where
  again : ∀ s, lower (lower s) = lower s
  last : ∀ s c, c.toNat < 128 → (lower (s ++ [c])).getLast? = some (asciiLowerChar c)

/-- What stands for a character of a glyph name in a file name: a capital is followed by an underscore, and an underscore replaces the control characters and those
that some file system forbids. -/
def portable (lower : Str → Str) (c : Char) : Str :=
  if c.toNat < 32 ∨ c.toNat = 127 ∨ c ∈ c!"\"*+/:<>?[\\]|" then ['_'] else if lower [c] ≠ [c] then [c, '_'] else [c]

/-- The names of devices, which cannot be parts of file names on some systems. -/
def devices : List Str :=
  [c!"con", c!"prn", c!"aux", c!"clock$", c!"nul", c!"a:-z:", c!"com1", c!"com2", c!"com3", c!"com4", c!"lpt1", c!"lpt2", c!"lpt3"]

/-- The file of its own that a glyph name is translated to: no period at the start, portable characters, at most 255 characters, an underscore before the names of
devices. -/
def ownFile (lower : Str → Str) (n : Str) : Str :=
  join ['.'] ((splitOn '.' (((if n.head? = some '.' then '_' :: n.tail else n).flatMap (portable lower)).take 250)).map fun part =>
    if lower part ∈ devices then '_' :: part else part) ++ c!".glif"

/-- Glyph names whose own files are different ignoring case. -/
structure OwnFiles (lower : Str → Str) (N : Str → Prop) : Prop where
  nonempty : ∀ n, N n → n ≠ []
  apart : ∀ n m, N n → N m → lower (ownFile lower n) = lower (ownFile lower m) → n = m

/-- ASCII without capital letters. -/
def LowerAscii (s : Str) : Prop := ∀ c ∈ s, c.toNat < 128 ∧ ¬('A' ≤ c ∧ c ≤ 'Z')

/-- A naming function that never gives a file name that is taken, ignoring case, nor `contents.plist`. -/
def FreshNaming (lower : Str → Str) (naming : Str → Dict Str Str → Except Exc Str) : Prop :=
  ∀ n ex f, naming n ex = .ok f → lower f ≠ lower c!"contents.plist" ∧ ∀ g ∈ Dict.keys ex, lower g ≠ lower f

open Verif.GlyphSet in
/-- The naming function of the call never gives a name the file system takes for `f`. -/
def NamesAvoid (canon : Str → Str) (f : Str) : Op → Prop
  | .write naming n _ _ => ∀ ex g, naming n ex = .ok g → canon g ≠ canon f
  | .rebuild _ => False
  | _ => True

end Verif.Spec.GlyphSet
