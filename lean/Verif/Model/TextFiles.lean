import Verif.Model.FileObjects
/-! Files opened as text that are read in pieces and by lines: `UFOReader.getReadFileForPath` with `encoding="utf-8"`, `__init__.py` 354-372.

What Python's `io.TextIOWrapper` does is taken to be this (PyFilesystem opens text with `newline=""`, so line ends are recognised but not translated): it reads the file in blocks of any size and
decodes them one after the other, keeping an incomplete character and a carriage return at the end of a block back until the next one. -/
namespace Verif.TextFiles
open Verif Verif.FileObjects

/-- The number of bytes of the character that begins with this byte. -/
def width (a : UInt8) : Nat := if a.toNat < 128 then 1 else if a.toNat < 224 then 2 else if a.toNat < 240 then 3 else 4

/-- The incremental UTF-8 decoder behind `__init__.py` 369: the characters that are complete, and the bytes kept back; `none` for bytes that are not UTF-8. An incomplete character is not looked at
before it is complete (Python may raise one block earlier). The number is a bound on the characters. -/
def decodeSome : Nat → Bytes → Option (Str × Bytes)
  | 0, b => some ([], b)
  | _ + 1, [] => some ([], [])
  | n + 1, a :: r =>
    if (a :: r).length < width a then some ([], a :: r)
    else match utf8Decode ((a :: r).take (width a)) with
      | none => none
      | some c => match decodeSome n ((a :: r).drop (width a)) with
        | none => none
        | some (o, k) => some (c ++ o, k)

/-- A file opened by `__init__.py` 369: the bytes that were not read yet, the bytes and the carriage return kept back, and the text that was decoded and not returned yet. -/
structure Text where
  data : Bytes
  raw : Bytes
  cr : Bool
  text : Str
  deriving DecidableEq, Repr

/-- One block of `n + 1` bytes is read (nothing at the end of the file) and decoded; for files opened by `__init__.py` 369. -/
def fill (n : Nat) (s : Text) : Except Exc Text :=
  let b := s.raw ++ s.data.take (n + 1)
  match decodeSome b.length b with
  | none => .error .valueError
  | some (o, k) =>
    if s.data.isEmpty && !k.isEmpty then .error .valueError
    else
      let put := s.cr && (!o.isEmpty || s.data.isEmpty)
      let o := if put then '\r' :: o else o
      if o.getLast? = some '\r' && !s.data.isEmpty then .ok ⟨s.data.drop (n + 1), k, true, s.text ++ o.dropLast⟩
      else .ok ⟨s.data.drop (n + 1), k, s.cr && !put, s.text ++ o⟩

/-- Blocks are read until there is enough text, or the file ends; for files opened by `__init__.py` 369. `size` chooses the size of each block, by the number of bytes left. -/
def fillUntil (size : Nat → Nat) (enough : Str → Bool) : Nat → Text → Except Exc Text
  | 0, s => if enough s.text then .ok s else fill 0 s
  | n + 1, s =>
    if enough s.text then .ok s
    else if s.data.isEmpty then fill 0 s
    else match fill (size s.data.length) s with
      | .error e => .error e
      | .ok s => fillUntil size enough n s

/-- Where the first line ends, for files opened by `__init__.py` 369. -/
def lineEnd : Str → Option Nat
  | [] => none
  | c :: r =>
    if c = '\n' then some 1
    else if c = '\r' then (if r.head? = some '\n' then some 2 else some 1)
    else (lineEnd r).map (· + 1)

/-- What the caller does with a file opened by `__init__.py` 369: `f.read(n)`, `f.readline()`, `f.read()`. -/
inductive Call where
  | read (n : Nat)
  | readline
  | all
  deriving DecidableEq, Repr

/-- One call on a file opened by `__init__.py` 369. (`f.read()` reads the rest as one block; here it may be several.) -/
def call (size : Nat → Nat) (s : Text) : Call → Except Exc (Str × Text)
  | .read n => match fillUntil size (fun t => decide (n ≤ t.length)) s.data.length s with
    | .error e => .error e
    | .ok s => .ok (s.text.take n, { s with text := s.text.drop n })
  | .readline => match fillUntil size (fun t => (lineEnd t).isSome) s.data.length s with
    | .error e => .error e
    | .ok s =>
      let n := (lineEnd s.text).getD s.text.length
      .ok (s.text.take n, { s with text := s.text.drop n })
  | .all => match fillUntil size (fun _ => false) s.data.length s with
    | .error e => .error e
    | .ok s => .ok (s.text, { s with text := [] })

/-- Calls one after the other, on a file opened by `__init__.py` 369. -/
def calls (size : Nat → Nat) : Text → List Call → Except Exc (List Str × Text)
  | s, [] => .ok ([], s)
  | s, c :: cs => match call size s c with
    | .error e => .error e
    | .ok (o, s) => match calls size s cs with
      | .error e => .error e
      | .ok (os, s) => .ok (o :: os, s)

/-- The file as it is just opened by `getReadFileForPath` with an encoding, `__init__.py` 369. The file is taken not to change while it is open. -/
def opened (d : Bytes) : Text := ⟨d, [], false, []⟩

/-- `getReadFileForPath(path, encoding="utf-8")`, `__init__.py` 354-372, and calls on the file; `none` if there is no file. -/
def readTextFile (fs : FS) (path : Str) (size : Nat → Nat) (cs : List Call) : Except Exc (Option (List Str)) :=
  match getReadFile fs path with
  | .error e => .error e
  | .ok (.file f) => match fs.getbytes f.path with
    | .error e => .error e
    | .ok d => match calls size (opened d) cs with
      | .error e => .error e
      | .ok (os, _) => .ok (some os)
  | .ok _ => .ok none

end Verif.TextFiles
