import Verif.Model.FileObjects
/-! Files opened for updating: `getFileObjectForPath` (`__init__.py` 1017-1042) with the modes `r+b`, `w+b`, `a+b` and `x+b`, and what the caller does with such a file: seek, read, write and truncate.

`getFileObjectForPath` looks at the first character of the mode only (1031-1036), so opening is `FileObjects.getFileObject`. What Python's `io.BufferedRandom` and PyFilesystem do is taken to be
this: bytes that are written are kept back as one block; at any moment some of the block may go to the disk; seeking, reading, truncating and closing put all of it there first. Bytes go to the
position of the file, with `a` to its end; beyond the end of the file there are zeros. Text is not modelled here. -/
namespace Verif.UpdateFiles
open Verif Verif.IO Verif.FileObjects

/-- The bytes `b` at a place of a file (the operating system's `write`). -/
def overlay (d : Bytes) (off : Nat) (b : Bytes) : Bytes :=
  if b = [] then d else (d ++ List.replicate (off - d.length) 0).take off ++ b ++ d.drop (off + b.length)

/-- The file with another length (the operating system's `ftruncate`). -/
def resize (d : Bytes) (n : Nat) : Bytes := d.take n ++ List.replicate (n - d.length) 0

/-- An open file: where, whether it was opened with `a`, the place of the bytes kept back, and these. -/
structure Update where
  path : Path
  append : Bool
  start : Nat
  pending : Bytes
  closed : Bool
  deriving DecidableEq, Repr

/-- What `getFileObjectForPath` (`__init__.py` 1017-1042) returns for a mode with `+`, for the file that is opened: with `a` the position is its end. -/
def opened (fs : FS) (f : File) : Update :=
  ⟨f.path, f.mode == .a, if f.mode = .a then (match fs.getbytes f.path with | .ok d => d.length | .error _ => 0) else 0, [], false⟩

/-- The contents of the file are replaced (nothing happens in the file system if the file has been removed from it). -/
def replace (fs : FS) (p : Path) (g : Bytes → Bytes) : FS :=
  match fs.getbytes p with
  | .error _ => fs
  | .ok old => match fs.setbytes p (g old) with
    | .error _ => fs
    | .ok fs' => fs'

/-- The first `n` bytes kept back go to the disk. -/
def flush (s : Update × FS) (n : Nat) : Update × FS :=
  if s.1.pending.take n = [] then s
  else match s.2.getbytes s.1.path with
    | .error _ => ({ s.1 with start := s.1.start + (s.1.pending.take n).length, pending := s.1.pending.drop n }, s.2)
    | .ok old =>
      let off := if s.1.append then old.length else s.1.start
      ({ s.1 with start := off + (s.1.pending.take n).length, pending := s.1.pending.drop n }, replace s.2 s.1.path fun d => overlay d off (s.1.pending.take n))

/-- All bytes kept back go to the disk. -/
def flushAll (s : Update × FS) : Update × FS := flush s s.1.pending.length

/-- What can happen: the caller seeks, writes, reads, truncates or closes; `io` or the operating system puts the first `n` bytes kept back on the disk; something else happens to the file system. -/
inductive Event where
  | seek (n : Nat)
  | write (data : Bytes)
  | read (n : Nat)
  | truncate (n : Nat)
  | close
  | flush (n : Nat)
  | other (fs : FS)

/-- One event, and what is returned (nothing, except for reading). With a closed file everything but closing raises `ValueError`. -/
def event (s : Update × FS) : Event → (Update × FS) × Except Exc Bytes
  | .other fs => ((s.1, fs), .ok [])
  | .flush n => if s.1.closed then (s, .ok []) else (flush s n, .ok [])
  | .close => if s.1.closed then (s, .ok []) else (({ (flushAll s).1 with closed := true }, (flushAll s).2), .ok [])
  | .seek n => if s.1.closed then (s, .error .valueError) else (({ (flushAll s).1 with start := n }, (flushAll s).2), .ok [])
  | .write d => if s.1.closed then (s, .error .valueError) else (({ s.1 with pending := s.1.pending ++ d }, s.2), .ok [])
  | .truncate n => if s.1.closed then (s, .error .valueError) else (((flushAll s).1, replace (flushAll s).2 s.1.path fun d => resize d n), .ok [])
  | .read n =>
    if s.1.closed then (s, .error .valueError)
    else match (flushAll s).2.getbytes s.1.path with
      | .error e => (flushAll s, .error e)
      | .ok d =>
        let b := (d.drop (flushAll s).1.start).take n
        (({ (flushAll s).1 with start := (flushAll s).1.start + b.length }, (flushAll s).2), .ok b)

/-- Events one after the other, and what each returns. -/
def events (s : Update × FS) : List Event → (Update × FS) × List (Except Exc Bytes)
  | [] => (s, [])
  | e :: es => ((events (event s e).1 es).1, (event s e).2 :: (events (event s e).1 es).2)

end Verif.UpdateFiles
