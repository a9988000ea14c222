import Verif.Model.Walk
/-! `copyFromReader` (`__init__.py` 976-995) when the reader and the writer are of the same UFO. `fs.copy.copy_dir` of PyFilesystem goes through the directories breadth first
(`Model/Walk.lean`) and copies the entries of each directory when it has been scanned: first it makes the directories, then it copies the files. What it makes may come before it
again. Names are listed as stored, cf. `FS.listdir`. -/
namespace Verif.Ufo
open Verif

/-- One entry of the directory `d`, to the directory `c`: `makedir(recreate=True)`, or copying a file. -/
def copyOne (d c : Path) (fs : FS) (e : Str × Bool) : FS × Except Exc Unit :=
  if e.2 then match fs.makedir (c ++ [e.1]) with
    | .error x => (fs, .error x)
    | .ok fs' => (fs', .ok ())
  else match fs.getbytes (d ++ [e.1]) with
    | .error x => (fs, .error x)
    | .ok b => match fs.setbytes (c ++ [e.1]) b with
      | .error x => (fs, .error x)
      | .ok fs' => (fs', .ok ())

/-- Entries, until one fails. -/
def copyAll (d c : Path) : FS → List (Str × Bool) → FS × Except Exc Unit
  | fs, [] => (fs, .ok ())
  | fs, e :: l => match copyOne d c fs e with
    | (fs', .error x) => (fs', .error x)
    | (fs', .ok ()) => copyAll d c fs' l

/-- Directories first. -/
def ordered (l : List (Str × Bool)) : List (Str × Bool) := l.filter (fun e => e.2) ++ l.filter fun e => !e.2

/-- The loop of `copy_dir` from `p` to `q`, for a number of directories. None: it has not ended. -/
def copyWalk (p q : Path) : Nat → FS → List Path → Option (FS × Except Exc Unit)
  | _, fs, [] => some (fs, .ok ())
  | 0, _, _ :: _ => none
  | k + 1, fs, d :: queue => match copyAll d (q ++ d.drop p.length) fs (ordered (entries fs d)) with
    | (fs', .error x) => some (fs', .error x)
    | (fs', .ok ()) => copyWalk p q k fs' (queue ++ pick true d (entries fs d))

/-- `copyFromReader`, `__init__.py` 976-995, from `p` to `q` in one UFO; `k` is the number of directories for which we watch. -/
def copyWithin (k : Nat) (fs : FS) (p q : Path) : Option (FS × Except Exc Unit) :=
  if fs.exists p = false then some (fs, .error .ufoLibError)
  else if fs.exists q then some (fs, .error .ufoLibError)
  else match fs.makedirs q.dropLast with
    | .error x => some (fs, .error x)
    | .ok fs1 => match fs1.node? p with
      | some .dir => match fs1.makedir q with
        | .error x => some (fs1, .error x)
        | .ok fs2 => copyWalk p q k fs2 [p]
      | _ => match fs1.getbytes p with
        | .error x => some (fs1, .error x)
        | .ok b => match fs1.setbytes q b with
          | .error x => some (fs1, .error x)
          | .ok fs2 => some (fs2, .ok ())

end Verif.Ufo
