import Verif.Model.UfoZip
/-! Stops and failures during `close` of an archive, `__init__.py` 1571-1579.

What the library does is taken to be this: closing a `ZipFS(path, write=True)` opens the file at the path anew, which empties it, and writes the entries one after another and
the directory of the archive at the end. Without that directory the file is not recognised as an archive (`fs.zipfs` and `is_zipfile` of `_sniffFileStructure`, 1593-1609,
look for it). -/
namespace Verif.Ufo
open Verif Verif.IO

/-- What can fail in `close`: copying to the new archive (1577), when the entries `part` have been made; or writing the archive, when the file system of the archive is closed
(end of the `with` statement 1576, or 1579). -/
inductive CloseFailure where
  | copying (part : List (Path × Node))
  | writing

/-- `close` when something fails, `__init__.py` 1571-1579. When copying fails the `with` statement (1576) still closes the new archive, which writes what has been copied; the
exception leaves `close` before line 1579, so the writer's file system stays open. Packages and writers already closed have nothing to write. For new archives (`havePrevious`
false) there is no copying; their temporary files are removed even when writing fails. -/
def closeFails (base : Str) (f : CloseFailure) (s : Handle × Target) : (Handle × Target) × Except Exc Unit :=
  if isZip s.1.structure_ && !s.1.closed then
    if s.1.writer.havePrevious then
      match f with
      | .copying part => ((s.1, .zip (archive (base ++ c!".ufo") ⟨s.1.fs.canon, part, []⟩)), .error .fsError)
      | .writing => ((s.1, .file), .error .fsError)
    else match f with
      | .copying _ => close base s
      | .writing => (({ s.1 with closed := true }, .file), .error .fsError)
  else close base s

/-- What can be at the path when the process stops during `close`: what was there (while files are copied to the temporary place), a file without the directory of the archive
(while the archive is written), or the new archive. For packages nothing is written. -/
def closeMoments (base : Str) (s : Handle × Target) : List Target :=
  if isZip s.1.structure_ && (s.1.writer.havePrevious || !s.1.closed) then [s.2, .file, (close base s).1.2] else [s.2]

end Verif.Ufo
