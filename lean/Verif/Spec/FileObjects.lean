import Verif.Model.FileObjects
/-! What a caller expects of open files. -/
namespace Verif.Spec.FileObjects
open Verif Verif.FileObjects

/-- What has been written to a file until it was closed. -/
def sent : List Event → Bytes
  | [] => []
  | .write d :: es => d ++ sent es
  | .writeText t :: es => utf8 t ++ sent es
  | .close :: _ => []
  | .flush _ :: es => sent es
  | .other _ :: es => sent es

/-- The text that has been written to a file until it was closed. -/
def texts : List Event → Str
  | [] => []
  | .writeText t :: es => t ++ texts es
  | .close :: _ => []
  | _ :: es => texts es

/-- The file has been closed. -/
def Closed (es : List Event) : Prop := Event.close ∈ es

/-- Nothing else has happened to the file system. -/
def Alone (es : List Event) : Prop := ∀ e ∈ es, ∀ fs, e ≠ .other fs

/-- Whatever else happened to the file system left this file and its directory alone. -/
def Leaves (p : Path) (a b : FS) : Prop := b.getbytes p = a.getbytes p ∧ b.node? p.dropLast = a.node? p.dropLast

/-- Whatever else happens in between leaves the file of `s` alone. -/
def Undisturbed (s : File × FS) : List Event → Prop
  | [] => True
  | .other fs :: es => Leaves s.1.path s.2 fs ∧ Undisturbed (s.1, fs) es
  | e :: es => Undisturbed (event s e).1 es

/-- What a file opened with this mode begins with. -/
def before (fs : FS) (p : Path) (m : Mode) : Bytes :=
  match m, fs.getbytes p with
  | .a, .ok d => d
  | _, _ => []

end Verif.Spec.FileObjects
