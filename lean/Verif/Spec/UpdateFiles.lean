import Verif.Model.UpdateFiles
import Verif.Spec.FileObjects
/-! What a caller expects of a file opened for updating: it is an array of bytes with a position, and nothing is kept back. -/
namespace Verif.Spec.UpdateFiles
open Verif Verif.UpdateFiles
open Verif.FileObjects (Mode File)
open Verif.Spec.FileObjects (Leaves)

/-- An array of bytes with a position. -/
structure Plain where
  data : Bytes
  position : Nat
  closed : Bool

/-- `d'` is `d` with the bytes `b` put at a place: there it has theirs, elsewhere those of before, and zeros between the old end and the place. -/
def Put (d : Bytes) (off : Nat) (b : Bytes) (d' : Bytes) : Prop :=
  ∀ i, d'[i]? = if off ≤ i ∧ i < off + b.length then b[i - off]? else if i < off ∧ d.length ≤ i ∧ b ≠ [] then some 0 else d[i]?

/-- `d'` is `d` with length `n`, with zeros beyond the old end. -/
def Resized (d : Bytes) (n : Nat) (d' : Bytes) : Prop := ∀ i, d'[i]? = if n ≤ i then none else if d.length ≤ i then some 0 else d[i]?

/-- One event on an array: the array afterwards and what is returned. With `append` everything is written at the end. -/
inductive Plain.Event (append : Bool) : Plain → UpdateFiles.Event → Plain → Except Exc Bytes → Prop
  | other (s : Plain) (fs : FS) : Plain.Event append s (.other fs) s (.ok [])
  | flush (s : Plain) (n : Nat) : Plain.Event append s (.flush n) s (.ok [])
  | close (s : Plain) : Plain.Event append s .close { s with closed := true } (.ok [])
  | seek (d : Bytes) (i n : Nat) : Plain.Event append ⟨d, i, false⟩ (.seek n) ⟨d, n, false⟩ (.ok [])
  | nothing (s : Plain) (h : s.closed = false) : Plain.Event append s (.write []) s (.ok [])
  | write (d d' b : Bytes) (i : Nat) (hb : b ≠ []) (h : Put d (if append then d.length else i) b d') :
      Plain.Event append ⟨d, i, false⟩ (.write b) ⟨d', (if append then d.length else i) + b.length, false⟩ (.ok [])
  | truncate (d d' : Bytes) (i n : Nat) (h : Resized d n d') : Plain.Event append ⟨d, i, false⟩ (.truncate n) ⟨d', i, false⟩ (.ok [])
  | read (d b : Bytes) (i n : Nat) (h : b = (d.drop i).take n) : Plain.Event append ⟨d, i, false⟩ (.read n) ⟨d, i + b.length, false⟩ (.ok b)
  | closed (s : Plain) (h : s.closed = true) (e : UpdateFiles.Event) (he : e ≠ .close ∧ (∀ n, e ≠ .flush n) ∧ ∀ fs, e ≠ .other fs) : Plain.Event append s e s (.error .valueError)

/-- Events on an array one after the other, and what each returns. -/
inductive Plain.Events (append : Bool) : Plain → List UpdateFiles.Event → Plain → List (Except Exc Bytes) → Prop
  | nil (s : Plain) : Plain.Events append s [] s []
  | cons {s s' s'' : Plain} {e : UpdateFiles.Event} {es : List UpdateFiles.Event} {r : Except Exc Bytes} {rs : List (Except Exc Bytes)} :
      Plain.Event append s e s' r → Plain.Events append s' es s'' rs → Plain.Events append s (e :: es) s'' (r :: rs)

/-- What the file begins with. -/
def begins (fs : FS) (p : Path) (m : Mode) : Bytes :=
  match m, fs.getbytes p with
  | .a, .ok d => d
  | .r, .ok d => d
  | _, _ => []

/-- All bytes written to the file, in their order. -/
def written : List UpdateFiles.Event → Bytes
  | [] => []
  | .write b :: es => b ++ written es
  | _ :: es => written es

/-- Whatever else happens in between leaves the file of `s` alone. -/
def Undisturbed (s : Update × FS) : List UpdateFiles.Event → Prop
  | [] => True
  | .other fs :: es => Leaves s.1.path s.2 fs ∧ Undisturbed (s.1, fs) es
  | e :: es => Undisturbed (event s e).1 es

/-- Nothing else happens to the file system. -/
def Alone (es : List UpdateFiles.Event) : Prop := ∀ e ∈ es, ∀ fs, e ≠ .other fs

end Verif.Spec.UpdateFiles
