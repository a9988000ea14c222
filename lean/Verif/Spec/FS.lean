import Verif.Model.FS
/-! A process that stops while it is changing files. -/
namespace Verif.Spec.FS
open Verif

/-- The file system after these mutations. -/
def performAll (fs : FS) (acts : List Prim) : FS := acts.foldl FS.perform fs

/-- The file systems a process can leave behind that stops somewhere in the course of these mutations: some of the first have been
made, and if the next one is a write, any initial part of its data may have reached the file. -/
inductive Stopped (fs : FS) (acts : List Prim) : FS → Prop
  | between (k : Nat) : Stopped fs acts (performAll fs (acts.take k))
  | torn (k j : Nat) (p : Path) (d : Bytes) (h : acts[k]? = some (.write p d)) :
      Stopped fs acts ((performAll fs (acts.take k)).perform (.write p (d.take j)))

end Verif.Spec.FS
