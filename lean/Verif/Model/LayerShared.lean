import Verif.Model.GlyphSet
/-! Several programs, each with a `GlyphSet` of its own on the same layer (`glifLib.py` 91-515): every glyph set keeps its own table of file names, the files are shared. The calls
of the programs come in any order, each as a whole. -/
namespace Verif.GlyphSet
open Verif

/-- The glyph sets of the programs, and the files. -/
structure Sharing where
  sets : List GlyphSet
  fs : FS

/-- A call by one of the programs, `glifLib.py` 178-444. -/
def Sharing.step (L : Casing) (F : FloatCodec) (s : Sharing) (i : Nat) (op : Op) : Sharing × Option (Except Exc Unit) :=
  match s.sets[i]? with
  | none => (s, none)
  | some gs => (⟨s.sets.set i (GlyphSet.step L F (gs, s.fs) op).1.1, (GlyphSet.step L F (gs, s.fs) op).1.2⟩, some (GlyphSet.step L F (gs, s.fs) op).2)

/-- Calls in an order. -/
def Sharing.run (L : Casing) (F : FloatCodec) (s : Sharing) : List (Nat × Op) → Sharing
  | [] => s
  | (i, op) :: r => ((s.step L F i op).1).run L F r

/-- The outcomes that program `i` gets. -/
def Sharing.outcomes (L : Casing) (F : FloatCodec) (i : Nat) (s : Sharing) : List (Nat × Op) → List (Except Exc Unit)
  | [] => []
  | (j, op) :: r => (if j = i then (s.step L F j op).2.toList else []) ++ Sharing.outcomes L F i (s.step L F j op).1 r

/-- The calls of program `i`. -/
def ofProgram (i : Nat) (sched : List (Nat × Op)) : List Op := sched.filterMap fun e => if e.1 = i then some e.2 else none

/-- The outcomes of calls made by one program alone. -/
def results (L : Casing) (F : FloatCodec) (w : World) : List Op → List (Except Exc Unit)
  | [] => []
  | op :: ops => (step L F w op).2 :: results L F (step L F w op).1 ops

end Verif.GlyphSet
