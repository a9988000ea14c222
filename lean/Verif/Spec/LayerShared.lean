import Verif.Model.LayerShared
import Verif.Spec.GlyphSet
/-! Programs that edit different glyphs of one layer. -/
namespace Verif.Spec.LayerShared
open Verif Verif.GlyphSet

/-- The call writes a glyph that the table `C` has and that belongs to the program, saves the table, or asks for the reverse table. -/
inductive Edits (C : Dict Str Str) (own : Str → Prop) : Op → Prop
  | write {naming : Naming} {n : Str} {v : Option Int} {data : Int → Except Exc Bytes} (f : Str) : Dict.get? C n = some f → own n → Edits C own (.write naming n v data)
  | save : Edits C own .save
  | reverse : Edits C own .reverse

/-- The files of a table are told apart by the file system, and are not the file of the table. -/
structure Apart (canon : Str → Str) (C : Dict Str Str) : Prop where
  files : ∀ n m f g, Dict.get? C n = some f → Dict.get? C m = some g → canon f = canon g → n = m
  table : ∀ n f, Dict.get? C n = some f → canon f ≠ canon c!"contents.plist"

/-- The directory of the layer is there, and no directory is in the place of one of its files. -/
structure Ready (fs : FS) (layer : Path) (C : Dict Str Str) : Prop where
  dir : fs.node? layer = some .dir
  files : ∀ n f, Dict.get? C n = some f → fs.node? (layer ++ [f]) ≠ some .dir
  table : fs.node? (layer ++ [c!"contents.plist"]) ≠ some .dir

/-- A turn of a program: it reads the table, makes its calls and saves the table. -/
structure Turn where
  program : Nat
  validate : Bool
  ops : List Op

/-- The calls of turns. -/
def schedule (turns : List Turn) : List (Nat × Op) :=
  turns.flatMap fun t => (Op.rebuild t.validate :: t.ops ++ [Op.save]).map fun op => (t.program, op)

/-- The record of the calls of all programs. -/
def record (L : Casing) (F : FloatCodec) (s : Sharing) : List (Nat × Op) → List Spec.GlyphSet.Call
  | [] => []
  | (i, op) :: r => (match s.sets[i]? with
    | none => []
    | some gs => [Spec.GlyphSet.call (gs, s.fs) op (GlyphSet.step L F (gs, s.fs) op).2]) ++ record L F (s.step L F i op).1 r

/-- What a program finds. -/
def seen : Except Exc Bytes → Spec.GlyphSet.Status
  | .ok d => .holds d
  | .error _ => .absent

end Verif.Spec.LayerShared
