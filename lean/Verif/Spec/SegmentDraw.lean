import Verif.Spec.Draw
import Verif.Spec.GlifPen
import Verif.Model.SegmentDraw
/-! What it means that a list of calls arrives at a segment pen, written without the point pens. -/
namespace Verif.Spec.SegmentDraw
open Verif Verif.SegmentDraw

/-- Calls one after the other, up to the first that raises. -/
def receive {τ : Type} (Q : AnySegmentPen τ) (s : τ) (cs : List SegmentCall) : τ × Option Exc :=
  cs.foldl (fun r c => match r.2 with
    | none => Q r.1 c
    | some _ => r) (s, none)

/-- A pen that keeps all calls. -/
def recordSegments : AnySegmentPen (List SegmentCall) := fun s c => (s ++ [c], none)

/-- `addComponent` never answers `TypeError`. -/
def TakesComponents {τ : Type} (Q : AnySegmentPen τ) : Prop := ∀ s c, (Q s (.addComponent c)).2 ≠ some .typeError

end Verif.Spec.SegmentDraw
