import Verif.Model.GlifPen
import Verif.Spec.Glif
/-! What it means that a list of calls arrives at a pen, written without the reader. -/
namespace Verif.Spec.GlifPen
open Verif Verif.Glif Verif.GlifPen

/-- The call of the pen protocol: a keyword that is not given is `None`. -/
def asCall : Sent → Call
  | .beginPath i => .beginPath (i.getD .none)
  | .addPoint p t s n i => .addPoint p t s n (i.getD .none)
  | .endPath => .endPath
  | .addComponent g t i => .addComponent g t (i.getD .none)

/-- The same call without the keyword, when it has the keyword. -/
def withoutKeyword : Sent → Option Sent
  | .beginPath (some _) => some (.beginPath none)
  | .addPoint p t s n (some _) => some (.addPoint p t s n none)
  | .addComponent g t (some _) => some (.addComponent g t none)
  | _ => none

/-- The call without its identifier. -/
def plain (c : Sent) : Sent := (withoutKeyword c).getD c

/-- Does the call have the keyword? -/
def hasKeyword (c : Sent) : Bool := (withoutKeyword c).isSome

/-- One call: a pen that answers `TypeError` to the keyword is called again without it. -/
def deliver {σ : Type} (P : AnyPen σ) (s : σ) (c : Sent) : σ × Option Exc :=
  match P s c, withoutKeyword c with
  | (s, some .typeError), some c => P s c
  | r, _ => r

/-- Calls one after the other, up to the first that raises. -/
def drawOn {σ : Type} (P : AnyPen σ) (s : σ) : List Sent → σ × Option Exc
  | [] => (s, none)
  | c :: cs => match deliver P s c with
    | (s, some x) => (s, some x)
    | (s, none) => drawOn P s cs

/-- A pen that keeps all calls. -/
def record : AnyPen (List Sent) := fun s c => (s ++ [c], none)

/-- A point: two coordinates, the type, the name and the identifier each a string or `None`, the identifier possibly not given. -/
def IsPoint (c : Sent) : Prop :=
  ∃ (x y : PyVal) (t n : Option Str) (s : Bool) (i : Option (Option Str)), c = .addPoint (.tuple [x, y]) (orNone t) (.bool s) (orNone n) (i.map orNone)

/-- A contour or a component; when `strict` the contour is well formed. -/
inductive Part (strict : Bool) : List Sent → Prop
  | contour (i : Option (Option Str)) (points : List Sent) (h : ∀ c ∈ points, IsPoint c)
      (hg : strict = true → ∃ ps : List Spec.Glif.Pt, points.map asCall = ps.map Spec.Glif.Pt.call ∧ Spec.Glif.GoodItem (.contour .none ps)) :
      Part strict (.beginPath (i.map orNone) :: points ++ [.endPath])
  | component (g : Option Str) (t : List PyVal) (i : Option (Option Str)) : Part strict [.addComponent (orNone g) (.tuple t) (i.map orNone)]

/-- Contours and components, each from beginning to end. -/
def Whole (strict : Bool) (cs : List Sent) : Prop := ∃ parts : List (List Sent), cs = parts.flatten ∧ ∀ p ∈ parts, Part strict p

/-- The same, followed by a contour that has not been ended. -/
def Unfinished (strict : Bool) (cs : List Sent) : Prop :=
  ∃ (before : List Sent) (i : Option (Option Str)) (points : List Sent), Whole strict before ∧ cs = before ++ .beginPath (i.map orNone) :: points ∧
    ∀ c ∈ points, IsPoint c

/-- A pen that knows the keyword and never raises. -/
def Modern {σ : Type} (P : AnyPen σ) : Prop := ∀ s c, (P s c).2 = none

/-- A pen that answers `TypeError` to the keyword, changing nothing, and otherwise never raises. -/
def Legacy {σ : Type} (P : AnyPen σ) : Prop := ∀ s c, if hasKeyword c then P s c = (s, some .typeError) else (P s c).2 = none

/-- The state after all calls, whatever the answers. -/
def after {σ : Type} (P : AnyPen σ) (s : σ) (cs : List Sent) : σ := cs.foldl (fun s c => (P s c).1) s

/-- The attributes an object keeps that takes only some. -/
def kept (accepts : Str → Bool) (a : Dict Str PyVal) : Dict Str PyVal := a.filter fun kv => accepts kv.1

end Verif.Spec.GlifPen
