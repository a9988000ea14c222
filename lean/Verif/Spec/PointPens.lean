import Verif.Model.PointPens
import Mathlib.Data.List.Chain
/-! Pen properties, stated on contours as lists of points. Only the data types (`Point`, `PEvent`, ...) come from the model. -/
namespace Verif.Spec.PointPens
open Verif Verif.PointPens

variable {P K C : Type}

/-- A drawing: contours with identifiers, and components. -/
inductive Item (P K C : Type) where
  | contour (identifier : Option Str) (points : List (Point P K))
  | component (c : C)

/-- The point pen calls that draw an item. -/
def Item.events : Item P K C → List (PEvent P K C)
  | .contour i pts => .beginPath i :: (pts.map .addPoint ++ [.endPath])
  | .component c => [.addComponent c]

/-- The calls that draw a list of items. -/
def events (d : List (Item P K C)) : List (PEvent P K C) := d.flatMap Item.events

/-- Everything of a point but its segment type, and whether it is on-curve. -/
def SameButType (p q : Point P K) : Prop :=
  p.pt = q.pt ∧ p.smooth = q.smooth ∧ p.name = q.name ∧ p.kwargs = q.kwargs ∧ (p.seg = none ↔ q.seg = none)

/-- `t` is the type of the first on-curve point after index `i`, going round the contour. -/
def NextOn (l : List (Point P K)) (i : Nat) (t : ST) : Prop :=
  ∃ d, 1 ≤ d ∧ d ≤ l.length ∧ (l[(i + d) % l.length]?).bind (·.seg) = some t ∧
    ∀ d', 1 ≤ d' → d' < d → (l[(i + d') % l.length]?).map (·.seg) = some none

/-- `r` is the closed contour `l` with its direction reversed: output `-i` is input `i`, and a segment that ended at a
point with its type now starts there, so the point takes the type of the next on-curve point. -/
structure IsReversed (l r : List (Point P K)) : Prop where
  length : r.length = l.length
  points : ∀ i (p : Point P K), l[i]? = some p → ∃ q, r[(l.length - i) % l.length]? = some q ∧ SameButType p q ∧
    ∀ t, q.seg = some t → NextOn l i t

/-- No off-curve point after the last on-curve point. -/
def EndsOn (l : List (Point P K)) : Prop := ∃ p, l.getLast? = some p ∧ p.seg ≠ none

/-- Forgets everything but coordinates and segment type. -/
def bare (l : List (Point P K)) : List (P × Option ST) := l.map fun p => (p.pt, p.seg)

end Verif.Spec.PointPens

namespace Verif.Spec.PointPens
open Verif Verif.PointPens
variable {P K C : Type}

/-- A segment with the type attached to its last point and every other point off-curve. -/
def labelled {α : Type} (s : ST × List α) : List (α × Option ST) :=
  s.2.dropLast.map (fun x => (x, none)) ++ s.2.getLast?.toList.map (fun x => (x, some s.1))

/-- A point and its type, as seen in segments. -/
def inSegment (p : Point P K) : Option (SegPoint P K) × Option ST := (some ⟨p.pt, p.smooth, p.name, p.kwargs⟩, p.seg)

/-- The list without the off-curve points at its end. -/
def upToLastOn (l : List (Point P K)) : List (Point P K) := (l.reverse.dropWhile fun p => p.seg.isNone).reverse

/-- No off-curve point directly before a line point. -/
def LinesAlone (l : List (Point P K)) : Prop := l.IsChain fun a b => b.seg = some .line → a.seg ≠ none

/-- Only the documented on-curve types. -/
def DrawableTypes (l : List (Point P K)) : Prop :=
  ∀ p ∈ l, p.seg = none ∨ p.seg = some .line ∨ p.seg = some .curve ∨ p.seg = some .qcurve

/-- Point `i` is on-curve, lies between two other points of the contour (cyclically when closed), at least one of them
off-curve, differs in position from both, and the two directions are close (`turn`). -/
def IsSmooth (turn : P → P → P → Bool) (l : List (Point P K)) (i : Nat) : Prop :=
  ∃ p prev next, l[i]? = some p ∧ l[(i + l.length - 1) % l.length]? = some prev ∧ l[(i + 1) % l.length]? = some next ∧
    ((l.head?.bind (·.seg) = some .move ∧ 0 < i ∧ i + 1 < l.length) ∨ (l.head?.bind (·.seg) ≠ some .move ∧ 1 < l.length)) ∧
    p.seg ≠ none ∧ (prev.seg = none ∨ next.seg = none) ∧ p.pt ≠ prev.pt ∧ p.pt ≠ next.pt ∧ turn prev.pt p.pt next.pt = true

end Verif.Spec.PointPens
