import Verif.Spec.GlifPen
import Verif.Spec.PointPens
import Verif.Model.PenStack
/-! What the filtering pens make of the contours and components they get, written without the pens. -/
namespace Verif.Spec.PenStack
open Verif Verif.PointPens Verif.GlifPen Verif.Spec.GlifPen Verif.Spec.PointPens

/-- A pen that does not raise `TypeError`. -/
def NoTypeError {σ : Type} (Q : AnyPen σ) : Prop := ∀ s c, (Q s c).2 ≠ some .typeError

/-- The name of a segment type. -/
def typeName : Option ST → PyVal
  | none => .none
  | some .move => .str c!"move"
  | some .line => .str c!"line"
  | some .curve => .str c!"curve"
  | some .qcurve => .str c!"qcurve"
  | some (.other s) => .str s

/-- The call of `addPoint` for a point with its smooth flag, its name and the keyword. -/
def pointCall (p : Point PyVal (PyVal × PyVal × Option PyVal)) : Sent := .addPoint p.pt (typeName p.seg) p.kwargs.1 p.kwargs.2.1 p.kwargs.2.2

/-- A contour turned round: a closed one keeps its first point first; an open one (its first point is a move) starts with its last on-curve
point, and every segment keeps its type. -/
inductive Turned {P K : Type} : List (Point P K) → List (Point P K) → Prop
  | empty : Turned [] []
  | closed (p : Point P K) (ps r : List (Point P K)) (hp : p.seg ≠ some .move) (h : IsReversed (p :: ps) r) : Turned (p :: ps) r
  | opened (p : Point P K) (ps r : List (Point P K)) (hp : p.seg = some .move) (h : List.Forall₂ SameButType (upToLastOn (p :: ps)).reverse r)
      (ht : r.filterMap (·.seg) = .move :: (ps.filterMap (·.seg)).reverse) : Turned (p :: ps) r

/-- A part with its contour turned round; the keyword is always given. -/
inductive ReversedPart : List Sent → List Sent → Prop
  | contour (i : Option PyVal) (l r : List (Point PyVal (PyVal × PyVal × Option PyVal))) (h : Turned l r) :
      ReversedPart (.beginPath i :: l.map pointCall ++ [.endPath]) (.beginPath (some (i.getD .none)) :: r.map pointCall ++ [.endPath])
  | component (g t : PyVal) (i : Option PyVal) : ReversedPart [.addComponent g t i] [.addComponent g t (some (i.getD .none))]

/-- Is the point off-curve? -/
def offCurve (c : Option Sent) : Prop := ∃ p s n i, c = some (.addPoint p .none s n i)

/-- The same points with other smooth flags: true only for on-curve points with an off-curve point before or after (going round). -/
structure Smoothed (l r : List Sent) : Prop where
  length : r.length = l.length
  points : ∀ k p t s n i, l[k]? = some (.addPoint p t s n i) → ∃ b : Bool, r[k]? = some (.addPoint p t (.bool b) n i) ∧
    (b = true → t ≠ .none ∧ (offCurve l[(k + l.length - 1) % l.length]? ∨ offCurve l[(k + 1) % l.length]?))

/-- A part with other smooth flags and without the identifier of the contour or component. -/
inductive GuessedPart : List Sent → List Sent → Prop
  | contour (i : Option PyVal) (l r : List Sent) (h : Smoothed l r) : GuessedPart (.beginPath i :: l ++ [.endPath]) (.beginPath none :: r ++ [.endPath])
  | component (g t : PyVal) (i : Option PyVal) : GuessedPart [.addComponent g t i] [.addComponent g t none]

end Verif.Spec.PenStack
