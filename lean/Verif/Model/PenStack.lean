import Verif.Model.GlifPen
import Verif.Model.Draw
/-! The filtering pens of `Lib/ufoLib/pointPen.py` in front of any pen, with their effects in their order: what the pen behind has got at
every moment, also when it raises or when the calls stop in the middle. `Model/PointPens.lean` gives the same pens without effects.

Segment types are kept as `Option ST`, which is exact for `None` and strings (all the reader gives, `C107_shape`). -/
namespace Verif.PenStack
open Verif Verif.PointPens Verif.GlifPen Verif.GlyphSet

/-- A point as `ReverseContourPointPen` keeps it, pointPen.py 401-402: the smooth flag, the name and the keyword as given. -/
abbrev Kept := Point PyVal (PyVal × PyVal × Option PyVal)

/-- The arguments of `addPoint` as kept. -/
def keep (pt segmentType smooth name : PyVal) (identifier : Option PyVal) : Kept := ⟨pt, segmentTypeOf segmentType, false, none, (smooth, name, identifier)⟩

/-- `pen.addPoint(pt, segmentType=segmentType, smooth=smooth, name=name, **kwargs)`, pointPen.py 387. -/
def give (p : Kept) : Sent := .addPoint p.pt (typeArg p.seg) p.kwargs.1 p.kwargs.2.1 p.kwargs.2.2

/-- Calls of the pen behind, one after the other. -/
def send {σ : Type} (Q : AnyPen σ) (s : σ) : List Sent → σ × Option Exc
  | [] => (s, none)
  | c :: cs => match Q s c with
    | (s, some x) => (s, some x)
    | (s, none) => send Q s cs

/-! ### ReverseContourPointPen -/

/-- The pen behind, `currentContour` and `currentContourIdentifier`, pointPen.py 338-341. -/
structure Reversing (σ : Type) where
  out : σ
  contour : Option (List Kept)
  identifier : PyVal

/-- What the flush has made of the list `currentContour` when the pen behind is called: it is changed in place, pointPen.py 360, 374-379. -/
def leftover : List Kept → List Kept
  | [] => []
  | p :: ps => if p.seg = some .move then (p :: ps).reverse.dropWhile (fun p => p.seg.isNone) else (ps ++ [p]).reverse

/-- `endPath` with a contour, pointPen.py 343-388, 397-399: `currentContour` is reset only when the pen behind has not raised. -/
def flushReversed {σ : Type} (Q : AnyPen σ) (s : Reversing σ) (l : List Kept) : Reversing σ × Option Exc :=
  match reverseContour l with
  | .error x => (⟨s.out, some [], s.identifier⟩, some x)
  | .ok r => match send Q s.out (.beginPath (some s.identifier) :: r.map give ++ [.endPath]) with
    | (o, none) => (⟨o, none, s.identifier⟩, none)
    | (o, some x) => (⟨o, some (leftover l), s.identifier⟩, some x)

/-- One call on a `ReverseContourPointPen`, pointPen.py 390-407. -/
def reversePen {σ : Type} (Q : AnyPen σ) : AnyPen (Reversing σ) := fun s c =>
  match c, s.contour with
  | .beginPath _, some _ => (s, some .assertionError)
  | .beginPath i, none => (⟨s.out, some [], i.getD .none⟩, none)
  | .addPoint .., none => (s, some .attributeError)
  | .addPoint pt t smooth name i, some l => (⟨s.out, some (l ++ [keep pt t smooth name i]), s.identifier⟩, none)
  | .endPath, none => (s, some .assertionError)
  | .endPath, some l => flushReversed Q s l
  | .addComponent .., some _ => (s, some .assertionError)
  | .addComponent g t i, none => match Q s.out (.addComponent g t (some (i.getD .none))) with
    | (o, r) => (⟨o, none, s.identifier⟩, r)

/-! ### GuessSmoothPointPen -/

/-- A point as `GuessSmoothPointPen` keeps it, pointPen.py 318-319: the name and the keyword as given, the flag `False` at first. -/
abbrev Guessed := Point PyVal (PyVal × Option PyVal)

/-- `self._outPen.addPoint(pt, segmentType, smooth, name, **kwargs)`, pointPen.py 304-305. -/
def giveGuessed (p : Guessed) : Sent := .addPoint p.pt (typeArg p.seg) (.bool p.smooth) p.kwargs.1 p.kwargs.2

/-- The body of the loop for index `i`, pointPen.py 285-302: the list is changed in place. `turn prev pt next` stands for lines 293-301,
which can raise (numbers too large for floats). -/
def guessAt (turn : PyVal → PyVal → PyVal → Except Exc Bool) (pts : List Guessed) (i : Nat) : List Guessed × Option Exc :=
  match pts[i]?, pts[(i + pts.length - 1) % pts.length]?, pts[(i + 1) % pts.length]? with
  | some p, some prev, some next =>
    if p.seg = none then (pts, none)
    else if prev.seg ≠ none ∧ next.seg ≠ none then (pts, none)
    else match turn prev.pt p.pt next.pt with
      | .error x => (pts, some x)
      | .ok true => (setSmooth pts i, none)
      | .ok false => (pts, none)
  | _, _, _ => (pts, none)

/-- The loop, pointPen.py 285-302. -/
def guessAll (turn : PyVal → PyVal → PyVal → Except Exc Bool) (pts : List Guessed) : List Nat → List Guessed × Option Exc
  | [] => (pts, none)
  | i :: is => match guessAt turn pts i with
    | (pts, some x) => (pts, some x)
    | (pts, none) => guessAll turn pts is

/-- The pen behind and `_points`, pointPen.py 268-270. -/
structure Guessing (σ : Type) where
  out : σ
  points : Option (List Guessed)

/-- `endPath` with a contour, pointPen.py 272-305, 313-316. -/
def flushGuessed {σ : Type} (turn : PyVal → PyVal → PyVal → Except Exc Bool) (Q : AnyPen σ) (s : Guessing σ) (l : List Guessed) : Guessing σ × Option Exc :=
  match guessAll turn l (guessIndices l) with
  | (l, some x) => (⟨s.out, some l⟩, some x)
  | (l, none) => match send Q s.out (l.map giveGuessed ++ [.endPath]) with
    | (o, none) => (⟨o, none⟩, none)
    | (o, some x) => (⟨o, some l⟩, some x)

/-- One call on a `GuessSmoothPointPen`, pointPen.py 307-323: `beginPath` and `addComponent` do not know the keyword; `len(None)` raises
`TypeError`. -/
def guessPen {σ : Type} (turn : PyVal → PyVal → PyVal → Except Exc Bool) (Q : AnyPen σ) : AnyPen (Guessing σ) := fun s c =>
  match c, s.points with
  | .beginPath (some _), _ => (s, some .typeError)
  | .beginPath none, some _ => (s, some .assertionError)
  | .beginPath none, none => match Q s.out (.beginPath none) with
    | (o, r) => (⟨o, some []⟩, r)
  | .addPoint .., none => (s, some .attributeError)
  | .addPoint pt t _ name i, some l => (⟨s.out, some (l ++ [⟨pt, segmentTypeOf t, false, none, (name, i)⟩])⟩, none)
  | .endPath, none => (s, some .typeError)
  | .endPath, some l => flushGuessed turn Q s l
  | .addComponent _ _ (some _), _ => (s, some .typeError)
  | .addComponent _ _ none, some _ => (s, some .assertionError)
  | .addComponent g t none, none => match Q s.out (.addComponent g t none) with
    | (o, r) => (⟨o, none⟩, r)

end Verif.PenStack
