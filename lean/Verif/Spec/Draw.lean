import Verif.Model.PointPens
import Verif.Spec.Glif
import Verif.Spec.PointPens
/-! Outlines as curves: what a list of points means, and what the calls of a segment pen mean. Of the model only the type of the calls is used. -/
namespace Verif.Spec.Draw
open Verif

variable {P C : Type}

/-- The name of a segment type. -/
def stName : PointPens.ST → Str
  | .move => c!"move"
  | .line => c!"line"
  | .curve => c!"curve"
  | .qcurve => c!"qcurve"
  | .other s => s

/-- A segment: from a point, past off-curve points, to a point. -/
inductive Seg (P : Type) where
  | line (a b : P)
  | curve (a : P) (offs : List P) (b : P)
  | qcurve (a : P) (offs : List P) (b : P)
  deriving DecidableEq, Repr

/-- A path: open, closed, or closed and quadratic without on-curve points. -/
inductive Path (P : Type) where
  | open (start : P) (segs : List (Seg P))
  | closed (start : P) (segs : List (Seg P))
  | loop (offs : List P)
  deriving DecidableEq, Repr

/-- `Segs a offs l segs`: the points `l` (with their types, `none` off-curve) describe the segments `segs`, starting at `a` with the off-curve points
`offs` already seen. All points are used. -/
inductive Segs : P → List P → List (P × Option Str) → List (Seg P) → Prop
  | nil (a : P) : Segs a [] [] []
  | off {a : P} {offs : List P} {p : P} {r : List (P × Option Str)} {l : List (Seg P)} : Segs a (offs ++ [p]) r l → Segs a offs ((p, none) :: r) l
  | line {a p : P} {r : List (P × Option Str)} {l : List (Seg P)} : Segs p [] r l → Segs a [] ((p, some c!"line") :: r) (.line a p :: l)
  | curve {a p : P} {offs : List P} {r : List (P × Option Str)} {l : List (Seg P)} : Segs p [] r l → Segs a offs ((p, some c!"curve") :: r) (.curve a offs p :: l)
  | qcurve {a p : P} {offs : List P} {r : List (P × Option Str)} {l : List (Seg P)} : Segs p [] r l → Segs a offs ((p, some c!"qcurve") :: r) (.qcurve a offs p :: l)

/-- The path that the points of a contour describe (GLIF specification): one point is a position; a contour that starts with a move point is open; a
contour without on-curve points is a quadratic loop; any other contour is closed, and goes from its first on-curve point round to it. -/
inductive IsPath : List (P × Option Str) → Path P → Prop
  | dot (p : P) (t : Option Str) : IsPath [(p, t)] (.open p [])
  | open {p : P} {r : List (P × Option Str)} {l : List (Seg P)} : r ≠ [] → Segs p [] r l → IsPath ((p, some c!"move") :: r) (.open p l)
  | closed {pre post : List (P × Option Str)} {q : P} {t : Str} {l : List (Seg P)} : (∀ x ∈ pre, x.2 = none) → t ≠ c!"move" → post ++ pre ≠ [] →
      Segs q [] (post ++ pre ++ [(q, some t)]) l → IsPath (pre ++ (q, some t) :: post) (.closed q l)
  | loop {l : List (P × Option Str)} : 2 ≤ l.length → (∀ x ∈ l, x.2 = none) → IsPath l (.loop (l.map Prod.fst))

/-- Where a segment pen stands: between contours, in a contour (its start, the current point, the segments so far), or in a loop. -/
inductive At (P : Type) where
  | idle
  | path (start current : P) (segs : List (Seg P))
  | loop (offs : List P)

/-- The points of a call when all are there. -/
def allSome : List (Option P) → Option (List P)
  | [] => some []
  | none :: _ => none
  | some p :: r => (allSome r).map (p :: ·)

/-- What the calls of a segment pen draw, by the pen protocol of FontTools: paths and components in order; `none` when the calls break the
protocol. `closePath` draws a line to the start when the current point is elsewhere; `qCurveTo` with `None` as last point is a loop. -/
def paint [DecidableEq P] : At P → List (PointPens.SEvent P C) → Option (List (Path P ⊕ C))
  | .idle, [] => some []
  | _, [] => none
  | .idle, .moveTo p :: r => paint (.path p p []) r
  | .idle, .qCurveTo ps :: r => match allSome ps.dropLast, ps.getLast? with
    | some offs, some none => paint (.loop offs) r
    | _, _ => none
  | .idle, .addComponent c :: r => (paint .idle r).map (.inr c :: ·)
  | .path s a l, .lineTo p :: r => paint (.path s p (l ++ [.line a p])) r
  | .path s a l, .curveTo ps :: r => match ps.getLast? with
    | some p => paint (.path s p (l ++ [.curve a ps.dropLast p])) r
    | none => none
  | .path s a l, .qCurveTo ps :: r => match allSome ps.dropLast, ps.getLast? with
    | some offs, some (some p) => paint (.path s p (l ++ [.qcurve a offs p])) r
    | _, _ => none
  | .path s a l, .closePath :: r => (paint .idle r).map (.inl (.closed s (if a = s then l else l ++ [.line a s])) :: ·)
  | .path s _ l, .endPath :: r => (paint .idle r).map (.inl (.open s l) :: ·)
  | .loop offs, .closePath :: r => (paint .idle r).map (.inl (.loop offs) :: ·)
  | _, _ :: _ => none

/-- The same path, except that a closing line of length zero may be missing. -/
inductive SamePath : Path P → Path P → Prop
  | refl (p : Path P) : SamePath p p
  | closing (s : P) (l : List (Seg P)) : SamePath (.closed s (l ++ [.line s s])) (.closed s l)

/-- A contour without points draws nothing. -/
def Visible : Glif.Item → Bool
  | .contour _ [] => false
  | _ => true

/-- What is drawn for a part of a glyph: for a contour the path its points describe, for a component the component (without identifier). -/
inductive Drawn : Glif.Item → Path PyVal ⊕ (PyVal × PyVal) → Prop
  | contour {i : PyVal} {ps : List Glif.Pt} {p q : Path PyVal} : IsPath (ps.map fun x => (x.pt, Glif.fileType x.segmentType)) p → SamePath p q → Drawn (.contour i ps) (.inl q)
  | component (g t i : PyVal) : Drawn (.component g t i) (.inr (g, t))

end Verif.Spec.Draw

namespace Verif.Spec.Draw
open Verif

variable {P C : Type}

/-- The points a segment goes from and to. -/
def Seg.start : Seg P → P
  | .line a _ => a
  | .curve a _ _ => a
  | .qcurve a _ _ => a

@[inherit_doc Seg.start] def Seg.stop : Seg P → P
  | .line _ b => b
  | .curve _ _ b => b
  | .qcurve _ _ b => b

/-- A segment in the other direction. -/
def Seg.flip : Seg P → Seg P
  | .line a b => .line b a
  | .curve a l b => .curve b l.reverse a
  | .qcurve a l b => .qcurve b l.reverse a

/-- The same curve in the other direction. A closed path may start at another of its points. -/
inductive Backwards : Path P → Path P → Prop
  | dot (a : P) : Backwards (.open a []) (.open a [])
  | open (a : P) (l : List (Seg P)) (s : Seg P) : Backwards (.open a (l ++ [s])) (.open s.stop ((l ++ [s]).reverse.map Seg.flip))
  | closed (a b : P) (l u v : List (Seg P)) : l.reverse.map Seg.flip = u ++ v → (v ++ u).head?.map Seg.start = some b → Backwards (.closed a l) (.closed b (v ++ u))
  | loop (l u v : List P) : l.reverse = u ++ v → Backwards (.loop l) (.loop (v ++ u))

/-- A point but for its type: position, smoothness, name, identifier, and whether it is off-curve. -/
def untyped (p : Glif.Pt) : PyVal × PyVal × PyVal × PyVal × Bool := (p.pt, p.smooth, p.name, p.identifier, (Glif.fileType p.segmentType).isNone)

/-- The points with the types they have in a file. -/
def filePoints (ps : List Glif.Pt) : List (PyVal × Option Str) := ps.map fun x => (x.pt, Glif.fileType x.segmentType)

/-- A part of a glyph with its direction reversed: components are kept; a contour has the same points but for their types and order, the same identifier,
and describes the same path backwards. -/
inductive ReversedItem : Glif.Item → Glif.Item → Prop
  | component (g t i : PyVal) : ReversedItem (.component g t i) (.component g t i)
  | empty (i : PyVal) : ReversedItem (.contour i []) (.contour i [])
  | contour (i : PyVal) (ps ps' : List Glif.Pt) (p p' : Path PyVal) : (ps.map untyped).Perm (ps'.map untyped) → IsPath (filePoints ps) p → IsPath (filePoints ps') p' →
      Backwards p p' → ReversedItem (.contour i ps) (.contour i ps')

/-- All points of a segment. -/
def Seg.points : Seg P → List P
  | .line a b => [a, b]
  | .curve a l b => a :: (l ++ [b])
  | .qcurve a l b => a :: (l ++ [b])

/-- The same path, except that a closed path that does not leave its start may be a position. -/
inductive Traced : Path P → Path P → Prop
  | refl (p : Path P) : Traced p p
  | point (s : P) (l : List (Seg P)) : (∀ g ∈ l, ∀ x ∈ g.points, x = s) → Traced (.closed s l) (.open s [])

/-- A contour (points with types) describes what was painted; components are the same. -/
inductive Describes : Path P ⊕ C → List (P × Option PointPens.ST) ⊕ C → Prop
  | path {p q : Path P} {c : List (P × Option PointPens.ST)} : Traced p q → IsPath (c.map fun x => (x.1, x.2.map stName)) q → Describes (.inl p) (.inl c)
  | component (c : C) : Describes (.inr c) (.inr c)

/-- Not a loop with fewer than two points or with its last point at the place of the first. -/
def PlainLoop : Path P ⊕ C → Prop
  | .inl (.loop l) => ∃ a m b, l = a :: (m ++ [b]) ∧ a ≠ b
  | _ => True

/-- The points of a contour with the names of their types. -/
def typedPoints {K : Type} (l : List (PointPens.Point P K)) : List (P × Option Str) := l.map fun x => (x.pt, x.seg.map stName)

/-- A part of a drawing that the reader of glyphs would accept. -/
def Acceptable {K : Type} : PointPens.Item P K C → Prop
  | .contour _ l => Glif.GoodContour (l.map fun x => x.seg.map stName) ∧ ∀ x ∈ l, ∀ s, x.seg ≠ some (.other s)
  | .component _ => True

/-- Not a contour of two or more off-curve points only whose last point is at the place of the first. -/
def LoopEnds {K : Type} : PointPens.Item P K C → Prop
  | .contour _ l => (∀ x ∈ l, x.seg = none) → ∀ a m b, l = a :: (m ++ [b]) → a.pt ≠ b.pt
  | .component _ => True

/-- A contour without points draws nothing. -/
def VisiblePart {K : Type} : PointPens.Item P K C → Bool
  | .contour _ [] => false
  | _ => true

/-- A part of a drawing and what comes out of two pens: the same component, or a contour that describes the same path, but for closing lines of length zero and
closed paths that do not leave their start. -/
inductive Redrawn {K : Type} : PointPens.Item P K C → List (P × Option PointPens.ST) ⊕ C → Prop
  | contour {i : Option Str} {l : List (PointPens.Point P K)} {c : List (P × Option PointPens.ST)} {p q r : Path P} : IsPath (typedPoints l) p → SamePath p q → Traced q r →
      IsPath (c.map fun x => (x.1, x.2.map stName)) r → Redrawn (.contour i l) (.inl c)
  | component (c : C) : Redrawn (.component c) (.inr c)

end Verif.Spec.Draw
