import Verif.Py.Str
/-! Model of `Lib/ufoLib/pointPen.py`.

Type parameters: `P` coordinate pairs (equality on `P` is Python's `==` on the tuples, so `1` and `1.0` are one value and
`nan` is excluded), `K` the further keyword arguments, `C` the arguments of a component. -/
namespace Verif.PointPens
open Verif

/-- A segment type; `None` (off-curve) is `Option.none` in `Point.seg`. -/
inductive ST where
  | move | line | curve | qcurve | other (s : Str)
  deriving DecidableEq, Repr

/-- What `addPoint` receives: `pt, segmentType, smooth, name, kwargs`. -/
structure Point (P K : Type) where
  pt : P
  seg : Option ST
  smooth : Bool
  name : Option Str
  kwargs : K
  deriving DecidableEq, Repr

/-- Calls of the point pen protocol, pointPen.py 25-41. -/
inductive PEvent (P K C : Type) where
  | beginPath (identifier : Option Str)
  | addPoint (p : Point P K)
  | endPath
  | addComponent (c : C)
  deriving DecidableEq, Repr

variable {P K C : Type}

/-! ### ReverseContourPointPen -/

/-- The search for the first on-curve point, pointPen.py 361-371: its segment type (`none` when there is none). -/
def firstOnType : List (Point P K) → Option ST
  | [] => none
  | p :: ps => match p.seg with
    | some t => some t
    | none => firstOnType ps

/-- The output loop, pointPen.py 381-387: every on-curve point takes the type of the previous one. -/
def retype : Option ST → List (Point P K) → List (Point P K)
  | _, [] => []
  | last, p :: ps => match p.seg with
    | some t => { p with seg := last } :: retype (some t) ps
    | none => p :: retype last ps

/-- `while contour[0][1] is None: contour.pop(0)`, pointPen.py 378-379 (`IndexError` on an empty list). -/
def dropOff : List (Point P K) → Except Exc (List (Point P K))
  | [] => .error .indexError
  | p :: ps => match p.seg with
    | some _ => .ok (p :: ps)
    | none => dropOff ps

/-- The points emitted by `ReverseContourPointPen._flushContour`, pointPen.py 343-388. -/
def reverseContour : List (Point P K) → Except Exc (List (Point P K))
  | [] => .ok []
  | p :: ps =>
    if p.seg = some .move then
      match dropOff (p :: ps).reverse with
      | .error e => .error e
      | .ok l => .ok (retype (some .move) l)
    else
      let contour := ps ++ [p]
      .ok (retype (firstOnType contour) contour.reverse)

/-- State of the reversing pen: `currentContour` with its identifier, pointPen.py 338-341, 390-394. -/
abbrev RevState (P K : Type) := Option (Option Str × List (Point P K))

/-- One call on `ReverseContourPointPen`, pointPen.py 343-407: new state and the calls made on the output pen. -/
def revStep (s : RevState P K) : PEvent P K C → Except Exc (RevState P K × List (PEvent P K C))
  | .beginPath i => match s with
    | none => .ok (some (i, []), [])
    | some _ => .error .assertionError
  | .addPoint p => match s with
    | none => .error .attributeError
    | some (i, l) => .ok (some (i, l ++ [p]), [])
  | .endPath => match s with
    | none => .error .assertionError
    | some (i, l) =>
      match reverseContour l with
      | .error e => .error e
      | .ok l' => .ok (none, .beginPath i :: (l'.map .addPoint ++ [.endPath]))
  | .addComponent c => match s with
    | none => .ok (none, [.addComponent c])
    | some _ => .error .assertionError

/-- A sequence of calls on a pen given by its step function: final state and all calls made on the output pen. -/
def runPen {σ ε ο : Type} (step : σ → ε → Except Exc (σ × List ο)) (s : σ) : List ε → Except Exc (σ × List ο)
  | [] => .ok (s, [])
  | e :: es => match step s e with
    | .error x => .error x
    | .ok (s', out) => match runPen step s' es with
      | .error x => .error x
      | .ok (s'', outs) => .ok (s'', out ++ outs)

/-! ### BasePointToSegmentPen -/

/-- A point inside a segment: `(pt, smooth, name, kwargs)`; `none` is the implied `(None, None, None, None)`,
pointPen.py 121. -/
structure SegPoint (P K : Type) where
  pt : P
  smooth : Bool
  name : Option Str
  kwargs : K
  deriving DecidableEq, Repr

def Point.toSeg (p : Point P K) : SegPoint P K := ⟨p.pt, p.smooth, p.name, p.kwargs⟩

/-- A segment: type and points. -/
abbrev Segment (P K : Type) := ST × List (Option (SegPoint P K))

/-- The grouping loop, pointPen.py 126-132 (points after the last on-curve point are dropped). The item `(x, t)` is a point
with its segment type. -/
def group (cur : List (Option (SegPoint P K))) : List (Option (SegPoint P K) × Option ST) → List (Segment P K)
  | [] => []
  | (x, none) :: rest => group (cur ++ [x]) rest
  | (x, some t) :: rest => (t, cur ++ [x]) :: group [] rest

/-- A point as item of the grouping loop. -/
def Point.item (p : Point P K) : Option (SegPoint P K) × Option ST := (some p.toSeg, p.seg)

/-- Index of the first on-curve point, pointPen.py 111-116. -/
def firstOnIndex : List (Point P K) → Option Nat
  | [] => none
  | p :: ps => match p.seg with
    | some _ => some 0
    | none => (firstOnIndex ps).map (· + 1)

/-- `BasePointToSegmentPen.endPath`, pointPen.py 90-134: the segments passed to `_flushContour`; `none` when it is not
called. -/
def segmentsOf : List (Point P K) → Option (List (Segment P K))
  | [] => none
  | [p] => some [(.move, [some p.toSeg])]
  | p :: ps =>
    if p.seg = some .move then some ((.move, [some p.toSeg]) :: group [] (ps.map Point.item))
    else match firstOnIndex (p :: ps) with
      | none => some (group [] ((p :: ps).map Point.item ++ [(none, some .qcurve)]))
      | some i => some (group [] ((((p :: ps).drop (i + 1)) ++ ((p :: ps).take (i + 1))).map Point.item))

/-! ### PointToSegmentPen -/

/-- Calls of the segment pen protocol. -/
inductive SEvent (P C : Type) where
  | moveTo (p : P)
  | lineTo (p : P)
  | curveTo (ps : List P)
  | qCurveTo (ps : List (Option P))
  | closePath
  | endPath
  | addComponent (c : C)
  deriving DecidableEq, Repr

/-- Coordinates of a segment point (`None` for the implied point). -/
def coord (x : Option (SegPoint P K)) : Option P := x.map (·.pt)

/-- All coordinates, when none of them is `None`. -/
def coords : List (Option (SegPoint P K)) → Option (List P)
  | [] => some []
  | some p :: rest => (coords rest).map (p.pt :: ·)
  | none :: _ => none

/-- The body of the segment loop of `_flushContour`, pointPen.py 176-190, for one segment; `skipLine` is the negation of the
condition in line 182. A `None` coordinate can only reach `qCurveTo` (see `segmentsOf`); elsewhere the model
reports `TypeError`. -/
def segmentCall (skipLine : Bool) (t : ST) (pts : List (Option (SegPoint P K))) : Except Exc (List (SEvent P C)) :=
  match t with
  | .line => match pts with
    | [some p] => if skipLine then .ok [] else .ok [.lineTo p.pt]
    | [none] => .error .typeError
    | _ => .error .assertionError
  | .curve => match coords pts with
    | some cs => .ok [.curveTo cs]
    | none => .error .typeError
  | .qcurve => .ok [.qCurveTo (pts.map coord)]
  | _ => .error .assertionError

/-- The segment loop of `_flushContour`, pointPen.py 175-190; `closed` and `outputImpliedClosingLine` as in the code. -/
def segmentCalls (closed implied : Bool) : List (Segment P K) → Except Exc (List (SEvent P C))
  | [] => .ok []
  | s :: rest =>
    match segmentCall (!(!rest.isEmpty || implied || !closed)) s.1 s.2 with
    | .error e => .error e
    | .ok evs => match segmentCalls closed implied rest with
      | .error e => .error e
      | .ok more => .ok (evs ++ more)

/-- `PointToSegmentPen._flushContour`, pointPen.py 152-194. -/
def flushSegments (implied : Bool) (segments : List (Segment P K)) : Except Exc (List (SEvent P C)) :=
  match segments with
  | [] => .error .assertionError
  | (.move, pts) :: rest =>
    match pts with
    | [some p] => match segmentCalls false implied rest with
      | .error e => .error e
      | .ok evs => .ok (.moveTo p.pt :: (evs ++ [.endPath]))
    | _ => .error .assertionError
  | segs =>
    match (segs.getLast?.bind fun s => s.2.getLast?) with
    | none => .error .indexError
    | some x => match segmentCalls true implied segs with
      | .error e => .error e
      | .ok evs => .ok ((match x with | some p => [.moveTo p.pt] | none => []) ++ evs ++ [.closePath])

/-- One contour through `PointToSegmentPen` (`beginPath` ... `endPath`), pointPen.py 57-60, 90-137, 152-194. -/
def toSegments (implied : Bool) (points : List (Point P K)) : Except Exc (List (SEvent P C)) :=
  match segmentsOf points with
  | none => .ok []
  | some segs => flushSegments implied segs

/-! ### SegmentToPointPen -/

/-- A point of the contour under construction: coordinates and segment type. -/
abbrev CPoint (P : Type) := P × Option ST

/-- `curveTo`, pointPen.py 227-230 (`pts[-1]` raises `IndexError` on no arguments). -/
def curvePoints : List P → Except Exc (List (CPoint P))
  | [] => .error .indexError
  | ps@(_ :: _) => .ok (ps.dropLast.map (fun p => (p, none)) ++ (ps.getLast?.toList.map fun p => (p, some .curve)))

/-- The off-curve arguments of `qCurveTo` (only the last may be `None`). -/
def offPoints : List (Option P) → Option (List (CPoint P))
  | [] => some []
  | some p :: rest => (offPoints rest).map ((p, none) :: ·)
  | none :: _ => none

/-- `closePath` on the contour list, pointPen.py 240-249. -/
def closeContour [DecidableEq P] : List (CPoint P) → Except Exc (List (CPoint P))
  | [] => .error .indexError
  | [(p, t)] => .ok [(p, if t = some .move then some .line else t)]
  | first :: second :: rest =>
    match (second :: rest).getLast? with
    | none => .error .indexError
    | some last =>
      if first.1 = last.1 then .ok (last :: (second :: rest).dropLast)
      else .ok ((first.1, if first.2 = some .move then some .line else first.2) :: second :: rest)

/-- One call on `SegmentToPointPen`, pointPen.py 219-259. State: `self.contour`. Output: the contours and components sent to
the point pen (`_flushContour`, 213-218). `lineTo`/`curveTo` with `contour = None` raise `AttributeError`,
`closePath` `TypeError`, `endPath` `TypeError`. -/
def segStep [DecidableEq P] (s : Option (List (CPoint P))) :
    SEvent P C → Except Exc (Option (List (CPoint P)) × List (List (CPoint P) ⊕ C))
  | .moveTo p => .ok (some [(p, some .move)], [])
  | .lineTo p => match s with
    | none => .error .attributeError
    | some c => .ok (some (c ++ [(p, some .line)]), [])
  | .curveTo ps => match s with
    | none => .error .attributeError
    | some c => match curvePoints ps with
      | .error e => .error e
      | .ok l => .ok (some (c ++ l), [])
  | .qCurveTo ps => match ps.getLast? with
    | none => .error .indexError
    | some none => match offPoints ps.dropLast with
      | none => .error .typeError
      | some l => .ok (some l, [])
    | some (some p) => match s with
      | none => .error .attributeError
      | some c => match offPoints ps.dropLast with
        | none => .error .typeError
        | some l => .ok (some (c ++ l ++ [(p, some .qcurve)]), [])
  | .closePath => match s with
    | none => .error .typeError
    | some c => match closeContour c with
      | .error e => .error e
      | .ok c' => .ok (none, [.inl c'])
  | .endPath => match s with
    | none => .error .typeError
    | some c => .ok (none, [.inl c])
  | .addComponent c => match s with
    | none => .ok (none, [.inr c])
    | some _ => .error .assertionError

/-! ### GuessSmoothPointPen -/

/-- `points[i] = pt, segmentType, True, name, kwargs`, pointPen.py 302. -/
def setSmooth (pts : List (Point P K)) (i : Nat) : List (Point P K) :=
  pts.modify i fun p => { p with smooth := true }

/-- The body of the loop for index `i`, pointPen.py 285-302. `turn prev pt next` stands for `abs(a1 - a2) < 0.05`. Indices are
taken modulo the number of points (Python's negative indices). -/
def guessOne [DecidableEq P] (turn : P → P → P → Bool) (pts : List (Point P K)) (i : Nat) : List (Point P K) :=
  let n := pts.length
  match pts[i]?, pts[(i + n - 1) % n]?, pts[(i + 1) % n]? with
  | some p, some prev, some next =>
    if p.seg = none then pts
    else if prev.seg ≠ none ∧ next.seg ≠ none then pts
    else if p.pt ≠ prev.pt ∧ p.pt ≠ next.pt then
      if turn prev.pt p.pt next.pt then setSmooth pts i else pts
    else pts
  | _, _, _ => pts

/-- The indices visited, pointPen.py 275-284 (`-1` is `n - 1`). -/
def guessIndices (pts : List (Point P K)) : List Nat :=
  match pts with
  | [] => []
  | p :: _ =>
    if p.seg = some .move then (List.range (pts.length - 1)).drop 1
    else if 1 < pts.length then (pts.length - 1) :: List.range (pts.length - 1)
    else []

/-- `addPoint` of GuessSmoothPointPen forgets the given flag, pointPen.py 318-319; then `_flushContour`, 270-305. -/
def guessContour [DecidableEq P] (turn : P → P → P → Bool) (pts : List (Point P K)) : List (Point P K) :=
  let pts := pts.map fun p => { p with smooth := false }
  (guessIndices pts).foldl (guessOne turn) pts

end Verif.PointPens
