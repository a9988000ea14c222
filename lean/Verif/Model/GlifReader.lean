import Verif.Model.Glif
/-! Model of the reading half of `Lib/ufoLib/glifLib.py`: from an element tree to attributes of the glyph object and calls on a pen.

The pen accepts all keyword arguments (the fallbacks on `TypeError` are in `Model/GlifPen.lean`) and does not raise; the glyph object accepts all
attributes. Both may be `None`: `hasObj`, `hasPen`. -/
namespace Verif.Glif
open Verif Verif.Validators

/-- `_number(s)` for a string, glifLib.py 1363-1387. -/
def number (F : FloatCodec) (s : Str) : Except Exc PyVal :=
  match pyInt s with
  | some i => .ok (.int i)
  | none => match F.parse s with
    | some f => .ok (.float f)
    | none => .error .glifLibError

/-- An optional number with a default (`_number` leaves numbers alone), as in glifLib.py 1048, 1071, 1161-1165, 1234-1238. -/
def numberOr (F : FloatCodec) (default : PyVal) : Option Str → Except Exc PyVal
  | none => .ok default
  | some s => number F s

/-- `not (element.text and element.text.strip() != '')`. -/
def textBlank : Option Text → Bool
  | none => true
  | some (.str s) => (strip s).isEmpty
  | some (.bytes b) => b.isEmpty

/-- The value of an optional attribute as an argument. -/
def orNone : Option Str → PyVal
  | none => .none
  | some s => .str s

/-! ### Points -/

/-- The entries of a massaged point that are used later. `seg` is `none` for off-curve points. -/
structure MPoint where
  x : PyVal
  y : PyVal
  seg : Option Str
  smooth : Bool
  name : Option Str
  identifier : Option Str
  deriving DecidableEq, Repr

/-- `pointAttributesFormat1`, `pointAttributesFormat2`, glifLib.py 1084-1085. -/
def pointAttributes (fv : Nat) : List Str :=
  [c!"x", c!"y", c!"type", c!"smooth", c!"name"] ++ if fv = 1 then [] else [c!"identifier"]

/-- `pointTypeOptions`, glifLib.py 1087. -/
def pointTypeOptions : List Str := [c!"move", c!"line", c!"offcurve", c!"curve", c!"qcurve"]

/-- A required coordinate, glifLib.py 1283-1287: without validation a missing one makes `int(None)` raise `TypeError`. -/
def coordinate (F : FloatCodec) (validate : Bool) : Option Str → Except Exc PyVal
  | none => .error (if validate then .glifLibError else .typeError)
  | some s => number F s

/-- One point element, glifLib.py 1267-1316; `index` is its position in the contour. -/
def massagePoint (E : Env) (validate : Bool) (fv index : Nat) (e : Elem) : Except Exc MPoint :=
  if e.tag ≠ c!"point" then .error .glifLibError
  else if validate && !(Dict.keys e.attrib).all fun a => decide (a ∈ pointAttributes fv) then .error .glifLibError
  else if validate && !e.children.isEmpty then .error .glifLibError
  else match coordinate E.F validate (Dict.get? e.attrib c!"x") with
    | .error x => .error x
    | .ok x => match coordinate E.F validate (Dict.get? e.attrib c!"y") with
      | .error x => .error x
      | .ok y =>
        let t := (Dict.get? e.attrib c!"type").getD c!"offcurve"
        let smooth := (Dict.get? e.attrib c!"smooth").getD c!"no"
        if validate && !decide (t ∈ pointTypeOptions) then .error .glifLibError
        else if validate && (decide (t = c!"move") && decide (index ≠ 0)) then .error .glifLibError
        else if validate && !(decide (smooth = c!"no") || decide (smooth = c!"yes")) then .error .glifLibError
        else if validate && (decide (smooth = c!"yes") && decide (t = c!"offcurve")) then .error .glifLibError
        else .ok ⟨x, y, if t = c!"offcurve" then none else some t, decide (smooth = c!"yes"), Dict.get? e.attrib c!"name", Dict.get? e.attrib c!"identifier"⟩

/-- All point elements of a contour. -/
def massagePoints (E : Env) (validate : Bool) (fv index : Nat) : List Elem → Except Exc (List MPoint)
  | [] => .ok []
  | e :: es => match massagePoint E validate fv index e with
    | .error x => .error x
    | .ok p => match massagePoints E validate fv (index + 1) es with
      | .error x => .error x
      | .ok ps => .ok (p :: ps)

/-- The removal of trailing off-curve points of an open contour, glifLib.py 1317-1329. -/
def dropTrailing (l : List MPoint) : List MPoint := (l.reverse.dropWhile fun p => p.seg.isNone).reverse

/-- The same, in format 1 only (`openContourOffCurveLeniency`). -/
def lenient (fv : Nat) (l : List MPoint) : List MPoint :=
  match l with
  | [] => []
  | p :: ps => if fv = 1 ∧ p.seg = some c!"move" then dropTrailing (p :: ps) else p :: ps

/-- The loop over the points, glifLib.py 1335-1350; `count` off-curve points were seen. -/
def segmentsOk (count : Nat) : List MPoint → Bool
  | [] => true
  | p :: ps => match p.seg with
    | none => segmentsOk (count + 1) ps
    | some t =>
      if count ≠ 0 ∧ (t = c!"move" ∨ t = c!"line") then false
      else if count > 2 ∧ t = c!"curve" then false
      else segmentsOk 0 ps

/-- `len(massaged) - 1 - lastOnCurvePoint` for a contour with an on-curve point: the number of trailing off-curve points,
glifLib.py 1331-1334. (`lastOnCurvePoint` is found before trailing points are dropped, which does not change it.) -/
def trailing (l : List MPoint) : Nat := (l.reverse.takeWhile fun p => p.seg.isNone).length

/-- `_validateAndMassagePointStructures`, glifLib.py 1258-1351. -/
def massage (E : Env) (validate : Bool) (fv : Nat) (points : List Elem) : Except Exc (List MPoint) :=
  match massagePoints E validate fv 0 points with
  | .error x => .error x
  | .ok l =>
    if validate && (l.any fun p => p.seg.isNone) && (l.any fun p => p.seg.isSome) && !segmentsOk (trailing (lenient fv l)) (lenient fv l) then
      .error .glifLibError
    else .ok (lenient fv l)

/-- The arguments of `addPoint` for a massaged point. -/
def pointCall (p : MPoint) : Call := .addPoint (.tuple [p.x, p.y]) (orNone p.seg) (.bool p.smooth) (orNone p.name) (orNone p.identifier)

/-- The identifier checks of the format 2 reader, glifLib.py 1187-1193, 1211-1217, 1239-1245: the new set. -/
def readIdentifier (validate : Bool) (ids : List Str) : Option Str → Except Exc (List Str)
  | none => .ok ids
  | some i =>
    if validate && (decide (i ∈ ids) || !identifierValidator (.str i)) then .error .glifLibError
    else .ok (ids ++ [i])

/-- `_buildOutlinePointsFormat2`, glifLib.py 1203-1223. -/
def readPoints2 (validate : Bool) (ids : List Str) : List MPoint → Except Exc (List Call × List Str)
  | [] => .ok ([], ids)
  | p :: ps => match readIdentifier validate ids p.identifier with
    | .error e => .error e
    | .ok ids => match readPoints2 validate ids ps with
      | .error e => .error e
      | .ok (cs, ids) => .ok (pointCall p :: cs, ids)

/-- `_buildOutlineContourFormat2`, glifLib.py 1180-1201. -/
def readContour2 (E : Env) (validate : Bool) (ids : List Str) (e : Elem) : Except Exc (List Call × List Str) :=
  if validate && !(Dict.keys e.attrib).all fun a => decide (a = c!"identifier") then .error .glifLibError
  else match readIdentifier validate ids (Dict.get? e.attrib c!"identifier") with
    | .error x => .error x
    | .ok ids => match massage E validate 2 e.children with
      | .error x => .error x
      | .ok ps => match readPoints2 validate ids ps with
        | .error x => .error x
        | .ok (cs, ids) => .ok (.beginPath (orNone (Dict.get? e.attrib c!"identifier")) :: cs ++ [.endPath], ids)

/-- `componentAttributesFormat1`, `componentAttributesFormat2`, glifLib.py 1082-1083. -/
def componentAttributes (fv : Nat) : List Str :=
  c!"base" :: transformationInfo.map Prod.fst ++ if fv = 1 then [] else [c!"identifier"]

/-- The transformation of a component element, glifLib.py 1231-1238 (1158-1166 in format 1). -/
def readTransformation (F : FloatCodec) (attrib : Dict Str Str) : List (Str × PyVal) → Except Exc (List PyVal)
  | [] => .ok []
  | (attr, default) :: rest => match numberOr F default (Dict.get? attrib attr) with
    | .error e => .error e
    | .ok v => match readTransformation F attrib rest with
      | .error e => .error e
      | .ok vs => .ok (v :: vs)

/-- `_buildOutlineComponentFormat2`, glifLib.py 1225-1254, and `...Format1`, 1146-1167 (which ignores identifiers). -/
def readComponent (E : Env) (validate : Bool) (fv : Nat) (ids : List Str) (e : Elem) : Except Exc (List Call × List Str) :=
  if validate && !e.children.isEmpty then .error .glifLibError
  else if validate && !(Dict.keys e.attrib).all fun a => decide (a ∈ componentAttributes fv) then .error .glifLibError
  else if validate && (Dict.get? e.attrib c!"base").isNone then .error .glifLibError
  else match readTransformation E.F e.attrib transformationInfo with
    | .error x => .error x
    | .ok t =>
      if fv = 1 then .ok ([.addComponent (orNone (Dict.get? e.attrib c!"base")) (.tuple t) .none], ids)
      else match readIdentifier validate ids (Dict.get? e.attrib c!"identifier") with
        | .error x => .error x
        | .ok ids => .ok ([.addComponent (orNone (Dict.get? e.attrib c!"base")) (.tuple t) (orNone (Dict.get? e.attrib c!"identifier"))], ids)

/-- `buildOutlineFormat2`, glifLib.py 1171-1178. -/
def readOutline2 (E : Env) (validate : Bool) (ids : List Str) : List Elem → Except Exc (List Call × List Str)
  | [] => .ok ([], ids)
  | e :: es =>
    match (if e.tag = c!"contour" then readContour2 E validate ids e
      else if e.tag = c!"component" then readComponent E validate 2 ids e
      else .error .glifLibError) with
    | .error x => .error x
    | .ok (cs, ids) => match readOutline2 E validate ids es with
      | .error x => .error x
      | .ok (cs', ids) => .ok (cs ++ cs', ids)

/-! ### Format 1 outlines -/

/-- `_buildAnchorFormat1`, glifLib.py 1112-1129: `None` when the point is no anchor. -/
def readAnchor1 (E : Env) (validate : Bool) (e : Elem) : Except Exc (Option PyVal) :=
  if Dict.get? e.attrib c!"type" ≠ some c!"move" then .ok none
  else match Dict.get? e.attrib c!"name" with
    | none => .ok none
    | some name => match coordinate E.F validate (Dict.get? e.attrib c!"x") with
      | .error x => .error x
      | .ok x => match coordinate E.F validate (Dict.get? e.attrib c!"y") with
        | .error x => .error x
        | .ok y => .ok (some (.dict [(.str c!"x", x), (.str c!"y", y), (.str c!"name", .str name)]))

/-- `_buildOutlineContourFormat1`, glifLib.py 1131-1138, and the points, 1140-1147. -/
def readContour1 (E : Env) (validate : Bool) (e : Elem) : Except Exc (List Call) :=
  if validate && !e.attrib.isEmpty then .error .glifLibError
  else match massage E validate 1 e.children with
    | .error x => .error x
    | .ok ps => .ok (.beginPath .none :: (ps.map fun p => .addPoint (.tuple [p.x, p.y]) (orNone p.seg) (.bool p.smooth) (orNone p.name) .none) ++ [.endPath])

/-- The anchor a contour stands for, glifLib.py 1095-1101. -/
def contourAnchor1 (E : Env) (validate : Bool) (e : Elem) : Except Exc (Option PyVal) :=
  match e.children with
  | [p] => if p.tag = c!"point" then readAnchor1 E validate p else .ok none
  | _ => .ok none

/-- One element of the loop of `buildOutlineFormat1`, glifLib.py 1092-1107: the anchors and the calls. -/
def readItem1 (E : Env) (validate hasPen : Bool) (e : Elem) : Except Exc (List PyVal × List Call) :=
  if e.tag = c!"contour" then
    match contourAnchor1 E validate e with
    | .error x => .error x
    | .ok (some a) => .ok ([a], [])
    | .ok none => if hasPen then (readContour1 E validate e).map fun cs => ([], cs) else .ok ([], [])
  else if e.tag = c!"component" then
    (if hasPen then (readComponent E validate 1 [] e).map fun r => ([], r.1) else .ok ([], []))
  else .error .glifLibError

/-- The loop of `buildOutlineFormat1`, glifLib.py 1091-1110: the anchors and the calls. -/
def readOutline1 (E : Env) (validate hasPen : Bool) : List Elem → Except Exc (List PyVal × List Call)
  | [] => .ok ([], [])
  | e :: es => match readItem1 E validate hasPen e with
    | .error x => .error x
    | .ok (as, cs) => match readOutline1 E validate hasPen es with
      | .error x => .error x
      | .ok (as', cs') => .ok (as ++ as', cs ++ cs')

/-! ### The simple elements -/

/-- `int(element.get("hex"), 16)`, glifLib.py 929-936, 983-990: `TypeError` when the attribute is missing. -/
def readHex (e : Elem) : Except Exc Int :=
  match Dict.get? e.attrib c!"hex" with
  | none => .error .typeError
  | some s => match pyInt16 s with
    | none => .error .glifLibError
    | some i => .ok i

/-- `_readAdvance`, glifLib.py 1047-1051: the two values set. -/
def readAdvance (F : FloatCodec) (e : Elem) : Except Exc (PyVal × PyVal) :=
  match numberOr F (.int 0) (Dict.get? e.attrib c!"width") with
  | .error x => .error x
  | .ok w => match numberOr F (.int 0) (Dict.get? e.attrib c!"height") with
    | .error x => .error x
    | .ok h => .ok (w, h)

/-- `_readNote`, glifLib.py 1053-1056: `None` has no `split`; for bytes (not produced by parsers) `TypeError`. -/
def readNote (e : Elem) : Except Exc Str :=
  match e.text with
  | none => .error .attributeError
  | some (.bytes _) => .error .typeError
  | some (.str s) => .ok (join ['\n'] (((splitOn '\n' s).filter fun l => !(strip l).isEmpty).map strip))

/-- `_readLib`, glifLib.py 1058-1066. -/
def readLib (E : Env) (validate : Bool) (e : Elem) : Except Exc PyVal :=
  match e.children with
  | [child] => match Plist.fromtree E.F child with
    | .error x => .error x
    | .ok v => match (if validate then glyphLibValidator E.F v else .ok true) with
      | .error x => .error x
      | .ok false => .error .glifLibError
      | .ok true => .ok v
  | _ => .error .assertionError

/-- Attributes as a dictionary of values. -/
def attribDict (a : Dict Str Str) : List (PyVal × PyVal) := a.map fun p => (.str p.1, .str p.2)

/-- The loop of `_readImage`, glifLib.py 1070-1072. -/
def imageNumbers (F : FloatCodec) (attrib : Dict Str Str) (d : List (PyVal × PyVal)) : List (Str × PyVal) → Except Exc (List (PyVal × PyVal))
  | [] => .ok d
  | (attr, default) :: rest => match numberOr F default (Dict.get? attrib attr) with
    | .error e => .error e
    | .ok v => imageNumbers F attrib (Dict.set d (.str attr) v) rest

/-- `_readImage`, glifLib.py 1068-1075. -/
def readImage (E : Env) (validate : Bool) (e : Elem) : Except Exc PyVal :=
  match imageNumbers E.F e.attrib (attribDict e.attrib) transformationInfo with
  | .error x => .error x
  | .ok d => if validate && !imageValidator E.F (.dict d) then .error .glifLibError else .ok (.dict d)

/-- The attributes of a guideline or anchor element, those named in `numbers` as numbers, glifLib.py 994-998, 1002-1006. -/
def readEntry (F : FloatCodec) (numbers : List Str) : Dict Str Str → Except Exc (List (PyVal × PyVal))
  | [] => .ok []
  | (k, s) :: rest => match (if k ∈ numbers then number F s else .ok (.str s)) with
    | .error e => .error e
    | .ok v => match readEntry F numbers rest with
      | .error e => .error e
      | .ok d => .ok ((.str k, v) :: d)

/-! ### The glyph -/

/-- What the loop over the elements has collected: attributes set, calls made on the pen, and the local variables. -/
structure Collected where
  attrs : Dict Str PyVal
  calls : List Call
  identifiers : List Str
  unicodes : List Int
  guidelines : List PyVal
  anchors : List PyVal
  seen : List Str

/-- `haveSeen...` is tested and set: with validation the element must not have occurred. -/
def Collected.once (s : Collected) (validate : Bool) (tag : Str) : Except Exc Collected :=
  if validate && decide (tag ∈ s.seen) then .error .glifLibError else .ok { s with seen := s.seen ++ [tag] }

/-- `setattr(glyphObject, name, value)`. -/
def Collected.setAttr (s : Collected) (name : Str) (value : PyVal) : Collected := { s with attrs := Dict.set s.attrs name value }

/-- The checks of the outline element itself, glifLib.py 914-920, 964-970. -/
def outlineOk (e : Elem) : Bool := e.attrib.isEmpty && textBlank e.text

/-- The outline element in format 1, glifLib.py 913-922 and 1106-1110. -/
def Collected.outline1 (E : Env) (validate hasObj hasPen : Bool) (s : Collected) (e : Elem) : Except Exc Collected :=
  match readOutline1 E validate hasPen e.children with
  | .error x => .error x
  | .ok (anchors, calls) =>
    let s := { s with calls := s.calls ++ calls }
    if hasObj && !anchors.isEmpty then
      if validate && !(anchorsValidator E.F [] (.list anchors)).1 then .error .glifLibError
      else .ok (s.setAttr c!"anchors" (.list anchors))
    else .ok s

/-- The outline element in format 2, glifLib.py 963-974. -/
def Collected.outline2 (E : Env) (validate hasPen : Bool) (s : Collected) (e : Elem) : Except Exc Collected :=
  if hasPen then
    match readOutline2 E validate s.identifiers e.children with
    | .error x => .error x
    | .ok (calls, ids) => .ok { s with calls := s.calls ++ calls, identifiers := ids }
  else .ok s

/-- The outline element. -/
def Collected.outline (E : Env) (validate hasObj hasPen : Bool) (fv : Nat) (s : Collected) (e : Elem) : Except Exc Collected :=
  match s.once validate c!"outline" with
  | .error x => .error x
  | .ok s =>
    if validate && !outlineOk e then .error .glifLibError
    else if fv = 1 then s.outline1 E validate hasObj hasPen e
    else s.outline2 E validate hasPen e

/-- The advance element, glifLib.py 924-928, 977-981. -/
def Collected.advance (E : Env) (validate : Bool) (s : Collected) (e : Elem) : Except Exc Collected :=
  match s.once validate c!"advance" with
  | .error x => .error x
  | .ok s => match readAdvance E.F e with
    | .error x => .error x
    | .ok (w, h) => .ok ((s.setAttr c!"width" w).setAttr c!"height" h)

/-- A unicode element, glifLib.py 929-936, 982-989. -/
def Collected.unicode (s : Collected) (e : Elem) : Except Exc Collected :=
  match readHex e with
  | .error x => .error x
  | .ok i => .ok (if i ∈ s.unicodes then s else { s with unicodes := s.unicodes ++ [i] })

/-- The note element, glifLib.py 937-941, 1015-1019. -/
def Collected.note (validate : Bool) (s : Collected) (e : Elem) : Except Exc Collected :=
  match s.once validate c!"note" with
  | .error x => .error x
  | .ok s => match readNote e with
    | .error x => .error x
    | .ok t => .ok (s.setAttr c!"note" (.str t))

/-- The lib element, glifLib.py 942-946, 1020-1024. -/
def Collected.lib (E : Env) (validate : Bool) (s : Collected) (e : Elem) : Except Exc Collected :=
  match s.once validate c!"lib" with
  | .error x => .error x
  | .ok s => match readLib E validate e with
    | .error x => .error x
    | .ok v => .ok (s.setAttr c!"lib" v)

/-- The image element, glifLib.py 1007-1014. -/
def Collected.image (E : Env) (validate : Bool) (s : Collected) (e : Elem) : Except Exc Collected :=
  match s.once validate c!"image" with
  | .error x => .error x
  | .ok s =>
    if validate && !e.children.isEmpty then .error .glifLibError
    else match readImage E validate e with
      | .error x => .error x
      | .ok v => .ok (s.setAttr c!"image" v)

/-- A guideline element, glifLib.py 990-998. -/
def Collected.guideline (E : Env) (validate : Bool) (s : Collected) (e : Elem) : Except Exc Collected :=
  if validate && !e.children.isEmpty then .error .glifLibError
  else match readEntry E.F [c!"x", c!"y", c!"angle"] e.attrib with
    | .error x => .error x
    | .ok d => .ok { s with guidelines := s.guidelines ++ [.dict d] }

/-- An anchor element, glifLib.py 999-1006. -/
def Collected.anchor (E : Env) (validate : Bool) (s : Collected) (e : Elem) : Except Exc Collected :=
  if validate && !e.children.isEmpty then .error .glifLibError
  else match readEntry E.F [c!"x", c!"y"] e.attrib with
    | .error x => .error x
    | .ok d => .ok { s with anchors := s.anchors ++ [.dict d] }

/-- One element of the glyph, glifLib.py 912-948 (format 1) and 962-1026 (format 2). -/
def readChild (E : Env) (validate hasObj hasPen : Bool) (fv : Nat) (s : Collected) (e : Elem) : Except Exc Collected :=
  if e.tag = c!"outline" then s.outline E validate hasObj hasPen fv e
  else if !hasObj then .ok s
  else if e.tag = c!"advance" then s.advance E validate e
  else if e.tag = c!"unicode" then s.unicode e
  else if e.tag = c!"note" then s.note validate e
  else if e.tag = c!"lib" then s.lib E validate e
  else if fv ≠ 1 ∧ e.tag = c!"guideline" then s.guideline E validate e
  else if fv ≠ 1 ∧ e.tag = c!"anchor" then s.anchor E validate e
  else if fv ≠ 1 ∧ e.tag = c!"image" then s.image E validate e
  else .error .glifLibError

/-- All elements. -/
def readChildren (E : Env) (validate hasObj hasPen : Bool) (fv : Nat) (s : Collected) : List Elem → Except Exc Collected
  | [] => .ok s
  | e :: es => match readChild E validate hasObj hasPen fv s e with
    | .error x => .error x
    | .ok s => readChildren E validate hasObj hasPen fv s es

/-- `if list: ... setattr(...)` at the end, with the verdict of the validator and the identifiers after it. -/
def Collected.setList (s : Collected) (validate : Bool) (name : Str) (l : List PyVal) (verdict : Bool × List Str) : Except Exc Collected :=
  if l.isEmpty then .ok s
  else if validate && !verdict.1 then .error .glifLibError
  else .ok { s.setAttr name (.list l) with identifiers := verdict.2 }

/-- The end of `_readGlyphFromTreeFormat1`, glifLib.py 949-952, and `...Format2`, 1027-1038 (in format 1 no guidelines or anchors are
collected here). -/
def Collected.finish (E : Env) (validate : Bool) (s : Collected) : Except Exc Collected :=
  let s := if s.unicodes.isEmpty then s else s.setAttr c!"unicodes" (.list (s.unicodes.map fun i => .int i))
  match s.setList validate c!"guidelines" s.guidelines (guidelinesValidator E.F s.identifiers (.list s.guidelines)) with
  | .error x => .error x
  | .ok s => s.setList validate c!"anchors" s.anchors (anchorsValidator E.F s.identifiers (.list s.anchors))

/-- `_readName`, glifLib.py 1040-1045: the attributes set. -/
def readName (validate hasObj : Bool) (tree : Elem) : Except Exc (Dict Str PyVal) :=
  match Dict.get? tree.attrib c!"name" with
  | some (c :: cs) => .ok (if hasObj then [(c!"name", .str (c :: cs))] else [])
  | _ => if validate then .error .glifLibError else .ok []

/-- `_readGlyphFromTreeFormat1`, glifLib.py 906-952, and `_readGlyphFromTreeFormat2`, 954-1038: the attributes set and the calls made. -/
def readFormat (E : Env) (validate hasObj hasPen : Bool) (fv : Nat) (tree : Elem) : Except Exc (Dict Str PyVal × List Call) :=
  match readName validate hasObj tree with
  | .error x => .error x
  | .ok attrs => match readChildren E validate hasObj hasPen fv ⟨attrs, [], [], [], [], [], []⟩ tree.children with
    | .error x => .error x
    | .ok s => match s.finish E validate with
      | .error x => .error x
      | .ok s => .ok (s.attrs, s.calls)

/-- `_glifTreeFromString`, glifLib.py 877-884, on the parsed tree, followed by `_readGlyphFromTree`, 886-903. -/
def readGlyphTree (E : Env) (validate hasObj hasPen : Bool) (formatVersions : List Int) (tree : Elem) : Except Exc (Dict Str PyVal × List Call) :=
  if tree.tag ≠ c!"glyph" then .error .glifLibError
  else if !textBlank tree.text then .error .glifLibError
  else match Dict.get? tree.attrib c!"format" with
    | none => .error (if validate then .glifLibError else .typeError)
    | some s => match pyInt s with
      | none => .error .glifLibError
      | some v =>
        if validate && !decide (v ∈ formatVersions) then .error .glifLibError
        else if v = 1 then readFormat E validate hasObj hasPen 1 tree
        else if v = 2 then readFormat E validate hasObj hasPen 2 tree
        else .error .glifLibError

end Verif.Glif
