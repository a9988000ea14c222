import Verif.Model.Validators
import Verif.Model.Plist
import Verif.Py.Hex
import Verif.Py.Elem
/-! Model of the writing half of `Lib/ufoLib/glifLib.py`: `_writeGlyphToBytes`, the element writers and `GLIFPointPen`.

A glyph object is a function from attribute names to values (`getattr(glyphObject, name, None)`). Elements are built with
`etree.SubElement`; an attribute value that is not a string raises `TypeError` (lxml at once, the built-in backend when the tree
is serialised; the model raises at once). -/
namespace Verif.Glif
open Verif Verif.Validators

/-- Parameters: the float codec, the backend, `repr()` of values that are not numbers. -/
structure Env where
  F : FloatCodec
  lxml : Bool
  reprOther : PyVal → Str

/-- `repr(value)`. -/
def pyRepr (E : Env) : PyVal → Str
  | .bool true => c!"True"
  | .bool false => c!"False"
  | .int i => intRepr i
  | .float f => E.F.repr f
  | v => E.reprOther v

/-- `bool(value)`. -/
def truthy : PyVal → Bool
  | .none => false
  | .bool b => b
  | .int i => i != 0
  | .float f => f != .fin 0
  | .str s => !s.isEmpty
  | .bytes b => !b.isEmpty
  | .list l => !l.isEmpty
  | .tuple l => !l.isEmpty
  | .dict d => !d.isEmpty
  | _ => true

/-- `iter(value)`. -/
def iter : PyVal → Except Exc (List PyVal)
  | .list l => .ok l
  | .tuple l => .ok l
  | .dict d => .ok (d.map Prod.fst)
  | .str s => .ok (s.map fun c => .str [c])
  | .bytes b => .ok (b.map fun x => .int x.toNat)
  | _ => .error .typeError

/-- A glyph object: `getattr(glyphObject, name, None)`. `glyphObject=None` has no attributes. -/
abbrev Obj := Str → Option PyVal

/-- `getattr(glyphObject, name, None)`. -/
def Obj.attr (o : Obj) (name : Str) : PyVal := (o name).getD .none

/-- The text of an attribute value (see the head of the file). lxml refuses characters XML does not allow. -/
def attrText (E : Env) : PyVal → Except Exc Str
  | .str s => if E.lxml && !s.all isXmlChar then .error .valueError else .ok s
  | _ => .error .typeError

/-- The attributes of a new element. -/
def attrTexts (E : Env) : List (Str × PyVal) → Except Exc (Dict Str Str)
  | [] => .ok []
  | (k, v) :: rest => match attrText E v with
    | .error e => .error e
    | .ok s => match attrTexts E rest with
      | .error e => .error e
      | .ok d => .ok ((k, s) :: d)

/-- `etree.SubElement(parent, tag, attrs)`: the new element. -/
def newElement (E : Env) (tag : Str) (attrs : List (Str × PyVal)) : Except Exc Elem :=
  (attrTexts E attrs).map fun a => .mk tag a none none []

/-- `attrs[k] = v` if `v is not None`. -/
def optional (k : Str) (v : PyVal) : List (Str × PyVal) :=
  match v with
  | .none => []
  | v => [(k, v)]

/-- `attrs[k] = repr(v)` if `v is not None`. -/
def optionalRepr (E : Env) (k : Str) (v : PyVal) : List (Str × PyVal) :=
  match v with
  | .none => []
  | v => [(k, .str (pyRepr E v))]

/-! ### The simple elements -/

/-- One half of `_writeAdvance`, glifLib.py 670-675 and 676-681: the value to write, `None` when absent or zero. -/
def advanceValue (validate : Bool) : PyVal → Except Exc PyVal
  | .none => .ok .none
  | v =>
    if validate && !isNumber v then .error .glifLibError
    else if PyVal.pyEq v (.int 0) then .ok .none
    else .ok v

/-- `_writeAdvance`, glifLib.py 669-687. -/
def writeAdvance (E : Env) (validate : Bool) (o : Obj) : Except Exc (List Elem) :=
  match advanceValue validate (o.attr c!"width") with
  | .error e => .error e
  | .ok width => match advanceValue validate (o.attr c!"height") with
    | .error e => .error e
    | .ok height => match optionalRepr E c!"height" height ++ optionalRepr E c!"width" width with
      | [] => .ok []
      | attrs => (newElement E c!"advance" attrs).map fun e => [e]

/-- The loop of `_writeUnicodes`, glifLib.py 694-701. Without validation a value that is not an int raises `TypeError` (being
unhashable, or in `"%04X" % code`). -/
def unicodeElements (E : Env) (validate : Bool) (seen : List Int) : List PyVal → Except Exc (List Elem)
  | [] => .ok []
  | code :: rest =>
    if !isInt code then .error (if validate then .glifLibError else .typeError)
    else if intOf code ∈ seen then unicodeElements E validate seen rest
    else match newElement E c!"unicode" [(c!"hex", .str (hex4 (intOf code)))] with
      | .error e => .error e
      | .ok e => match unicodeElements E validate (seen ++ [intOf code]) rest with
        | .error e => .error e
        | .ok l => .ok (e :: l)

/-- `_writeUnicodes`, glifLib.py 689-701. -/
def writeUnicodes (E : Env) (validate : Bool) (unicodes : PyVal) : Except Exc (List Elem) :=
  match (if validate && isInt unicodes then .ok [unicodes] else iter unicodes) with
  | .error e => .error e
  | .ok l => unicodeElements E validate [] l

/-- `_writeNote`, glifLib.py 703-710 (without validation only strings are modelled). -/
def writeNote (E : Env) (validate : Bool) : PyVal → Except Exc Elem
  | .str note => (Plist.setText E.lxml (.str ('\n' :: strip note ++ ['\n']))).map fun t => .mk c!"note" [] (some t) none []
  | _ => .error (if validate then .glifLibError else .attributeError)

/-- `_transformationInfo`, glifLib.py 1505-1513. -/
def transformationInfo : List (Str × PyVal) :=
  [(c!"xScale", .int 1), (c!"xyScale", .int 0), (c!"yxScale", .int 0), (c!"yScale", .int 1), (c!"xOffset", .int 0), (c!"yOffset", .int 0)]

/-- The transformation attributes of an image, glifLib.py 717-720. -/
def imageTransformation (E : Env) (d : List (PyVal × PyVal)) : List (Str × PyVal) → List (Str × PyVal)
  | [] => []
  | (attr, default) :: rest =>
    let value := (get d attr).getD default
    if PyVal.pyEq value default then imageTransformation E d rest
    else (attr, .str (pyRepr E value)) :: imageTransformation E d rest

/-- `_writeImage`, glifLib.py 712-724. -/
def writeImage (E : Env) (validate : Bool) (image : PyVal) : Except Exc Elem :=
  if validate && !imageValidator E.F image then .error .glifLibError
  else match image with
    | .dict d => match get d c!"fileName" with
      | none => .error .keyError
      | some fileName =>
        newElement E c!"image" ((c!"fileName", fileName) :: imageTransformation E d transformationInfo ++ optional c!"color" ((get d c!"color").getD .none))
    | _ => .error .typeError

/-- `identifier in identifiers`, then `identifiers.add(identifier)` (glifLib.py 746-751, 787-792): the new set. Identifiers that are
not strings never equal a string and are not kept; the element is refused later. -/
def addIdentifier (validate : Bool) (ids : List Str) : PyVal → Except Exc (List Str)
  | .none => .ok ids
  | .str i => if validate && decide (i ∈ ids) then .error .glifLibError else .ok (ids ++ [i])
  | v => if validate && !hashable v then .error .typeError else .ok ids

/-- The attributes of a guideline, glifLib.py 731-752. -/
def guidelineAttrs (E : Env) (d : List (PyVal × PyVal)) : List (Str × PyVal) :=
  optionalRepr E c!"x" ((get d c!"x").getD .none) ++ optionalRepr E c!"y" ((get d c!"y").getD .none) ++
    optionalRepr E c!"angle" ((get d c!"angle").getD .none) ++ optional c!"name" ((get d c!"name").getD .none) ++
    optional c!"color" ((get d c!"color").getD .none) ++ optional c!"identifier" ((get d c!"identifier").getD .none)

/-- The attributes of an anchor, glifLib.py 776-793: `anchor["x"]` and `anchor["y"]` raise `KeyError` when missing. -/
def anchorAttrs (E : Env) (d : List (PyVal × PyVal)) : Except Exc (List (Str × PyVal)) :=
  match get d c!"x", get d c!"y" with
  | some x, some y =>
    .ok ([(c!"x", .str (pyRepr E x)), (c!"y", .str (pyRepr E y))] ++ optional c!"name" ((get d c!"name").getD .none) ++
      optional c!"color" ((get d c!"color").getD .none) ++ optional c!"identifier" ((get d c!"identifier").getD .none))
  | _, _ => .error .keyError

/-- The loops of `_writeGuidelines`, glifLib.py 730-753, and `_writeAnchors`, 775-794, with the attributes of an entry as a parameter
(`AttributeError` for entries without `get`). -/
def entryElements (E : Env) (validate : Bool) (tag : Str) (attrs : List (PyVal × PyVal) → Except Exc (List (Str × PyVal))) (ids : List Str) :
    List PyVal → Except Exc (List Elem × List Str)
  | [] => .ok ([], ids)
  | .dict d :: rest => match attrs d with
    | .error e => .error e
    | .ok a => match addIdentifier validate ids ((get d c!"identifier").getD .none) with
      | .error e => .error e
      | .ok ids => match newElement E tag a with
        | .error e => .error e
        | .ok e => match entryElements E validate tag attrs ids rest with
          | .error e => .error e
          | .ok (l, ids) => .ok (e :: l, ids)
  | _ :: _ => .error .attributeError

/-- `_writeGuidelines`, glifLib.py 726-753. The validator is called without the identifiers. -/
def writeGuidelines (E : Env) (validate : Bool) (ids : List Str) (guidelines : PyVal) : Except Exc (List Elem × List Str) :=
  if validate && !(guidelinesValidator E.F [] guidelines).1 then .error .glifLibError
  else match iter guidelines with
    | .error e => .error e
    | .ok l => entryElements E validate c!"guideline" (fun d => .ok (guidelineAttrs E d)) ids l

/-- `_writeAnchors`, glifLib.py 771-794. -/
def writeAnchors (E : Env) (validate : Bool) (ids : List Str) (anchors : PyVal) : Except Exc (List Elem × List Str) :=
  if validate && !(anchorsValidator E.F [] anchors).1 then .error .glifLibError
  else match iter anchors with
    | .error e => .error e
    | .ok l => entryElements E validate c!"anchor" (anchorAttrs E) ids l

/-- `_writeLib`, glifLib.py 795-808 (called with a lib that is not empty; without validation only dictionaries are modelled). -/
def writeLib (E : Env) (validate : Bool) (lib : PyVal) : Except Exc Elem :=
  match (if validate then glyphLibValidator E.F lib else .ok true) with
  | .error e => .error e
  | .ok false => .error .glifLibError
  | .ok true => match lib with
    | .dict d => match Plist.totree E.F E.lxml true 2 (.dict d) with
      | .error e => .error e
      | .ok e => .ok (.mk c!"lib" [] none none [e])
    | _ => .error .typeError

/-! ### GLIFPointPen -/

/-- Calls of the point pen protocol, with arbitrary values as arguments. -/
inductive Call where
  | beginPath (identifier : PyVal)
  | addPoint (pt segmentType smooth name identifier : PyVal)
  | endPath
  | addComponent (glyphName transformation identifier : PyVal)
  deriving DecidableEq, Repr

/-- State of a `GLIFPointPen`, glifLib.py 1522-1532. `contour` is the position of the current contour among the children of the
outline. -/
structure Pen where
  children : List Elem
  contour : Option Nat
  prevOffCurveCount : Nat
  prevPointTypes : List PyVal
  identifiers : List Str

/-- A new pen. -/
def Pen.new (identifiers : List Str) : Pen := ⟨[], none, 0, [], identifiers⟩

/-- The identifier part of the three drawing methods, glifLib.py 1536-1543, 1597-1604, 1612-1619: the attribute and the new set. -/
def penIdentifier (formatVersion : Nat) (validate : Bool) (ids : List Str) (identifier : PyVal) : Except Exc (List (Str × PyVal) × List Str) :=
  if identifier = .none ∨ formatVersion < 2 then .ok ([], ids)
  else match addIdentifier validate ids identifier with
    | .error e => .error e
    | .ok ids => if validate && !identifierValidator identifier then .error .glifLibError else .ok ([(c!"identifier", identifier)], ids)

/-- `element.append(child)`. -/
def appendChild (child : Elem) : Elem → Elem
  | .mk tag a text tail children => .mk tag a text tail (children ++ [child])

/-- `if not len(element): element.text = "\n  "`. -/
def fillEmpty : Elem → Elem
  | .mk tag a text tail children => .mk tag a (if children.isEmpty then some (.str c!"\n  ") else text) tail children

/-- `GLIFPointPen.beginPath`, glifLib.py 1534-1545. A call returns the new state and the exception raised, if any; changes made before
the exception stay. -/
def Pen.beginPath (E : Env) (fv : Nat) (validate : Bool) (s : Pen) (identifier : PyVal) : Pen × Option Exc :=
  match penIdentifier fv validate s.identifiers identifier with
  | .error e => (s, some e)
  | .ok (attrs, ids) => match newElement E c!"contour" attrs with
    | .error e => ({ s with identifiers := ids }, some e)
    | .ok e => ({ s with identifiers := ids, children := s.children ++ [e], contour := some s.children.length, prevOffCurveCount := 0 }, none)

/-- `GLIFPointPen.endPath`, glifLib.py 1547-1557. -/
def Pen.endPath (validate : Bool) (s : Pen) : Pen × Option Exc :=
  if validate ∧ s.prevPointTypes.head? = some (.str c!"move") ∧ s.prevPointTypes.getLast? = some (.str c!"offcurve") then (s, some .glifLibError)
  else match s.contour with
    | none => (s, some .typeError)
    | some i => ({ s with children := s.children.modify i fillEmpty, contour := none, prevOffCurveCount := 0, prevPointTypes := [] }, none)

/-- The coordinates, glifLib.py 1562-1568 (`pt` is `None`, a tuple or a list; anything else is taken to raise `TypeError`). -/
def coordinates (E : Env) (validate : Bool) (pt : PyVal) : Except Exc (List (Str × PyVal)) :=
  if pt = .none then .ok []
  else match seq? pt with
    | none => .error .typeError
    | some l =>
      if validate && !l.all isNumber then .error .glifLibError
      else match l with
        | x :: y :: _ => .ok [(c!"x", .str (pyRepr E x)), (c!"y", .str (pyRepr E y))]
        | _ => .error .indexError

/-- The checks of the segment type (with `"offcurve"` already replaced by `None`), glifLib.py 1572-1578. -/
def typeAllowed (s : Pen) (segmentType : PyVal) : Bool :=
  if segmentType = .str c!"move" ∧ s.prevPointTypes ≠ [] then false
  else if (segmentType = .str c!"move" ∨ segmentType = .str c!"line") ∧ s.prevPointTypes.getLast? = some (.str c!"offcurve") then false
  else if segmentType = .str c!"curve" ∧ s.prevOffCurveCount > 2 then false
  else true

/-- The end of `addPoint`, glifLib.py 1596-1605. -/
def Pen.placePoint (E : Env) (fv : Nat) (validate : Bool) (s : Pen) (attrs : List (Str × PyVal)) (identifier : PyVal) : Pen × Option Exc :=
  match penIdentifier fv validate s.identifiers identifier with
  | .error e => (s, some e)
  | .ok (idAttrs, ids) =>
    let s := { s with identifiers := ids }
    match newElement E c!"point" (attrs ++ idAttrs), s.contour with
    | .error e, _ => (s, some e)
    | .ok _, none => (s, some .typeError)
    | .ok e, some i => ({ s with children := s.children.modify i (appendChild e) }, none)

/-- `GLIFPointPen.addPoint`, glifLib.py 1559-1605. -/
def Pen.addPoint (E : Env) (fv : Nat) (validate : Bool) (s : Pen) (pt segmentType smooth name identifier : PyVal) : Pen × Option Exc :=
  match coordinates E validate pt with
  | .error e => (s, some e)
  | .ok coords =>
    let segmentType := if segmentType = .str c!"offcurve" then .none else segmentType
    if validate && !typeAllowed s segmentType then (s, some .glifLibError)
    else
      let offcurve := decide (segmentType = .none)
      let s := { s with
        prevOffCurveCount := if offcurve then s.prevOffCurveCount + 1 else 0
        prevPointTypes := s.prevPointTypes ++ [if offcurve then .str c!"offcurve" else segmentType] }
      if truthy smooth && validate && offcurve then (s, some .glifLibError)
      else s.placePoint E fv validate
        (coords ++ optional c!"type" segmentType ++ (if truthy smooth then [(c!"smooth", .str c!"yes")] else []) ++ optional c!"name" name) identifier

/-- The transformation attributes of a component, glifLib.py 1609-1613. -/
def componentTransformation (E : Env) (validate : Bool) : List (Str × PyVal) → List PyVal → Except Exc (List (Str × PyVal))
  | (attr, default) :: info, value :: values =>
    if validate && !isNumber value then .error .glifLibError
    else match componentTransformation E validate info values with
      | .error e => .error e
      | .ok rest => .ok (if PyVal.pyEq value default then rest else (attr, .str (pyRepr E value)) :: rest)
  | _, _ => .ok []

/-- `GLIFPointPen.addComponent`, glifLib.py 1607-1621 (`transformation` is a tuple or a list). -/
def Pen.addComponent (E : Env) (fv : Nat) (validate : Bool) (s : Pen) (glyphName transformation identifier : PyVal) : Pen × Option Exc :=
  match seq? transformation with
  | none => (s, some .typeError)
  | some values => match componentTransformation E validate transformationInfo values with
    | .error e => (s, some e)
    | .ok attrs => match penIdentifier fv validate s.identifiers identifier with
      | .error e => (s, some e)
      | .ok (idAttrs, ids) => match newElement E c!"component" ((c!"base", glyphName) :: attrs ++ idAttrs) with
        | .error e => ({ s with identifiers := ids }, some e)
        | .ok e => ({ s with identifiers := ids, children := s.children ++ [e] }, none)

/-- One call on the pen. -/
def Pen.step (E : Env) (fv : Nat) (validate : Bool) (s : Pen) : Call → Pen × Option Exc
  | .beginPath i => s.beginPath E fv validate i
  | .addPoint pt t smooth name i => s.addPoint E fv validate pt t smooth name i
  | .endPath => s.endPath validate
  | .addComponent g t i => s.addComponent E fv validate g t i

/-- A drawing function that makes the given calls and lets exceptions pass. -/
def Pen.draw (E : Env) (fv : Nat) (validate : Bool) (s : Pen) : List Call → Except Exc Pen
  | [] => .ok s
  | c :: cs => match s.step E fv validate c with
    | (_, some e) => .error e
    | (s, none) => s.draw E fv validate cs

/-- A drawing function that makes the given calls and goes on after an exception. -/
def Pen.drawOn (E : Env) (fv : Nat) (validate : Bool) (s : Pen) : List Call → Pen
  | [] => s
  | c :: cs => (s.step E fv validate c).1.drawOn E fv validate cs

/-! ### The glyph -/

/-- The calls made by `_writeAnchorsFormat1`, glifLib.py 758-769. -/
def anchorCalls : List PyVal → Except Exc (List Call)
  | [] => .ok []
  | .dict d :: rest => match get d c!"x", get d c!"y" with
    | some x, some y => match anchorCalls rest with
      | .error e => .error e
      | .ok cs => .ok (.beginPath .none :: .addPoint (.tuple [x, y]) (.str c!"move") .none ((get d c!"name").getD .none) .none :: .endPath :: cs)
    | _, _ => .error .keyError
  | _ :: _ => .error .typeError

/-- `_writeAnchorsFormat1`, glifLib.py 755-769. The calls are collected first; the code makes them one by one, which only matters for
which exception is raised. -/
def writeAnchorsFormat1 (E : Env) (validate : Bool) (s : Pen) (anchors : PyVal) : Except Exc Pen :=
  if validate && !(anchorsValidator E.F [] anchors).1 then .error .glifLibError
  else match iter anchors with
    | .error e => .error e
    | .ok l => match anchorCalls l with
      | .error e => .error e
      | .ok cs => s.draw E 2 validate cs

/-- The outline, glifLib.py 611-620. The pen is made without the format version, so it takes the default 2. -/
def writeOutline (E : Env) (validate : Bool) (fv : Nat) (ids : List Str) (anchors : PyVal) (calls : List Call) : Except Exc Elem :=
  match (Pen.new ids).draw E 2 validate calls with
  | .error e => .error e
  | .ok s => match (if fv = 1 ∧ truthy anchors = true then writeAnchorsFormat1 E validate s anchors else .ok s) with
    | .error e => .error e
    | .ok s => .ok (fillEmpty (.mk c!"outline" [] none none s.children))

/-- The outline element if there is a drawing function, glifLib.py 611. -/
def drawn (E : Env) (validate : Bool) (fv : Nat) (ids : List Str) (anchors : PyVal) : Option (List Call) → Except Exc (List Elem)
  | none => .ok []
  | some calls => (writeOutline E validate fv ids anchors calls).map fun e => [e]

/-- `if cond: f(...)` for the parts that give one element. -/
def oneIf (cond : Bool) (e : Except Exc Elem) : Except Exc (List Elem) :=
  if cond then e.map fun e => [e] else .ok []

/-- The elements before the outline, glifLib.py 592-609, and the identifiers used. -/
def writeHead (E : Env) (validate : Bool) (fv : Nat) (o : Obj) : Except Exc (List Elem × List Str) :=
  match writeAdvance E validate o with
  | .error e => .error e
  | .ok advance => match (if truthy (o.attr c!"unicodes") then writeUnicodes E validate (o.attr c!"unicodes") else .ok []) with
    | .error e => .error e
    | .ok unicodes => match oneIf (truthy (o.attr c!"note")) (writeNote E validate (o.attr c!"note")) with
      | .error e => .error e
      | .ok note => match oneIf (decide (2 ≤ fv) && truthy (o.attr c!"image")) (writeImage E validate (o.attr c!"image")) with
        | .error e => .error e
        | .ok image => match (if decide (2 ≤ fv) && truthy (o.attr c!"guidelines") then writeGuidelines E validate [] (o.attr c!"guidelines") else .ok ([], [])) with
          | .error e => .error e
          | .ok (guidelines, ids) => match (if decide (2 ≤ fv) && truthy (o.attr c!"anchors") then writeAnchors E validate ids (o.attr c!"anchors") else .ok ([], ids)) with
            | .error e => .error e
            | .ok (anchors, ids) => .ok (advance ++ unicodes ++ note ++ image ++ guidelines ++ anchors, ids)

/-- `_writeGlyphToBytes`, glifLib.py 581-622, up to the serialisation: the tree. `draw` is the list of calls the drawing function makes,
`none` when there is no drawing function. -/
def writeGlyphTree (E : Env) (validate : Bool) (fv : Nat) (glyphName : PyVal) (o : Obj) (draw : Option (List Call)) : Except Exc Elem :=
  if validate && !(isStr glyphName && decide (glyphName ≠ .str [])) then .error .glifLibError
  else match attrTexts E [(c!"name", glyphName), (c!"format", .str (natRepr fv))] with
    | .error e => .error e
    | .ok attrs => match writeHead E validate fv o with
      | .error e => .error e
      | .ok (head, ids) => match drawn E validate fv ids (o.attr c!"anchors") draw with
        | .error e => .error e
        | .ok outline => match oneIf (truthy (o.attr c!"lib")) (writeLib E validate (o.attr c!"lib")) with
          | .error e => .error e
          | .ok lib => .ok (.mk c!"glyph" attrs none none (head ++ outline ++ lib))

end Verif.Glif
