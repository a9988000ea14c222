import Verif.Model.GlifReader
import Verif.Spec.Validators
import Verif.Spec.Plist
import Mathlib.Data.List.Forall2
/-! What the claims about GLIF say, independently of how the code does it. -/
namespace Verif.Spec.Glif
open Verif Verif.Glif Verif.Spec.Validators

/-! ### Identifiers -/

/-- The identifier of an element. -/
def ownIdentifier (e : Elem) : List Str := (Dict.get? e.attrib c!"identifier").toList

/-- The identifiers of contours, components and points among the children of an outline. -/
def outlineIdentifiers (children : List Elem) : List Str := children.flatMap fun c => ownIdentifier c ++ c.children.flatMap ownIdentifier

/-- The identifiers of guidelines, anchors, contours, points and components of a glyph element. -/
def glyphIdentifiers (tree : Elem) : List Str :=
  tree.children.flatMap fun e =>
    if e.tag = c!"guideline" ∨ e.tag = c!"anchor" then ownIdentifier e
    else if e.tag = c!"outline" then outlineIdentifiers e.children
    else []

/-- An identifier argument. -/
def argument : PyVal → List Str
  | .str i => [i]
  | _ => []

/-- The identifier given in a call. -/
def callIdentifier : Call → List Str
  | .beginPath i => argument i
  | .addPoint _ _ _ _ i => argument i
  | .endPath => []
  | .addComponent _ _ i => argument i

/-- The items of a list value. -/
def listItems : PyVal → List PyVal
  | .list l => l
  | _ => []

/-- No element of the glyph has two attributes with the same name (always true of parsed XML). -/
def DistinctAttributes (tree : Elem) : Prop := ∀ e ∈ tree.children, (Dict.keys e.attrib).Nodup

/-- A value read, `None` when it was not set. -/
def delivered (attrs : Dict Str PyVal) (k : Str) : PyVal := (Dict.get? attrs k).getD .none

/-- The identifier argument of a call. -/
def callArgument : Call → PyVal
  | .beginPath i => i
  | .addPoint _ _ _ _ i => i
  | .endPath => .none
  | .addComponent _ _ i => i

/-- A call without its identifier. -/
def bareCall : Call → Call
  | .beginPath _ => .beginPath .none
  | .addPoint pt t smooth name _ => .addPoint pt t smooth name .none
  | .endPath => .endPath
  | .addComponent g t _ => .addComponent g t .none

/-- A guideline or anchor without its identifier. -/
def bareEntry : PyVal → PyVal
  | .dict d => .dict (d.filter fun p => decide (p.1 ≠ .str c!"identifier"))
  | v => v

/-- Guidelines or anchors without identifiers. -/
def bareList : PyVal → PyVal
  | .list l => .list (l.map bareEntry)
  | v => v

/-- A glyph object whose guidelines and anchors have no identifiers. -/
def bareObj (o : Obj) : Obj := fun k => if k = c!"guidelines" ∨ k = c!"anchors" then (o k).map bareList else o k

/-! ### Drawings -/

/-- The arguments of `addPoint`. -/
structure Pt where
  pt : PyVal
  segmentType : PyVal
  smooth : PyVal
  name : PyVal
  identifier : PyVal

/-- The call. -/
def Pt.call (p : Pt) : Call := .addPoint p.pt p.segmentType p.smooth p.name p.identifier

/-- A part of a drawing. -/
inductive Item where
  | contour (identifier : PyVal) (points : List Pt)
  | component (glyphName transformation identifier : PyVal)

/-- The calls that draw a part. -/
def Item.calls : Item → List Call
  | .contour i ps => .beginPath i :: ps.map Pt.call ++ [.endPath]
  | .component g t i => [.addComponent g t i]

/-- The calls that draw everything: a well-nested sequence. -/
def drawing (d : List Item) : List Call := d.flatMap Item.calls

/-! ### Contours -/

/-- A contour by the types of its points, `none` being off-curve, is well formed: known types, `move` only at the start, and for every
on-curve point, `b ++ a` being the rest of the contour going round from the next point: a `move` or `line` point does not follow an
off-curve point (so an open contour does not end with one) and a `curve` point does not follow more than two. -/
structure GoodContour (l : List (Option Str)) : Prop where
  types : ∀ t, some t ∈ l → t = c!"move" ∨ t = c!"line" ∨ t = c!"curve" ∨ t = c!"qcurve"
  move : ∀ a b, l = a ++ some c!"move" :: b → a = []
  line : ∀ a b t, l = a ++ some t :: b → t = c!"move" ∨ t = c!"line" → ∀ s, b ++ a ≠ s ++ [none]
  curve : ∀ a b, l = a ++ some c!"curve" :: b → ∀ s, b ++ a ≠ s ++ [none, none, none]

/-- The type of a point as the file has it. -/
def fileType : PyVal → Option Str
  | .str t => if t = c!"offcurve" then none else some t
  | _ => none

/-- A part of a drawing is well formed. -/
def GoodItem : Item → Prop
  | .contour _ ps => GoodContour (ps.map fun p => fileType p.segmentType) ∧
      ∀ p ∈ ps, (p.segmentType = .none ∧ p.smooth = .bool false) ∨ ∃ t b, p.segmentType = .str t ∧ t ≠ c!"offcurve" ∧ p.smooth = .bool b
  | .component _ _ _ => True

/-! ### Round trips -/

/-- What is read for a number: the number, or the value to assume when it is missing if they are equal. -/
def SameNumber (default v w : PyVal) : Prop := v = w ∨ (w = default ∧ PyVal.pyEq v default = true)

/-- The identity transformation. -/
def identity : List PyVal := [.int 1, .int 0, .int 0, .int 1, .int 0, .int 0]

/-- A transformation with missing values filled in and surplus ones dropped. -/
def padded (l : List PyVal) : List PyVal := l.take 6 ++ identity.drop l.length

/-- What is delivered for a call that was written. -/
inductive SameCall : Call → Call → Prop
  | beginPath (i : PyVal) : SameCall (.beginPath i) (.beginPath i)
  | endPath : SameCall .endPath .endPath
  | offcurve (pt : PyVal) (x y : PyVal) (rest : List PyVal) (t smooth name i : PyVal) (h : IsSeq pt (x :: y :: rest)) (ht : t = .none ∨ t = .str c!"offcurve") :
      SameCall (.addPoint pt t smooth name i) (.addPoint (.tuple [x, y]) .none (.bool (truthy smooth)) name i)
  | oncurve (pt : PyVal) (x y : PyVal) (rest : List PyVal) (t smooth name i : PyVal) (h : IsSeq pt (x :: y :: rest)) (ht : t ≠ .none ∧ t ≠ .str c!"offcurve") :
      SameCall (.addPoint pt t smooth name i) (.addPoint (.tuple [x, y]) t (.bool (truthy smooth)) name i)
  | addComponent (g t i : PyVal) (l l' : List PyVal) (h : IsSeq t l) (hs : List.Forall₂ (fun p w => SameNumber p.1 p.2 w) (identity.zip (padded l)) l') :
      SameCall (.addComponent g t i) (.addComponent g (.tuple l') i)

/-- A number that is printed as a number: not a bool. -/
def Printable (v : PyVal) : Prop := (∃ i, v = .int i) ∨ ∃ f, v = .float f

/-- A number that is printed as a number, or nothing. -/
def PrintableOrNone (v : PyVal) : Prop := v = .none ∨ Printable v

/-- A value, 0 when it is not set. -/
def orZero (v : PyVal) : PyVal := if v = .none then .int 0 else v

/-- The integers of a list or tuple of integers, in order, or one integer by itself (other than 0, which counts as
nothing), or nothing. -/
inductive Integers : PyVal → List Int → Prop
  | none : Integers .none []
  | one (v : PyVal) (i : Int) (h : IsInt v i) (h0 : i ≠ 0) : Integers v [i]
  | list (v : PyVal) (l : List PyVal) (is : List Int) (h : IsSeq v l) (hi : List.Forall₂ IsInt l is) : Integers v is

/-- The values of a list without repetition, in the order of their first occurrence. -/
def firsts : List Int → List Int
  | [] => []
  | i :: l => i :: (firsts l).filter fun j => decide (j ≠ i)

/-- The text of a note, empty when it is not set. -/
def noteText : PyVal → Str
  | .str s => s
  | _ => []

/-- `lines` are the lines of a text that are not blank, white space around each removed. -/
def NoteLines (text : Str) (lines : List Str) : Prop :=
  ∃ raw, text = join ['\n'] raw ∧ (∀ l ∈ raw, '\n' ∉ l) ∧ lines = (raw.map strip).filter fun l => decide (l ≠ [])

/-- Same fields, `None` counting as absent. -/
def SameFields (d d' : List (PyVal × PyVal)) : Prop := ∀ k v, Field d k v ↔ Field d' k v

/-- The transformation of an image and the values to assume when they are missing. -/
def transformation : List (Str × Int) := [(c!"xScale", 1), (c!"xyScale", 0), (c!"yxScale", 0), (c!"yScale", 1), (c!"xOffset", 0), (c!"yOffset", 0)]

/-- The same image reference, the transformation being complete in the second. -/
structure SameImage (d d' : List (PyVal × PyVal)) : Prop where
  text : ∀ k v, k = c!"fileName" ∨ k = c!"color" → (Field d k v ↔ Field d' k v)
  numbers : ∀ k i, (k, i) ∈ transformation → ∃ v, Field d' k v ∧ ((∃ w, Field d k w ∧ SameNumber (.int i) w v) ∨ (Absent d k ∧ v = .int i))
  fields : ∀ k v, Field d' k v → k = c!"fileName" ∨ k = c!"color" ∨ ∃ i, (k, i) ∈ transformation

/-- The fields that hold numbers are printed as numbers. -/
def PrintableFields (numbers : List Str) (d : List (PyVal × PyVal)) : Prop := ∀ k ∈ numbers, ∀ v, Field d k v → Printable v

/-- What the data of a glyph other than its drawing need beyond being accepted by the writer: numbers that are printed as numbers,
dictionaries as Python has them (no key twice), a list of unicode values, and data a property list can hold. -/
structure Plain (lxml : Bool) (o : Obj) : Prop where
  width : PrintableOrNone (o.attr c!"width")
  height : PrintableOrNone (o.attr c!"height")
  unicodes : ∃ is, Integers (o.attr c!"unicodes") is
  image : DictKeys (o.attr c!"image")
  imageNumbers : ∀ d, o.attr c!"image" = .dict d → ∀ k i w, (k, i) ∈ transformation → (.str k, w) ∈ d → Printable w
  guidelines : ∀ e ∈ listItems (o.attr c!"guidelines"), DictKeys e
  guidelineNumbers : ∀ d, .dict d ∈ listItems (o.attr c!"guidelines") → PrintableFields [c!"x", c!"y", c!"angle"] d
  anchors : ∀ e ∈ listItems (o.attr c!"anchors"), DictKeys e
  anchorNumbers : ∀ d, .dict d ∈ listItems (o.attr c!"anchors") → PrintableFields [c!"x", c!"y"] d
  lib : Spec.Plist.WellFormed (o.attr c!"lib")
  libBytes : lxml = true ∨ Spec.Plist.NoBytes (o.attr c!"lib")

/-- What a drawing needs beyond being accepted by the writer: coordinates that are printed as numbers, and well-formed contours. -/
def Readable : Item → Prop
  | .contour _ ps => (∀ p ∈ ps, ∃ x y rest, IsSeq p.pt (x :: y :: rest) ∧ Printable x ∧ Printable y) ∧ GoodContour (ps.map fun p => fileType p.segmentType)
  | .component _ t _ => ∃ l, IsSeq t l ∧ ∀ v ∈ l, Printable v

/-! ### Format 1 -/

/-- A glyph object with what format 1 can hold: no image, no guidelines. -/
def format1 (o : Obj) : Obj := fun k => if k = c!"image" ∨ k = c!"guidelines" then none else o k

/-- No identifiers. -/
def NoIdentifiers : Item → Prop
  | .contour i ps => i = .none ∧ ∀ p ∈ ps, p.identifier = .none
  | .component _ _ i => i = .none

/-- The value of a field. -/
def fieldValue (d : List (PyVal × PyVal)) (k : Str) : PyVal := (Dict.get? d (.str k)).getD .none

/-- The contour of one point that stands for an anchor in format 1. -/
def marker : PyVal → Item
  | .dict d => .contour .none [⟨.tuple [fieldValue d c!"x", fieldValue d c!"y"], .str c!"move", .none, fieldValue d c!"name", .none⟩]
  | _ => .contour .none []

/-- The coordinates and the name of an anchor. -/
def anchorOf (x y : PyVal) (name : Str) : PyVal := .dict [(.str c!"x", x), (.str c!"y", y), (.str c!"name", .str name)]

/-- The anchor format 1 means by a part of a drawing: a contour of one `move` point that has a name is an anchor. -/
def asAnchor : Item → Option PyVal
  | .contour _ [⟨.tuple (x :: y :: _), .str t, _, .str n, _⟩] => if t = c!"move" then some (anchorOf x y n) else none
  | .contour _ [⟨.list (x :: y :: _), .str t, _, .str n, _⟩] => if t = c!"move" then some (anchorOf x y n) else none
  | _ => none


/-! ### Rapid fetching -/

mutual
/-- The tags of an element and of everything in it. -/
def allTags : Elem → List Str
  | .mk tag _ _ _ children => tag :: allTagsList children
/-- The tags in a list of elements. -/
def allTagsList : List Elem → List Str
  | [] => []
  | e :: es => allTags e ++ allTagsList es
end

/-- Deeper than the sections of the glyph there is no element called `glyph` or `outline`. -/
def NoNestedGlyph (tree : Elem) : Prop := ∀ c ∈ tree.children, ∀ t ∈ allTagsList c.children, t ≠ c!"glyph" ∧ t ≠ c!"outline"

/-- The base glyph of a component that is drawn. -/
def callBase : Call → List PyVal
  | .addComponent g _ _ => [g]
  | _ => []

/-! ### Files -/

mutual
/-- All strings in a value, at any depth. -/
def strings : PyVal → List Str
  | .str s => [s]
  | .list l => stringsList l
  | .tuple l => stringsList l
  | .dict d => stringsItems d
  | _ => []
def stringsList : List PyVal → List Str
  | [] => []
  | v :: l => strings v ++ stringsList l
def stringsItems : List (PyVal × PyVal) → List Str
  | [] => []
  | (k, v) :: l => strings k ++ strings v ++ stringsItems l
end

/-- The strings among the arguments of a call. -/
def callStrings : Call → List Str
  | .beginPath i => strings i
  | .addPoint pt t smooth name i => strings pt ++ strings t ++ strings smooth ++ strings name ++ strings i
  | .endPath => []
  | .addComponent g t i => strings g ++ strings t ++ strings i

/-- Strings that survive as the value of an attribute: XML text without CR and TAB. -/
def AttrText (s : Str) : Prop := Spec.Plist.FileText s ∧ '\t' ∉ s

/-- `repr()` gives text without control characters. -/
structure ReprLaws (E : Env) : Prop where
  lawful : E.F.Lawful
  other : ∀ v, AttrText (E.reprOther v)

/-- A glyph whose strings survive in a file: characters XML allows, no CR, and no TAB outside the note and the lib. -/
structure Legible (name : PyVal) (o : Obj) (draw : Option (List Call)) : Prop where
  name : ∀ s ∈ strings name, AttrText s
  image : ∀ s ∈ strings (o.attr c!"image"), AttrText s
  guidelines : ∀ s ∈ strings (o.attr c!"guidelines"), AttrText s
  anchors : ∀ s ∈ strings (o.attr c!"anchors"), AttrText s
  draw : ∀ calls, draw = some calls → ∀ c ∈ calls, ∀ s ∈ callStrings c, AttrText s
  note : ∀ s ∈ strings (o.attr c!"note"), Spec.Plist.FileText s
  lib : ∀ s ∈ strings (o.attr c!"lib"), Spec.Plist.FileText s

/-- Two lists of dictionaries with the same fields, `None` counting as absent. -/
def SameDicts : List PyVal → List PyVal → Prop := List.Forall₂ fun v w => ∃ d d', v = .dict d ∧ w = .dict d' ∧ SameFields d d'

/-- What is read is what was written: `attrs` are the attributes set by the reader. Unicode values are listed once, in the order of their first
occurrence; a missing width or height counts as 0; a note is reduced to its lines that are not blank, without the white space around them;
the transformation of an image is complete; tuples in the lib have become lists. -/
structure SameGlyph (name : PyVal) (o : Obj) (attrs : Dict Str PyVal) : Prop where
  name : delivered attrs c!"name" = name
  unicodes : ∀ is, Integers (o.attr c!"unicodes") is → delivered attrs c!"unicodes" = if is = [] then .none else .list ((firsts is).map fun i => .int i)
  width : SameNumber (.int 0) (orZero (o.attr c!"width")) (orZero (delivered attrs c!"width"))
  height : SameNumber (.int 0) (orZero (o.attr c!"height")) (orZero (delivered attrs c!"height"))
  note : ∀ lines, NoteLines (noteText (o.attr c!"note")) lines → noteText (delivered attrs c!"note") = join ['\n'] lines
  image : (truthy (o.attr c!"image") = false ∧ delivered attrs c!"image" = .none) ∨
    ∃ d d', o.attr c!"image" = .dict d ∧ delivered attrs c!"image" = .dict d' ∧ SameImage d d'
  guidelines : SameDicts (listItems (o.attr c!"guidelines")) (listItems (delivered attrs c!"guidelines"))
  anchors : SameDicts (listItems (o.attr c!"anchors")) (listItems (delivered attrs c!"anchors"))
  lib : (truthy (o.attr c!"lib") = false ∧ delivered attrs c!"lib" = .none) ∨
    Spec.Plist.Same (Spec.Plist.untuple (o.attr c!"lib")) (delivered attrs c!"lib")

end Verif.Spec.Glif
