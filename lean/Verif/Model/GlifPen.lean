import Verif.Model.GlifReader
/-! Model of the reading half of `Lib/ufoLib/glifLib.py` with its effects in their order: what has been set on the glyph object and what
has been called on the pen at every moment, also when the reading fails in the middle. `Model/GlifReader.lean` gives the same functions
without effects (everything or an exception).

The pen is any object: its methods can raise at any time and need not accept the keyword `identifier`. The glyph object takes the
attributes in `accepts`; setting another one raises `AttributeError`, which `_relaxedSetattr` ignores. Not modelled: warnings turned into
exceptions, glyph objects raising other exceptions. -/
namespace Verif.GlifPen
open Verif Verif.Validators Verif.Glif

/-- A call on a pen as the reader makes it. The identifier is `none` when the keyword is not given. -/
inductive Sent where
  | beginPath (identifier : Option PyVal)
  | addPoint (pt segmentType smooth name : PyVal) (identifier : Option PyVal)
  | endPath
  | addComponent (glyphName transformation : PyVal) (identifier : Option PyVal)
  deriving DecidableEq, Repr

/-- A pen: what a call does to its state, and whether it raises. -/
abbrev AnyPen (σ : Type) := σ → Sent → σ × Option Exc

/-- What has happened so far: the attributes set on the glyph object and the state of the pen. -/
structure Effects (σ : Type) where
  attrs : Dict Str PyVal
  pen : σ

/-- A piece of Python: it has effects and returns a value or raises. -/
abbrev Run (σ α : Type) := Effects σ → Effects σ × Except Exc α

/-- `return a`. -/
def done {σ α : Type} (a : α) : Run σ α := fun f => (f, .ok a)

/-- `raise x`. -/
def fail {σ α : Type} (x : Exc) : Run σ α := fun f => (f, .error x)

/-- A function without effects. -/
def pure_ {σ α : Type} (r : Except Exc α) : Run σ α := fun f => (f, r)

/-- One piece after the other. -/
def andThen {σ α β : Type} (m : Run σ α) (k : α → Run σ β) : Run σ β := fun f =>
  match m f with
  | (f, .error x) => (f, .error x)
  | (f, .ok a) => k a f

/-- `if b: raise GlifLibError`. -/
def refuse {σ : Type} (b : Bool) : Run σ Unit := if b then fail .glifLibError else done ()

/-- A call of the pen. -/
def say {σ : Type} (P : AnyPen σ) (c : Sent) : Run σ Unit := fun f =>
  match P f.pen c with
  | (s, none) => (⟨f.attrs, s⟩, .ok ())
  | (s, some x) => (⟨f.attrs, s⟩, .error x)

/-- `try: pen.method(..., identifier=identifier) except TypeError: pen.method(...)`, glifLib.py 1193-1197, 1218-1222, 1250-1254. -/
def offer {σ : Type} (P : AnyPen σ) (new old : Sent) : Run σ Unit := fun f =>
  match P f.pen new with
  | (s, none) => (⟨f.attrs, s⟩, .ok ())
  | (s, some x) => if x = .typeError then say P old ⟨f.attrs, s⟩ else (⟨f.attrs, s⟩, .error x)

/-- `_relaxedSetattr`, glifLib.py 1357-1361. -/
def setattr {σ : Type} (accepts : Str → Bool) (name : Str) (value : PyVal) : Run σ Unit := fun f =>
  (if accepts name then ⟨Dict.set f.attrs name value, f.pen⟩ else f, .ok ())

/-! ### Outlines -/

/-- `_buildOutlinePointsFormat1`, glifLib.py 1140-1147. -/
def points1 {σ : Type} (P : AnyPen σ) : List MPoint → Run σ Unit
  | [] => done ()
  | p :: ps => andThen (say P (.addPoint (.tuple [p.x, p.y]) (orNone p.seg) (.bool p.smooth) (orNone p.name) none)) fun _ => points1 P ps

/-- `_buildOutlineContourFormat1`, glifLib.py 1131-1138: `beginPath` is called before the points are looked at. -/
def contour1 {σ : Type} (E : Env) (P : AnyPen σ) (validate : Bool) (e : Elem) : Run σ Unit :=
  andThen (refuse (validate && !e.attrib.isEmpty)) fun _ =>
  andThen (say P (.beginPath none)) fun _ =>
  andThen (pure_ (massage E validate 1 e.children)) fun ps =>
  andThen (points1 P ps) fun _ =>
  say P .endPath

/-- The checks and the transformation of a component element, glifLib.py 1150-1166, 1225-1238. -/
def componentHead {σ : Type} (E : Env) (validate : Bool) (fv : Nat) (e : Elem) : Run σ (List PyVal) :=
  andThen (refuse (validate && !e.children.isEmpty)) fun _ =>
  andThen (refuse (validate && !(Dict.keys e.attrib).all fun a => decide (a ∈ componentAttributes fv))) fun _ =>
  andThen (refuse (validate && (Dict.get? e.attrib c!"base").isNone)) fun _ =>
  pure_ (readTransformation E.F e.attrib transformationInfo)

/-- `_buildOutlineComponentFormat1`, glifLib.py 1149-1167. -/
def component1 {σ : Type} (E : Env) (P : AnyPen σ) (validate : Bool) (e : Elem) : Run σ Unit :=
  andThen (componentHead E validate 1 e) fun t => say P (.addComponent (orNone (Dict.get? e.attrib c!"base")) (.tuple t) none)

/-- One element of the loop of `buildOutlineFormat1`, glifLib.py 1093-1107: the anchors it stands for. -/
def item1 {σ : Type} (E : Env) (P : AnyPen σ) (validate hasPen : Bool) (e : Elem) : Run σ (List PyVal) :=
  if e.tag = c!"contour" then
    andThen (pure_ (contourAnchor1 E validate e)) fun a =>
    match a with
    | some a => done [a]
    | none => if hasPen then andThen (contour1 E P validate e) fun _ => done [] else done []
  else if e.tag = c!"component" then
    if hasPen then andThen (component1 E P validate e) fun _ => done [] else done []
  else fail .glifLibError

/-- The loop of `buildOutlineFormat1`, glifLib.py 1091-1107. -/
def outline1 {σ : Type} (E : Env) (P : AnyPen σ) (validate hasPen : Bool) : List Elem → Run σ (List PyVal)
  | [] => done []
  | e :: es =>
    andThen (item1 E P validate hasPen e) fun as =>
    andThen (outline1 E P validate hasPen es) fun as' => done (as ++ as')

/-- `_buildOutlinePointsFormat2`, glifLib.py 1203-1222: the identifiers afterwards. -/
def points2 {σ : Type} (P : AnyPen σ) (validate : Bool) (ids : List Str) : List MPoint → Run σ (List Str)
  | [] => done ids
  | p :: ps =>
    andThen (pure_ (readIdentifier validate ids p.identifier)) fun ids =>
    andThen (offer P (.addPoint (.tuple [p.x, p.y]) (orNone p.seg) (.bool p.smooth) (orNone p.name) (some (orNone p.identifier)))
      (.addPoint (.tuple [p.x, p.y]) (orNone p.seg) (.bool p.smooth) (orNone p.name) none)) fun _ =>
    points2 P validate ids ps

/-- `_buildOutlineContourFormat2`, glifLib.py 1180-1201. -/
def contour2 {σ : Type} (E : Env) (P : AnyPen σ) (validate : Bool) (ids : List Str) (e : Elem) : Run σ (List Str) :=
  andThen (refuse (validate && !(Dict.keys e.attrib).all fun a => decide (a = c!"identifier"))) fun _ =>
  andThen (pure_ (readIdentifier validate ids (Dict.get? e.attrib c!"identifier"))) fun ids =>
  andThen (offer P (.beginPath (some (orNone (Dict.get? e.attrib c!"identifier")))) (.beginPath none)) fun _ =>
  andThen (pure_ (massage E validate 2 e.children)) fun ps =>
  andThen (points2 P validate ids ps) fun ids =>
  andThen (say P .endPath) fun _ => done ids

/-- `_buildOutlineComponentFormat2`, glifLib.py 1224-1254. -/
def component2 {σ : Type} (E : Env) (P : AnyPen σ) (validate : Bool) (ids : List Str) (e : Elem) : Run σ (List Str) :=
  andThen (componentHead E validate 2 e) fun t =>
  andThen (pure_ (readIdentifier validate ids (Dict.get? e.attrib c!"identifier"))) fun ids =>
  andThen (offer P (.addComponent (orNone (Dict.get? e.attrib c!"base")) (.tuple t) (some (orNone (Dict.get? e.attrib c!"identifier"))))
    (.addComponent (orNone (Dict.get? e.attrib c!"base")) (.tuple t) none)) fun _ =>
  done ids

/-- One element of the loop of `buildOutlineFormat2`, glifLib.py 1173-1178. -/
def item2 {σ : Type} (E : Env) (P : AnyPen σ) (validate : Bool) (ids : List Str) (e : Elem) : Run σ (List Str) :=
  if e.tag = c!"contour" then contour2 E P validate ids e
  else if e.tag = c!"component" then component2 E P validate ids e
  else fail .glifLibError

/-- `buildOutlineFormat2`, glifLib.py 1171-1178. -/
def outline2 {σ : Type} (E : Env) (P : AnyPen σ) (validate : Bool) (ids : List Str) : List Elem → Run σ (List Str)
  | [] => done ids
  | e :: es => andThen (item2 E P validate ids e) fun ids => outline2 E P validate ids es

/-! ### The glyph -/

/-- The local variables of the loop over the elements, glifLib.py 909-911, 957-962. -/
structure Locals where
  identifiers : List Str
  unicodes : List Int
  guidelines : List PyVal
  anchors : List PyVal
  seen : List Str

/-- Everything that stays the same during a reading: the attributes the glyph object takes and the arguments. -/
structure Setting where
  E : Env
  accepts : Str → Bool
  validate : Bool
  hasObj : Bool
  hasPen : Bool
  fv : Nat

/-- `haveSeen...` is tested and set. -/
def once {σ : Type} (validate : Bool) (l : Locals) (tag : Str) : Run σ Locals :=
  andThen (refuse (validate && decide (tag ∈ l.seen))) fun _ => done { l with seen := l.seen ++ [tag] }

/-- The end of `buildOutlineFormat1`, glifLib.py 1108-1111. -/
def anchorsEnd1 {σ : Type} (S : Setting) (anchors : List PyVal) : Run σ Unit :=
  if S.hasObj && !anchors.isEmpty then
    andThen (refuse (S.validate && !(anchorsValidator S.E.F [] (.list anchors)).1)) fun _ => setattr S.accepts c!"anchors" (.list anchors)
  else done ()

/-- The outline element, glifLib.py 913-922, 963-974. -/
def outlineElem {σ : Type} (S : Setting) (P : AnyPen σ) (l : Locals) (e : Elem) : Run σ Locals :=
  andThen (once S.validate l c!"outline") fun l =>
  andThen (refuse (S.validate && !outlineOk e)) fun _ =>
  if S.fv = 1 then
    andThen (outline1 S.E P S.validate S.hasPen e.children) fun anchors => andThen (anchorsEnd1 S anchors) fun _ => done l
  else if S.hasPen then
    andThen (outline2 S.E P S.validate l.identifiers e.children) fun ids => done { l with identifiers := ids }
  else done l

/-- The advance element, glifLib.py 925-929, 977-981, and `_readAdvance`, 1047-1051: the width is set before the height is read. -/
def advanceElem {σ : Type} (S : Setting) (l : Locals) (e : Elem) : Run σ Locals :=
  andThen (once S.validate l c!"advance") fun l =>
  andThen (pure_ (numberOr S.E.F (.int 0) (Dict.get? e.attrib c!"width"))) fun w =>
  andThen (setattr S.accepts c!"width" w) fun _ =>
  andThen (pure_ (numberOr S.E.F (.int 0) (Dict.get? e.attrib c!"height"))) fun h =>
  andThen (setattr S.accepts c!"height" h) fun _ => done l

/-- A unicode element, glifLib.py 930-937, 982-989. -/
def unicodeElem {σ : Type} (l : Locals) (e : Elem) : Run σ Locals :=
  andThen (pure_ (readHex e)) fun i => done (if i ∈ l.unicodes then l else { l with unicodes := l.unicodes ++ [i] })

/-- The note element, glifLib.py 938-942, 1014-1018. -/
def noteElem {σ : Type} (S : Setting) (l : Locals) (e : Elem) : Run σ Locals :=
  andThen (once S.validate l c!"note") fun l =>
  andThen (pure_ (readNote e)) fun t =>
  andThen (setattr S.accepts c!"note" (.str t)) fun _ => done l

/-- The lib element, glifLib.py 943-947, 1019-1023. -/
def libElem {σ : Type} (S : Setting) (l : Locals) (e : Elem) : Run σ Locals :=
  andThen (once S.validate l c!"lib") fun l =>
  andThen (pure_ (readLib S.E S.validate e)) fun v =>
  andThen (setattr S.accepts c!"lib" v) fun _ => done l

/-- The image element, glifLib.py 1006-1013. -/
def imageElem {σ : Type} (S : Setting) (l : Locals) (e : Elem) : Run σ Locals :=
  andThen (once S.validate l c!"image") fun l =>
  andThen (refuse (S.validate && !e.children.isEmpty)) fun _ =>
  andThen (pure_ (readImage S.E S.validate e)) fun v =>
  andThen (setattr S.accepts c!"image" v) fun _ => done l

/-- A guideline element, glifLib.py 990-997. -/
def guidelineElem {σ : Type} (S : Setting) (l : Locals) (e : Elem) : Run σ Locals :=
  andThen (refuse (S.validate && !e.children.isEmpty)) fun _ =>
  andThen (pure_ (readEntry S.E.F [c!"x", c!"y", c!"angle"] e.attrib)) fun d =>
  done { l with guidelines := l.guidelines ++ [.dict d] }

/-- An anchor element, glifLib.py 998-1005. -/
def anchorElem {σ : Type} (S : Setting) (l : Locals) (e : Elem) : Run σ Locals :=
  andThen (refuse (S.validate && !e.children.isEmpty)) fun _ =>
  andThen (pure_ (readEntry S.E.F [c!"x", c!"y"] e.attrib)) fun d =>
  done { l with anchors := l.anchors ++ [.dict d] }

/-- One element of the glyph, glifLib.py 912-949 (format 1) and 963-1025 (format 2). -/
def child {σ : Type} (S : Setting) (P : AnyPen σ) (l : Locals) (e : Elem) : Run σ Locals :=
  if e.tag = c!"outline" then outlineElem S P l e
  else if !S.hasObj then done l
  else if e.tag = c!"advance" then advanceElem S l e
  else if e.tag = c!"unicode" then unicodeElem l e
  else if e.tag = c!"note" then noteElem S l e
  else if e.tag = c!"lib" then libElem S l e
  else if S.fv ≠ 1 ∧ e.tag = c!"guideline" then guidelineElem S l e
  else if S.fv ≠ 1 ∧ e.tag = c!"anchor" then anchorElem S l e
  else if S.fv ≠ 1 ∧ e.tag = c!"image" then imageElem S l e
  else fail .glifLibError

/-- All elements. -/
def childrenLoop {σ : Type} (S : Setting) (P : AnyPen σ) (l : Locals) : List Elem → Run σ Locals
  | [] => done l
  | e :: es => andThen (child S P l e) fun l => childrenLoop S P l es

/-- `if list: if validate and not validator(...): raise ...; setattr(...)`: the identifiers afterwards. -/
def listEnd {σ : Type} (S : Setting) (ids : List Str) (name : Str) (list : List PyVal) (verdict : Bool × List Str) : Run σ (List Str) :=
  if list.isEmpty then done ids
  else andThen (refuse (S.validate && !verdict.1)) fun _ => andThen (setattr S.accepts name (.list list)) fun _ => done verdict.2

/-- The end of `_readGlyphFromTreeFormat1`, glifLib.py 950-952, and `...Format2`, 1026-1038. -/
def finish {σ : Type} (S : Setting) (l : Locals) : Run σ Unit :=
  andThen (if l.unicodes.isEmpty then done () else setattr S.accepts c!"unicodes" (.list (l.unicodes.map fun i => .int i))) fun _ =>
  andThen (listEnd S l.identifiers c!"guidelines" l.guidelines (guidelinesValidator S.E.F l.identifiers (.list l.guidelines))) fun ids =>
  andThen (listEnd S ids c!"anchors" l.anchors (anchorsValidator S.E.F ids (.list l.anchors))) fun _ => done ()

/-- `_readName`, glifLib.py 1040-1045. -/
def nameStart {σ : Type} (S : Setting) (tree : Elem) : Run σ Unit :=
  match Dict.get? tree.attrib c!"name" with
  | some (c :: cs) => if S.hasObj then setattr S.accepts c!"name" (.str (c :: cs)) else done ()
  | _ => refuse S.validate

/-- `_readGlyphFromTreeFormat1`, glifLib.py 906-952, and `_readGlyphFromTreeFormat2`, 954-1038. -/
def readFormat {σ : Type} (S : Setting) (P : AnyPen σ) (tree : Elem) : Run σ Unit :=
  andThen (nameStart S tree) fun _ =>
  andThen (childrenLoop S P ⟨[], [], [], [], []⟩ tree.children) fun l =>
  finish S l

/-- `_glifTreeFromString`, glifLib.py 877-884, on the parsed tree, followed by `_readGlyphFromTree`, 886-903. -/
def readOnto {σ : Type} (E : Env) (P : AnyPen σ) (accepts : Str → Bool) (validate hasObj hasPen : Bool) (formatVersions : List Int)
    (tree : Elem) : Run σ Unit :=
  if tree.tag ≠ c!"glyph" then fail .glifLibError
  else if !textBlank tree.text then fail .glifLibError
  else match Dict.get? tree.attrib c!"format" with
    | none => fail (if validate then .glifLibError else .typeError)
    | some s => match pyInt s with
      | none => fail .glifLibError
      | some v =>
        if validate && !decide (v ∈ formatVersions) then fail .glifLibError
        else if v = 1 then readFormat ⟨E, accepts, validate, hasObj, hasPen, 1⟩ P tree
        else if v = 2 then readFormat ⟨E, accepts, validate, hasObj, hasPen, 2⟩ P tree
        else fail .glifLibError

end Verif.GlifPen
