import Verif.Model.GlyphTable
import Verif.Model.GlifReader
import Verif.Model.LayerInfo
import Verif.Model.UfoHistory
/-! Reading into an object that is given: `readInfo` (`__init__.py` 460-508), `readLayerInfo` (`glifLib.py` 233-251) and `readGlyph` (`glifLib.py` 314-358). The object may have attributes
already, and may refuse to have some set (`AttributeError`). -/
namespace Verif.ReadInto
open Verif Verif.Glif

/-- An object: its attributes, and the names of those that can be set. -/
structure Target where
  attrs : Obj
  accepts : Str → Bool

/-- `setattr(object, name, value)`; none: `AttributeError`. -/
def Target.set (t : Target) (k : Str) (v : PyVal) : Option Target :=
  if t.accepts k then some { t with attrs := fun k' => if k' = k then some v else t.attrs k' } else none

/-- The loop at the end of `readInfo`, `__init__.py` 504-508. -/
def populate : Target → Dict Str PyVal → Target × Except Exc Unit
  | t, [] => (t, .ok ())
  | t, (k, v) :: d => match t.set k v with
    | none => (t, .error .ufoLibError)
    | some t' => populate t' d

/-- `readInfo`, `__init__.py` 460-508, with the object. -/
def readInfoInto (E : FontInfo.Env) (fs : FS) (version : Int) (validate : Bool) (t : Target) : Target × Except Exc Unit :=
  match Ufo.readInfo E fs version validate with
  | .error e => (t, .error e)
  | .ok data => populate t data

/-- The loop at the end of `readLayerInfo`, glifLib.py 245-249. Names of attributes must be strings. -/
def populateLayer : Target → List (PyVal × PyVal) → Target × Except Exc Unit
  | t, [] => (t, .ok ())
  | t, (.str k, v) :: d => match t.set k v with
    | none => (t, .error .glifLibError)
    | some t' => populateLayer t' d
  | t, _ :: _ => (t, .error .typeError)

/-- `readLayerInfo`, glifLib.py 233-251, with the object. -/
def readLayerInfoInto (F : FloatCodec) (w : GlyphSet.World) (validate : Bool) (t : Target) : Target × Except Exc Unit :=
  match GlyphSet.readLayerInfo F w validate with
  | .error e => (t, .error e)
  | .ok data => populateLayer t data

/-- The attributes set when an element raises, glifLib.py 912-948 and 962-1026: those set by the elements before, and the width if the height raises (1047-1051). -/
def childSets (E : Glif.Env) (validate : Bool) (s : Collected) (e : Elem) : Dict Str PyVal :=
  if e.tag = c!"advance" then match s.once validate c!"advance" with
    | .error _ => s.attrs
    | .ok s => match numberOr E.F (.int 0) (Dict.get? e.attrib c!"width") with
      | .error _ => s.attrs
      | .ok w => Dict.set s.attrs c!"width" w
  else s.attrs

/-- All elements, with the attributes that are set at the end or when one raises. -/
def childrenInto (E : Glif.Env) (validate : Bool) (fv : Nat) (s : Collected) : List Elem → Dict Str PyVal × Except Exc Collected
  | [] => (s.attrs, .ok s)
  | e :: es => match readChild E validate true true fv s e with
    | .error x => (childSets E validate s e, .error x)
    | .ok s => childrenInto E validate fv s es

/-- The end, glifLib.py 949-952 and 1027-1038. -/
def finishInto (E : Glif.Env) (validate : Bool) (s : Collected) : Dict Str PyVal × Except Exc Collected :=
  let s := if s.unicodes.isEmpty then s else s.setAttr c!"unicodes" (.list (s.unicodes.map fun i => .int i))
  match s.setList validate c!"guidelines" s.guidelines (Validators.guidelinesValidator E.F s.identifiers (.list s.guidelines)) with
  | .error x => (s.attrs, .error x)
  | .ok s => match s.setList validate c!"anchors" s.anchors (Validators.anchorsValidator E.F s.identifiers (.list s.anchors)) with
    | .error x => (s.attrs, .error x)
    | .ok s => (s.attrs, .ok s)

/-- `_readGlyphFromTreeFormat1` and `...Format2`, glifLib.py 906-1038. -/
def formatInto (E : Glif.Env) (validate : Bool) (fv : Nat) (tree : Elem) : Dict Str PyVal × Except Exc (List Call) :=
  match readName validate true tree with
  | .error x => ([], .error x)
  | .ok attrs => match childrenInto E validate fv ⟨attrs, [], [], [], [], [], []⟩ tree.children with
    | (d, .error x) => (d, .error x)
    | (_, .ok s) => match finishInto E validate s with
      | (d, .error x) => (d, .error x)
      | (d, .ok s) => (d, .ok s.calls)

/-- `_glifTreeFromString` and `_readGlyphFromTree`, glifLib.py 877-903. -/
def treeInto (E : Glif.Env) (validate : Bool) (formatVersions : List Int) (tree : Elem) : Dict Str PyVal × Except Exc (List Call) :=
  if tree.tag ≠ c!"glyph" then ([], .error .glifLibError)
  else if !textBlank tree.text then ([], .error .glifLibError)
  else match Dict.get? tree.attrib c!"format" with
    | none => ([], .error (if validate then .glifLibError else .typeError))
    | some s => match pyInt s with
      | none => ([], .error .glifLibError)
      | some v =>
        if validate && !decide (v ∈ formatVersions) then ([], .error .glifLibError)
        else if v = 1 then formatInto E validate 1 tree
        else if v = 2 then formatInto E validate 2 tree
        else ([], .error .glifLibError)

/-- The object after attributes were set with `_relaxedSetattr`, glifLib.py 1357-1361: what it refuses is left out. -/
def Target.relaxed (t : Target) (d : Dict Str PyVal) : Target :=
  { t with attrs := fun k => if t.accepts k then match Dict.get? d k with
      | some v => some v
      | none => t.attrs k
    else t.attrs k }

/-- `readGlyph`, glifLib.py 314-358, with the object; the calls made on the pen when nothing is raised. -/
def readGlyphInto (E : Glif.Env) (w : GlyphSet.World) (name : Str) (validate : Bool) (t : Target) : Target × Except Exc (List Call) :=
  match GlyphSet.getGLIF w name with
  | .error e => (t, .error e)
  | .ok b => match GlyphSet.glifTree b with
    | .error e => (t, .error e)
    | .ok tree =>
      let r := treeInto E validate (if w.1.version < 3 then [1] else [1, 2]) tree
      (t.relaxed r.1, r.2)

end Verif.ReadInto
