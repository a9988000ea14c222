import Verif.Model.Ufo
/-! Layer info: `readLayerInfo` and `writeLayerInfo` of `GlyphSet`, `glifLib.py` 231-279 and 810-862. -/
namespace Verif.GlyphSet
open Verif Verif.IO Verif.Validators

/-- `LAYERINFO_FILENAME`, glifLib.py 53. -/
def layerinfoName : Str := c!"layerinfo.plist"

/-- The keys of `layerInfoVersion3ValueData`, glifLib.py 814-817. -/
def layerInfoAttrs : List Str := [c!"color", c!"lib"]

/-- `isinstance(v, dict)`. -/
def isDict : PyVal → Bool
  | .dict _ => true
  | _ => false

/-- `validateLayerInfoVersion3ValueForAttribute`, glifLib.py 819-843. -/
def layerInfoValid (F : FloatCodec) (attr : Str) (v : PyVal) : Bool :=
  if attr = c!"color" then colorValidator F v
  else if attr = c!"lib" then isDict v
  else false

/-- `validateLayerInfoVersion3Data`, glifLib.py 845-862. -/
def validateLayerInfo (F : FloatCodec) : List (PyVal × PyVal) → Except Exc Unit
  | [] => .ok ()
  | (.str attr, v) :: rest =>
    if !layerInfoAttrs.contains attr then .error .glifLibError
    else if !layerInfoValid F attr v then .error .glifLibError
    else validateLayerInfo F rest
  | _ :: _ => .error .glifLibError

/-- `readLayerInfo`, glifLib.py 233-251: the attributes set on the info object, with their values. The object is taken to accept every
attribute. -/
def readLayerInfo (F : FloatCodec) (w : World) (validate : Bool) : Except Exc (List (PyVal × PyVal)) :=
  match getPlist F w.2 (w.1.dir ++ [layerinfoName]) (some (.dict [])) with
  | .error e => .error e
  | .ok (.dict d) => if validate then (validateLayerInfo F d).map fun _ => d else .ok d
  | .ok _ => .error (if validate then .glifLibError else .attributeError)

/-- The gathering loop of `writeLayerInfo`, glifLib.py 262-270. `info` gives the attributes of the object. -/
def gatherLayerInfo (info : Str → Option PyVal) : List Str → List (PyVal × PyVal)
  | [] => []
  | attr :: rest => match info attr with
    | none => gatherLayerInfo info rest
    | some v =>
      if v = .none ∨ (attr = c!"lib" ∧ Ufo.truthy v = false) then gatherLayerInfo info rest
      else (.str attr, v) :: gatherLayerInfo info rest

/-- The end of `writeLayerInfo`, glifLib.py 271-279. -/
def storeLayerInfo (F : FloatCodec) (w : World) (data : List (PyVal × PyVal)) (validate : Bool) : World × Except Exc Unit :=
  if !data.isEmpty then
    match (if validate then validateLayerInfo F data else .ok ()) with
    | .error e => (w, .error e)
    | .ok _ =>
      let r := writePlist F w.1.havePrevious w.2 (w.1.dir ++ [layerinfoName]) (.dict data)
      ((w.1, r.1), r.2)
  else if w.1.havePrevious && w.2.exists (w.1.dir ++ [layerinfoName]) then
    match w.2.remove (w.1.dir ++ [layerinfoName]) with
    | .error e => (w, .error e)
    | .ok fs => ((w.1, fs), .ok ())
  else (w, .ok ())

/-- `writeLayerInfo`, glifLib.py 253-279. -/
def writeLayerInfo (F : FloatCodec) (w : World) (info : Str → Option PyVal) (validate : Bool) : World × Except Exc Unit :=
  if w.1.version < 3 then (w, .error .glifLibError)
  else storeLayerInfo F w (gatherLayerInfo info layerInfoAttrs) validate

/-- The calls on a glyph set that change something: those of `Op`, and `writeLayerInfo`. -/
inductive SetCall where
  | glyphs (op : Op)
  | layerInfo (info : Str → Option PyVal) (validate : Bool)

/-- One call: the state afterwards (also when it raises) and the outcome. -/
def setStep (L : Casing) (F : FloatCodec) (w : World) : SetCall → World × Except Exc Unit
  | .glyphs op => step L F w op
  | .layerInfo info validate => writeLayerInfo F w info validate

/-- A history of calls, each made whether or not the earlier ones raised: the state afterwards and the outcomes. -/
def setRun (L : Casing) (F : FloatCodec) (w : World) : List SetCall → World × List (Except Exc Unit)
  | [] => (w, [])
  | c :: cs =>
    let r := setStep L F w c
    let t := setRun L F r.1 cs
    (t.1, r.2 :: t.2)

end Verif.GlyphSet
