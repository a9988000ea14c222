import Verif.Model.KerningReader
import Verif.Model.GlyphSet
/-! Callers that change what they were given. For UFO 1 and 2 `UFOReader.readGroups` and `getKerningGroupConversionRenameMaps` return the objects the reader keeps
(`__init__.py` 416, 424 and 450), `readKerning` makes a new dictionary each time (536-542); `GlyphSet.getReverseContents` returns its cache (`glifLib.py` 221). So a caller that
changes such a result in place changes what the object keeps. Simplification: a changed dictionary still has names as its keys and values of the kind it had. -/
namespace Verif.Aliases
open Verif Verif.Kerning Verif.Converters Verif.KerningReader

/-- `_upConvertedKerningData`, `__init__.py` 332-337 and 344-346, with its objects. `maps` is missing while the conversion has not succeeded. -/
structure Objects where
  originalKerning : PyVal
  originalGroups : PyVal
  kerning : Dict Str (Dict Str PyVal)
  groups : Dict Str (List Str)
  maps : Option (Dict Str Str × Dict Str Str)

/-- What is stored, `__init__.py` 332-346, when the conversion raises (`none`) or succeeds. -/
def stored (k g : PyVal) : Option (Converted PyVal) → Objects
  | none => ⟨k, g, [], [], none⟩
  | some r => ⟨k, g, r.kerning, r.groups, some (r.side1, r.side2)⟩

/-- `_upConvertKerning`, `__init__.py` 301-346, cf. `KerningReader.upConvert`. -/
def upConvert (conv : PyVal → PyVal → Except Exc (Converted PyVal)) (c : Call) (cache : Option Objects) : Except Exc Objects × Option Objects :=
  match cache with
  | some d =>
    match c.kerningFile with
    | .error e => (.error e, cache)
    | .ok k =>
      if !PyVal.pyEq k d.originalKerning then (.error .ufoLibError, cache)
      else match c.groupsFile with
        | .error e => (.error e, cache)
        | .ok g =>
          if !PyVal.pyEq g d.originalGroups then (.error .ufoLibError, cache)
          else (.ok d, cache)
  | none =>
    match c.groupsFile with
    | .error e => (.error e, none)
    | .ok g =>
      if c.validate && (checkedGroups g).isNone then (.error .ufoLibError, none)
      else match c.kerningFile with
        | .error e => (.error e, none)
        | .ok k =>
          match conv k g with
          | .error e => (.error e, some (stored k g none))
          | .ok r => (.ok (stored k g (some r)), some (stored k g (some r)))

/-- What the three readers return: `__init__.py` 416-424, 527-542, 446-450. -/
def deliver (c : Call) (d : Objects) : Except Exc Ret :=
  match c.kind with
  | .groups => if c.validate && !groupsValidator (groupsVal d.groups) then .error .ufoLibError else .ok (.groups d.groups)
  | .kerning => if c.validate && !validKerning d.kerning then .error .ufoLibError else .ok (.kerning (flatten d.kerning))
  | .maps =>
    if c.validate && !groupsValidator (groupsVal d.groups) then .error .ufoLibError
    else match d.maps with
      | some m => .ok (.maps m.1 m.2)
      | none => .error .keyError

/-- A reader, and whether its caller has been given the groups and the maps it keeps. -/
structure Reader where
  cache : Option Objects
  groupsGiven : Bool
  mapsGiven : Bool

/-- A reader just opened. -/
def fresh : Reader := ⟨none, false, false⟩

/-- What can happen: a call, or the caller changes in some way the groups, the maps or a kerning it was given. -/
inductive Event where
  | call (c : Call)
  | changeGroups (f : Dict Str (List Str) → Dict Str (List Str))
  | changeMaps (f : Dict Str Str × Dict Str Str → Dict Str Str × Dict Str Str)
  | changeKerning (f : Dict (Str × Str) PyVal → Dict (Str × Str) PyVal)

/-- A call on a reader, with its outcome. -/
def call (conv : PyVal → PyVal → Except Exc (Converted PyVal)) (r : Reader) (c : Call) : Reader × Except Exc Ret :=
  match upConvert conv c r.cache with
  | (.error e, cache) => ({ r with cache := cache }, .error e)
  | (.ok d, cache) => match deliver c d with
    | .error e => ({ r with cache := cache }, .error e)
    | .ok v => (⟨cache, r.groupsGiven || c.kind == .groups, r.mapsGiven || c.kind == .maps⟩, .ok v)

/-- The caller changes what it was given; without having been given it, nothing happens. The dictionary `readKerning` returns is the caller's own. -/
def change (r : Reader) : Event → Reader
  | .changeGroups f => if r.groupsGiven then { r with cache := r.cache.map fun d => { d with groups := f d.groups } } else r
  | .changeMaps f => if r.mapsGiven then { r with cache := r.cache.map fun d => { d with maps := d.maps.map f } } else r
  | _ => r

/-- The outcomes of the calls. -/
def outcomes (conv : PyVal → PyVal → Except Exc (Converted PyVal)) (r : Reader) : List Event → List (Call × Except Exc Ret)
  | [] => []
  | .call c :: es => (c, (call conv r c).2) :: outcomes conv (call conv r c).1 es
  | e :: es => outcomes conv (change r e) es

/-! ### glyph sets -/

/-- A call on a glyph set, or the caller changes the dictionary `getReverseContents` returned, `glifLib.py` 207-221. -/
inductive GlyphEvent where
  | call (op : GlyphSet.Op)
  | change (f : Dict Str Str → Dict Str Str)

/-- One of these. -/
def glyphEvent (L : Casing) (F : FloatCodec) (w : GlyphSet.World) : GlyphEvent → GlyphSet.World
  | .call op => (GlyphSet.step L F w op).1
  | .change f => ({ w.1 with reverse := w.1.reverse.map f }, w.2)

/-- One after the other. -/
def glyphEvents (L : Casing) (F : FloatCodec) (w : GlyphSet.World) : List GlyphEvent → GlyphSet.World
  | [] => w
  | e :: es => glyphEvents L F (glyphEvent L F w e) es

end Verif.Aliases
