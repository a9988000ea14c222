import Verif.Py.Eq
import Verif.Py.Num
import Verif.Model.Plist
/-! Model of `Lib/ufoLib/validators.py` (`groupsValidator` is in `Verif/Model/Kerning.lean`, `pngValidator` in
`Verif/Model/Images.lean`). Values are Python 3 values: `basestring` is `str`, `integerTypes` is `int`,
`numberTypes` is `int` and `float`; `bool` is a subclass of `int`. Mappings other than `dict` are not modelled.
Messages of the two-valued verdicts are not modelled. -/
namespace Verif.Validators
open Verif

/-- `isinstance(v, int)`: bool is a subclass of int. -/
def isInt : PyVal → Bool
  | .int _ => true
  | .bool _ => true
  | _ => false

/-- `isinstance(v, (int, float))`. -/
def isNumber : PyVal → Bool
  | .int _ => true
  | .bool _ => true
  | .float _ => true
  | _ => false

/-- `isinstance(v, basestring)`. -/
def isStr : PyVal → Bool
  | .str _ => true
  | _ => false

/-- `isinstance(v, list)`. -/
def isList : PyVal → Bool
  | .list _ => true
  | _ => false

/-- `isinstance(v, bool)`. -/
def isBool : PyVal → Bool
  | .bool _ => true
  | _ => false

/-- `isinstance(v, (list, tuple))`, with the items. -/
def seq? : PyVal → Option (List PyVal)
  | .list l => some l
  | .tuple l => some l
  | _ => none

/-- Python `a < b` on floats (`nan` compares false). -/
def fltLt : Flt → Flt → Bool
  | .nan, _ => false
  | _, .nan => false
  | .inf true, .inf true => false
  | .inf true, _ => true
  | .inf false, _ => false
  | .fin _, .inf true => false
  | .fin _, .inf false => true
  | .fin a, .fin b => decide (a < b)

/-- `v < i` for a number `v` and an integer literal `i`; only used after a type check (other types would raise). -/
def ltInt (v : PyVal) (i : Int) : Bool :=
  match v.num? with
  | some f => fltLt f (.fin i)
  | none => false

/-- `v > i`, as above. -/
def gtInt (v : PyVal) (i : Int) : Bool :=
  match v.num? with
  | some f => fltLt (.fin i) f
  | none => false

/-- `v in l` for a list of integers. -/
def inInts (v : PyVal) (l : List Int) : Bool := l.any fun i => PyVal.pyEq v (.int i)

mutual
/-- `hash(v)` does not raise `TypeError` (objects of unknown type are taken to be hashable). -/
def hashable : PyVal → Bool
  | .list _ => false
  | .dict _ => false
  | .tuple l => hashableList l
  | _ => true
/-- All items are hashable. -/
def hashableList : List PyVal → Bool
  | [] => true
  | v :: l => hashable v && hashableList l
end

/-- `genericIntListValidator`, validators.py 41-54. `set(values)` raises for unhashable items. -/
def genericIntListValidator (values : PyVal) (validValues : List Int) : Except Exc Bool :=
  match seq? values with
  | none => .ok false
  | some l =>
    if !hashableList l then .error .typeError
    else if l.any (fun v => !inInts v validValues) then .ok false
    else .ok (l.all isInt)

/-- `genericNonNegativeIntValidator`, validators.py 56-64. -/
def genericNonNegativeIntValidator (v : PyVal) : Bool :=
  if !isInt v then false else if ltInt v 0 then false else true

/-- `genericNonNegativeNumberValidator`, validators.py 66-74. -/
def genericNonNegativeNumberValidator (v : PyVal) : Bool :=
  if !isNumber v then false else if ltInt v 0 then false else true

/-- A prototype: key, type test, required. -/
abbrev Prototype := List (Str × (PyVal → Bool) × Bool)

/-- `prototype[key]` for any key object. -/
def Prototype.find (p : Prototype) : PyVal → Option ((PyVal → Bool) × Bool)
  | .str k => Dict.get? p k
  | _ => none

/-- `value.get(key)` / `value[key]` for a string key. -/
def get (d : List (PyVal × PyVal)) (k : Str) : Option PyVal := Dict.get? d (.str k)

/-- `value.get(key)` with `None` for absent keys, `none` standing for `None`. -/
def getVal (d : List (PyVal × PyVal)) (k : Str) : Option PyVal :=
  match get d k with
  | some .none => none
  | x => x

/-- `genericDictValidator`, validators.py 75-99. -/
def genericDictValidator (value : PyVal) (prototype : Prototype) : Bool :=
  match value with
  | .dict d =>
    if prototype.any (fun p => p.2.2 && (get d p.1).isNone) then false
    else if d.any (fun i => (prototype.find i.1).isNone) then false
    else d.all fun i => match prototype.find i.1 with
      | none => false
      | some (typ, required) => (i.2 == .none && !required) || typ i.2
  | _ => false

/-- `fontInfoStyleMapStyleNameValidator`, validators.py 107-112. -/
def styleMapStyleNameValidator (v : PyVal) : Bool :=
  [c!"regular", c!"italic", c!"bold", c!"bold italic"].any fun s => PyVal.pyEq v (.str s)

def gaspPrototype : Prototype := [(c!"rangeMaxPPEM", isInt, true), (c!"rangeGaspBehavior", isList, true)]

/-- The integer an `int` or `bool` stands for. -/
def intOf : PyVal → Int
  | .int i => i
  | .bool b => if b then 1 else 0
  | _ => 0

/-- `l == sorted(l)` for integers. -/
def sortedInts : List Int → Bool
  | [] => true
  | [_] => true
  | a :: b :: l => decide (a ≤ b) && sortedInts (b :: l)

/-- The loop over the records, validators.py 124-136, followed by the order check 137-139. -/
def gaspRecords (ppemOrder : List Int) : List PyVal → Except Exc Bool
  | [] => .ok (sortedInts ppemOrder)
  | r :: rest =>
    if !genericDictValidator r gaspPrototype then .ok false
    else match r with
      | .dict d => match get d c!"rangeMaxPPEM", get d c!"rangeGaspBehavior" with
        | some ppem, some behavior =>
          if !genericNonNegativeIntValidator ppem then .ok false
          else match genericIntListValidator behavior [0, 1, 2, 3] with
            | .error e => .error e
            | .ok false => .ok false
            | .ok true => gaspRecords (ppemOrder ++ [intOf ppem]) rest
        | _, _ => .error .keyError
      | _ => .error .typeError

/-- `fontInfoOpenTypeGaspRangeRecordsValidator`, validators.py 114-139. -/
def gaspRangeRecordsValidator : PyVal → Except Exc Bool
  | .list [] => .ok true
  | .list l => gaspRecords [] l
  | _ => .ok false

/-- `calendar.isleap`. -/
def isLeap (y : Int) : Bool := y % 4 == 0 && (y % 100 != 0 || y % 400 == 0)

/-- `calendar.monthrange(year, month)[1]` for months 1 to 12. Before Python 3.8 a year below 1 raises `ValueError`
(years above 9999 cannot occur here: the year has four characters). -/
def monthMaxDay (py38 : Bool) (year month : Int) : Except Exc Int :=
  if !py38 && year < 1 then .error .valueError
  else .ok (if month = 2 then (if isLeap year then 29 else 28) else if month = 4 ∨ month = 6 ∨ month = 9 ∨ month = 11 then 30 else 31)

/-- The date part of `fontInfoOpenTypeHeadCreatedValidator`, validators.py 158-179. -/
def headDate (py38 : Bool) (date : Str) : Except Exc Bool :=
  match splitOn '/' date with
  | [year, month, day] =>
    if year.length ≠ 4 then .ok false
    else if month.length ≠ 2 then .ok false
    else if day.length ≠ 2 then .ok false
    else match pyInt year, pyInt month, pyInt day with
      | some year, some month, some day =>
        if month < 1 ∨ month > 12 then .ok false
        else match monthMaxDay py38 year month with
          | .error e => .error e
          | .ok maxDay => if day < 1 ∨ day > maxDay then .ok false else .ok true
      | _, _, _ => .ok false
  | _ => .error .valueError

/-- The time part of `fontInfoOpenTypeHeadCreatedValidator`, validators.py 180-198. -/
def headTime (time : Str) : Except Exc Bool :=
  match splitOn ':' time with
  | [hour, minute, second] =>
    if hour.length ≠ 2 then .ok false
    else if minute.length ≠ 2 then .ok false
    else if second.length ≠ 2 then .ok false
    else match pyInt hour, pyInt minute, pyInt second with
      | some hour, some minute, some second =>
        if hour < 0 ∨ hour > 23 then .ok false
        else if minute < 0 ∨ minute > 59 then .ok false
        else if second < 0 ∨ second > 59 then .ok false
        else .ok true
      | _, _, _ => .ok false
  | _ => .error .valueError

/-- `fontInfoOpenTypeHeadCreatedValidator`, validators.py 141-198. `py38`: Python is at least 3.8. -/
def headCreatedValidator (py38 : Bool) : PyVal → Except Exc Bool
  | .str value =>
    if value.length ≠ 19 then .ok false
    else if value.count ' ' ≠ 1 then .ok false
    else match splitOn ' ' value with
      | [date, time] =>
        if date.count '/' ≠ 2 then .ok false
        else if time.count ':' ≠ 2 then .ok false
        else match headDate py38 date with
          | .error e => .error e
          | .ok false => .ok false
          | .ok true => headTime time
      | _ => .error .valueError
  | _ => .ok false

def nameRecordPrototype : Prototype :=
  [(c!"nameID", isInt, true), (c!"platformID", isInt, true), (c!"encodingID", isInt, true), (c!"languageID", isInt, true), (c!"string", isStr, true)]

/-- `fontInfoOpenTypeNameRecordsValidator`, validators.py 200-210. -/
def nameRecordsValidator : PyVal → Bool
  | .list l => l.all fun r => genericDictValidator r nameRecordPrototype
  | _ => false

/-- `fontInfoOpenTypeOS2WeightClassValidator`, validators.py 212-220. -/
def weightClassValidator (v : PyVal) : Bool :=
  if !isInt v then false else if ltInt v 0 then false else true

/-- `fontInfoOpenTypeOS2WidthClassValidator`, validators.py 222-232. -/
def widthClassValidator (v : PyVal) : Bool :=
  if !isInt v then false else if ltInt v 1 then false else if gtInt v 9 then false else true

/-- `fontInfoVersion2OpenTypeOS2PanoseValidator`, validators.py 234-246. -/
def panose2Validator (v : PyVal) : Bool :=
  match seq? v with
  | none => false
  | some l => if l.length ≠ 10 then false else l.all isInt

/-- `fontInfoVersion3OpenTypeOS2PanoseValidator`, validators.py 248-262. -/
def panose3Validator (v : PyVal) : Bool :=
  match seq? v with
  | none => false
  | some l => if l.length ≠ 10 then false else l.all fun x => isInt x && !ltInt x 0

/-- `fontInfoOpenTypeOS2FamilyClassValidator`, validators.py 264-280. -/
def familyClassValidator (v : PyVal) : Bool :=
  match seq? v with
  | none => false
  | some l =>
    if l.length ≠ 2 then false
    else if !l.all isInt then false
    else match l with
      | [a, b] => if ltInt a 0 || gtInt a 14 then false else if ltInt b 0 || gtInt b 15 then false else true
      | _ => false

/-- `fontInfoPostscriptBluesValidator` (`max` 14), validators.py 282-295, and `fontInfoPostscriptOtherBluesValidator`
(`max` 10), 297-310. -/
def bluesValidator (max : Nat) (v : PyVal) : Bool :=
  match seq? v with
  | none => false
  | some l => if l.length > max then false else if l.length % 2 ≠ 0 then false else l.all isNumber

/-- `fontInfoPostscriptStemsValidator`, validators.py 312-323. -/
def stemsValidator (v : PyVal) : Bool :=
  match seq? v with
  | none => false
  | some l => if l.length > 12 then false else l.all isNumber

/-- `list(range(1, 21))`. -/
def characterSets : List Int := [1, 2, 3, 4, 5, 6, 7, 8, 9, 10, 11, 12, 13, 14, 15, 16, 17, 18, 19, 20]

/-- `fontInfoPostscriptWindowsCharacterSetValidator`, validators.py 325-332. -/
def windowsCharacterSetValidator (v : PyVal) : Bool := inInts v characterSets

/-! ### WOFF metadata, validators.py 334-506 -/

/-- `fontInfoWOFFMetadataUniqueIDValidator`, 334-341. -/
def woffUniqueID (v : PyVal) : Bool := genericDictValidator v [(c!"id", isStr, true)]

/-- `"dir" in value and value.get("dir") not in ("ltr", "rtl")`, negated: the direction is absent or known. -/
def dirOk : PyVal → Bool
  | .dict d => match get d c!"dir" with
    | none => true
    | some v => PyVal.pyEq v (.str c!"ltr") || PyVal.pyEq v (.str c!"rtl")
  | _ => true

/-- `fontInfoWOFFMetadataVendorValidator`, 343-352. -/
def woffVendor (v : PyVal) : Bool :=
  if !genericDictValidator v [(c!"name", isStr, true), (c!"url", isStr, false), (c!"dir", isStr, false), (c!"class", isStr, false)] then false else dirOk v

/-- `for x in value[key]`: items of the list, `TypeError` for `None`. -/
def items (v : PyVal) (k : Str) : Except Exc (List PyVal) :=
  match v with
  | .dict d => match get d k with
    | some (.list l) => .ok l
    | some _ => .error .typeError
    | none => .error .keyError
  | _ => .error .typeError

/-- `if key in value: for x in value[key]`. -/
def itemsIf (v : PyVal) (k : Str) : Except Exc (List PyVal) :=
  match v with
  | .dict d => match get d k with
    | some (.list l) => .ok l
    | some _ => .error .typeError
    | none => .ok []
  | _ => .error .typeError

/-- `fontInfoWOFFMetadataCreditsValidator`, 354-369. -/
def woffCredits (v : PyVal) : Except Exc Bool :=
  if !genericDictValidator v [(c!"credits", isList, true)] then .ok false
  else match items v c!"credits" with
    | .error e => .error e
    | .ok l => if l.isEmpty then .ok false
      else .ok (l.all fun c =>
        genericDictValidator c [(c!"name", isStr, true), (c!"url", isStr, false), (c!"role", isStr, false), (c!"dir", isStr, false), (c!"class", isStr, false)] && dirOk c)

/-- `fontInfoWOFFMetadataTextValue`, 426-435; `...ExtensionNameValidator`, 486-495, and `...ExtensionValueValidator`, 497-506,
have the same body. -/
def woffText (v : PyVal) : Bool :=
  if !genericDictValidator v [(c!"text", isStr, true), (c!"language", isStr, false), (c!"dir", isStr, false), (c!"class", isStr, false)] then false else dirOk v

/-- `fontInfoWOFFMetadataDescriptionValidator`, 371-381. -/
def woffDescription (v : PyVal) : Except Exc Bool :=
  if !genericDictValidator v [(c!"url", isStr, false), (c!"text", isList, true)] then .ok false
  else (items v c!"text").map fun l => l.all woffText

/-- `fontInfoWOFFMetadataLicenseValidator`, 383-394. -/
def woffLicense (v : PyVal) : Except Exc Bool :=
  if !genericDictValidator v [(c!"url", isStr, false), (c!"text", isList, false), (c!"id", isStr, false)] then .ok false
  else (itemsIf v c!"text").map fun l => l.all woffText

/-- `fontInfoWOFFMetadataTrademarkValidator`, 396-406, and `fontInfoWOFFMetadataCopyrightValidator`, 408-418. -/
def woffTexts (v : PyVal) : Except Exc Bool :=
  if !genericDictValidator v [(c!"text", isList, true)] then .ok false
  else (items v c!"text").map fun l => l.all woffText

/-- `fontInfoWOFFMetadataLicenseeValidator`, 420-429. -/
def woffLicensee (v : PyVal) : Bool :=
  if !genericDictValidator v [(c!"name", isStr, true), (c!"dir", isStr, false), (c!"class", isStr, false)] then false else dirOk v

/-- `fontInfoWOFFMetadataExtensionItemValidator`, 470-484. -/
def woffExtensionItem (v : PyVal) : Except Exc Bool :=
  if !genericDictValidator v [(c!"id", isStr, false), (c!"names", isList, true), (c!"values", isList, true)] then .ok false
  else match items v c!"names" with
    | .error e => .error e
    | .ok ns => if !ns.all woffText then .ok false
      else (items v c!"values").map fun l => l.all woffText

/-- `for x in l: if not f(x): return False`, for a check that can raise. -/
def allM (f : PyVal → Except Exc Bool) : List PyVal → Except Exc Bool
  | [] => .ok true
  | x :: l => match f x with
    | .error e => .error e
    | .ok false => .ok false
    | .ok true => allM f l

/-- `fontInfoWOFFMetadataExtensionValidator`, 454-468. -/
def woffExtension (v : PyVal) : Except Exc Bool :=
  if !genericDictValidator v [(c!"names", isList, false), (c!"items", isList, true), (c!"id", isStr, false)] then .ok false
  else match itemsIf v c!"names" with
    | .error e => .error e
    | .ok ns => if !ns.all woffText then .ok false
      else match items v c!"items" with
        | .error e => .error e
        | .ok l => allM woffExtensionItem l

/-- `fontInfoWOFFMetadataExtensionsValidator`, 441-452. -/
def woffExtensions : PyVal → Except Exc Bool
  | .list [] => .ok false
  | .list l => allM woffExtension l
  | _ => .ok false

/-! ### identifiers, colors, guidelines, anchors, images -/

/-- `identifierValidator`, validators.py 623-646. -/
def identifierValidator : PyVal → Bool
  | .str s =>
    if s.isEmpty then false
    else if s.length > 100 then false
    else s.all fun c => !(c.toNat < 0x20 || c.toNat > 0x7E)
  | _ => false

/-- The number a color part stands for, validators.py 697-712: `int()`, else `float()`. -/
def colorNumber (F : FloatCodec) (part : Str) : Option Flt :=
  match pyInt part with
  | some i => some (.fin i)
  | none => F.parse part

/-- `colorValidator`, validators.py 652-720. -/
def colorValidator (F : FloatCodec) : PyVal → Bool
  | .str s =>
    if (splitOn ',' s).length ≠ 4 then false
    else (splitOn ',' s).all fun part => match colorNumber F (strip part) with
      | none => false
      | some f => if fltLt f (.fin 0) then false else if fltLt (.fin 1) f then false else true
  | _ => false

/-- `_guidelineDictPrototype`, validators.py 531-534. -/
def guidelinePrototype : Prototype :=
  [(c!"x", isNumber, false), (c!"y", isNumber, false), (c!"angle", isNumber, false), (c!"name", isStr, false), (c!"color", isStr, false), (c!"identifier", isStr, false)]

/-- `x is None or f(x)`. -/
def noneOr (x : Option PyVal) (f : PyVal → Bool) : Bool :=
  match x with
  | none => true
  | some v => f v

/-- `identifier is not None and not identifierValidator(identifier)`, negated; the same for colors. -/
def identifierColorOk (F : FloatCodec) (d : List (PyVal × PyVal)) : Bool :=
  noneOr (getVal d c!"identifier") identifierValidator && noneOr (getVal d c!"color") (colorValidator F)

/-- `guidelineValidator`, validators.py 536-568. -/
def guidelineValidator (F : FloatCodec) (value : PyVal) : Bool :=
  if !genericDictValidator value guidelinePrototype then false
  else match value with
    | .dict d =>
      let x := getVal d c!"x"
      let y := getVal d c!"y"
      let angle := getVal d c!"angle"
      if x.isNone && y.isNone then false
      else if (x.isNone || y.isNone) && angle.isSome then false
      else if x.isSome && y.isSome && angle.isNone then false
      else if !noneOr angle (fun a => !(ltInt a 0 || gtInt a 360)) then false
      else identifierColorOk F d
    | _ => false

/-- The loop of `guidelinesValidator` and `anchorsValidator`, validators.py 520-529 and 582-591, with the check of one entry as a
parameter. Returns the verdict and the identifier set, which the code changes in place. -/
def entriesValidator (check : PyVal → Bool) (identifiers : List Str) : List PyVal → Bool × List Str
  | [] => (true, identifiers)
  | v :: rest =>
    if !check v then (false, identifiers)
    else match v with
      | .dict d => match getVal d c!"identifier" with
        | none => entriesValidator check identifiers rest
        | some (.str i) => if i ∈ identifiers then (false, identifiers) else entriesValidator check (identifiers ++ [i]) rest
        | some _ => (false, identifiers)
      | _ => (false, identifiers)

/-- `guidelinesValidator`, validators.py 512-529 (`identifiers=None` is the empty set). -/
def guidelinesValidator (F : FloatCodec) (identifiers : List Str) : PyVal → Bool × List Str
  | .list l => entriesValidator (guidelineValidator F) identifiers l
  | _ => (false, identifiers)

/-- `_anchorDictPrototype`, validators.py 593-597. -/
def anchorPrototype : Prototype :=
  [(c!"x", isNumber, false), (c!"y", isNumber, false), (c!"name", isStr, false), (c!"color", isStr, false), (c!"identifier", isStr, false)]

/-- `anchorValidator`, validators.py 599-617. -/
def anchorValidator (F : FloatCodec) (value : PyVal) : Bool :=
  if !genericDictValidator value anchorPrototype then false
  else match value with
    | .dict d =>
      if (getVal d c!"x").isNone || (getVal d c!"y").isNone then false
      else identifierColorOk F d
    | _ => false

/-- `anchorsValidator`, validators.py 574-591. -/
def anchorsValidator (F : FloatCodec) (identifiers : List Str) : PyVal → Bool × List Str
  | .list l => entriesValidator (anchorValidator F) identifiers l
  | _ => (false, identifiers)

/-- `_imageDictPrototype`, validators.py 728-734. -/
def imagePrototype : Prototype :=
  [(c!"fileName", isStr, true), (c!"xScale", isNumber, false), (c!"xyScale", isNumber, false), (c!"yxScale", isNumber, false),
   (c!"yScale", isNumber, false), (c!"xOffset", isNumber, false), (c!"yOffset", isNumber, false), (c!"color", isStr, false)]

/-- `imageValidator`, validators.py 736-749. -/
def imageValidator (F : FloatCodec) (value : PyVal) : Bool :=
  if !genericDictValidator value imagePrototype then false
  else match value with
    | .dict d =>
      if get d c!"fileName" = some (.str []) then false
      else noneOr (getVal d c!"color") (colorValidator F)
    | _ => false

/-! ### layer contents, kerning, libs -/

/-- The loop of `layerContentsValidator`, validators.py 792-823, and the final check 824-827; `fsExists` is
`fileSystem.exists`, which can raise (paths that leave the file system). -/
def layerEntries (fsExists : Str → Except Exc Bool) (names dirs : List Str) : List PyVal → Except Exc Bool
  | [] => .ok (decide (c!"glyphs" ∈ dirs))
  | .list [.str layerName, .str directoryName] :: rest =>
    if directoryName ≠ c!"glyphs" ∧ startsWith directoryName c!"glyphs." = false then .ok false
    else if layerName = [] then .ok false
    else match fsExists directoryName with
      | .error e => .error e
      | .ok false => .ok false
      | .ok true =>
        if layerName = c!"public.default" ∧ directoryName ≠ c!"glyphs" then .ok false
        else if layerName ∈ names then .ok false
        else if directoryName ∈ dirs then .ok false
        else layerEntries fsExists (names ++ [layerName]) (dirs ++ [directoryName]) rest
  | _ :: _ => .ok false

/-- `layerContentsValidator`, validators.py 775-828. `contents.values()` are the used directories (names are different). -/
def layerContentsValidator (fsExists : Str → Except Exc Bool) : PyVal → Except Exc Bool
  | .list l => layerEntries fsExists [] [] l
  | _ => .ok false

/-- `kerningValidator`, validators.py 901-931. -/
def kerningValidator : PyVal → Bool
  | .dict data => data.all fun i => isStr i.1 && match i.2 with
    | .dict s => s.all fun j => isStr j.1 && isNumber j.2
    | _ => false
  | _ => false

/-- `fontLibValidator`, validators.py 939-999. -/
def fontLibValidator : PyVal → Bool
  | .dict d => d.all fun i => isStr i.1 &&
      (if i.1 = .str c!"public.glyphOrder" then match seq? i.2 with
        | none => false
        | some l => l.all isStr
      else true)
  | _ => false

/-- The loop of `glyphLibValidator`. The message for a key that is not a string is made with `"..." % key`, which raises
`TypeError` for a tuple whose length is not one. -/
def glyphLibItems (F : FloatCodec) : List (PyVal × PyVal) → Except Exc Bool
  | [] => .ok true
  | (.str key, value) :: rest =>
    if key = c!"public.markColor" then
      if !colorValidator F value then .ok false else glyphLibItems F rest
    else glyphLibItems F rest
  | (.tuple l, _) :: _ => if l.length = 1 then .ok false else .error .typeError
  | _ :: _ => .ok false

/-- `glyphLibValidator`, validators.py 1005-1037. -/
def glyphLibValidator (F : FloatCodec) : PyVal → Except Exc Bool
  | .dict d => glyphLibItems F d
  | _ => .ok false

end Verif.Validators
