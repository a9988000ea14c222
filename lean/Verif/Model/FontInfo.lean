import Verif.Model.Validators
/-! Model of the font info tables and conversions of `Lib/ufoLib/__init__.py` (1637-2205) and of the data handling of
`UFOReader.readInfo` and `UFOWriter.writeInfo`. The tables were transcribed mechanically from the source. -/
namespace Verif.FontInfo
open Verif Verif.Validators

/-- The validators that occur in the tables, __init__.py 1781-1933: the first four are `genericTypeValidator` with the type, the next
five `genericIntListValidator` with its options. -/
inductive Kind where
  | str | int | num | bool
  | headFlags | selection | unicodeRanges | codePageRanges | os2Type
  | styleMap | headCreated | widthClass | weightClass | panose2 | panose3 | familyClass | blues | otherBlues | stems | characterSet
  | nonNegInt | nonNegNum | gasp | nameRecords
  | woffUniqueID | woffVendor | woffCredits | woffDescription | woffLicense | woffTexts | woffLicensee | woffExtensions
  | guidelines
  deriving DecidableEq, Repr

/-- `list(range(0, n))`. -/
def upTo (n : Nat) : List Int := (List.range n).map fun (i : Nat) => (i : Int)

/-- What is outside of the modelled code: the float codec and whether Python is at least 3.8. -/
structure Env where
  F : FloatCodec
  py38 : Bool

/-- `isValidValue = validator(value, ...)`, __init__.py 1651-1660; the options are those of 1727-1731. -/
def Kind.check (E : Env) (v : PyVal) : Kind → Except Exc Bool
  | .str => .ok (isStr v)
  | .int => .ok (isInt v)
  | .num => .ok (isNumber v)
  | .bool => .ok (isBool v)
  | .headFlags => genericIntListValidator v (upTo 15)
  | .selection => genericIntListValidator v [1, 2, 3, 4, 7, 8, 9]
  | .unicodeRanges => genericIntListValidator v (upTo 128)
  | .codePageRanges => genericIntListValidator v (upTo 64)
  | .os2Type => genericIntListValidator v [0, 1, 2, 3, 8, 9]
  | .styleMap => .ok (styleMapStyleNameValidator v)
  | .headCreated => headCreatedValidator E.py38 v
  | .widthClass => .ok (widthClassValidator v)
  | .weightClass => .ok (weightClassValidator v)
  | .panose2 => .ok (panose2Validator v)
  | .panose3 => .ok (panose3Validator v)
  | .familyClass => .ok (familyClassValidator v)
  | .blues => .ok (bluesValidator 14 v)
  | .otherBlues => .ok (bluesValidator 10 v)
  | .stems => .ok (stemsValidator v)
  | .characterSet => .ok (windowsCharacterSetValidator v)
  | .nonNegInt => .ok (genericNonNegativeIntValidator v)
  | .nonNegNum => .ok (genericNonNegativeNumberValidator v)
  | .gasp => gaspRangeRecordsValidator v
  | .nameRecords => .ok (nameRecordsValidator v)
  | .woffUniqueID => .ok (Validators.woffUniqueID v)
  | .woffVendor => .ok (Validators.woffVendor v)
  | .woffCredits => Validators.woffCredits v
  | .woffDescription => Validators.woffDescription v
  | .woffLicense => Validators.woffLicense v
  | .woffTexts => Validators.woffTexts v
  | .woffLicensee => .ok (Validators.woffLicensee v)
  | .woffExtensions => Validators.woffExtensions v
  | .guidelines => .ok (guidelinesValidator E.F [] v).1

/-- `fontInfoAttributesVersion1`, __init__.py 1738-1779 (a set; kept in source order). -/
def attributes1 : List Str :=
  [c!"familyName", c!"styleName", c!"fullName", c!"fontName", c!"menuName",
   c!"fontStyle", c!"note", c!"versionMajor", c!"versionMinor", c!"year",
   c!"copyright", c!"notice", c!"trademark", c!"license", c!"licenseURL",
   c!"createdBy", c!"designer", c!"designerURL", c!"vendorURL", c!"unitsPerEm",
   c!"ascender", c!"descender", c!"capHeight", c!"xHeight", c!"defaultWidth",
   c!"slantAngle", c!"italicAngle", c!"widthName", c!"weightName", c!"weightValue",
   c!"fondName", c!"otFamilyName", c!"otStyleName", c!"otMacName", c!"msCharSet",
   c!"fondID", c!"uniqueID", c!"ttVendor", c!"ttUniqueID", c!"ttVersion"]

/-- `fontInfoAttributesVersion2ValueData`, __init__.py 1781-1875. -/
def table2 : Dict Str Kind :=
  [(c!"familyName", .str), (c!"styleName", .str), (c!"styleMapFamilyName", .str),
   (c!"styleMapStyleName", .styleMap), (c!"versionMajor", .int), (c!"versionMinor", .int),
   (c!"year", .int), (c!"copyright", .str), (c!"trademark", .str),
   (c!"unitsPerEm", .num), (c!"descender", .num), (c!"xHeight", .num),
   (c!"capHeight", .num), (c!"ascender", .num), (c!"italicAngle", .num),
   (c!"note", .str), (c!"openTypeHeadCreated", .headCreated), (c!"openTypeHeadLowestRecPPEM", .num),
   (c!"openTypeHeadFlags", .headFlags), (c!"openTypeHheaAscender", .num), (c!"openTypeHheaDescender", .num),
   (c!"openTypeHheaLineGap", .num), (c!"openTypeHheaCaretSlopeRise", .int), (c!"openTypeHheaCaretSlopeRun", .int),
   (c!"openTypeHheaCaretOffset", .num), (c!"openTypeNameDesigner", .str), (c!"openTypeNameDesignerURL", .str),
   (c!"openTypeNameManufacturer", .str), (c!"openTypeNameManufacturerURL", .str), (c!"openTypeNameLicense", .str),
   (c!"openTypeNameLicenseURL", .str), (c!"openTypeNameVersion", .str), (c!"openTypeNameUniqueID", .str),
   (c!"openTypeNameDescription", .str), (c!"openTypeNamePreferredFamilyName", .str), (c!"openTypeNamePreferredSubfamilyName", .str),
   (c!"openTypeNameCompatibleFullName", .str), (c!"openTypeNameSampleText", .str), (c!"openTypeNameWWSFamilyName", .str),
   (c!"openTypeNameWWSSubfamilyName", .str), (c!"openTypeOS2WidthClass", .widthClass), (c!"openTypeOS2WeightClass", .weightClass),
   (c!"openTypeOS2Selection", .selection), (c!"openTypeOS2VendorID", .str), (c!"openTypeOS2Panose", .panose2),
   (c!"openTypeOS2FamilyClass", .familyClass), (c!"openTypeOS2UnicodeRanges", .unicodeRanges), (c!"openTypeOS2CodePageRanges", .codePageRanges),
   (c!"openTypeOS2TypoAscender", .num), (c!"openTypeOS2TypoDescender", .num), (c!"openTypeOS2TypoLineGap", .num),
   (c!"openTypeOS2WinAscent", .num), (c!"openTypeOS2WinDescent", .num), (c!"openTypeOS2Type", .os2Type),
   (c!"openTypeOS2SubscriptXSize", .num), (c!"openTypeOS2SubscriptYSize", .num), (c!"openTypeOS2SubscriptXOffset", .num),
   (c!"openTypeOS2SubscriptYOffset", .num), (c!"openTypeOS2SuperscriptXSize", .num), (c!"openTypeOS2SuperscriptYSize", .num),
   (c!"openTypeOS2SuperscriptXOffset", .num), (c!"openTypeOS2SuperscriptYOffset", .num), (c!"openTypeOS2StrikeoutSize", .num),
   (c!"openTypeOS2StrikeoutPosition", .num), (c!"openTypeVheaVertTypoAscender", .num), (c!"openTypeVheaVertTypoDescender", .num),
   (c!"openTypeVheaVertTypoLineGap", .num), (c!"openTypeVheaCaretSlopeRise", .int), (c!"openTypeVheaCaretSlopeRun", .int),
   (c!"openTypeVheaCaretOffset", .num), (c!"postscriptFontName", .str), (c!"postscriptFullName", .str),
   (c!"postscriptSlantAngle", .num), (c!"postscriptUniqueID", .int), (c!"postscriptUnderlineThickness", .num),
   (c!"postscriptUnderlinePosition", .num), (c!"postscriptIsFixedPitch", .bool), (c!"postscriptBlueValues", .blues),
   (c!"postscriptOtherBlues", .otherBlues), (c!"postscriptFamilyBlues", .blues), (c!"postscriptFamilyOtherBlues", .otherBlues),
   (c!"postscriptStemSnapH", .stems), (c!"postscriptStemSnapV", .stems), (c!"postscriptBlueFuzz", .num),
   (c!"postscriptBlueShift", .num), (c!"postscriptBlueScale", .num), (c!"postscriptForceBold", .bool),
   (c!"postscriptDefaultWidthX", .num), (c!"postscriptNominalWidthX", .num), (c!"postscriptWeightName", .str),
   (c!"postscriptDefaultCharacter", .str), (c!"postscriptWindowsCharacterSet", .characterSet), (c!"macintoshFONDFamilyID", .int),
   (c!"macintoshFONDName", .str)]

/-- The update of the copied table, __init__.py 1879-1921. -/
def update3 : Dict Str Kind :=
  [(c!"versionMinor", .nonNegInt), (c!"unitsPerEm", .nonNegNum), (c!"openTypeHeadLowestRecPPEM", .nonNegNum),
   (c!"openTypeHheaAscender", .int), (c!"openTypeHheaDescender", .int), (c!"openTypeHheaLineGap", .int),
   (c!"openTypeHheaCaretOffset", .int), (c!"openTypeOS2Panose", .panose3), (c!"openTypeOS2TypoAscender", .int),
   (c!"openTypeOS2TypoDescender", .int), (c!"openTypeOS2TypoLineGap", .int), (c!"openTypeOS2WinAscent", .nonNegNum),
   (c!"openTypeOS2WinDescent", .nonNegNum), (c!"openTypeOS2SubscriptXSize", .int), (c!"openTypeOS2SubscriptYSize", .int),
   (c!"openTypeOS2SubscriptXOffset", .int), (c!"openTypeOS2SubscriptYOffset", .int), (c!"openTypeOS2SuperscriptXSize", .int),
   (c!"openTypeOS2SuperscriptYSize", .int), (c!"openTypeOS2SuperscriptXOffset", .int), (c!"openTypeOS2SuperscriptYOffset", .int),
   (c!"openTypeOS2StrikeoutSize", .int), (c!"openTypeOS2StrikeoutPosition", .int), (c!"openTypeGaspRangeRecords", .gasp),
   (c!"openTypeNameRecords", .nameRecords), (c!"openTypeVheaVertTypoAscender", .int), (c!"openTypeVheaVertTypoDescender", .int),
   (c!"openTypeVheaVertTypoLineGap", .int), (c!"openTypeVheaCaretOffset", .int), (c!"woffMajorVersion", .nonNegInt),
   (c!"woffMinorVersion", .nonNegInt), (c!"woffMetadataUniqueID", .woffUniqueID), (c!"woffMetadataVendor", .woffVendor),
   (c!"woffMetadataCredits", .woffCredits), (c!"woffMetadataDescription", .woffDescription), (c!"woffMetadataLicense", .woffLicense),
   (c!"woffMetadataCopyright", .woffTexts), (c!"woffMetadataTrademark", .woffTexts), (c!"woffMetadataLicensee", .woffLicensee),
   (c!"woffMetadataExtensions", .woffExtensions), (c!"guidelines", .guidelines)]

/-- `dict.update`. -/
def updateDict (d : Dict Str Kind) (u : Dict Str Kind) : Dict Str Kind := u.foldl (fun d p => Dict.set d p.1 p.2) d

/-- `fontInfoAttributesVersion3ValueData`, __init__.py 1878-1922. -/
def table3 : Dict Str Kind := updateDict table2 update3

/-- `validateFontInfoVersion2ValueForAttribute`, __init__.py 1637-1660, and `...Version3...`, 1681-1704; `KeyError` for unknown
attributes. -/
def validateValue (E : Env) (table : Dict Str Kind) (attr : Str) (value : PyVal) : Except Exc Bool :=
  match Dict.get? table attr with
  | none => .error .keyError
  | some k => k.check E value

/-- `validateInfoVersion2Data`, __init__.py 1662-1679, and `...Version3Data`, 1706-1723. Returns the data unchanged (as a new
dictionary with the same items). -/
def validateData (E : Env) (table : Dict Str Kind) : Dict Str PyVal → Except Exc (Dict Str PyVal)
  | [] => .ok []
  | (attr, value) :: rest =>
    match validateValue E table attr value with
    | .error e => .error e
    | .ok false => .error .ufoLibError
    | .ok true => match validateData E table rest with
      | .error e => .error e
      | .ok r => .ok ((attr, value) :: r)

/-- `_flipDict`, __init__.py 1939-1943. -/
def flipDict {α β : Type} [DecidableEq β] (d : Dict α β) : Dict β α := d.foldl (fun f p => Dict.set f p.2 p.1) []

/-- `fontInfoAttributesVersion1To2`, __init__.py 1945-1973. -/
def names12 : Dict Str Str :=
  [(c!"menuName", c!"styleMapFamilyName"), (c!"designer", c!"openTypeNameDesigner"), (c!"designerURL", c!"openTypeNameDesignerURL"),
   (c!"createdBy", c!"openTypeNameManufacturer"), (c!"vendorURL", c!"openTypeNameManufacturerURL"), (c!"license", c!"openTypeNameLicense"),
   (c!"licenseURL", c!"openTypeNameLicenseURL"), (c!"ttVersion", c!"openTypeNameVersion"), (c!"ttUniqueID", c!"openTypeNameUniqueID"),
   (c!"notice", c!"openTypeNameDescription"), (c!"otFamilyName", c!"openTypeNamePreferredFamilyName"), (c!"otStyleName", c!"openTypeNamePreferredSubfamilyName"),
   (c!"otMacName", c!"openTypeNameCompatibleFullName"), (c!"weightName", c!"postscriptWeightName"), (c!"weightValue", c!"openTypeOS2WeightClass"),
   (c!"ttVendor", c!"openTypeOS2VendorID"), (c!"uniqueID", c!"postscriptUniqueID"), (c!"fontName", c!"postscriptFontName"),
   (c!"fondID", c!"macintoshFONDFamilyID"), (c!"fondName", c!"macintoshFONDName"), (c!"defaultWidth", c!"postscriptDefaultWidthX"),
   (c!"slantAngle", c!"postscriptSlantAngle"), (c!"fullName", c!"postscriptFullName"), (c!"fontStyle", c!"styleMapStyleName"),
   (c!"widthName", c!"openTypeOS2WidthClass"), (c!"msCharSet", c!"postscriptWindowsCharacterSet")]

/-- `fontInfoAttributesVersion2To1`, __init__.py 1974. -/
def names21 : Dict Str Str := flipDict names12

/-- `_fontStyle1To2` before the entry for 0 is added, __init__.py 1977-1982. -/
def fontStyles : Dict Int Str := [(64, c!"regular"), (1, c!"italic"), (32, c!"bold"), (33, c!"bold italic")]
/-- `_fontStyle1To2`, __init__.py 1985. -/
def fontStyle12 : Dict Int Str := Dict.set fontStyles 0 c!"regular"
/-- `_fontStyle2To1`, __init__.py 1983. -/
def fontStyle21 : Dict Str Int := flipDict fontStyles

/-- `_widthName1To2` before the additions, __init__.py 1987-1997. -/
def widthNames : Dict Str Int :=
  [(c!"Ultra-condensed", 1), (c!"Extra-condensed", 2), (c!"Condensed", 3), (c!"Semi-condensed", 4),
   (c!"Medium (normal)", 5), (c!"Semi-expanded", 6), (c!"Expanded", 7), (c!"Extra-expanded", 8),
   (c!"Ultra-expanded", 9)]
/-- `_widthName1To2`, __init__.py 1999-2008. -/
def widthName12 : Dict Str Int :=
  Dict.set (Dict.set (Dict.set (Dict.set widthNames c!"Normal" 5) c!"All" 5) c!"medium" 5) c!"Medium" 5
/-- `_widthName2To1`, __init__.py 1998. -/
def widthName21 : Dict Int Str := flipDict widthNames

/-- `_msCharSet1To2`, __init__.py 2010-2031. -/
def charSet12 : Dict Int Int :=
  [(0, 1), (1, 2), (2, 3), (77, 4), (128, 5), (129, 6), (130, 7), (134, 8), (136, 9), (161, 10),
   (162, 11), (163, 12), (177, 13), (178, 14), (186, 15), (200, 16), (204, 17), (222, 18), (238, 19), (255, 20)]
/-- `_msCharSet2To1`, __init__.py 2032. -/
def charSet21 : Dict Int Int := flipDict charSet12

/-- `d.get(value)` for a dictionary with integer keys: equality is Python's, and an unhashable value raises. -/
def getInt {β : Type} (d : Dict Int β) (value : PyVal) : Except Exc (Option β) :=
  if !hashable value then .error .typeError
  else .ok ((d.find? fun p => PyVal.pyEq value (.int p.1)).map Prod.snd)

/-- `d.get(value)` for a dictionary with string keys. -/
def getStr {β : Type} (d : Dict Str β) (value : PyVal) : Except Exc (Option β) :=
  if !hashable value then .error .typeError
  else .ok ((d.find? fun p => PyVal.pyEq value (.str p.1)).map Prod.snd)

/-- `v = d.get(value); if v is None: raise UFOLibError; value = v`. -/
def required {β : Type} (f : β → PyVal) : Except Exc (Option β) → Except Exc PyVal
  | .error e => .error e
  | .ok none => .error .ufoLibError
  | .ok (some x) => .ok (f x)

/-- `value = d.get(value)`. -/
def orNone {β : Type} (f : β → PyVal) : Except Exc (Option β) → Except Exc PyVal
  | .error e => .error e
  | .ok none => .ok .none
  | .ok (some x) => .ok (f x)

/-- `if isinstance(value, float): if int(value) == value: value = int(value)`, __init__.py 2043-2045. -/
def floatToInt1 : PyVal → Except Exc PyVal
  | .float .nan => .error .valueError
  | .float (.inf _) => .error .overflowError
  | .float (.fin q) => if q.den = 1 then .ok (.int q.num) else .ok (.float (.fin q))
  | v => .ok v

/-- The value conversions of 2046-2061. -/
def special12 (attr : Str) (value : PyVal) : Except Exc PyVal :=
  if value = .none then .ok value
  else if attr = c!"fontStyle" then required .str (getInt fontStyle12 value)
  else if attr = c!"widthName" then required .int (getStr widthName12 value)
  else if attr = c!"msCharSet" then required .int (getInt charSet12 value)
  else .ok value

/-- `convertFontInfoValueForAttributeFromVersion1ToVersion2`, __init__.py 2036-2063. -/
def convert12 (attr : Str) (value : PyVal) : Except Exc (Str × PyVal) :=
  match floatToInt1 value with
  | .error e => .error e
  | .ok value => match special12 attr value with
    | .error e => .error e
    | .ok value => .ok (Dict.getD names12 attr attr, value)

/-- The value conversions of 2071-2077. -/
def special21 (attr : Str) (value : PyVal) : Except Exc PyVal :=
  if value = .none then .ok value
  else if attr = c!"styleMapStyleName" then orNone .int (getStr fontStyle21 value)
  else if attr = c!"openTypeOS2WidthClass" then orNone .str (getInt widthName21 value)
  else if attr = c!"postscriptWindowsCharacterSet" then orNone .int (getInt charSet21 value)
  else .ok value

/-- `convertFontInfoValueForAttributeFromVersion2ToVersion1`, __init__.py 2065-2079. -/
def convert21 (attr : Str) (value : PyVal) : Except Exc (Str × PyVal) :=
  match special21 attr value with
  | .error e => .error e
  | .ok value => .ok (Dict.getD names21 attr attr, value)

/-- `_convertFontInfoDataVersion1ToVersion2`, __init__.py 2081-2099. -/
def convertData12 (converted : Dict Str PyVal) : Dict Str PyVal → Except Exc (Dict Str PyVal)
  | [] => .ok converted
  | (attr, value) :: rest =>
    if attr = c!"weightValue" ∧ PyVal.pyEq value (.int (-1)) = true then convertData12 converted rest
    else match convert12 attr value with
      | .error e => .error e
      | .ok (newAttr, newValue) =>
        if newAttr ∉ Dict.keys table2 then convertData12 converted rest
        else if value = .none then .error .ufoLibError
        else convertData12 (Dict.set converted newAttr newValue) rest

/-- `_convertFontInfoDataVersion2ToVersion1`, __init__.py 2101-2113. -/
def convertData21 (converted : Dict Str PyVal) : Dict Str PyVal → Except Exc (Dict Str PyVal)
  | [] => .ok converted
  | (attr, value) :: rest =>
    match convert21 attr value with
    | .error e => .error e
    | .ok (newAttr, newValue) =>
      if newAttr ∉ attributes1 then convertData21 converted rest
      else if value = .none then .error .ufoLibError
      else convertData21 (Dict.set converted newAttr newValue) rest

/-- `_ufo2To3NonNegativeInt`, __init__.py 2117-2122. -/
def nonNegativeInt : List Str :=
  [c!"versionMinor", c!"openTypeHeadLowestRecPPEM", c!"openTypeOS2WinAscent", c!"openTypeOS2WinDescent"]

/-- `_ufo2To3NonNegativeIntOrFloat = set(("unitsPerEm"))`, __init__.py 2123-2125: the parentheses do not make a tuple, so this is the
set of the characters of the string. -/
def nonNegativeIntOrFloat : List Str := [c!"u", c!"n", c!"i", c!"t", c!"s", c!"P", c!"e", c!"r", c!"E", c!"m"]

/-- `_ufo2To3FloatToInt`, __init__.py 2126-2151. -/
def floatToInt : List Str :=
  [c!"openTypeHeadLowestRecPPEM", c!"openTypeHheaAscender", c!"openTypeHheaDescender", c!"openTypeHheaLineGap", c!"openTypeHheaCaretOffset",
   c!"openTypeOS2TypoAscender", c!"openTypeOS2TypoDescender", c!"openTypeOS2TypoLineGap", c!"openTypeOS2WinAscent", c!"openTypeOS2WinDescent",
   c!"openTypeOS2SubscriptXSize", c!"openTypeOS2SubscriptYSize", c!"openTypeOS2SubscriptXOffset", c!"openTypeOS2SubscriptYOffset", c!"openTypeOS2SuperscriptXSize",
   c!"openTypeOS2SuperscriptYSize", c!"openTypeOS2SuperscriptXOffset", c!"openTypeOS2SuperscriptYOffset", c!"openTypeOS2StrikeoutSize", c!"openTypeOS2StrikeoutPosition",
   c!"openTypeVheaVertTypoAscender", c!"openTypeVheaVertTypoDescender", c!"openTypeVheaVertTypoLineGap", c!"openTypeVheaCaretOffset"]

/-- `round(q)`: to the nearest integer, ties to even. -/
def roundHalfEven (q : Rat) : Int :=
  let r := q - q.floor
  if r < 1 / 2 then q.floor
  else if 1 / 2 < r then q.floor + 1
  else if q.floor % 2 = 0 then q.floor else q.floor + 1

/-- `int(round(value))`, with `ValueError` and `TypeError` turned into `UFOLibError`, __init__.py 2159-2162. (Values that are not
numbers have no `__round__`.) -/
def roundInt : PyVal → Except Exc Int
  | .int i => .ok i
  | .bool b => .ok (if b then 1 else 0)
  | .float (.fin q) => .ok (roundHalfEven q)
  | .float .nan => .error .ufoLibError
  | .float (.inf _) => .error .overflowError
  | _ => .error .ufoLibError

/-- `int(abs(value))` (`int` rounds towards zero, downwards here), as above, __init__.py 2166-2169. -/
def absInt : PyVal → Except Exc Int
  | .int i => .ok (i.natAbs : Int)
  | .bool b => .ok (if b then 1 else 0)
  | .float (.fin q) => .ok (if q < 0 then -q else q).floor
  | .float .nan => .error .ufoLibError
  | .float (.inf _) => .error .overflowError
  | _ => .error .ufoLibError

/-- `if v != value: value = v`. -/
def replaceIfDifferent (value : PyVal) (v : Int) : PyVal := if PyVal.pyEq (.int v) value = true then value else .int v

/-- One step of `convertFontInfoValueForAttributeFromVersion2ToVersion3`: compute the integer and replace. -/
def integerStep (f : PyVal → Except Exc Int) (value : PyVal) : Except Exc PyVal :=
  match f value with
  | .error e => .error e
  | .ok v => .ok (replaceIfDifferent value v)

/-- `convertFontInfoValueForAttributeFromVersion2ToVersion3`, __init__.py 2153-2180. No attribute of any version is a single
character, so the branch 2172-2179 for `nonNegativeIntOrFloat` can only be entered with other names; there it computes
`float(abs(value))`, which is modelled as the identity on such names (`KeyError` follows when validating). -/
def convert23 (attr : Str) (value : PyVal) : Except Exc PyVal :=
  match (if attr ∈ floatToInt then integerStep roundInt value else .ok value) with
  | .error e => .error e
  | .ok value => if attr ∈ nonNegativeInt then integerStep absInt value else .ok value

/-- `_convertFontInfoDataVersion2ToVersion3`, __init__.py 2200-2205; attribute names do not change. -/
def convertData23 : Dict Str PyVal → Except Exc (Dict Str PyVal)
  | [] => .ok []
  | (attr, value) :: rest =>
    match convert23 attr value with
    | .error e => .error e
    | .ok value => match convertData23 rest with
      | .error e => .error e
      | .ok r => .ok ((attr, value) :: r)

/-- `_convertFontInfoDataVersion3ToVersion2`, __init__.py 2190-2197: values and names are unchanged. -/
def convertData32 (d : Dict Str PyVal) : Dict Str PyVal := d.filter fun p => decide (p.1 ∈ Dict.keys table2)

/-- `value = infoDict.get(attr); if value is not None: infoDataToSet[attr] = value`, __init__.py 476-496 and 1192-1201: the known attributes
that are set. `lookup` is `infoDict.get` or `getattr(info, attr, None)`. -/
def gather (lookup : Str → Option PyVal) : List Str → Dict Str PyVal
  | [] => []
  | attr :: rest => match lookup attr with
    | none => gather lookup rest
    | some .none => gather lookup rest
    | some v => (attr, v) :: gather lookup rest

/-- `UFOReader.readInfo`, __init__.py 460-508: the attributes set on the info object (which is taken to accept them), given the
dictionary read from fontinfo.plist. -/
def readInfo (E : Env) (version : Nat) (validate : Bool) (infoDict : Dict Str PyVal) : Except Exc (Dict Str PyVal) := do
  let data ← (match version with
    | 1 => do convertData23 (← convertData12 [] (gather (Dict.get? infoDict) attributes1))
    | 2 => convertData23 (gather (Dict.get? infoDict) (Dict.keys table2))
    | 3 => .ok (gather (Dict.get? infoDict) (Dict.keys table3))
    | _ => .error .notImplementedError)
  if validate then validateData E table3 data else .ok data

/-- `UFOWriter.writeInfo`, __init__.py 1175-1213: the dictionary written to fontinfo.plist. -/
def writeInfo (E : Env) (version : Nat) (validate : Bool) (info : Str → Option PyVal) : Except Exc (Dict Str PyVal) :=
  let data := gather info (Dict.keys table3)
  match version with
  | 3 => if validate then validateData E table3 data else .ok data
  | 2 => if validate then validateData E table2 (convertData32 data) else .ok (convertData32 data)
  | 1 => do convertData21 [] (← (if validate then validateData E table2 (convertData32 data) else .ok (convertData32 data)))
  | _ => .ok data

end Verif.FontInfo
