import Verif.Spec.FontInfo
import Verif.Spec.Numerals
/-! What each attribute of fontinfo.plist may be, after the tables of the UFO 2 and UFO 3 specifications, and what the values of UFO 1
and UFO 2 stand for in UFO 3; independent of the model. Where the library is laxer than the specification, the comments say so. -/
namespace Verif.Spec.InfoLegal
open Verif Verif.Spec.Validators Verif.Spec.Woff Verif.Spec.FontInfo Verif.Spec.Numerals

/-! ### The attributes by type -/

/-- Strings. -/
def strings : List Str :=
  [-- Generic identification, legal and other information
   c!"familyName", c!"styleName", c!"styleMapFamilyName", c!"copyright", c!"trademark", c!"note",
   -- OpenType name table
   c!"openTypeNameDesigner", c!"openTypeNameDesignerURL", c!"openTypeNameManufacturer", c!"openTypeNameManufacturerURL", c!"openTypeNameLicense",
   c!"openTypeNameLicenseURL", c!"openTypeNameVersion", c!"openTypeNameUniqueID", c!"openTypeNameDescription", c!"openTypeNamePreferredFamilyName",
   c!"openTypeNamePreferredSubfamilyName", c!"openTypeNameCompatibleFullName", c!"openTypeNameSampleText", c!"openTypeNameWWSFamilyName",
   c!"openTypeNameWWSSubfamilyName",
   -- OpenType OS/2 table
   c!"openTypeOS2VendorID",
   -- PostScript
   c!"postscriptFontName", c!"postscriptFullName", c!"postscriptWeightName", c!"postscriptDefaultCharacter",
   -- Macintosh FOND resource
   c!"macintoshFONDName"]

/-- Integers in both versions. -/
def integers : List Str :=
  [c!"versionMajor", c!"year", c!"openTypeHheaCaretSlopeRise", c!"openTypeHheaCaretSlopeRun", c!"openTypeVheaCaretSlopeRise",
   c!"openTypeVheaCaretSlopeRun", c!"postscriptUniqueID", c!"macintoshFONDFamilyID"]

/-- Integers or floats in both versions. -/
def numbers : List Str :=
  [c!"descender", c!"xHeight", c!"capHeight", c!"ascender", c!"italicAngle",
   c!"postscriptSlantAngle", c!"postscriptUnderlineThickness", c!"postscriptUnderlinePosition", c!"postscriptBlueFuzz", c!"postscriptBlueShift",
   c!"postscriptBlueScale", c!"postscriptDefaultWidthX", c!"postscriptNominalWidthX"]

/-- Booleans. -/
def booleans : List Str := [c!"postscriptIsFixedPitch", c!"postscriptForceBold"]

/-- The other attributes of UFO 2. -/
def structured2 : List Str :=
  [c!"styleMapStyleName", c!"versionMinor", c!"unitsPerEm", c!"openTypeHeadCreated", c!"openTypeHeadFlags", c!"openTypeOS2WidthClass", c!"openTypeOS2WeightClass",
   c!"openTypeOS2Selection", c!"openTypeOS2Panose", c!"openTypeOS2FamilyClass", c!"openTypeOS2UnicodeRanges", c!"openTypeOS2CodePageRanges", c!"openTypeOS2Type",
   c!"postscriptBlueValues", c!"postscriptOtherBlues", c!"postscriptFamilyBlues", c!"postscriptFamilyOtherBlues", c!"postscriptStemSnapH", c!"postscriptStemSnapV",
   c!"postscriptWindowsCharacterSet"]

/-- The attributes that UFO 3 added. -/
def added3 : List Str :=
  [c!"openTypeGaspRangeRecords", c!"openTypeNameRecords", c!"woffMajorVersion", c!"woffMinorVersion", c!"woffMetadataUniqueID", c!"woffMetadataVendor",
   c!"woffMetadataCredits", c!"woffMetadataDescription", c!"woffMetadataLicense", c!"woffMetadataCopyright", c!"woffMetadataTrademark", c!"woffMetadataLicensee",
   c!"woffMetadataExtensions", c!"guidelines"]

/-- The attributes of UFO 2. -/
def attributes2 : List Str := strings ++ integers ++ numbers ++ booleans ++ integerSince3 ++ nonNegativeIntegerSince3 ++ structured2

/-- The attributes of UFO 3. -/
def attributes3 : List Str := attributes2 ++ added3

/-! ### The values -/

/-- A number that is not negative; not-a-number passes. -/
def NonNegative : Flt → Prop
  | .nan => True
  | .inf negative => negative = false
  | .fin q => 0 ≤ q

/-- A list of integers satisfying `P`. -/
def IntegersOf (P : Int → Prop) (v : PyVal) : Prop := ∃ l, IsSeq v l ∧ ∀ x ∈ l, ∃ i, IsInt x i ∧ P i

/-- Blue values: pairs of numbers. -/
def Blues (most : Nat) (v : PyVal) : Prop := ∃ l, IsSeq v l ∧ l.length ≤ most ∧ 2 ∣ l.length ∧ ∀ x ∈ l, IsNum x

/-- Stem snaps. -/
def Stems (v : PyVal) : Prop := ∃ l, IsSeq v l ∧ l.length ≤ 12 ∧ ∀ x ∈ l, IsNum x

/-- A day of the Gregorian calendar, extended to all years. -/
structure Day (y m d : Int) : Prop where
  month : 1 ≤ m ∧ m ≤ 12
  day : 1 ≤ d ∧ d ≤ 31
  short : m ∈ [4, 6, 9, 11] → d ≤ 30
  february : m = 2 → d ≤ 29 ∧ (d = 29 → 4 ∣ y ∧ (100 ∣ y → 400 ∣ y))

/-- A part of a date: `width` characters without a space that Python reads as a decimal number. (The specification wants digits: a sign
and an underscore are accepted as well.) -/
def Part (width : Nat) (s : Str) (i : Int) : Prop := s.length = width ∧ ' ' ∉ s ∧ Says 10 s i

/-- A date and time `YYYY/MM/DD HH:MM:SS`. Python before 3.8 knows no year before 1. -/
def Created (py38 : Bool) (s : Str) : Prop :=
  ∃ ys ms ds hs mis ss y m d h mi sec,
    s = ys ++ c!"/" ++ ms ++ c!"/" ++ ds ++ c!" " ++ hs ++ c!":" ++ mis ++ c!":" ++ ss ∧
    Part 4 ys y ∧ Part 2 ms m ∧ Part 2 ds d ∧ Part 2 hs h ∧ Part 2 mis mi ∧ Part 2 ss sec ∧
    Day y m d ∧ (py38 = false → 1 ≤ y) ∧ 0 ≤ h ∧ h ≤ 23 ∧ 0 ≤ mi ∧ mi ≤ 59 ∧ 0 ≤ sec ∧ sec ≤ 59

/-- The values of the attributes whose type is the same in both versions. -/
inductive Legal (py38 : Bool) : Str → PyVal → Prop
  | string {a s} : a ∈ strings → Legal py38 a (.str s)
  | integer {a v i} : a ∈ integers → IsInt v i → Legal py38 a v
  | number {a v} : a ∈ numbers → IsNum v → Legal py38 a v
  | boolean {a b} : a ∈ booleans → Legal py38 a (.bool b)
  | styleMap {s} : s ∈ [c!"regular", c!"italic", c!"bold", c!"bold italic"] → Legal py38 c!"styleMapStyleName" (.str s)
  | created {s} : Created py38 s → Legal py38 c!"openTypeHeadCreated" (.str s)
  | headFlags {v} : IntegersOf (fun i => 0 ≤ i ∧ i ≤ 14) v → Legal py38 c!"openTypeHeadFlags" v
  | widthClass {v i} : IsInt v i → 1 ≤ i → i ≤ 9 → Legal py38 c!"openTypeOS2WidthClass" v
  | weightClass {v i} : IsInt v i → 0 ≤ i → Legal py38 c!"openTypeOS2WeightClass" v
  /-- Bits 0, 5 and 6 follow from the style name. -/
  | selection {v} : IntegersOf (fun i => i ∈ [1, 2, 3, 4, 7, 8, 9]) v → Legal py38 c!"openTypeOS2Selection" v
  | familyClass {v x y i j} : IsSeq v [x, y] → IsInt x i → IsInt y j → 0 ≤ i → i ≤ 14 → 0 ≤ j → j ≤ 15 → Legal py38 c!"openTypeOS2FamilyClass" v
  | unicodeRanges {v} : IntegersOf (fun i => 0 ≤ i ∧ i ≤ 127) v → Legal py38 c!"openTypeOS2UnicodeRanges" v
  | codePageRanges {v} : IntegersOf (fun i => 0 ≤ i ∧ i ≤ 63) v → Legal py38 c!"openTypeOS2CodePageRanges" v
  | embedding {v} : IntegersOf (fun i => i ∈ [0, 1, 2, 3, 8, 9]) v → Legal py38 c!"openTypeOS2Type" v
  | blues {a v} : a ∈ [c!"postscriptBlueValues", c!"postscriptFamilyBlues"] → Blues 14 v → Legal py38 a v
  | otherBlues {a v} : a ∈ [c!"postscriptOtherBlues", c!"postscriptFamilyOtherBlues"] → Blues 10 v → Legal py38 a v
  | stems {a v} : a ∈ [c!"postscriptStemSnapH", c!"postscriptStemSnapV"] → Stems v → Legal py38 a v
  /-- (Python calls 1.0 and 1 equal.) -/
  | characterSet {v} {i : Int} : IsRat v i → 1 ≤ i → i ≤ 20 → Legal py38 c!"postscriptWindowsCharacterSet" v

/-- The values of UFO 2. -/
inductive Legal2 (py38 : Bool) : Str → PyVal → Prop
  | same {a v} : Legal py38 a v → Legal2 py38 a v
  | integer {v i} : IsInt v i → Legal2 py38 c!"versionMinor" v
  | number {a v} : a ∈ c!"unitsPerEm" :: integerSince3 ++ nonNegativeIntegerSince3 → IsNum v → Legal2 py38 a v
  | panose {v l} : IsSeq v l → l.length = 10 → (∀ x ∈ l, ∃ i, IsInt x i) → Legal2 py38 c!"openTypeOS2Panose" v

/-- The values of UFO 3. -/
inductive Legal3 (F : FloatCodec) (py38 : Bool) : Str → PyVal → Prop
  | same {a v} : Legal py38 a v → Legal3 F py38 a v
  | integer {a v i} : a ∈ integerSince3 → IsInt v i → Legal3 F py38 a v
  | nonNegativeInteger {a v i} : a ∈ [c!"versionMinor", c!"woffMajorVersion", c!"woffMinorVersion"] → IsInt v i → 0 ≤ i → Legal3 F py38 a v
  /-- (The specification wants integers, except for the units per em.) -/
  | nonNegativeNumber {a v f} : a ∈ c!"unitsPerEm" :: nonNegativeIntegerSince3 → NumIs v f → NonNegative f → Legal3 F py38 a v
  | panose {v l} : IsSeq v l → l.length = 10 → (∀ x ∈ l, ∃ i, IsInt x i ∧ 0 ≤ i) → Legal3 F py38 c!"openTypeOS2Panose" v
  /-- Records in the order of their sizes. -/
  | gasp {l ppems} : List.Forall₂ GaspRecord l ppems → ppems.Pairwise (· ≤ ·) → Legal3 F py38 c!"openTypeGaspRangeRecords" (.list l)
  | names {l} : (∀ r ∈ l, NameRecord r) → Legal3 F py38 c!"openTypeNameRecords" (.list l)
  | uniqueID {v} : UniqueID v → Legal3 F py38 c!"woffMetadataUniqueID" v
  | vendor {v} : Vendor v → Legal3 F py38 c!"woffMetadataVendor" v
  | credits {v} : Credits v → Legal3 F py38 c!"woffMetadataCredits" v
  | description {v} : Description v → Legal3 F py38 c!"woffMetadataDescription" v
  | license {v} : License v → Legal3 F py38 c!"woffMetadataLicense" v
  | texts {a v} : a ∈ [c!"woffMetadataCopyright", c!"woffMetadataTrademark"] → Texts v → Legal3 F py38 a v
  | licensee {v} : Licensee v → Legal3 F py38 c!"woffMetadataLicensee" v
  | extensions {v} : Extensions v → Legal3 F py38 c!"woffMetadataExtensions" v
  | guidelines {l} : (∀ e ∈ l, ∃ d, e = .dict d ∧ Guideline F d) → (identifiers l).Nodup → Legal3 F py38 c!"guidelines" (.list l)

/-! ### The values of UFO 2 in UFO 3 -/

/-- The integer `i` in place of the number `v`, which stays as it is if it is that number. -/
def Settled (v : PyVal) (i : Int) (w : PyVal) : Prop := (IsRat v i ∧ w = v) ∨ (¬ IsRat v i ∧ w = .int i)

/-- `i` is the absolute value of `q` without its fraction. -/
def Truncated (q : Rat) (i : Int) : Prop := ((i : Rat) ≤ q ∧ q < i + 1 ∧ 0 ≤ q) ∨ ((i : Rat) ≤ -q ∧ -q < i + 1 ∧ q < 0)

/-- What a value of UFO 2 is in UFO 3. -/
inductive Since2 : Str → PyVal → PyVal → Prop
  /-- The nearest integer. -/
  | integer {a v q i w} : a ∈ integerSince3 → IsRat v q → Nearest q i → Settled v i w → Since2 a v w
  /-- Without its sign. -/
  | nonNegative {a v q i w} : a ∈ nonNegativeIntegerSince3 → IsRat v q → Nearest q i → Settled v i.natAbs w → Since2 a v w
  /-- The minor version without its sign, and truncated if it should not be an integer. -/
  | minor {v q i w} : IsRat v q → Truncated q i → Settled v i w → Since2 c!"versionMinor" v w
  | same {a v} : a ∉ c!"versionMinor" :: integerSince3 ++ nonNegativeIntegerSince3 → Since2 a v v

/-! ### The values of UFO 1 in UFO 2 -/

/-- The font styles that are read: 0 is regular, too. -/
def stylesRead : List (Str × Int) := (c!"regular", 0) :: styles1

/-- The width names that are read: there are other names for normal. -/
def widthsRead : List (Int × Str) := widths1 ++ [(5, c!"Normal"), (5, c!"All"), (5, c!"medium"), (5, c!"Medium")]

/-- The Windows character sets 1 to 20, in order, by their numbers in UFO 1. -/
def characterSets1 : List Int := [0, 1, 2, 77, 128, 129, 130, 134, 136, 161, 162, 163, 177, 178, 186, 200, 204, 222, 238, 255]

/-- What a value of UFO 1 is in UFO 2. -/
inductive Since1 : Str → PyVal → PyVal → Prop
  | style {v i s} : (s, i) ∈ stylesRead → IsRat v i → Since1 c!"fontStyle" v (.str s)
  | width {s i} : (i, s) ∈ widthsRead → Since1 c!"widthName" (.str s) (.int i)
  | characterSet {v} {c : Int} {n : Nat} : characterSets1[n]? = some c → IsRat v c → Since1 c!"msCharSet" v (.int (n + 1))
  /-- An integral float becomes an integer. -/
  | integral {a} {i : Int} : a ∉ [c!"fontStyle", c!"widthName", c!"msCharSet"] → Since1 a (.float (.fin i)) (.int i)
  /-- Other values stay, except not-a-number and the infinities, which are refused. -/
  | same {a v} : a ∉ [c!"fontStyle", c!"widthName", c!"msCharSet"] → (∀ f, v = .float f → ∃ q : Rat, f = .fin q ∧ ∀ i : Int, q ≠ i) → Since1 a v v

/-- The weight -1 stands for no weight. -/
def NoWeight (a : Str) (v : PyVal) : Prop := a = c!"weightValue" ∧ IsRat v (-1 : Int)

/-- What a value of UFO 2 is in UFO 1, by the attribute of UFO 2. -/
inductive Until1 : Str → PyVal → PyVal → Prop
  | style {s i} : (s, i) ∈ styles1 → Until1 c!"styleMapStyleName" (.str s) (.int i)
  | width {v i s} : (i, s) ∈ widths1 → IsRat v i → Until1 c!"openTypeOS2WidthClass" v (.str s)
  | characterSet {v} {c : Int} {n : Nat} : characterSets1[n]? = some c → IsRat v (n + 1 : Int) → Until1 c!"postscriptWindowsCharacterSet" v (.int c)
  | same {b v} : b ∉ [c!"styleMapStyleName", c!"openTypeOS2WidthClass", c!"postscriptWindowsCharacterSet"] → Until1 b v v

end Verif.Spec.InfoLegal
