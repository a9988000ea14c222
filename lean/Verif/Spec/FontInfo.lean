import Verif.Spec.Woff
import Verif.Spec.Plist
/-! Font info: what conversions should do, independent of the model. The attribute lists follow the UFO 3 specification. -/
namespace Verif.Spec.FontInfo
open Verif Verif.Spec.Validators

/-- Attributes that UFO 3 requires to be integers and UFO 2 allowed to be any number. -/
def integerSince3 : List Str :=
  [c!"openTypeHheaAscender", c!"openTypeHheaDescender", c!"openTypeHheaLineGap", c!"openTypeHheaCaretOffset",
   c!"openTypeOS2TypoAscender", c!"openTypeOS2TypoDescender", c!"openTypeOS2TypoLineGap",
   c!"openTypeOS2SubscriptXSize", c!"openTypeOS2SubscriptYSize", c!"openTypeOS2SubscriptXOffset", c!"openTypeOS2SubscriptYOffset",
   c!"openTypeOS2SuperscriptXSize", c!"openTypeOS2SuperscriptYSize", c!"openTypeOS2SuperscriptXOffset", c!"openTypeOS2SuperscriptYOffset",
   c!"openTypeOS2StrikeoutSize", c!"openTypeOS2StrikeoutPosition",
   c!"openTypeVheaVertTypoAscender", c!"openTypeVheaVertTypoDescender", c!"openTypeVheaVertTypoLineGap", c!"openTypeVheaCaretOffset"]

/-- Attributes that UFO 3 requires to be non-negative integers and UFO 2 allowed to be any number. -/
def nonNegativeIntegerSince3 : List Str := [c!"openTypeHeadLowestRecPPEM", c!"openTypeOS2WinAscent", c!"openTypeOS2WinDescent"]

/-- Attributes that are lists of integers out of a fixed set. -/
def integerLists : List Str :=
  [c!"openTypeHeadFlags", c!"openTypeOS2Selection", c!"openTypeOS2UnicodeRanges", c!"openTypeOS2CodePageRanges", c!"openTypeOS2Type"]

/-- `i` is the integer nearest to `q`, the even one if there are two. -/
def Nearest (q : Rat) (i : Int) : Prop := (i : Rat) - 1 / 2 ≤ q ∧ q ≤ (i : Rat) + 1 / 2 ∧ (q = (i : Rat) - 1 / 2 ∨ q = (i : Rat) + 1 / 2 → 2 ∣ i)

/-- The value is a finite number. -/
def IsRat (v : PyVal) (q : Rat) : Prop := NumIs v (.fin q)

/-- The values of UFO 2 that the conversion does not turn into a value legal in UFO 3. -/
inductive Unreadable : Str → PyVal → Prop
  /-- Not-a-number and the infinities have no nearest integer. -/
  | notFinite {attr f} : attr ∈ integerSince3 ∨ attr ∈ nonNegativeIntegerSince3 → (∀ q, f ≠ .fin q) → Unreadable attr (.float f)
  /-- An integral float stays a float. -/
  | integral {attr} {i : Int} : attr ∈ integerSince3 → Unreadable attr (.float (.fin i))
  /-- Negative units per em are not converted. -/
  | negativeEm {v q} : IsRat v q → q < 0 → Unreadable c!"unitsPerEm" v
  /-- The same for minus infinity. -/
  | negativeInfiniteEm : Unreadable c!"unitsPerEm" (.float (.inf true))
  /-- Negative panose digits. -/
  | panose {v l x i} : IsSeq v l → x ∈ l → IsInt x i → i < 0 → Unreadable c!"openTypeOS2Panose" v

/-- The attributes of UFO 1 and their names in UFO 2. -/
def version1 : List (Str × Str) :=
  [(c!"familyName", c!"familyName"), (c!"styleName", c!"styleName"), (c!"fullName", c!"postscriptFullName"),
   (c!"fontName", c!"postscriptFontName"), (c!"menuName", c!"styleMapFamilyName"), (c!"fontStyle", c!"styleMapStyleName"),
   (c!"note", c!"note"), (c!"versionMajor", c!"versionMajor"), (c!"versionMinor", c!"versionMinor"),
   (c!"year", c!"year"), (c!"copyright", c!"copyright"), (c!"notice", c!"openTypeNameDescription"),
   (c!"trademark", c!"trademark"), (c!"license", c!"openTypeNameLicense"), (c!"licenseURL", c!"openTypeNameLicenseURL"),
   (c!"createdBy", c!"openTypeNameManufacturer"), (c!"designer", c!"openTypeNameDesigner"), (c!"designerURL", c!"openTypeNameDesignerURL"),
   (c!"vendorURL", c!"openTypeNameManufacturerURL"), (c!"unitsPerEm", c!"unitsPerEm"), (c!"ascender", c!"ascender"),
   (c!"descender", c!"descender"), (c!"capHeight", c!"capHeight"), (c!"xHeight", c!"xHeight"),
   (c!"defaultWidth", c!"postscriptDefaultWidthX"), (c!"slantAngle", c!"postscriptSlantAngle"), (c!"italicAngle", c!"italicAngle"),
   (c!"widthName", c!"openTypeOS2WidthClass"), (c!"weightName", c!"postscriptWeightName"), (c!"weightValue", c!"openTypeOS2WeightClass"),
   (c!"fondName", c!"macintoshFONDName"), (c!"otFamilyName", c!"openTypeNamePreferredFamilyName"), (c!"otStyleName", c!"openTypeNamePreferredSubfamilyName"),
   (c!"otMacName", c!"openTypeNameCompatibleFullName"), (c!"msCharSet", c!"postscriptWindowsCharacterSet"), (c!"fondID", c!"macintoshFONDFamilyID"),
   (c!"uniqueID", c!"postscriptUniqueID"), (c!"ttVendor", c!"openTypeOS2VendorID"), (c!"ttUniqueID", c!"openTypeNameUniqueID"),
   (c!"ttVersion", c!"openTypeNameVersion")]

/-- The font styles of UFO 1. -/
def styles1 : List (Str × Int) := [(c!"regular", 64), (c!"italic", 1), (c!"bold", 32), (c!"bold italic", 33)]

/-- The width names of UFO 1 for width classes 1 to 9. -/
def widths1 : List (Int × Str) :=
  [(1, c!"Ultra-condensed"), (2, c!"Extra-condensed"), (3, c!"Condensed"), (4, c!"Semi-condensed"), (5, c!"Medium (normal)"),
   (6, c!"Semi-expanded"), (7, c!"Expanded"), (8, c!"Extra-expanded"), (9, c!"Ultra-expanded")]

/-- The entry of a dictionary, `None` counting as absent. -/
def present : Option PyVal → Option PyVal
  | some .none => none
  | o => o

/-- A dictionary with string keys, as a value. -/
def asDict (d : Dict Str PyVal) : PyVal := .dict (d.map fun p => (.str p.1, p.2))

/-- Both entries are missing or both are there with values that Python calls equal. -/
inductive SameEntry : Option PyVal → Option PyVal → Prop
  | none : SameEntry none none
  | some {v w} : PyVal.pyEq w v = true → SameEntry (some v) (some w)

end Verif.Spec.FontInfo
