import Verif.Spec.Validators
/-! The structure of name records, WOFF metadata and images, independent of the model. -/
namespace Verif.Spec.Woff
open Verif Verif.Spec.Validators

/-- The value is a list. -/
def IsListVal (v : PyVal) : Prop := ∃ l, v = .list l

/-- The value is an integer. -/
def IsIntVal (v : PyVal) : Prop := ∃ i, IsInt v i

/-- A direction, if there is one, is `ltr` or `rtl`. -/
def Directed (d : List (PyVal × PyVal)) : Prop := ∀ v, (.str c!"dir", v) ∈ d → v = .str c!"ltr" ∨ v = .str c!"rtl"

/-- If the dictionary has the key, its value is a list with items satisfying `P`. -/
def ListOf (P : PyVal → Prop) (d : List (PyVal × PyVal)) (k : Str) : Prop := ∀ v, (.str k, v) ∈ d → ∃ l, v = .list l ∧ ∀ x ∈ l, P x

/-- A text record: also the names and values of extensions. -/
def TextRecord (v : PyVal) : Prop :=
  ∃ d, v = .dict d ∧ HasFields [(c!"text", IsString)] [(c!"language", IsString), (c!"dir", IsString), (c!"class", IsString)] d ∧ Directed d

/-- A name record. -/
def NameRecord (v : PyVal) : Prop :=
  ∃ d, v = .dict d ∧ HasFields [(c!"nameID", IsIntVal), (c!"platformID", IsIntVal), (c!"encodingID", IsIntVal), (c!"languageID", IsIntVal), (c!"string", IsString)] [] d

/-- `woffMetadataUniqueID`. -/
def UniqueID (v : PyVal) : Prop := ∃ d, v = .dict d ∧ HasFields [(c!"id", IsString)] [] d

/-- `woffMetadataVendor`. -/
def Vendor (v : PyVal) : Prop :=
  ∃ d, v = .dict d ∧ HasFields [(c!"name", IsString)] [(c!"url", IsString), (c!"dir", IsString), (c!"class", IsString)] d ∧ Directed d

/-- One credit. -/
def Credit (v : PyVal) : Prop :=
  ∃ d, v = .dict d ∧ HasFields [(c!"name", IsString)] [(c!"url", IsString), (c!"role", IsString), (c!"dir", IsString), (c!"class", IsString)] d ∧ Directed d

/-- `woffMetadataCredits`: at least one. -/
def Credits (v : PyVal) : Prop :=
  ∃ d, v = .dict d ∧ HasFields [(c!"credits", IsListVal)] [] d ∧ ListOf Credit d c!"credits" ∧ (.str c!"credits", .list []) ∉ d

/-- `woffMetadataDescription`. -/
def Description (v : PyVal) : Prop := ∃ d, v = .dict d ∧ HasFields [(c!"text", IsListVal)] [(c!"url", IsString)] d ∧ ListOf TextRecord d c!"text"

/-- `woffMetadataLicense`. -/
def License (v : PyVal) : Prop :=
  ∃ d, v = .dict d ∧ HasFields [] [(c!"url", IsString), (c!"text", IsListVal), (c!"id", IsString)] d ∧ ListOf TextRecord d c!"text"

/-- `woffMetadataTrademark` and `woffMetadataCopyright`. -/
def Texts (v : PyVal) : Prop := ∃ d, v = .dict d ∧ HasFields [(c!"text", IsListVal)] [] d ∧ ListOf TextRecord d c!"text"

/-- `woffMetadataLicensee`. -/
def Licensee (v : PyVal) : Prop :=
  ∃ d, v = .dict d ∧ HasFields [(c!"name", IsString)] [(c!"dir", IsString), (c!"class", IsString)] d ∧ Directed d

/-- An item of an extension. -/
def ExtensionItem (v : PyVal) : Prop :=
  ∃ d, v = .dict d ∧ HasFields [(c!"names", IsListVal), (c!"values", IsListVal)] [(c!"id", IsString)] d ∧ ListOf TextRecord d c!"names" ∧ ListOf TextRecord d c!"values"

/-- An extension. -/
def Extension (v : PyVal) : Prop :=
  ∃ d, v = .dict d ∧ HasFields [(c!"items", IsListVal)] [(c!"names", IsListVal), (c!"id", IsString)] d ∧ ListOf TextRecord d c!"names" ∧ ListOf ExtensionItem d c!"items"

/-- `woffMetadataExtensions`: at least one. -/
def Extensions (v : PyVal) : Prop := ∃ l, v = .list l ∧ l ≠ [] ∧ ∀ x ∈ l, Extension x

/-- An image reference. -/
def Image (F : FloatCodec) (v : PyVal) : Prop :=
  ∃ d, v = .dict d ∧ HasFields [(c!"fileName", IsString)] [(c!"xScale", IsNum), (c!"xyScale", IsNum), (c!"yxScale", IsNum), (c!"yScale", IsNum),
      (c!"xOffset", IsNum), (c!"yOffset", IsNum), (c!"color", IsString)] d ∧
    (.str c!"fileName", .str []) ∉ d ∧ ∀ c, Field d c!"color" c → ∃ s, c = .str s ∧ FourNumbers F (Within 0 1) s

/-- Dictionaries at any depth have pairwise different keys (always true of Python dictionaries). -/
inductive Keyed : PyVal → Prop
  | dict (d : List (PyVal × PyVal)) (h : (d.map Prod.fst).Nodup) (h' : ∀ p ∈ d, Keyed p.2) : Keyed (.dict d)
  | list (l : List PyVal) (h : ∀ x ∈ l, Keyed x) : Keyed (.list l)
  | tuple (l : List PyVal) (h : ∀ x ∈ l, Keyed x) : Keyed (.tuple l)
  | atom (v : PyVal) (h : Atomic v) : Keyed v

/-- No `None` at any depth (property lists have none). -/
inductive NoNone : PyVal → Prop
  | dict (d : List (PyVal × PyVal)) (h : ∀ p ∈ d, NoNone p.2) : NoNone (.dict d)
  | list (l : List PyVal) (h : ∀ x ∈ l, NoNone x) : NoNone (.list l)
  | tuple (l : List PyVal) (h : ∀ x ∈ l, NoNone x) : NoNone (.tuple l)
  | atom (v : PyVal) (h : Atomic v) (h' : v ≠ .none) : NoNone v

end Verif.Spec.Woff
