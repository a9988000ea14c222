import Verif.Model.UfoHistory
import Verif.Spec.Plist
/-! What is expected of the reader and the writer, independent of the model's helpers. -/
namespace Verif.Spec.Ufo
open Verif Verif.Ufo

/-- A directory for glyphs: `glyphs` or `glyphs.` followed by something. -/
def GlyphsDir (d : Str) : Prop := d = c!"glyphs" ∨ ∃ r, d = c!"glyphs." ++ r

/-- The entry of the root directory that a call is about. Nothing else in the UFO is to change. -/
inductive Concerns : Op → Str → Prop
  | info {i v} : Concerns (.info i v) c!"fontinfo.plist"
  | lib {l v} : Concerns (.lib l v) c!"lib.plist"
  | groups {g v} : Concerns (.groups g v) c!"groups.plist"
  | kerning {k v} : Concerns (.kerning k v) c!"kerning.plist"
  | features {s} : Concerns (.features s) c!"features.fea"
  | glyphSet {n d v c} : GlyphsDir c → Concerns (.glyphSet n d v) c
  | rename {n m d c} : GlyphsDir c → Concerns (.rename n m d) c
  | delete {n c} : GlyphsDir c → Concerns (.delete n) c
  | layerContents {o v} : Concerns (.layerContents o v) c!"layercontents.plist"
  | image {n d v} : Concerns (.image n d v) c!"images"
  | removeImage {n} : Concerns (.removeImage n) c!"images"
  | bytes {c p d} : Concerns (.bytes (c :: p) d) c
  | remove {c p f e} : Concerns (.remove (c :: p) f e) c
  | removeRoot {c f e} : Concerns (.remove [] f e) c
  | copy {s c p q} : Concerns (.copy s p (c :: q)) c
  | copyImage {s n m} : Concerns (.copyImage s n m) c!"images"
  | glyph {gs op c} : gs.dir.head? = some c → Concerns (.glyph gs op) c
  | glyphRoot {gs op c} : gs.dir = [] → Concerns (.glyph gs op) c
  | layerInfo {gs i v c} : gs.dir.head? = some c → Concerns (.layerInfo gs i v) c
  | layerInfoRoot {gs i v c} : gs.dir = [] → Concerns (.layerInfo gs i v) c

/-- A call on a glyph set of some directory. -/
inductive InGlyphSet : Op → Prop
  | glyph {gs op} : gs.dir ≠ [] → InGlyphSet (.glyph gs op)
  | layerInfo {gs i v} : gs.dir ≠ [] → InGlyphSet (.layerInfo gs i v)

/-- A call that leaves the entry `f` of the root directory alone, on a file system that compares names by `canon`. -/
def Spares (canon : Str → Str) (f : Str) (op : Op) : Prop := ∀ c, Concerns op c → canon c ≠ canon f

/-- The files of the root directory of a UFO, and the directories of images and of data. -/
def standardNames : List Str :=
  [c!"metainfo.plist", c!"fontinfo.plist", c!"lib.plist", c!"groups.plist", c!"kerning.plist", c!"features.fea", c!"layercontents.plist", c!"images", c!"data"]

/-- The file system keeps the standard names apart, from each other and from glyph directories. -/
structure KeepsApart (canon : Str → Str) : Prop where
  names : ∀ a ∈ standardNames, ∀ b ∈ standardNames, canon a = canon b → a = b
  dirs : ∀ a ∈ standardNames, ∀ d, GlyphsDir d → canon d ≠ canon a

/-- A value for a property list file. -/
def Storable (v : PyVal) : Prop := Plist.Representable Plist.FileText v ∧ Plist.WellFormed v

/-- The layers of a writer are kept in glyph directories. -/
def LayerDirs (layers : Dict Str Str) : Prop := ∀ n d, Dict.get? layers n = some d → GlyphsDir d

/-- `str.lower` changes the ASCII characters at the start of a string one by one, whatever follows them. -/
def AsciiPrefix (L : Casing) : Prop := ∀ a s : Str, (∀ c ∈ a, c.toNat < 128) → 
  ∃ t, L.lower (a ++ s) = a.map asciiLowerChar ++ t ∧ (s = [] → t = [])

/-- Different layers are in different directories, ignoring case. -/
def ApartDirs (L : Casing) (layers : Dict Str Str) : Prop :=
  ∀ n m d e, Dict.get? layers n = some d → Dict.get? layers m = some e → n ≠ m → L.lower d ≠ L.lower e

/-- The call is not the one that makes a second layer the default layer: renaming a layer to its own name with `defaultLayer=True` while
another layer is the default layer. -/
def Harmless (layers : Dict Str Str) (op : Op) : Prop :=
  ∀ n, op = .rename (some n) (some n) true → ∀ m, m ≠ n → Dict.get? layers m ≠ some c!"glyphs"

/-- Every call of a history is harmless when it is made. -/
def HarmlessRun (E : FontInfo.Env) (L : Casing) (w : World) (ops : List Op) : Prop :=
  ∀ pre op post, ops = pre ++ op :: post → Harmless (run E L w pre).1.layers op

end Verif.Spec.Ufo
