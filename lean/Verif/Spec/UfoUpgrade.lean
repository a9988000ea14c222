import Verif.Model.UfoHistory
import Verif.Model.KerningReader
import Verif.Spec.Ufo
import Verif.Spec.PlistRead
/-! Loading the data of a UFO of any version and saving it as UFO 3: what is expected. -/
namespace Verif.Spec.Ufo
open Verif Verif.Ufo Verif.IO Verif.Kerning Verif.Spec.Plist

/-- The data of a font other than its glyphs, images and data files, as a reader delivers it. -/
structure Content where
  info : Dict Str PyVal
  groups : Dict Str (List Str)
  kerning : Dict (Str × Str) PyVal
  lib : PyVal
  features : Str

/-- A call of a reader of `fs`: both files are as they are in `fs`. -/
def CallIn (F : FloatCodec) (fs : FS) (c : KerningReader.Call) : Prop :=
  c.kerningFile = getPlist F fs [c!"kerning.plist"] (some (.dict [])) ∧ c.groupsFile = getPlist F fs [c!"groups.plist"] (some (.dict []))

/-- A reader of `fs` with this format version delivers the content, with validation. For UFO 1 and 2 groups and kerning are those returned
during some series of calls of `readGroups`, `readKerning` and `getKerningGroupConversionRenameMaps`; `ord1` and `ord2` are the orders in which Python
enumerates the sets of groups to be renamed. -/
structure Loads (E : FontInfo.Env) (ord1 ord2 : List Str → List Str) (fs : FS) (version : Int) (c : Content) : Prop where
  info : Ufo.readInfo E fs version true = .ok c.info
  lib : readLib E.F fs true = .ok c.lib
  features : readFeatures fs = .ok c.features
  old : version < 3 → ∃ cs c1 c2, (∀ x ∈ cs, CallIn E.F fs x) ∧ c1.validate = true ∧ c2.validate = true ∧
    (c1, .ok (.groups c.groups)) ∈ KerningReader.run (KerningReader.convertFiles ord1 ord2) none cs ∧
    (c2, .ok (.kerning c.kerning)) ∈ KerningReader.run (KerningReader.convertFiles ord1 ord2) none cs
  new : version = 3 → readGroups3 E.F fs true = .ok (groupsVal c.groups) ∧ readKerning3 E.F fs true = .ok c.kerning

/-- No carriage return in a string and no integer of more than 64 bits (see `C78_refuted`). Features may hold carriage returns. -/
structure Content.Fits (c : Content) : Prop where
  info : ∀ e ∈ c.info, Plist.Fits e.2
  groups : ∀ e ∈ c.groups, '\r' ∉ e.1 ∧ ∀ m ∈ e.2, '\r' ∉ m
  kerning : ∀ e ∈ c.kerning, '\r' ∉ e.1.1 ∧ '\r' ∉ e.1.2 ∧ Plist.Fits e.2
  lib : Plist.Fits c.lib

/-- The same content: dictionaries may be ordered differently. -/
structure Content.Agree (a b : Content) : Prop where
  info : ∀ attr, Option.Rel Same (Dict.get? a.info attr) (Dict.get? b.info attr)
  groups : ∀ n, Dict.get? b.groups n = Dict.get? a.groups n
  kerning : ∀ p, Dict.get? b.kerning p = Dict.get? a.kerning p
  lib : Same a.lib b.lib
  features : b.features = a.features

/-- The calls that save the content. -/
inductive Saves (c : Content) : Op → Prop
  | info : Saves c (.info (Dict.get? c.info) true)
  | groups : Saves c (.groups c.groups true)
  | kerning : Saves c (.kerning c.kerning true)
  | lib : Saves c (.lib c.lib true)
  | features : Saves c (.features c.features)

/-- The files the content is saved in. -/
def contentNames : List Str := [c!"fontinfo.plist", c!"groups.plist", c!"kerning.plist", c!"lib.plist", c!"features.fea"]

/-- A call that has nothing to do with the content or with metainfo.plist. -/
def Bystander (canon : Str → Str) (op : Op) : Prop := ∀ n ∈ c!"metainfo.plist" :: contentNames, Spares canon n op

/-- Two glyph sets with the same glyphs, the same GLIF texts and the same layer info, in UFOs of whatever versions. -/
structure SameFiles (F : FloatCodec) (a b : GlyphSet.World) : Prop where
  keys : GlyphSet.keys a.1 = GlyphSet.keys b.1
  texts : ∀ n, GlyphSet.getGLIF a n = GlyphSet.getGLIF b n
  info : ∀ v, GlyphSet.readLayerInfo F a v = GlyphSet.readLayerInfo F b v

/-- Opening a glyph set here and there: both raise the same, or the glyph sets agree. -/
def SameSet (F : FloatCodec) (r s : FS × Except Exc GlyphSet.GlyphSet) : Prop :=
  (∃ e, r.2 = .error e ∧ s.2 = .error e) ∨ ∃ a b, r.2 = .ok a ∧ s.2 = .ok b ∧ SameFiles F (a, r.1) (b, s.1)

end Verif.Spec.Ufo
