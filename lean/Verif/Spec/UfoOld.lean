import Verif.Spec.Ufo
/-! UFOs of version 1 and 2: what they consist of. -/
namespace Verif.Spec.Ufo
open Verif Verif.Ufo

/-- The entries of the root directory that the specification of the version defines. -/
def oldEntries (version : Int) : List Str :=
  if version = 1 then [c!"metainfo.plist", c!"fontinfo.plist", c!"lib.plist", c!"groups.plist", c!"kerning.plist", c!"glyphs"]
  else [c!"metainfo.plist", c!"fontinfo.plist", c!"lib.plist", c!"groups.plist", c!"kerning.plist", c!"features.fea", c!"glyphs"]

/-- The calls that are about parts of a font: all but those on paths that the caller makes up. Glyph sets are those of the directory `glyphs`, the only ones a writer for these versions gives out. -/
inductive FontOp : Op → Prop
  | maps {a b} : FontOp (.maps a b)
  | info {i v} : FontOp (.info i v)
  | lib {l v} : FontOp (.lib l v)
  | groups {g v} : FontOp (.groups g v)
  | kerning {k v} : FontOp (.kerning k v)
  | features {s} : FontOp (.features s)
  | glyphSet {n d v} : FontOp (.glyphSet n d v)
  | rename {n m d} : FontOp (.rename n m d)
  | delete {n} : FontOp (.delete n)
  | layerContents {o v} : FontOp (.layerContents o v)
  | image {n d v} : FontOp (.image n d v)
  | removeImage {n} : FontOp (.removeImage n)
  | copyImage {s n m} : FontOp (.copyImage s n m)
  | glyph {gs op} : gs.dir = [c!"glyphs"] → FontOp (.glyph gs op)
  | layerInfo {gs i v} : gs.dir = [c!"glyphs"] → FontOp (.layerInfo gs i v)

/-- Two calls on a glyph set that agree, except that what is to be written in other GLIF formats than 1 may differ. -/
inductive SameFormat1 : GlyphSet.SetCall → GlyphSet.SetCall → Prop
  | write {naming n fv data data'} : data 1 = data' 1 → SameFormat1 (.glyphs (.write naming n fv data)) (.glyphs (.write naming n fv data'))
  | same {c} : SameFormat1 c c

end Verif.Spec.Ufo
