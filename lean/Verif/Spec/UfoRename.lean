import Verif.Model.UfoFont
/-! What renaming and deleting layers is expected to do. -/
namespace Verif.Spec.Ufo
open Verif Verif.Ufo

/-- Two glyph sets with the same glyphs, the same GLIF texts and the same layer info. -/
structure SameGlyphs (F : FloatCodec) (a b : GlyphSet.World) : Prop where
  version : a.1.version = b.1.version
  keys : GlyphSet.keys a.1 = GlyphSet.keys b.1
  texts : ∀ n, GlyphSet.getGLIF a n = GlyphSet.getGLIF b n
  info : ∀ v, GlyphSet.readLayerInfo F a v = GlyphSet.readLayerInfo F b v

/-- Two calls that return a glyph set end in the same way: both raise the same exception or both return glyph sets with the same content. -/
def SameOutcome (F : FloatCodec) (r s : FS × Except Exc GlyphSet.GlyphSet) : Prop :=
  (∃ e, r.2 = .error e ∧ s.2 = .error e) ∨ ∃ g h, r.2 = .ok g ∧ s.2 = .ok h ∧ SameGlyphs F (g, r.1) (h, s.1)

/-- `getGlyphSet` of the writer for a layer that exists, with the files as they are then. -/
def layerOf (L : Casing) (F : FloatCodec) (w : World) (n : Str) (validateRead : Bool) : FS × Except Exc GlyphSet.GlyphSet :=
  let r := getGlyphSet L F w (some n) false validateRead
  (r.1.2, r.2)

/-- There is nothing at the directory `d`. -/
def Vacant (fs : FS) (d : Str) : Prop := ∀ p, fs.node? (d :: p) = none

end Verif.Spec.Ufo
