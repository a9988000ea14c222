import Verif.Spec.UfoFont
/-! Editing the glyphs of a layer that exists. -/
namespace Verif.Spec.GlyphSet
open Verif

/-- What is known of a glyph from the outcome of `getGLIF`. -/
def now : Except Exc Bytes → Status
  | .ok d => .holds d
  | .error .keyError => .absent
  | .error _ => .unknown

/-- A table of files to which glyphs with the names `N` can be added: ignoring case, no two glyphs have the same file, no glyph is in the files that the library uses itself, and a
file that is the own file of one of the names is not the file of another glyph. How the other files are called does not matter. -/
structure Editable (lower : Str → Str) (N : Str → Prop) (table : Dict Str Str) : Prop where
  distinct : Distinct lower table
  contents : Avoids lower c!"contents.plist" table
  layerinfo : Avoids lower c!"layerinfo.plist" table
  own : ∀ n, N n → ∀ m f, Dict.get? table m = some f → lower f = lower (ownFile lower n) → m = n

end Verif.Spec.GlyphSet
