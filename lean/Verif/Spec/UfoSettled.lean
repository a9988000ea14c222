import Verif.Spec.UfoCopy
/-! Saving a font in place, into the UFO it was loaded from: which calls a program makes. -/
namespace Verif.Spec.Ufo
open Verif Verif.Ufo Verif.Spec.Copy

/-- The calls on its glyph set that save a layer: a glyph (with any function for choosing file names), the table of contents, the layer info. -/
inductive SavesLayer (G : Glif.Env) (l : Layer) : GlyphSet.SetCall → Prop
  | glyph {naming op} : op ∈ writes G naming l.glyphs → SavesLayer G l (.glyphs op)
  | table : SavesLayer G l (.glyphs .save)
  | info : SavesLayer G l (.layerInfo (infoObject l.info) true)

/-- A program that saves parts of the font, each any number of times and in any order: it gets glyph sets of layers, makes the calls that save a layer on glyph sets of that layer, makes calls that
save the content, and writes the layer contents in the order of the layers. -/
structure Resaves (G : Glif.Env) (font : Whole) (calls : List FontCall) : Prop where
  gets : ∀ n b, (n, b) ∈ calls.filterMap getCall → ∃ l ∈ font.layers, n = some l.name ∧ b = l.default
  sets : ∀ pre i s post, calls = pre ++ .set i s :: post → ∃ l ∈ font.layers, (pre.filterMap getCall)[i]? = some (some l.name, l.default) ∧ SavesLayer G l s
  others : ∀ op, .ufo op ∈ calls → Saves font.content op ∨ ∃ order, (order = none ∨ order = some (font.layers.map fun l => some l.name)) ∧ op = .layerContents order true

end Verif.Spec.Ufo
