import Verif.Spec.GlifRewrite
import Verif.Spec.GlyphSet
import Verif.Model.GlifFile
/-! Copying glyphs from one glyph set to another: read every glyph, write it under its name. -/
namespace Verif.Spec.Copy
open Verif Verif.Glif Verif.Spec.Glif

/-- A glyph as the caller holds it: its name, the attributes that were read and the calls that draw it. -/
abbrev Loaded := Str × Dict Str PyVal × List Call

/-- The calls `writeGlyph(name, glyph, glyph.drawPoints)` for these glyphs. -/
def writes (E : Env) (naming : GlyphSet.Naming) (glyphs : List Loaded) : List GlyphSet.Op :=
  glyphs.map fun g => .write naming g.1 none fun v => GlifFile.writeGlyphToBytes E true v.toNat (.str g.1) (asObj g.2.1) (some g.2.2)

/-- Every call of the history returns. -/
def AllReturn (L : Casing) (F : FloatCodec) (w : GlyphSet.World) (ops : List GlyphSet.Op) : Prop :=
  ∀ pre op, pre ++ [op] <+: ops → (GlyphSet.step L F (GlyphSet.run L F w pre) op).2 = .ok ()

/-- A directory that holds no directories. -/
def Flat (fs : FS) (dir : Path) : Prop := fs.node? dir = some .dir ∧ ∀ f, fs.node? (dir ++ [f]) ≠ some .dir

/-- What is loaded is what can be read from the glyph set, with validation. -/
def LoadedFrom (E : Env) (w : GlyphSet.World) (glyphs : List Loaded) : Prop :=
  ∀ g ∈ glyphs, GlyphSet.readGlyph E w g.1 true true true = .ok g.2

/-- The glyph can be read, and is the same as the one held by the caller. -/
def HoldsGlyph (E : Env) (w : GlyphSet.World) (g : Loaded) : Prop :=
  ∃ attrs calls, GlyphSet.readGlyph E w g.1 true true true = .ok (attrs, calls) ∧ List.Forall₂ SameCall g.2.2 calls ∧ SameGlyph (.str g.1) (asObj g.2.1) attrs

end Verif.Spec.Copy
