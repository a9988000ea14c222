import Verif.Model.Times
/-! Clocks that are fine enough. -/
namespace Verif.Spec.Times
open Verif

/-- The clock goes on between any two mutations, and what was there before is older. -/
structure Fine (c : Clock) : Prop where
  ticks : ∀ n m, n < m → c.tick n < c.tick m
  older : ∀ k n, c.start k < c.tick n

/-- What a program remembers of a glyph: the time and the data of its file. -/
structure Remembered where
  time : Rat
  data : Bytes

/-- A program that reads a glyph only when the time of its file is not the one it remembers. -/
def recall (c : Clock) (w : GlyphSet.World) (n : Str) (r : Remembered) : Except Exc Bytes :=
  match GlyphSet.getGLIFModificationTime c w n with
  | .error e => .error e
  | .ok t => if t = some r.time then .ok r.data else GlyphSet.getGLIF w n

end Verif.Spec.Times
