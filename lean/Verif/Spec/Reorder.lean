import Verif.Spec.UfoShared
/-! What it means that calls of a program are made in another order. -/
namespace Verif.Spec.Reorder
open Verif Verif.Ufo Verif.Spec.Ufo

/-- Calls that write data; the others (getting, renaming and deleting glyph sets, and giving the maps for the names of groups) change what the writer remembers. -/
def WritesData : FontCall → Prop
  | .getGlyphSet _ _ _ => False
  | .ufo (.maps _ _) => False
  | .ufo (.glyphSet _ _ _) => False
  | .ufo (.rename _ _ _) => False
  | .ufo (.delete _) => False
  | _ => True

/-- Two calls that write data, about different entries of the root directory. -/
structure Independent (f : Font) (c d : FontCall) : Prop where
  first : WritesData c
  second : WritesData d
  apart : ∀ a b, About f c a → About f d b → f.fs.canon a ≠ f.fs.canon b

/-- The calls in another order: neighbouring calls were exchanged that are independent when they are made, any number of times. -/
inductive Reordered (E : FontInfo.Env) (L : Casing) : Font → List FontCall → List FontCall → Prop
  | refl (f : Font) (cs : List FontCall) : Reordered E L f cs cs
  | cons (f : Font) (c : FontCall) (cs cs' : List FontCall) (h : Reordered E L (f.step E L c).1 cs cs') : Reordered E L f (c :: cs) (c :: cs')
  | swap (f : Font) (c d : FontCall) (cs : List FontCall) (h : Independent f c d) : Reordered E L f (c :: d :: cs) (d :: c :: cs)
  | trans (f : Font) (cs cs' cs'' : List FontCall) (h : Reordered E L f cs cs') (h' : Reordered E L f cs' cs'') : Reordered E L f cs cs''

/-- The same objects and the same files. -/
structure SameState (f g : Font) : Prop where
  writer : f.writer = g.writer
  sets : f.sets = g.sets
  canon : f.fs.canon = g.fs.canon
  files : ∀ q, f.fs.node? q = g.fs.node? q

end Verif.Spec.Reorder
