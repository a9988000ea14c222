import Verif.Model.UfoShared
import Verif.Spec.Ufo
/-! Which part of the UFO a program works on. -/
namespace Verif.Spec.Ufo
open Verif Verif.Ufo

/-- The entries of the root directory that a call of a program is about: a layer that the writer knows is in its directory, and a layer that it does not know may get any
glyph directory; a glyph set is in its directory. -/
def About (f : Font) : FontCall → Str → Prop
  | .getGlyphSet (some n) _ _, c => match Dict.get? f.writer.layers n with
    | some d => c = d
    | none => GlyphsDir c
  | .getGlyphSet none _ _, c => GlyphsDir c
  | .ufo (.delete (some n)), c => Dict.get? f.writer.layers n = some c
  | .ufo op, c => Concerns op c
  | .set i _, c => ∃ gs, f.sets[i]? = some gs ∧ (gs.dir = [] ∨ gs.dir.head? = some c)

/-- A program that, when it runs alone, makes only calls about the entries `S` of the root directory. -/
def KeepsTo (E : FontInfo.Env) (L : Casing) (S : Str → Prop) (f : Font) : List FontCall → Prop
  | [] => True
  | c :: cs => (∀ e, About f c e → S e) ∧ KeepsTo E L S (f.step E L c).1 cs

/-- The calls of the program number `i` in a schedule. -/
def callsOf (i : Nat) : List (Nat × FontCall) → List FontCall
  | [] => []
  | (j, c) :: rest => if j = i then c :: callsOf i rest else callsOf i rest

/-- Entries that are different for the file system: two programs do not share one. -/
structure Divided (canon : Str → Str) (S : Nat → Str → Prop) : Prop where
  apart : ∀ i j a b, i ≠ j → S i a → S j b → canon a ≠ canon b
  /-- Names that the file system does not distinguish go together. -/
  whole : ∀ i a b, canon a = canon b → S i a → S i b

end Verif.Spec.Ufo
