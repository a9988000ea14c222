import Verif.Model.UfoFont
import Verif.Spec.Ufo
import Verif.Spec.GlyphSet
/-! What is expected of a program that saves a font. -/
namespace Verif.Spec.Ufo
open Verif Verif.Ufo

/-- The call that is made on the glyph set number `i`. -/
def onSet (i : Nat) : FontCall → Option GlyphSet.SetCall
  | .set j c => if j = i then some c else none
  | _ => none

/-- The glyph set number `i` belongs to the layer `n`, which is kept in the directory `d`. -/
structure OwnsLayer (f : Font) (i : Nat) (n d : Str) : Prop where
  set : ∃ gs, f.sets[i]? = some gs ∧ gs.dir = [d]
  layer : Dict.get? f.writer.layers n = some d
  dir : f.fs.node? [d] = some .dir

/-- The call leaves the layer `n` in the directory `d` alone, unless it is made on the glyph set number `i`: it is made on the glyph set of another
layer, is `getGlyphSet`, renames or deletes another layer, or does not concern the directory. -/
def LeavesLayer (i : Nat) (n d : Str) (f : Font) : FontCall → Prop
  | .getGlyphSet _ _ _ => True
  | .set j _ => j = i ∨ ∀ gs, f.sets[j]? = some gs → ∃ e, gs.dir = [e] ∧ f.fs.canon e ≠ f.fs.canon d
  | .ufo op => Spares f.fs.canon d op ∨ (∃ m b v, op = .glyphSet m b v) ∨ (∃ m k b, op = .rename m k b ∧ m ≠ some n) ∨ ∃ m, op = .delete (some m) ∧ m ≠ n

/-- Every call of a history leaves the layer alone when it is made, and is not the harmful call of C58. -/
def LeavesLayerRun (E : FontInfo.Env) (L : Casing) (i : Nat) (n d : Str) (f : Font) (calls : List FontCall) : Prop :=
  ∀ pre c post, calls = pre ++ c :: post → LeavesLayer i n d (f.run E L pre) c ∧ ∀ op, c = .ufo op → Harmless (f.run E L pre).writer.layers op

/-- The state of a program with a version 3 writer on a file system that distinguishes at least names that differ ignoring case: layers are in different directories, which exist. -/
structure Consistent (L : Casing) (f : Font) : Prop where
  version : f.writer.version = 3
  canon : ∀ a b, f.fs.canon a = f.fs.canon b → L.lower a = L.lower b
  nodes : Dict.WF f.fs.nodes
  layers : Dict.WF f.writer.layers
  dirs : LayerDirs f.writer.layers
  apart : ApartDirs L f.writer.layers
  present : ∀ n d, Dict.get? f.writer.layers n = some d → f.fs.exists [d] = true
  sets : ∀ gs ∈ f.sets, gs.dir ≠ []

/-- The calls on a glyph set that are about glyphs. -/
def glyphCall : GlyphSet.SetCall → Option GlyphSet.Op
  | .glyphs op => some op
  | .layerInfo _ _ => none

/-- What the caller knows after a call on a glyph set of the given UFO version: the call and how it ended. -/
def observed (version : Nat) : GlyphSet.SetCall → Except Exc Unit → Spec.GlyphSet.Call
  | .glyphs (.write _ n fv data), .ok _ => match data (fv.getD (if 3 ≤ version then 2 else 1)) with
    | .ok d => .wrote n d
    | .error _ => .other
  | .glyphs (.write _ n _ _), .error _ => .writeFailed n
  | .glyphs (.delete n), .ok _ => .deleted n
  | .glyphs (.delete n), .error _ => .deleteFailed n
  | _, _ => .other

/-- The record of the calls on the glyph set number `i` in a history. -/
def record (E : FontInfo.Env) (L : Casing) (i version : Nat) (f : Font) (calls : List FontCall) : List Spec.GlyphSet.Call :=
  List.zipWith (observed version) (calls.filterMap (onSet i)) (f.outcomes E L i calls)

end Verif.Spec.Ufo
