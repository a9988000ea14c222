import Verif.Spec.FS
import Verif.Spec.Ufo
/-! A process that is stopped at any point of a call, with the file system left in the middle of whatever it was doing. -/
namespace Verif.Spec.Crash
open Verif Verif.Ufo Verif.Spec.FS Verif.Spec.Ufo

/-- What a file system can be left with when the process stops in the middle of a mutation. A file that is being written holds anything. A tree that
is being removed has lost any part of it. Of a tree that is being moved nothing is said, neither at its source nor at its destination. Removing a file
and making a directory are done in one go. Everything else is as it was. -/
inductive Halfway (nodes : Dict Path Node) : Prim → Dict Path Node → Prop
  | write {p d nodes'} (at_ : ∃ x, Dict.get? nodes' p = some (.file x)) (rest : ∀ k, k ≠ p → Dict.get? nodes' k = Dict.get? nodes k) :
      Halfway nodes (.write p d) nodes'
  | rmtree {p nodes'} (below : ∀ k, p <+: k → Dict.get? nodes' k = Dict.get? nodes k ∨ Dict.get? nodes' k = none)
      (rest : ∀ k, ¬ p <+: k → Dict.get? nodes' k = Dict.get? nodes k) : Halfway nodes (.rmtree p) nodes'
  | move {s d nodes'} (rest : ∀ k, ¬ s <+: k → ¬ d <+: k → Dict.get? nodes' k = Dict.get? nodes k) : Halfway nodes (.move s d) nodes'

/-- The file systems that are left behind when the process stops while it makes these mutations: between two of them, or in the middle of one. -/
inductive StoppedIn (fs : FS) (acts : List Prim) : FS → Prop
  | between (k : Nat) : StoppedIn fs acts (performAll fs (acts.take k))
  | during (k : Nat) {a : Prim} {fs' : FS} (h : acts[k]? = some a) (hc : fs'.canon = fs.canon)
      (hn : Halfway (performAll fs (acts.take k)).nodes a fs'.nodes) : StoppedIn fs acts fs'

/-- The file systems that are left behind when the process stops somewhere between the states `fs` (before a call) and `fs'` (after it). -/
def StoppedBetween (fs fs' left : FS) : Prop := ∃ acts, fs'.log = fs.log ++ acts ∧ StoppedIn fs acts left

/-- A call that does not endanger the table of layers: it is about entries other than the table and the layers, or it is a call on a glyph set (of
some directory other than the table), or it obtains a glyph set. -/
inductive KeepsLayers (canon : Str → Str) : Op → Prop
  | aside {op} (table : Spares canon c!"layercontents.plist" op) (dirs : ∀ d, GlyphsDir d → Spares canon d op) : KeepsLayers canon op
  | within {op} (h : InGlyphSet op) (table : Spares canon c!"layercontents.plist" op) : KeepsLayers canon op
  | glyphSet {n d v} (table : Spares canon c!"layercontents.plist" (.glyphSet n d v)) : KeepsLayers canon (.glyphSet n d v)

/-- The call is `writeGlyph` or `deleteGlyph` of this glyph. -/
inductive IsAbout (n : Str) : GlyphSet.Op → Prop
  | write {naming fv data} : IsAbout n (.write naming n fv data)
  | delete : IsAbout n (.delete n)

end Verif.Spec.Crash
