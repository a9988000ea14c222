import Verif.Spec.Crash
import Verif.Spec.Cut
/-! A process that is stopped at any point of a session, where a file that is being written holds the beginning of what is written. -/
namespace Verif.Spec.Interrupt
open Verif Verif.Ufo Verif.Spec.FS Verif.Spec.Crash

/-- The file systems that are left behind when the process stops while it makes these mutations: between two of them, or in the middle of one. A file
that is being written holds any initial part of the data, possibly nothing. -/
inductive StoppedIn (fs : FS) (acts : List Prim) : FS → Prop
  | between (k : Nat) : StoppedIn fs acts (performAll fs (acts.take k))
  | writing (k j : Nat) {p : Path} {d : Bytes} (h : acts[k]? = some (.write p d)) :
      StoppedIn fs acts ((performAll fs (acts.take k)).perform (.write p (d.take j)))
  | during (k : Nat) {a : Prim} {left : FS} (h : acts[k]? = some a) (hw : ∀ p d, a ≠ .write p d) (hc : left.canon = fs.canon)
      (hn : Halfway (performAll fs (acts.take k)).nodes a left.nodes) : StoppedIn fs acts left

/-- The file systems that are left behind when the process stops somewhere between the states `fs` and `fs'`. -/
def StoppedBetween (fs fs' left : FS) : Prop := ∃ acts, fs'.log = fs.log ++ acts ∧ StoppedIn fs acts left

/-- At most one file of `left` is different from that of `fs`: it holds the bytes it holds in `fs` up to some place. -/
structure OneCut (fs left : FS) : Prop where
  canon : left.canon = fs.canon
  node : ∃ k, ∀ p, left.node? p = fs.node? p ∨ (fs.key p = k ∧ ∃ b j, fs.node? p = some (.file b) ∧ left.node? p = some (.file (b.take j)))

/-- The calls that write or remove one file, or make one directory: all but those that rename, delete or copy directories, and those that make the
directories above a file or remove the empty directories above it. Where a file is removed it must not be a directory. -/
inductive OneFile (fs : FS) : Op → Prop
  | maps {a b} : OneFile fs (.maps a b)
  | info {i v} : OneFile fs (.info i v)
  | lib {x v} (h : fs.node? [c!"lib.plist"] ≠ some .dir) : OneFile fs (.lib x v)
  | groups {g v} (h : fs.node? [c!"groups.plist"] ≠ some .dir) : OneFile fs (.groups g v)
  | kerning {k v} (h : fs.node? [c!"kerning.plist"] ≠ some .dir) : OneFile fs (.kerning k v)
  | features {s} (h : fs.node? [c!"features.fea"] ≠ some .dir) : OneFile fs (.features s)
  | glyphSet {n d v} : OneFile fs (.glyphSet n d v)
  | layerContents {o v} : OneFile fs (.layerContents o v)
  | image {n d v} (h : fs.node? [c!"images"] = some .dir) : OneFile fs (.image n d v)
  | copyImage {src n m d} (h : fs.node? [c!"images"] = some .dir) (hs : src.node? [c!"images", n] = some (.file d)) : OneFile fs (.copyImage src n m)
  | bytes {p d} (h : fs.node? p.dropLast = some .dir) : OneFile fs (.bytes p d)
  | remove {p f} (h : fs.node? p ≠ some .dir) : OneFile fs (.remove p f false)
  | glyph {gs op} : OneFile fs (.glyph gs op)
  | layerInfo {gs i v} : OneFile fs (.layerInfo gs i v)

/-- Every call of a history writes or removes one file. -/
def OneFileEach (E : FontInfo.Env) (L : Casing) (w : World) (ops : List Op) : Prop :=
  ∀ pre op post, ops = pre ++ op :: post → OneFile (run E L w pre).2 op

/-- The calls that write or remove one file whatever the file holds: not those that make a layer directory, and not the copying of an image, which is
refused when the file exists. -/
inductive Repeatable : Op → Prop
  | maps {a b} : Repeatable (.maps a b)
  | info {i v} : Repeatable (.info i v)
  | lib {x v} : Repeatable (.lib x v)
  | groups {g v} : Repeatable (.groups g v)
  | kerning {k v} : Repeatable (.kerning k v)
  | features {s} : Repeatable (.features s)
  | layerContents {o v} : Repeatable (.layerContents o v)
  | image {n d v} : Repeatable (.image n d v)
  | bytes {p d} : Repeatable (.bytes p d)
  | remove {p f} : Repeatable (.remove p f false)
  | glyph {gs op} : Repeatable (.glyph gs op)
  | layerInfo {gs i v} : Repeatable (.layerInfo gs i v)

end Verif.Spec.Interrupt
