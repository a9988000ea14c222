import Verif.Spec.Plist
import Verif.Model.UfoFont
/-! What it means that two programs write the same data with dictionaries that were filled in different orders. -/
namespace Verif.Spec.Order
open Verif Verif.Spec.Plist

/-- Equal data, except that dictionaries at any depth may have their items in another order. (That dictionaries have different keys
and dates exist always holds in Python.) -/
def Alike (v w : PyVal) : Prop := WellFormed v ∧ Same v w

/-- Two objects with the same attributes, the values being alike. -/
def AlikeObj (o p : Str → Option PyVal) : Prop := ∀ a, Option.Rel Alike (o a) (p a)

/-- Both calls return the same or both raise. -/
def SameResult {α : Type} (x y : Except Exc α) : Prop := x.toOption = y.toOption

/-- Groups that are given the same name on the way to the file (see `setKerningGroupConversionRenameMaps`) have the same members. -/
def AgreeingGroups (m : Dict Str Str) (g : Dict Str (List Str)) : Prop :=
  ∀ e ∈ g, ∀ e' ∈ g, ∀ n, m.get? e.1 = some n → m.get? e'.1 = some n → e.2 = e'.2

/-- Pairs that become the same pair on the way to the file have the same value. -/
def AgreeingPairs (m : Dict Str Str) (k : Dict (Str × Str) PyVal) : Prop :=
  ∀ e ∈ k, ∀ e' ∈ k, m.getD e.1.1 e.1.1 = m.getD e'.1.1 e'.1.1 → m.getD e.1.2 e.1.2 = m.getD e'.1.2 e'.1.2 → e.2 = e'.2

/-- The writer renames groups according to this map: the UFO is of version 1 or 2 and the map was given. -/
def Renames (w : Ufo.Writer) (m : Dict Str Str) : Prop := w.version < 3 ∧ w.renameMap = some m

/-- The same call with data that is alike. -/
inductive AlikeOp (w : Ufo.Writer) : Ufo.Op → Ufo.Op → Prop
  | same (op : Ufo.Op) : AlikeOp w op op
  | info (i j : Str → Option PyVal) (validate : Bool) (h : AlikeObj i j) : AlikeOp w (.info i validate) (.info j validate)
  | lib (v v' : PyVal) (validate : Bool) (h : Alike v v') : AlikeOp w (.lib v validate) (.lib v' validate)
  | groups (g h : Dict Str (List Str)) (validate : Bool) (hg : g.WF) (hp : g.Perm h) (ha : ∀ m, Renames w m → AgreeingGroups m g) :
      AlikeOp w (.groups g validate) (.groups h validate)
  | kerning (k l : Dict (Str × Str) PyVal) (validate : Bool) (hk : k.WF) (hv : ∀ e ∈ k, WellFormed e.2) (hp : k.Perm l) (ha : ∀ m, Renames w m → AgreeingPairs m k) :
      AlikeOp w (.kerning k validate) (.kerning l validate)

/-- The same call on a glyph set with data that is alike; what `_writeGlyphToBytes` makes of a glyph is the argument of the call. -/
inductive AlikeSet : GlyphSet.SetCall → GlyphSet.SetCall → Prop
  | same (c : GlyphSet.SetCall) : AlikeSet c c
  | glyph (naming : GlyphSet.Naming) (name : Str) (fv : Option Int) (x y : Int → Except Exc Bytes) (h : ∀ v, SameResult (x v) (y v)) :
      AlikeSet (.glyphs (.write naming name fv x)) (.glyphs (.write naming name fv y))
  | layerInfo (i j : Str → Option PyVal) (validate : Bool) (h : AlikeObj i j) : AlikeSet (.layerInfo i validate) (.layerInfo j validate)

/-- The same call of a program that saves a font, with data that is alike. -/
inductive AlikeCall (w : Ufo.Writer) : Ufo.FontCall → Ufo.FontCall → Prop
  | glyphSet (n : Option Str) (b v : Bool) : AlikeCall w (.getGlyphSet n b v) (.getGlyphSet n b v)
  | ufo (op op' : Ufo.Op) (h : AlikeOp w op op') : AlikeCall w (.ufo op) (.ufo op')
  | set (i : Nat) (c c' : GlyphSet.SetCall) (h : AlikeSet c c') : AlikeCall w (.set i c) (.set i c')

/-- Two programs that make the same calls with data that is alike. -/
def AlikeRun (E : FontInfo.Env) (L : Casing) : Ufo.Font → List Ufo.FontCall → List Ufo.FontCall → Prop
  | _, [], [] => True
  | f, c :: cs, c' :: cs' => AlikeCall f.writer c c' ∧ AlikeRun E L (f.step E L c).1 cs cs'
  | _, _, _ => False

/-- The outcomes of all calls of a program. -/
def outcomes (E : FontInfo.Env) (L : Casing) : Ufo.Font → List Ufo.FontCall → List (Except Exc Unit)
  | _, [] => []
  | f, c :: cs => (f.step E L c).2 :: outcomes E L (f.step E L c).1 cs

end Verif.Spec.Order
