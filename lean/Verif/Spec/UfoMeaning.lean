import Verif.Model.FS
import Verif.Spec.PlistMeaning
import Verif.Spec.GlifMeaning
import Verif.Spec.Validators
import Verif.Spec.InfoLegal
import Verif.Spec.Converters
/-! What the files of a UFO of any origin mean. -/
namespace Verif.Spec.UfoMeaning
open Verif Verif.Spec.PlistMeaning Verif.Spec.Validators Verif.Spec.InfoLegal Verif.Spec.FontInfo Verif.Spec.Glif Verif.Spec.GlifMeaning

/-- A property list file as the document type has it. -/
def Listed (fs : FS) (p : Path) : Prop := ∃ b x e, fs.node? p = some (.file b) ∧ utf8Decode b = some x ∧ Document x e ∧ Shaped e

/-- What a property list file says. -/
def Says (F : FloatCodec) (fs : FS) (p : Path) (v : PyVal) : Prop := ∃ b x e, fs.node? p = some (.file b) ∧ utf8Decode b = some x ∧ Document x e ∧ Means F e v

/-- A property list file that may be missing. -/
def Plain (fs : FS) (p : Path) : Prop := fs.node? p = none ∨ Listed fs p

/-- What it says; nothing if it is missing. -/
def Holds (F : FloatCodec) (fs : FS) (p : Path) (v : PyVal) : Prop := (fs.node? p = none ∧ v = .dict []) ∨ Says F fs p v

/-- Font lib: the glyph order is a list of names. -/
def FontLib (v : PyVal) : Prop := ∃ d, v = .dict d ∧ ∀ l, (.str c!"public.glyphOrder", l) ∈ d → ∃ names : List Str, l = .list (names.map .str)

/-- Kerning: by first and second name, numbers; `g` gives the value of each pair. -/
structure KerningSays (d : List (PyVal × PyVal)) (g : Str × Str → Option PyVal) : Prop where
  rows : ∀ p ∈ d, ∃ a row, p = (.str a, .dict row) ∧ ∀ q ∈ row, ∃ b x, q = (.str b, x) ∧ IsNum x
  pairs : ∀ a b x, g (a, b) = some x ↔ ∃ row, (.str a, .dict row) ∈ d ∧ (.str b, x) ∈ row

/-- The layers of a UFO 3, in order, each with its directory. -/
structure LayersSay (F : FloatCodec) (fs : FS) (t : List (Str × Str)) : Prop where
  file : Says F fs [c!"layercontents.plist"] (.list (t.map fun p => .list [.str p.1, .str p.2]))
  table : LayerTable (fun d => .ok (fs.exists [d])) t

/-- The directory of a layer, or of the default layer. Before UFO 3 there is just one. -/
def LayerAt (F : FloatCodec) (fs : FS) (version : Int) (layer : Option Str) (dir : Str) : Prop :=
  (version < 3 ∧ dir = c!"glyphs" ∧ (layer = none ∨ layer = some c!"public.default")) ∨
  (3 ≤ version ∧ ∃ t n, LayersSay F fs t ∧ (n, dir) ∈ t ∧ (layer = some n ∨ (layer = none ∧ dir = c!"glyphs")))

/-- The glyphs of a layer with the names of their files, all of which are there. -/
structure ContentsSay (F : FloatCodec) (fs : FS) (dir : Path) (c : List (Str × Str)) : Prop where
  file : Holds F fs (dir ++ [c!"contents.plist"]) (.dict (c.map fun e => (.str e.1, .str e.2)))
  there : ∀ e ∈ c, fs.node? (dir ++ [e.2]) ≠ none

/-- What a glyph file says. -/
def GlifSays (F : FloatCodec) (fs : FS) (p : Path) (versions : List Int) (g : Str → Option PyVal) (calls : List Glif.Call) : Prop :=
  ∃ b s tree, fs.node? p = some (.file b) ∧ utf8Decode b = some s ∧ Spec.Xml.parse s = some tree ∧ (GlyphSays1 F versions tree g calls ∨ GlyphSays2 F versions tree g calls)

/-- Layer info: a color and a lib. -/
def LayerInfoSays (F : FloatCodec) (d : List (PyVal × PyVal)) : Prop :=
  ∀ e ∈ d, (e.1 = .str c!"color" ∧ ∃ s, e.2 = .str s ∧ FourNumbers F (Within 0 1) s) ∨ (e.1 = .str c!"lib" ∧ ∃ l, e.2 = .dict l)

/-- Font info of UFO 3. -/
structure InfoSays3 (F : FloatCodec) (py38 : Bool) (d : List (PyVal × PyVal)) (g : Str → Option PyVal) : Prop where
  legal : ∀ a ∈ attributes3, ∀ v, (.str a, v) ∈ d → Legal3 F py38 a v
  values : ∀ a v, g a = some v ↔ a ∈ attributes3 ∧ (.str a, v) ∈ d

/-- Font info of UFO 2: a few values are understood anew. -/
structure InfoSays2 (F : FloatCodec) (py38 : Bool) (d : List (PyVal × PyVal)) (g : Str → Option PyVal) : Prop where
  legal : ∀ a ∈ attributes2, ∀ v, (.str a, v) ∈ d → ∃ w, Since2 a v w ∧ Legal3 F py38 a w
  values : ∀ a w, g a = some w ↔ a ∈ attributes2 ∧ ∃ v, (.str a, v) ∈ d ∧ Since2 a v w

/-- Font info of UFO 1: the attributes have got new names as well. -/
structure InfoSays1 (F : FloatCodec) (py38 : Bool) (d : List (PyVal × PyVal)) (g : Str → Option PyVal) : Prop where
  legal : ∀ a b, (a, b) ∈ version1 → ∀ v, (.str a, v) ∈ d → ¬ NoWeight a v → ∃ w x, Since1 a v w ∧ Since2 b w x ∧ Legal3 F py38 b x
  values : ∀ b x, g b = some x ↔ ∃ a v w, (a, b) ∈ version1 ∧ (.str a, v) ∈ d ∧ ¬ NoWeight a v ∧ Since1 a v w ∧ Since2 b w x

/-! ### Groups and kerning of UFO 1 and 2 -/

/-- Nested kerning in a file. -/
def kerningFile (k : Dict Str (Dict Str PyVal)) : PyVal := .dict (k.map fun e => (.str e.1, .dict (e.2.map fun x => (.str x.1, x.2))))

/-- Groups in a file. -/
def groupsFile (g : Dict Str (List Str)) : PyVal := .dict (g.map fun e => (.str e.1, .list (e.2.map .str)))

/-- A kerning group for the left side: by its name, or because pairs have it there. -/
def Left (k : Dict Str (Dict Str PyVal)) (g : Dict Str (List Str)) (x : Str) : Prop := x ∈ g.keys ∧ (Spec.Kerning.Begins x c!"@MMK_L_" ∨ Spec.Converters.IsFirst k x)

/-- The same for the right side. -/
def Right (k : Dict Str (Dict Str PyVal)) (g : Dict Str (List Str)) (x : Str) : Prop := x ∈ g.keys ∧ (Spec.Kerning.Begins x c!"@MMK_R_" ∨ Spec.Converters.IsSecond k x)

/-- The name a group has in UFO 3. -/
def leftName (x : Str) : Str := c!"public.kern1." ++ removeAll c!"@MMK_L_" x

/-- The same for the right side. -/
def rightName (x : Str) : Str := c!"public.kern2." ++ removeAll c!"@MMK_R_" x

/-- No name of UFO 3 is taken, and different groups get different names. -/
structure Unclashing (k : Dict Str (Dict Str PyVal)) (g : Dict Str (List Str)) : Prop where
  free : ∀ x, x ∈ g.keys ∨ Spec.Converters.IsFirst k x ∨ Spec.Converters.IsSecond k x → ¬ Spec.Kerning.Begins x c!"public.kern1." ∧ ¬ Spec.Kerning.Begins x c!"public.kern2."
  left : Spec.Converters.InjOn (removeAll c!"@MMK_L_") g.keys
  right : Spec.Converters.InjOn (removeAll c!"@MMK_R_") g.keys

/-- The groups in UFO 3: the old ones, and the kerning groups under their new names. -/
def GroupNow (k : Dict Str (Dict Str PyVal)) (g : Dict Str (List Str)) (n : Str) (members : List Str) : Prop :=
  ∃ x, Dict.get? g x = some members ∧ (n = x ∨ (Left k g x ∧ n = leftName x) ∨ (Right k g x ∧ n = rightName x))

/-- The pairs in UFO 3: the same with the new names. -/
def PairNow (k : Dict Str (Dict Str PyVal)) (g : Dict Str (List Str)) (a b : Str) (v : PyVal) : Prop :=
  ∃ f s, Spec.Converters.pairValue k f s = some v ∧ ((Left k g f ∧ a = leftName f) ∨ (¬ Left k g f ∧ a = f)) ∧ ((Right k g s ∧ b = rightName s) ∨ (¬ Right k g s ∧ b = s))

end Verif.Spec.UfoMeaning
