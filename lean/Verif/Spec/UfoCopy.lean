import Verif.Spec.UfoFont
import Verif.Spec.UfoUpgrade
import Verif.Spec.Copy
import Verif.Spec.LayerInfo
/-! Loading a whole font and saving it as a new UFO 3: what is expected. -/
namespace Verif.Spec.Ufo
open Verif Verif.Ufo Verif.Spec.Copy Verif.Spec.Glif

/-- A layer as the caller holds it: its name, whether it is the default layer, its glyphs, and its layer info. -/
structure Layer where
  name : Str
  default : Bool
  glyphs : List Loaded
  info : List (PyVal × PyVal)

/-- A font as the caller holds it. -/
structure Whole where
  content : Content
  layers : List Layer

/-- A reader of `fs` delivers the layer: `getGlyphSet(name)`, every glyph with `readGlyph`, and `readLayerInfo`, all with validation. -/
structure LoadsLayer (G : Glif.Env) (fs : FS) (version : Int) (l : Layer) : Prop where
  default : l.default = true ↔ getDefaultLayerName G.F fs version true = .ok l.name
  glyphs : ∃ gs, readerGlyphSet G.F fs version (some l.name) true = .ok gs ∧ (l.glyphs.map Prod.fst).Perm (GlyphSet.keys gs) ∧ LoadedFrom G (gs, fs) l.glyphs ∧
    GlyphSet.readLayerInfo G.F (gs, fs) true = .ok l.info

/-- A reader of `fs` delivers the font, with validation: its version, the content, the layers in their order. -/
structure LoadsFont (E : FontInfo.Env) (G : Glif.Env) (ord1 ord2 : List Str → List Str) (fs : FS) (version : Int) (font : Whole) : Prop where
  metaInfo : readMetaInfo E.F fs true = .ok version
  content : Loads E ord1 ord2 fs version font.content
  names : getLayerNames E.F fs version true = .ok (font.layers.map (·.name))
  layers : ∀ l ∈ font.layers, LoadsLayer G fs version l

/-- The attributes of an object that received the layer info. -/
def infoObject (info : List (PyVal × PyVal)) (attr : Str) : Option PyVal := Dict.get? info (.str attr)

/-- What files keep (see `C78_refuted`, `C80_refuted_tab`, `C84_refuted`): no carriage returns, no integers beyond 64 bits, no tabs in attributes; and glyph names have
own files that differ ignoring case. -/
structure Layer.Fits (lower : Str → Str) (l : Layer) : Prop where
  name : '\r' ∉ l.name
  names : Spec.GlyphSet.OwnFiles lower (· ∈ l.glyphs.map Prod.fst)
  texts : ∀ g ∈ l.glyphs, Glif.AttrText g.1
  glyphs : ∀ g ∈ l.glyphs, Clean g.2.1 g.2.2
  info : ∀ e ∈ l.info, Plist.Fits e.2

/-- The same glyph under the same name. -/
def SameLoaded (a b : Loaded) : Prop := b.1 = a.1 ∧ List.Forall₂ SameCall a.2.2 b.2.2 ∧ SameGlyph (.str a.1) (asObj a.2.1) b.2.1

/-- The same layer: name, default flag, glyphs, layer info (an empty lib is not kept). -/
structure Layer.Agree (a b : Layer) : Prop where
  name : b.name = a.name
  default : b.default = a.default
  glyphs : List.Forall₂ SameLoaded a.glyphs b.glyphs
  info : LayerInfo.SameInfo (infoObject a.info) b.info

/-- The same font. -/
structure Whole.Agree (a b : Whole) : Prop where
  content : a.content.Agree b.content
  layers : List.Forall₂ Layer.Agree a.layers b.layers

/-- The calls that save a layer with its glyph set: every glyph, the table of contents, the layer info. -/
def layerCalls (L : Casing) (G : Glif.Env) (l : Layer) : List GlyphSet.SetCall :=
  (writes G (GlyphSet.defaultNaming L) l.glyphs).map .glyphs ++ [.glyphs .save, .layerInfo (infoObject l.info) true]

/-- The arguments of a call of `getGlyphSet`. -/
def getCall : FontCall → Option (Option Str × Bool)
  | .getGlyphSet n b _ => some (n, b)
  | _ => none

/-- A program that saves the font, apart from the layer contents: it gets a glyph set for each layer, in the order of the layers, and makes the calls that save the layer on it; it makes the calls
that save the content; all interleaved in any way. Other calls on the writer may be made as long as they are not about these parts of the UFO. -/
structure SavesFont (canon : Str → Str) (L : Casing) (G : Glif.Env) (font : Whole) (calls : List FontCall) : Prop where
  gets : calls.filterMap getCall = font.layers.map fun l => (some l.name, l.default)
  sets : ∀ i, calls.filterMap (onSet i) = (font.layers[i]?.map (layerCalls L G)).getD []
  later : ∀ pre i c post, calls = pre ++ .set i c :: post → i < (pre.filterMap getCall).length
  all : ∀ op, Saves font.content op → .ufo op ∈ calls
  others : ∀ op, .ufo op ∈ calls → Saves font.content op ∨
    Bystander canon op ∧ Spares canon c!"layercontents.plist" op ∧ ∀ d, GlyphsDir d → Spares canon d op

/-- Every call of the program returns, except those that have nothing to do with the font. -/
def FontReturns (E : FontInfo.Env) (L : Casing) (font : Whole) (f : Font) (calls : List FontCall) : Prop :=
  ∀ pre c post, calls = pre ++ c :: post → (∀ op, c = .ufo op → Saves font.content op) → ((f.run E L pre).step E L c).2 = .ok ()

end Verif.Spec.Ufo
