import Verif.Spec.Interrupt
import Verif.Spec.UfoFont
import Verif.Spec.Plist
/-! A program that saves glyphs and is started again after it was interrupted. -/
namespace Verif.Spec.Restart
open Verif Verif.Ufo Verif.Spec.Ufo Verif.Spec.Interrupt

/-- The calls on glyph sets that add and replace glyphs, under the default file names, and save the tables; no glyph is deleted. -/
inductive AddsGlyphs (L : Casing) : GlyphSet.SetCall → Prop
  | write {n fv data} (h : Plist.FileText n) : AddsGlyphs L (.glyphs (.write (GlyphSet.defaultNaming L) n fv data))
  | reverse : AddsGlyphs L (.glyphs .reverse)
  | save : AddsGlyphs L (.glyphs .save)
  | layerInfo {info v} : AddsGlyphs L (.layerInfo info v)

/-- A call on the writer that is about none of these directories. -/
structure Elsewhere (canon : Str → Str) (dirs : List Str) (op : Op) : Prop where
  repeatable : Repeatable op
  spares : ∀ d ∈ dirs, Spares canon d op

/-- A program that adds and replaces glyphs in layers that are there, and makes calls about other parts of the UFO that write or remove one file each. -/
structure Saves (E : FontInfo.Env) (L : Casing) (f : Font) (dirs : List Str) (calls : List FontCall) : Prop where
  sets : ∀ i c, .set i c ∈ calls → AddsGlyphs L c
  others : ∀ op, .ufo op ∈ calls → Elsewhere f.fs.canon dirs op
  known : ∀ n b v, .getGlyphSet n b v ∉ calls
  oneFile : ∀ pre op post, calls = pre ++ .ufo op :: post → OneFile (f.run E L pre).fs op

/-- The glyph sets of a program that has just obtained them, one for each of these directories: the tables are there, glyphs and files have names that a property list can
store, and no glyph is in the file of the table. -/
structure Obtained (F : FloatCodec) (lower : Str → Str) (f : Font) (dirs : List Str) : Prop where
  opened : List.Forall₂ (fun gs d => ∃ v, GlyphSet.openGlyphSet F f.fs [d] gs.version v = .ok gs) f.sets dirs
  tables : ∀ d ∈ dirs, ∃ b, f.fs.node? [d, c!"contents.plist"] = some (.file b)
  apart : (dirs.map f.fs.canon).Nodup
  text : ∀ gs ∈ f.sets, ∀ m x, Dict.get? gs.contents m = some x → Plist.FileText m ∧ Plist.FileText x
  avoids : ∀ gs ∈ f.sets, ∀ m x, Dict.get? gs.contents m = some x → lower x ≠ lower c!"contents.plist"

/-- The glyph sets are obtained again from what is left. -/
def ObtainedAgain (F : FloatCodec) (left : FS) (sets again : List GlyphSet.GlyphSet) : Prop :=
  List.Forall₂ (fun gs gs' => ∃ v, GlyphSet.openGlyphSet F left gs.dir gs.version v = .ok gs') sets again

/-- The files of the glyphs exist, and none of them is that of the layer info. -/
def FilesThere (lower : Str → Str) (fs : FS) (gs : GlyphSet.GlyphSet) : Prop :=
  ∀ m x, Dict.get? gs.contents m = some x → lower x ≠ lower c!"layerinfo.plist" ∧ fs.exists (gs.dir ++ [x]) = true

/-- The file of the table can be read as a property list. -/
def TableReadable (F : FloatCodec) (fs : FS) (gs : GlyphSet.GlyphSet) : Prop :=
  ∃ x, IO.getPlist F fs (gs.dir ++ [c!"contents.plist"]) none = .ok x

/-- A layer whose glyph set the program asks for: its name and directory, and the other arguments. -/
structure Get where
  layer : Str
  dir : Str
  default : Bool
  validate : Bool

/-- The call. -/
def Get.call (g : Get) : FontCall := .getGlyphSet (some g.layer) g.default g.validate

/-- The calls for all of them. -/
def getAll (gets : List Get) : List FontCall := gets.map Get.call

end Verif.Spec.Restart
