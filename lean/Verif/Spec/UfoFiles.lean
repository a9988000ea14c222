import Verif.Spec.UfoCopy
import Verif.Model.Images
/-! Loading and saving the images and the data files of a font: what is expected. -/
namespace Verif.Spec.Ufo
open Verif Verif.Ufo Verif.IO

/-- The images and the data files of a font as the caller holds them; the paths of the latter are relative to the data directory. -/
structure Files where
  images : Dict Str Bytes
  data : Dict Path Bytes

/-- All of them with their paths in the UFO. -/
def Files.paths (f : Files) : List (Path × Bytes) :=
  f.images.map (fun e => ([c!"images", e.1], e.2)) ++ f.data.map fun e => (c!"data" :: e.1, e.2)

/-- A reader of `fs` lists these files, under the names that `canon` makes of their names, and delivers their content. -/
structure HoldsFiles (canon : Str → Str) (fs : FS) (version : Int) (f : Files) : Prop where
  images : ∃ l, getImageDirectoryListing fs version true = .ok l ∧ l.Perm ((Dict.keys f.images).map canon)
  image : ∀ e ∈ f.images, readImage fs version e.1 true = .ok e.2
  data : (getDataDirectoryListing fs).Perm ((Dict.keys f.data).map (·.map canon))
  datum : ∀ e ∈ f.data, readBytesFromPath fs (c!"data" :: e.1) = .ok (some e.2)

/-- No two files have the same path, and no file is where another one needs a directory, when names are compared by `fold`. -/
def Files.Apart (fold : Str → Str) (f : Files) : Prop :=
  ∀ a ∈ f.paths, ∀ b ∈ f.paths, a.1.map fold <+: b.1.map fold → a = b

/-- The calls that save the files. -/
inductive SavesFile (f : Files) : Op → Prop
  | image {n d} : (n, d) ∈ f.images → SavesFile f (.image n d true)
  | data {p d} : (p, d) ∈ f.data → SavesFile f (.bytes (c!"data" :: p) d)

/-- A call about none of the standard files and directories of a UFO. -/
def Elsewhere (canon : Str → Str) (op : Op) : Prop := (∀ n ∈ standardNames, Spares canon n op) ∧ ∀ d, GlyphsDir d → Spares canon d op

/-- A program that saves a font with its images and data files, apart from the layer contents, cf. `SavesFont`. -/
structure SavesAll (canon : Str → Str) (L : Casing) (G : Glif.Env) (font : Whole) (files : Files) (calls : List FontCall) : Prop where
  gets : calls.filterMap getCall = font.layers.map fun l => (some l.name, l.default)
  sets : ∀ i, calls.filterMap (onSet i) = (font.layers[i]?.map (layerCalls L G)).getD []
  later : ∀ pre i c post, calls = pre ++ .set i c :: post → i < (pre.filterMap getCall).length
  all : ∀ op, Saves font.content op ∨ SavesFile files op → .ufo op ∈ calls
  others : ∀ op, .ufo op ∈ calls → Saves font.content op ∨ SavesFile files op ∨ Elsewhere canon op

/-- Every call that saves a file returns. -/
def FilesReturn (E : FontInfo.Env) (L : Casing) (files : Files) (f : Font) (calls : List FontCall) : Prop :=
  ∀ pre op post, calls = pre ++ .ufo op :: post → SavesFile files op → ((f.run E L pre).step E L (.ufo op)).2 = .ok ()

end Verif.Spec.Ufo
