import Verif.Proofs.UfoLayersWrite
import Verif.Proofs.UfoApart
/-! The directories of layers: C58. The layer contents written are accepted by the reader: C59. -/
namespace Verif.Props
open Verif Verif.FS Verif.IO Verif.Ufo Verif.Spec.Ufo Verif.Spec.Plist

/-- A writer for a new UFO 3 on an empty file system, after these calls. -/
def layers58 (ops : List Op) : World :=
  run ⟨fractionCodec, true⟩ asciiCasing
    ({ version := 3, layers := [], havePrevious := false, validate := true, renameMap := none }, { canon := id, nodes := [], log := [] }) ops

/-! ### C58 -/

/-- Whatever calls are made, different layers stay in different directories (ignoring case), named `glyphs` or `glyphs.*`. Missing from the full
claim: renaming a layer to its own name with `defaultLayer=True` while another layer is the default layer (`C58_refuted`). -/
theorem C58_history_partial (L : Casing) (hL : AsciiPrefix L) (E : FontInfo.Env) (w : World) (hwf : Dict.WF w.1.layers) (hd : LayerDirs w.1.layers)
    (ha : ApartDirs L w.1.layers) (ops : List Op) (hh : HarmlessRun E L w ops) :
    ApartDirs L (run E L w ops).1.layers ∧ LayerDirs (run E L w ops).1.layers :=
  ⟨run_apart hL E ops w ⟨hwf, hd⟩ ha hh, (run_spec E L ops w ⟨hwf, hd⟩).2.1.dirs⟩

/-- The writer of a new UFO meets the conditions. -/
theorem C58_new_partial (L : Casing) (hL : AsciiPrefix L) (E : FontInfo.Env) (fs fs' : FS) (creator : PyVal) (validate : Bool) (w : Writer)
    (h : openWriter E.F false fs 3 creator validate = (fs', .ok w)) (ops : List Op) (hh : HarmlessRun E L (w, fs') ops) :
    ApartDirs L (run E L (w, fs') ops).1.layers ∧ LayerDirs (run E L (w, fs') ops).1.layers := by
  obtain ⟨h1, h2⟩ := openWriter_new h
  exact C58_history_partial L hL E (w, fs') h1.wf h1.dirs (apart_new h2) ops hh

/-- Names that differ in case only, and a promotion to default layer that is harmless. -/
example : (layers58 [.glyphSet (some c!"a") false true, .glyphSet (some c!"A") false true, .glyphSet (some c!"b") true true,
      .rename (some c!"b") (some c!"c") false, .rename (some c!"a") (some c!"a") true, .delete (some c!"A"), .glyphSet (some c!"A_") false true]).1.layers =
    [(c!"c", c!"glyphs.c"), (c!"a", c!"glyphs"), (c!"A_", c!"glyphs.A__")] := by decide +kernel

/-- Two layers in one directory. -/
theorem C58_refuted : (layers58 [.glyphSet (some c!"a") true true, .glyphSet (some c!"b") false true, .rename (some c!"b") (some c!"b") true]).1.layers =
    [(c!"a", c!"glyphs"), (c!"b", c!"glyphs")] := by decide +kernel

/-! ### C59 -/

/-- The layer names of a `layerOrder` argument. -/
def orderNames (layers : Dict Str Str) (order : Option (List (Option Str))) : List Str :=
  match order with
  | some l => l.map fun n => n.getD c!"public.default"
  | none => Dict.keys layers

/-- After any history, layer contents that are written with validation are read: the same layers, in the given order, in the directories
they are in. What the full claim leaves out: no name may be repeated in the order, there must be a default layer, no layer name
may be empty, `public.default` must be the default layer (if it exists), and names must be XML text. -/
theorem C59_partial (L : Casing) (hL : AsciiPrefix L) (E : FontInfo.Env) (hF : E.F.Lawful) (w : World)
    (hcanon : ∀ a b, w.2.canon a = w.2.canon b → L.lower a = L.lower b) (hnodes : Dict.WF w.2.nodes) (h3 : w.1.version = 3)
    (hwf : Dict.WF w.1.layers) (hd : LayerDirs w.1.layers) (ha : ApartDirs L w.1.layers) (hex : ∀ n d, Dict.get? w.1.layers n = some d → w.2.exists [d] = true)
    (ops : List Op) (hh : HarmlessRun E L w ops)
    (hops : ∀ op ∈ ops, ((∃ n b v, op = .glyphSet n b v) ∨ (∃ n m b, op = .rename n m b) ∨ ∃ n, op = .delete (some n)) ∨
      (∀ d, GlyphsDir d → Spares w.2.canon d op) ∨ InGlyphSet op)
    (order : Option (List (Option Str))) (w' : World) (hwrite : writeLayerContents E.F (run E L w ops) order true = (w', .ok ()))
    (hdup : (orderNames (run E L w ops).1.layers order).Nodup)
    (hdefault : ∃ n, Dict.get? (run E L w ops).1.layers n = some c!"glyphs")
    (hnames : ∀ n d, Dict.get? (run E L w ops).1.layers n = some d → n ≠ [] ∧ FileText n ∧ FileText d ∧ (n = c!"public.default" → d = c!"glyphs")) :
    ∃ t, readLayers E.F w'.2 3 true = .ok t ∧ t.map Prod.fst = orderNames (run E L w ops).1.layers order ∧
      ∀ e ∈ t, Dict.get? (run E L w ops).1.layers e.1 = some e.2 := by
  have hg := run_good hL E ops w hcanon ⟨⟨hwf, hd⟩, ha, hnodes, fun n d h => by
    have := hex n d h
    simpa [«exists», Option.isSome_iff_ne_none] using this⟩ hh hops
  have hv : (run E L w ops).1.version = 3 := (run_spec E L ops w ⟨hwf, hd⟩).1.version.trans h3
  have hc : (run E L w ops).2.canon = w.2.canon := (run_spec E L ops w ⟨hwf, hd⟩).2.2.canon
  have horder : layerOrderOf (run E L w ops).1.layers order = orderNames (run E L w ops).1.layers order := by cases order <;> rfl
  rw [← horder] at hdup ⊢
  refine written_layers hF hg hv hwrite hdup hdefault (fun d hdir e => ?_) hnames
  rw [hc] at e
  exact lower_apart hL hdir (by decide) (hcanon _ _ e)

/-- Histories that meet the conditions: any layer names, any order of calls, as long as no layer is renamed to its own name as default layer. -/
example (E : FontInfo.Env) (w : World) (a b c : Option Str) (d : Str) (x y : Bool) (gs : GlyphSet.GlyphSet) (hgs : gs.dir ≠ []) (g : GlyphSet.Op) :
    let ops : List Op := [.glyphSet a x true, .glyphSet b y true, .rename a c false, .delete (some d), .glyph gs g, .lib (.dict []) true]
    HarmlessRun E asciiCasing w ops ∧ ∀ op ∈ ops, ((∃ n b v, op = .glyphSet n b v) ∨ (∃ n m b, op = .rename n m b) ∨ ∃ n, op = .delete (some n)) ∨
      (∀ d, GlyphsDir d → Spares id d op) ∨ InGlyphSet op := by
  refine ⟨fun pre op post e n hn => ?_, fun op ho => ?_⟩
  · have : op ∈ [Op.glyphSet a x true, .glyphSet b y true, .rename a c false, .delete (some d), .glyph gs g, .lib (.dict []) true] := by rw [e]; simp
    subst hn
    simp at this
  · simp only [List.mem_cons, List.not_mem_nil, or_false] at ho
    rcases ho with rfl | rfl | rfl | rfl | rfl | rfl
    · exact .inl (.inl ⟨_, _, _, rfl⟩)
    · exact .inl (.inl ⟨_, _, _, rfl⟩)
    · exact .inl (.inr (.inl ⟨_, _, _, rfl⟩))
    · exact .inl (.inr (.inr ⟨_, rfl⟩))
    · exact .inr (.inr (.glyph hgs))
    · refine .inr (.inl fun d hd c hc e => ?_)
      cases hc
      exact keepsApart_id.dirs c!"lib.plist" (by decide) d hd e.symm

/-- The reader's verdict after layer contents were written: the result of writing, and the layer names it reads. -/
def verdict59 (ops : List Op) (order : Option (List (Option Str))) : Option (Option (List Str)) :=
  let r := writeLayerContents fractionCodec (layers58 ops) order true
  match r.2 with
  | .error _ => none
  | .ok () => some (getLayerNames fractionCodec r.1.2 3 true).toOption

/-- Three layers in a given order. -/
example : verdict59 [.glyphSet none true true, .glyphSet (some c!"b") false true, .glyphSet (some c!"B") false true, .rename (some c!"b") (some c!"c") false]
    (some [some c!"c", none, some c!"B"]) = some (some [c!"c", c!"public.default", c!"B"]) := by decide +kernel

/-- A name given twice is written, and the reader refuses the file. -/
theorem C59_duplicate_refuted : verdict59 [.glyphSet none true true] (some [none, none]) = some none := by decide +kernel

/-- Without a default layer the file is written, and the reader refuses it. -/
theorem C59_default_refuted : verdict59 [.glyphSet (some c!"a") false true] none = some none := by decide +kernel

/-- A layer without a name. -/
theorem C59_name_refuted : verdict59 [.glyphSet none true true, .glyphSet (some []) false true] none = some none := by decide +kernel

/-- `public.default` for a layer that is not the default layer. -/
theorem C59_public_refuted : verdict59 [.glyphSet (some c!"a") true true, .glyphSet (some c!"public.default") false true] none = some none := by decide +kernel

/-- The default layer deleted with `deleteGlyphSet(None)`: the directory is gone, the layer is still in the table. -/
theorem C59_delete_refuted : verdict59 [.glyphSet none true true, .delete none] none = some none := by decide +kernel

/-- Two layers in one directory. -/
theorem C59_rename_refuted :
    verdict59 [.glyphSet (some c!"a") true true, .glyphSet (some c!"b") false true, .rename (some c!"b") (some c!"b") true] none = some none := by decide +kernel

end Verif.Props
