import Verif.Proofs.UfoCopySource
import Verif.Props.UfoUpgrade
/-! Saving a whole font: the new UFO, the layer contents, and reading the layers back. -/
namespace Verif.Props
open Verif Verif.FS Verif.IO Verif.Ufo Verif.Spec.Ufo Verif.Spec.Plist Verif.Spec.Copy

/-- A writer on an empty directory. -/
theorem opens_new {F : FloatCodec} (hF : F.Lawful) {fs : FS} (hempty : ∀ n p, fs.node? (n :: p) = none) {creator : PyVal} (hcr : Storable creator) :
    ∃ fs', openWriter F false fs 3 creator true = (fs', .ok { version := 3, layers := [], havePrevious := false, validate := true, renameMap := none }) := by
  obtain ⟨fs', h⟩ := writePlist_root F hF false (fs := fs) (n := metainfoName) (storable_metaInfo hcr (v := 3) rfl) (by rw [hempty]; exact nofun)
  refine ⟨fs', ?_⟩
  have hx : fs.exists [glyphsName] = false := by unfold FS.exists; rw [hempty]; rfl
  unfold openWriter
  simp [supported, previousVersion, initialLayers, hx, h]

theorem progress_new {L : Casing} (hL : AsciiPrefix L) (E : FontInfo.Env) {fs fs' : FS} (hcanon : ∀ a b, fs.canon a = fs.canon b → L.lower a = L.lower b) (hnodes : Dict.WF fs.nodes)
    (hempty : ∀ n p, fs.node? (n :: p) = none) {creator : PyVal} {w : Writer} (h : openWriter E.F false fs 3 creator true = (fs', .ok w)) (layers : List Layer) :
    Progress L fs.canon layers 0 { writer := w, fs := fs', sets := [] } := by
  obtain ⟨-, -, hwp, hv, -⟩ := openWriter_ok h
  obtain ⟨hc, hn, -⟩ := writePlist_spec hwp
  refine ⟨.of (C76_new L E fs fs' hcanon hL hnodes creator true w h), hv, hc, rfl, ?_, fun i l hi => absurd hi (Nat.not_lt_zero _), fun x p hx _ => ?_⟩
  · rcases (openWriter_new h).2 with e | ⟨-, e⟩
    · simp [e, Dict.keys]
    · unfold FS.exists at e
      rw [hempty] at e
      cases e
  · show fs'.node? (x :: p) = none
    rw [hn, hempty]
    intro e
    simp only [FS.key, List.map_cons, List.map_nil, List.cons.injEq] at e
    exact lower_apart hL hx (by decide : metainfoName ∈ standardNames) (hcanon _ _ e.1)

theorem orderedLayers_total {layers : Dict Str Str} : ∀ {order : List Str}, (∀ n ∈ order, n ∈ Dict.keys layers) → ∃ t, orderedLayers layers order = .ok t
  | [], _ => ⟨[], rfl⟩
  | n :: rest, h => by
    obtain ⟨t, ht⟩ := orderedLayers_total (order := rest) fun m hm => h m (by simp [hm])
    cases hd : Dict.get? layers n with
    | none => exact absurd (h n (by simp)) (Dict.get?_eq_none_iff.1 hd)
    | some d => exact ⟨(n, d) :: t, by simp [orderedLayers, hd, ht]⟩

/-- The layer contents can be written. -/
theorem layerContents_written {F : FloatCodec} (hF : F.Lawful) {w : World} (hv : w.1.version = 3) {order : Option (List (Option Str))} (hord : layerOrderOf w.1.layers order = Dict.keys w.1.layers)
    (hnames : ∀ n d, Dict.get? w.1.layers n = some d → FileText n ∧ FileText d) (hn : w.2.node? [layercontentsName] ≠ some .dir) :
    ∃ w', writeLayerContents F w order true = (w', .ok ()) := by
  obtain ⟨t, ht⟩ := orderedLayers_total (layers := w.1.layers) (order := Dict.keys w.1.layers) fun _ h => h
  obtain ⟨fs', hw⟩ := writePlist_root F hF w.1.havePrevious (fs := w.2) (n := layercontentsName) (v := layersVal t) (storable_layers fun e he => hnames _ _ ((orderedLayers_ok ht).2 e he)) hn
  have h1 : (Dict.keys w.1.layers).all (fun n => Dict.has w.1.layers n) = true := by simp [Dict.has_iff]
  have h2 : (Dict.keys w.1.layers).all (fun n => decide (n ∈ Dict.keys w.1.layers)) = true := by simp
  refine ⟨(w.1, fs'), ?_⟩
  unfold writeLayerContents
  simp only [hv, show ¬ (3 : Int) < 3 by decide, if_false, hord, h1, h2, ht, hw]
  rfl

/-- A layer that was saved is read back. -/
theorem loads_layer {G : Glif.Env} {fs : FS} {t : List (Str × Str)} (hread : readLayers G.F fs 3 true = .ok t) {l : Layer} (hnd : (l.glyphs.map Prod.fst).Nodup) {d : Str} {gs : GlyphSet.GlyphSet}
    (hmem : (l.name, d) ∈ t) (hdef : l.default = true ↔ d = c!"glyphs") (hdir : fs.node? [d] = some .dir) (hs : SavedIn G l fs d gs) : ∃ l', l.Agree l' ∧ LoadsLayer G fs 3 l' := by
  obtain ⟨x, hx1, hx2⟩ := hs.info
  obtain ⟨m, hm⟩ := FontInfo.forall₂_exists (R := fun g g' : Loaded => SameLoaded g g' ∧ GlyphSet.readGlyph G (gs, fs) g'.1 true true true = .ok g'.2) l.glyphs fun g hg => by
    obtain ⟨attrs, calls, h1, h2, h3⟩ := hs.glyphs g hg
    exact ⟨(g.1, attrs, calls), ⟨rfl, h2, h3⟩, h1⟩
  have hnames : m.map Prod.fst = l.glyphs.map Prod.fst := by
    clear hs hnd
    generalize l.glyphs = a at hm
    induction hm with
    | nil => rfl
    | cons h _ ih => rw [List.map_cons, List.map_cons, ih, h.1.1]
  have hgs : readerGlyphSet G.F fs 3 (some l.name) true = .ok gs := by
    have hf : t.find? (fun e => decide (e.1 = l.name)) = some (l.name, d) := by
      cases hf : t.find? (fun e => decide (e.1 = l.name)) with
      | none => exact absurd (List.find?_eq_none.1 hf _ hmem) (by simp)
      | some y =>
        have hy0 := List.find?_some hf
        have hy : y.1 = l.name := of_decide_eq_true hy0
        rw [List.inj_on_of_nodup_map (source_table hread).1 (List.mem_of_find?_eq_some hf) hmem hy]
    unfold readerGlyphSet
    simp only [resolveLayer, hread, hf, hdir]
    exact hs.opened
  refine ⟨⟨l.name, l.default, m, x⟩, ⟨rfl, rfl, hm.imp fun _ _ h => h.1, hx2⟩, ?_, gs, hgs, ?_, fun g hg => ?_, hx1⟩
  · exact hdef.trans (default_iff hread hmem).symm
  · show (m.map Prod.fst).Perm _
    rw [hnames]
    exact (List.perm_ext_iff_of_nodup hnd hs.wf).2 fun n => (hs.keys n).symm
  · obtain ⟨-, -, -, h⟩ := FontInfo.forall₂_right hm hg
    exact h

/-- The names of the glyphs of a layer that was loaded. -/
theorem loaded_nodup {G : Glif.Env} {fs : FS} {version : Int} {l : Layer} (h : LoadsLayer G fs version l) :
    (l.glyphs.map Prod.fst).Nodup ∧ ∃ gs, LoadedFrom G (gs, fs) l.glyphs ∧ GlyphSet.readLayerInfo G.F (gs, fs) true = .ok l.info := by
  obtain ⟨gs, h1, h2, h3, h4⟩ := h.glyphs
  refine ⟨h2.nodup_iff.2 ?_, gs, h3, h4⟩
  unfold readerGlyphSet at h1
  split at h1
  · cases h1
  · split at h1
    · cases h1
    · split at h1
      · cases h1
      · split at h1
        · cases h1
        · cases h1
        · exact openGlyphSet_wf h1

end Verif.Props
