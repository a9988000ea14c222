import Verif.Proofs.GlyphSetOwn
import Verif.Proofs.UfoSaved
import Verif.Proofs.UfoMeaning
import Verif.Proofs.UfoOpen
import Verif.Proofs.Crash
import Verif.Spec.Edit
/-! Editing the glyphs of a layer that exists. -/
namespace Verif.GlyphSet
open Verif Verif.FS Verif.IO Verif.Spec.GlyphSet Verif.Filenames

theorem expects_now (r : Except Exc Bytes) : Expects r (now r) := by
  unfold now
  split
  · exact rfl
  · exact rfl
  · trivial

variable {L : Casing} {N : Str → Prop}

/-- Where glyphs may be: in the file they had, or in their own file. -/
def Placed (L : Casing) (N : Str → Prop) (table : Dict Str Str) (m f : Str) : Prop := Dict.get? table m = some f ∨ (N m ∧ f = ownFile L.lower m)

theorem placed_own (hN : OwnFiles L.lower N) {table : Dict Str Str} (he : Editable L.lower N table) {n m f : Str} (hn : N n) (hp : Placed L N table m f)
    (h : L.lower f = L.lower (ownFile L.lower n)) : m = n := by
  rcases hp with hp | ⟨hm, rfl⟩
  · exact he.own n hn m f hp h
  · exact own_inj hN hm hn h

theorem admissible_placed (hL : CaseLaws L.lower) (hN : OwnFiles L.lower N) {table : Dict Str Str} (he : Editable L.lower N table) {n : Str} (hn : N n) :
    Admissible L (Placed L N table) (defaultNaming L) n := by
  intro contents ex f hgood hex hnone hf
  have hfree : L.lower (ownFile L.lower n) ∉ Dict.keys ex := by
    intro hmem
    obtain ⟨m, hm⟩ := (hex _).1 hmem
    have : m = n := placed_own hN he hn (hgood m _ hm) (hL.again _)
    rw [this, hnone] at hm
    cases hm
  rw [defaultNaming_own (hN.nonempty n hn) ex hfree] at hf
  cases hf
  refine ⟨.inr ⟨hn, rfl⟩, fun m g hm heq => ?_⟩
  have : m = n := placed_own hN he hn (hgood m g hm) heq
  rw [this, hnone] at hm
  cases hm

theorem named_edit {gs : GlyphSet} (hw : Dict.WF gs.contents) (hfresh : gs.existing = none ∧ gs.reverse = none) (he : Editable L.lower N gs.contents) :
    Named L (Placed L N gs.contents) gs :=
  ⟨⟨hw, fun ex h => (by rw [hfresh.1] at h; cases h), fun r h => (by rw [hfresh.2] at h; cases h)⟩, he.distinct, fun _ _ h => .inl h⟩

theorem placed_contents (hL : CaseLaws L.lower) {table : Dict Str Str} (he : Editable L.lower N table) {m f : Str} (h : Placed L N table m f) : L.lower f ≠ L.lower c!"contents.plist" := by
  rcases h with h | ⟨-, rfl⟩
  · exact he.contents m f h
  · exact own_lower hL (by decide)

theorem placed_layerinfo (hL : CaseLaws L.lower) {table : Dict Str Str} (he : Editable L.lower N table) {m f : Str} (h : Placed L N table m f) : L.lower f ≠ L.lower c!"layerinfo.plist" := by
  rcases h with h | ⟨-, rfl⟩
  · exact he.layerinfo m f h
  · exact own_lower hL (by decide)

/-- The table of a glyph set that was just opened. -/
theorem openGlyphSet_table {F : FloatCodec} {fs : FS} {dir : Path} {version : Nat} {v : Bool} {gs : GlyphSet} (h : openGlyphSet F fs dir version v = .ok gs) :
    Dict.WF gs.contents := by
  unfold openGlyphSet at h
  split at h
  · unfold rebuildContents at h
    split at h
    · cases h
    · split at h
      · cases h
      · rename_i t ht
        cases h
        unfold checkContents at ht
        split at ht
        · split at ht
          · cases ht
          · split at ht
            · cases ht
            · cases ht
              exact foldl_set_wf (fun e : Str × Str => e.1) (fun e => e.2) _ _ Dict.wf_nil
        · cases ht
  · cases h

end Verif.GlyphSet
namespace Verif.Ufo
open Verif Verif.FS Verif.IO Verif.Spec.Ufo

/-- The layers of a table that was accepted. -/
theorem readLayerTable_valid {F : FloatCodec} {fs : FS} {t : List (Str × Str)} (h : readLayerTable F fs true = .ok t) :
    Spec.Validators.LayerTable (dirExists fs) t := by
  unfold readLayerTable at h
  split at h
  · cases h
  · simp only [if_true] at h
    split at h
    · cases h
    · cases h
    · rename_i hval
      obtain ⟨t', rfl, ht⟩ := Validators.layerContents_iff.1 hval
      simp only at h
      rw [show layerEntriesOf (Validators.tableVal t') = .ok t' from layerEntriesOf_map t'] at h
      cases h
      exact ht

/-- The layers of a writer on a UFO 3 that exists are those of the reader. -/
theorem openWriter_existing {F : FloatCodec} {fs fs' : FS} {creator : PyVal} {w : Writer} {t : List (Str × Str)} (h : openWriter F true fs 3 creator true = (fs', .ok w))
    (hp : previousVersion F true fs = .ok (some 3)) (ht : readLayerTable F fs true = .ok t) : w.layers = t := by
  obtain ⟨-, ⟨p, hp', -, hl⟩, -⟩ := openWriter_ok h
  rw [hp] at hp'
  cases hp'
  unfold initialLayers at hl
  rw [if_pos (by simp), ht] at hl
  dsimp only at hl
  rw [Except.ok.injEq] at hl
  rw [← hl]
  exact UfoMeaning.foldl_same (readLayerTable_valid ht).names

end Verif.Ufo
