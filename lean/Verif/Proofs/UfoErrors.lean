import Verif.Proofs.GlifErrors
import Verif.Proofs.UfoCopySource
import Verif.Model.LayerInfo
/-! The exceptions of the readers of a UFO. -/
namespace Verif.Ufo
open Verif Verif.FS Verif.IO Verif.Validators Verif.Spec.Errors Verif.Spec.Plist
open Verif.Glif (only_ok only_error only_of only_map only_mono)

/-- `UFOLibError` only. -/
def Ulib (e : Exc) : Prop := e = .ufoLibError

theorem getPlist_only {F : FloatCodec} {fs : FS} {p : Path} {d : Option PyVal} : Only Ulib (getPlist F fs p d) := by
  unfold getPlist
  (repeat' split) <;> first | exact only_ok | exact only_error rfl

theorem readLib_only {F : FloatCodec} {fs : FS} {v : Bool} : Only Ulib (readLib F fs v) := by
  unfold readLib
  (repeat' split) <;> first | exact only_ok | exact only_error rfl | exact only_of getPlist_only (by assumption)

theorem readGroups_only {F : FloatCodec} {fs : FS} {v : Bool} : Only Ulib (readGroups3 F fs v) := by
  unfold readGroups3
  (repeat' split) <;> first | exact only_ok | exact only_error rfl | exact only_of getPlist_only (by assumption)

theorem rowOf_valid {s : List (PyVal × PyVal)} (h : ∀ j ∈ s, isStr j.1 = true) : ∃ r, rowOf s = .ok r := by
  induction s with
  | nil => exact ⟨_, rfl⟩
  | cons j s ih =>
    obtain ⟨k, v⟩ := j
    rw [List.forall_mem_cons] at h
    obtain ⟨r, hr⟩ := ih h.2
    obtain ⟨x, rfl⟩ : ∃ x, k = .str x := by
      have := h.1
      cases k <;> simp_all [isStr]
    simp only [rowOf, hr]
    exact ⟨_, rfl⟩

theorem rowsOf_valid {d : List (PyVal × PyVal)} (h : kerningValidator (.dict d) = true) : ∃ t, rowsOf d = .ok t := by
  simp only [kerningValidator, List.all_eq_true, Bool.and_eq_true] at h
  induction d with
  | nil => exact ⟨_, rfl⟩
  | cons i d ih =>
    obtain ⟨k, v⟩ := i
    rw [List.forall_mem_cons] at h
    obtain ⟨t, ht⟩ := ih h.2
    obtain ⟨⟨h1, h2⟩, -⟩ := h
    obtain ⟨x, rfl⟩ : ∃ x, k = .str x := by cases k <;> simp_all [isStr]
    obtain ⟨row, rfl⟩ : ∃ row, v = .dict row := by cases v <;> simp_all
    simp only [List.all_eq_true, Bool.and_eq_true] at h2
    obtain ⟨r, hr⟩ := rowOf_valid fun j hj => (h2 j hj).1
    simp only [rowsOf, hr, ht]
    exact ⟨_, rfl⟩

theorem readKerning_only {F : FloatCodec} {fs : FS} : Only Ulib (readKerning3 F fs true) := by
  unfold readKerning3
  split
  · exact only_of getPlist_only (by assumption)
  · rename_i v hv
    split
    · exact only_error rfl
    · rename_i hk
      simp only [Bool.true_and, Bool.not_eq_true', Bool.not_eq_false] at hk
      split
      · obtain ⟨t, ht⟩ := rowsOf_valid hk
        rw [ht]
        exact only_ok
      · rename_i hd
        exact absurd hk (by cases v <;> simp_all [kerningValidator])

theorem readLayers_only {F : FloatCodec} {fs : FS} {version : Int} : Only Ulib (readLayers F fs version true) := by
  unfold readLayers
  split
  · exact only_ok
  unfold readLayerTable
  split
  · exact only_of getPlist_only (by assumption)
  · rename_i v hv
    have htotal : ∃ b, layerContentsValidator (dirExists fs) v = .ok b := by
      unfold layerContentsValidator
      split
      · exact layerEntries_total (fun d => ⟨_, rfl⟩) _ _ _
      · exact ⟨_, rfl⟩
    obtain ⟨b, hb⟩ := htotal
    rw [if_pos rfl, hb]
    cases b with
    | false => exact only_error rfl
    | true =>
      obtain ⟨t, rfl, -⟩ := layerContents_iff.1 hb
      have : layerEntriesOf (tableVal t) = .ok t := layerEntriesOf_map t
      dsimp only
      rw [this]
      exact only_ok

theorem getLayerNames_only {F : FloatCodec} {fs : FS} {version : Int} : Only Ulib (getLayerNames F fs version true) := by
  unfold getLayerNames
  split
  · exact only_of readLayers_only (by assumption)
  · exact only_ok

theorem getDefaultLayerName_only {F : FloatCodec} {fs : FS} {version : Int} : Only Ulib (getDefaultLayerName F fs version true) := by
  unfold getDefaultLayerName
  split
  · exact only_of readLayers_only (by assumption)
  · split
    · exact only_error rfl
    · exact only_ok

theorem getImageDirectoryListing_only {fs : FS} {version : Int} {v : Bool} : Only Ulib (getImageDirectoryListing fs version v) := by
  unfold getImageDirectoryListing
  (repeat' split) <;> first | exact only_ok | exact only_error rfl

theorem readMetaInfo_only {F : FloatCodec} {fs : FS} (h : ∀ d, getPlist F fs [metainfoName] none = .ok (.dict d) → ∃ v, get d c!"formatVersion" = some v) :
    Only Ulib (readMetaInfo F fs true) := by
  unfold readMetaInfo
  split
  · exact only_of getPlist_only (by assumption)
  · rename_i d hd
    obtain ⟨v, hv⟩ := h d hd
    rw [hv]
    dsimp only
    split
    · exact only_error rfl
    · split
      · exact only_error rfl
      · exact only_ok
  · exact only_error rfl

end Verif.Ufo

namespace Verif.GlyphSet
open Verif Verif.FS Verif.IO Verif.Validators Verif.Spec.Errors Verif.Spec.Plist
open Verif.Glif (only_ok only_error only_of only_map only_mono)

/-- `UFOLibError` or `GlifLibError`. -/
def Library (e : Exc) : Prop := e = .ufoLibError ∨ e = .glifLibError

theorem rebuildContents_only {F : FloatCodec} {gs : GlyphSet} {fs : FS} {v : Bool} : Only Library (rebuildContents F gs fs v) := by
  unfold rebuildContents
  split
  · exact only_of (only_mono Ufo.getPlist_only fun _ h => Or.inl h) (by assumption)
  · have : Only Library (checkContents fs gs.dir v ‹_›) := by
      unfold checkContents
      (repeat' split) <;> first | exact only_ok | exact only_error (Or.inr rfl)
    split
    · exact only_of this (by assumption)
    · exact only_ok

theorem openGlyphSet_only {F : FloatCodec} {fs : FS} {dir : Path} {version : Nat} {v : Bool} : Only Library (openGlyphSet F fs dir version v) := by
  unfold openGlyphSet
  split
  · exact rebuildContents_only
  · exact only_error (Or.inr rfl)

theorem validateLayerInfo_only {F : FloatCodec} {d : List (PyVal × PyVal)} : Only Library (validateLayerInfo F d) := by
  induction d with
  | nil => exact only_ok
  | cons e d ih =>
    unfold validateLayerInfo
    split
    · exact only_ok
    · rename_i heq
      cases heq
      (repeat' split) <;> first | exact only_error (Or.inr rfl) | exact ih
    · exact only_error (Or.inr rfl)

theorem readLayerInfo_only {F : FloatCodec} {w : World} : Only Library (readLayerInfo F w true) := by
  unfold readLayerInfo
  split
  · exact only_of (only_mono Ufo.getPlist_only fun _ h => Or.inl h) (by assumption)
  · rw [if_pos rfl]
    exact only_map validateLayerInfo_only
  · exact only_error (Or.inr rfl)

theorem readerGlyphSet_only {F : FloatCodec} {fs : FS} {version : Int} {layer : Option Str}
    (h : ∀ t, Ufo.readLayers F fs version true = .ok t → ∀ e ∈ t, ∀ b, fs.node? [e.2] ≠ some (.file b)) : Only Library (Ufo.readerGlyphSet F fs version layer true) := by
  unfold Ufo.readerGlyphSet
  have hr : Only Library (Ufo.resolveLayer F fs version layer true) := by
    unfold Ufo.resolveLayer
    split
    · exact only_ok
    · exact only_mono Ufo.getDefaultLayerName_only fun _ h => Or.inl h
  split
  · exact only_of hr (by assumption)
  · split
    · exact only_of (only_mono Ufo.readLayers_only fun _ h => Or.inl h) (by assumption)
    · rename_i t ht
      split
      · exact only_error (Or.inl rfl)
      · rename_i e he
        split
        · exact only_error (Or.inl rfl)
        · rename_i b hb
          exact absurd hb (h t ht e (List.mem_of_find?_eq_some he) b)
        · exact openGlyphSet_only

end Verif.GlyphSet
