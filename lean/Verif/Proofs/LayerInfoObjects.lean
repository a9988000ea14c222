import Verif.Proofs.LayerInfo
import Verif.Proofs.UfoUpgrade
/-! What `readLayerInfo` returns. -/
namespace Verif.Proofs.LayerInfoObjects
open Verif Verif.Spec.Plist
open Verif.GlyphSet (World readLayerInfo)

/-- What `readLayerInfo` returns with validation was in a property list and is valid. -/
theorem layerInfo_readable {F : FloatCodec} {w : World} {data : List (PyVal × PyVal)} (h : readLayerInfo F w true = .ok data) :
    Readable (.dict data) ∧ GlyphSet.validateLayerInfo F data = .ok () := by
  unfold readLayerInfo at h
  split at h
  · cases h
  · rename_i d hd
    rw [if_pos rfl] at h
    cases hv : GlyphSet.validateLayerInfo F d with
    | error e => rw [hv] at h; cases h
    | ok u =>
      rw [hv] at h
      cases h
      obtain ⟨hr, -⟩ := Ufo.getPlist_readable hd
      exact ⟨hr.resolve_left (by simp), hv⟩
  · cases h

theorem fits_item {l : List (PyVal × PyVal)} {e : PyVal × PyVal} (h : FitsItems l) (he : e ∈ l) : Fits e.2 := by
  induction l with
  | nil => cases he
  | cons x l ih =>
    rcases List.mem_cons.1 he with rfl | he
    · exact h.2.1
    · exact ih h.2.2 he

end Verif.Proofs.LayerInfoObjects
