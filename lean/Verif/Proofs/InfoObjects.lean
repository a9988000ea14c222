import Verif.Model.InfoObjects
import Verif.Proofs.ReadInto
import Verif.Proofs.UfoUpgrade
/-! Lemmas about info objects that are read into more than once. -/
namespace Verif.Proofs.InfoObjects
open Verif Verif.ReadInto Verif.Proofs.ReadInto

theorem into_ok {E : FontInfo.Env} {fs : FS} {version : Int} {validate : Bool} {t : Target} {data : Dict Str PyVal} (h : Ufo.readInfo E fs version validate = .ok data)
    (ha : ∀ k v, Dict.get? data k = some v → t.accepts k = true) :
    ∃ t', readInfoInto E fs version validate t = (t', .ok ()) ∧ t'.accepts = t.accepts ∧ ∀ k, t'.attrs k = (Dict.get? data k).or (t.attrs k) := by
  obtain ⟨t', h1, h2, h3⟩ := populate_ok data t (info_wf h) fun k hk => by
    cases hg : Dict.get? data k with
    | none => exact absurd hk (Dict.get?_eq_none_iff.1 hg)
    | some v => exact ha k v hg
  exact ⟨t', by unfold readInfoInto; rw [h]; exact h1, h2, h3⟩

theorem populateLayer_ok : ∀ (d : List (PyVal × PyVal)) (t : Target), Dict.WF d → (∀ e ∈ d, ∃ k, e.1 = .str k ∧ t.accepts k = true) →
    ∃ t', populateLayer t d = (t', .ok ()) ∧ ∀ k, t'.attrs k = (Dict.get? d (.str k)).or (t.attrs k)
  | [], t, _, _ => ⟨t, rfl, fun k => rfl⟩
  | (x, v) :: d, t, hw, ha => by
    obtain ⟨hk, hw'⟩ : x ∉ Dict.keys d ∧ Dict.WF d := by
      simpa [Dict.WF, Dict.keys, List.nodup_cons] using hw
    obtain ⟨k, hx, hak⟩ := ha _ List.mem_cons_self
    dsimp only at hx
    subst hx
    obtain ⟨t', h1, h2⟩ := populateLayer_ok d { t with attrs := fun k' => if k' = k then some v else t.attrs k' } hw' fun e he => ha e (List.mem_cons_of_mem _ he)
    refine ⟨t', ?_, fun k' => ?_⟩
    · unfold populateLayer Target.set
      rw [if_pos hak]
      exact h1
    · rw [h2 k']
      dsimp only
      by_cases e : k' = k
      · subst e
        rw [Dict.get?_eq_none_iff.2 hk, if_pos rfl]
        simp [Dict.get?]
      · rw [if_neg e]
        have : PyVal.str k ≠ .str k' := fun h => e (by cases h; rfl)
        simp [Dict.get?, this]

end Verif.Proofs.InfoObjects
