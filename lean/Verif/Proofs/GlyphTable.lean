import Verif.Model.GlyphTable
import Verif.Proofs.GlifScan
import Verif.Proofs.GlyphSetReopen
/-! Lemmas about the tables made from all glyphs. -/
namespace Verif.GlyphSet
open Verif

theorem fetchAll_ok {α : Type} {fetch : Elem → Except Exc α} {w : World} : ∀ (names : List Str) (table t : Dict Str α),
    fetchAll fetch w table names = .ok t →
      (∀ n ∈ names, ∃ v, fetchGlyph fetch w n = .ok v) ∧ (Dict.WF table → Dict.WF t) ∧
      ∀ n, Dict.get? t n = if n ∈ names then (fetchGlyph fetch w n).toOption else Dict.get? table n
  | [], table, t, h => by cases h; simp
  | n :: ns, table, t, h => by
    unfold fetchAll at h
    split at h
    · cases h
    · rename_i v hv
      obtain ⟨h1, h2, h3⟩ := fetchAll_ok ns _ _ h
      refine ⟨fun m hm => ?_, fun hw => h2 (Dict.wf_set hw _ _), fun m => ?_⟩
      · rcases List.mem_cons.1 hm with rfl | hm
        · exact ⟨v, hv⟩
        · exact h1 m hm
      · rw [h3 m]
        by_cases hm : m ∈ ns
        · simp [hm]
        · by_cases hmn : m = n
          · subst hmn; simp [hm, hv, Except.toOption, Dict.get?_set_self]
          · simp [hm, hmn, Dict.get?_set_ne _ _ (Ne.symm hmn)]

end Verif.GlyphSet

namespace Verif.Glif
open Verif

theorem fetcher_run_inv {σ : Type} {f : Fetcher σ} {P : σ → Prop} (hit : ∀ s a, P s → P (f.hit s a).1) :
    ∀ (es : List Event) (stack : List Str) (s t : σ), P s → f.run stack s es = .ok t → P t
  | [], _, _, _, hs, h => by cases h; exact hs
  | .start name attrs :: es, stack, s, t, hs, h => by
    have ho : P (f.onStart stack s name attrs).1 := by
      unfold Fetcher.onStart
      split
      · exact hit _ _ hs
      · exact hs
    unfold Fetcher.run at h
    split at h
    · rename_i s' e
      rw [e] at ho
      cases h; exact ho
    · rename_i s' e
      rw [e] at ho
      exact fetcher_run_inv hit es _ _ _ ho h
  | .stop name :: es, stack, s, t, hs, h => by
    unfold Fetcher.run at h
    split at h
    · cases h; exact hs
    · split at h
      · cases h
      · split at h
        · exact fetcher_run_inv hit es _ _ _ hs h
        · cases h

theorem fetchUnicodes_nodup {tree : Elem} {us : List Int} (h : fetchUnicodes tree = .ok us) : us.Nodup := by
  refine fetcher_run_inv (P := List.Nodup) (fun s a hs => ?_) _ _ _ _ List.nodup_nil h
  show (match Dict.get? a c!"hex" with
    | none => (s, false)
    | some value => match pyInt16 value with
      | none => (s, false)
      | some i => (if i ∈ s then s else s ++ [i], false)).1.Nodup
  split
  · exact hs
  · split
    · exact hs
    · rename_i i _
      dsimp only
      split
      · exact hs
      · rename_i hi
        exact List.nodup_append.2 ⟨hs, by simp, by rintro a ha b hb rfl; simp at hb; exact hi (hb ▸ ha)⟩

end Verif.Glif

namespace Verif.Ufo
open Verif

theorem get?_addCodes (name : Str) : ∀ (codes : List Int) (cmap : Dict Int (List Str)) (c : Int), codes.Nodup →
    Dict.get? (addCodes name cmap codes) c = if c ∈ codes then some ((Dict.get? cmap c).getD [] ++ [name]) else Dict.get? cmap c
  | [], cmap, c, _ => by simp [addCodes]
  | code :: codes, cmap, c, hn => by
    obtain ⟨h1, h2⟩ := List.nodup_cons.1 hn
    have key : addCodes name cmap (code :: codes) = addCodes name (Dict.set cmap code ((Dict.get? cmap code).getD [] ++ [name])) codes := by
      rw [addCodes.eq_def]; dsimp only
      split
      · rename_i names h; simp [h]
      · rename_i h; simp [h]
    rw [key, get?_addCodes name codes _ c h2]
    by_cases hc : c = code
    · subst hc; simp [h1, Dict.get?_set_self]
    · simp [hc, Dict.get?_set_ne _ _ (Ne.symm hc)]

theorem wf_addCodes (name : Str) : ∀ (codes : List Int) (cmap : Dict Int (List Str)), Dict.WF cmap → Dict.WF (addCodes name cmap codes)
  | [], _, h => h
  | code :: codes, cmap, h => by
    rw [addCodes.eq_def]; dsimp only
    split <;> exact wf_addCodes name codes _ (Dict.wf_set h _ _)

/-- The names of the entries whose codes contain `c`. -/
def carriers (table : Dict Str (List Int)) (c : Int) : List Str := (table.filter fun e => decide (c ∈ e.2)).map Prod.fst

theorem characterMap_fold : ∀ (table : Dict Str (List Int)) (cmap : Dict Int (List Str)), (∀ e ∈ table, e.2.Nodup) →
    (Dict.WF cmap → Dict.WF (table.foldl (fun cmap e => addCodes e.1 cmap e.2) cmap)) ∧
    ∀ c, Dict.get? (table.foldl (fun cmap e => addCodes e.1 cmap e.2) cmap) c =
      if carriers table c = [] then Dict.get? cmap c else some ((Dict.get? cmap c).getD [] ++ carriers table c)
  | [], _, _ => ⟨fun h => h, fun c => by simp [carriers]⟩
  | e :: table, cmap, h => by
    obtain ⟨h1, h2⟩ := characterMap_fold table (addCodes e.1 cmap e.2) fun x hx => h x (List.mem_cons_of_mem _ hx)
    refine ⟨fun hw => h1 (wf_addCodes _ _ _ hw), fun c => ?_⟩
    rw [List.foldl_cons, h2 c, get?_addCodes _ _ _ _ (h e List.mem_cons_self)]
    have hcar : carriers (e :: table) c = if c ∈ e.2 then e.1 :: carriers table c else carriers table c := by
      unfold carriers
      by_cases hc : c ∈ e.2 <;> simp [hc]
    rw [hcar]
    by_cases hc : c ∈ e.2
    · by_cases ht : carriers table c = [] <;> simp [hc, ht]
    · simp [hc]

theorem characterMap_spec (table : Dict Str (List Int)) (hw : Dict.WF table) (h : ∀ e ∈ table, e.2.Nodup) :
    Dict.WF (characterMap table) ∧ (∀ c l, Dict.get? (characterMap table) c = some l → l ≠ [] ∧ l.Nodup) ∧
    ∀ c n, n ∈ (Dict.get? (characterMap table) c).getD [] ↔ ∃ us, Dict.get? table n = some us ∧ c ∈ us := by
  obtain ⟨h1, h2⟩ := characterMap_fold table [] h
  have hmem : ∀ c n, n ∈ carriers table c ↔ ∃ us, Dict.get? table n = some us ∧ c ∈ us := by
    intro c n
    unfold carriers
    simp only [List.mem_map, List.mem_filter, decide_eq_true_eq]
    constructor
    · rintro ⟨⟨m, us⟩, ⟨h3, h4⟩, rfl⟩
      exact ⟨us, Dict.get?_of_mem hw h3, h4⟩
    · rintro ⟨us, h3, h4⟩
      exact ⟨(n, us), ⟨Dict.mem_of_get? h3, h4⟩, rfl⟩
  have hnd : ∀ c, (carriers table c).Nodup := fun c => (List.filter_sublist.map Prod.fst).nodup hw
  refine ⟨h1 Dict.wf_nil, fun c l hl => ?_, fun c n => ?_⟩
  · have e := h2 c
    unfold characterMap at hl
    rw [hl] at e
    split at e
    · cases e
    · rename_i hne
      simp at e
      subst e
      exact ⟨hne, hnd c⟩
  · unfold characterMap
    rw [h2 c, ← hmem]
    split
    · rename_i he; rw [he]; simp
    · simp

end Verif.Ufo
