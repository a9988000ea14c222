import Verif.Proofs.UfoLayers
/-! Written layer contents are read. -/
namespace Verif.Ufo
open Verif Verif.FS Verif.IO Verif.Spec.Ufo Verif.Spec.Plist Verif.FontInfo Verif.Validators Verif.Spec.Validators

theorem openWriter_new {F : FloatCodec} {fs fs' : FS} {version : Int} {creator : PyVal} {validate : Bool} {w : Writer}
    (h : openWriter F false fs version creator validate = (fs', .ok w)) :
    Layered w ∧ (w.layers = [] ∨ w.layers = [(defaultLayerName, glyphsName)] ∧ fs.exists [glyphsName] = true) := by
  obtain ⟨-, ⟨p, hp, -, hl⟩, -⟩ := openWriter_ok h
  simp only [previousVersion, Bool.false_eq_true, if_false] at hp
  cases hp
  simp only [initialLayers, Option.any_none, Bool.false_eq_true, if_false] at hl
  split at hl
  · rename_i he
    injection hl with hl
    rw [← hl]
    refine ⟨⟨?_, ?_⟩, .inr ⟨rfl, he⟩⟩
    · rw [← hl]; exact Dict.wf_set (d := []) Dict.wf_nil defaultLayerName glyphsName
    · rw [← hl]
      intro n d hd
      rw [Dict.get?_cons] at hd
      split at hd
      · cases hd; exact .inl rfl
      · cases hd
  · injection hl with hl
    rw [← hl]
    refine ⟨⟨?_, ?_⟩, .inl rfl⟩
    · rw [← hl]; exact Dict.wf_nil
    · rw [← hl]; intro n d hd; cases hd

theorem apart_new {L : Casing} {layers : Dict Str Str} {P : Prop} (h : layers = [] ∨ layers = [(defaultLayerName, glyphsName)] ∧ P) : ApartDirs L layers := by
  rcases h with rfl | ⟨rfl, -⟩
  · intro n m d e hn; cases hn
  · intro n m d e hn hm hne
    rw [Dict.get?_cons] at hn hm
    split at hn
    · split at hm
      · simp_all
      · cases hm
    · cases hn

theorem orderedLayers_ok {layers : Dict Str Str} : ∀ {order : List Str} {t : List (Str × Str)}, orderedLayers layers order = .ok t →
    t.map Prod.fst = order ∧ ∀ e ∈ t, Dict.get? layers e.1 = some e.2
  | [], t, h => by cases h; simp
  | n :: rest, t, h => by
    unfold orderedLayers at h
    split at h
    · cases h
    · rename_i d hd
      split at h
      · cases h
      · rename_i t' ht'
        cases h
        obtain ⟨h1, h2⟩ := orderedLayers_ok ht'
        refine ⟨by simp [h1], fun e he => ?_⟩
        rcases List.mem_cons.1 he with rfl | he
        · exact hd
        · exact h2 e he

theorem storable_layers {t : List (Str × Str)} (h : ∀ e ∈ t, FileText e.1 ∧ FileText e.2) : Storable (layersVal t) := by
  unfold layersVal
  refine ⟨.list _ ?_, ?_⟩
  · induction t with
    | nil => exact .nil
    | cons e t ih =>
      have := h e (by simp)
      exact .cons _ _ (.tuple _ (.cons _ _ (.str _ this.1) (.cons _ _ (.str _ this.2) .nil))) (ih fun e he => h e (by simp [he]))
  · show WellFormedList _
    clear h
    induction t with
    | nil => trivial
    | cons e t ih => exact ⟨⟨trivial, trivial, trivial⟩, ih⟩

theorem stored_layers {t : List (Str × Str)} {v : PyVal} (h : Stored (layersVal t) v) : v = .list (t.map fun e => .list [.str e.1, .str e.2]) := by
  obtain ⟨m, rfl, hm⟩ := stored_seq (.inl rfl) h
  congr 1
  clear h
  induction t generalizing m with
  | nil => cases hm; rfl
  | cons e t ih =>
    cases hm with
    | cons h1 h2 =>
      rw [List.map_cons, ih _ h2, stored_atoms (.inr rfl) (by simp [Atomic]) h1]

theorem mem_values_iff {layers : Dict Str Str} : ∀ {d : Str}, d ∈ Dict.values layers → ∃ n, (n, d) ∈ layers := by
  intro d hd
  obtain ⟨e, he, rfl⟩ := List.mem_map.1 hd
  exact ⟨e.1, he⟩

/-- The reader accepts what the writer wrote. -/
theorem written_layers {L : Casing} {F : FloatCodec} (hF : F.Lawful) {w w' : World} (hg : Good L w) (hv : w.1.version = 3) {order : Option (List (Option Str))}
    (hw : writeLayerContents F w order true = (w', .ok ())) (hdup : (layerOrderOf w.1.layers order).Nodup)
    (hdefault : ∃ n, Dict.get? w.1.layers n = some c!"glyphs")
    (hapart : ∀ d, GlyphsDir d → w.2.canon d ≠ w.2.canon layercontentsName)
    (hnames : ∀ n d, Dict.get? w.1.layers n = some d → n ≠ [] ∧ FileText n ∧ FileText d ∧ (n = c!"public.default" → d = c!"glyphs")) :
    ∃ t, readLayers F w'.2 3 true = .ok t ∧ t.map Prod.fst = layerOrderOf w.1.layers order ∧ ∀ e ∈ t, Dict.get? w.1.layers e.1 = some e.2 := by
  unfold writeLayerContents at hw
  simp only [hv, show ¬ (3 : Int) < 3 by decide, if_false, Bool.true_and] at hw
  split at hw
  · cases hw
  · rename_i hall
    simp only [Bool.not_eq_true', Bool.not_eq_false, Bool.and_eq_true, List.all_eq_true, decide_eq_true_eq] at hall
    split at hw
    · cases hw
    · rename_i t ht
      obtain ⟨h1, h2⟩ := orderedLayers_ok ht
      simp only [Prod.mk.injEq] at hw
      obtain ⟨rfl, hw⟩ := hw
      have hst : Storable (layersVal t) := storable_layers fun e he => ⟨(hnames _ _ (h2 e he)).2.1, (hnames _ _ (h2 e he)).2.2.1⟩
      have hwp : writePlist F w.1.havePrevious w.2 [layercontentsName] (layersVal t) =
          ((writePlist F w.1.havePrevious w.2 [layercontentsName] (layersVal t)).1, .ok ()) := by rw [← hw]
      obtain ⟨v, hv1, hv2⟩ := writePlist_reads F hF hst hwp none
      have hv3 := stored_layers hv2
      subst hv3
      have hspec := writePlist_spec hwp
      have htable : LayerTable (dirExists (writePlist F w.1.havePrevious w.2 [layercontentsName] (layersVal t)).1) t := by
        have hget : ∀ {e}, e ∈ t → Dict.get? w.1.layers e.1 = some e.2 := fun he => h2 _ he
        refine ⟨by rw [h1]; exact hdup, ?_, fun e he => (hnames _ _ (hget he)).1, fun e he => hg.layered.dirs _ _ (hget he), fun e he => ?_, ?_, fun e he => (hnames _ _ (hget he)).2.2.2⟩
        · have hnd : (t.map Prod.fst).Nodup := by rw [h1]; exact hdup
          clear hwp hspec hst hv1 hv2 hw ht
          rw [List.Nodup, List.pairwise_map] at hnd ⊢
          refine hnd.imp_of_mem fun {a b} ha hb hne he => ?_
          exact hg.apart _ _ _ _ (hget ha) (hget hb) hne (by rw [he])
        · have hne := hg.present _ _ (hget he)
          have : (writePlist F w.1.havePrevious w.2 [layercontentsName] (layersVal t)).1.node? [e.2] = w.2.node? [e.2] := by
            refine hspec.2.1 _ fun hk => ?_
            simp only [FS.key, List.map_cons, List.map_nil, List.cons.injEq, and_true] at hk
            exact hapart _ (hg.layered.dirs _ _ (hget he)) hk
          simp only [dirExists, «exists», this]
          rw [Option.isSome_iff_ne_none.2 hne]
        · obtain ⟨n, hn⟩ := hdefault
          have hmem : n ∈ layerOrderOf w.1.layers order := hall.2 n (Dict.mem_keys_of_mem (Dict.mem_of_get? hn))
          rw [← h1] at hmem
          obtain ⟨e, he, rfl⟩ := List.mem_map.1 hmem
          have := hget he
          rw [hn] at this
          injection this with this
          exact List.mem_map.2 ⟨e, he, this.symm⟩
      refine ⟨t, ?_, h1, h2⟩
      simp only [readLayers, show ¬ (3 : Int) < 3 by decide, if_false, readLayerTable, hv1, if_true]
      have hval : layerContentsValidator (dirExists (writePlist F w.1.havePrevious w.2 [layercontentsName] (layersVal t)).1)
          (.list (t.map fun e => .list [.str e.1, .str e.2])) = .ok true := layerContents_iff.2 ⟨t, rfl, htable⟩
      rw [hval]
      exact layerEntriesOf_map t

/-- Glyph directories are not other standard names, even ignoring case. -/
theorem lower_apart {L : Casing} (hL : AsciiPrefix L) {d a : Str} (hd : GlyphsDir d) (ha : a ∈ standardNames) : L.lower d ≠ L.lower a := by
  have h1 : ∃ t, L.lower d = c!"gl" ++ t := by
    rcases hd with rfl | ⟨r, rfl⟩
    · obtain ⟨t, ht, -⟩ := hL c!"gl" c!"yphs" (by decide)
      exact ⟨t, ht⟩
    · obtain ⟨t, ht, -⟩ := hL c!"gl" (c!"yphs." ++ r) (by decide)
      exact ⟨t, ht⟩
  have h2 : ∀ a ∈ standardNames, (a.map asciiLowerChar).take 2 ≠ c!"gl" ∧ ∀ c ∈ a, c.toNat < 128 := by decide +kernel
  obtain ⟨t, ht⟩ := h1
  obtain ⟨h3, h4⟩ := h2 a ha
  obtain ⟨t', ht', h0⟩ := hL a [] h4
  rw [h0 rfl, List.append_nil, List.append_nil] at ht'
  rw [ht, ht']
  intro e
  exact h3 (by rw [← e]; rfl)

end Verif.Ufo
