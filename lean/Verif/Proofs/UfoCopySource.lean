import Verif.Proofs.UfoCopyFont
/-! Saving a whole font: what is known of the source, and the calls as calls on the writer. -/
namespace Verif.Props
open Verif Verif.FS Verif.IO Verif.Ufo Verif.Spec.Ufo Verif.Spec.Plist Verif.Spec.Copy

theorem keepsApart_of {L : Casing} (hL : AsciiPrefix L) {canon : Str → Str} (hcanon : ∀ a b, canon a = canon b → L.lower a = L.lower b) : KeepsApart canon := by
  have hA := asciiCasing_of hL
  refine ⟨fun a ha b hb e => ?_, fun a ha d hd e => lower_apart hL hd ha (hcanon _ _ e)⟩
  have h1 := hcanon _ _ e
  have hascii : ∀ x ∈ standardNames, ∀ c ∈ x, c.toNat < 128 := by decide
  rw [hA _ (hascii a ha), hA _ (hascii b hb)] at h1
  have key : ∀ a ∈ standardNames, ∀ b ∈ standardNames, a.map asciiLowerChar = b.map asciiLowerChar → a = b := by decide
  exact key a ha b hb h1

theorem getPlist_readable_none {F : FloatCodec} {fs : FS} {p : Path} {v : PyVal} (h : getPlist F fs p none = .ok v) : v = .none ∨ Readable v := by
  unfold getPlist at h
  split at h
  · cases h
  · cases h
  · split at h
    · cases h
    · rename_i hl
      cases h
      exact loadBytes_readable hl

/-- The layers of a UFO of any version that were read with validation. -/
theorem source_table {F : FloatCodec} {fs : FS} {version : Int} {t : List (Str × Str)} (h : readLayers F fs version true = .ok t) :
    (t.map Prod.fst).Nodup ∧ (t.map Prod.snd).Nodup ∧ (∀ p ∈ t, p.1 ≠ [] ∧ XmlText p.1 ∧ (p.1 = c!"public.default" → p.2 = c!"glyphs")) ∧ c!"glyphs" ∈ t.map Prod.snd := by
  unfold readLayers at h
  split at h
  · cases h
    refine ⟨by simp, by simp, fun p hp => ?_, by simp [glyphsName]⟩
    rw [List.mem_singleton.1 hp]
    exact ⟨by decide, by unfold XmlText; decide, fun _ => rfl⟩
  · unfold readLayerTable at h
    split at h
    · cases h
    · rename_i v hv
      rw [if_pos rfl] at h
      split at h
      · cases h
      · cases h
      · rename_i hval
        obtain ⟨t', rfl, ht⟩ := Validators.layerContents_iff.1 hval
        dsimp only at h
        rw [show Validators.tableVal t' = t'.map fun e => PyVal.list [.str e.1, .str e.2] from rfl, layerEntriesOf_map] at h
        cases h
        refine ⟨ht.names, ht.dirs, fun p hp => ⟨ht.named p hp, ?_, ht.publicName p hp⟩, ht.default⟩
        have hr : Readable _ := (getPlist_readable_none hv).resolve_left (by simp)
        have := Plist.readableList_iff.1 hr _ (List.mem_map_of_mem hp)
        exact this.1

/-- The directory of a layer is `glyphs` exactly for the default layer. -/
theorem default_iff {F : FloatCodec} {fs : FS} {version : Int} {t : List (Str × Str)} (h : readLayers F fs version true = .ok t) {e : Str × Str} (he : e ∈ t) :
    getDefaultLayerName F fs version true = .ok e.1 ↔ e.2 = c!"glyphs" := by
  obtain ⟨h1, h2, -, h4⟩ := source_table h
  unfold getDefaultLayerName
  rw [h]
  dsimp only
  obtain ⟨x, hx, hxd⟩ := List.mem_map.1 h4
  cases hf : t.find? (fun e => decide (e.2 = glyphsName)) with
  | none =>
    have := List.find?_eq_none.1 hf x hx
    simp [glyphsName, hxd] at this
  | some y =>
    have hy0 := List.find?_some hf
    have hy : y.2 = c!"glyphs" := of_decide_eq_true hy0
    have hym := List.mem_of_find?_eq_some hf
    dsimp only
    constructor
    · intro hh
      injection hh with hh
      rw [← List.inj_on_of_nodup_map h1 hym he hh]
      exact hy
    · intro hh
      rw [List.inj_on_of_nodup_map h2 hym he (hy.trans hh.symm)]

/-- The layers that were loaded. -/
theorem source_layers {E : FontInfo.Env} {G : Glif.Env} (hGE : G.F = E.F) {ord1 ord2 : List Str → List Str} {fs : FS} {version : Int} {font : Whole}
    (h : LoadsFont E G ord1 ord2 fs version font) {lower : Str → Str} (hfit : ∀ l ∈ font.layers, l.Fits lower) (hfew : font.layers.length < 999999999999998) :
    LayersOK font.layers ∧ (∀ l ∈ font.layers, l.name ≠ [] ∧ (l.name = c!"public.default" → l.default = true)) ∧ ∃ l ∈ font.layers, l.default = true := by
  have hn := h.names
  unfold getLayerNames at hn
  split at hn
  · cases hn
  · rename_i t ht
    injection hn with hn
    obtain ⟨h1, h2, h3, h4⟩ := source_table ht
    have hmem : ∀ l ∈ font.layers, ∃ e ∈ t, e.1 = l.name ∧ (l.default = true ↔ e.2 = c!"glyphs") := by
      intro l hl
      have : l.name ∈ t.map Prod.fst := by rw [hn]; exact List.mem_map_of_mem hl
      obtain ⟨e, he, hel⟩ := List.mem_map.1 this
      refine ⟨e, he, hel, ?_⟩
      rw [(h.layers l hl).default, ← hel, hGE]
      exact default_iff ht he
    refine ⟨⟨by rw [← hn]; exact h1, fun l hl => ?_, fun i j l m hi hj hdl hdm => ?_, hfew⟩, fun l hl => ?_, ?_⟩
    · obtain ⟨e, he, hel, -⟩ := hmem l hl
      rw [← hel]
      exact ⟨(h3 e he).2.1, by rw [hel]; exact (hfit l hl).name⟩
    · have e1 := (h.layers l (List.mem_of_getElem? hi)).default.1 hdl
      have e2 := (h.layers m (List.mem_of_getElem? hj)).default.1 hdm
      rw [e1] at e2
      injection e2 with e2
      have k1 : (font.layers.map (·.name))[i]? = some l.name := by simp [hi]
      have k2 : (font.layers.map (·.name))[j]? = some l.name := by simp [hj, e2]
      exact (List.getElem?_inj (i := i) (j := j) (by simp; exact (List.getElem?_eq_some_iff.1 hi).1) (by rw [← hn]; exact h1)).1 (k1.trans k2.symm)
    · obtain ⟨e, he, hel, hd⟩ := hmem l hl
      rw [← hel]
      exact ⟨(h3 e he).1, fun hp => hd.2 ((h3 e he).2.2 hp)⟩
    · obtain ⟨x, hx, hxd⟩ := List.mem_map.1 h4
      have : x.1 ∈ font.layers.map (·.name) := by rw [← hn]; exact List.mem_map_of_mem hx
      obtain ⟨l, hl, hlx⟩ := List.mem_map.1 this
      refine ⟨l, hl, ?_⟩
      rw [(h.layers l hl).default, hlx, hGE]
      exact (default_iff ht hx).2 hxd

/-- The calls that save the content are about files. -/
theorem saves_dirs {L : Casing} (hL : AsciiPrefix L) {canon : Str → Str} (hcanon : ∀ a b, canon a = canon b → L.lower a = L.lower b) {c : Content} {op : Op} (h : Saves c op) :
    ∀ d, GlyphsDir d → Spares canon d op := by
  intro d hd x hx e
  refine lower_apart hL hd ?_ (hcanon _ _ e).symm
  cases h <;> cases hx <;> decide

theorem follows_of {L : Casing} (hL : AsciiPrefix L) {canon : Str → Str} (hcanon : ∀ a b, canon a = canon b → L.lower a = L.lower b) {G : Glif.Env} {font : Whole}
    {calls : List FontCall} (h : SavesFont canon L G font calls) (post : List FontCall) : ∀ pre, calls = pre ++ post → Follows canon font.layers (gets pre) post := by
  induction post with
  | nil => exact fun _ _ => trivial
  | cons c post ih =>
    intro pre e
    have hi := ih (pre ++ [c]) (by rw [e]; simp)
    have hg : gets (pre ++ [c]) = gets pre + gets [c] := by
      unfold gets
      rw [List.filterMap_append, List.length_append]
    rw [hg] at hi
    cases c with
    | getGlyphSet n b v =>
      refine ⟨?_, hi⟩
      have h1 := h.gets
      rw [e, List.filterMap_append] at h1
      have h2 : (calls.filterMap getCall)[gets pre]? = some (n, b) := by
        rw [e, List.filterMap_append, List.getElem?_append_right (by simp [gets])]
        simp [gets, getCall]
      rw [h.gets, List.getElem?_map] at h2
      cases hl : font.layers[gets pre]? with
      | none => rw [hl] at h2; cases h2
      | some l =>
        rw [hl] at h2
        simp only [Option.map_some, Option.some.injEq, Prod.mk.injEq] at h2
        exact ⟨l, rfl, h2.1.symm, h2.2.symm⟩
    | set i s => exact ⟨h.later pre i s post e, hi⟩
    | ufo op =>
      refine ⟨?_, hi⟩
      rcases h.others op (by rw [e]; simp) with h | ⟨-, -, h⟩
      · exact saves_dirs hL hcanon h
      · exact h

section
variable {L : Casing} (hL : AsciiPrefix L) (hlaw : L.Lawful) (E : FontInfo.Env) {canon : Str → Str} {layers : List Layer} (hok : LayersOK layers)
include hL hlaw hok

/-- The calls as calls on the writer: those that the program makes on the writer, and calls about glyph directories. -/
theorem asOps_mem (cs : List FontCall) : ∀ {k : Nat} {f : Font}, Progress L canon layers k f → k ≤ layers.length → Follows canon layers k cs →
    ∀ op ∈ f.asOps E L cs, .ufo op ∈ cs ∨ ∀ n ∈ standardNames, Spares canon n op := by
  induction cs with
  | nil => intro k f _ _ _ op ho; cases ho
  | cons c cs ih =>
    intro k f h hk hf op ho
    obtain ⟨k', e, hk', h', hf', -⟩ := progress_step hL hlaw E hok h hk hf
    have hcan : ∀ a b, canon a = canon b → L.lower a = L.lower b := by rw [← h.canon_eq]; exact h.orderly.sound.canon
    rcases List.mem_append.1 ho with ho | ho
    · cases c with
      | getGlyphSet n b v =>
        have : op = .glyphSet n b v := by simpa [Font.asOp] using ho
        subst this
        right
        intro n hn x hx e
        cases hx with
        | glyphSet hx => exact lower_apart hL hx hn (hcan _ _ e)
      | ufo o =>
        have : op = o := by simpa [Font.asOp] using ho
        subst this
        exact .inl (by simp)
      | set i s =>
        right
        have hi := hf.1
        obtain ⟨l, hl⟩ : ∃ l, layers[i]? = some l := ⟨layers[i], List.getElem?_eq_getElem (by omega)⟩
        obtain ⟨d, hown, -⟩ := h.owns i l hi hl
        obtain ⟨gs, hgs, hdir⟩ := hown.set
        have hgd := h.orderly.sound.layered.dirs _ _ hown.layer
        intro n hn x hx e
        have hxd : x = d := by
          cases s with
          | glyphs o =>
            have : op = .glyph gs o := by simpa [Font.asOp, hgs] using ho
            subst this
            cases hx with
            | glyph hx => rw [hdir] at hx; simpa using hx.symm
            | glyphRoot hx => rw [hdir] at hx; cases hx
          | layerInfo i' v =>
            have : op = .layerInfo gs i' v := by simpa [Font.asOp, hgs] using ho
            subst this
            cases hx with
            | layerInfo hx => rw [hdir] at hx; simpa using hx.symm
            | layerInfoRoot hx => rw [hdir] at hx; cases hx
        subst hxd
        exact lower_apart hL hgd hn (hcan _ _ e)
    · exact (ih h' hk' hf' op ho).imp (fun h => by simp [h]) id

end

theorem asOps_append (E : FontInfo.Env) (L : Casing) (a b : List FontCall) : ∀ (f : Font), f.asOps E L (a ++ b) = f.asOps E L a ++ (f.run E L a).asOps E L b := by
  induction a with
  | nil => exact fun f => rfl
  | cons c a ih =>
    intro f
    simp only [List.cons_append, Font.asOps, Font.run, ih, List.append_assoc]

end Verif.Props
