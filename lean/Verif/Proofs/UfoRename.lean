import Verif.Proofs.UfoSaved
import Verif.Spec.UfoRename
/-! Renaming layers moves their content. -/
namespace Verif.Ufo
open Verif Verif.FS Verif.IO Verif.Spec.Ufo

/-- Directories with the same content. -/
def Moved (fs : FS) (d : Str) (fs' : FS) (e : Str) : Prop := ∀ p, fs.node? (d :: p) = fs'.node? (e :: p)

theorem moved_getbytes {fs fs' : FS} {d e : Str} (h : Moved fs d fs' e) (p : Path) : fs.getbytes (d :: p) = fs'.getbytes (e :: p) := by
  unfold getbytes; rw [h p]

theorem moved_exists {fs fs' : FS} {d e : Str} (h : Moved fs d fs' e) (p : Path) : fs.exists (d :: p) = fs'.exists (e :: p) := by
  unfold «exists»; rw [h p]

theorem moved_getPlist (F : FloatCodec) {fs fs' : FS} {d e : Str} (h : Moved fs d fs' e) (p : Path) (x : Option PyVal) : getPlist F fs (d :: p) x = getPlist F fs' (e :: p) x := by
  unfold getPlist; rw [moved_getbytes h p]

theorem moved_checkContents {fs fs' : FS} {d e : Str} (h : Moved fs d fs' e) (b : Bool) (v : PyVal) : GlyphSet.checkContents fs [d] b v = GlyphSet.checkContents fs' [e] b v := by
  unfold GlyphSet.checkContents
  simp only [List.cons_append, List.nil_append, moved_exists h]

/-- Opening glyph sets on directories with the same content. -/
theorem moved_open (F : FloatCodec) {fs fs' : FS} {d e : Str} (h : Moved fs d fs' e) (version : Nat) (v : Bool) :
    SameOutcome F (fs, GlyphSet.openGlyphSet F fs [d] version v) (fs', GlyphSet.openGlyphSet F fs' [e] version v) := by
  unfold GlyphSet.openGlyphSet
  split
  · unfold GlyphSet.rebuildContents
    simp only [List.cons_append, List.nil_append, moved_getPlist F h, moved_checkContents h, moved_exists h]
    split
    · exact .inl ⟨_, rfl, rfl⟩
    · split
      · exact .inl ⟨_, rfl, rfl⟩
      · refine .inr ⟨_, _, rfl, rfl, rfl, rfl, fun n => ?_, fun b => ?_⟩
        · unfold GlyphSet.getGLIF
          simp only [List.cons_append, List.nil_append, moved_getbytes h]
        · unfold GlyphSet.readLayerInfo
          simp only [List.cons_append, List.nil_append, moved_getPlist F h]
  · exact .inl ⟨_, rfl, rfl⟩

/-- `getGlyphSet` for a layer that exists. -/
theorem layerOf_eq {L : Casing} (F : FloatCodec) {w : World} (h3 : w.1.version = 3) {n d : Str} (hn : Dict.get? w.1.layers n = some d) (hd : w.2.node? [d] = some .dir) (v : Bool) :
    layerOf L F w n v = (w.2, GlyphSet.openGlyphSet F w.2 [d] 3 v) := by
  have hm : w.2.makedir [d] = .ok w.2 := by unfold makedir; rw [hd]
  unfold layerOf getGlyphSet getGlyphSet3 layerDirectory
  simp only [h3, show ¬ (3 : Int) < 3 by decide, false_and, if_false, reduceCtorEq, Bool.false_and, Bool.false_eq_true, Option.getD_some, hn, hm]

/-- `getGlyphSet` for layers whose directories have the same content. -/
theorem layerOf_same {L : Casing} (F : FloatCodec) {w w' : World} (h3 : w.1.version = 3) (h3' : w'.1.version = 3) {n m d e : Str} (hn : Dict.get? w.1.layers n = some d)
    (hm : Dict.get? w'.1.layers m = some e) (h : Moved w.2 d w'.2 e) (hd : w.2.node? [d] ≠ none) (v : Bool) : SameOutcome F (layerOf L F w n v) (layerOf L F w' m v) := by
  cases hx : w.2.node? [d] with
  | none => exact absurd hx hd
  | some x =>
    have hy := (h []).symm.trans hx
    cases x with
    | dir =>
      rw [layerOf_eq F h3 hn hx, layerOf_eq F h3' hm hy]
      exact moved_open F h 3 v
    | file x =>
      have e1 : w.2.makedir [d] = .error .directoryExpected := by unfold makedir; rw [hx]
      have e2 : w'.2.makedir [e] = .error .directoryExpected := by unfold makedir; rw [hy]
      left
      refine ⟨.directoryExpected, ?_, ?_⟩
      · unfold layerOf getGlyphSet getGlyphSet3 layerDirectory
        simp only [h3, show ¬ (3 : Int) < 3 by decide, false_and, if_false, reduceCtorEq, Bool.false_and, Bool.false_eq_true, Option.getD_some, hn, e1]
      · unfold layerOf getGlyphSet getGlyphSet3 layerDirectory
        simp only [h3', show ¬ (3 : Int) < 3 by decide, false_and, if_false, reduceCtorEq, Bool.false_and, Bool.false_eq_true, Option.getD_some, hm, e2]

theorem findDirectory_of {w : Writer} (hl : Layered w) {n d : Str} (hd : Dict.get? w.layers n = some d) : findDirectory w.layers (some n) = .ok d := by
  unfold findDirectory
  have hm := Dict.mem_of_get? hd
  cases hf : w.layers.find? (fun e => decide (some n = none ∧ e.2 = glyphsName ∨ some n = some e.1)) with
  | none => exact absurd (List.find?_eq_none.1 hf _ hm) (by simp)
  | some e =>
    have h1 := List.find?_some hf
    simp only [reduceCtorEq, false_and, Option.some.injEq, false_or, decide_eq_true_eq] at h1
    have h2 := List.mem_of_find?_eq_some hf
    have h3 := Dict.get?_of_mem hl.wf (k := e.1) (v := e.2) h2
    rw [← h1, hd] at h3
    cases h3
    dsimp only
    rw [if_neg]
    intro h0
    rcases hl.dirs n _ hd with h | ⟨r, h⟩ <;> rw [h0] at h <;> simp at h

/-- A rename that returns. -/
theorem rename_ok {L : Casing} {w w' : World} (hl : Layered w.1) (h3 : w.1.version = 3) {n m : Str} {b : Bool} (h : renameGlyphSet L w (some n) (some m) b = (w', .ok ())) :
    ∃ d, Dict.get? w.1.layers n = some d ∧ ((n = m ∧ w' = w ∧ (d = glyphsName ↔ b = true)) ∨ ∃ e,
      (n ≠ m ∧ Dict.get? w.1.layers m = none ∧ (b = true → glyphsName ∉ Dict.values w.1.layers) ∨ n = m ∧ (b = true → d ≠ glyphsName)) ∧
      renameDirectory L w.1.layers m b = .ok e ∧ w' = ({ w.1 with layers := Dict.set (Dict.erase w.1.layers n) m e }, (w.2.movedir [d] [e]).1) ∧ (w.2.movedir [d] [e]).2 = .ok ()) := by
  unfold renameGlyphSet at h
  rw [if_neg (by omega)] at h
  split at h
  · cases h
  · rename_i hc
    cases h
    unfold renameCheck at hc
    split at hc
    · rename_i hnm
      cases hnm
      dsimp only at hc
      split at hc
      · cases hc
      · rename_i d hd
        refine ⟨d, hd, .inl ⟨rfl, rfl, ?_⟩⟩
        split at hc
        · rename_i h; simp [h.1, h.2]
        · split at hc
          · rename_i h; simp [h.1, h.2]
          · cases hc
    · dsimp only at hc
      split at hc
      · cases hc
      · split at hc <;> cases hc
  · rename_i new hc
    split at h
    · cases h
    · rename_i d hd
      split at h
      · cases h
      · rename_i e he
        simp only [Prod.mk.injEq] at h
        obtain ⟨k, hk, hk'⟩ := findDirectory_mem hd
        have hko : k = n := by
          rcases hk' with ⟨h, -⟩ | h
          · cases h
          · cases h; rfl
        subst hko
        have hget := Dict.get?_of_mem hl.wf hk
        unfold renameCheck at hc
        split at hc
        · rename_i hnm
          cases hnm
          simp only [hget] at hc
          split at hc
          · cases hc
          · split at hc
            · cases hc
            · rename_i h1
              cases hc
              exact ⟨d, hget, .inr ⟨e, .inr ⟨rfl, fun hb hx => h1 ⟨hx, hb⟩⟩, he, h.1.symm, h.2⟩⟩
        · rename_i hnm
          dsimp only [Option.getD_some] at hc
          split at hc
          · cases hc
          · rename_i hhas
            split at hc
            · cases hc
            · rename_i hdef
              cases hc
              refine ⟨d, hget, .inr ⟨e, .inl ⟨fun hx => hnm (by rw [hx]), ?_, fun hb hv => hdef ⟨hb, hv⟩⟩, he, h.1.symm, h.2⟩⟩
              rw [Dict.get?_eq_none_iff]
              exact Dict.has_eq_false_iff.1 (by simpa using hhas)

/-- The new directory of a layer is not its old one. -/
theorem rename_dir_ne {L : Casing} (hL : AsciiPrefix L) {w : Writer} (hl : Layered w) {n m d e : Str} {b : Bool} (hn : Dict.get? w.layers n = some d)
    (hc : n ≠ m ∧ Dict.get? w.layers m = none ∧ (b = true → glyphsName ∉ Dict.values w.layers) ∨ n = m ∧ (b = true → d ≠ glyphsName))
    (he : renameDirectory L w.layers m b = .ok e) : L.lower d ≠ L.lower e := by
  unfold renameDirectory at he
  split at he
  · rename_i hb
    cases he
    refine lower_glyphs hL (hl.dirs n d hn) ?_
    rcases hc with ⟨-, -, h⟩ | ⟨-, h⟩
    · rintro rfl; exact h hb (mem_values hn)
    · exact h hb
  · exact fresh_dir he hn

/-- `UFOReader.getGlyphSet` for a layer in the table. -/
theorem readerGlyphSet_eq {F : FloatCodec} {fs : FS} {n d : Str} {layers : List (Str × Str)} {v : Bool} (hread : readLayers F fs 3 v = .ok layers) (hnd : (layers.map Prod.fst).Nodup)
    (hmem : (n, d) ∈ layers) : readerGlyphSet F fs 3 (some n) v = match fs.node? [d] with
      | none => .error .ufoLibError
      | some (.file _) => .error .directoryExpected
      | some .dir => GlyphSet.openGlyphSet F fs [d] 3 v := by
  unfold readerGlyphSet
  simp only [resolveLayer, hread]
  have hfind : layers.find? (fun e => decide (e.1 = n)) = some (n, d) := by
    clear hread
    induction layers with
    | nil => cases hmem
    | cons e l ih =>
      rw [List.find?_cons]
      rcases List.mem_cons.1 hmem with rfl | hmem
      · simp
      · simp only [List.map_cons, List.nodup_cons] at hnd
        have : e.1 ≠ n := by rintro rfl; exact hnd.1 (List.mem_map.2 ⟨_, hmem, rfl⟩)
        simp only [this, decide_false]
        exact ih hnd.2 hmem
  rw [hfind]
  rfl

/-- What the reader finds in a layer is what the writer has in it. -/
theorem reader_same {L : Casing} {F : FloatCodec} {w : World} (h3 : w.1.version = 3) {n d : Str} (hn : Dict.get? w.1.layers n = some d) (hd : w.2.node? [d] ≠ none)
    {fs : FS} {m e : Str} {layers : List (Str × Str)} {v : Bool} (hread : readLayers F fs 3 v = .ok layers) (hnd : (layers.map Prod.fst).Nodup) (hmem : (m, e) ∈ layers)
    (h : Moved w.2 d fs e) : SameOutcome F (layerOf L F w n v) (fs, readerGlyphSet F fs 3 (some m) v) := by
  rw [readerGlyphSet_eq hread hnd hmem]
  cases hx : w.2.node? [d] with
  | none => exact absurd hx hd
  | some x =>
    have hy := (h []).symm.trans hx
    rw [hy]
    cases x with
    | dir =>
      rw [layerOf_eq F h3 hn hx]
      exact moved_open F h 3 v
    | file x =>
      have e1 : w.2.makedir [d] = .error .directoryExpected := by unfold makedir; rw [hx]
      left
      refine ⟨.directoryExpected, ?_, rfl⟩
      unfold layerOf getGlyphSet getGlyphSet3 layerDirectory
      simp only [h3, show ¬ (3 : Int) < 3 by decide, false_and, if_false, reduceCtorEq, Bool.false_and, Bool.false_eq_true, Option.getD_some, hn, e1]

theorem SameOutcome.trans {F : FloatCodec} {a b c : FS × Except Exc GlyphSet.GlyphSet} (h : SameOutcome F a b) (h' : SameOutcome F b c) : SameOutcome F a c := by
  rcases h with ⟨e, h1, h2⟩ | ⟨g, k, h1, h2, h3⟩ <;> rcases h' with ⟨e', h1', h2'⟩ | ⟨g', k', h1', h2', h3'⟩
  · rw [h2] at h1'; cases h1'; exact .inl ⟨e, h1, h2'⟩
  · rw [h2] at h1'; cases h1'
  · rw [h2] at h1'; cases h1'
  · rw [h2] at h1'; cases h1'
    exact .inr ⟨g, k', h1, h2', h3.version.trans h3'.version, h3.keys.trans h3'.keys, fun n => (h3.texts n).trans (h3'.texts n), fun v => (h3.info v).trans (h3'.info v)⟩

theorem consistent_of {L : Casing} {f : Font} (h : Orderly L f) (h3 : f.writer.version = 3) : Consistent L f :=
  ⟨h3, h.sound.canon, h.sound.wf, h.sound.layered.wf, h.sound.layered.dirs, h.sound.apart, fun n d hd => by
    have := h.present n d hd
    have h' : f.fs.node? [d] ≠ none := this
    simpa [«exists», Option.isSome_iff_ne_none] using h', h.dirs⟩

/-- One call keeps a writer in order. -/
theorem consistent_step {L : Casing} (hL : AsciiPrefix L) (E : FontInfo.Env) {f : Font} (h : Consistent L f) (c : FontCall)
    (hh : ∀ op, c = .ufo op → Harmless f.writer.layers op ∧ KeepsLayers f.fs.canon op) : Consistent L (f.step E L c).1 := by
  have ho := Orderly.of h
  refine consistent_of (orderly_step hL E ho c hh) ?_
  have hw := font_step_world E L f c
  have h1 : (f.step E L c).1.writer = (f.step E L c).1.world.1 := rfl
  rw [h1, hw]
  cases f.asOp c with
  | none => exact h.version
  | some op => exact (step_spec E L f.world ho.sound.layered op).1.version.trans h.version

end Verif.Ufo
