import Verif.Proofs.Acts
import Verif.Proofs.LayerInfo
/-! Calls on a glyph set depend only on what is in its directory. -/
namespace Verif.FS
open Verif

/-- Two file systems that compare names alike, have the same nodes at the paths in `P` and store the same under the names in `K`. -/
structure Alike (K P : Path → Prop) (a b : FS) : Prop where
  canon : a.canon = b.canon
  node : ∀ q, P q → a.node? q = b.node? q
  raw : ∀ k, K k → Dict.get? a.nodes k = Dict.get? b.nodes k

/-- Two file systems that compare names alike and have the same nodes at the paths in `P`. -/
abbrev Agree (P : Path → Prop) (a b : FS) : Prop := Alike (fun _ => False) P a b

theorem Agree.refl (P : Path → Prop) (a : FS) : Agree P a a := ⟨rfl, fun _ _ => rfl, fun _ _ => rfl⟩

theorem Agree.mk (hc : a.canon = b.canon) (hn : ∀ q, P q → a.node? q = b.node? q) : Agree P a b := ⟨hc, hn, fun _ h => h.elim⟩

namespace Alike
variable {K P : Path → Prop} {a b : FS}

theorem refl (K P : Path → Prop) (a : FS) : Alike K P a a := ⟨rfl, fun _ _ => rfl, fun _ _ => rfl⟩

theorem symm (h : Alike K P a b) : Alike K P b a := ⟨h.canon.symm, fun q hq => (h.node q hq).symm, fun k hk => (h.raw k hk).symm⟩

theorem trans {c : FS} (h : Alike K P a b) (h' : Alike K P b c) : Alike K P a c := ⟨h.canon.trans h'.canon, fun q hq => (h.node q hq).trans (h'.node q hq), fun k hk => (h.raw k hk).trans (h'.raw k hk)⟩

theorem key (h : Alike K P a b) (p : Path) : a.key p = b.key p := by unfold FS.key; rw [h.canon]

theorem getbytes (h : Alike K P a b) {p : Path} (hp : P p) : a.getbytes p = b.getbytes p := by unfold FS.getbytes; rw [h.node p hp]

theorem «exists» (h : Alike K P a b) {p : Path} (hp : P p) : a.exists p = b.exists p := by unfold FS.exists; rw [h.node p hp]

theorem unchanged (h : Alike K P a b) {p : Path} (hp : P p) (d : Bytes) : IO.unchanged a p d = IO.unchanged b p d := by unfold IO.unchanged; rw [h.getbytes hp]

theorem getPlist (F : FloatCodec) (h : Alike K P a b) {p : Path} (hp : P p) (d : Option PyVal) : IO.getPlist F a p d = IO.getPlist F b p d := by
  unfold IO.getPlist; rw [h.getbytes hp]

theorem write (h : Alike K P a b) {p : Path} (hp : p ≠ []) (d : Bytes) : Alike K P (a.perform (.write (a.key p) d)) (b.perform (.write (b.key p) d)) := by
  refine ⟨h.canon, fun q hq => ?_, fun k hk => ?_⟩
  rotate_left
  · show Dict.get? (Dict.set a.nodes _ _) k = Dict.get? (Dict.set b.nodes _ _) k
    rw [Dict.get?_set, Dict.get?_set, h.key p, h.raw k hk]
  rw [node?_write _ _ _ _ hp, node?_write _ _ _ _ hp, h.key q, h.key p, h.node q hq]

theorem erase (h : Alike K P a b) (p : Path) : Alike K P (a.perform (.remove (a.key p))) (b.perform (.remove (b.key p))) := by
  refine ⟨h.canon, fun q hq => ?_, fun k hk => ?_⟩
  rotate_left
  · show Dict.get? (Dict.erase a.nodes _) k = Dict.get? (Dict.erase b.nodes _) k
    rw [Dict.get?_erase, Dict.get?_erase, h.key p, h.raw k hk]
  by_cases h0 : q = []
  · subst h0; rfl
  · rw [node?_remove _ _ _ h0, node?_remove _ _ _ h0, h.key q, h.key p, h.node q hq]

theorem setbytes (h : Alike K P a b) {p : Path} (h1 : P p) (h2 : P p.dropLast) (d : Bytes) :
    (∃ e, a.setbytes p d = .error e ∧ b.setbytes p d = .error e) ∨ ∃ a' b', a.setbytes p d = .ok a' ∧ b.setbytes p d = .ok b' ∧ Alike K P a' b' := by
  have h0 : p = [] ∨ p ≠ [] := em _
  rcases h0 with rfl | h0
  · exact .inl ⟨.fileExpected, by simp [FS.setbytes, FS.node?], by simp [FS.setbytes, FS.node?]⟩
  · unfold FS.setbytes
    rw [h.node _ h1, h.node _ h2]
    split
    · exact .inl ⟨_, rfl, rfl⟩
    · exact .inl ⟨_, rfl, rfl⟩
    · split
      · exact .inl ⟨_, rfl, rfl⟩
      · exact .inr ⟨_, _, rfl, rfl, h.write h0 d⟩

theorem remove (h : Alike K P a b) {p : Path} (h1 : P p) :
    (∃ e, a.remove p = .error e ∧ b.remove p = .error e) ∨ ∃ a' b', a.remove p = .ok a' ∧ b.remove p = .ok b' ∧ Alike K P a' b' := by
  unfold FS.remove
  rw [h.node _ h1]
  split
  · exact .inr ⟨_, _, rfl, rfl, h.erase p⟩
  · exact .inl ⟨_, rfl, rfl⟩
  · exact .inl ⟨_, rfl, rfl⟩

theorem writePlist (F : FloatCodec) (h : Alike K P a b) {p : Path} (h1 : P p) (h2 : P p.dropLast) (hp : Bool) (v : PyVal) :
    Alike K P (IO.writePlist F hp a p v).1 (IO.writePlist F hp b p v).1 ∧ (IO.writePlist F hp a p v).2 = (IO.writePlist F hp b p v).2 := by
  unfold IO.writePlist
  split
  · split
    · exact ⟨h, rfl⟩
    · rename_i data _
      rw [h.unchanged h1]
      split
      · exact ⟨h, rfl⟩
      · rcases h.setbytes h1 h2 data with ⟨e, ha, hb⟩ | ⟨a', b', ha, hb, hab⟩
        · rw [ha, hb]; exact ⟨h, rfl⟩
        · rw [ha, hb]; exact ⟨hab, rfl⟩
  · rcases h.setbytes h1 h2 [] with ⟨e, ha, hb⟩ | ⟨a', b', ha, hb, hab⟩
    · rw [ha, hb]; exact ⟨h, rfl⟩
    · rw [ha, hb]
      dsimp only
      split
      · exact ⟨hab, rfl⟩
      · rename_i data _
        rcases hab.setbytes h1 h2 data with ⟨e, ha, hb⟩ | ⟨a2, b2, ha, hb, hab2⟩
        · rw [ha, hb]; exact ⟨hab, rfl⟩
        · rw [ha, hb]; exact ⟨hab2, rfl⟩

end Alike
end Verif.FS

namespace Verif.GlyphSet
open Verif Verif.FS Verif.IO

/-- The files of its directory a call looks at or changes, apart from contents.plist. -/
def Touches (L : Casing) (gs : GlyphSet) (f : Str) : Op → Prop
  | .write naming n fv _ => (∃ v, glifVersion gs fv = .ok v) ∧ (assignFile L naming gs n).2 = .ok f
  | .delete n => Dict.get? gs.contents n = some f
  | .reverse => False
  | .save => False
  | .rebuild _ => True

theorem agree_storeGlyph {K P : Path → Prop} {a b : FS} (h : Alike K P a b) {p : Path} (h1 : P p) (h2 : P p.dropLast) (hp : Bool) (d : Bytes) :
    Alike K P (storeGlyph hp a p d).1 (storeGlyph hp b p d).1 ∧ (storeGlyph hp a p d).2 = (storeGlyph hp b p d).2 := by
  unfold storeGlyph
  rw [h.unchanged h1]
  split
  · exact ⟨h, rfl⟩
  · rcases h.setbytes h1 h2 d with ⟨e, ha, hb⟩ | ⟨a', b', ha, hb, hab⟩
    · rw [ha, hb]; exact ⟨h, rfl⟩
    · rw [ha, hb]; exact ⟨hab, rfl⟩

/-- The same call on two file systems that agree on the files the call is about. -/
theorem agree_step {K P : Path → Prop} (L : Casing) (F : FloatCodec) (gs : GlyphSet) {a b : FS} (h : Alike K P a b) (hd : P gs.dir) (hc : P (gs.dir ++ [contentsName]))
    (op : Op) (hf : ∀ f, Touches L gs f op → P (gs.dir ++ [f])) :
    (step L F (gs, a) op).1.1 = (step L F (gs, b) op).1.1 ∧ Alike K P (step L F (gs, a) op).1.2 (step L F (gs, b) op).1.2 ∧
      (step L F (gs, a) op).2 = (step L F (gs, b) op).2 := by
  cases op with
  | write naming n fv data =>
    simp only [step, writeGlyph]
    split
    · exact ⟨rfl, h, rfl⟩
    · rename_i v hv
      split
      · exact ⟨rfl, h, rfl⟩
      · rename_i gs' f ha
        have hdir := (assignFile_dir ha).1
        split
        · exact ⟨rfl, h, rfl⟩
        · rename_i d _
          have hp : P (gs'.dir ++ [f]) := by rw [hdir]; exact hf f ⟨⟨v, hv⟩, by rw [ha]⟩
          have hp' : P (gs'.dir ++ [f]).dropLast := by rw [List.dropLast_concat, hdir]; exact hd
          obtain ⟨h1, h2⟩ := agree_storeGlyph h hp hp' gs'.havePrevious d
          exact ⟨rfl, h1, h2⟩
  | delete n =>
    simp only [step, deleteGlyph]
    split
    · exact ⟨rfl, h, rfl⟩
    · rename_i f hget
      rcases h.remove (hf f hget) with ⟨e, ha, hb⟩ | ⟨a', b', ha, hb, hab⟩
      · rw [ha, hb]; exact ⟨rfl, h, rfl⟩
      · rw [ha, hb]
        dsimp only
        split
        · exact ⟨rfl, hab, rfl⟩
        · split
          · exact ⟨rfl, hab, rfl⟩
          · exact ⟨rfl, hab, rfl⟩
  | reverse => exact ⟨rfl, h, rfl⟩
  | save =>
    simp only [step, writeContents]
    obtain ⟨h1, h2⟩ := h.writePlist F hc (by rw [List.dropLast_concat]; exact hd) gs.havePrevious (contentsVal gs.contents)
    exact ⟨trivial, h1, h2⟩
  | rebuild v =>
    have hr : rebuildContents F gs a v = rebuildContents F gs b v := by
      unfold rebuildContents
      rw [h.getPlist F hc]
      split
      · rfl
      · rename_i x _
        have : checkContents a gs.dir v x = checkContents b gs.dir v x := by
          unfold checkContents
          have he : ∀ f, a.exists (gs.dir ++ [f]) = b.exists (gs.dir ++ [f]) := fun f => h.exists (hf f trivial)
          simp only [he]
        rw [this]
    simp only [step]
    rw [hr]
    split <;> exact ⟨rfl, h, rfl⟩

/-- The same for `writeLayerInfo`. -/
theorem agree_layerInfo {K P : Path → Prop} (F : FloatCodec) (gs : GlyphSet) {a b : FS} (h : Alike K P a b) (hd : P gs.dir) (hf : P (gs.dir ++ [layerinfoName]))
    (info : Str → Option PyVal) (validate : Bool) :
    (writeLayerInfo F (gs, a) info validate).1.1 = (writeLayerInfo F (gs, b) info validate).1.1 ∧
      Alike K P (writeLayerInfo F (gs, a) info validate).1.2 (writeLayerInfo F (gs, b) info validate).1.2 ∧
      (writeLayerInfo F (gs, a) info validate).2 = (writeLayerInfo F (gs, b) info validate).2 := by
  unfold writeLayerInfo
  dsimp only
  split
  · exact ⟨rfl, h, rfl⟩
  · unfold storeLayerInfo
    dsimp only
    split
    · split
      · exact ⟨rfl, h, rfl⟩
      · obtain ⟨h1, h2⟩ := h.writePlist F hf (by rw [List.dropLast_concat]; exact hd) gs.havePrevious (.dict (gatherLayerInfo info layerInfoAttrs))
        exact ⟨rfl, h1, h2⟩
    · rw [h.exists hf]
      split
      · rcases h.remove hf with ⟨e, ha, hb⟩ | ⟨a', b', ha, hb, hab⟩
        · rw [ha, hb]; exact ⟨rfl, h, rfl⟩
        · rw [ha, hb]; exact ⟨rfl, hab, rfl⟩
      · exact ⟨rfl, h, rfl⟩

/-- Calls on a glyph set depend only on what is in its directory. -/
theorem agree_setStep (L : Casing) (F : FloatCodec) (gs : GlyphSet) {a b : FS} (h : Agree (fun q => gs.dir <+: q) a b) (c : SetCall) :
    (setStep L F (gs, a) c).1.1 = (setStep L F (gs, b) c).1.1 ∧ Agree (fun q => gs.dir <+: q) (setStep L F (gs, a) c).1.2 (setStep L F (gs, b) c).1.2 ∧
      (setStep L F (gs, a) c).2 = (setStep L F (gs, b) c).2 := by
  cases c with
  | glyphs op => exact agree_step L F gs h (List.prefix_refl _) (List.prefix_append _ _) op fun f _ => List.prefix_append _ _
  | layerInfo info validate => exact agree_layerInfo F gs h (List.prefix_refl _) (List.prefix_append _ _) info validate

theorem setStep_dir (L : Casing) (F : FloatCodec) (w : World) (c : SetCall) : (setStep L F w c).1.1.dir = w.1.dir := by
  cases c with
  | glyphs op =>
    cases op with
    | write naming n fv data => exact (writeGlyph_spec (L := L) (naming := naming) (w := w) (n := n) (fv := fv) (data := data) rfl).1
    | delete n => exact (deleteGlyph_spec (L := L) (w := w) (n := n) rfl).1
    | reverse =>
      show (getReverseContents L w.1).1.dir = _
      rw [getReverseContents]
      split <;> rfl
    | save => rfl
    | rebuild v =>
      simp only [setStep, step]
      split
      · rfl
      · rename_i gs h
        unfold rebuildContents at h
        split at h
        · cases h
        · split at h
          · cases h
          · cases h; rfl
  | layerInfo info validate => exact congrArg GlyphSet.dir (writeLayerInfo_frame F w info validate).1

theorem setStep_acts (L : Casing) (F : FloatCodec) (w : World) (c : SetCall) : Acts (fun k => ∃ f, k = w.2.key (w.1.dir ++ [f])) w.2 (setStep L F w c).1.2 := by
  cases c with
  | glyphs op => exact step_acts L F w op
  | layerInfo info validate => exact (writeLayerInfo_frame F w info validate).2.mono fun k hk => ⟨_, hk⟩

end Verif.GlyphSet
