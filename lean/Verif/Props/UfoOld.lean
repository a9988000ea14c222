import Verif.Spec.UfoOld
import Verif.Spec.FontInfo
import Verif.Proofs.UfoFrame
import Verif.Proofs.UfoFont
import Verif.Proofs.FontInfo
import Verif.Props.UfoVersion
/-! C94: a UFO of version 1 or 2 gets only what its version defines. -/
namespace Verif.Props
open Verif Verif.Ufo Verif.FS Verif.IO Verif.Spec.Ufo

theorem old_step (E : FontInfo.Env) (L : Casing) (w : World) (hl : Layered w.1) (hv : w.1.version = 1 ∨ w.1.version = 2) {op : Op} (ho : FontOp op) {c : Str}
    (hc : ∀ e ∈ oldEntries w.1.version, w.2.canon e ≠ w.2.canon c) (p : Path) : (step E L w op).1.2.node? (c :: p) = w.2.node? (c :: p) := by
  have hlt : w.1.version < 3 := by omega
  have hspare : (∀ d, Concerns op d → d ∈ oldEntries w.1.version) → (step E L w op).1.2.node? (c :: p) = w.2.node? (c :: p) := by
    intro h
    obtain ⟨-, -, -, h2⟩ := step_spec E L w hl op
    exact acts_node? h2 (S := Concerns op) (fun k hk => hk) (fun d hd => hc d (h d hd)) p
  cases ho with
  | maps =>
    show (setMaps w _ _).2.node? _ = _
    unfold setMaps
    split <;> rfl
  | info => exact hspare fun d hd => by cases hd; rcases hv with h | h <;> rw [h] <;> decide
  | lib => exact hspare fun d hd => by cases hd; rcases hv with h | h <;> rw [h] <;> decide
  | groups => exact hspare fun d hd => by cases hd; rcases hv with h | h <;> rw [h] <;> decide
  | kerning => exact hspare fun d hd => by cases hd; rcases hv with h | h <;> rw [h] <;> decide
  | features =>
    rcases hv with h | h
    · show (writeFeatures w _).1.2.node? _ = _
      unfold writeFeatures
      rw [if_pos h]
    · exact hspare fun d hd => by cases hd; rw [h]; decide
  | @glyphSet n d v =>
    show (getGlyphSet L E.F w n d v).1.2.node? _ = _
    unfold getGlyphSet
    split
    · rfl
    · split
      · rfl
      · unfold getGlyphSet12
        split
        · rfl
        · rename_i fs hfs
          have hk : fs.node? (c :: p) = w.2.node? (c :: p) := by
            refine acts_node? (makedir_acts hfs) (S := fun d => d = c!"glyphs") (fun k hk => .inl ⟨_, [], rfl, hk⟩) (fun d hd => ?_) p
            rw [hd]
            exact hc _ (by rcases hv with h | h <;> rw [h] <;> decide)
          split <;> exact hk
  | @rename n m d =>
    show (renameGlyphSet L w n m d).1.2.node? _ = _
    unfold renameGlyphSet
    rw [if_pos hlt]
  | @delete n =>
    show (deleteGlyphSet w n).1.2.node? _ = _
    unfold deleteGlyphSet
    rw [if_pos hlt]
  | @layerContents o v =>
    show (writeLayerContents E.F w o v).1.2.node? _ = _
    unfold writeLayerContents
    rw [if_pos hlt]
  | @image n d v =>
    show (writeImage w n d v).1.2.node? _ = _
    unfold writeImage
    rw [if_pos hlt]
  | @removeImage n =>
    show (removeImage w n).1.2.node? _ = _
    unfold removeImage
    rw [if_pos hlt]
  | @copyImage s n m =>
    show (copyImageFromReader s w n m).1.2.node? _ = _
    unfold copyImageFromReader
    rw [if_pos hlt]
  | glyph hd =>
    refine hspare fun d h => ?_
    cases h with
    | glyph h => rw [hd] at h; cases h; rcases hv with h | h <;> rw [h] <;> decide
    | glyphRoot h => rw [hd] at h; cases h
  | layerInfo hd =>
    refine hspare fun d h => ?_
    cases h with
    | layerInfo h => rw [hd] at h; cases h; rcases hv with h | h <;> rw [h] <;> decide
    | layerInfoRoot h => rw [hd] at h; cases h

theorem old_run (E : FontInfo.Env) (L : Casing) (ops : List Op) : ∀ (w : World), Layered w.1 → (w.1.version = 1 ∨ w.1.version = 2) → (∀ op ∈ ops, FontOp op) → ∀ (c : Str),
    (∀ e ∈ oldEntries w.1.version, w.2.canon e ≠ w.2.canon c) → ∀ (p : Path), (run E L w ops).2.node? (c :: p) = w.2.node? (c :: p) := by
  induction ops with
  | nil => exact fun _ _ _ _ _ _ _ => rfl
  | cons op ops ih =>
    intro w hl hv ho c hc p
    obtain ⟨h1, -, h2, h3⟩ := step_spec E L w hl op
    show (run E L (step E L w op).1 ops).2.node? _ = _
    rw [ih _ h2 (by rw [h1.version]; exact hv) (fun o h => ho o (by simp [h])) c (by rw [h1.version, h3.canon]; exact hc) p]
    exact old_step E L w hl hv (ho op (by simp)) hc p

/-- A writer for version 1 or 2, whatever is called on it, creates, changes and removes only entries of the root directory that its version defines. If the writer was opened on a directory with no
other entries (such as an empty one) there are no others afterwards. -/
theorem C94_entries (E : FontInfo.Env) (L : Casing) (hp : Bool) (fs fs' : FS) (version : Int) (hv : version = 1 ∨ version = 2) (creator : PyVal) (w : Writer)
    (h : openWriter E.F hp fs version creator true = (fs', .ok w)) (ops : List Op) (hops : ∀ op ∈ ops, FontOp op) :
    (∀ c, (∀ e ∈ oldEntries version, fs.canon e ≠ fs.canon c) → ∀ p, (run E L (w, fs') ops).2.node? (c :: p) = fs.node? (c :: p)) ∧
    ((∀ c p, fs.node? (c :: p) ≠ none → ∃ e ∈ oldEntries version, fs.canon e = fs.canon c) →
      ∀ c p, (run E L (w, fs') ops).2.node? (c :: p) ≠ none → ∃ e ∈ oldEntries version, fs.canon e = fs.canon c) := by
  obtain ⟨hcan, hn, -⟩ := writePlist_spec (openWriter_ok h).2.2.1
  have hver : w.version = version := (openWriter_ok h).2.2.2.1
  have key : ∀ c, (∀ e ∈ oldEntries version, fs.canon e ≠ fs.canon c) → ∀ p, (run E L (w, fs') ops).2.node? (c :: p) = fs.node? (c :: p) := by
    intro c hc p
    rw [old_run E L ops (w, fs') (openWriter_layered h) (by show w.version = 1 ∨ w.version = 2; rw [hver]; exact hv) hops c (by show ∀ e ∈ oldEntries w.version, fs'.canon e ≠ fs'.canon c; rw [hver, hcan]; exact hc) p]
    refine hn _ fun e => ?_
    simp only [FS.key, List.map_cons, List.map_nil, List.cons.injEq] at e
    exact hc metainfoName (by rcases hv with h | h <;> rw [h] <;> decide) e.1.symm
  refine ⟨key, fun hfs c p hne => ?_⟩
  by_contra hx
  rw [key c (fun e he hce => hx ⟨e, he, hce⟩) p] at hne
  exact hx (hfs c p hne)

/-- Nothing but format 1 is ever written with a glyph set of a UFO 1 or 2: calls that differ only in what they would write in other formats have the same effects and the same outcomes. Asking for
format 2 raises, as does writing layer info, and nothing changes. -/
theorem C94_glyphs (L : Casing) (F : FloatCodec) (w : GlyphSet.World) (hv : w.1.version < 3) :
    (∀ c c', SameFormat1 c c' → GlyphSet.setStep L F w c = GlyphSet.setStep L F w c') ∧
    (∀ naming n data, GlyphSet.setStep L F w (.glyphs (.write naming n (some 2) data)) = (w, .error .glifLibError)) ∧
    (∀ info v, GlyphSet.setStep L F w (.layerInfo info v) = (w, .error .glifLibError)) := by
  refine ⟨fun c c' h => ?_, fun naming n data => ?_, fun info v => ?_⟩
  · cases h with
    | same => rfl
    | @write naming n fv data data' h =>
      show GlyphSet.writeGlyph L naming w n fv data = GlyphSet.writeGlyph L naming w n fv data'
      unfold GlyphSet.writeGlyph
      cases hg : GlyphSet.glifVersion w.1 fv with
      | error e => rfl
      | ok v =>
        have : v = 1 := by
          have aux : ∀ x : Int, (if ¬(x = 1 ∨ x = 2) then (Except.error Exc.glifLibError : Except Exc Int)
              else if x = 2 ∧ w.1.version < 3 then .error .glifLibError else .ok x) = .ok v → v = 1 := by
            intro x hx
            by_cases h1 : x = 1 ∨ x = 2
            · rw [if_neg (not_not.2 h1)] at hx
              by_cases h2 : x = 2
              · rw [if_pos ⟨h2, hv⟩] at hx; cases hx
              · rw [if_neg fun h => h2 h.1] at hx
                injection hx with hx
                rw [← hx]; exact h1.resolve_right h2
            · rw [if_pos h1] at hx; cases hx
          exact aux _ hg
        subst this
        dsimp only
        rw [h]
  · show GlyphSet.writeGlyph L naming w n (some 2) data = _
    unfold GlyphSet.writeGlyph GlyphSet.glifVersion
    simp [hv]
  · show GlyphSet.writeLayerInfo F w info v = _
    unfold GlyphSet.writeLayerInfo
    rw [if_pos hv]

/-- The glyph sets that a writer for version 1 or 2 gives out are those of the directory `glyphs` and are themselves of an older version. -/
theorem C94_glyph_sets (L : Casing) (F : FloatCodec) (w : World) (hv : w.1.version < 3) (layer : Option Str) (default v : Bool) (gs : GlyphSet.GlyphSet)
    (h : (getGlyphSet L F w layer default v).2 = .ok gs) : gs.dir = [c!"glyphs"] ∧ gs.version < 3 ∧ default = true ∧ layer = none := by
  unfold getGlyphSet at h
  split at h
  · cases h
  · rename_i hn
    split at h
    · cases h
    · unfold getGlyphSet12 at h
      split at h
      · cases h
      · split at h
        · cases h
        · obtain ⟨h1, h2, -⟩ := openGlyphSet_dir (F := F) (dir := [glyphsName]) (version := 2) (v := v) h
          simp only [not_and, not_or, not_not] at hn
          obtain ⟨h3, h4⟩ := hn hv
          exact ⟨h1, by rw [h2]; decide, by simpa using h3, h4⟩

theorem convertData21_names : ∀ (d converted r : Dict Str PyVal), FontInfo.convertData21 converted d = .ok r → (∀ a ∈ Dict.keys converted, a ∈ FontInfo.attributes1) →
    ∀ a ∈ Dict.keys r, a ∈ FontInfo.attributes1
  | [], converted, r, h, hc => by cases h; exact hc
  | (attr, value) :: rest, converted, r, h, hc => by
    unfold FontInfo.convertData21 at h
    split at h
    · cases h
    · split at h
      · exact convertData21_names rest converted r h hc
      · rename_i hin
        split at h
        · cases h
        · refine convertData21_names rest _ r h fun a ha => ?_
          rcases Dict.mem_keys_set.1 ha with rfl | ha
          · exact not_not.1 hin
          · exact hc a ha

/-- The fontinfo.plist that is written holds only attributes of the version: of UFO 1, or of UFO 2. -/
theorem C94_info (E : FontInfo.Env) (w : World) (hv : w.1.version = 1 ∨ w.1.version = 2) (info : Str → Option PyVal) (validate : Bool)
    (h : (Ufo.writeInfo E w info validate).2 = .ok ()) :
    ∃ d b, dumpBytes E.F (.dict (d.map fun e => (.str e.1, e.2))) = .ok b ∧ (Ufo.writeInfo E w info validate).1.2.node? [c!"fontinfo.plist"] = some (.file b) ∧
      ∀ a ∈ Dict.keys d, if w.1.version = 1 then a ∈ Spec.FontInfo.version1.map Prod.fst else a ∈ Dict.keys FontInfo.table2 := by
  unfold Ufo.writeInfo at h ⊢
  cases hd : FontInfo.writeInfo E w.1.version.toNat validate info with
  | error e => rw [hd] at h; cases h
  | ok d =>
    rw [hd] at h
    dsimp only at h ⊢
    obtain ⟨b, b1, b2⟩ := (writePlist_spec (F := E.F) (hp := w.1.havePrevious) (fs := w.2) (p := [fontinfoName]) (v := .dict (d.map fun e : Str × PyVal => (PyVal.str e.1, e.2))) rfl).2.2 h
    refine ⟨d, b, b1, getbytes_ok.1 b2, fun a ha => ?_⟩
    have key : ∀ r, (if validate then FontInfo.validateData E FontInfo.table2 (FontInfo.convertData32 (FontInfo.gather info (Dict.keys FontInfo.table3)))
        else .ok (FontInfo.convertData32 (FontInfo.gather info (Dict.keys FontInfo.table3)))) = .ok r → ∀ a ∈ Dict.keys r, a ∈ Dict.keys FontInfo.table2 := by
      intro r hr a ha
      have hre : r = FontInfo.convertData32 (FontInfo.gather info (Dict.keys FontInfo.table3)) := by
        split at hr
        · exact (FontInfo.validateData_ok.1 hr).1
        · cases hr; rfl
      rw [hre] at ha
      obtain ⟨e, he, rfl⟩ := List.mem_map.1 ha
      simpa using (List.mem_filter.1 he).2
    rcases hv with hv | hv
    · rw [if_pos hv]
      rw [hv] at hd
      have hd : (FontInfo.writeInfo E 1 validate info) = .ok d := hd
      unfold FontInfo.writeInfo at hd
      cases hr : (if validate then FontInfo.validateData E FontInfo.table2 (FontInfo.convertData32 (FontInfo.gather info (Dict.keys FontInfo.table3)))
        else .ok (FontInfo.convertData32 (FontInfo.gather info (Dict.keys FontInfo.table3)))) with
      | error e => simp only [hr] at hd; cases hd
      | ok r =>
        simp only [hr] at hd
        have h1 := convertData21_names r [] d hd (by simp [Dict.keys]) a ha
        clear * - h1
        revert a
        decide +kernel
    · rw [if_neg (by omega)]
      rw [hv] at hd
      exact key d hd a ha

/-! ### examples -/

/-- A writer for version 2 on an empty directory, with calls of all kinds; two of them do nothing and the image is refused. -/
def ops94 : List Op :=
  [.groups [(c!"g", [c!"A"])] true, .features c!"# x", .glyphSet none true true, .rename none (some c!"x") false, .layerContents none true, .image c!"a.png" [1] true]

example : ∀ op ∈ ops94, FontOp op := by
  intro op h
  simp only [ops94, List.mem_cons, List.not_mem_nil, or_false] at h
  rcases h with rfl | rfl | rfl | rfl | rfl | rfl
  all_goals constructor

example : (openWriter env57.F false fs57 2 (.str c!"me") true).2.toOption.map (fun w => w.version) = some 2 ∧
    ((openWriter env57.F false fs57 2 (.str c!"me") true).2.toOption.map fun w =>
      (Dict.keys (run env57 asciiCasing (w, (openWriter env57.F false fs57 2 (.str c!"me") true).1) ops94).2.nodes)) =
      some [[c!"metainfo.plist"], [c!"groups.plist"], [c!"features.fea"], [c!"glyphs"]] := by decide +kernel

/-- A writer for version 1: the attribute of UFO 3 is dropped, the one of UFO 2 gets its old name. -/
example : let w : World := ({ version := 1, layers := [], havePrevious := false, validate := true, renameMap := none }, fs57)
    (Ufo.writeInfo env57 w (Dict.get? [(c!"familyName", .str c!"F"), (c!"woffMajorVersion", .int 1), (c!"openTypeOS2WeightClass", .int 400)]) true).2.toOption = some () ∧
    (getPlist env57.F (Ufo.writeInfo env57 w (Dict.get? [(c!"familyName", .str c!"F"), (c!"woffMajorVersion", .int 1), (c!"openTypeOS2WeightClass", .int 400)]) true).1.2
      [c!"fontinfo.plist"] none).toOption = some (.dict [(.str c!"familyName", .str c!"F"), (.str c!"weightValue", .int 400)]) := by decide +kernel

end Verif.Props
