import Verif.Proofs.GlifRelax
import Verif.Proofs.FontInfo
import Verif.Model.Draw
import Verif.Model.GlifFile
import Verif.Model.UfoZip
import Verif.Model.UfoFont
import Verif.Model.KerningReader
/-! Reading and writing UFOs without validation. -/
namespace Verif.Ufo
open Verif Verif.Validators Verif.Spec.Relax Verif.Glif

theorem relaxesTo_refl {σ : Type} (a : σ × Except Exc Unit) : RelaxesTo a a := fun _ => rfl
theorem relaxesTo_error {σ : Type} (w : σ) (x : Exc) (b : σ × Except Exc Unit) : RelaxesTo (w, .error x) b := nofun
theorem relaxesTo_if {σ : Type} {c : Prop} [Decidable c] {a b a' b' : σ × Except Exc Unit} (h : RelaxesTo a a') (h' : RelaxesTo b b') : RelaxesTo (if c then a else b) (if c then a' else b') := by
  split
  · exact h
  · exact h'
theorem relaxesTo_guard {σ : Type} {v c : Bool} {w : σ} {x : Exc} {a b : σ × Except Exc Unit} (h : RelaxesTo a b) :
    RelaxesTo (if (v && c) = true then (w, .error x) else a) (if (false && c) = true then (w, .error x) else b) := by
  cases v
  · exact h
  cases c
  · exact h
  · exact relaxesTo_error _ _ _
theorem relaxes_guard' {α : Type} {v c : Bool} {x : Exc} {a b : Except Exc α} (h : Relaxes a b) : Relaxes (if (v && c) = true then .error x else a) (if (false && c) = true then .error x else b) := by
  cases v
  · exact h
  · exact relaxes_guard h

theorem relaxes_bind {α β : Type} {x : Except Exc α} {f g : α → Except Exc β} (h : ∀ a, Relaxes (f a) (g a)) : Relaxes (x >>= f) (x >>= g) := by
  cases x
  · exact relaxes_error _ _
  · exact h _

/-! ### Glyphs -/

theorem readGlyphFromBytes_relax (E : Env) (hasObj hasPen : Bool) (versions : List Int) (b : Bytes) :
    Relaxes (GlifFile.readGlyphFromBytes E true hasObj hasPen versions b) (GlifFile.readGlyphFromBytes E false hasObj hasPen versions b) := by
  unfold GlifFile.readGlyphFromBytes
  split
  · exact relaxes_error _ _
  · exact readGlyphTree_relax E hasObj hasPen versions _

theorem readGlyph_relax (E : Env) (w : GlyphSet.World) (name : Str) (hasObj hasPen : Bool) :
    Relaxes (GlyphSet.readGlyph E w name hasObj hasPen true) (GlyphSet.readGlyph E w name hasObj hasPen false) := by
  unfold GlyphSet.readGlyph
  split
  · exact relaxes_error _ _
  · split
    · exact relaxes_error _ _
    · exact readGlyphTree_relax E hasObj hasPen _ _

theorem writeGlyphToBytes_relax (E : Env) (fv : Nat) (name : PyVal) {o : Obj} (hu : isInt (o.attr c!"unicodes") = false) (draw : Option (List Glif.Call)) :
    Relaxes (GlifFile.writeGlyphToBytes E true fv name o draw) (GlifFile.writeGlyphToBytes E false fv name o draw) := by
  unfold GlifFile.writeGlyphToBytes
  relax (writeGlyphTree_relax E fv name hu draw)
  exact relaxes_refl _

theorem writeGlyph_relax (E : Env) (L : Casing) (naming : GlyphSet.Naming) (w : GlyphSet.World) (name : Str) (fv : Option Int) {o : Obj} (hu : isInt (o.attr c!"unicodes") = false)
    (draw : Option (List Glif.Call)) : RelaxesTo (GlifFile.writeGlyph E L naming w name fv true o draw) (GlifFile.writeGlyph E L naming w name fv false o draw) := by
  unfold GlifFile.writeGlyph GlyphSet.writeGlyph
  split
  · exact relaxesTo_error _ _ _
  · split
    · exact relaxesTo_error _ _ _
    · dsimp only
      rcases relaxes_cases (writeGlyphToBytes_relax E (Int.toNat ‹_›) (.str name) hu draw) with ⟨_, h⟩ | ⟨_, h, h'⟩
      · rw [h]; exact relaxesTo_error _ _ _
      · rw [h, h']; exact relaxesTo_refl _

theorem drawGlyph_relax (E : Env) (w : GlyphSet.World) (name : Str) : Relaxes (GlyphSet.draw E w name true) (GlyphSet.draw E w name false) := by
  unfold GlyphSet.draw
  refine relaxes_if (relaxes_refl _) ?_
  rcases relaxes_cases (readGlyph_relax E w name true true) with ⟨_, h⟩ | ⟨⟨_, _⟩, h, h'⟩
  · rw [h]; exact relaxes_error _ _
  · rw [h, h']; exact relaxes_refl _

/-! ### Reading a UFO -/

theorem readLayerTable_relax (F : FloatCodec) (fs : FS) (v : Bool) : Relaxes (readLayerTable F fs v) (readLayerTable F fs false) := by
  cases v
  · exact relaxes_refl _
  unfold readLayerTable
  split
  · exact relaxes_error _ _
  · simp only [if_true, Bool.false_eq_true, if_false]
    split
    · exact relaxes_error _ _
    · exact relaxes_error _ _
    · exact relaxes_refl _

theorem readLayers_relax (F : FloatCodec) (fs : FS) (version : Int) (v : Bool) : Relaxes (readLayers F fs version v) (readLayers F fs version false) :=
  relaxes_if (relaxes_refl _) (readLayerTable_relax F fs v)

theorem getLayerNames_relax (F : FloatCodec) (fs : FS) (version : Int) (v : Bool) : Relaxes (getLayerNames F fs version v) (getLayerNames F fs version false) := by
  unfold getLayerNames
  relax (readLayers_relax F fs version v)
  exact relaxes_refl _

theorem getDefaultLayerName_relax (F : FloatCodec) (fs : FS) (version : Int) (v : Bool) : Relaxes (getDefaultLayerName F fs version v) (getDefaultLayerName F fs version false) := by
  unfold getDefaultLayerName
  relax (readLayers_relax F fs version v)
  exact relaxes_refl _

theorem readMetaInfo_relax (F : FloatCodec) (fs : FS) (v : Bool) : Relaxes (readMetaInfo F fs v) (readMetaInfo F fs false) := by
  cases v
  · exact relaxes_refl _
  unfold readMetaInfo
  split
  · exact relaxes_error _ _
  · split
    · exact relaxes_error _ _
    · split
      · exact relaxes_error _ _
      · exact relaxes_guard (relaxes_refl _)
  · exact relaxes_error _ _

theorem openReader_relax (F : FloatCodec) (t : Target) (v : Bool) : Relaxes (openReader F t v) (openReader F t false) := by
  unfold openReader
  split
  · exact relaxes_error _ _
  · relax (readMetaInfo_relax F ‹_› v)
    exact relaxes_refl _

theorem readLib_relax (F : FloatCodec) (fs : FS) (v : Bool) : Relaxes (readLib F fs v) (readLib F fs false) := by
  unfold readLib
  split
  · exact relaxes_error _ _
  · exact relaxes_guard' (relaxes_refl _)

theorem readGroups3_relax (F : FloatCodec) (fs : FS) (v : Bool) : Relaxes (readGroups3 F fs v) (readGroups3 F fs false) := by
  unfold readGroups3
  split
  · exact relaxes_error _ _
  · exact relaxes_guard' (relaxes_refl _)

theorem readKerning3_relax (F : FloatCodec) (fs : FS) (v : Bool) : Relaxes (readKerning3 F fs v) (readKerning3 F fs false) := by
  unfold readKerning3
  split
  · exact relaxes_error _ _
  · exact relaxes_guard' (relaxes_refl _)

theorem readImage_relax (fs : FS) (version : Int) (name : Str) (v : Bool) : Relaxes (Ufo.readImage fs version name v) (Ufo.readImage fs version name false) := by
  unfold Ufo.readImage
  refine relaxes_if (relaxes_refl _) ?_
  split
  · exact relaxes_error _ _
  · exact relaxes_error _ _
  · split
    · exact relaxes_error _ _
    · exact relaxes_guard' (relaxes_refl _)

theorem validateIf_relax (E : FontInfo.Env) (t : Dict Str FontInfo.Kind) (d : Dict Str PyVal) (v : Bool) :
    Relaxes (if v then FontInfo.validateData E t d else .ok d) (.ok d) := by
  intro r h
  cases v
  · exact h
  · rw [(FontInfo.validateData_ok.1 h).1]

theorem infoOf_relax (E : FontInfo.Env) (n : Nat) (v : Bool) (d : Dict Str PyVal) : Relaxes (FontInfo.readInfo E n v d) (FontInfo.readInfo E n false d) := by
  unfold FontInfo.readInfo
  exact relaxes_bind fun data => validateIf_relax E FontInfo.table3 data v

theorem readInfo_relax (E : FontInfo.Env) (fs : FS) (version : Int) (v : Bool) : Relaxes (Ufo.readInfo E fs version v) (Ufo.readInfo E fs version false) := by
  unfold Ufo.readInfo
  split
  · exact relaxes_error _ _
  · split
    · exact relaxes_error _ _
    · exact infoOf_relax E _ v _
  · exact relaxes_error _ _

theorem readLayerInfo_relax (F : FloatCodec) (w : GlyphSet.World) (v : Bool) : Relaxes (GlyphSet.readLayerInfo F w v) (GlyphSet.readLayerInfo F w false) := by
  cases v
  · exact relaxes_refl _
  unfold GlyphSet.readLayerInfo
  split
  · exact relaxes_error _ _
  · rename_i d _
    intro r h
    simp only [if_true] at h
    cases hx : GlyphSet.validateLayerInfo F d with
    | error e => rw [hx] at h; cases h
    | ok _ => rw [hx] at h; exact h
  · exact relaxes_error _ _

theorem checkContents_relax (fs : FS) (dir : Path) (x : PyVal) (v : Bool) : Relaxes (GlyphSet.checkContents fs dir v x) (GlyphSet.checkContents fs dir false x) := by
  unfold GlyphSet.checkContents
  split
  · split
    · exact relaxes_error _ _
    · exact relaxes_guard' (relaxes_refl _)
  · exact relaxes_error _ _

theorem rebuildContents_relax (F : FloatCodec) (gs : GlyphSet.GlyphSet) (fs : FS) (v : Bool) : Relaxes (GlyphSet.rebuildContents F gs fs v) (GlyphSet.rebuildContents F gs fs false) := by
  unfold GlyphSet.rebuildContents
  split
  · exact relaxes_error _ _
  · relax (checkContents_relax fs gs.dir ‹_› v)
    exact relaxes_refl _

/-- The glyph set that is opened without validation is the same, but for the flag it keeps. -/
theorem openGlyphSet_relax (F : FloatCodec) (fs : FS) (dir : Path) (n : Nat) (v : Bool) {gs : GlyphSet.GlyphSet} (h : GlyphSet.openGlyphSet F fs dir n v = .ok gs) :
    GlyphSet.openGlyphSet F fs dir n false = .ok { gs with validateRead := false } := by
  unfold GlyphSet.openGlyphSet at h ⊢
  split at h
  · rename_i hn
    rw [if_pos hn]
    unfold GlyphSet.rebuildContents at h ⊢
    dsimp only at h ⊢
    split at h
    · cases h
    · rename_i x hx
      split at h
      · cases h
      · rename_i t ht
        cases h
        rw [checkContents_relax fs dir _ v t ht]
  · cases h

theorem readerGlyphSet_relax (F : FloatCodec) (fs : FS) (version : Int) (layer : Option Str) (v : Bool) {gs : GlyphSet.GlyphSet} (h : readerGlyphSet F fs version layer v = .ok gs) :
    readerGlyphSet F fs version layer false = .ok { gs with validateRead := false } := by
  have hr : Relaxes (resolveLayer F fs version layer v) (resolveLayer F fs version layer false) := by
    cases layer
    · exact getDefaultLayerName_relax F fs version v
    · exact relaxes_refl _
  unfold readerGlyphSet at h ⊢
  rcases relaxes_cases hr with ⟨_, hx⟩ | ⟨n, hx, hx'⟩
  · rw [hx] at h; cases h
  rw [hx] at h; rw [hx']; dsimp only at h ⊢
  rcases relaxes_cases (readLayers_relax F fs version v) with ⟨_, hx⟩ | ⟨t, hx, hx'⟩
  · rw [hx] at h; cases h
  rw [hx] at h; rw [hx']; dsimp only at h ⊢
  split at h
  · cases h
  · split at h
    · cases h
    · cases h
    · exact openGlyphSet_relax F fs _ _ v h

theorem getUnicodes_flag (gs : GlyphSet.GlyphSet) (fs : FS) (b : Bool) (names : Option (List Str)) :
    GlyphSet.getUnicodes ({ gs with validateRead := b }, fs) names = GlyphSet.getUnicodes (gs, fs) names := by
  have hg : ∀ n, GlyphSet.getGLIF ({ gs with validateRead := b }, fs) n = GlyphSet.getGLIF (gs, fs) n := fun n => rfl
  have hf : ∀ (t : Dict Str (List Int)) (ns : List Str),
      GlyphSet.fetchAll Glif.fetchUnicodes ({ gs with validateRead := b }, fs) t ns = GlyphSet.fetchAll Glif.fetchUnicodes (gs, fs) t ns := by
    intro t ns
    induction ns generalizing t with
    | nil => rfl
    | cons n ns ih => rw [GlyphSet.fetchAll, GlyphSet.fetchAll, GlyphSet.fetchGlyph, GlyphSet.fetchGlyph, hg]; simp only [ih]
  exact hf [] _

theorem getCharacterMapping_relax (F : FloatCodec) (fs : FS) (version : Int) (layer : Option Str) (v : Bool) :
    Relaxes (getCharacterMapping F fs version layer v) (getCharacterMapping F fs version layer false) := by
  intro r h
  unfold getCharacterMapping at h ⊢
  cases hx : readerGlyphSet F fs version layer v with
  | error e => rw [hx] at h; cases h
  | ok gs =>
    rw [hx] at h
    rw [readerGlyphSet_relax F fs version layer v hx]
    dsimp only at h ⊢
    rw [getUnicodes_flag]
    exact h

/-! ### Writing a UFO -/

theorem initialLayers_relax (F : FloatCodec) (fs : FS) (p : Option Int) (v : Bool) : Relaxes (initialLayers F fs p v) (initialLayers F fs p false) := by
  unfold initialLayers
  refine relaxes_if ?_ (relaxes_refl _)
  relax (readLayerTable_relax F fs v)
  exact relaxes_refl _

theorem openWriter_relax (F : FloatCodec) (hp : Bool) (fs : FS) (version : Int) (creator : PyVal) (v : Bool) {fs' : FS} {w : Writer}
    (h : openWriter F hp fs version creator v = (fs', .ok w)) : openWriter F hp fs version creator false = (fs', .ok { w with validate := false }) := by
  unfold openWriter at h ⊢
  split at h
  · cases h
  rename_i hs
  rw [if_neg hs]
  split at h
  · cases h
  split at h
  · cases h
  rename_i hv
  rw [if_neg hv]
  rcases relaxes_cases (initialLayers_relax F fs ‹_› v) with ⟨_, hx⟩ | ⟨t, hx, hx'⟩
  · rw [hx] at h; cases h
  rw [hx] at h; rw [hx']; dsimp only at h ⊢
  split at h
  · cases h
  · cases h; rfl

theorem writeInfo_relax (E : FontInfo.Env) (w : World) (info : Str → Option PyVal) (v : Bool) : RelaxesTo (Ufo.writeInfo E w info v) (Ufo.writeInfo E w info false) := by
  have hi : Relaxes (FontInfo.writeInfo E w.1.version.toNat v info) (FontInfo.writeInfo E w.1.version.toNat false info) := by
    unfold FontInfo.writeInfo
    dsimp only
    split
    · exact validateIf_relax E _ _ v
    · exact validateIf_relax E _ _ v
    · intro r h
      rcases relaxes_cases (validateIf_relax E FontInfo.table2 (FontInfo.convertData32 (FontInfo.gather info (Dict.keys FontInfo.table3))) v) with ⟨_, hx⟩ | ⟨t, hx, hx'⟩
      · rw [hx] at h; cases h
      · rw [hx] at h; cases hx'; exact h
    · exact relaxes_refl _
  unfold Ufo.writeInfo
  rcases relaxes_cases hi with ⟨_, hx⟩ | ⟨t, hx, hx'⟩
  · rw [hx]; exact relaxesTo_error _ _ _
  · rw [hx, hx']; exact relaxesTo_refl _

theorem writeLayerInfo_relax (F : FloatCodec) (w : GlyphSet.World) (info : Str → Option PyVal) (v : Bool) :
    RelaxesTo (GlyphSet.writeLayerInfo F w info v) (GlyphSet.writeLayerInfo F w info false) := by
  cases v
  · exact relaxesTo_refl _
  unfold GlyphSet.writeLayerInfo GlyphSet.storeLayerInfo
  refine relaxesTo_if (relaxesTo_refl _) (relaxesTo_if ?_ (relaxesTo_refl _))
  simp only [if_true, Bool.false_eq_true, if_false]
  split
  · exact relaxesTo_error _ _ _
  · exact relaxesTo_refl _

theorem getGlyphSet3_relax (L : Casing) (F : FloatCodec) (w : World) (n : Str) (d v : Bool) {w' : World} {gs : GlyphSet.GlyphSet}
    (h : getGlyphSet3 L F w n d v = (w', .ok gs)) : getGlyphSet3 L F w n d false = (w', .ok { gs with validateRead := false }) := by
  unfold getGlyphSet3 at h ⊢
  split at h
  · cases h
  rename_i hc
  rw [if_neg hc]
  split at h
  · cases h
  dsimp only
  split at h
  · cases h
  · obtain ⟨rfl, h'⟩ := Prod.mk.inj h
    rw [openGlyphSet_relax F _ _ 3 v h']

theorem getGlyphSet_relax (L : Casing) (F : FloatCodec) (w : World) (n : Option Str) (d v : Bool) {w' : World} {gs : GlyphSet.GlyphSet}
    (h : getGlyphSet L F w n d v = (w', .ok gs)) : getGlyphSet L F w n d false = (w', .ok { gs with validateRead := false }) := by
  unfold getGlyphSet at h ⊢
  split at h
  · cases h
  rename_i h₁
  rw [if_neg h₁]
  split at h
  · cases h
  rename_i h₂
  rw [if_neg h₂]
  split at h
  · rename_i h₃
    rw [if_pos h₃]
    unfold getGlyphSet12 at h ⊢
    split at h
    · cases h
    · split at h
      · cases h
      · rename_i h₄
        rw [if_neg h₄]
        obtain ⟨rfl, h'⟩ := Prod.mk.inj h
        rw [openGlyphSet_relax F _ _ 2 v h']
  · rename_i h₃
    rw [if_neg h₃]
    exact getGlyphSet3_relax L F w _ d v h

theorem step_lax (E : FontInfo.Env) (L : Casing) (w : World) (op : Op) : RelaxesTo (step E L w op) (step E L w (lax op)) := by
  cases op with
  | info i v => exact writeInfo_relax E w i v
  | lib x v => exact relaxesTo_guard (relaxesTo_refl _)
  | groups g v => exact relaxesTo_guard (relaxesTo_refl _)
  | kerning k v => exact relaxesTo_guard (relaxesTo_refl _)
  | glyphSet n d v =>
    intro h
    simp only [step, lax] at h ⊢
    rcases hx : getGlyphSet L E.F w n d v with ⟨w', e | gs⟩
    · rw [hx] at h; cases h
    · rw [getGlyphSet_relax L E.F w n d v hx]; rfl
  | layerContents o v => exact relaxesTo_if (relaxesTo_refl _) (relaxesTo_guard (relaxesTo_refl _))
  | image n d v => exact relaxesTo_if (relaxesTo_refl _) (relaxesTo_guard (relaxesTo_refl _))
  | glyph gs op =>
    cases op with
    | rebuild v =>
      intro h
      simp only [step, lax, GlyphSet.step] at h ⊢
      rcases relaxes_cases (rebuildContents_relax E.F gs w.2 v) with ⟨_, hx⟩ | ⟨t, hx, hx'⟩
      · rw [hx] at h; cases h
      · rw [hx, hx']
    | _ => exact relaxesTo_refl _
  | layerInfo gs i v =>
    intro h
    simp only [step, lax] at h ⊢
    rw [writeLayerInfo_relax E.F (gs, w.2) i v h]
  | _ => exact relaxesTo_refl _

theorem openPath_relax (F : FloatCodec) (canon : Str → Str) (t : Target) (dirOk : Bool) (arg : StructureArg) (version : Int) (creator : PyVal) (v : Bool) {t' : Target} {k : Handle}
    (h : openPath F canon t dirOk arg version creator v = (t', .ok k)) :
    openPath F canon t dirOk arg version creator false = (t', .ok { k with writer := { k.writer with validate := false } }) := by
  unfold openPath at h ⊢
  split at h
  · cases h
  rename_i hs
  rw [if_neg hs]
  split at h
  · cases h
  rename_i s fs previous hp
  dsimp only at h ⊢
  rcases hx : openWriter F previous fs version creator v with ⟨fs', e | w⟩
  · rw [hx] at h; cases h
  · rw [hx] at h
    rw [openWriter_relax F previous fs version creator v hx]
    cases h
    rfl

theorem run_lax (E : FontInfo.Env) (L : Casing) (ops : List Op) (w : World) (h : Succeeds E L w ops) : run E L w (ops.map lax) = run E L w ops ∧ Succeeds E L w (ops.map lax) := by
  induction ops generalizing w with
  | nil => exact ⟨rfl, trivial⟩
  | cons op ops ih =>
    have hs := step_lax E L w op h.1
    rw [List.map_cons, run, run, Succeeds, hs]
    exact ⟨(ih _ h.2).1, h.1, (ih _ h.2).2⟩

end Verif.Ufo

namespace Verif.KerningReader
open Verif Verif.Validators Verif.Spec.Relax Verif.Glif Verif.Ufo

theorem deliver_relax (c : Call) (d : Cache) : Relaxes (deliver c d) (deliver { c with validate := false } d) := by
  unfold deliver
  dsimp only
  split
  · exact relaxes_guard' (relaxes_refl _)
  · exact relaxes_guard' (relaxes_refl _)
  · exact relaxes_guard' (relaxes_refl _)

theorem upConvert_lax (conv : PyVal → PyVal → Except Exc (Converters.Converted PyVal)) (c : Call) (cache : Option Cache) {d : Cache} {cache' : Option Cache} (h : upConvert conv c cache = (.ok d, cache')) :
    upConvert conv { c with validate := false } cache = (.ok d, cache') := by
  cases cache with
  | some d' => exact h
  | none =>
    unfold upConvert at h ⊢
    dsimp only at h ⊢
    split at h
    · cases h
    · rename_i g hg
      split at h
      · cases h
      · rw [if_neg (by simp)]
        exact h

theorem step_lax (conv : PyVal → PyVal → Except Exc (Converters.Converted PyVal)) (cache : Option Cache) (c : Call) {r : Ret} (h : (step conv cache c).1 = .ok r) :
    step conv cache { c with validate := false } = step conv cache c := by
  unfold step at h ⊢
  rcases hx : upConvert conv c cache with ⟨e | d, cache'⟩
  · rw [hx] at h; cases h
  · rw [hx] at h
    rw [upConvert_lax conv c cache hx]
    dsimp only at h ⊢
    rw [h, deliver_relax c d r h]

theorem run_lax (conv : PyVal → PyVal → Except Exc (Converters.Converted PyVal)) (cache : Option Cache) (cs : List Call) (h : ∀ e ∈ run conv cache cs, ∃ r, e.2 = .ok r) :
    (run conv cache (cs.map fun c => { c with validate := false })).map Prod.snd = (run conv cache cs).map Prod.snd := by
  induction cs generalizing cache with
  | nil => rfl
  | cons c cs ih =>
    rw [run] at h
    obtain ⟨r, hr⟩ := h _ List.mem_cons_self
    rw [List.map_cons, run, run, List.map_cons, List.map_cons, step_lax conv cache c hr, ih _ fun e he => h e (List.mem_cons_of_mem _ he)]

end Verif.KerningReader
