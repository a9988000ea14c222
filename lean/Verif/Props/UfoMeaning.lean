import Verif.Proofs.UfoMeaning
import Verif.Props.GlifMeaning
import Verif.Props.InfoLegal
import Verif.Props.Kerning
import Verif.Props.KerningReader
import Verif.Props.Converters
import Verif.Spec.UfoUpgrade
/-! C99: a UFO of any origin is read for what its files say. -/
namespace Verif.Props
open Verif Verif.Ufo Verif.UfoMeaning Verif.Spec.Validators Verif.Spec.PlistMeaning Verif.Spec.UfoMeaning Verif.Spec.InfoLegal Verif.Spec.FontInfo

/-- C99. The format version. -/
theorem C99_version (F : FloatCodec) (fs : FS) (h : Plain fs [c!"metainfo.plist"]) (i : Int) : readMetaInfo F fs true = .ok i ↔
    ∃ d v, Says F fs [c!"metainfo.plist"] (.dict d) ∧ (.str c!"formatVersion", v) ∈ d ∧ IsInt v i ∧ (i = 1 ∨ i = 2 ∨ i = 3) := metaInfo_iff h

/-- C99. The lib. -/
theorem C99_lib (F : FloatCodec) (fs : FS) (h : Plain fs [c!"lib.plist"]) (v : PyVal) : readLib F fs true = .ok v ↔ Holds F fs [c!"lib.plist"] v ∧ FontLib v := lib_iff h

/-- C99. The groups of a UFO 3. -/
theorem C99_groups (F : FloatCodec) (fs : FS) (h : Plain fs [c!"groups.plist"]) (v : PyVal) :
    readGroups3 F fs true = .ok v ↔ Holds F fs [c!"groups.plist"] v ∧ ∃ d, v = .dict d ∧ Spec.Kerning.ValidGroups d := by
  rw [groups_iff h, C09_groups_iff]
  rfl

/-- C99. The kerning of a UFO 3. -/
theorem C99_kerning (F : FloatCodec) (fs : FS) (h : Plain fs [c!"kerning.plist"]) (g : Str × Str → Option PyVal) :
    (∃ k, readKerning3 F fs true = .ok k ∧ ∀ p, Dict.get? k p = g p) ↔ ∃ d, Holds F fs [c!"kerning.plist"] (.dict d) ∧ KerningSays d g := kerning_says h

/-- C99. The features. -/
theorem C99_features (fs : FS) (s : Str) : readFeatures fs = .ok s ↔
    (fs.node? [c!"features.fea"] = none ∧ s = []) ∨ ∃ b, fs.node? [c!"features.fea"] = some (.file b) ∧ utf8Decode b = some s := features_iff

/-- C99. The layers of a UFO 3, in order. -/
theorem C99_layers (F : FloatCodec) (fs : FS) (h : Plain fs [c!"layercontents.plist"]) (names : List Str) :
    getLayerNames F fs 3 true = .ok names ↔ ∃ t, LayersSay F fs t ∧ names = t.map Prod.fst := by
  have hl := fun t => layers_iff (F := F) (t := t) h
  unfold getLayerNames readLayers
  rw [if_neg (by decide)]
  cases hr : readLayerTable F fs true with
  | error e =>
    refine ⟨fun h => (by cases h), ?_⟩
    rintro ⟨t, ht, -⟩
    rw [(hl t).2 ht] at hr
    cases hr
  | ok t =>
    simp only [Except.ok.injEq]
    constructor
    · exact fun h => ⟨t, (hl t).1 hr, h.symm⟩
    · rintro ⟨t', ht', rfl⟩
      rw [(hl t').2 ht'] at hr
      cases hr
      rfl

/-- C99. The glyphs of a layer: it is the directory of the layer, and its contents are what is written there. -/
theorem C99_contents (F : FloatCodec) (fs : FS) (version : Int) (layer : Option Str) (h : Plain fs [c!"layercontents.plist"])
    (h' : ∀ dir, Plain fs [dir, c!"contents.plist"]) (p : Path) (c : List (Str × Str)) :
    (∃ gs, readerGlyphSet F fs version layer true = .ok gs ∧ gs.dir = p ∧ gs.contents = c) ↔
      (version = 1 ∨ version = 2 ∨ version = 3) ∧ ∃ dir, p = [dir] ∧ LayerAt F fs version layer dir ∧ fs.node? [dir] = some .dir ∧ ContentsSay F fs [dir] c := by
  have hver : version.toNat = 1 ∨ version.toNat = 2 ∨ version.toNat = 3 ↔ version = 1 ∨ version = 2 ∨ version = 3 := by omega
  constructor
  · rintro ⟨gs, hr, rfl, rfl⟩
    obtain ⟨dir, hat, hn, ho⟩ := (layerDir_iff h).1 hr
    obtain ⟨hv, hc, hgs⟩ := (contents_iff (h' dir)).1 ho
    exact ⟨hver.1 hv, dir, by rw [hgs], hat, hn, hc⟩
  · rintro ⟨hv, dir, rfl, hat, hn, hc⟩
    exact ⟨_, (layerDir_iff h).2 ⟨dir, hat, hn, (contents_iff (gs := ⟨[dir], c, none, none, fs.exists ([dir] ++ [GlyphSet.contentsName]), version.toNat, true⟩) (h' dir)).2
      ⟨hver.2 hv, hc, rfl⟩⟩, rfl, rfl⟩

/-- C99. A glyph of a layer: the file the contents name says it. -/
theorem C99_glyph (E : Glif.Env) (fs : FS) (version : Int) (layer : Option Str) (h : Plain fs [c!"layercontents.plist"])
    (h' : ∀ dir, Plain fs [dir, c!"contents.plist"]) (name : Str) (g : Str → Option PyVal) (calls : List Glif.Call) :
    (∃ gs attrs, readerGlyphSet E.F fs version layer true = .ok gs ∧ GlyphSet.readGlyph E (gs, fs) name true true true = .ok (attrs, calls) ∧ ∀ k, Dict.get? attrs k = g k) ↔
      (version = 1 ∨ version = 2 ∨ version = 3) ∧ ∃ dir c file, LayerAt E.F fs version layer dir ∧ fs.node? [dir] = some .dir ∧ ContentsSay E.F fs [dir] c ∧ (name, file) ∈ c ∧
        GlifSays E.F fs [dir, file] (if version < 3 then [1] else [1, 2]) g calls := by
  have hglyph : ∀ (gs : GlyphSet.GlyphSet) (versions : List Int), (if gs.version < 3 then [1] else [1, 2]) = versions →
      ((∃ attrs, GlyphSet.readGlyph E (gs, fs) name true true true = .ok (attrs, calls) ∧ ∀ k, Dict.get? attrs k = g k) ↔
        ∃ file, Dict.get? gs.contents name = some file ∧ GlifSays E.F fs (gs.dir ++ [file]) versions g calls) := by
    rintro gs versions rfl
    unfold GlyphSet.readGlyph GlyphSet.getGLIF
    cases hc : Dict.get? gs.contents name with
    | none => simp
    | some file =>
      simp only [Option.some.injEq, exists_eq_left']
      unfold GlifSays FS.getbytes
      cases hn : fs.node? (gs.dir ++ [file]) with
      | none => simp
      | some n =>
        cases n with
        | dir => simp
        | file b =>
          simp only [Option.some.injEq, Node.file.injEq]
          refine Iff.trans (C96_file E _ b g calls) ?_
          constructor
          · rintro ⟨s, tree, h⟩; exact ⟨b, s, tree, rfl, h⟩
          · rintro ⟨b', s, tree, rfl, h⟩; exact ⟨s, tree, h⟩
  have hver : version.toNat < 3 ↔ version < 3 := by omega
  constructor
  · rintro ⟨gs, attrs, hr, hg, hk⟩
    obtain ⟨hv, dir, hdir, hat, hn, hc⟩ := (C99_contents E.F fs version layer h h' gs.dir gs.contents).1 ⟨gs, hr, rfl, rfl⟩
    have hgv : gs.version = version.toNat := by
      obtain ⟨dir', hat', hn', ho⟩ := (layerDir_iff h).1 hr
      obtain ⟨-, -, hgs⟩ := (contents_iff (h' dir')).1 ho
      rw [hgs]
    obtain ⟨file, hf, hs⟩ := (hglyph gs (if version < 3 then [1] else [1, 2]) (by rw [hgv]; simp only [hver])).1 ⟨attrs, hg, hk⟩
    rw [hdir] at hs
    exact ⟨hv, dir, gs.contents, file, hat, hn, hc, Dict.mem_of_get? hf, hs⟩
  · rintro ⟨hv, dir, c, file, hat, hn, hc, hm, hs⟩
    obtain ⟨gs, hr, hd, rfl⟩ := (C99_contents E.F fs version layer h h' [dir] c).2 ⟨hv, dir, rfl, hat, hn, hc⟩
    have hgv : gs.version = version.toNat := by
      obtain ⟨dir', hat', hn', ho⟩ := (layerDir_iff h).1 hr
      obtain ⟨-, -, hgs⟩ := (contents_iff (h' dir')).1 ho
      rw [hgs]
    have hw : Dict.WF gs.contents := contents_wf (holds_pure hc.file)
    obtain ⟨attrs, hg, hk⟩ := (hglyph gs (if version < 3 then [1] else [1, 2]) (by rw [hgv]; simp only [hver])).2 ⟨file, Dict.get?_of_mem hw hm, by rw [hd]; exact hs⟩
    exact ⟨gs, attrs, hr, hg, hk⟩

/-- C99. The info of a layer. -/
theorem C99_layerInfo (F : FloatCodec) (gs : GlyphSet.GlyphSet) (fs : FS) (h : Plain fs (gs.dir ++ [c!"layerinfo.plist"])) (d : List (PyVal × PyVal)) :
    GlyphSet.readLayerInfo F (gs, fs) true = .ok d ↔ Holds F fs (gs.dir ++ [c!"layerinfo.plist"]) (.dict d) ∧ LayerInfoSays F d := layerInfo_iff (w := (gs, fs)) h

/-- C99. The font info of a UFO 3. -/
theorem C99_info3 (E : FontInfo.Env) (fs : FS) (h : Plain fs [c!"fontinfo.plist"]) (g : Str → Option PyVal) :
    (∃ r, readInfo E fs 3 true = .ok r ∧ ∀ a, Dict.get? r a = g a) ↔ ∃ d, Holds E.F fs [c!"fontinfo.plist"] (.dict d) ∧ InfoSays3 E.F E.py38 d g := by
  simp only [info_iff h]
  constructor
  · rintro ⟨r, ⟨D, hs, hr⟩, hg⟩
    obtain ⟨hw, hp⟩ := wf_of_pure (holds_pure hs)
    obtain ⟨h1, h2⟩ := C98_read3 E D fun a v hv => (hp _ (Dict.mem_of_get? hv)).keyed
    simp only [present_pure hp, get?_strs hw] at h1
    refine ⟨_, hs, h1.1 ⟨r, hr⟩, fun a v => ?_⟩
    rw [← hg, h2 r hr a, present_pure hp, ← get?_strs hw]
    by_cases ha : a ∈ attributes3 <;> simp [ha]
  · rintro ⟨d, hs, hl, hv⟩
    obtain ⟨D, rfl, hw, hp⟩ := (holds_pure hs).dict_inv
    obtain ⟨h1, h2⟩ := C98_read3 E D fun a v hv => (hp _ (Dict.mem_of_get? hv)).keyed
    simp only [present_pure hp, get?_strs hw] at h1
    obtain ⟨r, hr⟩ := h1.2 hl
    refine ⟨r, ⟨D, hs, hr⟩, fun a => ?_⟩
    apply Option.ext
    intro v
    rw [hv, h2 r hr a, present_pure hp, ← get?_strs hw]
    by_cases ha : a ∈ attributes3 <;> simp [ha]

/-- C99. The font info of a UFO 2. -/
theorem C99_info2 (E : FontInfo.Env) (fs : FS) (h : Plain fs [c!"fontinfo.plist"]) (g : Str → Option PyVal) :
    (∃ r, readInfo E fs 2 true = .ok r ∧ ∀ a, Dict.get? r a = g a) ↔ ∃ d, Holds E.F fs [c!"fontinfo.plist"] (.dict d) ∧ InfoSays2 E.F E.py38 d g := by
  simp only [info_iff h]
  constructor
  · rintro ⟨r, ⟨D, hs, hr⟩, hg⟩
    obtain ⟨hw, hp⟩ := wf_of_pure (holds_pure hs)
    obtain ⟨h1, h2⟩ := C98_read2 E D fun a v hv => (hp _ (Dict.mem_of_get? hv)).keyed
    simp only [present_pure hp, get?_strs hw] at h1 h2
    refine ⟨_, hs, h1.1 ⟨r, hr⟩, fun a v => ?_⟩
    rw [← hg]
    exact h2 r hr a v
  · rintro ⟨d, hs, hl, hv⟩
    obtain ⟨D, rfl, hw, hp⟩ := (holds_pure hs).dict_inv
    obtain ⟨h1, h2⟩ := C98_read2 E D fun a v hv => (hp _ (Dict.mem_of_get? hv)).keyed
    simp only [present_pure hp, get?_strs hw] at h1 h2
    obtain ⟨r, hr⟩ := h1.2 hl
    refine ⟨r, ⟨D, hs, hr⟩, fun a => ?_⟩
    apply Option.ext
    intro v
    rw [hv]
    exact h2 r hr a v

/-- C99. The font info of a UFO 1. -/
theorem C99_info1 (E : FontInfo.Env) (fs : FS) (h : Plain fs [c!"fontinfo.plist"]) (g : Str → Option PyVal) :
    (∃ r, readInfo E fs 1 true = .ok r ∧ ∀ a, Dict.get? r a = g a) ↔ ∃ d, Holds E.F fs [c!"fontinfo.plist"] (.dict d) ∧ InfoSays1 E.F E.py38 d g := by
  simp only [info_iff h]
  constructor
  · rintro ⟨r, ⟨D, hs, hr⟩, hg⟩
    obtain ⟨hw, hp⟩ := wf_of_pure (holds_pure hs)
    obtain ⟨h1, h2⟩ := C98_read1 E D fun a v hv => (hp _ (Dict.mem_of_get? hv)).keyed
    simp only [present_pure hp, get?_strs hw] at h1 h2
    refine ⟨_, hs, h1.1 ⟨r, hr⟩, fun a v => ?_⟩
    rw [← hg]
    exact h2 r hr a v
  · rintro ⟨d, hs, hl, hv⟩
    obtain ⟨D, rfl, hw, hp⟩ := (holds_pure hs).dict_inv
    obtain ⟨h1, h2⟩ := C98_read1 E D fun a v hv => (hp _ (Dict.mem_of_get? hv)).keyed
    simp only [present_pure hp, get?_strs hw] at h1 h2
    obtain ⟨r, hr⟩ := h1.2 hl
    refine ⟨r, ⟨D, hs, hr⟩, fun a => ?_⟩
    apply Option.ext
    intro v
    rw [hv]
    exact h2 r hr a v

/-! ### Groups and kerning of UFO 1 and 2 -/

theorem kerningRow_ok {d : List (PyVal × PyVal)} : ∀ {r : Dict Str PyVal}, KerningReader.kerningRow d = .ok r → d = r.map fun e => (.str e.1, e.2) := by
  induction d with
  | nil => intro r h; cases h; rfl
  | cons i d ih =>
    intro r h
    unfold KerningReader.kerningRow at h
    split at h
    · rename_i hc; cases hc
    · rename_i hc
      cases hc
      split at h
      · rename_i t ht; cases h; rw [ih ht]; rfl
      · cases h
    · cases h

theorem kerningRows_ok {d : List (PyVal × PyVal)} : ∀ {t : Dict Str (Dict Str PyVal)}, KerningReader.kerningRows d = .ok t → .dict d = kerningFile t := by
  induction d with
  | nil => intro r h; cases h; rfl
  | cons i d ih =>
    intro r h
    unfold KerningReader.kerningRows at h
    split at h
    · rename_i hc; cases hc
    · rename_i hc
      cases hc
      split at h
      · cases h
      · rename_i row hrow
        split at h
        · rename_i t ht
          cases h
          have := ih ht
          simp only [kerningFile, PyVal.dict.injEq] at this ⊢
          rw [this, kerningRow_ok hrow]
          rfl
        · cases h
    · cases h

theorem allStrings_some : ∀ {l : List PyVal} {s : List Str}, KerningReader.allStrings l = some s → l = s.map .str
  | [], s, h => by cases h; rfl
  | x :: l, s, h => by
    unfold KerningReader.allStrings at h
    split at h
    · rename_i hc; cases hc
    · rename_i hc
      cases hc
      obtain ⟨s', hs', rfl⟩ := Option.map_eq_some_iff.1 h
      rw [allStrings_some hs']
      rfl
    · cases h

theorem checkedItems_some {d : List (PyVal × PyVal)} : ∀ {g : Dict Str (List Str)}, KerningReader.checkedItems d = some g → .dict d = groupsFile g := by
  induction d with
  | nil => intro r h; cases h; rfl
  | cons i d ih =>
    intro r h
    unfold KerningReader.checkedItems at h
    split at h
    · rename_i hc; cases hc
    · rename_i hc
      cases hc
      split at h
      · rename_i l t hl ht
        cases h
        have := ih ht
        simp only [groupsFile, PyVal.dict.injEq] at this ⊢
        rw [this, allStrings_some hl]
        rfl
      · cases h
    · cases h

theorem checkedGroups_some {v : PyVal} {g : Dict Str (List Str)} (h : KerningReader.checkedGroups v = some g) : v = groupsFile g := by
  cases v <;> first | cases h | skip
  exact checkedItems_some h

theorem convertFiles_iff {ord1 ord2 : List Str → List Str} {kv gv : PyVal} {r : Converters.Converted PyVal} : KerningReader.convertFiles ord1 ord2 kv gv = .ok r ↔
    ∃ k g, kv = kerningFile k ∧ gv = groupsFile g ∧ Converters.convert ord1 ord2 k g = .ok r := by
  constructor
  · intro h
    unfold KerningReader.convertFiles at h
    split at h
    · split at h
      · cases h
      · rename_i k' hk'
        split at h
        · cases h
        · rename_i g' hg'
          exact ⟨k', g', kerningRows_ok hk', checkedGroups_some hg', h⟩
    · cases h
  · rintro ⟨k, g, rfl, rfl, h⟩
    have h1 := kerningRows_val k
    have h2 := checkedGroups_val g
    simp only [kerningFile, KerningReader.convertFiles, h1]
    rw [show groupsFile g = Kerning.groupsVal g from rfl, h2]
    exact h

/-- C99. Groups, kerning and rename maps of a UFO 1 or 2, as a new reader gives them: what the files say is converted, if the result is valid. -/
theorem C99_old (F : FloatCodec) (fs : FS) (hk : Plain fs [c!"kerning.plist"]) (hg : Plain fs [c!"groups.plist"]) (ord1 ord2 : List Str → List Str)
    (c : KerningReader.Call) (hc : Spec.Ufo.CallIn F fs c) (hv : c.validate = true) (ret : KerningReader.Ret) :
    (KerningReader.step (KerningReader.convertFiles ord1 ord2) none c).1 = .ok ret ↔
      ∃ k g r, Holds F fs [c!"kerning.plist"] (kerningFile k) ∧ Holds F fs [c!"groups.plist"] (groupsFile g) ∧ Converters.convert ord1 ord2 k g = .ok r ∧
        (c.kind = .kerning → ∀ e ∈ r.kerning, ∀ x ∈ e.2, IsNum x.2) ∧ (c.kind ≠ .kerning → ∃ d, groupsFile r.groups = .dict d ∧ Spec.Kerning.ValidGroups d) ∧
        ret = match c.kind with | .groups => .groups r.groups | .kerning => .kerning (Converters.flatten r.kerning) | .maps => .maps r.side1 r.side2 := by
  have hk' := fun v => holds_iff (F := F) hk (v := v)
  have hg' := fun v => holds_iff (F := F) hg (v := v)
  have hvalid : ∀ r : Converters.Converted PyVal, KerningReader.validKerning r.kerning = true ↔ ∀ e ∈ r.kerning, ∀ x ∈ e.2, IsNum x.2 := by
    intro r
    simp only [KerningReader.validKerning, KerningReader.validRow, List.all_eq_true]
    refine forall_congr' fun e => forall_congr' fun _ => forall_congr' fun x => forall_congr' fun _ => ⟨fun h => ?_, fun h => ?_⟩
    · obtain ⟨f, hf⟩ := Option.isSome_iff_exists.1 h
      exact (Validators.num?_iff.1 hf).imp (fun ⟨i, hi, _⟩ => ⟨i, hi⟩) fun hf => ⟨f, hf⟩
    rcases h with ⟨i, h⟩ | ⟨f, h⟩
    · rw [Validators.num?_int h]; rfl
    · rw [h]; rfl
  have hdel : ∀ kv gv r, KerningReader.deliver c ⟨kv, gv, some r⟩ = .ok ret ↔
      (c.kind = .kerning → ∀ e ∈ r.kerning, ∀ x ∈ e.2, IsNum x.2) ∧ (c.kind ≠ .kerning → ∃ d, groupsFile r.groups = .dict d ∧ Spec.Kerning.ValidGroups d) ∧
        ret = match c.kind with | .groups => .groups r.groups | .kerning => .kerning (Converters.flatten r.kerning) | .maps => .maps r.side1 r.side2 := by
    intro kv gv r
    have hgr := C09_groups_iff (groupsFile r.groups)
    rw [show groupsFile r.groups = Kerning.groupsVal r.groups from rfl] at hgr
    rw [← hvalid, show groupsFile r.groups = Kerning.groupsVal r.groups from rfl, ← hgr]
    unfold KerningReader.deliver
    cases c.kind <;> simp only [hv, Bool.true_and, reduceCtorEq, false_implies, true_implies, ne_eq, not_false_eq_true, not_true_eq_false, true_and]
    · cases Kerning.groupsValidator (Kerning.groupsVal r.groups) <;> simp [eq_comm]
    · cases KerningReader.validKerning r.kerning <;> simp [eq_comm]
    · cases Kerning.groupsValidator (Kerning.groupsVal r.groups) <;> simp [eq_comm]
  unfold KerningReader.step KerningReader.upConvert
  simp only [hc.1, hc.2, hv, Bool.true_and]
  constructor
  · intro h
    cases hgf : IO.getPlist F fs [c!"groups.plist"] (some (.dict [])) with
    | error e => rw [hgf] at h; cases h
    | ok gv =>
      simp only [hgf] at h
      cases hcg : KerningReader.checkedGroups gv with
      | none => simp [hcg] at h
      | some g0 =>
        simp only [hcg, Option.isNone_some, Bool.false_eq_true, if_false] at h
        cases hkf : IO.getPlist F fs [c!"kerning.plist"] (some (.dict [])) with
        | error e => rw [hkf] at h; cases h
        | ok kv =>
          simp only [hkf] at h
          cases hconv : KerningReader.convertFiles ord1 ord2 kv gv with
          | error e => rw [hconv] at h; cases h
          | ok r =>
            simp only [hconv] at h
            obtain ⟨k, g, rfl, rfl, hr⟩ := convertFiles_iff.1 hconv
            exact ⟨k, g, r, (hk' _).1 hkf, (hg' _).1 hgf, hr, (hdel _ _ _).1 h⟩
  · rintro ⟨k, g, r, h1, h2, hr, h3⟩
    have hcg : KerningReader.checkedGroups (groupsFile g) = some g := checkedGroups_val g
    simp only [(hg' _).2 h2, (hk' _).2 h1, hcg, Option.isNone_some, Bool.false_eq_true, if_false, convertFiles_iff.2 ⟨k, g, rfl, rfl, hr⟩]
    exact (hdel _ _ _).2 h3

/-- C99. What the conversion makes of them when no names clash: every group is kept, kerning groups are there under their new names as well, and pairs have the new names. -/
theorem C99_old_meaning (F : FloatCodec) (fs : FS) (ord1 ord2 : List Str → List Str) (h1 : ∀ l, (ord1 l).Perm l) (h2 : ∀ l, (ord2 l).Perm l) (k : Dict Str (Dict Str PyVal))
    (g : Dict Str (List Str)) (hf : Holds F fs [c!"kerning.plist"] (kerningFile k)) (hu : Unclashing k g) (r : Converters.Converted PyVal) (h : Converters.convert ord1 ord2 k g = .ok r) :
    (∀ n ms, Dict.get? r.groups n = some ms ↔ GroupNow k g n ms) ∧
    (∀ a b v, Dict.get? (Converters.flatten r.kerning) (a, b) = some v ↔ PairNow k g a b v) ∧
    (∀ x n, Dict.get? r.side1 x = some n ↔ Left k g x ∧ n = leftName x) ∧
    (∀ x n, Dict.get? r.side2 x = some n ↔ Right k g x ∧ n = rightName x) := by
  have hk : Spec.Converters.WFKerning k := wf_rows (holds_pure hf)
  have hno : ∀ x ∈ g.keys, ¬ Spec.Kerning.Begins x c!"public.kern1." ∧ ¬ Spec.Kerning.Begins x c!"public.kern2." := fun x hx => hu.free x (.inl hx)
  have key : ∀ pfx known x, (∀ x ∈ g.keys, ¬ Spec.Kerning.Begins x pfx) → Converters.newName pfx known g x = pfx ++ removeAll known x := by
    intro pfx known x hno
    obtain ⟨i, h1, h2, h3⟩ := Converters.makeUnique_spec (pfx ++ removeAll known x) g.keys
    rw [Converters.newName, h1]
    cases i with
    | zero => rfl
    | succ i => exact absurd ⟨_, rfl⟩ (hno _ (h3 0 (by omega)))
  have s1 : ∀ x n, Dict.get? r.side1 x = some n ↔ Left k g x ∧ n = leftName x := by
    intro x n
    rw [side1_get? h1 h2 h, key Kerning.kern1 _ x (fun y hy => (hno y hy).1)]
    have hl : x ∈ Converters.firstReferenced k g ↔ Left k g x := by
      rw [(Converters.firstReferenced_spec k g).2 x]
      exact and_congr_right fun hx => or_congr_right ⟨And.left, fun hf => ⟨hf, (hno x hx).1⟩⟩
    by_cases hx : x ∈ Converters.firstReferenced k g
    · rw [if_pos hx]
      simp only [Option.some.injEq, hl.1 hx, true_and]
      exact eq_comm
    · rw [if_neg hx]
      simp [mt hl.2 hx]
  have s2 : ∀ x n, Dict.get? r.side2 x = some n ↔ Right k g x ∧ n = rightName x := by
    intro x n
    rw [side2_get? h1 h2 h, key Kerning.kern2 _ x (fun y hy => (hno y hy).2)]
    have hl : x ∈ Converters.secondReferenced k g ↔ Right k g x := by
      rw [(Converters.secondReferenced_spec k g).2 x]
      exact and_congr_right fun hx => or_congr_right ⟨And.left, fun hf => ⟨hf, (hno x hx).2⟩⟩
    by_cases hx : x ∈ Converters.secondReferenced k g
    · rw [if_pos hx]
      simp only [Option.some.injEq, hl.1 hx, true_and]
      exact eq_comm
    · rw [if_neg hx]
      simp [mt hl.2 hx]
  obtain ⟨i1, i2⟩ := C10_injective h1 h2 h hno hu.left hu.right
  obtain ⟨g1, g2, -, g4, g5⟩ := C10_groups_partial h1 h2 h
  refine ⟨fun n ms => ⟨fun hn => ?_, ?_⟩, fun a b v => ?_, s1, s2⟩
  · rcases g2 n ms hn with hn | ⟨old, ho | ho, hm⟩
    · exact ⟨n, hn, .inl rfl⟩
    · exact ⟨old, hm, .inr (.inl ((s1 _ _).1 ho))⟩
    · exact ⟨old, hm, .inr (.inr ((s2 _ _).1 ho))⟩
  · rintro ⟨x, hx, rfl | hl | hr⟩
    · exact g1 _ _ hx
    · rw [g4 i1 x n ((s1 _ _).2 hl), hx]
    · rw [g5 i2 x n ((s2 _ _).2 hr), hx]
  · have hren1 : ∀ f a, a = Spec.Converters.renamed r.side1 f ↔ (Left k g f ∧ a = leftName f) ∨ (¬ Left k g f ∧ a = f) := by
      intro f a
      unfold Spec.Converters.renamed
      by_cases hl : Left k g f
      · rw [(s1 f (leftName f)).2 ⟨hl, rfl⟩]; simp [hl]
      · cases hf : Dict.get? r.side1 f with
        | none => simp [hl]
        | some n => exact absurd ((s1 f n).1 hf).1 hl
    have hren2 : ∀ f a, a = Spec.Converters.renamed r.side2 f ↔ (Right k g f ∧ a = rightName f) ∨ (¬ Right k g f ∧ a = f) := by
      intro f a
      unfold Spec.Converters.renamed
      by_cases hl : Right k g f
      · rw [(s2 f (rightName f)).2 ⟨hl, rfl⟩]; simp [hl]
      · cases hf : Dict.get? r.side2 f with
        | none => simp [hl]
        | some n => exact absurd ((s2 f n).1 hf).1 hl
    obtain ⟨j1, j2⟩ := C11_injOn h1 h2 h
    obtain ⟨p1, p2⟩ := C11_lossless_partial h1 h2 h hk
      (j1 i1 _ (fun x hx hb => by
        obtain ⟨row, hr⟩ := Dict.get?_isSome_of_mem hx
        exact absurd hb (hu.free x (.inr (.inl ⟨row, Dict.mem_of_get? hr⟩))).1))
      (fun f row hm => j2 i2 _ (fun x hx hb => by
        obtain ⟨w, hr⟩ := Dict.get?_isSome_of_mem hx
        exact absurd hb (hu.free x (.inr (.inr ⟨f, row, w, hm, Dict.mem_of_get? hr⟩))).2))
    have hwf : Spec.Converters.WFKerning r.kerning := by
      obtain ⟨-, -, e, -⟩ := spec_of_ok h1 h2 h
      rw [e]
      exact Converters.renameKerning_wf _ _ _
    rw [Converters.flatten_get? hwf]
    constructor
    · intro hv
      obtain ⟨f, s, ha, hb, hp⟩ := p2 a b v hv
      exact ⟨f, s, hp, (hren1 _ _).1 ha, (hren2 _ _).1 hb⟩
    · rintro ⟨f, s, hp, ha, hb⟩
      rw [(hren1 _ _).2 ha, (hren2 _ _).2 hb]
      exact p1 f s v hp

/-! ### A UFO by hand -/

/-- Text that is a string, or none. -/
def textOk : Option Text → Bool
  | none => true
  | some (.str _) => true
  | _ => false

mutual
/-- A check that an element is as the document type has it (data aside). -/
def shapedB : Elem → Bool
  | .mk tag _ text _ children =>
    if decide (tag ∈ [c!"true", c!"false", c!"integer", c!"real", c!"string", c!"date"]) then
      children.isEmpty && textOk text
    else if tag = c!"array" then shapedListB children
    else decide (tag = c!"dict") && shapedItemsB children
/-- The same for lists. -/
def shapedListB : List Elem → Bool
  | [] => true
  | e :: es => shapedB e && shapedListB es
/-- The same for the entries of a dictionary. -/
def shapedItemsB : List Elem → Bool
  | [] => true
  | [_] => false
  | .mk tag _ text _ children :: e :: es => decide (tag = c!"key") && children.isEmpty && textOk text && shapedB e && shapedItemsB es
end

theorem textIs_of {e : Elem} (hc : e.children.isEmpty = true) (ht : textOk e.text = true) : ∃ s, TextIs e s := by
  cases hx : e.text with
  | none => exact ⟨[], by simpa using hc, .inr ⟨hx, rfl⟩⟩
  | some t =>
    rw [hx] at ht
    cases t with
    | str s => exact ⟨s, by simpa using hc, .inl hx⟩
    | _ => cases ht

mutual
theorem shapedB_sound : ∀ (e : Elem), shapedB e = true → Shaped e
  | .mk tag a text tail children, h => by
    unfold shapedB at h
    split at h
    · rename_i ht
      rw [Bool.and_eq_true] at h
      obtain ⟨s, hs⟩ := textIs_of (e := .mk tag a text tail children) h.1 h.2
      simp only [decide_eq_true_eq] at ht
      refine .leaf _ s ?_ hs ?_
      · exact (show ∀ t ∈ [c!"true", c!"false", c!"integer", c!"real", c!"string", c!"date"], t ∈ [c!"true", c!"false", c!"integer", c!"real", c!"string", c!"data", c!"date"] by decide) tag ht
      · exact fun hd => absurd hd ((show ∀ t ∈ [c!"true", c!"false", c!"integer", c!"real", c!"string", c!"date"], t ≠ c!"data" by decide) tag ht)
    · split at h
      · rename_i ht
        exact .array _ ht (shapedListB_sound children h)
      · rw [Bool.and_eq_true, decide_eq_true_eq] at h
        exact .dict _ h.1 (shapedItemsB_sound children h.2)
theorem shapedListB_sound : ∀ (es : List Elem), shapedListB es = true → ShapedList es
  | [], _ => .nil
  | e :: es, h => by
    rw [shapedListB, Bool.and_eq_true] at h
    exact .cons e es (shapedB_sound e h.1) (shapedListB_sound es h.2)
theorem shapedItemsB_sound : ∀ (es : List Elem), shapedItemsB es = true → ShapedItems es
  | [], _ => .nil
  | [_], h => by cases h
  | .mk tag a text tail children :: e :: es, h => by
    rw [shapedItemsB] at h
    simp only [Bool.and_eq_true, decide_eq_true_eq] at h
    obtain ⟨⟨⟨⟨h1, h2⟩, h3⟩, h4⟩, h5⟩ := h
    obtain ⟨s, hs⟩ := textIs_of (e := .mk tag a text tail children) h2 h3
    exact .cons _ e es s h1 hs (shapedB_sound e h4) (shapedItemsB_sound es h5)
end

/-- A check for property list files. -/
def listedB (fs : FS) (p : Path) : Bool :=
  match fs.node? p with
  | some (.file b) => match utf8Decode b with
    | some x => match Spec.Xml.parse x with
      | some (.mk tag _ _ _ [e]) => decide (tag = c!"plist") && shapedB e
      | _ => false
    | none => false
  | _ => false

theorem listedB_sound {fs : FS} {p : Path} (h : listedB fs p = true) : Listed fs p := by
  unfold listedB at h
  split at h
  · rename_i b hb
    split at h
    · rename_i x hx
      split at h
      · rename_i tag a t tl e hp
        rw [Bool.and_eq_true, decide_eq_true_eq] at h
        obtain ⟨rfl, h⟩ := h
        exact ⟨b, x, e, hb, hx, ⟨a, t, tl, hp⟩, shapedB_sound e h⟩
      · cases h
    · cases h
  · cases h

/-- The bytes of a text file. -/
def file99 (s : Str) : Node := .file (utf8 s)

/-- Files written by hand: white space, entries in any order, no header. -/
def fs99 : FS := ⟨id, [
  ([c!"metainfo.plist"], file99 c!"<plist>\n<dict><key>formatVersion</key>\n<integer> 3 </integer></dict></plist>"),
  ([c!"layercontents.plist"], file99 c!"<plist><array><array><string>back</string><string>glyphs.b</string></array><array><string>front</string><string>glyphs</string></array></array></plist>"),
  ([c!"kerning.plist"], file99 c!"<plist><dict> <key>A</key><dict><key>V</key><integer>+0</integer><key>V</key><integer>-40</integer></dict></dict></plist>"),
  ([c!"fontinfo.plist"], file99 c!"<plist><dict><key>unitsPerEm</key><integer>1000</integer><key>org.x</key><true/></dict></plist>"),
  ([c!"lib.plist"], file99 c!"<plist><dict><key>public.glyphOrder</key><array><string>A</string></array></dict></plist>"),
  ([c!"glyphs.b"], .dir), ([c!"glyphs"], .dir),
  ([c!"glyphs", c!"contents.plist"], file99 c!"<plist><dict><key>A</key><string>x.glif</string></dict></plist>"),
  ([c!"glyphs", c!"x.glif"], file99 c!"<glyph format='2' name='A'><advance width='500'/></glyph>")], []⟩

/-- The property lists are in order, or missing. -/
theorem plain99 : Plain fs99 [c!"metainfo.plist"] ∧ Plain fs99 [c!"layercontents.plist"] ∧ Plain fs99 [c!"kerning.plist"] ∧ Plain fs99 [c!"fontinfo.plist"] ∧
    Plain fs99 [c!"lib.plist"] ∧ Plain fs99 [c!"groups.plist"] ∧ (∀ dir, Plain fs99 [dir, c!"contents.plist"]) ∧ Plain fs99 [c!"glyphs", c!"layerinfo.plist"] := by
  refine ⟨.inr (listedB_sound (by decide +kernel)), .inr (listedB_sound (by decide +kernel)), .inr (listedB_sound (by decide +kernel)), .inr (listedB_sound (by decide +kernel)),
    .inr (listedB_sound (by decide +kernel)), .inl (by decide +kernel), fun dir => ?_, .inl (by decide +kernel)⟩
  by_cases hd : dir = c!"glyphs"
  · subst hd
    exact .inr (listedB_sound (by decide +kernel))
  · left
    have : ∀ n : Path × Node, n ∈ fs99.nodes → n.1 ≠ [dir, c!"contents.plist"] := by
      intro n hn
      simp only [fs99, List.mem_cons, List.not_mem_nil, or_false] at hn
      rcases hn with rfl | rfl | rfl | rfl | rfl | rfl | rfl | rfl | rfl <;> intro h <;> simp at h
      exact hd h.symm
    show Dict.get? fs99.nodes [dir, c!"contents.plist"] = none
    cases hg : Dict.get? fs99.nodes [dir, c!"contents.plist"] with
    | none => rfl
    | some n => exact absurd rfl (this _ (Dict.mem_of_get? hg))

/-- It is read as intended: the value given last counts, layers in order, the default layer, a glyph. -/
example : readMetaInfo fractionCodec fs99 true = .ok 3 := by decide +kernel
example : (readKerning3 fractionCodec fs99 true).toOption = some [((c!"A", c!"V"), .int (-40))] := by decide +kernel
example : (getLayerNames fractionCodec fs99 3 true).toOption = some [c!"back", c!"front"] := by decide +kernel
example : ((readerGlyphSet fractionCodec fs99 3 none true).toOption.map fun gs => (gs.dir, gs.contents)) = some ([c!"glyphs"], [(c!"A", c!"x.glif")]) := by decide +kernel

/-- So that is what the files say. -/
example : LayerAt fractionCodec fs99 3 none c!"glyphs" ∧ ContentsSay fractionCodec fs99 [c!"glyphs"] [(c!"A", c!"x.glif")] := by
  have h : (∃ gs, readerGlyphSet fractionCodec fs99 3 none true = .ok gs ∧ gs.dir = [c!"glyphs"] ∧ gs.contents = [(c!"A", c!"x.glif")]) := by
    have h : ((readerGlyphSet fractionCodec fs99 3 none true).toOption.map fun gs => (gs.dir, gs.contents)) = some ([c!"glyphs"], [(c!"A", c!"x.glif")]) := by decide +kernel
    cases hr : readerGlyphSet fractionCodec fs99 3 none true with
    | error e => rw [hr] at h; cases h
    | ok gs =>
      rw [hr] at h
      simp only [Except.toOption, Option.map_some, Option.some.injEq, Prod.mk.injEq] at h
      exact ⟨gs, rfl, h⟩
  obtain ⟨-, dir, hd, h1, -, h2⟩ := (C99_contents fractionCodec fs99 3 none plain99.2.1 plain99.2.2.2.2.2.2.1 _ _).1 h
  cases hd
  exact ⟨h1, h2⟩

/-- And the kerning: the pair has the value given last, and no other pair has one. -/
example : ∃ d, Holds fractionCodec fs99 [c!"kerning.plist"] (.dict d) ∧ KerningSays d fun p => if p = (c!"A", c!"V") then some (.int (-40)) else none := by
  refine (C99_kerning fractionCodec fs99 plain99.2.2.1 _).1 ⟨[((c!"A", c!"V"), .int (-40))], ?_, fun p => ?_⟩
  · exact toOption_some (by decide +kernel)
  · simp only [Dict.get?]
    by_cases h : p = (c!"A", c!"V") <;> simp [h, eq_comm]

/-- Groups and kerning of an old UFO written by hand. -/
def old99 : FS := ⟨id, [
  ([c!"kerning.plist"], file99 c!"<plist><dict><key>@MMK_L_A</key><dict><key>O</key><integer>-10</integer></dict><key>T</key><dict><key>x</key><integer>2</integer></dict></dict></plist>"),
  ([c!"groups.plist"], file99 c!"<plist><dict><key>O</key><array><string>o</string></array><key>@MMK_L_A</key><array><string>A</string></array><key>misc</key><array/></dict></plist>")], []⟩

/-- The reader converts them: the right group is known by its use, the left one by its name; the names do not clash. -/
example : ∃ k g r, Holds fractionCodec old99 [c!"kerning.plist"] (kerningFile k) ∧ Holds fractionCodec old99 [c!"groups.plist"] (groupsFile g) ∧
    Converters.convert id id k g = .ok r ∧ Unclashing k g ∧ PairNow k g c!"public.kern1.A" c!"public.kern2.O" (.int (-10)) ∧ GroupNow k g c!"public.kern2.O" [c!"o"] := by
  have hk : Plain old99 [c!"kerning.plist"] := .inr (listedB_sound (by decide +kernel))
  have hg : Plain old99 [c!"groups.plist"] := .inr (listedB_sound (by decide +kernel))
  have h1 : IO.getPlist fractionCodec old99 [c!"kerning.plist"] (some (.dict [])) =
      .ok (kerningFile [(c!"@MMK_L_A", [(c!"O", .int (-10))]), (c!"T", [(c!"x", .int 2)])]) := toOption_some (by decide +kernel)
  have h2 : IO.getPlist fractionCodec old99 [c!"groups.plist"] (some (.dict [])) =
      .ok (groupsFile [(c!"O", [c!"o"]), (c!"@MMK_L_A", [c!"A"]), (c!"misc", [])]) := toOption_some (by decide +kernel)
  have hb : ∀ x ∈ [c!"O", c!"@MMK_L_A", c!"misc", c!"T", c!"x"], startsWith x c!"public.kern1." = false ∧ startsWith x c!"public.kern2." = false := by decide +kernel
  have hu : Unclashing [(c!"@MMK_L_A", [(c!"O", .int (-10))]), (c!"T", [(c!"x", .int 2)])] [(c!"O", [c!"o"]), (c!"@MMK_L_A", [c!"A"]), (c!"misc", [])] := by
    refine ⟨fun x hx => ?_, by unfold Spec.Converters.InjOn; decide +kernel, by unfold Spec.Converters.InjOn; decide +kernel⟩
    have hm : x ∈ [c!"O", c!"@MMK_L_A", c!"misc", c!"T", c!"x"] := by
      rcases hx with hx | ⟨row, hx⟩ | ⟨f, row, v, hx, hv⟩
      · simp only [Dict.keys, List.map_cons, List.map_nil, List.mem_cons, List.not_mem_nil, or_false] at hx ⊢
        rcases hx with h | h | h <;> simp [h]
      · simp only [List.mem_cons, Prod.mk.injEq, List.not_mem_nil, or_false] at hx ⊢
        rcases hx with h | h <;> simp [h.1]
      · simp only [List.mem_cons, Prod.mk.injEq, List.not_mem_nil, or_false] at hx ⊢
        rcases hx with ⟨-, rfl⟩ | ⟨-, rfl⟩ <;> simp at hv <;> simp [hv.1]
    exact ⟨fun h => absurd (hb x hm).1 (by rw [(Kerning.startsWith_iff _ _).2 h]; simp),
      fun h => absurd (hb x hm).2 (by rw [(Kerning.startsWith_iff _ _).2 h]; simp)⟩
  have hf := (holds_iff hk).1 h1
  refine ⟨_, _, _, hf, (holds_iff hg).1 h2, rfl, hu, ?_⟩
  obtain ⟨m1, m2, -⟩ := C99_old_meaning fractionCodec old99 id id (fun _ => .refl _) (fun _ => .refl _) _ _ hf hu _ rfl
  exact ⟨(m2 _ _ _).1 (by decide +kernel), (m1 _ _).1 (by decide +kernel)⟩

end Verif.Props
