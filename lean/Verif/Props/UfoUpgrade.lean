import Verif.Proofs.UfoUpgrade
import Mathlib.Tactic.Tauto
/-! C79: loading a UFO of any version and saving it as UFO 3. -/
namespace Verif.Props
open Verif Verif.Ufo Verif.FS Verif.IO Verif.Kerning Verif.Converters Verif.FontInfo Verif.Spec.Ufo Verif.Spec.Plist Verif.Spec.FontInfo

/-- Whatever validated info, groups, kerning, lib and features a reader of a UFO of any version delivers, a UFO 3 writer (of another UFO, or of the same one) accepts: every saving call
succeeds wherever it is made among calls that have nothing to do with these files. Once all five have been made, a reader of the UFO 3 delivers the same content. -/
theorem C79_saved_partial (E : FontInfo.Env) (hF : E.F.Lawful) (L : Casing) (ord1 ord2 : List Str → List Str) (h1 : ∀ l, (ord1 l).Perm l) (h2 : ∀ l, (ord2 l).Perm l)
    (src : FS) (version : Int) (hm : readMetaInfo E.F src true = .ok version) (c : Content) (hload : Loads E ord1 ord2 src version c) (hfit : c.Fits)
    (hp : Bool) (fs fs' : FS) (creator : PyVal) (hcr : Storable creator) (w : Writer) (h : openWriter E.F hp fs 3 creator true = (fs', .ok w)) (hk : KeepsApart fs.canon)
    (hdirs : ∀ n ∈ contentNames, fs.node? [n] ≠ some .dir) (hnew : hp = true ∨ ∀ n ∈ contentNames, fs.node? [n] = none)
    (ops : List Op) (ho : ∀ op ∈ ops, Saves c op ∨ Bystander fs.canon op) :
    (∀ pre op post, ops = pre ++ op :: post → Saves c op → (step E L (run E L (w, fs') pre) op).2 = .ok ()) ∧
    ((∀ op, Saves c op → op ∈ ops) →
      readMetaInfo E.F (run E L (w, fs') ops).2 true = .ok 3 ∧ ∃ c', Loads E ord1 ord2 (run E L (w, fs') ops).2 3 c' ∧ c.Agree c') := by
  have hv : version ≤ 3 := by
    have := (readMetaInfo_true hm).1
    simp only [supported, Bool.or_eq_true, beq_iff_eq] at this
    omega
  have hs := savable_of h1 h2 hv hload hfit
  have h0 := saving_open h hk hdirs hnew c
  have hcanon : fs'.canon = fs.canon := h0.canon
  have hok : ∀ pre op post, ops = pre ++ op :: post → Saves c op → (step E L (run E L (w, fs') pre) op).2 = .ok () := by
    rintro pre op post rfl hop
    have := saving_run hF L hs hk pre h0 fun o h => ho o (by simp [h])
    exact (saves_step hF L hs this.version hop this.dirs).1
  refine ⟨hok, fun hall => ⟨?_, ?_⟩⟩
  · have hn : (run E L (w, fs') ops).2.node? [metainfoName] = fs'.node? [metainfoName] := by
      refine run_node? E L (w, fs') h0.layered ops (fun op hop => ?_) []
      rw [h0.canon]
      rcases ho op hop with h | h
      · refine saves_spares hk h (by decide) fun hx => ?_
        cases h <;> cases hx
      · exact h _ (by simp [metainfoName])
    rw [readMetaInfo_congr hn]
    exact readMetaInfo_stored E.F rfl (writePlist_reads E.F hF (storable_metaInfo hcr rfl) (openWriter_ok h).2.2.1 none) true
  · -- the state before a call, and whether its file is missing
    have hblank : ∀ pre post op, ops = pre ++ op :: post → ∀ n ∈ contentNames, Blank c n → hp = true ∨ (run E L (w, fs') pre).2.exists [n] = false := by
      rintro pre post op rfl n hn hb
      cases hp with
      | true => exact .inl rfl
      | false =>
        have := (saving_run hF L hs hk pre h0 fun o h => ho o (by simp [h])).blank rfl n hn hb
        exact .inr (by unfold FS.exists; rw [this]; rfl)
    obtain ⟨info', hi1, hi2⟩ : ∃ r, Ufo.readInfo E (run E L (w, fs') ops).2 3 true = .ok r ∧ ∀ a, Option.Rel Same (Dict.get? c.info a) (Dict.get? r a) := by
      obtain ⟨pre, post, rfl, -, hpost⟩ := last_save hk ho .info (hall _ .info) (n := c!"fontinfo.plist") (by decide) .info
      obtain ⟨r, hr, hrel⟩ := C60_info3 E hF L hp fs fs' creator w h pre post (Dict.get? c.info) (fun a v hv _ => (hs.info _ (Dict.mem_of_get? hv)).2.2)
        (hok _ _ _ rfl .info) (by rw [hcanon]; exact hpost)
      refine ⟨r, hr, fun a => ?_⟩
      have ha := hrel a
      rcases hx : Dict.get? c.info a with _ | v
      · rw [hx] at ha
        have : (if a ∈ Dict.keys table3 then present none else none) = none := by split <;> rfl
        rw [this] at ha
        cases hy : Dict.get? r a with
        | none => exact .none
        | some y => rw [hy] at ha; cases ha
      · obtain ⟨b1, b2, -⟩ := hs.info _ (Dict.mem_of_get? hx)
        have hmem : a ∈ Dict.keys table3 := by
          unfold FontInfo.validateValue at b1
          dsimp only at b1
          split at b1
          · cases b1
          · rename_i hk'
            exact Dict.mem_keys_of_mem (Dict.mem_of_get? hk')
        rw [if_pos hmem, hx, present_some.2 ⟨rfl, readable_ne_none b2⟩] at ha
        cases hy : Dict.get? r a with
        | none => rw [hy] at ha; cases ha
        | some y =>
          rw [hy] at ha
          cases ha with
          | some hsame =>
            rw [Plist.untuple_noTuple _ (Plist.wellFormed_of _ b2).2] at hsame
            exact .some hsame
    obtain ⟨g', hg1, hg2⟩ : ∃ g', readGroups3 E.F (run E L (w, fs') ops).2 true = .ok (groupsVal g') ∧ ∀ n, Dict.get? g' n = Dict.get? c.groups n := by
      obtain ⟨pre, post, hsplit, -, hpost⟩ := last_save hk ho .groups (hall _ .groups) (n := c!"groups.plist") (by decide) .groups
      have hb := hblank pre post _ hsplit groupsName (by decide)
      subst hsplit
      refine C60_groups_partial E hF L hp fs fs' creator w h pre post c.groups true hs.groups.1 hs.groups.2.2 (hok _ _ _ rfl .groups) (by rw [hcanon]; exact hpost) ?_ true (fun _ => rfl)
      by_cases he : c.groups = []
      · exact (hb (.inl ⟨rfl, he⟩)).imp id .inr
      · exact .inr (.inl he)
    obtain ⟨k', hk1, hk2⟩ : ∃ r, readKerning3 E.F (run E L (w, fs') ops).2 true = .ok r ∧ ∀ p, Dict.get? r p = Dict.get? c.kerning p := by
      obtain ⟨pre, post, hsplit, -, hpost⟩ := last_save hk ho .kerning (hall _ .kerning) (n := c!"kerning.plist") (by decide) .kerning
      have hb := hblank pre post _ hsplit kerningName (by decide)
      subst hsplit
      refine C60_kerning_partial E hF L hp fs fs' creator w h pre post c.kerning true hs.kerning.1 hs.kerning.2 (hok _ _ _ rfl .kerning) (by rw [hcanon]; exact hpost) ?_ true
      by_cases he : c.kerning = []
      · exact (hb (.inr (.inl ⟨rfl, he⟩))).imp id .inr
      · exact .inr (.inl he)
    obtain ⟨l', hl1, hl2⟩ : ∃ r, readLib E.F (run E L (w, fs') ops).2 true = .ok r ∧ Same c.lib r := by
      obtain ⟨pre, post, hsplit, -, hpost⟩ := last_save hk ho .lib (hall _ .lib) (n := c!"lib.plist") (by decide) .lib
      have hb := hblank pre post _ hsplit libName (by decide)
      obtain ⟨d, hd, d1, d2, d3⟩ := hs.lib
      have hoklib := hok _ _ _ hsplit .lib
      subst hsplit
      rw [hd] at hoklib ⊢
      rw [← Plist.untuple_noTuple _ (Plist.wellFormed_of _ d1).2]
      have := C60_lib_partial E hF L hp fs fs' 3 creator w h pre post d true d2 hoklib (by rw [hcanon]; exact hpost) ?_ true (fun _ => rfl)
      · obtain ⟨r, r1, r2⟩ := this
        rw [Plist.untuple_noTuple _ (Plist.wellFormed_of _ d1).2] at r2 ⊢
        exact ⟨r, r1, r2⟩
      · by_cases he : d = []
        · exact (hb (.inr (.inr (.inl ⟨rfl, by rw [hd, he]⟩)))).imp id .inr
        · exact .inr (.inl he)
    have hfe : readFeatures (run E L (w, fs') ops).2 = .ok c.features := by
      obtain ⟨pre, post, hsplit, -, hpost⟩ := last_save hk ho .features (hall _ .features) (n := c!"features.fea") (by decide) .features
      have hb := hblank pre post _ hsplit featuresName (by decide)
      subst hsplit
      refine C60_features_partial E L hp fs fs' 3 creator w h pre post c.features (hok _ _ _ rfl .features) (by rw [hcanon]; exact hpost) ?_
      by_cases he : c.features = []
      · exact (hb (.inr (.inr (.inr ⟨rfl, he⟩)))).imp id .inr
      · exact .inr (.inl he)
    exact ⟨⟨info', g', k', l', c.features⟩, ⟨hi1, hl1, hfe, fun h => by omega, fun _ => ⟨hg1, hk1⟩⟩, hi2, hg2, hk2, hl2, rfl⟩

/-- Upgrading a UFO 1 or 2 in place: what its reader delivers is saved with a UFO 3 writer, and the layer contents are written, in any order and any number of times. The UFO opens,
every call succeeds, and a reader of the UFO 3 delivers the same content, finds the one layer `public.default`, and in it the glyphs, GLIF texts and layer info the reader of the old
version found. Everything else in the UFO is as it was. -/
theorem C79_upgrade_partial (E : FontInfo.Env) (hF : E.F.Lawful) (L : Casing) (ord1 ord2 : List Str → List Str) (h1 : ∀ l, (ord1 l).Perm l) (h2 : ∀ l, (ord2 l).Perm l)
    (fs : FS) (version : Int) (hm : readMetaInfo E.F fs true = .ok version) (hv : version < 3) (c : Content) (hload : Loads E ord1 ord2 fs version c) (hfit : c.Fits)
    (creator : PyVal) (hcr : Storable creator) (hk : KeepsApart fs.canon) (hg : fs.node? [c!"glyphs"] = some .dir) (hlc : fs.node? [c!"layercontents.plist"] ≠ some .dir)
    (ops : List Op) (ho : ∀ op ∈ ops, Saves c op ∨ op = .layerContents none true) (hall : ∀ op, Saves c op ∨ op = .layerContents none true → op ∈ ops) :
    ∃ fs' w, openWriter E.F true fs 3 creator true = (fs', .ok w) ∧
      (∀ pre op post, ops = pre ++ op :: post → (step E L (run E L (w, fs') pre) op).2 = .ok ()) ∧
      readMetaInfo E.F (run E L (w, fs') ops).2 true = .ok 3 ∧
      (∃ c', Loads E ord1 ord2 (run E L (w, fs') ops).2 3 c' ∧ c.Agree c') ∧
      (∀ v, getLayerNames E.F (run E L (w, fs') ops).2 3 v = .ok [c!"public.default"]) ∧
      (∀ v name, SameSet E.F (fs, readerGlyphSet E.F fs version name v) ((run E L (w, fs') ops).2, readerGlyphSet E.F (run E L (w, fs') ops).2 3 name v)) ∧
      ∀ n p, (∀ m ∈ c!"metainfo.plist" :: c!"layercontents.plist" :: contentNames, fs.canon m ≠ fs.canon n) →
        (run E L (w, fs') ops).2.node? (n :: p) = fs.node? (n :: p) := by
  obtain ⟨fs', w, hw, hlayers⟩ := openWriter_upgrade hF hm hv hcr
  have hex : fs.exists [glyphsName] = true := by unfold FS.exists; rw [show fs.node? [glyphsName] = _ from hg]; rfl
  rw [if_pos hex] at hlayers
  have hdirs := loads_dirs (by omega) hload
  have h0 := saving_open hw hk hdirs (.inl rfl) c
  have hs := savable_of h1 h2 (by omega) hload hfit
  have hstd : ∀ m ∈ c!"metainfo.plist" :: c!"layercontents.plist" :: contentNames, m ∈ standardNames := by decide
  have hlcs : ∀ n ∈ c!"metainfo.plist" :: contentNames, Spares fs.canon n (.layerContents none true) := by
    intro n hn x hx e
    cases hx
    have := hk.names _ (by decide) n (hstd n (by simp only [List.mem_cons] at hn ⊢; tauto)) e
    subst this
    revert hn; decide
  have hby : ∀ {o : Op}, o = .layerContents none true → Bystander fs.canon o := by rintro o rfl; exact hlcs
  have ho' : ∀ op ∈ ops, Saves c op ∨ Bystander fs.canon op := fun op hop => by
    rcases ho op hop with h | rfl
    · exact .inl h
    · exact .inr hlcs
  obtain ⟨hA, hB⟩ := C79_saved_partial E hF L ord1 ord2 h1 h2 fs version hm c hload hfit true fs fs' creator hcr w hw hk hdirs (.inl rfl) ops ho'
  obtain ⟨hC, hD⟩ := hB fun op hop => hall op (.inl hop)
  have hspares : ∀ op, (Saves c op ∨ op = .layerContents none true) → ∀ n, (∀ m ∈ c!"metainfo.plist" :: c!"layercontents.plist" :: contentNames, fs.canon m ≠ fs.canon n) →
      Spares fs.canon n op := by
    intro op hop n hn x hx
    refine hn x ?_
    rcases hop with h | rfl
    · cases h <;> cases hx <;> decide
    · cases hx; decide
  obtain ⟨-, -, hwp, -⟩ := openWriter_ok hw
  obtain ⟨wc, wn, -⟩ := writePlist_spec hwp
  have hother : ∀ pre, (∀ op ∈ pre, Saves c op ∨ op = .layerContents none true) → ∀ n p,
      (∀ m ∈ c!"metainfo.plist" :: c!"layercontents.plist" :: contentNames, fs.canon m ≠ fs.canon n) → (run E L (w, fs') pre).2.node? (n :: p) = fs.node? (n :: p) := by
    intro pre hpre n p hn
    rw [run_node? E L (w, fs') h0.layered pre (fun op hop => by rw [h0.canon]; exact hspares op (hpre op hop) n hn) p]
    refine wn _ fun e => ?_
    simp only [FS.key, List.map_cons, List.map_nil, List.cons.injEq] at e
    exact hn metainfoName (by simp [metainfoName]) e.1.symm
  have hglyphs : ∀ m ∈ c!"metainfo.plist" :: c!"layercontents.plist" :: contentNames, fs.canon m ≠ fs.canon glyphsName := by
    intro m hm' e
    exact hk.dirs m (hstd m hm') glyphsName (.inl rfl) e.symm
  -- the layers of the writer, and layercontents.plist, before any call
  have hinv : ∀ pre, (∀ op ∈ pre, Saves c op ∨ op = .layerContents none true) →
      (run E L (w, fs') pre).1.layers = [(defaultLayerName, glyphsName)] ∧ (run E L (w, fs') pre).2.node? [layercontentsName] ≠ some .dir := by
    intro pre
    induction pre using List.reverseRecOn with
    | nil =>
      intro _
      refine ⟨hlayers, ?_⟩
      show fs'.node? [layercontentsName] ≠ _
      rw [wn _ fun e => ?_]
      · exact hlc
      · simp only [FS.key, List.map_cons, List.map_nil, List.cons.injEq, and_true] at e
        exact absurd (hk.names layercontentsName (by decide) metainfoName (by decide) e) (by decide)
    | append_singleton pre op ih =>
      intro hpre
      obtain ⟨a, b⟩ := ih fun o h => hpre o (by simp [h])
      have hsv := saving_run hF L hs hk pre h0 fun o h => (hpre o (by simp [h])).imp id hby
      rw [run_append]
      show (step E L (run E L (w, fs') pre) op).1.1.layers = _ ∧ (step E L (run E L (w, fs') pre) op).1.2.node? [layercontentsName] ≠ _
      rcases hpre op (by simp) with h | rfl
      · refine ⟨?_, ?_⟩
        · rcases step_layers E L (run E L (w, fs') pre) op with e | ⟨n, b, v, rfl⟩ | ⟨n, m, b, rfl⟩ | ⟨n, rfl⟩
          · rw [e]; exact a
          all_goals cases h
        · rw [step_node? E L hsv.layered (by rw [hsv.canon]; exact saves_spares hk h (by decide) fun hx => by cases h <;> cases hx)]
          exact b
      · refine ⟨?_, (layerContents_step hF L hsv.version a b).2.1⟩
        rcases step_layers E L (run E L (w, fs') pre) (.layerContents none true) with e | ⟨n, b, v, h⟩ | ⟨n, m, b, h⟩ | ⟨n, h⟩
        · rw [e]; exact a
        all_goals cases h
  refine ⟨fs', w, hw, ?_, hC, hD, ?_⟩
  · rintro pre op post rfl
    rcases ho op (by simp) with h | rfl
    · exact hA pre op post rfl h
    · have hpre : ∀ o ∈ pre, Saves c o ∨ o = .layerContents none true := fun o h => ho o (by simp [h])
      obtain ⟨a, b⟩ := hinv pre hpre
      have hsv := saving_run hF L hs hk pre h0 fun o h => (hpre o h).imp id hby
      exact (layerContents_step hF L hsv.version a b).1
  · have hread : ∀ v, readLayers E.F (run E L (w, fs') ops).2 3 v = .ok [(defaultLayerName, glyphsName)] := by
      have hgl : (run E L (w, fs') ops).2.exists [glyphsName] = true := by
        unfold FS.exists; rw [hother ops ho glyphsName [] hglyphs, show fs.node? [glyphsName] = _ from hg]; rfl
      refine readLayers_default ?_ hgl
      obtain ⟨pre, post, rfl, hnot⟩ := last_split (hall (.layerContents none true) (.inr rfl))
      have hpre : ∀ o ∈ pre, Saves c o ∨ o = .layerContents none true := fun o h => ho o (by simp [h])
      obtain ⟨a, b⟩ := hinv pre hpre
      have hsv := saving_run hF L hs hk pre h0 fun o h => (hpre o h).imp id hby
      rw [run_append]
      show getPlist E.F (run E L (step E L (run E L (w, fs') pre) (.layerContents none true)).1 post).2 _ _ = _
      obtain ⟨-, -, l2, a2⟩ := step_spec E L (run E L (w, fs') pre) hsv.layered (.layerContents none true)
      rw [getPlist_congr (run_node? E L _ l2 post (c := layercontentsName) (fun op hop => ?_) [])]
      · exact (layerContents_step hF L hsv.version a b).2.2
      · rw [a2.canon, hsv.canon]
        rcases ho op (by simp [hop]) with h | rfl
        · exact saves_spares hk h (by decide) fun hx => by cases h <;> cases hx
        · exact absurd hop hnot
    refine ⟨fun v => ?_, fun v name => ?_, hother ops ho⟩
    · unfold getLayerNames
      rw [hread v]; rfl
    · have hold : readLayers E.F fs version v = .ok [(defaultLayerName, glyphsName)] := by unfold readLayers; rw [if_pos hv]
      have hg' : (run E L (w, fs') ops).2.node? [glyphsName] = some .dir := by rw [hother ops ho glyphsName [] hglyphs]; exact hg
      by_cases hn : name = none ∨ name = some defaultLayerName
      · rw [readerGlyphSet_default hold hg name hn, readerGlyphSet_default (hread v) hg' name hn]
        refine same_open E.F (fun p => (hother ops ho glyphsName p hglyphs).symm) ?_ (by decide) v
        have := (readMetaInfo_true hm).1
        simp only [supported, Bool.or_eq_true, beq_iff_eq] at this
        omega
      · left
        refine ⟨.ufoLibError, ?_, ?_⟩
        all_goals
          rcases name with _ | s
          · exact absurd (.inl rfl) hn
          · have hne : ¬ defaultLayerName = s := fun e => hn (.inr (by rw [e]))
            unfold readerGlyphSet
            simp [resolveLayer, hold, hread v, hne]

/-- A UFO 2 with a group that the conversion renames, one pair of kerning, a lib, features and a value of font info that is a float. -/
def fs79 (info : Dict Str PyVal) : FS :=
  let w : World := match openWriter fractionCodec false fs57 2 (.str c!"me") true with
    | (fs, .ok w) => (w, fs)
    | (fs, .error _) => (⟨2, [], false, true, none⟩, fs);
  (run env57 asciiCasing w [.info (Dict.get? info) true, .groups [(c!"@MMK_L_A", [c!"A"])] true, .kerning [((c!"@MMK_L_A", c!"B"), .int 3)] true,
    .lib (.dict [(.str c!"a", .int 1)]) true, .features c!"x", .glyphSet none false true, .bytes [c!"glyphs", c!"contents.plist"] (utf8 c!"<plist><dict><key>A</key><string>A_.glif</string></dict></plist>"),
    .bytes [c!"glyphs", c!"A_.glif"] [1]]).2

theorem canon79 (info : Dict Str PyVal) : (fs79 info).canon = id := by
  unfold fs79
  rcases h : openWriter fractionCodec false fs57 2 (.str c!"me") true with ⟨f, r⟩
  cases r with
  | error e =>
    have : (openWriter fractionCodec false fs57 2 (.str c!"me") true).2.toOption.isSome = true := by decide +kernel
    rw [h] at this
    cases this
  | ok w =>
    dsimp only
    rw [(run_spec env57 asciiCasing _ (w, f) (openWriter_layered h)).2.2.canon]
    exact (writePlist_spec (openWriter_ok h).2.2.1).1

/-- What its reader delivers. -/
def content79 : Content where
  info := [(c!"openTypeOS2WinAscent", .int 1000)]
  groups := [(c!"@MMK_L_A", [c!"A"]), (c!"public.kern1.A", [c!"A"])]
  kerning := [((c!"public.kern1.A", c!"B"), .int 3)]
  lib := .dict [(.str c!"a", .int 1)]
  features := c!"x"

theorem eq_ok {ε α : Type} {x : Except ε α} {a : α} (h : x.toOption = some a) : x = .ok a := by
  cases x with
  | error e => cases h
  | ok b => cases h; rfl

/-- A call on a reader of the UFO. -/
def call79 (k : KerningReader.Kind) (fs : FS) : KerningReader.Call :=
  ⟨k, true, getPlist fractionCodec fs [c!"kerning.plist"] (some (.dict [])), getPlist fractionCodec fs [c!"groups.plist"] (some (.dict []))⟩

/-- A UFO 2 with an attribute of font info that is rounded. -/
def old79 : FS := fs79 [(c!"openTypeOS2WinAscent", .float (.fin (2001 / 2)))]

/-- The UFO 2 satisfies the conditions of `C79_upgrade_partial`. -/
example : readMetaInfo fractionCodec old79 true = .ok 2 ∧ Loads env57 id id old79 2 content79 ∧ content79.Fits ∧ KeepsApart old79.canon ∧ old79.node? [c!"glyphs"] = some .dir ∧
      old79.node? [c!"layercontents.plist"] ≠ some .dir ∧
      ∃ ops : List Op, (∀ op ∈ ops, Saves content79 op ∨ op = .layerContents none true) ∧ ∀ op, Saves content79 op ∨ op = .layerContents none true → op ∈ ops := by
  refine ⟨eq_ok (by decide +kernel), ⟨eq_ok (by decide +kernel), eq_ok (by decide +kernel), eq_ok (by decide +kernel), fun _ => ?_, fun h => by cases h⟩, ⟨?_, ?_, ?_, ?_⟩, ?_, by decide +kernel, by decide +kernel, ?_⟩
  · refine ⟨[call79 .groups old79, call79 .kerning old79], call79 .groups old79, call79 .kerning old79, ?_, rfl, rfl, ?_, ?_⟩
    · intro x hx
      simp only [List.mem_cons, List.not_mem_nil, or_false] at hx
      rcases hx with rfl | rfl <;> exact ⟨rfl, rfl⟩
    · refine List.mem_cons.2 (.inl (Prod.ext rfl (Eq.symm (eq_ok (by decide +kernel)))))
    · refine List.mem_cons.2 (.inr (List.mem_cons.2 (.inl (Prod.ext rfl (Eq.symm (eq_ok (by decide +kernel)))))))
  · simp [content79, Fits]
  · decide
  · simp [content79, Fits]
  · simp [content79, Fits, FitsItems]
  · rw [show old79.canon = id from canon79 _]
    exact keepsApart_id
  · refine ⟨[.info (Dict.get? content79.info) true, .groups content79.groups true, .kerning content79.kerning true, .lib content79.lib true, .features content79.features,
      .layerContents none true], ?_, ?_⟩
    · intro op hop
      simp only [List.mem_cons, List.not_mem_nil, or_false] at hop
      rcases hop with rfl | rfl | rfl | rfl | rfl | rfl
      · exact .inl .info
      · exact .inl .groups
      · exact .inl .kerning
      · exact .inl .lib
      · exact .inl .features
      · exact .inr rfl
    · rintro op (h | rfl)
      · cases h <;> simp
      · simp

/-- Opening a UFO for an upgrade. -/
def open79 (fs : FS) : World := match openWriter fractionCodec true fs 3 (.str c!"me") true with
  | (fs, .ok w) => (w, fs)
  | (fs, .error _) => (⟨3, [], false, true, none⟩, fs)

/-- The reader of UFO 2 delivers an integer of more than 64 bits, made from a negative float, for an attribute of font info. It is valid, and it cannot be saved. -/
theorem C79_refuted : let fs := fs79 [(c!"openTypeOS2WinAscent", .float (.fin (-100000000000000000000)))];
    let info : Dict Str PyVal := [(c!"openTypeOS2WinAscent", .int 100000000000000000000)];
    (Ufo.readInfo env57 fs 2 true).toOption = some info ∧ (openWriter fractionCodec true fs 3 (.str c!"me") true).2.toOption.isSome = true ∧
    (step env57 asciiCasing (open79 fs) (.info (Dict.get? info) true)).2.toOption = none := by decide +kernel

/-- As soon as the writer has opened the UFO for an upgrade it is marked as UFO 3, but has no layer contents: until they are written, no reader finds its glyphs. -/
theorem C79_refuted_interrupted : let fs := fs79 [];
    (readMetaInfo fractionCodec fs true).toOption = some 2 ∧ (getLayerNames fractionCodec fs 2 true).toOption = some [c!"public.default"] ∧
    (readerGlyphSet fractionCodec fs 2 none true).toOption.isSome = true ∧
    (openWriter fractionCodec true fs 3 (.str c!"me") true).2.toOption.isSome = true ∧
    (readMetaInfo fractionCodec (open79 fs).2 true).toOption = some 3 ∧ (getLayerNames fractionCodec (open79 fs).2 3 true).toOption = none ∧
    (readerGlyphSet fractionCodec (open79 fs).2 3 none true).toOption.isNone = true ∧
    (openWriter fractionCodec true (open79 fs).2 3 (.str c!"me") true).2.toOption.isNone = true := by decide +kernel

end Verif.Props
