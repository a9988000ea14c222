import Verif.Proofs.UfoCopy
/-! Saving a whole font: the state during the program. -/
namespace Verif.Filenames
open Verif

/-- No character of a generated name is invented. -/
theorem name_chars {L : Casing} {u pre suf r : Str} {existing : List Str} (h : userNameToFileName L u existing pre suf = .ok r) :
    ∀ c ∈ r, c ∈ pre ∨ c ∈ suf ∨ c ∈ u ∨ c = '_' ∨ c = '.' ∨ isDigit c = true := by
  obtain ⟨v, hv, -, h⟩ := userNameToFileName_cases h
  have hvu : ∀ c ∈ v, c ∈ u ∨ c = '_' := by
    intro c hc
    unfold fixLeadingPeriod at hv
    split at hv
    · cases u with
      | nil => cases hv
      | cons a rest =>
        dsimp only at hv
        split at hv <;> cases hv
        · rcases List.mem_cons.1 hc with rfl | hc
          · exact .inr rfl
          · exact .inl (by simp [hc])
        · exact .inl hc
    · cases hv; exact .inl hc
  have hcl : ∀ c ∈ cleaned L v pre suf, c ∈ u ∨ c = '_' ∨ c = '.' := by
    intro c hc
    rcases fixReserved_mem hc with rfl | rfl | hc
    · exact .inr (.inr rfl)
    · exact .inr (.inl rfl)
    · have := mem_of_mem_pySliceTo hc
      obtain ⟨a, ha, hc⟩ := List.mem_flatMap.1 this
      have : c = a ∨ c = '_' := by
        unfold filterChar at hc
        split at hc
        · simp at hc; exact .inr hc
        · split at hc <;> simp at hc
          · rcases hc with h | h
            · exact .inl h
            · exact .inr h
          · exact .inl hc
      rcases this with rfl | rfl
      · rcases hvu c ha with h | h
        · exact .inl h
        · exact .inr (.inl h)
      · exact .inr (.inl rfl)
  intro c hc
  rcases h with rfl | ⟨k, -, rfl⟩ | ⟨k, -, -, rfl⟩
  · rcases List.mem_append.1 hc with hc | hc
    · rcases List.mem_append.1 hc with hc | hc
      · exact .inl hc
      · rcases hcl c hc with h | h | h <;> simp [h]
    · simp [hc]
  · rcases List.mem_append.1 hc with hc | hc
    · rcases List.mem_append.1 hc with hc | hc
      · exact .inl hc
      · rcases List.mem_append.1 hc with hc | hc
        · obtain ⟨n, hn⟩ := clash1Name_eq_take (cleaned L v pre suf) pre suf
          rw [hn] at hc
          rcases hcl c (List.mem_of_mem_take hc) with h | h | h <;> simp [h]
        · simp [zfill_digits (natRepr_digits k) c hc]
    · simp [hc]
  · rcases List.mem_append.1 hc with hc | hc
    · rcases List.mem_append.1 hc with hc | hc
      · exact .inl hc
      · simp [natRepr_digits k c hc]
    · simp [hc]

end Verif.Filenames

namespace Verif.Props
open Verif Verif.FS Verif.IO Verif.Ufo Verif.Spec.Ufo Verif.Spec.Plist

/-- The state when glyph sets for the first `k` layers were obtained. -/
structure Progress (L : Casing) (canon : Str → Str) (layers : List Layer) (k : Nat) (f : Font) : Prop where
  orderly : Orderly L f
  version : f.writer.version = 3
  canon_eq : f.fs.canon = canon
  length : f.sets.length = k
  keys : Dict.keys f.writer.layers = (layers.map (·.name)).take k
  owns : ∀ i l, i < k → layers[i]? = some l → ∃ d, OwnsLayer f i l.name d ∧ (l.default = true ↔ d = c!"glyphs") ∧ FileText d
  clean : ∀ x p, GlyphsDir x → (∀ m y, Dict.get? f.writer.layers m = some y → L.lower y ≠ L.lower x) → f.fs.node? (x :: p) = none

/-- A call on the writer that is not about glyph directories. -/
theorem progress_ufo {L : Casing} (hL : AsciiPrefix L) (E : FontInfo.Env) {canon : Str → Str} {layers : List Layer} {k : Nat} {f : Font} (h : Progress L canon layers k f) (op : Op)
    (hs : ∀ d, GlyphsDir d → Spares canon d op) : Progress L canon layers k (f.step E L (.ufo op)).1 := by
  have hspec := step_spec E L f.world h.orderly.sound.layered op
  have hlay : (step E L f.world op).1.1.layers = f.writer.layers := by
    have hg : GlyphsDir c!"glyphs" := .inl rfl
    rcases step_layers E L f.world op with h | ⟨n, b, v, rfl⟩ | ⟨n, m, b, rfl⟩ | ⟨n, rfl⟩
    · exact h
    · exact absurd rfl (hs _ hg _ (.glyphSet hg))
    · exact absurd rfl (hs _ hg _ (.rename hg))
    · exact absurd rfl (hs _ hg _ (.delete hg))
  have hharm : Harmless f.writer.layers op := by
    rintro n rfl
    exact absurd rfl (hs c!"glyphs" (.inl rfl) _ (.rename (.inl rfl)))
  have hnode : ∀ x p, GlyphsDir x → (step E L f.world op).1.2.node? (x :: p) = f.fs.node? (x :: p) := fun x p hx =>
    run_node? E L f.world h.orderly.sound.layered [op] (by simpa [Font.world, h.canon_eq] using hs x hx) p
  refine ⟨orderly_step hL E h.orderly _ (by rintro o ho; cases ho; exact ⟨hharm, .inr (.inl (by rw [h.canon_eq]; exact hs))⟩), hspec.1.version.trans h.version,
    hspec.2.2.2.canon.trans h.canon_eq, h.length, ?_, fun i l hi hl => ?_, fun x p hx ha => ?_⟩
  · show Dict.keys (step E L f.world op).1.1.layers = _
    rw [hlay]; exact h.keys
  · obtain ⟨d, ho, h1, h2⟩ := h.owns i l hi hl
    have hd := h.orderly.sound.layered.dirs _ _ ho.layer
    refine ⟨d, (font_step_layer hL E h.orderly.sound ho (.ufo op) (.inl (by rw [h.canon_eq]; exact hs d hd)) (by rintro o hop; cases hop; exact hharm)).1, h1, h2⟩
  · show (step E L f.world op).1.2.node? (x :: p) = none
    rw [hnode x p hx]
    refine h.clean x p hx fun m y hm => ha m y ?_
    show Dict.get? (step E L f.world op).1.1.layers m = some y
    rw [hlay]; exact hm

/-- A call on one of the glyph sets. -/
theorem progress_set {L : Casing} (hL : AsciiPrefix L) (E : FontInfo.Env) {canon : Str → Str} {layers : List Layer} {k : Nat} {f : Font} (h : Progress L canon layers k f)
    (hnd : (layers.map (·.name)).Nodup) (hk : k ≤ layers.length) (i : Nat) (hi : i < k) (c : GlyphSet.SetCall) :
    Progress L canon layers k (f.step E L (.set i c)).1 ∧ ∀ j l d, j < k → layers[j]? = some l → OwnsLayer f j l.name d → LeavesLayer j l.name d f (.set i c) := by
  obtain ⟨li, hli⟩ : ∃ l, layers[i]? = some l := ⟨layers[i], List.getElem?_eq_getElem (by omega)⟩
  obtain ⟨e, ho, -, -⟩ := h.owns i li hi hli
  obtain ⟨gs, hgs, hdir⟩ := ho.set
  have hleave : ∀ j l d, j < k → layers[j]? = some l → OwnsLayer f j l.name d → LeavesLayer j l.name d f (.set i c) := by
    intro j l d hj hl hod
    by_cases hij : i = j
    · exact .inl hij
    · refine .inr fun g hg => ?_
      rw [hgs] at hg
      cases hg
      refine ⟨e, hdir, fun he => ?_⟩
      refine h.orderly.sound.apart li.name l.name e d ho.layer hod.layer (fun hn => hij ?_) (h.orderly.sound.canon _ _ he)
      have h1 : (layers.map (·.name))[i]? = some li.name := by simp [hli]
      have h2 : (layers.map (·.name))[j]? = some l.name := by simp [hl]
      rw [hn] at h1
      exact (List.getElem?_inj (i := i) (by simp; omega) hnd).1 (by rw [h1, h2])
  refine ⟨?_, hleave⟩
  have hstep : (f.step E L (.set i c)).1 = { f with fs := (GlyphSet.setStep L E.F (gs, f.fs) c).1.2, sets := f.sets.set i (GlyphSet.setStep L E.F (gs, f.fs) c).1.1 } := by
    simp only [Font.step, Font.callSet, hgs]
  have hacts := GlyphSet.setStep_acts L E.F (gs, f.fs) c
  have hord := orderly_step hL E h.orderly (.set i c) (by rintro o ho; cases ho)
  have howns : ∀ j l, j < k → layers[j]? = some l → ∃ d, OwnsLayer (f.step E L (.set i c)).1 j l.name d ∧ (l.default = true ↔ d = c!"glyphs") ∧ FileText d := by
    intro j l hj hl
    obtain ⟨d, hod, h1, h2⟩ := h.owns j l hj hl
    exact ⟨d, (font_step_layer hL E h.orderly.sound hod (.set i c) (hleave j l d hj hl hod) (by rintro o hop; cases hop)).1, h1, h2⟩
  refine ⟨hord, ?_, ?_, ?_, ?_, howns, ?_⟩ <;> rw [hstep]
  · exact h.version
  · exact hacts.canon.trans h.canon_eq
  · simpa using h.length
  · exact h.keys
  · intro x p hx ha
    show (GlyphSet.setStep L E.F (gs, f.fs) c).1.2.node? (x :: p) = none
    rw [hacts.node? (x :: p)]
    · exact h.clean x p hx ha
    · rintro q ⟨g, rfl⟩ hp
      obtain ⟨t, ht⟩ := hp
      simp only [hdir, FS.key, List.cons_append, List.nil_append, List.map_cons, List.map_nil, List.cons.injEq] at ht
      exact ha _ _ ho.layer (h.orderly.sound.canon _ _ ht.1)

/-- What is known of the layers of a font. -/
structure LayersOK (layers : List Layer) : Prop where
  nodup : (layers.map (·.name)).Nodup
  text : ∀ l ∈ layers, FileText l.name
  one : ∀ (i j : Nat) (l m : Layer), layers[i]? = some l → layers[j]? = some m → l.default = true → m.default = true → i = j
  few : layers.length < 999999999999998

theorem dir_text {L : Casing} {layers : Dict Str Str} {n d : Str} {b : Bool} (hn : Dict.get? layers n = none) (h : layerDirectory L layers n b = .ok d) (ht : FileText n) : FileText d := by
  unfold layerDirectory at h
  rw [hn] at h
  dsimp only at h
  split at h
  · cases h
    exact ⟨by unfold XmlText; decide, by decide⟩
  · have hdig : ∀ c : Char, c.toNat < 128 → isDigit c = true → c ≠ '\r' ∧ XmlText [c] := GlyphSet.ascii_all (P := fun c => isDigit c = true → c ≠ '\r' ∧ XmlText [c]) (by unfold XmlText; decide)
    have hpre : ∀ c ∈ c!"glyphs._.", c ≠ '\r' ∧ XmlText [c] := by unfold XmlText; decide
    have hall : ∀ c ∈ d, c ≠ '\r' ∧ XmlText [c] := by
      intro c hc
      rcases Filenames.name_chars h c hc with hc | hc | hc | rfl | rfl | hc
      · exact hpre c (by clear * - hc; revert hc; revert c; decide)
      · cases hc
      · refine ⟨fun e => ht.2 (e ▸ hc), ?_⟩
        unfold XmlText
        intro x hx
        rw [List.mem_singleton.1 hx]
        exact ht.1 c hc
      · exact hpre _ (by decide)
      · exact hpre _ (by decide)
      · refine hdig c ?_ hc
        unfold isDigit at hc
        simp only [Bool.and_eq_true, decide_eq_true_eq] at hc
        have h9 : c.toNat ≤ '9'.toNat := hc.2
        exact Nat.lt_of_le_of_lt h9 (by decide)
    refine ⟨fun c hc => ?_, fun hc => (hall _ hc).1 rfl⟩
    have := (hall c hc).2
    unfold XmlText at this
    exact this c (by simp)

/-- The glyph set for the next layer. -/
theorem progress_get {L : Casing} (hL : AsciiPrefix L) (hlaw : L.Lawful) (E : FontInfo.Env) {canon : Str → Str} {layers : List Layer} {k : Nat} {f : Font}
    (h : Progress L canon layers k f) (hok : LayersOK layers) {l : Layer} (hl : layers[k]? = some l) (v : Bool) :
    (f.step E L (.getGlyphSet (some l.name) l.default v)).2 = .ok () ∧ Progress L canon layers (k + 1) (f.step E L (.getGlyphSet (some l.name) l.default v)).1 ∧
    ∃ d gs, OwnsLayer (f.step E L (.getGlyphSet (some l.name) l.default v)).1 k l.name d ∧ (f.step E L (.getGlyphSet (some l.name) l.default v)).1.sets[k]? = some gs ∧
      gs.dir = [d] ∧ gs.version = 3 ∧ (gs.contents = [] ∧ gs.existing = none ∧ gs.reverse = none) ∧
      ∀ x, (f.step E L (.getGlyphSet (some l.name) l.default v)).1.fs.node? [d, x] = none := by
  have hkl : k < layers.length := (List.getElem?_eq_some_iff.1 hl).1
  have hnone : Dict.get? f.writer.layers l.name = none := by
    rw [Dict.get?_eq_none_iff, h.keys]
    intro hm
    obtain ⟨j, hj, he⟩ := List.getElem_of_mem hm
    have hjk : j < k := by simp at hj; omega
    have h1 : (layers.map (·.name))[j]? = some l.name := by
      rw [← he, List.getElem_take]
      exact List.getElem?_eq_getElem _
    have h2 : (layers.map (·.name))[k]? = some l.name := by simp [hl]
    have := (List.getElem?_inj (i := j) (j := k) (by simp; omega) hok.nodup).1 (h1.trans h2.symm)
    omega
  -- every layer of the writer is one of the first
  have hentry : ∀ m y, Dict.get? f.writer.layers m = some y → ∃ j lj, j < k ∧ layers[j]? = some lj ∧ lj.name = m ∧ (lj.default = true ↔ y = c!"glyphs") := by
    intro m y hm
    have : m ∈ (layers.map (·.name)).take k := by rw [← h.keys]; exact Dict.mem_keys_of_mem (Dict.mem_of_get? hm)
    obtain ⟨j, hj, he⟩ := List.getElem_of_mem this
    have hjk : j < k := by simp at hj; omega
    have hjl : j < layers.length := by omega
    refine ⟨j, layers[j], hjk, List.getElem?_eq_getElem hjl, ?_, ?_⟩
    · rw [← he]; simp
    · obtain ⟨d, ho, h1, -⟩ := h.owns j layers[j] hjk (List.getElem?_eq_getElem hjl)
      have := ho.layer
      rw [show layers[j].name = m by rw [← he]; simp, hm] at this
      cases this
      exact h1
  have hconf : (l.default && defaultConflict f.writer.layers l.name) = false := by
    rw [Bool.and_eq_false_iff]
    cases hd : l.default with
    | false => exact .inl rfl
    | true =>
      right
      unfold defaultConflict
      rw [List.any_eq_false]
      rintro ⟨m, y⟩ he hp
      have hg := Dict.get?_of_mem h.orderly.sound.layered.wf he
      obtain ⟨j, lj, hj, hlj, hn, hdef⟩ := hentry m y hg
      dsimp only at hp
      split at hp
      · rename_i hy
        have := hok.one j k lj l hlj hl (hdef.2 hy) hd
        omega
      · simp only [decide_eq_true_eq] at hp
        rw [hp, hnone] at hg
        cases hg
  obtain ⟨d, hd, hdd⟩ : ∃ d, layerDirectory L f.writer.layers l.name l.default = .ok d ∧ (l.default = true ↔ d = c!"glyphs") := by
    unfold layerDirectory
    rw [hnone]
    dsimp only
    cases hdef : l.default with
    | true => exact ⟨_, rfl, by simp [glyphsName]⟩
    | false =>
      have hlen : ((Dict.values f.writer.layers).map L.lower).length < 999999999999998 := by
        have := congrArg List.length h.keys
        simp only [Dict.keys, Dict.values, List.length_map, List.length_take] at this ⊢
        have := hok.few
        omega
      obtain ⟨r, hr, -⟩ := C05_succeeds L hlaw l.name c!"glyphs." [] _ (.inr (by decide)) hlen
      refine ⟨r, by simpa using hr, ?_⟩
      obtain ⟨g, rfl, -⟩ := C03_legal L l.name c!"glyphs." [] r _ hr
      simp
  have hgd : GlyphsDir d := layerDirectory_dir h.orderly.sound.layered.dirs hd
  have hfresh : ∀ m y, Dict.get? f.writer.layers m = some y → L.lower y ≠ L.lower d := fun m y hm => by
    refine layerDirectory_fresh hL h.orderly.sound.layered h.orderly.sound.apart hconf hd (fun e => ?_) hm
    rw [e, hnone] at hm
    cases hm
  have hclean := h.clean d
  obtain ⟨fs', hmk⟩ := makedir_of (fs := f.fs) (p := [d]) (.inr (hclean [] hgd hfresh)) rfl
  obtain ⟨m1, m2, m3, m4, -⟩ := makedir_ok hmk
  have hin : ∀ x p, fs'.node? (d :: x :: p) = none := fun x p => by
    rw [m3 _ (by
      intro e
      have := congrArg List.length e
      simp [FS.key] at this)]
    exact hclean _ hgd hfresh
  have hs : getGlyphSet L E.F f.world (some l.name) l.default v = getGlyphSet3 L E.F f.world l.name l.default v := by
    unfold getGlyphSet
    rw [if_neg (by simp [Font.world, h.version]), if_neg (by simp), if_neg (by simp [Font.world, h.version])]
    rfl
  obtain ⟨gs, hopen, hg1, hg2, hg3, hg4, hg5⟩ : ∃ gs, GlyphSet.openGlyphSet E.F fs' [d] 3 v = .ok gs ∧ gs.dir = [d] ∧ gs.version = 3 ∧ gs.contents = [] ∧ gs.existing = none ∧ gs.reverse = none := by
    unfold GlyphSet.openGlyphSet
    rw [if_pos (by simp)]
    unfold GlyphSet.rebuildContents
    rw [show ([d] ++ [GlyphSet.contentsName] : Path) = [d, GlyphSet.contentsName] from rfl]
    rw [Ufo.getPlist_none (hin _ [])]
    simp only [GlyphSet.checkContents, GlyphSet.tableOf, List.any_nil, Bool.and_false, Bool.false_eq_true, if_false, List.foldl_nil]
    exact ⟨_, rfl, rfl, rfl, rfl, rfl, rfl⟩
  have hget : getGlyphSet3 L E.F f.world l.name l.default v = (({ f.writer with layers := Dict.set f.writer.layers l.name d }, fs'), .ok gs) := by
    unfold getGlyphSet3
    rw [if_neg (by rw [show f.world.1.layers = f.writer.layers from rfl, hconf]; simp)]
    simp only [Font.world, hd, hmk, hopen]
  have hstep : f.step E L (.getGlyphSet (some l.name) l.default v) = ({ writer := { f.writer with layers := Dict.set f.writer.layers l.name d }, fs := fs', sets := f.sets ++ [gs] }, .ok ()) := by
    simp only [Font.step, Font.getGlyphSet, hs, hget]
  have hord := orderly_step hL E h.orderly (.getGlyphSet (some l.name) l.default v) (by rintro o ho; cases ho)
  have hlen : f.sets.length = k := h.length
  have hown : OwnsLayer (f.step E L (.getGlyphSet (some l.name) l.default v)).1 k l.name d := by
    rw [hstep]
    exact ⟨⟨gs, by simp [← hlen], hg1⟩, Dict.get?_set_self _ _ _, m2⟩
  refine ⟨by rw [hstep], ⟨hord, ?_, ?_, ?_, ?_, fun i li hi hli => ?_, ?_⟩, d, gs, hown, ?_, hg1, hg2, ⟨hg3, hg4, hg5⟩, ?_⟩
  · rw [hstep]; exact h.version
  · rw [hstep]; exact m1.trans h.canon_eq
  · rw [hstep]; simp [hlen]
  · rw [hstep]
    dsimp only
    rw [Dict.keys_set_of_not_mem (by rw [← Dict.get?_eq_none_iff]; exact hnone), List.take_add_one]
    simp only [Dict.keys, List.map_append, List.map_cons, List.map_nil, List.getElem?_map, hl, Option.map_some, Option.toList_some]
    rw [← h.keys]
    rfl
  · rcases Nat.lt_succ_iff_lt_or_eq.1 hi with hi | rfl
    · obtain ⟨e, ho, h1, h2⟩ := h.owns i li hi hli
      exact ⟨e, (font_step_layer hL E h.orderly.sound ho (.getGlyphSet _ _ _) trivial (by rintro o hop; cases hop)).1, h1, h2⟩
    · rw [hl] at hli
      cases hli
      exact ⟨d, hown, hdd, dir_text hnone hd (hok.text l (List.mem_of_getElem? hl))⟩
  · rw [hstep]
    intro x p hx ha
    dsimp only at ha ⊢
    have hxd : L.lower d ≠ L.lower x := ha l.name d (Dict.get?_set_self _ _ _)
    rw [m3 _ (by
      intro e
      simp only [FS.key, List.map_cons, List.map_nil, List.cons.injEq] at e
      exact hxd (h.orderly.sound.canon _ _ e.1).symm)]
    refine h.clean x p hx fun m y hm => ?_
    refine ha m y ?_
    rw [Dict.get?_set, if_neg]
    · exact hm
    · rintro rfl
      rw [hnone] at hm
      cases hm
  · rw [hstep]; simp [← hlen]
  · rw [hstep]; exact fun x => hin x []

end Verif.Props
