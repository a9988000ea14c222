import Verif.Proofs.Acts
import Verif.Props.Filenames
import Verif.Spec.Ufo
/-! The mutations made by the calls on a writer. -/
namespace Verif.Ufo
open Verif Verif.IO Verif.FS Verif.Spec.Ufo Verif.Filenames

theorem along_of_cons {fs : FS} {c : Str} {p k : Path} (h : Along fs (c :: p) k) : ∃ r, k = fs.canon c :: r := by
  obtain ⟨⟨t, ht⟩, h2⟩ := h
  cases k with
  | nil => exact absurd (h2 rfl) (by simp)
  | cons a k =>
    simp only [FS.key, List.map_cons, List.cons_append, List.cons.injEq] at ht
    exact ⟨k, by rw [ht.1]⟩

theorem along_dropLast {fs : FS} {p k : Path} (h : k <+: fs.key p.dropLast ∧ k ≠ []) : Along fs p k := by
  refine ⟨h.1.trans ?_, fun e => absurd e h.2⟩
  exact (List.dropLast_prefix p).map _

theorem writeBytesToPath_acts (hp : Bool) (fs : FS) (p : Path) (d : Bytes) : Acts (Along fs p) fs (writeBytesToPath hp fs p d).1 := by
  have hs : ∀ k, k = fs.key p → Along fs p k := fun k hk => hk ▸ along_self fs p
  unfold writeBytesToPath
  split
  · exact .refl
  · split
    · rename_i h; exact (setbytes_acts h).mono hs
    · exact .refl
    · split
      · exact .refl
      · rename_i fs1 h1
        have a1 := (makedirs_acts h1).mono fun k => along_dropLast (p := p)
        split
        · exact a1
        · rename_i fs2 h2
          have a2 := setbytes_acts h2
          rw [a1.key] at a2
          exact a1.trans (a2.mono hs)
    · exact .refl

theorem removeEmpty_acts : ∀ (rev : List Str) (fs : FS),
    Acts (fun k => k <+: fs.key rev.reverse ∧ k ≠ []) fs (removeEmpty fs rev).1
  | [], _ => .refl
  | c :: rest, fs => by
    unfold removeEmpty
    split
    · exact .refl
    · exact .refl
    · rename_i fs1 h1
      have a1 : Acts (fun k => k <+: fs.key (c :: rest).reverse ∧ k ≠ []) fs fs1 := (removedir_acts h1).mono fun k hk => by
        subst hk
        exact ⟨by simp, key_ne_nil (by simp)⟩
      refine a1.trans ((removeEmpty_acts rest fs1).mono ?_)
      rintro k ⟨hk, h0⟩
      rw [a1.key] at hk
      exact ⟨hk.trans (by simp [FS.key]), h0⟩

theorem removeNode_acts (fs : FS) (p : Path) (force : Bool) : Acts (· = fs.key p) fs (removeNode fs p force).1 := by
  unfold removeNode
  split
  · rename_i h; exact remove_acts h
  · split
    · rename_i h; exact removetree_acts h
    · exact .refl
  · split <;> exact .refl
  · exact .refl

theorem removePath_acts (fs : FS) (p : Path) (force re : Bool) : Acts (Along fs p) fs (removePath fs p force re).1 := by
  have a0 := (removeNode_acts fs p force).mono (Q := Along fs p) fun k hk => hk ▸ along_self fs p
  unfold removePath
  split
  · rename_i fs1 e h
    rw [h] at a0; exact a0
  · rename_i fs1 h
    rw [h] at a0
    split
    · refine a0.trans ((removeEmpty_acts _ fs1).mono ?_)
      rintro k ⟨hk, h0⟩
      rw [a0.key, List.reverse_reverse] at hk
      exact along_dropLast ⟨hk, h0⟩
    · exact a0

theorem copyTree_acts (q : Path) : ∀ (l : List (Path × Node)) (fs : FS), Acts (fun k => fs.key q <+: k) fs (l.foldl (copyEntry q) fs)
  | [], _ => .refl
  | e :: l, fs => by
    have a1 : Acts (fun k => fs.key q <+: k) fs (copyEntry q fs e) := by
      unfold copyEntry
      split <;> exact .single _ (by simp [Prim.paths, FS.key])
    have a2 := copyTree_acts q l (copyEntry q fs e)
    rw [List.foldl_cons]
    refine a1.trans (a2.mono ?_)
    intro k hk
    rwa [a1.key] at hk

theorem copyFromReader_acts (src fs : FS) (p q : Path) :
    Acts (fun k => q ≠ [] ∧ (Along fs q k ∨ fs.key q <+: k)) fs (copyFromReader src fs p q).1 := by
  unfold copyFromReader
  split
  · exact .refl
  · split
    · exact .refl
    · rename_i hex
      have hq : q ≠ [] := by
        rintro rfl
        exact hex rfl
      have hs : ∀ k, k = fs.key q → q ≠ [] ∧ (Along fs q k ∨ fs.key q <+: k) := fun k hk => ⟨hq, .inl (hk ▸ along_self fs q)⟩
      split
      · exact .refl
      · rename_i fs1 h1
        have a1 : Acts (fun k => q ≠ [] ∧ (Along fs q k ∨ fs.key q <+: k)) fs fs1 :=
          (makedirs_acts h1).mono fun k hk => ⟨hq, .inl (along_dropLast hk)⟩
        split
        · split
          · exact a1
          · rename_i fs2 h2
            have a2 := setbytes_acts h2
            rw [a1.key] at a2
            exact a1.trans (a2.mono hs)
        · split
          · exact a1
          · rename_i fs2 h2
            have a2 := makedir_acts h2
            rw [a1.key] at a2
            have a3 := a1.trans (a2.mono hs)
            refine a3.trans ((copyTree_acts q _ fs2).mono ?_)
            intro k hk
            rw [a3.key] at hk
            exact ⟨hq, .inr hk⟩

/-! ### layers -/

theorem layerDirs_set {layers : Dict Str Str} (h : LayerDirs layers) {n d : Str} (hd : GlyphsDir d) : LayerDirs (Dict.set layers n d) := by
  intro m e hm
  rw [Dict.get?_set] at hm
  split at hm
  · cases hm; exact hd
  · exact h m e hm

theorem layerDirs_erase {layers : Dict Str Str} (h : LayerDirs layers) (n : Str) : LayerDirs (Dict.erase layers n) := by
  intro m e hm
  rw [Dict.get?_erase] at hm
  split at hm
  · cases hm
  · exact h m e hm

theorem glyphsDir_generated {L : Casing} {u r : Str} {ex : List Str} (h : userNameToFileName L u ex c!"glyphs." [] = .ok r) : GlyphsDir r := by
  obtain ⟨g, hg, -⟩ := Props.C03_legal L u _ _ r ex h
  exact .inr ⟨g, by simpa using hg⟩

theorem layerDirectory_dir {L : Casing} {layers : Dict Str Str} (h : LayerDirs layers) {n d : Str} {b : Bool}
    (hd : layerDirectory L layers n b = .ok d) : GlyphsDir d := by
  unfold layerDirectory at hd
  split at hd
  · rename_i e he
    cases hd; exact h _ _ he
  · split at hd
    · cases hd; exact .inl rfl
    · exact glyphsDir_generated hd

theorem renameDirectory_dir {L : Casing} {layers : Dict Str Str} {n d : Str} {b : Bool} (hd : renameDirectory L layers n b = .ok d) : GlyphsDir d := by
  unfold renameDirectory at hd
  split at hd
  · cases hd; exact .inl rfl
  · exact glyphsDir_generated hd

/-- What `_findDirectoryForLayerName` finds is the directory of a layer (of the given name, if one is given). -/
theorem findDirectory_mem {layers : Dict Str Str} {n : Option Str} {d : Str} (h : findDirectory layers n = .ok d) :
    ∃ m, (m, d) ∈ layers ∧ (n = none ∧ d = glyphsName ∨ n = some m) := by
  unfold findDirectory at h
  split at h
  · cases h
  · rename_i e he
    split at h
    · cases h
    · cases h
      have h1 := List.mem_of_find?_eq_some he
      have h2 := List.find?_some he
      exact ⟨e.1, h1, by simpa using h2⟩

/-- The layers as a list: names are unique. -/
structure Layered (w : Writer) : Prop where
  wf : Dict.WF w.layers
  dirs : LayerDirs w.layers

theorem findDirectory_dir {w : Writer} (h : Layered w) {n : Option Str} {d : Str} (hd : findDirectory w.layers n = .ok d) : GlyphsDir d := by
  obtain ⟨m, hm, -⟩ := findDirectory_mem hd
  exact h.dirs m d (Dict.get?_of_mem h.wf hm)

/-- `setMaps` and the other calls leave these attributes alone. -/
structure SameWriter (a b : Writer) : Prop where
  version : b.version = a.version
  previous : b.havePrevious = a.havePrevious
  validate : b.validate = a.validate

theorem SameWriter.rfl' (a : Writer) : SameWriter a a := ⟨rfl, rfl, rfl⟩

/-- Concerned entries, or the whole UFO. -/
def Within (op : Op) (canon : Str → Str) (k : Path) : Prop := (∃ c r, Concerns op c ∧ k = canon c :: r) ∨ ∀ c, Concerns op c

theorem within_key {op : Op} {fs : FS} {c : Str} {p : Path} (hc : Concerns op c) {k : Path} (hk : k = fs.key (c :: p)) : Within op fs.canon k :=
  .inl ⟨c, fs.key p, hc, hk⟩

theorem within_along {op : Op} {fs : FS} {c : Str} {p : Path} (hc : Concerns op c) {k : Path} (hk : Along fs (c :: p) k) : Within op fs.canon k := by
  obtain ⟨r, hr⟩ := along_of_cons hk
  exact .inl ⟨c, r, hc, hr⟩

theorem writeOrRemove_acts (F : FloatCodec) (w : World) (name : Str) (empty : Bool) (v : PyVal) :
    Acts (Along w.2 [name]) w.2 (writeOrRemove F w name empty v).1.2 ∧ (writeOrRemove F w name empty v).1.1 = w.1 := by
  unfold writeOrRemove
  split
  · exact ⟨(writePlist_acts F _ _ _ _).mono fun k hk => hk ▸ along_self _ _, rfl⟩
  · split
    · exact ⟨removePath_acts _ _ _ _, rfl⟩
    · exact ⟨.refl, rfl⟩

theorem getGlyphSet3_spec (L : Casing) (F : FloatCodec) (w : World) (hl : Layered w.1) (n : Str) (d v : Bool) :
    SameWriter w.1 (getGlyphSet3 L F w n d v).1.1 ∧ (getGlyphSet3 L F w n d v).1.1.renameMap = w.1.renameMap ∧ Layered (getGlyphSet3 L F w n d v).1.1 ∧
    Acts (fun k => ∃ c, GlyphsDir c ∧ k = w.2.key [c]) w.2 (getGlyphSet3 L F w n d v).1.2 := by
  unfold getGlyphSet3
  split
  · exact ⟨.rfl' _, rfl, hl, .refl⟩
  · split
    · exact ⟨.rfl' _, rfl, hl, .refl⟩
    · rename_i dir hdir
      split
      · exact ⟨.rfl' _, rfl, hl, .refl⟩
      · rename_i fs h
        have hd := layerDirectory_dir hl.dirs hdir
        exact ⟨⟨rfl, rfl, rfl⟩, rfl, ⟨Dict.wf_set hl.wf _ _, layerDirs_set hl.dirs hd⟩, (makedir_acts h).mono fun k hk => ⟨dir, hd, hk⟩⟩

theorem getGlyphSet_spec (L : Casing) (F : FloatCodec) (w : World) (hl : Layered w.1) (n : Option Str) (d v : Bool) :
    SameWriter w.1 (getGlyphSet L F w n d v).1.1 ∧ (getGlyphSet L F w n d v).1.1.renameMap = w.1.renameMap ∧ Layered (getGlyphSet L F w n d v).1.1 ∧
    Acts (fun k => ∃ c, GlyphsDir c ∧ k = w.2.key [c]) w.2 (getGlyphSet L F w n d v).1.2 := by
  unfold getGlyphSet
  split
  · exact ⟨.rfl' _, rfl, hl, .refl⟩
  · split
    · exact ⟨.rfl' _, rfl, hl, .refl⟩
    · split
      · unfold getGlyphSet12
        split
        · exact ⟨.rfl' _, rfl, hl, .refl⟩
        · rename_i fs h
          have a := (makedir_acts h).mono (Q := fun k => ∃ c, GlyphsDir c ∧ k = w.2.key [c]) fun k hk => ⟨glyphsName, .inl rfl, hk⟩
          split <;> exact ⟨.rfl' _, rfl, hl, a⟩
      · exact getGlyphSet3_spec L F w hl _ d v

theorem renameGlyphSet_spec (L : Casing) (w : World) (hl : Layered w.1) (n m : Option Str) (d : Bool) :
    SameWriter w.1 (renameGlyphSet L w n m d).1.1 ∧ (renameGlyphSet L w n m d).1.1.renameMap = w.1.renameMap ∧ Layered (renameGlyphSet L w n m d).1.1 ∧
    Acts (fun k => ∃ c, GlyphsDir c ∧ k = w.2.key [c]) w.2 (renameGlyphSet L w n m d).1.2 := by
  unfold renameGlyphSet
  split
  · exact ⟨.rfl' _, rfl, hl, .refl⟩
  · split
    · exact ⟨.rfl' _, rfl, hl, .refl⟩
    · exact ⟨.rfl' _, rfl, hl, .refl⟩
    · split
      · exact ⟨.rfl' _, rfl, hl, .refl⟩
      · rename_i old hold
        split
        · exact ⟨.rfl' _, rfl, hl, .refl⟩
        · rename_i new hnew
          have h1 := findDirectory_dir hl hold
          have h2 := renameDirectory_dir hnew
          split
          · exact ⟨.rfl' _, rfl, hl, .refl⟩
          · refine ⟨⟨rfl, rfl, rfl⟩, rfl, ⟨Dict.wf_set (Dict.wf_erase hl.wf _) _ _, layerDirs_set (layerDirs_erase hl.dirs _) h2⟩, ?_⟩
            refine (movedir_acts _ _ _).mono fun k hk => ?_
            rcases hk with hk | hk
            · exact ⟨old, h1, hk⟩
            · exact ⟨new, h2, hk⟩

theorem deleteGlyphSet_spec (w : World) (hl : Layered w.1) (n : Option Str) :
    SameWriter w.1 (deleteGlyphSet w n).1.1 ∧ (deleteGlyphSet w n).1.1.renameMap = w.1.renameMap ∧ Layered (deleteGlyphSet w n).1.1 ∧
    Acts (fun k => ∃ c, GlyphsDir c ∧ Along w.2 [c] k) w.2 (deleteGlyphSet w n).1.2 := by
  unfold deleteGlyphSet
  split
  · exact ⟨.rfl' _, rfl, hl, .refl⟩
  · split
    · exact ⟨.rfl' _, rfl, hl, .refl⟩
    · rename_i dir hdir
      have hd := findDirectory_dir hl hdir
      have a := (removePath_acts w.2 [dir] false false).mono (Q := fun k => ∃ c, GlyphsDir c ∧ Along w.2 [c] k) fun k hk => ⟨dir, hd, hk⟩
      split
      · rename_i fs e h
        rw [h] at a
        exact ⟨.rfl' _, rfl, hl, a⟩
      · rename_i fs h
        rw [h] at a
        split
        · exact ⟨.rfl' _, rfl, hl, a⟩
        · split
          · exact ⟨⟨rfl, rfl, rfl⟩, rfl, ⟨Dict.wf_erase hl.wf _, layerDirs_erase hl.dirs _⟩, a⟩
          · exact ⟨.rfl' _, rfl, hl, a⟩

/-- One call: it keeps the version, `LayerDirs` and everything that does not concern it. -/
theorem step_spec (E : FontInfo.Env) (L : Casing) (w : World) (hl : Layered w.1) (op : Op) :
    SameWriter w.1 (step E L w op).1.1 ∧ ((∀ a b, op ≠ .maps a b) → (step E L w op).1.1.renameMap = w.1.renameMap) ∧ Layered (step E L w op).1.1 ∧
    Acts (Within op w.2.canon) w.2 (step E L w op).1.2 := by
  have hplain : ∀ {w' : World} {c : Str} {p : Path}, w'.1 = w.1 → Concerns op c → Acts (Along w.2 (c :: p)) w.2 w'.2 →
      SameWriter w.1 w'.1 ∧ ((∀ a b, op ≠ .maps a b) → w'.1.renameMap = w.1.renameMap) ∧ Layered w'.1 ∧ Acts (Within op w.2.canon) w.2 w'.2 := by
    intro w' c p h1 h2 h3
    rw [h1]
    exact ⟨.rfl' _, fun _ => rfl, hl, h3.mono fun k hk => within_along h2 hk⟩
  have hnone : ∀ {w' : World}, w' = w →
      SameWriter w.1 w'.1 ∧ ((∀ a b, op ≠ .maps a b) → w'.1.renameMap = w.1.renameMap) ∧ Layered w'.1 ∧ Acts (Within op w.2.canon) w.2 w'.2 := by
    rintro w' rfl
    exact ⟨.rfl' _, fun _ => rfl, hl, .refl⟩
  have hwr : ∀ (F : FloatCodec) (name : Str) (empty : Bool) (v : PyVal), Concerns op name →
      SameWriter w.1 (writeOrRemove F w name empty v).1.1 ∧ ((∀ a b, op ≠ .maps a b) → (writeOrRemove F w name empty v).1.1.renameMap = w.1.renameMap) ∧
      Layered (writeOrRemove F w name empty v).1.1 ∧ Acts (Within op w.2.canon) w.2 (writeOrRemove F w name empty v).1.2 := by
    intro F name empty v hc
    obtain ⟨h1, h2⟩ := writeOrRemove_acts F w name empty v
    exact hplain h2 hc h1
  cases op with
  | maps a b =>
    simp only [step, setMaps]
    split
    · exact ⟨.rfl' _, fun _ => rfl, hl, .refl⟩
    · exact ⟨⟨rfl, rfl, rfl⟩, fun h => absurd rfl (h a b), ⟨hl.wf, hl.dirs⟩, .refl⟩
  | info i v =>
    simp only [step, writeInfo]
    split
    · exact hnone rfl
    · exact hplain (c := fontinfoName) (p := []) rfl .info ((writePlist_acts E.F _ _ _ _).mono fun k hk => hk ▸ along_self _ _)
  | lib l v =>
    simp only [step, writeLib]
    split
    · exact hnone rfl
    · exact hwr _ _ _ _ .lib
  | groups g v =>
    simp only [step, writeGroups]
    split
    · exact hnone rfl
    · exact hwr _ _ _ _ .groups
  | kerning g v =>
    simp only [step, writeKerning]
    split
    · exact hnone rfl
    · exact hwr _ _ _ _ .kerning
  | features s =>
    simp only [step, writeFeatures]
    split
    · exact hnone rfl
    · split
      · exact hplain (c := featuresName) (p := []) rfl .features (writeBytesToPath_acts _ _ _ _)
      · split
        · exact hplain (c := featuresName) (p := []) rfl .features (removePath_acts _ _ _ _)
        · exact hnone rfl
  | glyphSet n d v =>
    obtain ⟨h1, h2, h3, h4⟩ := getGlyphSet_spec L E.F w hl n d v
    exact ⟨h1, fun _ => h2, h3, h4.mono fun k ⟨c, hc, hk⟩ => within_key (.glyphSet hc) hk⟩
  | rename n m d =>
    obtain ⟨h1, h2, h3, h4⟩ := renameGlyphSet_spec L w hl n m d
    exact ⟨h1, fun _ => h2, h3, h4.mono fun k ⟨c, hc, hk⟩ => within_key (.rename hc) hk⟩
  | delete n =>
    obtain ⟨h1, h2, h3, h4⟩ := deleteGlyphSet_spec w hl n
    exact ⟨h1, fun _ => h2, h3, h4.mono fun k ⟨c, hc, hk⟩ => within_along (.delete hc) hk⟩
  | layerContents o v =>
    simp only [step, writeLayerContents]
    split
    · exact hnone rfl
    · split
      · exact hnone rfl
      · split
        · exact hnone rfl
        · exact hplain (c := layercontentsName) (p := []) rfl .layerContents ((writePlist_acts E.F _ _ _ _).mono fun k hk => hk ▸ along_self _ _)
  | image n d v =>
    simp only [step, writeImage]
    split
    · exact hnone rfl
    · split
      · exact hnone rfl
      · exact hplain rfl .image (writeBytesToPath_acts _ _ _ _)
  | removeImage n =>
    simp only [step, removeImage]
    split
    · exact hnone rfl
    · exact hplain rfl .removeImage (removePath_acts _ _ _ _)
  | bytes p d =>
    unfold step
    cases p with
    | nil =>
      refine hnone (w' := (w.1, (writeBytesToPath w.1.havePrevious w.2 [] d).1)) ?_
      have : ∀ hp, writeBytesToPath hp w.2 [] d = (w.2, .error .ufoLibError) := by
        intro hp
        simp [writeBytesToPath, unchanged, getbytes, FS.node?, setbytes]
      rw [this]
    | cons c p => exact hplain (w' := (w.1, (writeBytesToPath w.1.havePrevious w.2 (c :: p) d).1)) rfl .bytes (writeBytesToPath_acts _ _ _ _)
  | remove p f e =>
    unfold step
    cases p with
    | nil => exact ⟨.rfl' _, fun _ => rfl, hl, (removePath_acts _ _ _ _).mono fun k _ => .inr fun c => .removeRoot⟩
    | cons c p => exact hplain (w' := (w.1, (removePath w.2 (c :: p) f e).1)) rfl .remove (removePath_acts _ _ _ _)
  | copy s p q =>
    unfold step
    refine ⟨.rfl' _, fun _ => rfl, hl, (copyFromReader_acts _ _ _ _).mono fun k ⟨h0, hk⟩ => ?_⟩
    cases q with
    | nil => exact absurd rfl h0
    | cons c q =>
      rcases hk with hk | ⟨t, hk⟩
      · exact within_along .copy hk
      · exact .inl ⟨c, w.2.key q ++ t, .copy, by simp [← hk, FS.key]⟩
  | copyImage s n m =>
    simp only [step, copyImageFromReader]
    split
    · exact hnone rfl
    · refine ⟨.rfl' _, fun _ => rfl, hl, (copyFromReader_acts _ _ _ _).mono fun k ⟨h0, hk⟩ => ?_⟩
      rcases hk with hk | ⟨t, hk⟩
      · exact within_along .copyImage hk
      · exact .inl ⟨imagesName, w.2.key [m] ++ t, .copyImage, by simp [← hk, FS.key]⟩
  | glyph gs op =>
    refine ⟨.rfl' _, fun _ => rfl, hl, (GlyphSet.step_acts L E.F (gs, w.2) op).mono fun k ⟨f, hk⟩ => ?_⟩
    cases hd : gs.dir with
    | nil => exact .inr fun c => .glyphRoot hd
    | cons c p =>
      dsimp only at hk
      rw [hd] at hk
      exact .inl ⟨c, w.2.key (p ++ [f]), .glyph (by rw [hd]; rfl), by rw [hk]; rfl⟩
  | layerInfo gs i v =>
    refine ⟨.rfl' _, fun _ => rfl, hl, (GlyphSet.writeLayerInfo_frame E.F (gs, w.2) i v).2.mono fun k hk => ?_⟩
    cases hd : gs.dir with
    | nil => exact .inr fun c => .layerInfoRoot hd
    | cons c p =>
      dsimp only at hk
      rw [hd] at hk
      exact .inl ⟨c, w.2.key (p ++ [GlyphSet.layerinfoName]), .layerInfo (by rw [hd]; rfl), by rw [hk]; rfl⟩

/-- A history: no entry changes that no call concerns. -/
theorem run_spec (E : FontInfo.Env) (L : Casing) (ops : List Op) : ∀ (w : World), Layered w.1 →
    SameWriter w.1 (run E L w ops).1 ∧ Layered (run E L w ops).1 ∧ Acts (fun k => ∃ op ∈ ops, Within op w.2.canon k) w.2 (run E L w ops).2 := by
  induction ops with
  | nil => exact fun w hl => ⟨.rfl' _, hl, .refl⟩
  | cons op ops ih =>
    intro w hl
    obtain ⟨h1, -, h2, h3⟩ := step_spec E L w hl op
    obtain ⟨g1, g2, g3⟩ := ih _ h2
    refine ⟨⟨g1.1.trans h1.1, g1.2.trans h1.2, g1.3.trans h1.3⟩, g2, (h3.mono fun k hk => ⟨op, by simp, hk⟩).trans (g3.mono ?_)⟩
    rintro k ⟨o, ho, hk⟩
    rw [h3.canon] at hk
    exact ⟨o, by simp [ho], hk⟩

theorem acts_node? {P : Path → Prop} {fs fs' : FS} (h : Acts P fs fs') {S : Str → Prop} (hP : ∀ k, P k → (∃ c r, S c ∧ k = fs.canon c :: r) ∨ ∀ c, S c)
    {c : Str} (hc : ∀ d, S d → fs.canon d ≠ fs.canon c) (p : Path) : fs'.node? (c :: p) = fs.node? (c :: p) := by
  refine h.node? _ fun k hk ⟨t, ht⟩ => ?_
  rcases hP k hk with ⟨d, r, hd, rfl⟩ | h
  · simp only [FS.key, List.map_cons, List.cons_append, List.cons.injEq] at ht
    exact hc d hd ht.1
  · exact hc c (h c) rfl

end Verif.Ufo
