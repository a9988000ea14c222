import Verif.Proofs.CrashGlyphs
import Verif.Props.UfoData
import Verif.Props.GlyphSet
import Verif.Model.Images
/-! A process that stops in the middle of a call: C82 (the calls of a writer) and C83 (the calls of a glyph set). -/
namespace Verif.Props
open Verif Verif.FS Verif.Ufo Verif.Spec.FS Verif.Spec.Ufo Verif.Spec.Crash Verif.Crash

/-! ### C82 -/

/-- When the process stops in the middle of a call, every entry of the UFO that the call is not about is exactly as it was before the call. -/
theorem C82_call (E : FontInfo.Env) (L : Casing) (w : World) (hwf : Dict.WF w.1.layers) (hl : LayerDirs w.1.layers) (op : Op) (left : FS)
    (hs : StoppedBetween w.2 (step E L w op).1.2 left) (c : Str) (hc : Spares w.2.canon c op) (p : Path) :
    left.node? (c :: p) = w.2.node? (c :: p) :=
  stopped_entry ⟨hwf, hl⟩ hs hc p

/-- The same for the last call of a history: everything that the call is not about is as the earlier calls left it. -/
theorem C82_history (E : FontInfo.Env) (L : Casing) (hp : Bool) (fs fs' : FS) (version : Int) (creator : PyVal) (w : Writer)
    (h : openWriter E.F hp fs version creator true = (fs', .ok w)) (pre : List Op) (op : Op) (left : FS)
    (hs : StoppedBetween (run E L (w, fs') pre).2 (run E L (w, fs') (pre ++ [op])).2 left) (c : Str) (hc : Spares fs'.canon c op) (p : Path) :
    left.node? (c :: p) = (run E L (w, fs') pre).2.node? (c :: p) := by
  obtain ⟨-, l1, a1⟩ := run_spec E L pre (w, fs') (openWriter_layered h)
  rw [run_append] at hs
  exact stopped_entry l1 hs (by rw [a1.canon]; exact hc) p

/-- What a reader finds: everything but what the interrupted call is about is delivered as before the call. -/
theorem C82_reads (E : FontInfo.Env) (L : Casing) (w : World) (hwf : Dict.WF w.1.layers) (hl : LayerDirs w.1.layers) (op : Op) (left : FS)
    (hs : StoppedBetween w.2 (step E L w op).1.2 left) (version : Int) (b : Bool) :
    (Spares w.2.canon c!"metainfo.plist" op → readMetaInfo E.F left b = readMetaInfo E.F w.2 b) ∧
    (Spares w.2.canon c!"fontinfo.plist" op → Ufo.readInfo E left version b = Ufo.readInfo E w.2 version b) ∧
    (Spares w.2.canon c!"lib.plist" op → readLib E.F left b = readLib E.F w.2 b) ∧
    (Spares w.2.canon c!"groups.plist" op → readGroups3 E.F left b = readGroups3 E.F w.2 b) ∧
    (Spares w.2.canon c!"kerning.plist" op → readKerning3 E.F left b = readKerning3 E.F w.2 b) ∧
    (Spares w.2.canon c!"features.fea" op → readFeatures left = readFeatures w.2) ∧
    (Spares w.2.canon c!"images" op → ∀ n, readImage left version n b = readImage w.2 version n b) ∧
    ∀ d, Spares w.2.canon d op → GlyphSet.openGlyphSet E.F left [d] version.toNat b = GlyphSet.openGlyphSet E.F w.2 [d] version.toNat b ∧
      ∀ gs n, gs.dir = [d] → GlyphSet.getGLIF (gs, left) n = GlyphSet.getGLIF (gs, w.2) n := by
  have hn := fun c hc => stopped_entry (E := E) (L := L) (w := w) ⟨hwf, hl⟩ hs (c := c) hc
  refine ⟨fun h => ?_, fun h => ?_, fun h => ?_, fun h => ?_, fun h => ?_, fun h => ?_, fun h n => ?_, fun d h => ⟨?_, fun gs n hd => ?_⟩⟩
  · unfold readMetaInfo; rw [getPlist_congr (p := [metainfoName]) (hn _ h [])]
  · unfold Ufo.readInfo; rw [getPlist_congr (p := [fontinfoName]) (hn _ h [])]
  · unfold readLib; rw [getPlist_congr (p := [libName]) (hn _ h [])]
  · unfold readGroups3; rw [getPlist_congr (p := [groupsName]) (hn _ h [])]
  · unfold readKerning3; rw [getPlist_congr (p := [kerningName]) (hn _ h [])]
  · unfold readFeatures FS.getbytes; rw [show left.node? [featuresName] = w.2.node? [featuresName] from hn _ h []]
  · unfold readImage FS.getbytes; rw [show left.node? [imagesName] = w.2.node? [imagesName] from hn _ h [], show left.node? [imagesName, n] = w.2.node? [imagesName, n] from hn _ h [n]]
  · exact openGlyphSet_congr E.F (hn d h) _ _
  · unfold GlyphSet.getGLIF FS.getbytes
    simp only [hd, List.cons_append, hn d h]

/-- The layers can be listed as before, unless the call is about the table of layers or may remove the directory of a layer. -/
theorem C82_layers_partial (E : FontInfo.Env) (L : Casing) (w : World) (hwf : Dict.WF w.1.layers) (hl : LayerDirs w.1.layers) (op : Op) (left : FS)
    (hs : StoppedBetween w.2 (step E L w op).1.2 left) (hk : KeepsLayers w.2.canon op) (version : Int) (b : Bool) (t : List (Str × Str))
    (h : readLayers E.F w.2 version b = .ok t) : readLayers E.F left version b = .ok t := by
  have htab : Spares w.2.canon c!"layercontents.plist" op := by
    cases hk with
    | aside t _ => exact t
    | within _ t => exact t
    | glyphSet t => exact t
  unfold readLayers at h ⊢
  split
  · rename_i hv; rw [if_pos hv] at h; exact h
  · rename_i hv
    rw [if_neg hv] at h
    exact readLayerTable_mono (stopped_entry ⟨hwf, hl⟩ hs htab []) (fun d hd he => stopped_layerDir ⟨hwf, hl⟩ hs hk hd he) h

/-- A UFO 3 with two layers and a lib. -/
def ufo82 : World := run env57 asciiCasing new60
  [.glyphSet none true true, .glyphSet (some c!"fore") false true, .layerContents none true, .lib (.dict [(.str c!"a", .int 1)]) true]

example : (readLayers fractionCodec ufo82.2 3 true).toOption = some [(c!"public.default", c!"glyphs"), (c!"fore", c!"glyphs.fore")] ∧
    (readLib fractionCodec ufo82.2 true).toOption = some (.dict [(.str c!"a", .int 1)]) := by decide +kernel

example : KeepsLayers id (.lib (.dict []) true) := by
  refine .aside ?_ fun d hd => ?_
  · intro c hc; cases hc; decide
  · intro c hc; cases hc
    rcases hd with rfl | ⟨r, rfl⟩
    · decide
    · simp

/-- When the process stops while groups.plist is being written, the UFO can still be opened, and the lib and the layers are read. -/
example (left : FS) (g : Dict Str (List Str)) (hs : StoppedBetween ufo82.2 (step env57 asciiCasing ufo82 (.groups g true)).1.2 left) :
    (readMetaInfo fractionCodec left true).toOption = some 3 ∧ (readLib fractionCodec left true).toOption = some (.dict [(.str c!"a", .int 1)]) := by
  have hc : ufo82.2.canon = id := by rfl
  have h := C82_reads env57 asciiCasing ufo82 (by unfold Dict.WF; decide +kernel) ?_ (.groups g true) left hs 3 true
  · rw [hc] at h
    refine ⟨?_, ?_⟩
    · rw [show readMetaInfo fractionCodec left true = _ from h.1 (by intro c hc; cases hc; decide)]; decide +kernel
    · rw [show readLib fractionCodec left true = _ from h.2.2.1 (by intro c hc; cases hc; decide)]; decide +kernel
  · have hl : ufo82.1.layers = [(c!"public.default", c!"glyphs"), (c!"fore", c!"glyphs.fore")] := by decide +kernel
    intro n d h
    rw [hl] at h
    simp only [Dict.get?] at h
    split at h
    · cases h; exact .inl rfl
    · split at h
      · cases h; exact .inr ⟨c!"fore", rfl⟩
      · cases h

/-- The full claim fails for calls that remove the directory of a layer: when the process stops after `deleteGlyphSet` (or `renameGlyphSet`) and before
`writeLayerContents`, the layers cannot be listed, and a writer that could repair the table cannot be opened either. -/
theorem C82_refuted_delete :
    (∃ left, StoppedBetween ufo82.2 (step env57 asciiCasing ufo82 (.delete (some c!"fore"))).1.2 left ∧
      (readLayers fractionCodec left 3 true).toOption = none ∧ (openWriter fractionCodec true left 3 (.str c!"me") true).2.toOption.isNone = true) ∧
    ∃ left, StoppedBetween ufo82.2 (step env57 asciiCasing ufo82 (.rename (some c!"fore") (some c!"back") false)).1.2 left ∧
      (readLayers fractionCodec left 3 true).toOption = none ∧ (openWriter fractionCodec true left 3 (.str c!"me") true).2.toOption.isNone = true := by
  refine ⟨⟨_, ⟨(step env57 asciiCasing ufo82 (.delete (some c!"fore"))).1.2.log.drop ufo82.2.log.length, ?_, .between 5⟩, ?_⟩,
    ⟨_, ⟨(step env57 asciiCasing ufo82 (.rename (some c!"fore") (some c!"back") false)).1.2.log.drop ufo82.2.log.length, ?_, .between 5⟩, ?_⟩⟩ <;> decide +kernel

/-- Writing is not atomic: when the process stops while lib.plist is being written, the lib can be neither the old nor the new one. -/
theorem C82_torn_lib : ∃ left, StoppedBetween ufo82.2 (step env57 asciiCasing ufo82 (.lib (.dict [(.str c!"b", .int 2)]) true)).1.2 left ∧
    (readLib fractionCodec left true).toOption = none := by
  refine ⟨_, ⟨(step env57 asciiCasing ufo82 (.lib (.dict [(.str c!"b", .int 2)]) true)).1.2.log.drop ufo82.2.log.length, ?_, .between 1⟩, ?_⟩ <;> decide +kernel

/-! ### C83 -/

open Verif.GlyphSet Verif.Spec.GlyphSet

theorem getGLIF_congr {gs : GlyphSet.GlyphSet} {a b : FS} {m : Str} (h : ∀ f, Dict.get? gs.contents m = some f → a.node? (gs.dir ++ [f]) = b.node? (gs.dir ++ [f])) :
    getGLIF (gs, a) m = getGLIF (gs, b) m := by
  unfold getGLIF FS.getbytes
  dsimp only
  cases hm : Dict.get? gs.contents m with
  | none => rfl
  | some f => dsimp only; rw [h f hm]

/-- When the process stops in the middle of `writeGlyph` or `deleteGlyph`, every other glyph of the glyph set is exactly as before, as are the table
and the layer info, as long as the file system keeps the files of the glyphs apart. -/
theorem C83_glyph (L : Casing) (F : FloatCodec) (w : GlyphSet.World) (op : GlyphSet.Op) (n : Str) (hop : IsAbout n op) (left : FS)
    (hs : StoppedBetween w.2 (GlyphSet.step L F w op).1.2 left)
    (hd : Distinct w.2.canon w.1.contents) (hd' : Distinct w.2.canon (GlyphSet.step L F w op).1.1.contents) :
    (∀ m, m ≠ n → getGLIF (w.1, left) m = getGLIF w m) ∧
    ∀ f, Avoids w.2.canon f w.1.contents → Avoids w.2.canon f (GlyphSet.step L F w op).1.1.contents →
      left.node? (w.1.dir ++ [f]) = w.2.node? (w.1.dir ++ [f]) := by
  have ha := about_acts (L := L) (F := F) (w := w) hop
  refine ⟨fun m hm => getGLIF_congr fun g hg => stopped_node? ha hs _ ?_, fun f h1 h2 => stopped_node? ha hs _ ?_⟩
  · rintro k ⟨f, hf, rfl⟩ hk
    have hfg := key_snoc_prefix hk
    rcases hf with hf | hf
    · exact hm (hd m n g f hg hf hfg.symm)
    · exact hm (hd' m n g f ((about_contents hop m hm).trans hg) hf hfg.symm)
  · rintro k ⟨g, hg, rfl⟩ hk
    have hfg := key_snoc_prefix hk
    rcases hg with hg | hg
    · exact h1 n g hg hfg
    · exact h2 n g hg hfg

/-- When the process stops in the middle of `writeContents` or `writeLayerInfo`, no glyph is changed; `writeLayerInfo` does not change the table either. -/
theorem C83_save (L : Casing) (F : FloatCodec) (w : GlyphSet.World) (left : FS) :
    (StoppedBetween w.2 (GlyphSet.step L F w .save).1.2 left → Avoids w.2.canon c!"contents.plist" w.1.contents → ∀ m, getGLIF (w.1, left) m = getGLIF w m) ∧
    ∀ info validate, StoppedBetween w.2 (writeLayerInfo F w info validate).1.2 left →
      (Avoids w.2.canon c!"layerinfo.plist" w.1.contents → ∀ m, getGLIF (w.1, left) m = getGLIF w m) ∧
      (w.2.canon c!"contents.plist" ≠ w.2.canon c!"layerinfo.plist" →
        left.node? (w.1.dir ++ [c!"contents.plist"]) = w.2.node? (w.1.dir ++ [c!"contents.plist"])) := by
  refine ⟨fun hs hav m => getGLIF_congr fun g hg => ?_, fun info validate hs => ⟨fun hav m => getGLIF_congr fun g hg => ?_, fun hne => ?_⟩⟩
  · refine stopped_node? (P := (· = w.2.key (w.1.dir ++ [contentsName]))) (IO.writePlist_acts F _ _ _ _) hs _ ?_
    rintro k rfl hk
    exact hav m g hg (key_snoc_prefix hk).symm
  · refine stopped_node? (writeLayerInfo_frame F w info validate).2 hs _ ?_
    rintro k rfl hk
    exact hav m g hg (key_snoc_prefix hk).symm
  · refine stopped_node? (writeLayerInfo_frame F w info validate).2 hs _ ?_
    rintro k rfl hk
    exact hne (key_snoc_prefix hk).symm

/-- What a history led to is what is found when the process stops in the middle of the next call: every glyph that the call is not about has the
text last written. The glyph set is new, names have own files that differ ignoring case, and the default naming function is used. -/
theorem C83_history_partial (L : Casing) (hL : CaseLaws L.lower) (F : FloatCodec) (N : Str → Prop) (hN : OwnFiles L.lower N) (fs : FS)
    (gs : GlyphSet.GlyphSet) (hcanon : ∀ a b, fs.canon a = fs.canon b → L.lower a = L.lower b)
    (hempty : gs.contents = [] ∧ gs.existing = none ∧ gs.reverse = none) (pre : List GlyphSet.Op) (op : GlyphSet.Op) (n : Str) (hop : IsAbout n op)
    (hops : ∀ o ∈ pre ++ [op], ∀ v, o ≠ .rebuild v)
    (hn : ∀ o ∈ pre ++ [op], ∀ naming m fv data, o = .write naming m fv data → naming = defaultNaming L ∧ N m)
    (left : FS) (hs : StoppedBetween (GlyphSet.run L F (gs, fs) pre).2 (GlyphSet.run L F (gs, fs) (pre ++ [op])).2 left) (m : Str) (hm : m ≠ n) :
    Expects (getGLIF ((GlyphSet.run L F (gs, fs) pre).1, left) m) (Status.absent.history m (calls L F (gs, fs) pre)) := by
  have hrun : ∀ (l : List GlyphSet.Op) (w : GlyphSet.World), GlyphSet.run L F w (l ++ [op]) = (GlyphSet.step L F (GlyphSet.run L F w l) op).1 := by
    intro l
    induction l with
    | nil => exact fun _ => rfl
    | cons o l ih => exact fun w => ih _
  have hcan : (GlyphSet.run L F (gs, fs) pre).2.canon = fs.canon := by
    have : ∀ (l : List GlyphSet.Op) (w : GlyphSet.World), (GlyphSet.run L F w l).2.canon = w.2.canon := by
      intro l
      induction l with
      | nil => exact fun _ => rfl
      | cons o l ih => exact fun w => (ih _).trans step_canon
    exact this pre (gs, fs)
  have h1 := (C52_own_partial L hL F N hN (gs, fs) pre hempty (fun o ho => hops o (by simp [ho])) fun o ho => hn o (by simp [ho])).1
  have h2 := (C52_own_partial L hL F N hN (gs, fs) (pre ++ [op]) hempty hops hn).1
  rw [hrun] at hs h2
  have hdist : ∀ {t : Dict Str Str}, Distinct L.lower t → Distinct (GlyphSet.run L F (gs, fs) pre).2.canon t := fun h a b f g ha hb hab =>
    h a b f g ha hb (hcanon _ _ (by rw [hcan] at hab; exact hab))
  rw [(C83_glyph L F _ op n hop left hs (hdist h1) (hdist h2)).1 m hm]
  exact C51_default_partial L hL F N hN fs gs pre hcanon hempty (fun o ho => hops o (by simp [ho])) (fun o ho => hn o (by simp [ho])) m

/-- A program that writes glyphs into a directory whose table was saved, and is stopped anywhere: the directory can be opened as it could be when the table was
saved, with the same table, and every glyph that was not written since is found exactly as it was. Missing from the full claim: deletions and stopping
while the table is being written, for which it is false (`C55_refuted_delete`, `C55_refuted_save`). -/
theorem C83_reopen_partial (L : Casing) (F : FloatCodec) (w : GlyphSet.World) (ops : List GlyphSet.Op)
    (hops : ∀ op ∈ ops, ∃ naming n fv data, op = .write naming n fv data)
    (hd : Distinct w.2.canon (GlyphSet.run L F w ops).1.contents) (hav : Avoids w.2.canon c!"contents.plist" (GlyphSet.run L F w ops).1.contents)
    (left : FS) (hs : StoppedBetween w.2 (GlyphSet.run L F w ops).2 left)
    (version : Nat) (validate : Bool) (gs : GlyphSet.GlyphSet) (hopen : openGlyphSet F w.2 w.1.dir version validate = .ok gs)
    (hsaved : Dict.Equiv gs.contents w.1.contents) :
    openGlyphSet F left w.1.dir version validate = .ok gs ∧
    ∀ m, (∀ op ∈ ops, ¬ IsAbout m op) → getGLIF (gs, left) m = getGLIF (gs, w.2) m := by
  obtain ⟨-, h2, -, acts, h4, h5⟩ := writes_acts (L := L) (F := F) ops w hops
  have ha : Acts (fun k => ∃ n f, (∃ op ∈ ops, IsAbout n op) ∧ Dict.get? (GlyphSet.run L F w ops).1.contents n = some f ∧ k = w.2.key (w.1.dir ++ [f])) w.2
      (GlyphSet.run L F w ops).2 := by
    refine ⟨acts, h4, fun a ha p hp => ?_⟩
    obtain ⟨n, f, d, hn, hf, rfl⟩ := h5 a ha
    simp only [Prim.paths, List.mem_singleton] at hp
    exact ⟨n, f, hn, hf, hp⟩
  have hex := stopped_writes ⟨acts, h4, fun a ha => (by obtain ⟨n, f, d, -, -, h⟩ := h5 a ha; exact ⟨_, _, h⟩)⟩ hs
  have hdir : gs.dir = w.1.dir := by
    unfold openGlyphSet rebuildContents at hopen
    split at hopen
    · split at hopen
      · cases hopen
      · split at hopen
        · cases hopen
        · cases hopen; rfl
    · cases hopen
  refine ⟨?_, fun m hm => getGLIF_congr fun g hg => stopped_node? ha hs _ ?_⟩
  · have hc : left.node? (w.1.dir ++ [contentsName]) = w.2.node? (w.1.dir ++ [contentsName]) := by
      refine stopped_node? ha hs _ ?_
      rintro k ⟨n, f, -, hf, rfl⟩ hk
      exact hav n f hf (key_snoc_prefix hk)
    exact openGlyphSet_mono hc (fun f hq => hex _ hq) hopen
  · rintro k ⟨n, f, ⟨op, ho, hn⟩, hf, rfl⟩ hk
    rw [hdir] at hk
    have hfg := key_snoc_prefix hk
    have hm' : Dict.get? (GlyphSet.run L F w ops).1.contents m = some g := (h2 m hm).trans ((hsaved m).symm.trans hg)
    obtain rfl := hd m n g f hm' hf hfg.symm
    exact hm op ho hn

/-- While the glyph B is written to the example directory, the process stops in the middle of the file: A and a are as they were, and the directory can be opened. -/
example : ∃ left, StoppedBetween saved55.2 (GlyphSet.run asciiCasing fractionCodec saved55 [put51 c!"B" [3, 4], put51 c!"A" [5]]).2 left ∧
    left.getbytes [c!"glyphs", c!"B_.glif"] = .ok [3] ∧
    (openGlyphSet fractionCodec left [c!"glyphs"] 3 true).toOption.map (fun gs => (getGLIF (gs, left) c!"A", getGLIF (gs, left) c!"a")) = some (.ok [1], .ok [2]) := by
  refine ⟨(performAll saved55.2 []).perform (.write [c!"glyphs", c!"B_.glif"] [3]),
    ⟨(GlyphSet.run asciiCasing fractionCodec saved55 [put51 c!"B" [3, 4], put51 c!"A" [5]]).2.log.drop saved55.2.log.length, ?_,
      .during (a := .write [c!"glyphs", c!"B_.glif"] [3, 4]) 0 ?_ rfl (.write ⟨[3], ?_⟩ fun k hk => ?_)⟩, ?_⟩
  · decide +kernel
  · decide +kernel
  · exact Dict.get?_set_self _ _ _
  · exact Dict.get?_set_ne _ _ (Ne.symm hk)
  · decide +kernel

example : Distinct id (GlyphSet.run asciiCasing fractionCodec saved55 [put51 c!"B" [3, 4], put51 c!"A" [5]]).1.contents ∧
    Avoids id c!"contents.plist" (GlyphSet.run asciiCasing fractionCodec saved55 [put51 c!"B" [3, 4], put51 c!"A" [5]]).1.contents := by
  have h : (GlyphSet.run asciiCasing fractionCodec saved55 [put51 c!"B" [3, 4], put51 c!"A" [5]]).1.contents =
    [(c!"A", c!"A_.glif"), (c!"a", c!"a.glif"), (c!"B", c!"B_.glif")] := by decide +kernel
  rw [h]
  have hall : ∀ e ∈ [(c!"A", c!"A_.glif"), (c!"a", c!"a.glif"), (c!"B", c!"B_.glif")], e.2 ≠ c!"contents.plist" ∧
      ∀ e' ∈ [(c!"A", c!"A_.glif"), (c!"a", c!"a.glif"), (c!"B", c!"B_.glif")], e.2 = e'.2 → e.1 = e'.1 := by decide
  exact ⟨fun n m f g hf hg he => (hall _ (Dict.mem_of_get? hf)).2 _ (Dict.mem_of_get? hg) he, fun n g hg => (hall _ (Dict.mem_of_get? hg)).1⟩

/-- The full claim fails when two glyphs are given the same file (cf. `C52_refuted`): stopping while one is written damages the other. -/
theorem C83_refuted : let w := (GlyphSet.run asciiCasing fractionCodec new51 [put51 c!"A*" [1]]);
    getGLIF w c!"A*" = .ok [1] ∧ ∃ left, StoppedBetween w.2 (GlyphSet.step asciiCasing fractionCodec w (put51 c!"A_" [2, 3])).1.2 left ∧
      getGLIF (w.1, left) c!"A*" = .ok [2] := by
  intro w
  refine ⟨by rfl, (performAll w.2 []).perform (.write [c!"glyphs", c!"A__.glif"] [2]),
    ⟨(GlyphSet.step asciiCasing fractionCodec w (put51 c!"A_" [2, 3])).1.2.log.drop w.2.log.length, ?_,
      .during (a := .write [c!"glyphs", c!"A__.glif"] [2, 3]) 0 ?_ rfl (.write ⟨[2], ?_⟩ fun k hk => ?_)⟩, ?_⟩
  · decide +kernel
  · decide +kernel
  · exact Dict.get?_set_self _ _ _
  · exact Dict.get?_set_ne _ _ (Ne.symm hk)
  · rfl

end Verif.Props
