import Verif.Proofs.GlyphTable
import Verif.Props.UfoData
import Verif.Props.GlifScan
import Verif.Props.GlyphSet
/-! Glyph sets of writers and readers: C62, C64, and C50 for glyph sets. -/
namespace Verif.Props
open Verif Verif.FS Verif.IO Verif.Ufo Verif.GlyphSet Verif.Spec.Ufo Verif.Spec.GlyphSet Verif.Spec.Glif Verif.Spec.Validators

/-! ### C64 -/

theorem rebuildContents_wf {F : FloatCodec} {gs gs' : GlyphSet} {fs : FS} {v : Bool} (h : rebuildContents F gs fs v = .ok gs') : Dict.WF gs'.contents := by
  have aux : ∀ (t d : Dict Str Str), Dict.WF d → Dict.WF (t.foldl (fun d e => Dict.set d e.1 e.2) d) := by
    intro t
    induction t with
    | nil => exact fun d h => h
    | cons e t ih => exact fun d h => ih _ (Dict.wf_set h _ _)
  unfold rebuildContents at h
  split at h
  · cases h
  · split at h
    · cases h
    · rename_i t ht
      cases h
      unfold checkContents at ht
      split at ht
      · split at ht
        · cases ht
        · split at ht
          · cases ht
          · cases ht; exact aux _ _ Dict.wf_nil
      · cases ht

theorem openGlyphSet_wf {F : FloatCodec} {fs : FS} {dir : Path} {version : Nat} {v : Bool} {gs : GlyphSet} (h : openGlyphSet F fs dir version v = .ok gs) :
    Dict.WF gs.contents := by
  unfold openGlyphSet at h
  split at h
  · exact rebuildContents_wf h
  · cases h

theorem readerGlyphSet_wf {F : FloatCodec} {fs : FS} {version : Int} {layer : Option Str} {v : Bool} {gs : GlyphSet}
    (h : readerGlyphSet F fs version layer v = .ok gs) : Dict.WF gs.contents := by
  unfold readerGlyphSet at h
  split at h
  · cases h
  · split at h
    · cases h
    · split at h
      · cases h
      · split at h
        · cases h
        · cases h
        · exact openGlyphSet_wf h

/-- The table of unicode values: the glyphs of the glyph set with the values found in their files. -/
theorem C64_table (w : GlyphSet.World) (table : Dict Str (List Int)) (h : getUnicodes w none = .ok table) :
    Dict.WF table ∧ ∀ n us, Dict.get? table n = some us ↔
      n ∈ GlyphSet.keys w.1 ∧ ∃ b tree, getGLIF w n = .ok b ∧ glifTree b = .ok tree ∧ Glif.fetchUnicodes tree = .ok us := by
  obtain ⟨h1, h2, h3⟩ := fetchAll_ok _ _ _ h
  refine ⟨h2 Dict.wf_nil, fun n us => ?_⟩
  rw [h3 n]
  have hnone : (none : Option (List Str)).getD (GlyphSet.keys w.1) = GlyphSet.keys w.1 := rfl
  rw [hnone]
  have hf : (fetchGlyph Glif.fetchUnicodes w n).toOption = some us ↔ ∃ b tree, getGLIF w n = .ok b ∧ glifTree b = .ok tree ∧ Glif.fetchUnicodes tree = .ok us := by
    unfold fetchGlyph
    cases hg : getGLIF w n with
    | error e => simp [Except.toOption]
    | ok b =>
      simp only [Except.ok.injEq, exists_eq_left']
      cases ht : glifTree b with
      | error e => simp [ht, Except.toOption]
      | ok tree =>
        cases hfu : Glif.fetchUnicodes tree <;> simp [ht, hfu, Except.toOption]
  by_cases hn : n ∈ GlyphSet.keys w.1
  · rw [if_pos hn, hf]; simp [hn]
  · rw [if_neg hn]; simp [hn]

/-- The character mapping of a layer is the inverse of its table of unicode values: under every code are the names of exactly those glyphs that
have it, each once, and codes that no glyph has are not there. -/
theorem C64_inverse (F : FloatCodec) (fs : FS) (version : Int) (layer : Option Str) (v : Bool) (cmap : Dict Int (List Str))
    (h : getCharacterMapping F fs version layer v = .ok cmap) :
    ∃ gs table, readerGlyphSet F fs version layer v = .ok gs ∧ getUnicodes (gs, fs) none = .ok table ∧ Dict.WF cmap ∧
      (∀ code names, Dict.get? cmap code = some names → names ≠ [] ∧ names.Nodup) ∧
      ∀ code n, (∃ names, Dict.get? cmap code = some names ∧ n ∈ names) ↔ ∃ us, Dict.get? table n = some us ∧ code ∈ us := by
  unfold getCharacterMapping at h
  split at h
  · cases h
  · rename_i gs hgs
    split at h
    · cases h
    · rename_i table ht
      cases h
      obtain ⟨hw, hspec⟩ := C64_table _ _ ht
      obtain ⟨h1, h2, h3⟩ := characterMap_spec table hw (fun e he => by
        obtain ⟨-, b, tree, -, -, h⟩ := (hspec e.1 e.2).1 (Dict.get?_of_mem hw he)
        exact Glif.fetchUnicodes_nodup h)
      refine ⟨gs, table, hgs, ht, h1, h2, fun code n => ?_⟩
      rw [← h3 code n]
      cases Dict.get? (characterMap table) code <;> simp

/-- The texts of the glyphs for the example. -/
def glif64 (codes : List Str) : Bytes :=
  utf8 (c!"<?xml version=\"1.0\" encoding=\"UTF-8\"?>\n<glyph name=\"x\" format=\"2\">\n" ++ (codes.flatMap fun c => c!"  <unicode hex=\"" ++ c ++ c!"\"/>\n") ++ c!"</glyph>")

/-- A UFO with three glyphs, two of which have the same code. -/
def ufo64 : FS :=
  let w := (run env57 asciiCasing new60 [.glyphSet none true true, .layerContents none true]);
  (GlyphSet.run asciiCasing fractionCodec ({ dir := [c!"glyphs"], contents := [], existing := none, reverse := none, havePrevious := false, version := 3, validateRead := true }, w.2)
    [put51 c!"A" (glif64 [c!"0041", c!"0391", c!"0041"]), put51 c!"Alpha" (glif64 [c!"0391"]), put51 c!"b" (glif64 []), .save]).2

example : (getCharacterMapping fractionCodec ufo64 3 none true).toOption = some [(0x41, [c!"A"]), (0x391, [c!"A", c!"Alpha"])] := by decide +kernel

/-! ### C50 for glyph sets -/

/-- The rapid parsers give for a glyph of a glyph set what `readGlyph` delivers. Missing: as in `C50_unicodes_partial`. -/
theorem C50_glyphSet_partial (E : Glif.Env) (w : GlyphSet.World) (n : Str) (attrs : Dict Str PyVal) (calls : List Glif.Call)
    (h : readGlyph E w n true true true = .ok (attrs, calls))
    (hn : ∀ b tree, getGLIF w n = .ok b → glifTree b = .ok tree → NoNestedGlyph tree ∧ DistinctAttributes tree) :
    (∃ us, getUnicodes w (some [n]) = .ok [(n, us)] ∧ listItems (delivered attrs c!"unicodes") = us.map fun i => PyVal.int i) ∧
    (∃ bs, getComponentReferences w (some [n]) = .ok [(n, bs)] ∧ calls.flatMap callBase = bs.map PyVal.str) ∧
    ((getImageReferences w (some [n]) = .ok [(n, none)] ∧ delivered attrs c!"image" = .none) ∨
      ∃ f d, getImageReferences w (some [n]) = .ok [(n, some f)] ∧ delivered attrs c!"image" = .dict d ∧ Field d c!"fileName" (.str f)) := by
  unfold readGlyph at h
  cases hg : getGLIF w n with
  | error e => rw [hg] at h; cases h
  | ok b =>
    rw [hg] at h
    dsimp only at h
    cases ht : glifTree b with
    | error e => rw [ht] at h; cases h
    | ok tree =>
      rw [ht] at h
      dsimp only at h
      obtain ⟨hn1, hn2⟩ := hn b tree hg ht
      have hf : ∀ {α : Type} (fetch : Elem → Except Exc α) (v : α), fetch tree = .ok v → fetchAll fetch w [] [n] = .ok [(n, v)] := by
        intro α fetch v hv
        have : fetchGlyph fetch w n = .ok v := by simp [fetchGlyph, hg, ht, hv]
        simp [fetchAll, this, Dict.set]
      refine ⟨?_, ?_, ?_⟩
      · obtain ⟨us, h1, h2⟩ := C50_unicodes_partial E _ tree attrs calls h hn1
        exact ⟨us, hf _ _ h1, h2⟩
      · obtain ⟨us, h1, h2⟩ := C50_components_partial E _ tree attrs calls h hn1
        exact ⟨us, hf _ _ h1, h2⟩
      · rcases C50_image_partial E _ tree attrs calls hn2 h hn1 with ⟨h1, h2⟩ | ⟨f, d, h1, h2, h3⟩
        · exact .inl ⟨hf _ _ h1, h2⟩
        · exact .inr ⟨f, d, hf _ _ h1, h2, h3⟩

/-! ### C62 -/

/-- A UFO of format version 1 can write no glyphs at all: `getGlyphSet` always raises. -/
theorem C62_refuted (L : Casing) (F : FloatCodec) (w : Ufo.World) (hv : w.1.version = 1) (layer : Option Str) (default v : Bool) (gs : GlyphSet) :
    (getGlyphSet L F w layer default v).2 ≠ .ok gs := by
  unfold getGlyphSet
  split
  · exact nofun
  · split
    · exact nofun
    · rw [if_pos (by omega)]
      unfold getGlyphSet12
      split
      · exact nofun
      · rw [if_pos hv]; exact nofun

/-- It does so on every UFO that can be opened. -/
example : ∃ w fs, openWriter fractionCodec false fs57 1 (.str c!"me") true = (fs, .ok w) ∧ (getGlyphSet asciiCasing fractionCodec (w, fs) none true true).2.toOption.isNone = true :=
  ⟨_, _, by rfl, by rfl⟩

theorem defaultLayerOf_spec (layers : Dict Str Str) : ∀ (n0 : Str),
    (layers.foldl (fun n e => if e.2 = glyphsName then e.1 else n) n0 = n0 ∧ ∀ e ∈ layers, e.2 ≠ glyphsName) ∨
    (layers.foldl (fun n e => if e.2 = glyphsName then e.1 else n) n0, glyphsName) ∈ layers := by
  induction layers with
  | nil => exact fun n0 => .inl ⟨rfl, by simp⟩
  | cons e layers ih =>
    intro n0
    rw [List.foldl_cons]
    rcases ih (if e.2 = glyphsName then e.1 else n0) with ⟨h1, h2⟩ | h
    · by_cases he : e.2 = glyphsName
      · right
        rw [h1, if_pos he]
        rw [← he]; exact List.mem_cons_self
      · left
        rw [h1, if_neg he]
        exact ⟨rfl, List.forall_mem_cons.2 ⟨he, h2⟩⟩
    · exact .inr (List.mem_cons_of_mem _ h)

/-- The layer used for `None` is fit to be the default layer. -/
theorem default_fits {layers : Dict Str Str} (hw : Dict.WF layers)
    (hu : ∀ n m, Dict.get? layers n = some c!"glyphs" → Dict.get? layers m = some c!"glyphs" → n = m)
    (hp : ∀ d, Dict.get? layers c!"public.default" = some d → ∃ n, Dict.get? layers n = some c!"glyphs") :
    defaultConflict layers (defaultLayerOf layers) = false ∧
      (Dict.get? layers (defaultLayerOf layers) = some c!"glyphs" ∨ Dict.get? layers (defaultLayerOf layers) = none) := by
  have hne : ∀ e ∈ layers, Dict.get? layers e.1 = some e.2 := fun e he => Dict.get?_of_mem hw he
  rcases defaultLayerOf_spec layers defaultLayerName with ⟨h1, h2⟩ | h
  · have hnone : Dict.get? layers (defaultLayerOf layers) = none := by
      have : defaultLayerOf layers = c!"public.default" := h1
      rw [this]
      cases hc : Dict.get? layers c!"public.default" with
      | none => rfl
      | some d =>
        obtain ⟨n, hn⟩ := hp d hc
        exact absurd rfl (h2 _ (Dict.mem_of_get? hn))
    refine ⟨?_, .inr hnone⟩
    unfold defaultConflict
    rw [List.any_eq_false]
    intro e he
    rw [if_neg (h2 e he)]
    simp only [decide_eq_true_eq]
    intro h
    have := hne e he
    rw [h, hnone] at this
    cases this
  · have hd : Dict.get? layers (defaultLayerOf layers) = some c!"glyphs" := Dict.get?_of_mem hw h
    refine ⟨?_, .inl hd⟩
    unfold defaultConflict
    rw [List.any_eq_false]
    intro e he
    split
    · rename_i hg
      have := hne e he
      rw [hg] at this
      simpa using hu _ _ this hd
    · rename_i hg
      simp only [decide_eq_true_eq]
      intro hn
      have := hne e he
      rw [hn, hd] at this
      exact hg (Option.some.inj this).symm

/-- A new glyph set in a directory. -/
theorem openGlyphSet_new {F : FloatCodec} {fs : FS} {dir : Path} {version : Nat} (hv : version = 2 ∨ version = 3) (v : Bool) (hc : fs.node? (dir ++ [c!"contents.plist"]) = none) :
    openGlyphSet F fs dir version v = .ok { dir := dir, contents := [], existing := none, reverse := none, havePrevious := false, version := version, validateRead := v } := by
  unfold openGlyphSet
  rw [if_pos (by omega)]
  unfold rebuildContents
  have hg : fs.getbytes (dir ++ [contentsName]) = .error .resourceNotFound := by
    unfold getbytes
    rw [show contentsName = c!"contents.plist" from rfl, hc]
  have he : fs.exists (dir ++ [contentsName]) = false := by
    unfold FS.exists
    rw [show contentsName = c!"contents.plist" from rfl, hc]; rfl
  simp [getPlist, hg, he, checkContents, tableOf]

theorem writeGlyph_new {L : Casing} {naming : Naming} {fs : FS} {gs : GlyphSet} {n f : Str} {d : Bytes} (hv : gs.version = 2 ∨ gs.version = 3)
    (hgs : gs.contents = [] ∧ gs.existing = none) (hn : naming n [] = .ok f) (hdir : fs.node? gs.dir = some .dir) (hf : fs.node? (gs.dir ++ [f]) ≠ some .dir) :
    (writeGlyph L naming (gs, fs) n none (fun _ => .ok d)).2 = .ok () ∧ getGLIF (writeGlyph L naming (gs, fs) n none (fun _ => .ok d)).1 n = .ok d := by
  have hok : (writeGlyph L naming (gs, fs) n none (fun _ => .ok d)).2 = .ok () := by
    obtain ⟨v, hgv⟩ : ∃ v, glifVersion gs none = .ok v := by
      unfold glifVersion
      rcases hv with h | h <;> rw [h] <;> exact ⟨_, rfl⟩
    have ha : (assignFile L naming gs n).2 = .ok f ∧ (assignFile L naming gs n).1.dir = gs.dir := by
      unfold assignFile
      simp [hgs.1, hgs.2, Dict.get?_nil, existingOf, Dict.values, hn]
    rcases hga : assignFile L naming gs n with ⟨gs', r⟩
    rw [hga] at ha
    obtain ⟨rfl, ha2⟩ := ha
    unfold writeGlyph
    rw [hgv]
    dsimp only
    rw [hga]
    dsimp only
    unfold storeGlyph
    split
    · rfl
    · rw [setbytes_of d (by rw [List.dropLast_concat, show gs'.dir = gs.dir from ha2]; exact hdir) (by rw [ha2]; exact hf)]
  refine ⟨hok, ?_⟩
  obtain ⟨h1, -, -, -, -, h6⟩ := writeGlyph_spec (L := L) (naming := naming) (w := (gs, fs)) (n := n) (fv := none) (data := fun _ => .ok d)
    (w' := (writeGlyph L naming (gs, fs) n none (fun _ => .ok d)).1) (r := (writeGlyph L naming (gs, fs) n none (fun _ => .ok d)).2) rfl
  rcases h6 with ⟨-, g, d', hd', hg, -, hb, -⟩ | ⟨h, -⟩
  · cases hd'
    unfold getGLIF
    rw [hg, h1]
    dsimp only at hb ⊢
    rw [hb]
  · exact absurd hok h

/-- For the versions 2 and 3 `getGlyphSet()` returns a glyph set for the directory `glyphs`, in which glyphs can be written and read: when there is
nothing in the way, no glyph has been stored in the directory before (else see C55), and (in version 3) there is at most one default layer,
and there is one if a layer is called `public.default`.
Missing from the full claim: version 1 (`C62_refuted`), and a UFO 3 in which only another layer is called `public.default` (`C62_refuted_name`). -/
theorem C62_partial (L : Casing) (F : FloatCodec) (w : Ufo.World) (hv : w.1.version = 2 ∨ w.1.version = 3)
    (hdir : ∀ b, w.2.node? [c!"glyphs"] ≠ some (.file b)) (hc : w.2.node? [c!"glyphs", c!"contents.plist"] = none)
    (hw : Dict.WF w.1.layers) (hu : ∀ n m, Dict.get? w.1.layers n = some c!"glyphs" → Dict.get? w.1.layers m = some c!"glyphs" → n = m)
    (hp : ∀ d, Dict.get? w.1.layers c!"public.default" = some d → ∃ n, Dict.get? w.1.layers n = some c!"glyphs") (v : Bool) :
    ∃ gs, (getGlyphSet L F w none true v).2 = .ok gs ∧ gs.dir = [c!"glyphs"] ∧ GlyphSet.keys gs = [] ∧ (gs.version : Int) = w.1.version ∧
      ∀ naming n f d, naming n [] = .ok f → w.2.node? [c!"glyphs", f] ≠ some .dir →
        let r := writeGlyph L naming (gs, (getGlyphSet L F w none true v).1.2) n none (fun _ => .ok d)
        r.2 = .ok () ∧ getGLIF r.1 n = .ok d := by
  have hmk : ∃ fs', w.2.makedir [glyphsName] = .ok fs' := makedir_of (by
    cases hn : w.2.node? [glyphsName] with
    | none => exact .inr rfl
    | some n => cases n with
      | dir => exact .inl rfl
      | file b => exact absurd hn (hdir b)) (by simp [node?])
  obtain ⟨fs', hfs⟩ := hmk
  obtain ⟨k1, k2, k3, -⟩ := makedir_ok hfs
  have hother : ∀ f, fs'.node? [glyphsName, f] = w.2.node? [glyphsName, f] := fun f => k3 _ (fun h => by
    have := congrArg List.length h
    simp [FS.key] at this)
  have key : ∃ version : Nat, (version : Int) = w.1.version ∧ (version = 2 ∨ version = 3) ∧ (getGlyphSet L F w none true v).2 = openGlyphSet F fs' [glyphsName] version v ∧
      (getGlyphSet L F w none true v).1.2 = fs' := by
    rcases hv with hv | hv
    · refine ⟨2, hv.symm, .inl rfl, ?_⟩
      unfold getGlyphSet
      rw [if_neg (by simp), if_neg (by simp), if_pos (by omega)]
      unfold getGlyphSet12
      rw [hfs]
      simp [hv]
    · refine ⟨3, hv.symm, .inr rfl, ?_⟩
      unfold getGlyphSet
      rw [if_neg (by simp), if_neg (by simp), if_neg (by omega)]
      obtain ⟨c1, c2⟩ := default_fits hw hu hp
      have hl : layerDirectory L w.1.layers (defaultLayerOf w.1.layers) true = .ok glyphsName := by
        unfold layerDirectory
        rcases c2 with c2 | c2 <;> rw [c2] <;> rfl
      unfold getGlyphSet3
      simp [c1, hl, hfs]
  obtain ⟨version, e1, e2, e3, e4⟩ := key
  have hopen := openGlyphSet_new (F := F) (fs := fs') (dir := [glyphsName]) e2 v ((hother _).trans hc)
  refine ⟨_, e3.trans hopen, rfl, rfl, e1, fun naming n f d hn hf => ?_⟩
  rw [e4]
  exact writeGlyph_new e2 ⟨rfl, rfl⟩ hn k2 (by rw [show [glyphsName] ++ [f] = [glyphsName, f] from rfl, hother]; exact hf)

/-- A new UFO of each version. -/
example : let w := (fun v : Int => match openWriter fractionCodec false fs57 v (.str c!"me") true with
      | (fs, .ok w) => ((w, fs) : Ufo.World)
      | (fs, .error _) => (⟨0, [], false, true, none⟩, fs));
    (w 2).1.version = 2 ∧ (w 3).1.version = 3 ∧ (w 3).1.layers = [] ∧ (w 3).2.node? [c!"glyphs"] = none ∧
    ((getGlyphSet asciiCasing fractionCodec (w 3) none true true).2.toOption.map fun gs =>
      (getGLIF (writeGlyph asciiCasing (defaultNaming asciiCasing) (gs, (getGlyphSet asciiCasing fractionCodec (w 3) none true true).1.2) c!"A" none (fun _ => .ok [1])).1 c!"A").toOption)
        = some (some [1]) := by decide +kernel

/-- If the first layer of a new UFO is called `public.default` without being made the default layer, `getGlyphSet()` raises. -/
theorem C62_refuted_name : let w := run env57 asciiCasing new60 [.glyphSet (some c!"public.default") false true];
    w.1.layers = [(c!"public.default", c!"glyphs.public.default")] ∧ (getGlyphSet asciiCasing fractionCodec w none true true).2.toOption.isNone = true := by decide +kernel

end Verif.Props
