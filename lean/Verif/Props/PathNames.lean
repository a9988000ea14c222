import Verif.Proofs.PathNamesFrame
/-! Path strings: C103. -/
namespace Verif.Props
open Verif Verif.FS Verif.IO Verif.Ufo Verif.GlyphSet Verif.PathNames Verif.Spec.PathNames Verif.Validators

/-! ### files -/

/-- A string that at no point takes more steps up than down leads to exactly one place, made of names. -/
theorem C103_leads (s : Str) : (Stays s ↔ ∃ p, Leads s p) ∧ (∀ p q, Leads s p → Leads s q → p = q) ∧ ∀ p, Leads s p → ∀ c ∈ p, Name c := by
  refine ⟨?_, fun p q hp hq => ?_, fun p hp => resolve_names ((resolve_iff s p).2 hp)⟩
  · rw [stays_iff]
    exact exists_congr fun p => resolve_iff s p
  · rw [← resolve_iff] at hp hq
    rw [hp] at hq
    exact Option.some.inj hq

/-- A path given as a string stands for the place it leads to: what is there is read, after a successful writing it holds the data, after a successful removal there is nothing,
and other files are as before. -/
theorem C103_files (havePrevious : Bool) (fs : FS) (s : Str) (p : Path) (h : Leads s p) (data : Bytes) (force removeEmptyParents : Bool) :
    readBytesAt fs s = readBytesFromPath fs p ∧
    ((writeBytesAt havePrevious fs s data).2 = .ok () → readBytesAt (writeBytesAt havePrevious fs s data).1 s = .ok (some data)) ∧
    (∀ q d, q.map fs.canon ≠ p.map fs.canon → ((writeBytesAt havePrevious fs s data).1.getbytes q = .ok d ↔ fs.getbytes q = .ok d)) ∧
    (p ≠ [] → (removeAt fs s force removeEmptyParents).2 = .ok () → (removeAt fs s force removeEmptyParents).1.exists p = false) ∧
    (p ≠ [] → ∀ q d, ¬ p.map fs.canon <+: q.map fs.canon → ((removeAt fs s force removeEmptyParents).1.getbytes q = .ok d ↔ fs.getbytes q = .ok d)) := by
  rw [← resolve_iff] at h
  refine ⟨by unfold readBytesAt; rw [h], fun hok => ?_, fun q d hq => ?_, fun hp hok => ?_, fun hp q d hq => ?_⟩
  · unfold readBytesAt
    rw [h]
    dsimp only
    unfold readBytesFromPath
    rw [writeBytesAt_written h hok]
  · unfold writeBytesAt
    rw [h]
    dsimp only
    split
    · rfl
    · split
      · rename_i h1; exact (setbytes_files h1).2.2.1 q d hq
      · rfl
      · split
        · rfl
        · rename_i fs1 h1
          have h2 := makedirs_files h1 q d
          split
          · exact h2
          · rename_i h3
            rw [← h2]
            refine (setbytes_files h3).2.2.1 q d ?_
            rwa [(makedirs_acts h1).key, (makedirs_acts h1).key]
      · rfl
  · unfold FS.exists
    rw [removeAt_gone h hp hok]; rfl
  · have hq0 : q ≠ [] ∨ q = [] := by by_cases h : q = [] <;> simp [h]
    obtain ⟨-, -, r3, -⟩ := removeNode_spec fs p hp force
    have base : (removeNode fs p force).1.getbytes q = fs.getbytes q := by unfold FS.getbytes; rw [r3 q hq]
    unfold removeAt
    rw [h]
    dsimp only
    cases hr : removeNode fs p force with
    | mk fs1 r =>
      rw [hr] at base
      dsimp only at base
      cases r with
      | error e => dsimp only; rw [base]
      | ok u =>
        dsimp only
        split
        · rcases hq0 with hq0 | rfl
          · rw [(removeEmpty_spec _ _).2.1 q d hq0, base]
          · rw [getbytes_ok, getbytes_ok]
            simp [node?]
        · rw [base]

/-- A string that leads out of the UFO raises `ValueError`, and nothing changes. -/
theorem C103_outside (havePrevious : Bool) (fs src : FS) (s t : Str) (h : ¬ Stays s) (data : Bytes) (force removeEmptyParents : Bool) :
    readBytesAt fs s = .error .valueError ∧ writeBytesAt havePrevious fs s data = (fs, .error .valueError) ∧
    removeAt fs s force removeEmptyParents = (fs, .error .valueError) ∧ copyAt src fs s t = (fs, .error .valueError) ∧ (copyAt src fs t s).1 = fs ∧
    (∀ p, Leads t p → src.exists p = true → copyAt src fs t s = (fs, .error .valueError)) := by
  have hr := not_stays h
  refine ⟨by unfold readBytesAt; rw [hr], by unfold writeBytesAt; rw [hr], by unfold removeAt; rw [hr], by unfold copyAt; rw [hr], ?_, fun p hp he => ?_⟩
  · unfold copyAt
    rw [hr]
    split
    · rfl
    · split <;> rfl
  · rw [← resolve_iff] at hp
    unfold copyAt
    rw [hr, hp]
    dsimp only
    rw [if_neg (by rw [he]; simp)]

/-- For paths made of names the strings and the lists of names are the same thing. -/
theorem C103_names (havePrevious : Bool) (fs src : FS) (l m : List Str) (hl : l ≠ []) (hm : m ≠ []) (h : ∀ c ∈ l, Name c) (h' : ∀ c ∈ m, Name c) (data : Bytes)
    (force removeEmptyParents : Bool) :
    readBytesAt fs (join c!"/" l) = readBytesFromPath fs l ∧ writeBytesAt havePrevious fs (join c!"/" l) data = writeBytesToPath havePrevious fs l data ∧
    removeAt fs (join c!"/" l) force removeEmptyParents = removePath fs l force removeEmptyParents ∧
    copyAt src fs (join c!"/" l) (join c!"/" m) = copyFromReader src fs l m :=
  ⟨readBytesAt_join fs hl h, writeBytesAt_join _ fs hl h data, removeAt_join fs hl h force removeEmptyParents, copyAt_join src fs hl h hm h'⟩

/-! ### images -/

/-- For image names that do not lead out of the directory of the images: nothing outside it is changed; what has been written is read back under that name, also when the name has `/`, `.` and `..` in it;
what has been removed is gone. Missing: names that lead out of the directory, see `C103_images_refuted`. -/
theorem C103_images_partial (w : Ufo.World) (src : FS) (name other : Str) (p : Path) (h : Leads name p) (data : Bytes) (validate : Bool) :
    (∀ q : Path, q.head?.map w.2.canon ≠ some (w.2.canon c!"images") →
      (writeImageAt w name data validate).1.2.node? q = w.2.node? q ∧ (removeImageAt w name).1.2.node? q = w.2.node? q ∧
      (copyImageAt src w other name).1.2.node? q = w.2.node? q) ∧
    (p ≠ [] → Tidy w.2 → 3 ≤ w.1.version → (writeImageAt w name data validate).2 = .ok () → ∀ v, (v = true → data.take 8 = [137, 80, 78, 71, 13, 10, 26, 10]) →
      readImageAt (writeImageAt w name data validate).1.2 3 name v = .ok data) ∧
    (3 ≤ w.1.version → (removeImageAt w name).2 = .ok () → ∀ v d, readImageAt (removeImageAt w name).1.2 3 name v ≠ .ok d) := by
  rw [← resolve_iff] at h
  have hs := resolve_inDirectory name_images h
  refine ⟨fun q hq => ⟨?_, ?_, ?_⟩, fun hp ht hv hok v hpng => ?_, fun hv hok v d hd => ?_⟩
  · unfold writeImageAt
    split
    · rfl
    · split
      · rfl
      · exact acts_inside (writeBytesAt_acts _ _ _ _ hs) (fun k hk => touched_in name_images h hk) hq
  · unfold removeImageAt
    split
    · rfl
    · exact acts_inside (removeAt_acts _ _ _ _ hs) (fun k hk => touched_in name_images h hk) hq
  · unfold copyImageAt
    split
    · rfl
    · refine acts_inside (copyAt_acts _ _ _ _ hs) (fun k hk => ?_) hq
      rcases hk.2 with hk | ⟨t, ht⟩
      · exact touched_in name_images h hk
      · exact ⟨w.2.key p ++ t, by rw [← ht]; simp [FS.key, imagesName]⟩
  · unfold writeImageAt at hok ⊢
    rw [if_neg (by omega)] at hok ⊢
    split at hok
    · cases hok
    · rename_i hc
      rw [if_neg hc]
      have hw := writeBytesAt_written hs hok
      have ht' := writeBytesAt_tidy w.1.havePrevious ht (inDirectory imagesName name) data
      have hdir : (writeBytesAt w.1.havePrevious w.2 (inDirectory imagesName name) data).1.node? [imagesName] = some .dir :=
        tidy_above ht' (p := imagesName :: p) (by rw [getbytes_ok.1 hw]; rfl) (by simp) (by simpa using hp.symm)
      unfold readImageAt
      rw [if_neg (by omega)]
      dsimp only
      rw [hdir]
      dsimp only
      rw [h]
      dsimp only
      rw [hw]
      dsimp only
      rw [if_neg]
      rw [Bool.and_eq_true, Bool.not_eq_true', not_and]
      intro hv'
      have := hpng hv'
      unfold pngValidator
      rw [this]
      decide
  · unfold removeImageAt at hok hd
    rw [if_neg (by omega)] at hok hd
    dsimp only at hok hd
    have hg := removeAt_gone hs (by simp) hok
    unfold readImageAt at hd
    rw [if_neg (by omega)] at hd
    split at hd
    · cases hd
    · cases hd
    · rw [h] at hd
      dsimp only at hd
      unfold FS.getbytes at hd
      rw [hg] at hd
      cases hd

/-- For names without a `/` these are the calls of the other models. -/
theorem C103_image_names (w : Ufo.World) (src fs : FS) (a b : Str) (ha : Name a) (hb : Name b) (data : Bytes) (validate : Bool) (version : Int) :
    writeImageAt w a data validate = writeImage w a data validate ∧ removeImageAt w a = removeImage w a ∧ copyImageAt src w a b = copyImageFromReader src w a b ∧
    readImageAt fs version a validate = readImage fs version a validate :=
  ⟨writeImageAt_name w ha data validate, removeImageAt_name w ha, copyImageAt_name src w ha hb, readImageAt_name fs version ha validate⟩

/-- A UFO for the examples. -/
def fs103 : FS :=
  { canon := id, log := [], nodes := [([c!"metainfo.plist"], .file [1]), ([c!"lib.plist"], .file [2]), ([c!"images"], .dir), ([c!"images", c!"a.png"], .file [3]),
    ([c!"data"], .dir), ([c!"data", c!"b.txt"], .file [4]), ([c!"glyphs"], .dir), ([c!"glyphs", c!"contents.plist"], .file [5])] }

def w103 : Ufo.World := (⟨3, [(c!"public.default", c!"glyphs"), (c!"bg", c!"glyphs.bg/../data")], true, true, none⟩, fs103)

/-- The claim fails for other names: `writeImage` and `removeImage` reach any file of the UFO, `readImage` with the same name raises; and an image without a name becomes a file in the place of
the directory. -/
theorem C103_images_refuted :
    (∃ png : Bytes, pngValidator png = true ∧
      (let r := writeImageAt w103 c!"../lib.plist" png true
       r.2.toOption = some () ∧ (r.1.2.getbytes [c!"lib.plist"]).toOption = some png ∧ (readImageAt r.1.2 3 c!"../lib.plist" true).toOption = none) ∧
      (let r := writeImageAt (w103.1, { fs103 with nodes := [] }) [] png true
       r.2.toOption = some () ∧ r.1.2.isfile [c!"images"] = true)) ∧
    (let r := removeImageAt w103 c!"../metainfo.plist"
     r.2.toOption = some () ∧ r.1.2.exists [c!"metainfo.plist"] = false) :=
  ⟨⟨[137, 80, 78, 71, 13, 10, 26, 10, 0], by decide +kernel⟩, by decide +kernel⟩

/-! ### glyphs -/

/-- Whatever the file names of a glyph set are, also those of a contents.plist of any origin: no history of calls on it changes anything outside the directory of its layer. -/
theorem C103_glyphs (L : Casing) (F : FloatCodec) (w : GlyphSet.World) (ops : List GlyphSet.Op) (q : Path) (hq : ¬ w.1.dir.map w.2.canon <+: q.map w.2.canon) :
    (runAt L F w ops).2.node? q = w.2.node? q := (runAt_inside L F ops w).2.2 q hq

/-- And nothing outside it is read: for file systems that agree in that directory the glyph set and the glyphs are the same. -/
theorem C103_glyphs_read (F : FloatCodec) (dir : Path) (a b : FS) (h : AgreeIn dir a b) (version : Nat) (validate : Bool) :
    openGlyphSetAt F a dir version validate = openGlyphSetAt F b dir version validate ∧
    ∀ gs : GlyphSet.GlyphSet, gs.dir = dir → ∀ name, getGLIFAt (gs, a) name = getGLIFAt (gs, b) name := by
  refine ⟨agree_open h version validate, ?_⟩
  rintro gs rfl name
  exact agree_getGLIF h name

/-- With file names without a `/`, in the table and from the naming functions, every history is that of the other models. -/
theorem C103_history (L : Casing) (F : FloatCodec) (w : GlyphSet.World) (ops : List GlyphSet.Op) (hw : ∀ n f, Dict.get? w.1.contents n = some f → Name f)
    (ho : ∀ op ∈ ops, (∀ v, op ≠ .rebuild v) ∧ ∀ naming name fv data, op = .write naming name fv data → ∀ ex f, naming name ex = .ok f → Name f) :
    runAt L F w ops = GlyphSet.run L F w ops := by
  refine runAt_names L F ops w hw fun op h => ?_
  obtain ⟨h1, h2⟩ := ho op h
  cases op with
  | write naming name fv data => exact h2 naming name fv data rfl
  | rebuild v => exact absurd rfl (h1 v)
  | _ => exact trivial

/-- Opening a glyph set whose contents.plist has such names is that of the other models, and so is reading a glyph. -/
theorem C103_open (F : FloatCodec) (fs : FS) (dir : Path) (version : Nat) (validate : Bool)
    (h : ∀ d, getPlist F fs (dir ++ [c!"contents.plist"]) (some (.dict [])) = .ok (.dict d) → ∀ n f, (PyVal.str n, PyVal.str f) ∈ d → Name f) :
    openGlyphSetAt F fs dir version validate = openGlyphSet F fs dir version validate ∧
    ∀ (gs : GlyphSet.GlyphSet) (name : Str), (∀ f, Dict.get? gs.contents name = some f → Name f) → getGLIFAt (gs, fs) name = getGLIF (gs, fs) name :=
  ⟨openGlyphSetAt_names F fs dir version validate fun _ => h, fun gs _ h => getGLIFAt_name (w := (gs, fs)) h⟩

theorem name_of_legal {r : Str} (h0 : r ≠ []) (h1 : ∃ c ∈ r, c ≠ '.') (h2 : '/' ∉ r) : Name r := by
  obtain ⟨c, hc, hne⟩ := h1
  refine ⟨h0, ?_, ?_, h2⟩
  · rintro rfl
    simp only [List.mem_singleton] at hc
    exact hne hc
  · rintro rfl
    simp only [List.mem_cons, List.not_mem_nil, or_false, or_self] at hc
    exact hne hc

/-- The file names of glyphs and the directories of layers that are chosen by default are names. -/
theorem C103_chosen (L : Casing) (name : Str) (existing : Dict Str Str) (layers : Dict Str Str) (f d : Str) (defaultLayer : Bool) :
    (defaultNaming L name existing = .ok f → Name f) ∧ (Dict.get? layers name = none → layerDirectory L layers name defaultLayer = .ok d → Name d) := by
  have slash : ∀ (u pre suf r : Str) (ex : List Str), Filenames.userNameToFileName L u ex pre suf = .ok r → '/' ∉ pre → '/' ∉ suf → '/' ∉ r := by
    intro u pre suf r ex h hp hs
    obtain ⟨g, rfl, hg, -⟩ := C03_legal L u pre suf r ex h
    simp only [List.mem_append, not_or]
    refine ⟨⟨hp, fun hc => hg _ hc ?_⟩, hs⟩
    unfold Spec.Filenames.IllegalChar
    decide
  constructor
  · intro h
    obtain ⟨g, hg, -⟩ := C03_legal L _ _ _ _ _ h
    refine name_of_legal (by rw [hg]; simp) ⟨'g', by rw [hg]; simp, by decide⟩ (slash _ _ _ _ _ h (by decide) (by decide))
  · intro hl h
    unfold layerDirectory at h
    rw [hl] at h
    dsimp only at h
    split at h
    · cases h
      exact ⟨by decide, by decide, by decide, by decide⟩
    · obtain ⟨g, hg, -⟩ := C03_legal L _ _ _ _ _ h
      refine name_of_legal (by rw [hg]; simp) ⟨'g', by rw [hg]; simp, by decide⟩ (slash _ _ _ _ _ h (by decide) (by decide))

/-! ### layers -/

/-- The glyph set of a layer is in a directory of the UFO, the one the layer table leads to. -/
theorem C103_layer (F : FloatCodec) (fs : FS) (name : Str) (validate : Bool) (gs : GlyphSet.GlyphSet) (h : readerGlyphSetAt F fs 3 name validate = .ok gs) :
    fs.node? gs.dir = some .dir ∧ (∀ c ∈ gs.dir, Name c) ∧
    ∃ l d, getPlist F fs [c!"layercontents.plist"] none = .ok (.list l) ∧ PyVal.list [.str name, .str d] ∈ l ∧ Leads d gs.dir := by
  unfold readerGlyphSetAt at h
  rw [if_neg (by omega)] at h
  split at h
  · cases h
  · rename_i t ht
    obtain ⟨l, hl, hmem⟩ := readLayerTableAt_dirs ht
    split at h
    · cases h
    · rename_i e he
      split at h
      · cases h
      · rename_i p hp
        split at h
        · cases h
        · cases h
        · rename_i hn
          have hd : gs.dir = p := by
            unfold openGlyphSetAt at h
            split at h
            · unfold rebuildContentsAt at h
              split at h
              · cases h
              · split at h <;> cases h; rfl
            · cases h
          have h1 := List.find?_some he
          simp only [decide_eq_true_eq] at h1
          rw [hd]
          refine ⟨hn, resolve_names hp, l, e.2, hl, ?_, (resolve_iff _ _).1 hp⟩
          rw [← h1]
          exact hmem e (List.mem_of_find?_eq_some he)

/-- With directories without a `/` these are the calls of the other models. -/
theorem C103_layer_names (L : Casing) (F : FloatCodec) (w : Ufo.World) (name : Str) (layerName : Option Str) (defaultLayer validate : Bool)
    (hl : ∀ e ∈ w.1.layers, Name e.2)
    (hc : ∀ dir d, getPlist F w.2 [dir, c!"contents.plist"] (some (.dict [])) = .ok (.dict d) → ∀ n f, (PyVal.str n, PyVal.str f) ∈ d → Name f) :
    deleteGlyphSetAt w layerName = deleteGlyphSet w layerName ∧
    getGlyphSetAt L F w name defaultLayer validate = getGlyphSet3 L F w name defaultLayer validate := by
  constructor
  · unfold deleteGlyphSetAt deleteGlyphSet
    split
    · rfl
    · cases hf : findDirectory w.1.layers layerName with
      | error e => rfl
      | ok dir =>
        have hn : Name dir := by
          unfold findDirectory at hf
          split at hf
          · cases hf
          · rename_i e he
            split at hf
            · cases hf
            · cases hf; exact hl e (List.mem_of_find?_eq_some he)
        dsimp only
        have := removeAt_join w.2 (l := [dir]) (by simp) (by simpa using hn) false false
        simp only [join] at this
        rw [this]
        rfl
  · unfold getGlyphSetAt getGlyphSet3
    split
    · rfl
    · cases hd : layerDirectory L w.1.layers name defaultLayer with
      | error e => rfl
      | ok dir =>
        have hn : Name dir := by
          cases hg : Dict.get? w.1.layers name with
          | none => exact (C103_chosen L name [] w.1.layers [] dir defaultLayer).2 hg hd
          | some d =>
            unfold layerDirectory at hd
            rw [hg] at hd
            cases hd
            exact hl _ (Dict.mem_of_get? hg)
        dsimp only
        rw [resolve_name hn]
        dsimp only
        cases hm : w.2.makedir [dir] with
        | error e => rfl
        | ok fs =>
          dsimp only
          rw [openGlyphSetAt_names F fs [dir] 3 validate]
          intro _ d hg
          refine hc dir d ?_
          rw [← hg]
          unfold getPlist FS.getbytes
          rw [(makedir_ok hm).2.2.1 ([dir] ++ [contentsName]) (by simp [FS.key])]
          rfl

/-- The entries that pass the validation of a layer table lead to places in the UFO where there is something. -/
theorem C103_table (F : FloatCodec) (fs : FS) (t : List (Str × Str)) (h : readLayerTableAt F fs true = .ok t) (n d : Str) (hd : (n, d) ∈ t) :
    ∃ p, Leads d p ∧ fs.exists p = true := by
  have key : ∀ (l : List PyVal) (names dirs : List Str) (t : List (Str × Str)), layerEntries (existsAt fs) names dirs l = .ok true → layerEntriesOf l = .ok t →
      (n, d) ∈ t → ∃ p, Leads d p ∧ fs.exists p = true := by
    intro l
    induction l with
    | nil => intro _ _ t _ h2 h3; cases h2; cases h3
    | cons v l ih =>
      intro names dirs t h1 h2 h3
      unfold layerEntries at h1
      split at h1
      · rename_i heq; cases heq
      · rename_i nm dn rest heq
        obtain ⟨rfl, rfl⟩ := List.cons.inj heq
        split at h1
        · cases h1
        split at h1
        · cases h1
        rw [layerEntriesOf] at h2
        cases hx : existsAt fs dn with
        | error e => rw [hx] at h1; cases h1
        | ok b =>
          rw [hx] at h1
          cases b with
          | false => cases h1
          | true =>
            dsimp only at h1
            split at h1
            · cases h1
            split at h1
            · cases h1
            split at h1
            · cases h1
            cases hl : layerEntriesOf l with
            | error e => rw [hl] at h2; cases h2
            | ok t' =>
              rw [hl] at h2
              cases h2
              rcases List.mem_cons.1 h3 with h3 | h3
              · cases h3
                unfold existsAt at hx
                cases hr : resolve d with
                | none => rw [hr] at hx; cases hx
                | some p =>
                  rw [hr] at hx
                  exact ⟨p, (resolve_iff _ _).1 hr, Except.ok.inj hx⟩
              · exact ih _ _ t' h1 hl h3
      · cases h1
  unfold readLayerTableAt at h
  cases hg : getPlist F fs [layercontentsName] none with
  | error e => rw [hg] at h; cases h
  | ok v =>
    rw [hg] at h
    simp only [if_true] at h
    cases v with
    | list l =>
      dsimp only [layerContentsValidator] at h
      cases he : layerEntries (existsAt fs) [] [] l with
      | error e => rw [he] at h; cases h
      | ok b =>
        rw [he] at h
        cases b with
        | false => cases h
        | true => exact key l [] [] t he h hd
    | _ => cases h

/-- A layer table with a directory given in a roundabout way, and one that leads out. -/
def table103 (d : Str) : FS := { fs103 with nodes := fs103.nodes ++ [([layercontentsName], .file (utf8
  (c!"<plist><array><array><string>a</string><string>glyphs</string></array><array><string>b</string><string>" ++ d ++ c!"</string></array></array></plist>")))] }

example : (readLayerTableAt fractionCodec (table103 c!"glyphs.b/../data") true).toOption = some [(c!"a", c!"glyphs"), (c!"b", c!"glyphs.b/../data")] ∧
    readLayerTableAt fractionCodec (table103 c!"glyphs.b/../../data") true = .error .valueError := by decide +kernel

/-- The claim that the calls on a layer are about a directory of glyphs fails for the layer tables of UFOs of other origin: validation accepts a directory that leads to the data directory,
and `deleteGlyphSet` removes that. -/
theorem C103_layers_refuted :
    (layerContentsValidator (existsAt fs103) (.list [.list [.str c!"public.default", .str c!"glyphs"], .list [.str c!"bg", .str c!"glyphs.bg/../data"]])).toOption = some true ∧
    (let r := deleteGlyphSetAt w103 (some c!"bg")
     r.2.toOption = some () ∧ r.1.2.exists [c!"data"] = false ∧ r.1.2.exists [c!"data", c!"b.txt"] = false) := by decide +kernel

/-! ### examples -/

theorem tidy_fs103 : Tidy fs103 := tidy_of (by decide +kernel) (by decide +kernel) (by decide +kernel)

theorem leads103 : Leads c!"sub/./x/../b.png" [c!"sub", c!"b.png"] := (resolve_iff _ _).1 (by decide +kernel)

example : Stays c!"sub/./x/../b.png" := (C103_leads _).1.2 ⟨_, leads103⟩

example : ¬ Stays c!"a/../../b" := fun h => by
  obtain ⟨p, hp⟩ := (C103_leads _).1.1 h
  rw [← resolve_iff] at hp
  revert hp
  have : resolve c!"a/../../b" = none := by decide +kernel
  rw [this]; simp

example : (writeBytesAt true fs103 c!"data/./new/../b.txt" [9]).2.toOption = some () ∧
    ((writeBytesAt true fs103 c!"data/./new/../b.txt" [9]).1.getbytes [c!"data", c!"b.txt"]).toOption = some [9] := by decide +kernel

example : (removeAt fs103 c!"data//b.txt" false true).2.toOption = some () ∧ (removeAt fs103 c!"data//b.txt" false true).1.exists [c!"data"] = false := by decide +kernel

/-- Written under one name and read under it, with the directory made on the way. -/
example : let png : Bytes := [137, 80, 78, 71, 13, 10, 26, 10, 0]
    readImageAt (writeImageAt w103 c!"sub/./x/../b.png" png true).1.2 3 c!"sub/./x/../b.png" true = .ok png :=
  (C103_images_partial w103 fs103 _ [] _ leads103 _ true).2.1 (by simp) tidy_fs103 (by decide) (by
    have : (writeImageAt w103 c!"sub/./x/../b.png" [137, 80, 78, 71, 13, 10, 26, 10, 0] true).2.toOption = some () := by decide +kernel
    revert this
    cases (writeImageAt w103 c!"sub/./x/../b.png" [137, 80, 78, 71, 13, 10, 26, 10, 0] true).2 with
    | ok u => intro _; rfl
    | error e => intro h; cases h) true (fun _ => rfl)

/-- A contents.plist of other origin: one file name leads out of the directory, another one leads somewhere in it. -/
def gs103 : GlyphSet.GlyphSet :=
  { dir := [c!"glyphs"], contents := [(c!"a", c!"../lib.plist"), (c!"b", c!"./b.glif")], existing := none, reverse := none, havePrevious := true, version := 3, validateRead := false }

example : (runAt asciiCasing fractionCodec (gs103, fs103) [.write (defaultNaming asciiCasing) c!"a" none (fun _ => .ok [7]), .write (defaultNaming asciiCasing) c!"b" none (fun _ => .ok [8]),
      .delete c!"a"]).2.getbytes [c!"lib.plist"] = .ok [2] := by
  unfold FS.getbytes
  rw [C103_glyphs _ _ _ _ _ (by decide +kernel)]
  rfl

example : ((runAt asciiCasing fractionCodec (gs103, fs103) [.write (defaultNaming asciiCasing) c!"a" none (fun _ => .ok [7]), .write (defaultNaming asciiCasing) c!"b" none (fun _ => .ok [8])]).2.getbytes
    [c!"glyphs", c!"b.glif"]).toOption = some [8] := by decide +kernel

example : (getGLIFAt (gs103, fs103) c!"a").toOption = none := by decide +kernel

/-- The history of a new glyph set with the names chosen by default. -/
example (data : Int → Except Exc Bytes) (fs : FS) :
    runAt asciiCasing fractionCodec ({ gs103 with contents := [] }, fs) [.write (defaultNaming asciiCasing) c!"A/b" none data, .save] =
    GlyphSet.run asciiCasing fractionCodec ({ gs103 with contents := [] }, fs) [.write (defaultNaming asciiCasing) c!"A/b" none data, .save] := by
  refine C103_history _ _ _ _ (by simp [Dict.get?]) fun op h => ?_
  simp only [List.mem_cons, List.not_mem_nil, or_false] at h
  rcases h with rfl | rfl
  · refine ⟨nofun, ?_⟩
    rintro naming name fv data' ⟨⟩ ex f hf
    exact (C103_chosen asciiCasing _ ex [] f [] true).1 hf
  · exact ⟨nofun, nofun⟩

example : ∀ e ∈ ([(c!"public.default", c!"glyphs"), (c!"bg", c!"glyphs.bg")] : Dict Str Str), Name e.2 := by
  intro e he
  simp only [List.mem_cons, List.not_mem_nil, or_false] at he
  rcases he with rfl | rfl <;> exact ⟨by decide, by decide, by decide, by decide⟩

end Verif.Props
