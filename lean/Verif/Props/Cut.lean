import Verif.Proofs.Cut
import Verif.Spec.Cut
import Verif.Spec.UfoUpgrade
import Verif.Model.UfoZip
import Verif.Props.Draw
/-! C110: property lists and glyphs in files that were cut off. -/
namespace Verif.Props
open Verif Verif.Ufo Verif.Spec.Cut Verif.IO

theorem noticed_refl {α : Type} (r : Except Exc α) : Noticed r r := fun x x' h h' => by rw [h] at h'; cases h'; rfl

theorem cut_exists {fs fs' : FS} (h : CutOff fs fs') (p : Path) : fs'.exists p = fs.exists p := by
  unfold FS.exists
  rcases h.node p with e | ⟨b, k, e, e'⟩
  · rw [e]
  · rw [e, e']; rfl

theorem cut_dir {fs fs' : FS} (h : CutOff fs fs') (p : Path) : fs'.node? p = some .dir ↔ fs.node? p = some .dir := by
  rcases h.node p with e | ⟨b, k, e, e'⟩
  · rw [e]
  · rw [e, e']; simp

theorem cut_none {fs fs' : FS} (h : CutOff fs fs') (p : Path) : fs'.node? p = none ↔ fs.node? p = none := by
  rcases h.node p with e | ⟨b, k, e, e'⟩
  · rw [e]
  · rw [e, e']; simp

/-- C110. A property list: reading it from a file that was cut off raises or gives the value of the whole file. -/
theorem C110_plist (F : FloatCodec) (fs fs' : FS) (h : CutOff fs fs') (p : Path) (default : Option PyVal) : Noticed (getPlist F fs p default) (getPlist F fs' p default) := by
  intro v v' hv hv'
  unfold getPlist FS.getbytes at hv hv'
  rcases h.node p with e | ⟨b, k, e, e'⟩
  · rw [e] at hv'; rw [hv] at hv'; cases hv'; rfl
  · rw [e] at hv; rw [e'] at hv'
    dsimp only at hv hv'
    split at hv
    · cases hv
    · next h1 =>
      split at hv'
      · cases hv'
      · next h2 => cases hv; cases hv'; exact Cut.load_prefix (List.take_prefix _ _) h2 h1

/-- C110. The format version. -/
theorem C110_version (F : FloatCodec) (fs fs' : FS) (h : CutOff fs fs') (validate : Bool) : Noticed (readMetaInfo F fs validate) (readMetaInfo F fs' validate) := by
  intro x x' hx hx'
  unfold readMetaInfo at hx hx'
  have := C110_plist F fs fs' h [metainfoName] none
  revert hx hx' this
  generalize getPlist F fs [metainfoName] none = a
  generalize getPlist F fs' [metainfoName] none = b
  intro hx hx' this
  cases a with
  | error e => cases hx
  | ok v =>
    cases b with
    | error e => cases hx'
    | ok v' =>
      have := this v v' rfl rfl
      subst this
      rw [hx] at hx'
      cases hx'
      rfl

/-- C110. The font info. -/
theorem C110_info (E : FontInfo.Env) (fs fs' : FS) (h : CutOff fs fs') (version : Int) (validate : Bool) :
    Noticed (readInfo E fs version validate) (readInfo E fs' version validate) := by
  intro x x' hx hx'
  unfold readInfo at hx hx'
  have := C110_plist E.F fs fs' h [fontinfoName] (some (.dict []))
  revert hx hx' this
  generalize getPlist E.F fs [fontinfoName] (some (.dict [])) = a
  generalize getPlist E.F fs' [fontinfoName] (some (.dict [])) = b
  intro hx hx' this
  cases a with
  | error e => cases hx
  | ok v =>
    cases b with
    | error e => cases hx'
    | ok v' =>
      have := this v v' rfl rfl
      subst this
      rw [hx] at hx'
      cases hx'
      rfl

/-- C110. The lib. -/
theorem C110_lib (F : FloatCodec) (fs fs' : FS) (h : CutOff fs fs') (validate : Bool) : Noticed (readLib F fs validate) (readLib F fs' validate) := by
  intro x x' hx hx'
  unfold readLib at hx hx'
  have := C110_plist F fs fs' h [libName] (some (.dict []))
  revert hx hx' this
  generalize getPlist F fs [libName] (some (.dict [])) = a
  generalize getPlist F fs' [libName] (some (.dict [])) = b
  intro hx hx' this
  cases a with
  | error e => cases hx
  | ok v =>
    cases b with
    | error e => cases hx'
    | ok v' =>
      have := this v v' rfl rfl
      subst this
      rw [hx] at hx'
      cases hx'
      rfl

/-- C110. The groups of a UFO 3. -/
theorem C110_groups (F : FloatCodec) (fs fs' : FS) (h : CutOff fs fs') (validate : Bool) : Noticed (readGroups3 F fs validate) (readGroups3 F fs' validate) := by
  intro x x' hx hx'
  unfold readGroups3 at hx hx'
  have := C110_plist F fs fs' h [groupsName] (some (.dict []))
  revert hx hx' this
  generalize getPlist F fs [groupsName] (some (.dict [])) = a
  generalize getPlist F fs' [groupsName] (some (.dict [])) = b
  intro hx hx' this
  cases a with
  | error e => cases hx
  | ok v =>
    cases b with
    | error e => cases hx'
    | ok v' =>
      have := this v v' rfl rfl
      subst this
      rw [hx] at hx'
      cases hx'
      rfl

/-- C110. The kerning of a UFO 3. -/
theorem C110_kerning (F : FloatCodec) (fs fs' : FS) (h : CutOff fs fs') (validate : Bool) : Noticed (readKerning3 F fs validate) (readKerning3 F fs' validate) := by
  intro x x' hx hx'
  unfold readKerning3 at hx hx'
  have := C110_plist F fs fs' h [kerningName] (some (.dict []))
  revert hx hx' this
  generalize getPlist F fs [kerningName] (some (.dict [])) = a
  generalize getPlist F fs' [kerningName] (some (.dict [])) = b
  intro hx hx' this
  cases a with
  | error e => cases hx
  | ok v =>
    cases b with
    | error e => cases hx'
    | ok v' =>
      have := this v v' rfl rfl
      subst this
      rw [hx] at hx'
      cases hx'
      rfl

/-- C110. Groups, kerning and rename maps of a UFO 1 or 2, as new readers give them. -/
theorem C110_old (F : FloatCodec) (fs fs' : FS) (h : CutOff fs fs') (ord1 ord2 : List Str → List Str) (kind : KerningReader.Kind) (validate : Bool)
    (c c' : KerningReader.Call) (hc : Spec.Ufo.CallIn F fs c) (hc' : Spec.Ufo.CallIn F fs' c') (hk : c.kind = kind ∧ c'.kind = kind) (hv : c.validate = validate ∧ c'.validate = validate) :
    Noticed (KerningReader.step (KerningReader.convertFiles ord1 ord2) none c).1 (KerningReader.step (KerningReader.convertFiles ord1 ord2) none c').1 := by
  obtain ⟨k1, v1, kf, gf⟩ := c
  obtain ⟨k2, v2, kf', gf'⟩ := c'
  obtain ⟨rfl, rfl⟩ := hk
  obtain ⟨rfl, rfl⟩ := hv
  dsimp only
  have n1 := C110_plist F fs fs' h [c!"kerning.plist"] (some (.dict []))
  have n2 := C110_plist F fs fs' h [c!"groups.plist"] (some (.dict []))
  have e1 : kf = _ := hc.1
  have e2 : kf' = _ := hc'.1
  have e3 : gf = _ := hc.2
  have e4 : gf' = _ := hc'.2
  rw [← e1, ← e2] at n1
  rw [← e3, ← e4] at n2
  intro x x' hx hx'
  cases gf with
  | error e => cases hx
  | ok g =>
    cases gf' with
    | error e => cases hx'
    | ok g' =>
      have := n2 g g' rfl rfl
      subst this
      cases kf' with
      | error e =>
        unfold KerningReader.step KerningReader.upConvert at hx'
        dsimp only at hx'
        split at hx'
        · cases hx'
        · next hh =>
          split at hh
          · cases hh
          · cases hh
      | ok k' =>
        cases kf with
        | error e =>
          unfold KerningReader.step KerningReader.upConvert at hx
          dsimp only at hx
          split at hx
          · cases hx
          · next hh =>
            split at hh
            · cases hh
            · cases hh
        | ok k =>
          have := n1 k k' rfl rfl
          subst this
          rw [hx] at hx'
          cases hx'
          rfl

theorem layers_noticed (F : FloatCodec) (fs fs' : FS) (h : CutOff fs fs') (version : Int) (validate : Bool) : Noticed (readLayers F fs version validate) (readLayers F fs' version validate) := by
  unfold readLayers
  split
  · exact noticed_refl _
  · intro x x' hx hx'
    unfold readLayerTable at hx hx'
    have hd : dirExists fs' = dirExists fs := funext fun d => by unfold dirExists; rw [cut_exists h]
    rw [hd] at hx'
    have := C110_plist F fs fs' h [layercontentsName] none
    revert hx hx' this
    generalize getPlist F fs [layercontentsName] none = a
    generalize getPlist F fs' [layercontentsName] none = b
    intro hx hx' this
    cases a with
    | error e => cases hx
    | ok v =>
      cases b with
      | error e => cases hx'
      | ok v' =>
        have := this v v' rfl rfl
        subst this
        rw [hx] at hx'
        cases hx'
        rfl

/-- C110. The names of the layers. -/
theorem C110_layers (F : FloatCodec) (fs fs' : FS) (h : CutOff fs fs') (version : Int) (validate : Bool) :
    Noticed (getLayerNames F fs version validate) (getLayerNames F fs' version validate) ∧ Noticed (getDefaultLayerName F fs version validate) (getDefaultLayerName F fs' version validate) := by
  have := layers_noticed F fs fs' h version validate
  unfold getLayerNames getDefaultLayerName
  revert this
  generalize readLayers F fs version validate = a
  generalize readLayers F fs' version validate = b
  intro this
  cases a with
  | error e => exact ⟨(fun x x' hx _ => nomatch hx), fun x x' hx _ => nomatch hx⟩
  | ok v =>
    cases b with
    | error e => exact ⟨(fun x x' _ hx => nomatch hx), fun x x' _ hx => nomatch hx⟩
    | ok v' =>
      have := this v v' rfl rfl
      subst this
      exact ⟨noticed_refl _, noticed_refl _⟩

theorem open_noticed (F : FloatCodec) (fs fs' : FS) (h : CutOff fs fs') (dir : Path) (version : Nat) (validate : Bool) :
    Noticed (GlyphSet.openGlyphSet F fs dir version validate) (GlyphSet.openGlyphSet F fs' dir version validate) := by
  unfold GlyphSet.openGlyphSet
  split
  · intro x x' hx hx'
    unfold GlyphSet.rebuildContents at hx hx'
    dsimp only at hx hx'
    rw [cut_exists h] at hx'
    have := C110_plist F fs fs' h (dir ++ [GlyphSet.contentsName]) (some (.dict []))
    have hcheck : ∀ v, GlyphSet.checkContents fs' dir validate v = GlyphSet.checkContents fs dir validate v := by
      intro v
      unfold GlyphSet.checkContents
      simp only [cut_exists h]
    revert hx hx' this
    generalize getPlist F fs (dir ++ [GlyphSet.contentsName]) (some (.dict [])) = a
    generalize getPlist F fs' (dir ++ [GlyphSet.contentsName]) (some (.dict [])) = b
    intro hx hx' this
    cases a with
    | error e => cases hx
    | ok v =>
      cases b with
      | error e => cases hx'
      | ok v' =>
        have := this v v' rfl rfl
        subst this
        dsimp only at hx hx'
        rw [hcheck, hx] at hx'
        cases hx'
        rfl
  · exact noticed_refl _

/-- C110. The glyphs of a layer and their files. -/
theorem C110_glyphSet (F : FloatCodec) (fs fs' : FS) (h : CutOff fs fs') (version : Int) (layer : Option Str) (validate : Bool) :
    Noticed (readerGlyphSet F fs version layer validate) (readerGlyphSet F fs' version layer validate) := by
  have h1 : Noticed (resolveLayer F fs version layer validate) (resolveLayer F fs' version layer validate) := by
    unfold resolveLayer
    cases layer with
    | none => exact (C110_layers F fs fs' h version validate).2
    | some n => exact noticed_refl _
  have h2 := layers_noticed F fs fs' h version validate
  unfold readerGlyphSet
  revert h1 h2
  generalize resolveLayer F fs version layer validate = a
  generalize resolveLayer F fs' version layer validate = b
  generalize readLayers F fs version validate = c
  generalize readLayers F fs' version validate = d
  intro h1 h2 x x' hx hx'
  cases a with
  | error e => cases hx
  | ok n =>
    cases b with
    | error e => cases hx'
    | ok n' =>
      have := h1 n n' rfl rfl
      subst this
      cases c with
      | error e => cases hx
      | ok t =>
        cases d with
        | error e => cases hx'
        | ok t' =>
          have := h2 t t' rfl rfl
          subst this
          dsimp only at hx hx'
          split at hx
          · cases hx
          · next e he =>
            rw [he] at hx'
            dsimp only at hx'
            split at hx
            · cases hx
            · cases hx
            · next hd =>
              rw [(cut_dir h _).2 hd] at hx'
              exact open_noticed F fs fs' h _ _ _ _ _ hx hx'

/-- C110. The layer info. -/
theorem C110_layerInfo (F : FloatCodec) (gs : GlyphSet.GlyphSet) (fs fs' : FS) (h : CutOff fs fs') (validate : Bool) :
    Noticed (GlyphSet.readLayerInfo F (gs, fs) validate) (GlyphSet.readLayerInfo F (gs, fs') validate) := by
  intro x x' hx hx'
  unfold GlyphSet.readLayerInfo at hx hx'
  have := C110_plist F fs fs' h (gs.dir ++ [GlyphSet.layerinfoName]) (some (.dict []))
  revert hx hx' this
  dsimp only
  generalize getPlist F fs (gs.dir ++ [GlyphSet.layerinfoName]) (some (.dict [])) = a
  generalize getPlist F fs' (gs.dir ++ [GlyphSet.layerinfoName]) (some (.dict [])) = b
  intro hx hx' this
  cases a with
  | error e => cases hx
  | ok v =>
    cases b with
    | error e => cases hx'
    | ok v' =>
      have := this v v' rfl rfl
      subst this
      rw [hx] at hx'
      cases hx'
      rfl

theorem glif_cut {gs : GlyphSet.GlyphSet} {fs fs' : FS} (h : CutOff fs fs') {name : Str} {b b' : Bytes} (hb : GlyphSet.getGLIF (gs, fs) name = .ok b)
    (hb' : GlyphSet.getGLIF (gs, fs') name = .ok b') : b' <+: b := by
  unfold GlyphSet.getGLIF FS.getbytes at hb hb'
  dsimp only at hb hb'
  split at hb
  · cases hb
  · next f hf =>
    rw [hf] at hb'
    dsimp only at hb'
    rcases h.node (gs.dir ++ [f]) with e | ⟨d, k, e, e'⟩
    · rw [e] at hb'; rw [hb] at hb'; cases hb'; exact List.prefix_rfl
    · rw [e] at hb; rw [e'] at hb'; cases hb; cases hb'; exact List.take_prefix _ _

/-- C110. A glyph: its attributes and its outline. -/
theorem C110_glyph (E : Glif.Env) (gs : GlyphSet.GlyphSet) (fs fs' : FS) (h : CutOff fs fs') (name : Str) (hasObj hasPen validate : Bool) :
    Noticed (GlyphSet.readGlyph E (gs, fs) name hasObj hasPen validate) (GlyphSet.readGlyph E (gs, fs') name hasObj hasPen validate) := by
  intro x x' hx hx'
  unfold GlyphSet.readGlyph at hx hx'
  split at hx
  · cases hx
  · next b hb =>
    split at hx'
    · cases hx'
    · next b' hb' =>
      split at hx
      · cases hx
      · next t ht =>
        split at hx'
        · cases hx'
        · next t' ht' =>
          have := Cut.tree_prefix (glif_cut h hb hb') ht' ht
          subst this
          rw [hx] at hx'
          cases hx'
          rfl

/-- C110. Opening a UFO for writing: the layers the writer knows are those of the whole UFO. -/
theorem C110_writer (F : FloatCodec) (havePrevious : Bool) (fs fs' : FS) (h : CutOff fs fs') (version : Int) (creator : PyVal) (validate : Bool) :
    Noticed (openWriter F havePrevious fs version creator validate).2 (openWriter F havePrevious fs' version creator validate).2 := by
  have h1 : Noticed (previousVersion F havePrevious fs) (previousVersion F havePrevious fs') := by
    unfold previousVersion
    split
    · have := C110_plist F fs fs' h [metainfoName] none
      revert this
      generalize getPlist F fs [metainfoName] none = a
      generalize getPlist F fs' [metainfoName] none = b
      intro this x x' hx hx'
      cases a with
      | error e => cases hx
      | ok v =>
        cases b with
        | error e => cases hx'
        | ok v' =>
          have := this v v' rfl rfl
          subst this
          rw [hx] at hx'
          cases hx'
          rfl
    · exact noticed_refl _
  have h2 : ∀ p, Noticed (initialLayers F fs p validate) (initialLayers F fs' p validate) := by
    intro p
    unfold initialLayers
    split
    · have := layers_noticed F fs fs' h 3 validate
      unfold readLayers at this
      rw [if_neg (by decide), if_neg (by decide)] at this
      revert this
      generalize readLayerTable F fs validate = a
      generalize readLayerTable F fs' validate = b
      intro this x x' hx hx'
      cases a with
      | error e => cases hx
      | ok v =>
        cases b with
        | error e => cases hx'
        | ok v' =>
          have := this v v' rfl rfl
          subst this
          rw [hx] at hx'
          cases hx'
          rfl
    · rw [cut_exists h]; exact noticed_refl _
  intro x x' hx hx'
  unfold openWriter at hx hx'
  split at hx
  · cases hx
  · next hs =>
    rw [if_neg hs] at hx'
    generalize previousVersion F havePrevious fs = a at h1 hx
    generalize previousVersion F havePrevious fs' = b at h1 hx'
    cases a with
    | error e => cases hx
    | ok p =>
      cases b with
      | error e => cases hx'
      | ok p' =>
        have := h1 p p' rfl rfl
        subst this
        dsimp only at hx hx'
        split at hx
        · cases hx
        · next hp =>
          rw [if_neg hp] at hx'
          have h3 := h2 p'
          generalize initialLayers F fs p' validate = c at h3 hx
          generalize initialLayers F fs' p' validate = d at h3 hx'
          cases c with
          | error e => cases hx
          | ok t =>
            cases d with
            | error e => cases hx'
            | ok t' =>
              have := h3 t t' rfl rfl
              subst this
              dsimp only at hx hx'
              split at hx
              · cases hx
              · split at hx'
                · cases hx'
                · cases hx; cases hx'; rfl

/-- C110. What was written and then cut off: reading it raises or gives what was written, as it is read from the whole file. -/
theorem C110_written (F : FloatCodec) (hF : F.Lawful) (v : PyVal) (hv : Spec.Plist.Representable Spec.Plist.FileText v) (hw : Spec.Plist.WellFormed v) (b : Bytes) (hb : dumpBytes F v = .ok b) (k : Nat) (v' : PyVal)
    (h : loadBytes F (b.take k) = .ok v') : Spec.Plist.Same (Spec.Plist.untuple v) v' := by
  obtain ⟨s, w, h1, h2, h3⟩ := Plist.loads_dumps F hF true v hv hw
  unfold dumpBytes at hb
  rw [h1] at hb
  cases hb
  have : loadBytes F (utf8 s) = .ok w := by unfold loadBytes; rw [utf8Decode_utf8]; exact h2
  rw [Cut.load_prefix (List.take_prefix _ _) h this]
  exact h3

/-- C110. The same for the text of a glyph. -/
theorem C110_string (E : Glif.Env) (validate hasObj hasPen : Bool) (versions : List Int) (s : Str) (k : Nat) :
    Noticed (GlifFile.readGlyphFromString E validate hasObj hasPen versions s) (GlifFile.readGlyphFromBytes E validate hasObj hasPen versions ((utf8 s).take k)) := by
  intro x x' hx hx'
  unfold GlifFile.readGlyphFromString at hx
  unfold GlifFile.readGlyphFromBytes at hx hx'
  split at hx
  · cases hx
  · next t ht =>
    split at hx'
    · cases hx'
    · next t' ht' =>
      have := Cut.tree_prefix (List.take_prefix _ _) ht' ht
      subst this
      rw [hx] at hx'
      cases hx'
      rfl

/-! ### a concrete case -/

/-- Feature text, a lib, a layer with one glyph that has two code points and two components. -/
def fs110 : FS where
  canon := id
  log := []
  nodes := [([c!"metainfo.plist"], .file (utf8 c!"<plist><dict><key>formatVersion</key><integer>3</integer></dict></plist>\n")),
    ([c!"layercontents.plist"], .file (utf8 c!"<plist><array><array><string>fore</string><string>glyphs</string></array></array></plist>")),
    ([c!"lib.plist"], .file (utf8 c!"<plist><dict><key>a</key><true/><key>b</key><integer>3</integer></dict></plist>")),
    ([c!"features.fea"], .file (utf8 c!"feature liga {} liga;")),
    ([c!"images"], .dir), ([c!"images", c!"i.png"], .file ([137, 80, 78, 71, 13, 10, 26, 10, 1, 2, 3])),
    ([c!"glyphs"], .dir), ([c!"glyphs", c!"contents.plist"], .file (utf8 c!"<plist><dict><key>a</key><string>a.glif</string></dict></plist>")),
    ([c!"glyphs", c!"a.glif"], .file (utf8 c!"<glyph name='a' format='2'><unicode hex='41'/><unicode hex='42'/><image fileName='i.png'/>\
<outline><component base='b'/><component base='c'/></outline></glyph>"))]

/-- The same with every file cut off after so many bytes. -/
def cut110 (k : Nat) : FS := { fs110 with nodes := fs110.nodes.map fun e => (e.1, match e.2 with | .dir => .dir | .file b => .file (b.take k)) }

theorem cut110_cut (k : Nat) : CutOff fs110 (cut110 k) := by
  refine ⟨rfl, fun p => ?_⟩
  unfold FS.node?
  split
  · exact .inl rfl
  · rw [show (cut110 k).key p = fs110.key p from rfl]
    have key : ∀ (l : Dict Path Node) (q : Path), Dict.get? (l.map fun e => (e.1, match e.2 with | .dir => Node.dir | .file b => Node.file (b.take k))) q =
        (Dict.get? l q).map fun n => match n with | .dir => .dir | .file b => .file (b.take k) := by
      intro l q
      induction l with
      | nil => rfl
      | cons e l ih =>
        obtain ⟨a, n⟩ := e
        by_cases ha : a = q
        · rw [List.map_cons, Dict.get?_cons, Dict.get?_cons]
          dsimp only
          rw [if_pos ha, if_pos ha]
          rfl
        · rw [List.map_cons, Dict.get?_cons, Dict.get?_cons]
          dsimp only
          rw [if_neg ha, if_neg ha]
          exact ih
    rw [show (cut110 k).nodes = fs110.nodes.map fun e => (e.1, match e.2 with | .dir => Node.dir | .file b => Node.file (b.take k)) from rfl, key]
    cases Dict.get? fs110.nodes (fs110.key p) with
    | none => exact .inl rfl
    | some n =>
      cases n with
      | dir => exact .inl rfl
      | file b => exact .inr ⟨b, k, rfl, rfl⟩

/-- The glyph set of the layer. -/
def gs110 : GlyphSet.GlyphSet := { dir := [c!"glyphs"], contents := [(c!"a", c!"a.glif")], existing := none, reverse := none, havePrevious := true, version := 3, validateRead := true }

/-- Everything can be read from the whole files. The line end after the property list can be missing; the glyph is then cut off. -/
example : (readMetaInfo fractionCodec fs110 true).toOption = some 3 ∧ (readMetaInfo fractionCodec (cut110 72) true).toOption = some 3 ∧
    (readMetaInfo fractionCodec (cut110 71) true).toOption = none ∧ (readLib fractionCodec fs110 true).toOption.isSome = true ∧
    (readLib fractionCodec (cut110 50) true).toOption.isSome = false ∧ (getLayerNames fractionCodec fs110 3 true).toOption = some [c!"fore"] ∧
    (getLayerNames fractionCodec (cut110 72) 3 true).toOption = none ∧ ((GlyphSet.readGlyph env71 (gs110, fs110) c!"a" true true true).toOption.isSome = true) ∧
    (GlyphSet.readGlyph env71 (gs110, cut110 72) c!"a" true true true).toOption.isSome = false := by decide +kernel

end Verif.Props
