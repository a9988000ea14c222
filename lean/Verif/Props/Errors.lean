import Verif.Proofs.UfoErrors
import Verif.Props.FontInfo
import Verif.Props.Converters
import Verif.Props.GlifText
import Verif.Props.UfoVersion
/-! What damaged files can make the readers raise: C91. -/
namespace Verif.Props
open Verif Verif.FS Verif.IO Verif.Ufo Verif.Spec.Errors Verif.Spec.Plist Verif.Spec.Validators Verif.Spec.Woff Verif.Spec.FontInfo

/-- Whatever the files hold, reading the lib, the groups, the kerning, the layer names and the image list of a UFO 3 with validation raises
nothing but `UFOLibError`. -/
theorem C91_files (F : FloatCodec) (fs : FS) (version : Int) :
    Only (· = .ufoLibError) (readLib F fs true) ∧ Only (· = .ufoLibError) (readGroups3 F fs true) ∧ Only (· = .ufoLibError) (readKerning3 F fs true) ∧
    Only (· = .ufoLibError) (getLayerNames F fs version true) ∧ Only (· = .ufoLibError) (getDefaultLayerName F fs version true) ∧
    Only (· = .ufoLibError) (getImageDirectoryListing fs version true) :=
  ⟨readLib_only, readGroups_only, readKerning_only, getLayerNames_only, getDefaultLayerName_only, getImageDirectoryListing_only⟩

/-- Reading the layer info raises nothing but the two exceptions of the library. -/
theorem C91_layerInfo (F : FloatCodec) (w : GlyphSet.World) : Only (fun e => e = .ufoLibError ∨ e = .glifLibError) (GlyphSet.readLayerInfo F w true) :=
  GlyphSet.readLayerInfo_only

/-- Opening a layer raises nothing but the two exceptions of the library.
Missing from the full claim: no layer may be a file instead of a directory (see `C91_refuted`). -/
theorem C91_layer_partial (F : FloatCodec) (fs : FS) (version : Int) (layer : Option Str)
    (h : ∀ t, readLayers F fs version true = .ok t → ∀ e ∈ t, ∀ b, fs.node? [e.2] ≠ some (.file b)) :
    Only (fun e => e = .ufoLibError ∨ e = .glifLibError) (readerGlyphSet F fs version layer true) := GlyphSet.readerGlyphSet_only h

/-- Reading metainfo.plist raises nothing but `UFOLibError`.
Missing from the full claim: a dictionary must have an entry for the version (see `C91_refuted`). -/
theorem C91_metaInfo_partial (F : FloatCodec) (fs : FS)
    (h : ∀ d, getPlist F fs [metainfoName] none = .ok (.dict d) → ∃ v, Dict.get? d (.str c!"formatVersion") = some v) :
    Only (· = .ufoLibError) (readMetaInfo F fs true) := readMetaInfo_only h

/-- Reading the features raises nothing at all.
Missing from the full claim: the file must hold UTF-8 and not be a directory (see `C91_refuted`). -/
theorem C91_features_partial (fs : FS) (hd : fs.node? [featuresName] ≠ some .dir) (hu : ∀ b, fs.node? [featuresName] = some (.file b) → utf8Decode b ≠ none) :
    ∃ s, readFeatures fs = .ok s := by
  unfold readFeatures getbytes
  cases hn : fs.node? [featuresName] with
  | none => exact ⟨_, rfl⟩
  | some n =>
    cases n with
    | dir => exact absurd hn hd
    | file b =>
      cases hb : utf8Decode b with
      | none => exact absurd hb (hu b hn)
      | some s => exact ⟨s, by simp [hb]⟩

/-! ### Font info -/

mutual
theorem keyed_readable : ∀ v : PyVal, Readable v → Keyed v ∧ NoNone v
  | .none, h => h.elim
  | .bool _, _ => ⟨.atom _ trivial, .atom _ trivial (by simp)⟩
  | .int _, _ => ⟨.atom _ trivial, .atom _ trivial (by simp)⟩
  | .float _, _ => ⟨.atom _ trivial, .atom _ trivial (by simp)⟩
  | .str _, _ => ⟨.atom _ trivial, .atom _ trivial (by simp)⟩
  | .bytes _, _ => ⟨.atom _ trivial, .atom _ trivial (by simp)⟩
  | .date _, _ => ⟨.atom _ trivial, .atom _ trivial (by simp)⟩
  | .list l, h => ⟨.list l fun x hx => (keyed_readableList l h x hx).1, .list l fun x hx => (keyed_readableList l h x hx).2⟩
  | .tuple _, h => h.elim
  | .dict d, h => ⟨.dict d h.1 fun x hx => (keyed_readableItems d h.2 x hx).1, .dict d fun x hx => (keyed_readableItems d h.2 x hx).2⟩
  | .other _, h => h.elim
theorem keyed_readableList : ∀ l : List PyVal, ReadableList l → ∀ x ∈ l, Keyed x ∧ NoNone x
  | [], _, _, h => absurd h List.not_mem_nil
  | v :: l, h, x, hx => by
    rcases List.mem_cons.1 hx with e | hx
    · rw [e]; exact keyed_readable v h.1
    · exact keyed_readableList l h.2 x hx
theorem keyed_readableItems : ∀ l : List (PyVal × PyVal), ReadableItems l → ∀ x ∈ l, Keyed x.2 ∧ NoNone x.2
  | [], _, _, h => absurd h List.not_mem_nil
  | (k, v) :: l, h, x, hx => by
    rcases List.mem_cons.1 hx with e | hx
    · rw [e]; exact keyed_readable v h.2.1
    · exact keyed_readableItems l h.2.2 x hx
end

theorem validateData_only {E : FontInfo.Env} {d : Dict Str PyVal} (h : ∀ p ∈ d, ∃ b, FontInfo.validateValue E FontInfo.table3 p.1 p.2 = .ok b) :
    Only (· = .ufoLibError) (FontInfo.validateData E FontInfo.table3 d) := by
  induction d with
  | nil => exact Glif.only_ok
  | cons p d ih =>
    obtain ⟨a, v⟩ := p
    rw [List.forall_mem_cons] at h
    obtain ⟨⟨b, hb⟩, hd⟩ := h
    unfold FontInfo.validateData
    rw [hb]
    cases b
    · exact Glif.only_error rfl
    · dsimp only
      split
      · exact Glif.only_of (ih hd) (by assumption)
      · exact Glif.only_ok

theorem rowOf_readable : ∀ {d : List (PyVal × PyVal)}, ReadableItems d → ∃ t, rowOf d = .ok t
  | [], _ => ⟨_, rfl⟩
  | (k, v) :: d, h => by
    obtain ⟨s, rfl, -⟩ := h.1
    obtain ⟨t, ht⟩ := rowOf_readable h.2.2
    exact ⟨(s, v) :: t, by simp only [rowOf, ht]⟩

/-- On Python 3.8 or later, reading the font info of a UFO 3 raises nothing but `UFOLibError`.
Missing from the full claim: the items of integer lists and gasp behavior lists must not be lists or dictionaries (see `C91_refuted`). -/
theorem C91_info_partial (E : FontInfo.Env) (hE : E.py38 = true) (fs : FS)
    (h : ∀ d, getPlist E.F fs [fontinfoName] (some (.dict [])) = .ok (.dict d) → ∀ attr v, (.str attr, v) ∈ d →
      (attr ∈ integerLists → ∀ l, v = .list l → ∀ x ∈ l, Atomic x) ∧
      (attr = c!"openTypeGaspRangeRecords" → ∀ l, v = .list l → ∀ r ∈ l, ∀ d b, r = .dict d → (.str c!"rangeGaspBehavior", .list b) ∈ d → ∀ x ∈ b, Atomic x)) :
    Only (· = .ufoLibError) (readInfo E fs 3 true) := by
  unfold readInfo
  split
  · exact Glif.only_of getPlist_only (by assumption)
  · rename_i d hd
    have hr : Readable (.dict d) := (getPlist_readable hd).1.resolve_left (by simp)
    have hd' := h d hd
    obtain ⟨t, ht⟩ := rowOf_readable hr.2
    rw [ht]
    dsimp only
    refine validateData_only fun p hp => ?_
    obtain ⟨a, v⟩ := p
    obtain ⟨ha, hv⟩ := FontInfo.mem_gather.1 hp
    have hmem : (a, v) ∈ t := by
      cases hg : Dict.get? t a with
      | none => rw [hg] at hv; cases hv
      | some w =>
        rw [hg] at hv
        have : w = v := by cases w <;> simp_all [present]
        subst this
        exact Dict.mem_of_get? hg
    have hmd : (.str a, v) ∈ d := by
      rw [rowOf_ok ht]
      exact List.mem_map.2 ⟨(a, v), hmem, rfl⟩
    obtain ⟨h1, h2⟩ := hd' a v hmd
    obtain ⟨hk, hn⟩ := keyed_readableItems d hr.2 _ hmd
    have hnt : ∀ l, v ≠ .tuple l := by
      rintro l rfl
      have := (Plist.readableItems_iff.1 hr.2 _ hmd).2
      exact this
    exact C36_total_partial E hE a ha v hk hn (fun hi l hl => hl.elim (h1 hi l) fun hl => absurd hl (hnt l)) h2
  · exact Glif.only_error rfl

/-! ### Glyphs -/

/-- Reading a glyph with validation: whatever the tree of the GLIF is, nothing but `GlifLibError` is raised.
Missing from the full claim: code points must have their attribute, notes their text, libs one child that is a property list value
(see `C91_glyph_refuted`), and the bytes must be well-formed XML in UTF-8. -/
theorem C91_glyph_partial (E : Glif.Env) (b : Bytes) (t : Elem) (ht : GlyphSet.glifTree b = .ok t) (hg : Guarded E.F t) (hasObj hasPen : Bool) (versions : List Int) :
    Only (· = .glifLibError) (GlifFile.readGlyphFromBytes E true hasObj hasPen versions b) := by
  unfold GlifFile.readGlyphFromBytes
  rw [ht]
  exact Glif.readGlyphTree_only hg

/-- Without these conditions the exception is one of seven. -/
theorem C91_glyph_any (E : Glif.Env) (b : Bytes) (hasObj hasPen : Bool) (versions : List Int) :
    Only (· ∈ [.glifLibError, .xmlParseError, .assertionError, .indexError, .valueError, .typeError, .attributeError]) (GlifFile.readGlyphFromBytes E true hasObj hasPen versions b) := by
  unfold GlifFile.readGlyphFromBytes
  split
  · rename_i e he
    refine Glif.only_error ?_
    unfold GlyphSet.glifTree at he
    split at he
    · cases he; simp
    · split at he
      · cases he; simp
      · cases he
  · refine Glif.only_mono Glif.readGlyphTree_any fun e he => ?_
    rcases he with rfl | rfl | rfl | rfl | rfl | rfl <;> simp

/-- Reading a glyph of a glyph set: a name that is not in the table raises `KeyError`, a missing file `GlifLibError`, and a directory in place of
the file `FileExpected`; otherwise it is reading the bytes of the file. -/
theorem C91_readGlyph (E : Glif.Env) (w : GlyphSet.World) (name : Str) (hasObj hasPen : Bool) :
    (Dict.get? w.1.contents name = none → GlyphSet.readGlyph E w name hasObj hasPen true = .error .keyError) ∧
    (∀ f, Dict.get? w.1.contents name = some f →
      (w.2.node? (w.1.dir ++ [f]) = none → GlyphSet.readGlyph E w name hasObj hasPen true = .error .glifLibError) ∧
      (w.2.node? (w.1.dir ++ [f]) = some .dir → GlyphSet.readGlyph E w name hasObj hasPen true = .error .fileExpected) ∧
      (∀ b, w.2.node? (w.1.dir ++ [f]) = some (.file b) →
        GlyphSet.readGlyph E w name hasObj hasPen true = GlifFile.readGlyphFromBytes E true hasObj hasPen (if w.1.version < 3 then [1] else [1, 2]) b)) := by
  refine ⟨fun h => ?_, fun f hf => ⟨fun h => ?_, fun h => ?_, fun b h => ?_⟩⟩
  · simp [GlyphSet.readGlyph, GlyphSet.getGLIF, h]
  · simp [GlyphSet.readGlyph, GlyphSet.getGLIF, hf, getbytes, h]
  · simp [GlyphSet.readGlyph, GlyphSet.getGLIF, hf, getbytes, h]
  · simp only [GlyphSet.readGlyph, GlyphSet.getGLIF, hf, getbytes, h, GlifFile.readGlyphFromBytes]
    rfl

/-! ### Groups and kerning of UFO 1 and 2 -/

theorem kerningRow_map (r : Dict Str PyVal) : KerningReader.kerningRow (r.map fun e => (.str e.1, e.2)) = .ok r := by
  induction r with
  | nil => rfl
  | cons e r ih => simp only [List.map_cons, KerningReader.kerningRow, ih]

theorem kerningRows_map (k : Dict Str (Dict Str PyVal)) : KerningReader.kerningRows (k.map fun r => (.str r.1, .dict (r.2.map fun e => (.str e.1, e.2)))) = .ok k := by
  induction k with
  | nil => rfl
  | cons e k ih => simp only [List.map_cons, KerningReader.kerningRows, kerningRow_map, ih]

/-- The reader has converted successfully, or not yet. -/
def Sound (c : Option KerningReader.Cache) : Prop := ∀ d, c = some d → ∃ r, d.result = some r

/-- A call whose files, if they can be read, hold kerning in two levels. -/
structure Benign (c : KerningReader.Call) : Prop where
  validate : c.validate = true
  kerning : Only (· = .ufoLibError) c.kerningFile
  groups : Only (· = .ufoLibError) c.groupsFile
  rows : ∀ k, c.kerningFile = .ok k → ∃ t : Dict Str (Dict Str PyVal), k = .dict (t.map fun r => (.str r.1, .dict (r.2.map fun e => (.str e.1, e.2))))

theorem step_sound {ord1 ord2 : List Str → List Str} (h1 : ∀ l, (ord1 l).Perm l) (h2 : ∀ l, (ord2 l).Perm l) {cache : Option KerningReader.Cache} (hc : Sound cache)
    {c : KerningReader.Call} (hb : Benign c) :
    Only (· = .ufoLibError) (KerningReader.step (KerningReader.convertFiles ord1 ord2) cache c).1 ∧ Sound (KerningReader.step (KerningReader.convertFiles ord1 ord2) cache c).2 := by
  have key : (∃ e, (KerningReader.upConvert (KerningReader.convertFiles ord1 ord2) c cache).1 = .error e ∧ e = .ufoLibError ∧ Sound (KerningReader.upConvert (KerningReader.convertFiles ord1 ord2) c cache).2) ∨
      ∃ d r, (KerningReader.upConvert (KerningReader.convertFiles ord1 ord2) c cache).1 = .ok d ∧ d.result = some r ∧ Sound (KerningReader.upConvert (KerningReader.convertFiles ord1 ord2) c cache).2 := by
    unfold KerningReader.upConvert
    split
    · rename_i d
      obtain ⟨r, hr⟩ := hc d rfl
      split
      · rename_i e he
        exact Or.inl ⟨e, rfl, hb.kerning e he, hc⟩
      · split
        · exact Or.inl ⟨_, rfl, rfl, hc⟩
        · split
          · rename_i e he
            exact Or.inl ⟨e, rfl, hb.groups e he, hc⟩
          · split
            · exact Or.inl ⟨_, rfl, rfl, hc⟩
            · exact Or.inr ⟨d, r, rfl, hr, hc⟩
    · have hn : Sound none := by intro d hd; cases hd
      split
      · rename_i e he
        exact Or.inl ⟨e, rfl, hb.groups e he, hn⟩
      · rename_i g hg
        split
        · exact Or.inl ⟨_, rfl, rfl, hn⟩
        · rename_i hcg
          rw [hb.validate] at hcg
          split
          · rename_i e he
            exact Or.inl ⟨e, rfl, hb.kerning e he, hn⟩
          · rename_i k hk
            obtain ⟨t, rfl⟩ := hb.rows k hk
            cases hg' : KerningReader.checkedGroups g with
            | none => rw [hg'] at hcg; simp at hcg
            | some g' =>
              obtain ⟨r, hr⟩ := C13_total (kerning := t) (groups := g') h1 h2
              have : KerningReader.convertFiles ord1 ord2 (.dict (t.map fun r => (.str r.1, .dict (r.2.map fun e => (.str e.1, e.2))))) g = .ok r := by
                simp only [KerningReader.convertFiles, kerningRows_map, hg', hr]
              rw [this]
              exact Or.inr ⟨_, r, rfl, rfl, fun d hd => by cases hd; exact ⟨r, rfl⟩⟩
  unfold KerningReader.step
  rcases key with ⟨e, he, h', hs⟩ | ⟨d, r, hd, hr, hs⟩
  · split
    · rename_i h
      rw [h] at he hs
      cases he
      exact ⟨Glif.only_error h', hs⟩
    · rename_i h
      rw [h] at he
      cases he
  · split
    · rename_i h
      rw [h] at hd
      cases hd
    · rename_i h
      rw [h] at hd hs
      cases hd
      refine ⟨?_, hs⟩
      dsimp only
      unfold KerningReader.deliver
      rw [hr]
      dsimp only
      (repeat' split) <;> first | exact Glif.only_ok | exact Glif.only_error rfl | contradiction | (rename_i h; cases h)

/-- However often and in whatever order the groups, kerning and rename maps of a UFO 1 or 2 are read with validation, while the files change:
nothing but `UFOLibError` is raised.
Missing from the full claim: kerning.plist must hold two levels of dictionaries whenever it is read (see `C91_old_refuted`). -/
theorem C91_old_partial {ord1 ord2 : List Str → List Str} (h1 : ∀ l, (ord1 l).Perm l) (h2 : ∀ l, (ord2 l).Perm l) (calls : List KerningReader.Call)
    (h : ∀ c ∈ calls, Benign c) : ∀ r ∈ KerningReader.run (KerningReader.convertFiles ord1 ord2) none calls, Only (· = .ufoLibError) r.2 := by
  have : ∀ cache, Sound cache → ∀ r ∈ KerningReader.run (KerningReader.convertFiles ord1 ord2) cache calls, Only (· = .ufoLibError) r.2 := by
    induction calls with
    | nil => intro _ _ r hr; exact absurd hr List.not_mem_nil
    | cons c calls ih =>
      intro cache hc r hr
      rw [List.forall_mem_cons] at h
      obtain ⟨ha, hb⟩ := step_sound h1 h2 hc h.1
      rcases List.mem_cons.1 hr with rfl | hr
      · exact ha
      · exact ih h.2 _ hb r hr
  exact this none (by intro d hd; cases hd)

/-! ### What other exceptions there are -/

/-- A UFO with one file. -/
def fs91 (name : Str) (n : Node) : FS := { fs57 with nodes := [([name], n)] }

/-- A version that is missing raises `KeyError`; features that are not UTF-8 raise `UnicodeDecodeError`, a directory in their place `FileExpected`; a
list among head flags raises `TypeError`; a file in place of a layer raises `DirectoryExpected`. -/
theorem C91_refuted :
    raised (readMetaInfo fractionCodec (fs91 c!"metainfo.plist" (.file (utf8 c!"<plist><dict/></plist>"))) true) = some .keyError ∧
    raised (readFeatures (fs91 c!"features.fea" (.file [255]))) = some .valueError ∧
    raised (readFeatures (fs91 c!"features.fea" .dir)) = some .fileExpected ∧
    raised (readInfo env57 (fs91 c!"fontinfo.plist" (.file (utf8 c!"<plist><dict><key>openTypeHeadFlags</key><array><array/></array></dict></plist>"))) 3 true) = some .typeError ∧
    raised (readerGlyphSet fractionCodec (fs91 c!"glyphs" (.file [])) 2 none true) = some .directoryExpected := by decide +kernel

/-- Reading these bytes as a glyph. -/
def read91 (s : Str) : Option Exc := raised (GlifFile.readGlyphFromString env71 true true true [1, 2] s)

/-- A code point without its attribute raises `TypeError`, an empty note `AttributeError`, an empty lib `AssertionError`, a lib with a key alone
`IndexError`, one with a bad number `ValueError`, and what is not XML a parser error. -/
theorem C91_glyph_refuted :
    read91 c!"<glyph name='a' format='2'><unicode/></glyph>" = some .typeError ∧
    read91 c!"<glyph name='a' format='2'><note/></glyph>" = some .attributeError ∧
    read91 c!"<glyph name='a' format='2'><lib/></glyph>" = some .assertionError ∧
    read91 c!"<glyph name='a' format='2'><lib><key>a</key></lib></glyph>" = some .indexError ∧
    read91 c!"<glyph name='a' format='2'><lib><dict><key>a</key><integer>x</integer></dict></lib></glyph>" = some .valueError ∧
    read91 c!"<glyph name='a'" = some .xmlParseError := by decide +kernel

/-- Kerning that is not a dictionary of dictionaries raises `AttributeError`; the next call of the same reader asking for the rename maps raises
`KeyError`. -/
theorem C91_old_refuted :
    (KerningReader.run (KerningReader.convertFiles id id) none
      [⟨.kerning, true, .ok (.dict [(.str c!"A", .int 1)]), .ok (.dict [])⟩, ⟨.maps, true, .ok (.dict [(.str c!"A", .int 1)]), .ok (.dict [])⟩]).map (fun r => raised r.2)
      = [some .attributeError, some .keyError] := by decide +kernel

/-- The conditions of `C91_glyph_partial` hold of a glyph whose outline is damaged, which raises `GlifLibError`. -/
def text91 : Str := c!"<glyph name='a' format='2'><unicode hex='41'/><note>x</note><lib><dict><key>k</key><true/></dict></lib><outline><contour><point x='1' y='z'/></contour></outline></glyph>"

theorem text91_tree : ∃ t, GlyphSet.glifTree (utf8 text91) = .ok t ∧ Guarded env71.F t := by
  have h : (GlyphSet.glifTree (utf8 text91)).toOption = some (Elem.mk c!"glyph" [(c!"name", c!"a"), (c!"format", c!"2")] none none
      [.mk c!"unicode" [(c!"hex", c!"41")] none none [], .mk c!"note" [] (some (.str c!"x")) none [],
       .mk c!"lib" [] none none [.mk c!"dict" [] none none [.mk c!"key" [] (some (.str c!"k")) none [], .mk c!"true" [] none none []]],
       .mk c!"outline" [] none none [.mk c!"contour" [] none none [.mk c!"point" [(c!"x", c!"1"), (c!"y", c!"z")] none none []]]]) := by decide +kernel
  refine ⟨_, toOption_some h, ⟨?_, ?_, ?_⟩⟩
  all_goals
    intro e he ht
    simp only [Elem.children, List.mem_cons, List.not_mem_nil, or_false] at he
    rcases he with rfl | rfl | rfl | rfl <;> first | exact absurd ht (by decide) | skip
  · exact ⟨_, rfl⟩
  · exact ⟨_, rfl⟩
  · exact ⟨_, _, rfl, rfl⟩

example : read91 text91 = some .glifLibError := by decide +kernel

/-- Damaged files of all kinds: each call raises `UFOLibError`. -/
example :
    raised (readLib fractionCodec (fs91 c!"lib.plist" (.file (utf8 c!"<plist><array/></plist>"))) true) = some .ufoLibError ∧
    raised (readGroups3 fractionCodec (fs91 c!"groups.plist" .dir) true) = some .ufoLibError ∧
    raised (readKerning3 fractionCodec (fs91 c!"kerning.plist" (.file (utf8 c!"<plist><dict><key>a</key><integer>1</integer></dict></plist>"))) true) = some .ufoLibError ∧
    raised (getLayerNames fractionCodec (fs91 c!"layercontents.plist" (.file (utf8 c!"<plist><dict/>"))) 3 true) = some .ufoLibError ∧
    raised (getImageDirectoryListing (fs91 c!"images" (.file [])) 3 true) = some .ufoLibError ∧
    raised (readMetaInfo fractionCodec (fs91 c!"metainfo.plist" (.file (utf8 c!"<plist><dict><key>formatVersion</key><string>3</string></dict></plist>"))) true) = some .ufoLibError ∧
    raised (readInfo env57 (fs91 c!"fontinfo.plist" (.file (utf8 c!"<plist><dict><key>openTypeHeadFlags</key><array><string/></array></dict></plist>"))) 3 true) = some .ufoLibError ∧
    raised (readFeatures (fs91 c!"features.fea" (.file [97]))) = none := by decide +kernel

/-- Kerning in two levels with a value that is no number. -/
example : Benign ⟨.kerning, true, .ok (.dict [(.str c!"A", .dict [(.str c!"B", .str c!"x")])]), .error .ufoLibError⟩ :=
  ⟨rfl, nofun, fun _ h => by cases h; rfl, fun k hk => by cases hk; exact ⟨[(c!"A", [(c!"B", .str c!"x")])], rfl⟩⟩

end Verif.Props
