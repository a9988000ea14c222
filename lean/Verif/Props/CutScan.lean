import Verif.Props.Cut
/-! C111: fetching code points, components and images from glyph files that were cut off; feature text and images. -/
namespace Verif.Props
open Verif Verif.Ufo Verif.Spec.Cut Verif.GlyphSet

/-- The files of these glyphs, where they can be read, are well-formed documents. -/
def AllWellFormed (w : GlyphSet.World) (names : List Str) : Prop := ∀ n ∈ names, ∀ b, getGLIF w n = .ok b → ∃ t, glifTree b = .ok t

theorem fetchFiles_whole {α : Type} {fetch : Bytes → Except Exc α} {fetch' : Elem → Except Exc α} (hf : ∀ b t, glifTree b = .ok t → fetch b = fetch' t) (w : GlyphSet.World) :
    ∀ (names : List Str) (table : Dict Str α), AllWellFormed w names → fetchFiles fetch w table names = fetchAll fetch' w table names
  | [], _, _ => rfl
  | n :: ns, table, h => by
    rw [fetchFiles, fetchAll, fetchGlyph]
    cases hb : getGLIF w n with
    | error e => rfl
    | ok b =>
      obtain ⟨t, ht⟩ := h n (by simp) b hb
      dsimp only
      rw [ht, hf b t ht]
      dsimp only
      cases fetch' t with
      | error e => rfl
      | ok v => exact fetchFiles_whole hf w ns _ fun m hm => h m (by simp [hm])

/-- C111. From well-formed files the scanners fetch what the trees of the files hold, whatever expat does in the middle of them. -/
theorem C111_whole (w : GlyphSet.World) (names : Option (List Str)) (h : AllWellFormed w (names.getD (keys w.1))) :
    getUnicodesOf w names = getUnicodes w names ∧ getComponentReferencesOf w names = getComponentReferences w names ∧ getImageReferencesOf w names = getImageReferences w names :=
  ⟨fetchFiles_whole (fun _ _ ht => Cut.fetch_whole _ _ ht) w _ _ h, fetchFiles_whole (fun _ _ ht => Cut.fetch_whole _ _ ht) w _ _ h,
    fetchFiles_whole (fun _ _ ht => Cut.fetch_whole _ _ ht) w _ _ h⟩

theorem set_like {α : Type} {R : α → α → Prop} {n : Str} {v v' : α} (hv : R v v') : ∀ {t t' : Dict Str α}, TablesLike R t t' → TablesLike R (Dict.set t n v) (Dict.set t' n v')
  | [], [], _ => .cons ⟨rfl, hv⟩ .nil
  | (a, x) :: t, (a', x') :: t', .cons h hs => by
    obtain ⟨h1, h2⟩ := h
    dsimp only at h1
    subst h1
    unfold Dict.set
    split
    · exact .cons ⟨rfl, hv⟩ hs
    · exact .cons ⟨rfl, h2⟩ (set_like hv hs)

theorem fetchFiles_cut {α : Type} {fetch : Bytes → Except Exc α} {fetch' : Elem → Except Exc α} {R : α → α → Prop}
    (hf : ∀ p b t y, p <+: b → glifTree b = .ok t → fetch' t = .ok y → ∃ x, fetch p = .ok x ∧ R x y) {gs : GlyphSet.GlyphSet} {fs fs' : FS} (h : CutOff fs fs') {whole : Dict Str α} :
    ∀ (names : List Str) {t t' : Dict Str α}, TablesLike R t' t → fetchAll fetch' (gs, fs) t names = .ok whole → ∃ cut, fetchFiles fetch (gs, fs') t' names = .ok cut ∧ TablesLike R cut whole
  | [], t, t', hl, hw => by cases hw; exact ⟨t', rfl, hl⟩
  | n :: ns, t, t', hl, hw => by
    rw [fetchAll, fetchGlyph] at hw
    cases hb : getGLIF (gs, fs) n with
    | error e => rw [hb] at hw; cases hw
    | ok b =>
      rw [hb] at hw
      dsimp only at hw
      cases ht : glifTree b with
      | error e => rw [ht] at hw; cases hw
      | ok tr =>
        rw [ht] at hw
        dsimp only at hw
        cases hy : fetch' tr with
        | error e => rw [hy] at hw; cases hw
        | ok y =>
          rw [hy] at hw
          dsimp only at hw
          obtain ⟨p, hp⟩ : ∃ p, getGLIF (gs, fs') n = .ok p := by
            unfold getGLIF FS.getbytes at hb ⊢
            dsimp only at hb ⊢
            split at hb
            · cases hb
            · next f hf =>
              rcases h.node (gs.dir ++ [f]) with e | ⟨d, k, e, e'⟩
              · rw [e]; exact ⟨b, hb⟩
              · rw [e']; exact ⟨_, rfl⟩
          obtain ⟨x, hx, hR⟩ := hf p b tr y (glif_cut h hb hp) ht hy
          obtain ⟨cut, h1, h2⟩ := fetchFiles_cut hf h ns (set_like hR hl) hw
          refine ⟨cut, ?_, h2⟩
          rw [fetchFiles, hp]
          dsimp only
          rw [hx]
          exact h1

/-- C111. From files that were cut off the scanners fetch, for every glyph, the first of the code points. Missing from the full claim (an exception, or
everything): false, `C111_refuted`. -/
theorem C111_unicodes_partial (gs : GlyphSet.GlyphSet) (fs fs' : FS) (h : CutOff fs fs') (names : Option (List Str)) (table : Dict Str (List Int)) (ht : getUnicodes (gs, fs) names = .ok table) :
    ∃ cut, getUnicodesOf (gs, fs') names = .ok cut ∧ TablesLike (fun a b => a <+: b) cut table :=
  fetchFiles_cut (fun _ _ _ _ hp ht hy => Cut.unicodes_part hp ht hy) h _ .nil ht

/-- C111. The first of the components. -/
theorem C111_components_partial (gs : GlyphSet.GlyphSet) (fs fs' : FS) (h : CutOff fs fs') (names : Option (List Str)) (table : Dict Str (List Str))
    (ht : getComponentReferences (gs, fs) names = .ok table) : ∃ cut, getComponentReferencesOf (gs, fs') names = .ok cut ∧ TablesLike (fun a b => a <+: b) cut table :=
  fetchFiles_cut (fun _ _ _ _ hp ht hy => Cut.components_part hp ht hy) h _ .nil ht

/-- C111. The name of the image file, or none. -/
theorem C111_images_partial (gs : GlyphSet.GlyphSet) (fs fs' : FS) (h : CutOff fs fs') (names : Option (List Str)) (table : Dict Str (Option Str))
    (ht : getImageReferences (gs, fs) names = .ok table) : ∃ cut, getImageReferencesOf (gs, fs') names = .ok cut ∧ TablesLike (fun a b => a = none ∨ a = b) cut table :=
  fetchFiles_cut (fun _ _ _ _ hp ht hy => Cut.image_part hp ht hy) h _ .nil ht

/-- C111. The character mapping of well-formed files. -/
theorem C111_mapping (F : FloatCodec) (fs : FS) (version : Int) (layer : Option Str) (validate : Bool)
    (h : ∀ gs, readerGlyphSet F fs version layer validate = .ok gs → AllWellFormed (gs, fs) (keys gs)) :
    getCharacterMappingOf F fs version layer validate = getCharacterMapping F fs version layer validate := by
  unfold getCharacterMappingOf getCharacterMapping
  cases hg : readerGlyphSet F fs version layer validate with
  | error e => rfl
  | ok gs =>
    dsimp only
    rw [(C111_whole (gs, fs) none (h gs hg)).1]
    cases getUnicodes (gs, fs) none <;> rfl

/-- C111. Feature text that was cut off is its beginning, or raises (when a character was cut in two). -/
theorem C111_features_partial (fs fs' : FS) (h : CutOff fs fs') (s s' : Str) (hs : readFeatures fs = .ok s) (hs' : readFeatures fs' = .ok s') : s' <+: s := by
  unfold readFeatures FS.getbytes at hs hs'
  rcases h.node [featuresName] with e | ⟨b, k, e, e'⟩
  · rw [e] at hs'; rw [hs] at hs'; cases hs'; exact List.prefix_rfl
  · rw [e] at hs; rw [e'] at hs'
    dsimp only at hs hs'
    cases hu : utf8Decode b with
    | none => rw [hu] at hs; cases hs
    | some x =>
      cases hu' : utf8Decode (b.take k) with
      | none => rw [hu'] at hs'; cases hs'
      | some x' =>
        rw [hu] at hs; rw [hu'] at hs'
        cases hs; cases hs'
        exact Cut.utf8Decode_prefix (List.take_prefix _ _) hu' hu

/-- C111. An image that was cut off: its beginning, if that is enough for the signature of a PNG file. -/
theorem C111_image_partial (fs fs' : FS) (h : CutOff fs fs') (version : Int) (name : Str) (validate : Bool) (b b' : Bytes) (hb : readImage fs version name validate = .ok b)
    (hb' : readImage fs' version name validate = .ok b') : b' <+: b := by
  unfold readImage at hb hb'
  split at hb
  · cases hb
  · next hv =>
    rw [if_neg hv] at hb'
    cases hd : fs.node? [imagesName] with
    | none => rw [hd] at hb; cases hb
    | some n =>
      cases n with
      | file x => rw [hd] at hb; cases hb
      | dir =>
        rw [hd] at hb
        rw [(cut_dir h _).2 hd] at hb'
        unfold FS.getbytes at hb hb'
        dsimp only at hb hb'
        rcases h.node [imagesName, name] with e | ⟨x, k, e, e'⟩
        · rw [e] at hb'; rw [hb] at hb'; cases hb'; exact List.prefix_rfl
        · rw [e] at hb; rw [e'] at hb'
          dsimp only at hb hb'
          split at hb
          · cases hb
          · split at hb'
            · cases hb'
            · cases hb; cases hb'; exact List.take_prefix _ _

/-- C111. The full claim is false: of a glyph file that was cut off, `getUnicodes` gives one of the two code points and `getComponentReferences` nothing, without complaint. So do
`readFeatures` and `readImage`. -/
theorem C111_refuted : CutOff fs110 (cut110 50) ∧ (getUnicodesOf (gs110, fs110) none).toOption = some [(c!"a", [0x41, 0x42])] ∧
    (getUnicodesOf (gs110, cut110 50) none).toOption = some [(c!"a", [0x41])] ∧
    (getComponentReferencesOf (gs110, fs110) none).toOption = some [(c!"a", [c!"b", c!"c"])] ∧ (getComponentReferencesOf (gs110, cut110 50) none).toOption = some [(c!"a", [])] ∧
    (getImageReferencesOf (gs110, fs110) none).toOption = some [(c!"a", some c!"i.png")] ∧ (getImageReferencesOf (gs110, cut110 50) none).toOption = some [(c!"a", none)] ∧
    (readFeatures (cut110 8)).toOption = some c!"feature " ∧ (readImage (cut110 8) 3 c!"i.png" true).toOption = some [137, 80, 78, 71, 13, 10, 26, 10] :=
  ⟨cut110_cut 50, by decide +kernel, by decide +kernel, by decide +kernel, by decide +kernel, by decide +kernel, by decide +kernel, by decide +kernel, by decide +kernel⟩

/-- The whole files are well formed. -/
example : AllWellFormed (gs110, fs110) [c!"a"] ∧ (getUnicodes (gs110, fs110) none).toOption = some [(c!"a", [0x41, 0x42])] := by
  constructor
  · intro n hn b hb
    have h : ((getGLIF (gs110, fs110) c!"a").toOption.bind fun b => (glifTree b).toOption).isSome = true := by decide +kernel
    rw [List.mem_singleton] at hn
    subst hn
    rw [hb] at h
    cases ht : glifTree b with
    | error e => simp only [Except.toOption, Option.bind_some, ht] at h; cases h
    | ok t => exact ⟨t, rfl⟩
  · decide +kernel

end Verif.Props
