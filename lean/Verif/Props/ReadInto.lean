import Verif.Proofs.ReadInto
import Verif.Props.GlyphObjects
import Verif.Props.UfoInfo
/-! Reading into an object: C132. -/
namespace Verif.Props
open Verif Verif.Glif Verif.ReadInto Verif.Proofs.ReadInto

/-- `readInfo`: when the file cannot be read or is not valid, the object is as before. Otherwise, if the object accepts the attributes of the file, it has them afterwards, and its
other attributes are as before. -/
theorem C132_info (E : FontInfo.Env) (fs : FS) (version : Int) (validate : Bool) (t : Target) :
    (∀ e, Ufo.readInfo E fs version validate = .error e → readInfoInto E fs version validate t = (t, .error e)) ∧
    ∀ data, Ufo.readInfo E fs version validate = .ok data → (∀ k v, Dict.get? data k = some v → t.accepts k = true) →
      ∃ t', readInfoInto E fs version validate t = (t', .ok ()) ∧ ∀ k, t'.attrs k = (Dict.get? data k).or (t.attrs k) := by
  refine ⟨fun e h => by unfold readInfoInto; rw [h], fun data h ha => ?_⟩
  obtain ⟨t', h1, -, h2⟩ := populate_ok data t (info_wf h) fun k hk => by
    cases hg : Dict.get? data k with
    | none => exact absurd hk (Dict.get?_eq_none_iff.1 hg)
    | some v => exact ha k v hg
  exact ⟨t', by unfold readInfoInto; rw [h]; exact h1, h2⟩

/-- If the object refuses an attribute of the file, `UFOLibError` is raised. Missing from the full claim: the object then has some of the attributes of the file
(`C132_info_refuted`), none that it refuses. -/
theorem C132_refusing_partial (E : FontInfo.Env) (fs : FS) (version : Int) (validate : Bool) (t : Target) (data : Dict Str PyVal) (h : Ufo.readInfo E fs version validate = .ok data)
    (hr : ∃ k v, Dict.get? data k = some v ∧ t.accepts k = false) :
    ∃ t', readInfoInto E fs version validate t = (t', .error .ufoLibError) ∧ ∀ k, t'.attrs k = t.attrs k ∨ (t.accepts k = true ∧ t'.attrs k = Dict.get? data k) := by
  obtain ⟨k, v, hk, hr⟩ := hr
  have hw := info_wf h
  obtain ⟨t', pre, h1, h2, h3, h4⟩ := populate_refused data t hw ⟨k, List.mem_map_of_mem (f := Prod.fst) (Dict.mem_of_get? hk), hr⟩
  refine ⟨t', by unfold readInfoInto; rw [h]; exact h1, fun k => ?_⟩
  cases hg : Dict.get? pre k with
  | none => left; rw [h4 k, hg]; rfl
  | some v =>
    right
    have hm := h2.subset (Dict.mem_of_get? hg)
    refine ⟨h3 k (List.mem_map_of_mem (f := Prod.fst) (Dict.mem_of_get? hg)), ?_⟩
    rw [h4 k, hg, Dict.get?_of_mem hw hm]
    rfl

/-- `readLayerInfo`: when the file cannot be read or is not valid, the object is as before. -/
theorem C132_layer (F : FloatCodec) (w : GlyphSet.World) (validate : Bool) (t : Target) (e : Exc) (h : GlyphSet.readLayerInfo F w validate = .error e) :
    readLayerInfoInto F w validate t = (t, .error e) := by
  unfold readLayerInfoInto
  rw [h]

/-- `readGlyph`: what is raised or drawn does not depend on the object, nor on what it accepts. -/
theorem C132_glyph_outcome (E : Glif.Env) (w : GlyphSet.World) (name : Str) (validate : Bool) (t : Target) :
    (readGlyphInto E w name validate t).2 = (GlyphSet.readGlyph E w name true true validate).map Prod.snd := by
  unfold readGlyphInto GlyphSet.readGlyph
  cases GlyphSet.getGLIF w name with
  | error e => rfl
  | ok b =>
    dsimp only
    cases GlyphSet.glifTree b with
    | error e => rfl
    | ok tree => exact (treeInto_snd tree).1

/-- If nothing is raised, the object has the attributes of the glyph that it accepts; the others are as before. -/
theorem C132_glyph (E : Glif.Env) (w : GlyphSet.World) (name : Str) (validate : Bool) (t : Target) (attrs : Dict Str PyVal) (calls : List Call)
    (h : GlyphSet.readGlyph E w name true true validate = .ok (attrs, calls)) (k : Str) :
    (readGlyphInto E w name validate t).1.attrs k = if t.accepts k then (Dict.get? attrs k).or (t.attrs k) else t.attrs k := by
  unfold GlyphSet.readGlyph at h
  unfold readGlyphInto
  cases hb : GlyphSet.getGLIF w name with
  | error e => rw [hb] at h; cases h
  | ok b =>
    rw [hb] at h
    dsimp only at h ⊢
    cases ht : GlyphSet.glifTree b with
    | error e => rw [ht] at h; cases h
    | ok tree =>
      rw [ht] at h
      have := (treeInto_snd (E := E) (validate := validate) tree).2 _ h
      dsimp only at this ⊢
      unfold Target.relaxed
      dsimp only
      rw [this]
      split
      · cases Dict.get? attrs k <;> rfl
      · rfl

/-- Whatever happens, attributes other than those of glyphs, and attributes that the object refuses, are as before. Missing from the full claim: the attributes of glyphs, when
something is raised (`C132_glyph_refuted`). -/
theorem C132_glyph_others_partial (E : Glif.Env) (w : GlyphSet.World) (name : Str) (validate : Bool) (t : Target) (k : Str)
    (hk : k ∉ [c!"name", c!"width", c!"height", c!"unicodes", c!"note", c!"image", c!"guidelines", c!"anchors", c!"lib"] ∨ t.accepts k = false) :
    (readGlyphInto E w name validate t).1.attrs k = t.attrs k := by
  unfold readGlyphInto
  cases GlyphSet.getGLIF w name with
  | error e => rfl
  | ok b =>
    dsimp only
    cases GlyphSet.glifTree b with
    | error e => rfl
    | ok tree =>
      dsimp only
      unfold Target.relaxed
      dsimp only
      split
      · next ha =>
        rcases hk with hk | hk
        · rw [treeInto_within (E := E) (validate := validate) tree k hk]
        · rw [ha] at hk; cases hk
      · rfl

/-- If there is no such glyph, or its file is missing or not well-formed, the object is as before. -/
theorem C132_glyph_file (E : Glif.Env) (w : GlyphSet.World) (name : Str) (validate : Bool) (t : Target)
    (h : ∀ b tree, GlyphSet.getGLIF w name = .ok b → GlyphSet.glifTree b ≠ .ok tree) : (readGlyphInto E w name validate t).1 = t := by
  unfold readGlyphInto
  cases hb : GlyphSet.getGLIF w name with
  | error e => rfl
  | ok b =>
    dsimp only
    cases ht : GlyphSet.glifTree b with
    | error e => rfl
    | ok tree => exact absurd ht (h b tree hb)

/-- A new object, and one that accepts only the family name. -/
def any132 : Target := ⟨fun _ => none, fun _ => true⟩
def few132 : Target := ⟨fun k => if k = c!"familyName" then some (.str c!"Old") else none, fun k => decide (k = c!"familyName")⟩

/-- A UFO with a family name and a style name. -/
def ufo132 : FS := { canon := id, log := [], nodes := [([c!"fontinfo.plist"], .file (utf8 c!"<plist><dict><key>familyName</key><string>New</string><key>styleName</key><string>Bold</string></dict></plist>"))] }

example : (readInfoInto env57 ufo132 3 true any132).2.toOption.isSome = true ∧
    [c!"familyName", c!"styleName"].map (readInfoInto env57 ufo132 3 true any132).1.attrs.attr = [.str c!"New", .str c!"Bold"] := by decide +kernel

/-- The full claim fails for info: an object that accepts only some attributes is left with a part of them when `UFOLibError` is raised. -/
theorem C132_info_refuted : (readInfoInto env57 ufo132 3 true few132).2.toOption.isSome = false ∧ few132.attrs.attr c!"familyName" = .str c!"Old" ∧
    (readInfoInto env57 ufo132 3 true few132).1.attrs.attr c!"familyName" = .str c!"New" := by decide +kernel

/-- A glyph with a wrong element at its end. -/
def wrong132 : GlyphSet.World := (gs130, files130 c!"<glyph name='a' format='2'><advance width='500'/><note>new</note><outline></outline><spam/></glyph>")

/-- The full claim fails for glyphs: the exception comes when the attributes before the wrong element are set already. -/
theorem C132_glyph_refuted : (readGlyphInto env71 wrong132 c!"a" true any132).2.toOption.isSome = false ∧
    [c!"width", c!"note"].map (readGlyphInto env71 wrong132 c!"a" true any132).1.attrs.attr = [.int 500, .str c!"new"] := by decide +kernel

/-- The other theorems at work. -/
example : (readGlyphInto env71 before130 c!"a" true few132).2.toOption.map List.length = some 1 ∧
    (readGlyphInto env71 before130 c!"a" true few132).1.attrs.attr c!"note" = .none ∧ (readGlyphInto env71 before130 c!"a" true any132).1.attrs.attr c!"note" = .str c!"draft" := by decide +kernel
example : (readGlyphInto env71 before130 c!"b" true few132).2.toOption.isSome = false := by decide +kernel

end Verif.Props
