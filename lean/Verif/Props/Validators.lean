import Verif.Proofs.Woff
import Verif.Proofs.Num
/-! Value validators: C30-C35 and C68. -/
namespace Verif.Props
open Verif Verif.Validators Verif.Spec.Validators Verif.Spec.Woff Verif.Spec.Plist

/-! ### C30 -/

/-- Exactly the strings of 1 to 100 printable ASCII characters are identifiers. -/
theorem C30_identifier (v : PyVal) : identifierValidator v = true ↔ ∃ s, v = .str s ∧ LegalIdentifier s := identifier_iff

example : LegalIdentifier c!"My identifier~" ∧ ¬ LegalIdentifier c!"tab\t" := by
  constructor
  · exact ⟨by decide, by decide, by decide⟩
  · exact fun h => absurd (h.2.2 '\t' (by decide)) (by decide)

/-! ### C31 -/

/-- A guideline list is accepted exactly if it is a list of well-formed guidelines with pairwise different, so far unused legal
identifiers; these are added to the set.
Missing from the full claim: an angle `nan` counts as lying between 0 and 360 (see `C31_angle_refuted`). -/
theorem C31_guidelines_partial (F : FloatCodec) (v : PyVal) (hv : ∀ l, v = .list l → ∀ e ∈ l, DictKeys e) (ids out : List Str) :
    guidelinesValidator F ids v = (true, out) ↔
      ∃ l, v = .list l ∧ (∀ e ∈ l, ∃ d, e = .dict d ∧ Guideline F d) ∧ (identifiers l).Nodup ∧ (∀ i ∈ identifiers l, i ∉ ids) ∧ out = ids ++ identifiers l := by
  unfold guidelinesValidator
  split
  · next l =>
    simp only [PyVal.list.injEq, exists_eq_left']
    refine entries_iff (fun v hv => guideline_iff hv) (fun d hd w hw => ?_) l (hv l rfl) ids out
    obtain ⟨s, h, -⟩ := hd.identifier w hw
    exact ⟨s, h⟩
  · next h =>
    simp only [Prod.mk.injEq, Bool.false_eq_true, false_and, false_iff]
    rintro ⟨l, rfl, -⟩
    exact h l rfl

/-- The same for anchors, without exception. -/
theorem C31_anchors (F : FloatCodec) (v : PyVal) (hv : ∀ l, v = .list l → ∀ e ∈ l, DictKeys e) (ids out : List Str) :
    anchorsValidator F ids v = (true, out) ↔
      ∃ l, v = .list l ∧ (∀ e ∈ l, ∃ d, e = .dict d ∧ Anchor F d) ∧ (identifiers l).Nodup ∧ (∀ i ∈ identifiers l, i ∉ ids) ∧ out = ids ++ identifiers l := by
  unfold anchorsValidator
  split
  · next l =>
    simp only [PyVal.list.injEq, exists_eq_left']
    refine entries_iff (fun v hv => anchor_iff hv) (fun d hd w hw => ?_) l (hv l rfl) ids out
    obtain ⟨s, h, -⟩ := hd.identifier w hw
    exact ⟨s, h⟩
  · next h =>
    simp only [Prod.mk.injEq, Bool.false_eq_true, false_and, false_iff]
    rintro ⟨l, rfl, -⟩
    exact h l rfl

/-- `nan` is accepted as an angle, though it is not between 0 and 360. -/
theorem C31_angle_refuted (F : FloatCodec) :
    (guidelinesValidator F [] (.list [.dict [(.str c!"x", .int 1), (.str c!"y", .int 2), (.str c!"angle", .float .nan)]])).1 = true := rfl

example : guidelinesValidator fractionCodec [c!"used"] (.list [
    .dict [(.str c!"x", .int 1), (.str c!"identifier", .str c!"a"), (.str c!"color", .str c!"0,1/2,1,0")],
    .dict [(.str c!"x", .float (.fin (1 / 2))), (.str c!"y", .int (-5)), (.str c!"angle", .int 360), (.str c!"identifier", .str c!"b")]])
      = (true, [c!"used", c!"a", c!"b"]) ∧
    (guidelinesValidator fractionCodec [] (.list [.dict [(.str c!"x", .int 1), (.str c!"identifier", .str c!"a")],
      .dict [(.str c!"y", .int 1), (.str c!"identifier", .str c!"a")]])).1 = false ∧
    (guidelinesValidator fractionCodec [] (.list [.dict [(.str c!"x", .int 1), (.str c!"angle", .int 3)]])).1 = false ∧
    anchorsValidator fractionCodec [] (.list [.dict [(.str c!"x", .int 1), (.str c!"y", .bool true), (.str c!"name", .none)]]) = (true, []) := by
  decide +kernel

/-! ### C32 -/

/-- Exactly the strings of four comma separated numbers, none of them below 0 or above 1, are colors.
Missing from the full claim: `nan` is neither below 0 nor above 1 (see `C32_refuted`). -/
theorem C32_color_partial (F : FloatCodec) (v : PyVal) : colorValidator F v = true ↔ ∃ s, v = .str s ∧ FourNumbers F (Within 0 1) s := color_iff

/-- If Python's `float` reads "nan" as not-a-number, "nan,nan,nan,nan" is a color although its parts denote no number. -/
theorem C32_refuted (F : FloatCodec) (hF : F.parse c!"nan" = some .nan) : colorValidator F (.str c!"nan,nan,nan,nan") = true := by
  have hs : splitOn ',' c!"nan,nan,nan,nan" = [c!"nan", c!"nan", c!"nan", c!"nan"] := by decide +kernel
  have hst : strip c!"nan" = c!"nan" := by decide +kernel
  have hi : pyInt c!"nan" = none := by decide +kernel
  unfold colorValidator
  simp only [hs, List.length_cons, List.length_nil, List.all_cons, List.all_nil, hst, colorNumber, hi, hF, fltLt]
  rfl

example : FloatCodec.parse fractionCodec c!"nan" = some .nan ∧ colorValidator fractionCodec (.str c!"0, 1/2 ,1,0") = true ∧
    colorValidator fractionCodec (.str c!"0,0,0") = false ∧ colorValidator fractionCodec (.str c!"0,0,0,2") = false := by
  decide +kernel

/-! ### C33 -/

/-- The text of every existing date and time (years 1 to 9999) is accepted, by every version of Python. -/
theorem C33_complete (py38 : Bool) (d : PyDate) (hd : RealDate d) : headCreatedValidator py38 (.str (dateText d)) = .ok true := headCreated_complete py38 d hd

/-- Only strings are accepted; an accepted string made of digits and separators is the text of a date and time, which exists unless
the year is 0 (which needs Python 3.8).
Missing from the full claim: signs, underscores and white space inside the parts are accepted as well (see `C33_refuted`), and the
year 0 (see `C33_year_zero_refuted`). -/
theorem C33_sound_partial (py38 : Bool) (v : PyVal) (h : headCreatedValidator py38 v = .ok true) :
    ∃ s, v = .str s ∧ s.length = 19 ∧ ((∀ c ∈ s, isDigit c = true ∨ c = '/' ∨ c = ' ' ∨ c = ':') →
      ∃ d : PyDate, s = dateText d ∧ (1 ≤ d.year → RealDate d) ∧ (py38 = false → 1 ≤ d.year)) := by
  obtain ⟨ys, ms, ds, hs, mis, ss, rfl, h1, h2, -⟩ := headCreated_parts h
  exact ⟨_, rfl, by simp [headText, h1.len, h2.len], headCreated_sound h⟩

/-- `int()` also takes signs, so "2010/+1/01 00:00:00" is accepted. -/
theorem C33_refuted (py38 : Bool) : headCreatedValidator py38 (.str c!"2010/+1/01 00:00:00") = .ok true := by
  cases py38 <;> decide +kernel

/-- From Python 3.8 on the year 0 is accepted. -/
theorem C33_year_zero_refuted : headCreatedValidator true (.str c!"0000/01/01 00:00:00") = .ok true := by decide +kernel

example : RealDate ⟨2012, 2, 29, 9, 5, 0⟩ ∧ dateText ⟨2012, 2, 29, 9, 5, 0⟩ = c!"2012/02/29 09:05:00" :=
  ⟨(Plist.dateOk_iff _).1 (by decide), by decide +kernel⟩

example : headCreatedValidator true (.str c!"2011/02/29 09:05:00") = .ok false ∧ headCreatedValidator true (.str c!"2012/02/29 24:05:00") = .ok false := by
  decide +kernel

/-! ### C34 -/

/-- Exactly the consistent layer tables are accepted, whatever the file system. -/
theorem C34_layerContents (fsExists : Str → Except Exc Bool) (v : PyVal) :
    layerContentsValidator fsExists v = .ok true ↔
      ∃ t, v = .list (t.map fun p : Str × Str => .list [.str p.1, .str p.2]) ∧ LayerTable fsExists t := layerContents_iff

/-- The validator raises only if the file system does. -/
theorem C34_total (fsExists : Str → Except Exc Bool) (hf : ∀ d, ∃ b, fsExists d = .ok b) (v : PyVal) : ∃ b, layerContentsValidator fsExists v = .ok b := by
  unfold layerContentsValidator
  split
  · exact layerEntries_total hf _ _ _
  · exact ⟨_, rfl⟩

example : LayerTable (fun d => .ok (d ∈ [c!"glyphs", c!"glyphs.bg"])) [(c!"public.default", c!"glyphs"), (c!"bg", c!"glyphs.bg")] := by
  refine ⟨by decide, by decide, by decide, ?_, ?_, by decide, by decide⟩
  · intro p hp
    simp only [List.mem_cons, List.not_mem_nil, or_false] at hp
    rcases hp with rfl | rfl
    · exact .inl rfl
    · exact .inr ⟨c!"bg", rfl⟩
  · intro p hp
    simp only [List.mem_cons, List.not_mem_nil, or_false] at hp
    rcases hp with rfl | rfl <;> rfl

/-! ### C35 -/

/-- Weight class: a non-negative integer. -/
theorem C35_weightClass (v : PyVal) : weightClassValidator v = true ↔ ∃ i, IsInt v i ∧ 0 ≤ i := weight_iff

/-- Width class: an integer from 1 to 9. -/
theorem C35_widthClass (v : PyVal) : widthClassValidator v = true ↔ ∃ i, IsInt v i ∧ 1 ≤ i ∧ i ≤ 9 := width_iff

/-- Panose, UFO 2: ten integers. -/
theorem C35_panose2 (v : PyVal) : panose2Validator v = true ↔ ∃ l, IsSeq v l ∧ l.length = 10 ∧ ∀ x ∈ l, ∃ i, IsInt x i := panose2_iff

/-- Panose, UFO 3: ten non-negative integers. -/
theorem C35_panose3 (v : PyVal) : panose3Validator v = true ↔ ∃ l, IsSeq v l ∧ l.length = 10 ∧ ∀ x ∈ l, ∃ i, IsInt x i ∧ 0 ≤ i := panose3_iff

/-- Family class: two integers, 0 to 14 and 0 to 15. -/
theorem C35_familyClass (v : PyVal) : familyClassValidator v = true ↔
    ∃ a b i j, IsSeq v [a, b] ∧ IsInt a i ∧ IsInt b j ∧ 0 ≤ i ∧ i ≤ 14 ∧ 0 ≤ j ∧ j ≤ 15 := family_iff

/-- Blues: an even number of numbers, at most `max` (14 for blues, 10 for other blues). -/
theorem C35_blues (max : Nat) (v : PyVal) : bluesValidator max v = true ↔ ∃ l, IsSeq v l ∧ l.length ≤ max ∧ 2 ∣ l.length ∧ ∀ x ∈ l, IsNum x := blues_iff

/-- Stems: at most twelve numbers. -/
theorem C35_stems (v : PyVal) : stemsValidator v = true ↔ ∃ l, IsSeq v l ∧ l.length ≤ 12 ∧ ∀ x ∈ l, IsNum x := stems_iff

/-- Character set: among the integers, exactly 1 to 20.
Missing from the full claim: floats with these values are accepted as well (see `C35_characterSet_refuted`). -/
theorem C35_characterSet_partial (v : PyVal) : windowsCharacterSetValidator v = true ↔ ∃ i : Int, 1 ≤ i ∧ i ≤ 20 ∧ (IsInt v i ∨ v = .float (.fin i)) := characterSet_iff

/-- The float 3.0 is accepted as a character set. -/
theorem C35_characterSet_refuted : windowsCharacterSetValidator (.float (.fin 3)) = true ∧ ∀ i, ¬ IsInt (.float (.fin 3)) i :=
  ⟨by decide +kernel, fun i h => by rcases h with h | ⟨h, -⟩ | ⟨h, -⟩ <;> cases h⟩

/-- Style map style names. -/
theorem C35_styleMap (v : PyVal) : styleMapStyleNameValidator v = true ↔ ∃ s ∈ [c!"regular", c!"italic", c!"bold", c!"bold italic"], v = .str s := styleMap_iff

/-- Lists of bit numbers: every item is an integer among the valid ones. -/
theorem C35_intList (v : PyVal) (valid : List Int) : genericIntListValidator v valid = .ok true ↔ ∃ l, IsSeq v l ∧ ∀ x ∈ l, ∃ i ∈ valid, IsInt x i := intList_iff

/-- Gasp ranges: records in non-decreasing order of size. -/
theorem C35_gasp (v : PyVal) (hv : ∀ l, v = .list l → ∀ e ∈ l, DictKeys e) : gaspRangeRecordsValidator v = .ok true ↔
    ∃ l ppems, v = .list l ∧ List.Forall₂ GaspRecord l ppems ∧ ppems.Pairwise (· ≤ ·) := gasp_iff hv

/-- Kerning: dictionaries of dictionaries of numbers, with string keys. -/
theorem C35_kerning (v : PyVal) : kerningValidator v = true ↔
    ∃ d, v = .dict d ∧ ∀ p ∈ d, IsString p.1 ∧ ∃ s, p.2 = .dict s ∧ ∀ q ∈ s, IsString q.1 ∧ IsNum q.2 := kerning_iff

/-- Font lib: string keys, and the glyph order a list of strings. -/
theorem C35_fontLib (v : PyVal) : fontLibValidator v = true ↔
    ∃ d, v = .dict d ∧ ∀ p ∈ d, IsString p.1 ∧ (p.1 = .str c!"public.glyphOrder" → ∃ l, IsSeq p.2 l ∧ ∀ x ∈ l, IsString x) := fontLib_iff

/-- Glyph lib: string keys, and the mark color a color. -/
theorem C35_glyphLib (F : FloatCodec) (v : PyVal) : glyphLibValidator F v = .ok true ↔
    ∃ d, v = .dict d ∧ ∀ p ∈ d, IsString p.1 ∧ (p.1 = .str c!"public.markColor" → ∃ s, p.2 = .str s ∧ FourNumbers F (Within 0 1) s) := glyphLib_iff

example : weightClassValidator (.int 400) = true ∧ weightClassValidator (.int (-1)) = false ∧ widthClassValidator (.bool true) = true ∧
    widthClassValidator (.int 10) = false ∧ familyClassValidator (.tuple [.int 14, .int 15]) = true ∧ familyClassValidator (.list [.int 15, .int 0]) = false ∧
    bluesValidator 14 (.list [.int 1, .float (.fin 2)]) = true ∧ bluesValidator 14 (.list [.int 1]) = false ∧ stemsValidator (.list [.str []]) = false ∧
    styleMapStyleNameValidator (.str c!"bold italic") = true ∧ genericIntListValidator (.list [.int 3, .int 3]) [1, 2, 3] = .ok true ∧
    genericIntListValidator (.list [.float (.fin 3)]) [1, 2, 3] = .ok false := by
  decide +kernel

example : gaspRangeRecordsValidator (.list [.dict [(.str c!"rangeMaxPPEM", .int 8), (.str c!"rangeGaspBehavior", .list [.int 0, .int 2])],
      .dict [(.str c!"rangeGaspBehavior", .list []), (.str c!"rangeMaxPPEM", .int 65535)]]) = .ok true ∧
    gaspRangeRecordsValidator (.list [.dict [(.str c!"rangeMaxPPEM", .int 8), (.str c!"rangeGaspBehavior", .list [])],
      .dict [(.str c!"rangeGaspBehavior", .list []), (.str c!"rangeMaxPPEM", .int 7)]]) = .ok false ∧
    kerningValidator (.dict [(.str c!"A", .dict [(.str c!"V", .float (.fin (-3)))])]) = true ∧ kerningValidator (.dict [(.str c!"A", .int 1)]) = false ∧
    fontLibValidator (.dict [(.str c!"public.glyphOrder", .list [.str c!"A"]), (.str c!"x", .none)]) = true ∧
    fontLibValidator (.dict [(.str c!"public.glyphOrder", .str c!"A")]) = false ∧
    glyphLibValidator fractionCodec (.dict [(.str c!"public.markColor", .str c!"1,1,1,1/3")]) = .ok true ∧
    glyphLibValidator fractionCodec (.dict [(.str c!"public.markColor", .str c!"1,1,1")]) = .ok false := by
  decide +kernel

/-! ### C68 -/

/-- Name records. -/
theorem C68_nameRecords (v : PyVal) : nameRecordsValidator v = true ↔ ∃ l, v = .list l ∧ ∀ r ∈ l, NameRecord r := nameRecords_iff

/-- WOFF metadata: each validator accepts exactly the documented structure. -/
theorem C68_woff (v : PyVal) (hk : Keyed v) :
    (woffUniqueID v = true ↔ UniqueID v) ∧ (woffVendor v = true ↔ Vendor v) ∧ (woffCredits v = .ok true ↔ Credits v) ∧
    (woffDescription v = .ok true ↔ Description v) ∧ (woffLicense v = .ok true ↔ License v) ∧ (woffTexts v = .ok true ↔ Texts v) ∧
    (woffLicensee v = true ↔ Licensee v) ∧ (woffExtensions v = .ok true ↔ Extensions v) :=
  ⟨uniqueID_iff, vendor_iff hk, credits_iff hk, description_iff hk, license_iff hk, texts_iff hk, licensee_iff hk, extensions_iff hk⟩

/-- Image references: a non-empty file name, numbers and a color. -/
theorem C68_image (F : FloatCodec) (v : PyVal) (hk : DictKeys v) : imageValidator F v = true ↔ Image F v := image_iff hk

example : Keyed (.list [.dict [(.str c!"items", .list [.dict [(.str c!"names", .list []), (.str c!"values", .list [.dict [(.str c!"text", .str c!"t"), (.str c!"dir", .str c!"ltr")]])]])]]) ∧
    woffExtensions (.list [.dict [(.str c!"items", .list [.dict [(.str c!"names", .list []), (.str c!"values", .list [.dict [(.str c!"text", .str c!"t"), (.str c!"dir", .str c!"ltr")]])]])]]) = .ok true := by
  constructor
  · refine .list _ fun x hx => ?_
    obtain rfl := List.mem_singleton.1 hx
    refine .dict _ (by decide) fun p hp => ?_
    obtain rfl := List.mem_singleton.1 hp
    refine .list _ fun x hx => ?_
    obtain rfl := List.mem_singleton.1 hx
    refine .dict _ (by decide) fun p hp => ?_
    simp only [List.mem_cons, List.not_mem_nil, or_false] at hp
    rcases hp with rfl | rfl
    · exact .list _ fun x hx => by cases hx
    · refine .list _ fun x hx => ?_
      obtain rfl := List.mem_singleton.1 hx
      refine .dict _ (by decide) fun p hp => ?_
      simp only [List.mem_cons, List.not_mem_nil, or_false] at hp
      rcases hp with rfl | rfl <;> exact .atom _ trivial
  · decide +kernel

example : woffVendor (.dict [(.str c!"name", .str c!"n"), (.str c!"dir", .str c!"up")]) = false ∧ woffCredits (.dict [(.str c!"credits", .list [])]) = .ok false ∧
    imageValidator fractionCodec (.dict [(.str c!"fileName", .str c!"a.png"), (.str c!"xScale", .float (.fin (1 / 2))), (.str c!"color", .str c!"1,1,1,1")]) = true ∧
    imageValidator fractionCodec (.dict [(.str c!"fileName", .str [])]) = false := by
  decide +kernel

end Verif.Props
