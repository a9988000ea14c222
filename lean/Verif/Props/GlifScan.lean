import Verif.Proofs.GlifScanWrite
import Verif.Props.GlifFormat1
/-! Rapid fetching of unicode values, component bases and image file names: C50. -/
namespace Verif.Props
open Verif Verif.Glif Verif.Validators Verif.Spec.Validators Verif.Spec.Glif

/-- For a glyph that the reader accepts, the unicode values fetched are those delivered. Missing from the full claim: the elements inside
sections must not be called `glyph` or `outline` (`C50_refuted_unicodes`). -/
theorem C50_unicodes_partial (E : Env) (versions : List Int) (tree : Elem) (attrs : Dict Str PyVal) (calls : List Call)
    (h : readGlyphTree E true true true versions tree = .ok (attrs, calls)) (hn : NoNestedGlyph tree) :
    ∃ us, fetchUnicodes tree = .ok us ∧ listItems (delivered attrs c!"unicodes") = us.map fun i => PyVal.int i :=
  fetchUnicodes_eq (accepted h) hn

/-- The base glyphs fetched are those of the components drawn, in order. Missing: as before (`C50_refuted_components`). -/
theorem C50_components_partial (E : Env) (versions : List Int) (tree : Elem) (attrs : Dict Str PyVal) (calls : List Call)
    (h : readGlyphTree E true true true versions tree = .ok (attrs, calls)) (hn : NoNestedGlyph tree) :
    ∃ bs, fetchComponentBases tree = .ok bs ∧ calls.flatMap callBase = bs.map PyVal.str :=
  fetchComponents_eq (accepted h) hn

/-- The image file name fetched is that of the image delivered, `None` if there is no image. Missing: as before. -/
theorem C50_image_partial (E : Env) (versions : List Int) (tree : Elem) (attrs : Dict Str PyVal) (calls : List Call) (hd : DistinctAttributes tree)
    (h : readGlyphTree E true true true versions tree = .ok (attrs, calls)) (hn : NoNestedGlyph tree) :
    (fetchImageFileName tree = .ok none ∧ delivered attrs c!"image" = .none) ∨
      ∃ f d, fetchImageFileName tree = .ok (some f) ∧ delivered attrs c!"image" = .dict d ∧ Field d c!"fileName" (.str f) := by
  rcases fetchImage_eq (accepted h) hn (fun e he _ => hd e he) with ⟨h1, h2⟩ | ⟨f, d, h1, h2, h3⟩
  · exact .inl ⟨h1, by rw [delivered, h2]; rfl⟩
  · exact .inr ⟨f, d, h1, by rw [delivered, h2]; rfl, h3⟩

/-- For glyphs that were written, in either format and with or without validation, all three agree with the reader without further conditions. -/
theorem C50_written (E : Env) (validate : Bool) (fv : Nat) (name : PyVal) (o : Obj) (draw : Option (List Call)) (tree : Elem) (versions : List Int) (attrs : Dict Str PyVal) (calls : List Call)
    (hw : writeGlyphTree E validate fv name o draw = .ok tree) (h : readGlyphTree E true true true versions tree = .ok (attrs, calls)) :
    (∃ us, fetchUnicodes tree = .ok us ∧ listItems (delivered attrs c!"unicodes") = us.map fun i => PyVal.int i) ∧
    (∃ bs, fetchComponentBases tree = .ok bs ∧ calls.flatMap callBase = bs.map PyVal.str) ∧
    ((fetchImageFileName tree = .ok none ∧ delivered attrs c!"image" = .none) ∨
      ∃ f d, fetchImageFileName tree = .ok (some f) ∧ delivered attrs c!"image" = .dict d ∧ Field d c!"fileName" (.str f)) := by
  have hn := writeGlyphTree_noNested hw
  refine ⟨fetchUnicodes_eq (accepted h) hn, fetchComponents_eq (accepted h) hn, ?_⟩
  rcases fetchImage_eq (accepted h) hn (writeGlyphTree_image hw) with ⟨h1, h2⟩ | ⟨f, d, h1, h2, h3⟩
  · exact .inl ⟨h1, by rw [delivered, h2]; rfl⟩
  · exact .inr ⟨f, d, h1, by rw [delivered, h2]; rfl, h3⟩

/-- What is fetched from the example of C44 after writing. -/
def fetched50 : Option (Except Exc (List Int) × Except Exc (List Str) × Except Exc (Option Str)) :=
  match writeGlyphTree env44 true 2 (.str c!"A") glyph44 (some (drawing drawing44)) with
  | .error _ => none
  | .ok tree => some (fetchUnicodes tree, fetchComponentBases tree, fetchImageFileName tree)

example : (fetched50.map fun r => decide (r.1.toOption = some [66, 65] ∧ r.2.1.toOption = some [c!"B"] ∧ r.2.2.toOption = some (some c!"a.png"))) = some true := by decide +kernel

/-- A glyph with sections inside the note, which the reader does not look at. -/
def nested50 : Elem :=
  .mk c!"glyph" [(c!"name", c!"A"), (c!"format", c!"2")] none none
    [.mk c!"note" [] (some (.str c!"x")) none
       [.mk c!"glyph" [] none none [.mk c!"unicode" [(c!"hex", c!"0042")] none none [], .mk c!"image" [(c!"fileName", c!"a.png")] none none []],
        .mk c!"outline" [] none none [.mk c!"component" [(c!"base", c!"B")] none none []]]]

/-- The reader accepts the glyph and delivers nothing, but values are fetched from it. -/
theorem C50_refuted_unicodes : ∃ attrs, readGlyphTree env44 true true true [1, 2] nested50 = .ok (attrs, []) ∧ delivered attrs c!"unicodes" = .none ∧
    delivered attrs c!"image" = .none ∧ fetchUnicodes nested50 = .ok [66] ∧ fetchImageFileName nested50 = .ok (some c!"a.png") := ⟨_, by rfl, by rfl, by rfl, by rfl, by rfl⟩

/-- The same for components. -/
theorem C50_refuted_components : ∃ attrs, readGlyphTree env44 true true true [1, 2] nested50 = .ok (attrs, []) ∧ fetchComponentBases nested50 = .ok [c!"B"] :=
  ⟨_, by rfl, by rfl⟩

end Verif.Props
