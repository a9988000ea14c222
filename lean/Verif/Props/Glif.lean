import Verif.Proofs.GlifBare
import Verif.Proofs.GlifRead
/-! Glyphs: C41-C43. -/
namespace Verif.Props
open Verif Verif.Glif Verif.Validators Verif.Spec.Validators Verif.Spec.Glif

/-! ### C41 -/

/-- The identifiers of a written glyph are legal and pairwise different. -/
theorem C41_identifiers (E : Env) (name : PyVal) (o : Obj) (calls : List Call) (tree : Elem) (h : writeGlyphTree E true 2 name o (some calls) = .ok tree) :
    (glyphIdentifiers tree).Nodup ∧ ∀ i ∈ glyphIdentifiers tree, LegalIdentifier i := (writeGlyphTree_spec h).2

/-- None is lost: they are the identifiers of the guidelines, of the anchors and of the calls. -/
theorem C41_complete (E : Env) (name : PyVal) (o : Obj) (calls : List Call) (tree : Elem) (hg : ∀ e ∈ listItems (o.attr c!"guidelines"), DictKeys e)
    (ha : ∀ e ∈ listItems (o.attr c!"anchors"), DictKeys e) (h : writeGlyphTree E true 2 name o (some calls) = .ok tree) :
    (glyphIdentifiers tree).Perm (identifiers (listItems (o.attr c!"guidelines")) ++ identifiers (listItems (o.attr c!"anchors")) ++ calls.flatMap callIdentifier) := by
  rw [← entryIdentifiers_eq _ hg, ← entryIdentifiers_eq _ ha]
  exact (writeGlyphTree_spec h).1

/-- The same for a drawing function that catches the exceptions of the pen and goes on drawing: the identifiers in the outline are legal,
pairwise different and different from those used before. -/
theorem C41_caught (E : Env) (used : List Str) (hu : used.Nodup) (calls : List Call) :
    (used ++ outlineIdentifiers ((Pen.new used).drawOn E 2 true calls).children).Nodup ∧
      ∀ i ∈ outlineIdentifiers ((Pen.new used).drawOn E 2 true calls).children, LegalIdentifier i :=
  drawOn_spec (s := Pen.new used) (by simp [Pen.Valid, Pen.new]) (by simpa [Pen.new, outlineIdentifiers] using hu)
    (by simp [Pen.new, outlineIdentifiers]) (by simp [Pen.new, outlineIdentifiers])

/-- Identifiers that are not legal or not different are refused with `GlifLibError`: if the glyph without identifiers can be written, then
writing it with identifiers succeeds or raises `GlifLibError`.
Missing from the full claim: the identifiers given to the pen must be hashable (see `C41_refuted`). -/
theorem C41_error_partial (E : Env) (name : PyVal) (o : Obj) (calls : List Call) (bare : Elem)
    (hb : writeGlyphTree E true 2 name (bareObj o) (some (calls.map bareCall)) = .ok bare) (hh : ∀ c ∈ calls, hashable (callArgument c) = true)
    (hbad : ¬ (identifiers (listItems (o.attr c!"guidelines")) ++ identifiers (listItems (o.attr c!"anchors")) ++ calls.flatMap callIdentifier).Nodup ∨
      ∃ i ∈ identifiers (listItems (o.attr c!"guidelines")) ++ identifiers (listItems (o.attr c!"anchors")) ++ calls.flatMap callIdentifier, ¬ LegalIdentifier i)
    (hg : ∀ e ∈ listItems (o.attr c!"guidelines"), DictKeys e) (ha : ∀ e ∈ listItems (o.attr c!"anchors"), DictKeys e) :
    writeGlyphTree E true 2 name o (some calls) = .error .glifLibError := by
  rcases writeGlyphTree_sim hb hh with h | ⟨t, h⟩
  · exact h
  · have hp := C41_complete E name o calls t hg ha h
    obtain ⟨h1, h2⟩ := C41_identifiers E name o calls t h
    rcases hbad with hbad | ⟨i, hi, hbad⟩
    · exact absurd (hp.nodup_iff.1 h1) hbad
    · exact absurd (h2 i (hp.mem_iff.2 hi)) hbad

/-- A list given as identifier raises `TypeError`. -/
theorem C41_refuted (E : Env) : writeGlyphTree E true 2 (.str c!"A") (fun _ => none) (some [.beginPath (.list []), .endPath]) = .error .typeError := by
  obtain ⟨F, lxml, r⟩ := E
  cases lxml <;> rfl

/-- A glyph for the examples. -/
def glyph41 : Obj := fun k =>
  if k = c!"guidelines" then some (.list [.dict [(.str c!"x", .int 5), (.str c!"identifier", .str c!"g1")]])
  else if k = c!"anchors" then some (.list [.dict [(.str c!"x", .int 5), (.str c!"y", .int 6), (.str c!"identifier", .str c!"a1")]])
  else none

/-- A drawing for the examples. -/
def drawing41 (i : Str) : List Call :=
  [.beginPath (.str c!"c1"), .addPoint (.tuple [.int 1, .int 2]) (.str c!"line") (.bool false) .none (.str i),
   .addPoint (.tuple [.int 3, .int 4]) (.str c!"line") (.bool true) (.str c!"top") .none, .endPath, .addComponent (.str c!"B") (.tuple [.int 2]) (.str c!"k1")]

example : ∃ t, writeGlyphTree ⟨fractionCodec, true, fun _ => []⟩ true 2 (.str c!"A") glyph41 (some (drawing41 c!"p1")) = .ok t ∧
    glyphIdentifiers t = [c!"g1", c!"a1", c!"c1", c!"p1", c!"k1"] := ⟨_, by rfl, by rfl⟩

example : ∃ t, writeGlyphTree ⟨fractionCodec, true, fun _ => []⟩ true 2 (.str c!"A") (bareObj glyph41) (some ((drawing41 c!"g1").map bareCall)) = .ok t ∧
    writeGlyphTree ⟨fractionCodec, true, fun _ => []⟩ true 2 (.str c!"A") glyph41 (some (drawing41 c!"g1")) = .error .glifLibError := ⟨_, by rfl, by rfl⟩

/-! ### C42 -/

/-- No identifier is delivered twice, and all are legal. -/
theorem C42_identifiers (E : Env) (hasObj hasPen : Bool) (versions : List Int) (tree : Elem) (ht : DistinctAttributes tree) (format : Str)
    (hf : Dict.get? tree.attrib c!"format" = some format) (hf2 : pyInt format = some 2) (attrs : Dict Str PyVal) (calls : List Call)
    (h : readGlyphTree E true hasObj hasPen versions tree = .ok (attrs, calls)) :
    (calls.flatMap callIdentifier ++ (identifiers (listItems (delivered attrs c!"guidelines")) ++ identifiers (listItems (delivered attrs c!"anchors")))).Nodup ∧
      ∀ i ∈ calls.flatMap callIdentifier ++ (identifiers (listItems (delivered attrs c!"guidelines")) ++ identifiers (listItems (delivered attrs c!"anchors"))), LegalIdentifier i := by
  obtain ⟨s, hs, ⟨h1, -⟩ | ⟨-, h2⟩⟩ := readGlyphTree_format h
  · rw [hf] at hs
    cases hs
    rw [hf2] at h1
    cases h1
  · exact (readFormat2_ok ht h2).2

/-- A glyph element for the examples. -/
def tree42 (i : Str) : Elem :=
  .mk c!"glyph" [(c!"name", c!"A"), (c!"format", c!"2")] none none
    [.mk c!"guideline" [(c!"x", c!"5"), (c!"identifier", c!"g1")] none none [],
     .mk c!"outline" [] none none
      [.mk c!"contour" [(c!"identifier", c!"c1")] none none
        [.mk c!"point" [(c!"x", c!"1"), (c!"y", c!"2"), (c!"type", c!"curve"), (c!"smooth", c!"yes"), (c!"identifier", i)] none none [],
         .mk c!"point" [(c!"x", c!"3"), (c!"y", c!"4")] none none []]]]

example : readGlyphTree ⟨fractionCodec, true, fun _ => []⟩ true true true [1, 2] (tree42 c!"p1") =
    .ok ([(c!"name", .str c!"A"), (c!"guidelines", .list [.dict [(.str c!"x", .int 5), (.str c!"identifier", .str c!"g1")]])],
      [.beginPath (.str c!"c1"), .addPoint (.tuple [.int 1, .int 2]) (.str c!"curve") (.bool true) .none (.str c!"p1"),
       .addPoint (.tuple [.int 3, .int 4]) .none (.bool false) .none .none, .endPath]) := by rfl

example : readGlyphTree ⟨fractionCodec, true, fun _ => []⟩ true true true [1, 2] (tree42 c!"g1") = .error .glifLibError := by rfl

/-! ### C43 -/

/-- The calls made on the pen draw complete contours and components, and every contour is well formed, in both formats. -/
theorem C43_contours (E : Env) (hasObj hasPen : Bool) (versions : List Int) (tree : Elem) (attrs : Dict Str PyVal) (calls : List Call)
    (h : readGlyphTree E true hasObj hasPen versions tree = .ok (attrs, calls)) : ∃ d, calls = drawing d ∧ ∀ it ∈ d, GoodItem it := by
  obtain ⟨s, -, ⟨-, h1⟩ | ⟨-, h2⟩⟩ := readGlyphTree_format h
  · exact readFormat1_calls h1
  · exact readFormat2_calls h2

example : ¬ GoodContour [none, none, none, some c!"curve"] ∧ ¬ GoodContour [none, some c!"line"] ∧ ¬ GoodContour [some c!"line", none] ∧
    ¬ GoodContour [some c!"move", some c!"line", none] ∧ ¬ GoodContour [some c!"line", some c!"move"] ∧ ¬ GoodContour [none, some c!"curve", none, none] :=
  ⟨fun h => h.curve [none, none, none] [] rfl [] rfl, fun h => h.line [none] [] _ rfl (.inr rfl) [] rfl, fun h => h.line [] [none] _ rfl (.inr rfl) [] rfl,
   fun h => h.line [] [some c!"line", none] _ rfl (.inl rfl) [some c!"line"] rfl, fun h => absurd (h.move [some c!"line"] [] rfl) (by simp),
   fun h => h.curve [none] [none, none] rfl [] rfl⟩

end Verif.Props
