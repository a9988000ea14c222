import Verif.Proofs.GlifMeaningRead
import Verif.Proofs.XmlDistinct
import Verif.Model.GlifFile
/-! C96: the glyph reader accepts exactly the glyphs the formats allow, and gives what they say. -/
namespace Verif.Props
open Verif Verif.Glif Verif.GlifFile Verif.Spec.Glif Verif.Spec.GlifMeaning

/-- C96. A glyph element is read, giving the glyph object the attributes `g` and the pen the calls `calls`, exactly if that is what it says in format 1 or in format 2. -/
theorem C96_glyph (E : Env) (versions : List Int) (tree : Elem) (ht : DistinctAttributes tree) (g : Str → Option PyVal) (calls : List Call) :
    (∃ attrs, readGlyphTree E true true true versions tree = .ok (attrs, calls) ∧ ∀ k, Dict.get? attrs k = g k) ↔
      GlyphSays1 E.F versions tree g calls ∨ GlyphSays2 E.F versions tree g calls := by
  constructor
  · rintro ⟨attrs, h, hg⟩
    have : Dict.get? attrs = g := funext hg
    subst this
    obtain ⟨h1, h2, s, h3, ⟨h4, h5, h6⟩ | ⟨h4, h5, h6⟩⟩ := readGlyphTree_iff.1 h
    · exact .inl (readFormat1_says h1 h2 h3 h5 h4 h6)
    · exact .inr (readFormat2_says ht h1 h2 h3 h5 h4 h6)
  · rintro (h | h)
    · obtain ⟨⟨attrs, calls'⟩, hr⟩ := says1_succeeds h
      obtain ⟨s, h1, h2⟩ := h.format
      have h2 := pyInt_iff.2 h2
      have hs := readFormat1_says h.tag (blankText_iff.2 h.text) h1 h2 h.supported hr
      obtain ⟨rfl, rfl⟩ := says1_unique h hs
      exact ⟨attrs, readGlyphTree_iff.2 ⟨h.tag, blankText_iff.2 h.text, s, h1, .inl ⟨h.supported, h2, hr⟩⟩, fun _ => rfl⟩
    · obtain ⟨⟨attrs, calls'⟩, hr⟩ := says2_succeeds ht h
      obtain ⟨s, h1, h2⟩ := h.format
      have h2 := pyInt_iff.2 h2
      have hs := readFormat2_says ht h.tag (blankText_iff.2 h.text) h1 h2 h.supported hr
      obtain ⟨rfl, rfl⟩ := says2_unique h hs
      exact ⟨attrs, readGlyphTree_iff.2 ⟨h.tag, blankText_iff.2 h.text, s, h1, .inr ⟨h.supported, h2, hr⟩⟩, fun _ => rfl⟩

/-- C96. The same for the bytes of a file, whoever wrote it: they are read exactly if they are XML in UTF-8 with a glyph element that says something. -/
theorem C96_file (E : Env) (versions : List Int) (b : Bytes) (g : Str → Option PyVal) (calls : List Call) :
    (∃ attrs, readGlyphFromBytes E true true true versions b = .ok (attrs, calls) ∧ ∀ k, Dict.get? attrs k = g k) ↔
      ∃ s tree, utf8Decode b = some s ∧ Spec.Xml.parse s = some tree ∧ (GlyphSays1 E.F versions tree g calls ∨ GlyphSays2 E.F versions tree g calls) := by
  unfold readGlyphFromBytes GlyphSet.glifTree
  cases h1 : utf8Decode b with
  | none => simp
  | some s =>
    cases h2 : Spec.Xml.parse s with
    | none => simp [h2]
    | some tree =>
      simp only [h2, Option.some.injEq, exists_eq_left', exists_and_left]
      exact C96_glyph E versions tree (Spec.Xml.parse_distinct h2).2 g calls

/-- C96. A glyph element says at most one thing. -/
theorem C96_unique (E : Env) (versions : List Int) (tree : Elem) (g g' : Str → Option PyVal) (calls calls' : List Call)
    (h : GlyphSays1 E.F versions tree g calls ∨ GlyphSays2 E.F versions tree g calls) (h' : GlyphSays1 E.F versions tree g' calls' ∨ GlyphSays2 E.F versions tree g' calls') :
    g = g' ∧ calls = calls' := by
  rcases h with h | h <;> rcases h' with h' | h'
  · exact says1_unique h h'
  · exact absurd (head_unique h.toHeadSays h'.toHeadSays).1 (by decide)
  · exact absurd (head_unique h.toHeadSays h'.toHeadSays).1 (by decide)
  · exact says2_unique h h'

theorem says_order {F : FloatCodec} {versions : List Int} {tree tree' : Elem} (htag : tree'.tag = tree.tag) (hattrib : tree'.attrib = tree.attrib) (htext : tree'.text = tree.text)
    (h : ∀ t, named t tree' = named t tree) {g : Str → Option PyVal} {calls : List Call} (hs : GlyphSays1 F versions tree g calls ∨ GlyphSays2 F versions tree g calls) :
    GlyphSays1 F versions tree' g calls ∨ GlyphSays2 F versions tree' g calls := by
  have hattr : ∀ k, attr tree' k = attr tree k := fun k => by rw [attr, hattrib]; rfl
  have hmem : ∀ e ∈ tree'.children, e ∈ tree.children := fun e he => by
    have := mem_named.2 ⟨he, rfl⟩
    rw [h] at this
    exact (mem_named.1 this).1
  have head : ∀ {v}, HeadSays F versions v tree g → HeadSays F versions v tree' g := by
    rintro v ⟨h1, h2, h3, h4, h5, h6, h7, h8, h9, h10⟩
    refine ⟨htag.trans h1, htext ▸ h2, by rw [hattr]; exact h3, h4, by rw [hattr]; exact h5, by rw [h]; exact h6, by rw [h]; exact h7, by rw [h]; exact h8, by rw [h]; exact h9, h10⟩
  rcases hs with hs | hs
  · refine .inl ⟨head hs.toHeadSays, fun e he => hs.known e (hmem e he), hs.image, hs.guidelines, by rw [h]; exact hs.outline⟩
  · have hp : (glyphIdentifiers tree').Perm (glyphIdentifiers tree) := by
      have hn : ∀ t, pick t tree'.children = pick t tree.children := h
      have h1 := glyphIdentifiers_perm tree'.children
      rw [hn, hn, hn] at h1
      exact h1.trans (glyphIdentifiers_perm tree.children).symm
    refine .inr ⟨head hs.toHeadSays, fun e he => hs.known e (hmem e he), by rw [h]; exact hs.image, by rw [h]; exact hs.guidelines, by rw [h]; exact hs.anchors,
      by rw [h]; exact hs.outline, hp.nodup_iff.2 hs.identifiers.1, fun i hi => hs.identifiers.2 i (hp.mem_iff.1 hi)⟩

/-- C96. The order of elements of different kinds does not matter. -/
theorem C96_order (E : Env) (versions : List Int) (tree tree' : Elem) (ht : DistinctAttributes tree) (htag : tree'.tag = tree.tag) (hattrib : tree'.attrib = tree.attrib)
    (htext : tree'.text = tree.text) (h : ∀ t, named t tree' = named t tree) (attrs : Dict Str PyVal) (calls : List Call)
    (hr : readGlyphTree E true true true versions tree = .ok (attrs, calls)) :
    ∃ attrs', readGlyphTree E true true true versions tree' = .ok (attrs', calls) ∧ ∀ k, Dict.get? attrs' k = Dict.get? attrs k := by
  have ht' : DistinctAttributes tree' := fun e he => by
    have := mem_named.2 ⟨he, rfl⟩
    rw [h] at this
    exact ht e (mem_named.1 this).1
  exact (C96_glyph E versions tree' ht' _ calls).2 (says_order htag hattrib htext h ((C96_glyph E versions tree ht _ calls).1 ⟨attrs, hr, fun _ => rfl⟩))

/-! ### Examples -/

def env96 : Env := ⟨fractionCodec, true, fun _ => []⟩

/-- A file ufoLib would not write. -/
def file96 : Str := c!"<?xml version='1.0'?><!-- by hand --><glyph format=' 2 ' name='A'>
 <outline><contour><point y='1_0' x='-3' type='curve'/><point type='offcurve' y='4' x='0' identifier='p'/></contour><component base='B' xOffset='7'/></outline>
 <unicode hex='0X_4A'/><guideline x='3'/><advance width='+5'/><unicode hex='4a'/><image fileName='i.png'/><anchor y='1' x='2' identifier='a'/><unicode hex='41'/>
 <note> <![CDATA[x]]>\n  y</note></glyph>"

def got96 : Option (Option PyVal × Option PyVal × Option PyVal × List Call) :=
  match readGlyphFromBytes env96 true true true [1, 2] (utf8 file96) with
  | .error _ => none
  | .ok (attrs, calls) => some (Dict.get? attrs c!"unicodes", Dict.get? attrs c!"width", Dict.get? attrs c!"note", calls)

example : got96 = some (some (.list [.int 74, .int 65]), some (.int 5), some (.str c!"x\ny"),
    [.beginPath .none, .addPoint (.tuple [.int (-3), .int 10]) (.str c!"curve") (.bool false) .none .none,
     .addPoint (.tuple [.int 0, .int 4]) .none (.bool false) .none (.str c!"p"), .endPath,
     .addComponent (.str c!"B") (.tuple [.int 1, .int 0, .int 0, .int 1, .int 7, .int 0]) .none]) := by decide +kernel

/-- The file says something. -/
example : ∃ g calls s tree, utf8Decode (utf8 file96) = some s ∧ Spec.Xml.parse s = some tree ∧ GlyphSays2 env96.F [1, 2] tree g calls := by
  have h : (readGlyphFromBytes env96 true true true [1, 2] (utf8 file96)).toOption.isSome = true := by decide +kernel
  have h1 : (do let s ← utf8Decode (utf8 file96); let t ← Spec.Xml.parse s; let f ← Dict.get? t.attrib c!"format"; pyInt f) = some 2 := by decide +kernel
  match hr : readGlyphFromBytes env96 true true true [1, 2] (utf8 file96) with
  | .error x => rw [hr] at h; cases h
  | .ok (attrs, calls) =>
    obtain ⟨s, tree, a, b, c⟩ := (C96_file env96 [1, 2] (utf8 file96) (Dict.get? attrs) calls).1 ⟨attrs, hr, fun _ => rfl⟩
    refine ⟨_, calls, s, tree, a, b, c.resolve_left fun c => ?_⟩
    obtain ⟨f, d, e⟩ := c.format
    have d : Dict.get? tree.attrib c!"format" = some f := d
    simp only [a, b, d, pyInt_iff.2 e, Option.bind_eq_bind, Option.bind_some] at h1
    cases h1

/-- The elements of `tree` in another order. -/
def tree96 (l : List Elem) : Elem := .mk c!"glyph" [(c!"name", c!"A"), (c!"format", c!"2")] none none l

def unicode96 (s : Str) : Elem := .mk c!"unicode" [(c!"hex", s)] none none []

def advance96 : Elem := .mk c!"advance" [(c!"width", c!"5")] none none []

example : (∀ t, named t (tree96 [unicode96 c!"41", advance96, unicode96 c!"42"]) = named t (tree96 [advance96, unicode96 c!"41", unicode96 c!"42"])) ∧
    named c!"unicode" (tree96 [advance96, unicode96 c!"41", unicode96 c!"42"]) ≠ named c!"unicode" (tree96 [advance96, unicode96 c!"42", unicode96 c!"41"]) ∧
    (readGlyphTree env96 true true true [1, 2] (tree96 [advance96, unicode96 c!"41", unicode96 c!"42"])).toOption.isSome = true := by
  refine ⟨fun t => ?_, by simp [named, tree96, unicode96, advance96, Elem.children, Elem.tag], by decide +kernel⟩
  by_cases h1 : t = c!"unicode"
  · subst h1; rfl
  by_cases h2 : t = c!"advance"
  · subst h2; rfl
  simp [named, tree96, unicode96, advance96, Elem.children, Elem.tag, Ne.symm h1, Ne.symm h2]

/-- A single-point contour with a name in format 1 is an anchor. -/
def markers96 : Str := c!"<glyph name='A' format='1'><outline><contour><point x='1' y='2' type='move' name='top'/></contour><contour><point x='1' y='2' type='move'/><point x='3' y='4'/></contour></outline></glyph>"

example : (match readGlyphFromBytes env96 true true true [1] (utf8 markers96) with
    | .error _ => none
    | .ok (attrs, calls) => some (Dict.get? attrs c!"anchors", calls)) =
    some (some (.list [.dict [(.str c!"x", .int 1), (.str c!"y", .int 2), (.str c!"name", .str c!"top")]]),
      [.beginPath .none, .addPoint (.tuple [.int 1, .int 2]) (.str c!"move") (.bool false) .none .none, .endPath]) := by decide +kernel

end Verif.Props
