import Verif.Proofs.GlifFormat1
import Verif.Props.GlifRoundTrip
/-! Glyphs written and read in format 1: C49. -/
namespace Verif.Props
open Verif Verif.Glif Verif.Validators Verif.Spec.Validators Verif.Spec.Glif

/-- A glyph without identifiers that is written in format 1 with validation is read in format 1 with validation. The anchors
read are those of the contours of the drawing that format 1 takes for anchors and those of the anchors that have a name. The calls are
those of the other contours and components of the drawing, followed by one contour of one point for every anchor without a name.
Missing from the full claim: contours and components must have no identifiers (`C49_refuted_identifier`), numbers must be ints or floats and
contours well formed as for C44. -/
theorem C49_partial (E : Env) (hF : E.F.Lawful) (name : PyVal) (o : Obj) (d : List Item) (tree : Elem) (versions : List Int) (hv : 1 ∈ versions)
    (ho : Plain E.lxml (format1 o)) (hd : ∀ it ∈ d, Readable it) (hi : ∀ it ∈ d, NoIdentifiers it) (h : writeGlyphTree E true 1 name o (some (drawing d)) = .ok tree) :
    ∃ attrs calls, readGlyphTree E true true true versions tree = .ok (attrs, calls) ∧
      listItems (delivered attrs c!"anchors") = (d ++ (listItems (o.attr c!"anchors")).map marker).filterMap asAnchor ∧
      List.Forall₂ SameCall (drawing ((d ++ (listItems (o.attr c!"anchors")).map marker).filter fun it => (asAnchor it).isNone)) calls := by
  obtain ⟨attrs, calls, h1, h2, h3⟩ := format1_succeeds hF ho hd hi h
  obtain ⟨tree2, w1, w2, w3, w4, w5, w6, w7⟩ := writeGlyphTree_one h
  exact ⟨attrs, calls, by rw [readGlyphTree_one w4 w5 w6, if_pos hv]; exact h1, h2, h3⟩

/-- Every anchor with a name is read back as an anchor with its coordinates and its name. -/
theorem C49_anchors_partial (E : Env) (hF : E.F.Lawful) (name : PyVal) (o : Obj) (d : List Item) (tree : Elem) (versions : List Int) (attrs : Dict Str PyVal) (calls : List Call)
    (ho : Plain E.lxml (format1 o)) (hd : ∀ it ∈ d, Readable it) (hi : ∀ it ∈ d, NoIdentifiers it) (h : writeGlyphTree E true 1 name o (some (drawing d)) = .ok tree)
    (hr : readGlyphTree E true true true versions tree = .ok (attrs, calls)) (a : List (PyVal × PyVal)) (ha : .dict a ∈ listItems (o.attr c!"anchors")) (n : Str)
    (hn : Field a c!"name" (.str n)) :
    ∃ x y, Field a c!"x" x ∧ Field a c!"y" y ∧ .dict [(.str c!"x", x), (.str c!"y", y), (.str c!"name", .str n)] ∈ listItems (delivered attrs c!"anchors") := by
  obtain ⟨tree2, w1, w2, w3, w4, w5, w6, w7⟩ := writeGlyphTree_one h
  obtain ⟨attrs', calls', h1, h2, h3⟩ := format1_succeeds hF ho hd hi h
  rw [readGlyphTree_one w4 w5 w6] at hr
  split at hr
  · rw [h1] at hr
    cases hr
    rw [h2]
    obtain ⟨a', hA, hA'⟩ := anchors_ok w7 ho.anchors _ ha
    cases hA
    obtain ⟨x, hx⟩ := hA'.x
    obtain ⟨y, hy⟩ := hA'.y
    have hk : (a.map Prod.fst).Nodup := ho.anchors _ ha a rfl
    refine ⟨x, y, hx, hy, List.mem_filterMap.2 ⟨marker (.dict a), List.mem_append_right _ (List.mem_map_of_mem ha), ?_⟩⟩
    rw [marker, get_field hk hx, get_field hk hy, get_field hk hn]
    rfl
  · cases hr

/-- A drawing none of whose contours looks like an anchor, with anchors that all have a name, comes back as it was: the calls of the drawing and the
anchors. -/
theorem C49_same_partial (E : Env) (hF : E.F.Lawful) (name : PyVal) (o : Obj) (d : List Item) (tree : Elem) (versions : List Int) (attrs : Dict Str PyVal) (calls : List Call)
    (ho : Plain E.lxml (format1 o)) (hd : ∀ it ∈ d, Readable it) (hi : ∀ it ∈ d, NoIdentifiers it) (h : writeGlyphTree E true 1 name o (some (drawing d)) = .ok tree)
    (hr : readGlyphTree E true true true versions tree = .ok (attrs, calls)) (hno : ∀ it ∈ d, asAnchor it = none)
    (hn : ∀ a, .dict a ∈ listItems (o.attr c!"anchors") → ∃ n, Field a c!"name" (.str n)) :
    List.Forall₂ SameCall (drawing d) calls ∧
      List.Forall₂ (fun v w => ∃ a x y n, v = .dict a ∧ Field a c!"x" x ∧ Field a c!"y" y ∧ Field a c!"name" (.str n) ∧
        w = .dict [(.str c!"x", x), (.str c!"y", y), (.str c!"name", .str n)]) (listItems (o.attr c!"anchors")) (listItems (delivered attrs c!"anchors")) := by
  obtain ⟨tree2, w1, w2, w3, w4, w5, w6, w7⟩ := writeGlyphTree_one h
  obtain ⟨attrs', calls', h1, h2, h3⟩ := format1_succeeds hF ho hd hi h
  rw [readGlyphTree_one w4 w5 w6] at hr
  split at hr
  · rw [h1] at hr
    cases hr
    have hm : ∀ v ∈ listItems (o.attr c!"anchors"), ∃ a x y n, v = .dict a ∧ Field a c!"x" x ∧ Field a c!"y" y ∧ Field a c!"name" (.str n) ∧
        asAnchor (marker v) = some (.dict [(.str c!"x", x), (.str c!"y", y), (.str c!"name", .str n)]) := by
      intro v hv
      obtain ⟨a, rfl, hA⟩ := anchors_ok w7 ho.anchors v hv
      obtain ⟨x, hx⟩ := hA.x
      obtain ⟨y, hy⟩ := hA.y
      obtain ⟨n, hn⟩ := hn a hv
      have hk : (a.map Prod.fst).Nodup := ho.anchors _ hv a rfl
      refine ⟨a, x, y, n, rfl, hx, hy, hn, ?_⟩
      rw [marker, get_field hk hx, get_field hk hy, get_field hk hn]
      rfl
    constructor
    · rw [withMarkers, List.filter_append, List.filter_eq_self.2 (fun it hit => by rw [hno it hit]; rfl), List.filter_eq_nil_iff.2, List.append_nil] at h3
      · exact h3
      · intro it hit
        obtain ⟨v, hv, rfl⟩ := List.mem_map.1 hit
        obtain ⟨a, x, y, n, -, -, -, -, he⟩ := hm v hv
        rw [he]; simp
    · rw [h2, withMarkers, List.filterMap_append, List.filterMap_eq_nil_iff.2 hno, List.nil_append, List.filterMap_map]
      generalize listItems (o.attr c!"anchors") = l at hm
      induction l with
      | nil => exact .nil
      | cons v l ih =>
        obtain ⟨a, x, y, n, e1, e2, e3, e4, e5⟩ := hm v List.mem_cons_self
        rw [List.filterMap_cons, Function.comp_apply, e5]
        exact .cons ⟨a, x, y, n, e1, e2, e3, e4, rfl⟩ (ih fun v hv => hm v (List.mem_cons_of_mem _ hv))
  · cases hr

/-- Name, unicode values, width, height, note and lib come back from format 1 as they do from format 2. -/
theorem C49_data (E : Env) (hF : E.F.Lawful) (name : PyVal) (o : Obj) (d : List Item) (tree : Elem) (versions : List Int) (attrs : Dict Str PyVal) (calls : List Call)
    (ho : Plain E.lxml (format1 o)) (h : writeGlyphTree E true 1 name o (some (drawing d)) = .ok tree) (hr : readGlyphTree E true true true versions tree = .ok (attrs, calls)) :
    delivered attrs c!"name" = name ∧
    (∀ is, Integers (o.attr c!"unicodes") is → delivered attrs c!"unicodes" = if is = [] then .none else .list ((firsts is).map fun i => .int i)) ∧
    SameNumber (.int 0) (orZero (o.attr c!"width")) (orZero (delivered attrs c!"width")) ∧ SameNumber (.int 0) (orZero (o.attr c!"height")) (orZero (delivered attrs c!"height")) ∧
    (∀ lines, NoteLines (noteText (o.attr c!"note")) lines → noteText (delivered attrs c!"note") = join ['\n'] lines) ∧
    ((truthy (o.attr c!"lib") = false ∧ delivered attrs c!"lib" = .none) ∨ Spec.Plist.Same (Spec.Plist.untuple (o.attr c!"lib")) (delivered attrs c!"lib")) := by
  obtain ⟨tree2, w1, w2, w3, w4, w5, w6, w7⟩ := writeGlyphTree_one h
  rw [readGlyphTree_one w4 w5 w6, ← readFormat_congr w2 w3] at hr
  split at hr
  · obtain ⟨R⟩ := readFormat_result hr
    obtain ⟨S⟩ := writeGlyphTree_sections w1
    have hw := read_width S R hF ho.width ho.height
    refine ⟨read_name S R, fun is hi => read_unicodes S R hi, hw.1, hw.2, fun lines hl => ?_, ?_⟩
    · rw [noteLines_spec.1 hl]
      exact read_note (o := withoutLists o) S R
    · exact read_lib (o := withoutLists o) S R hF ho.lib ho.libBytes
  · cases hr

/-- A contour with an identifier is written in format 1, with the identifier, which the format 1 reader rejects. -/
theorem C49_refuted_identifier : ∃ tree, writeGlyphTree env44 true 1 (.str c!"A") (fun _ => none)
      (some (drawing [.contour (.str c!"c1") [point44 (.str c!"line")]])) = .ok tree ∧
    readGlyphTree env44 true true true [1, 2] tree = .error .glifLibError := ⟨_, by rfl, by rfl⟩

/-- The anchors of the example: one with a name, one without. -/
def glyph49 : Obj := fun k =>
  if k = c!"anchors" then some (.list [.dict [(.str c!"x", .int 5), (.str c!"y", .int 6), (.str c!"name", .str c!"top"), (.str c!"color", .str c!"0,0,0,1")],
    .dict [(.str c!"x", .int 7), (.str c!"y", .int 8)]])
  else if k = c!"guidelines" then some (.list [.int 1])
  else none

/-- Without a drawing function the anchors are lost. -/
theorem C49_refuted_undrawn : ∃ tree attrs, writeGlyphTree env44 true 1 (.str c!"A") glyph49 none = .ok tree ∧
    readGlyphTree env44 true true true [1, 2] tree = .ok (attrs, []) ∧ delivered attrs c!"anchors" = .none := ⟨_, _, by rfl, by rfl, by rfl⟩

/-- A drawing for the example: an open contour, a contour of one point with a name, a component. -/
def drawing49 : List Item :=
  [.contour .none [point44 (.str c!"move"), point44 (.str c!"line")], .contour .none [⟨.tuple [.int 3, .int 4], .str c!"move", .bool false, .str c!"bottom", .none⟩],
   .component (.str c!"B") (.list [.int 2, .int 0]) .none]

/-- What is delivered after writing and reading the example in format 1. -/
def again49 : Option (PyVal × List Call) :=
  match writeGlyphTree env44 true 1 (.str c!"A") glyph49 (some (drawing drawing49)) with
  | .error _ => none
  | .ok tree => match readGlyphTree env44 true true true [1, 2] tree with
    | .error _ => none
    | .ok (attrs, calls) => some (delivered attrs c!"anchors", calls)

example : again49 = some (.list [.dict [(.str c!"x", .int 3), (.str c!"y", .int 4), (.str c!"name", .str c!"bottom")],
      .dict [(.str c!"x", .int 5), (.str c!"y", .int 6), (.str c!"name", .str c!"top")]],
    [.beginPath .none, .addPoint (.tuple [.int 1, .int 2]) (.str c!"move") (.bool false) .none .none, .addPoint (.tuple [.int 1, .int 2]) (.str c!"line") (.bool false) .none .none, .endPath,
     .addComponent (.str c!"B") (.tuple [.int 2, .int 0, .int 0, .int 1, .int 0, .int 0]) .none,
     .beginPath .none, .addPoint (.tuple [.int 7, .int 8]) (.str c!"move") (.bool false) .none .none, .endPath]) := by decide +kernel

example : ∀ it ∈ drawing49, Readable it ∧ NoIdentifiers it := by
  have hp : ∀ i : Int, Printable (.int i) := fun i => .inl ⟨i, rfl⟩
  intro it hit
  simp only [drawing49, List.mem_cons, List.not_mem_nil, or_false] at hit
  rcases hit with rfl | rfl | rfl
  · refine ⟨⟨?_, good44 _ (.inr rfl)⟩, rfl, by simp [point44]⟩
    intro p hp'
    simp only [List.mem_cons, List.not_mem_nil, or_false] at hp'
    rcases hp' with rfl | rfl <;> exact ⟨_, _, [], .inr rfl, hp 1, hp 2⟩
  · refine ⟨⟨?_, good_move⟩, rfl, by simp⟩
    intro p hp'
    simp only [List.mem_singleton] at hp'
    subst hp'
    exact ⟨_, _, [], .inr rfl, hp 3, hp 4⟩
  · refine ⟨⟨_, .inl rfl, ?_⟩, rfl⟩
    intro v hv
    simp only [List.mem_cons, List.not_mem_nil, or_false] at hv
    rcases hv with rfl | rfl
    · exact hp 2
    · exact hp 0

example : Plain true (format1 glyph49) where
  width := .inl rfl
  height := .inl rfl
  unicodes := ⟨[], .none⟩
  image := by rintro d hd; cases hd
  imageNumbers := by rintro d hd; cases hd
  guidelines := by intro e he; cases he
  guidelineNumbers := by intro d hd; cases hd
  anchors := by
    intro e he d hd
    subst hd
    simp [listItems, Obj.attr, glyph49, format1] at he
    rcases he with rfl | rfl <;> decide
  anchorNumbers := by
    rintro d hd k hk v ⟨hv, h0⟩
    simp [listItems, Obj.attr, glyph49, format1] at hd
    rcases hd with rfl | rfl <;> simp at hv
    · rcases hv with ⟨rfl, rfl⟩ | ⟨rfl, rfl⟩ | ⟨rfl, rfl⟩ | ⟨rfl, rfl⟩
      · exact .inl ⟨5, rfl⟩
      · exact .inl ⟨6, rfl⟩
      · exact absurd hk (by decide)
      · exact absurd hk (by decide)
    · rcases hv with ⟨rfl, rfl⟩ | ⟨rfl, rfl⟩
      · exact .inl ⟨7, rfl⟩
      · exact .inl ⟨8, rfl⟩
  lib := trivial
  libBytes := .inl rfl

end Verif.Props
