import Verif.Proofs.GlifRoundTrip
/-! Glyphs written and read back: C44-C48. -/
namespace Verif.Props
open Verif Verif.Glif Verif.Validators Verif.Spec.Validators Verif.Spec.Glif

/-! ### C44 -/

/-- A glyph that is written in format 2 with validation is read with validation, delivering the name and the calls that drew it.
Missing from the full claim: coordinates and other numbers must be ints or floats (a bool is accepted by the writer), contours must be
well formed (the writer does not see all cases the reader rejects), dictionaries hold data as the writer stores them; see
`C44_refuted_...`. -/
theorem C44_calls_partial (E : Env) (hF : E.F.Lawful) (name : PyVal) (o : Obj) (d : List Item) (tree : Elem) (versions : List Int) (hv : 2 ∈ versions)
    (ho : Plain E.lxml o) (hd : ∀ it ∈ d, Readable it) (h : writeGlyphTree E true 2 name o (some (drawing d)) = .ok tree) :
    ∃ attrs calls, readGlyphTree E true true true versions tree = .ok (attrs, calls) ∧ List.Forall₂ SameCall (drawing d) calls ∧ delivered attrs c!"name" = name := by
  obtain ⟨S⟩ := writeGlyphTree_sections h
  obtain ⟨attrs, calls, h1, h2⟩ := S.succeeds h hF ho hd
  obtain ⟨R⟩ := readFormat_result h1
  exact ⟨attrs, calls, by rw [S.read, if_pos hv]; exact h1, h2, read_name S R⟩

/-- A point for the witnesses. -/
def point44 (t : PyVal) : Pt := ⟨.tuple [.int 1, .int 2], t, .bool false, .none, .none⟩

/-- The environment for the witnesses. -/
def env44 : Env := ⟨fractionCodec, true, fun _ => []⟩

/-- A closed contour whose off-curve points come before its first point, a line, is written but not read. -/
theorem C44_refuted_trailing : ∃ tree, writeGlyphTree env44 true 2 (.str c!"A") (fun _ => none) (some (drawing [.contour .none [point44 (.str c!"line"), point44 .none]])) = .ok tree ∧
    readGlyphTree env44 true true true [1, 2] tree = .error .glifLibError := ⟨_, by rfl, by rfl⟩

/-- An unknown segment type is written but not read. -/
theorem C44_refuted_type : ∃ tree, writeGlyphTree env44 true 2 (.str c!"A") (fun _ => none) (some (drawing [.contour .none [point44 (.str c!"spiral")]])) = .ok tree ∧
    readGlyphTree env44 true true true [1, 2] tree = .error .glifLibError := ⟨_, by rfl, by rfl⟩

/-- A bool as a coordinate is written as `True`, which is not a number. -/
theorem C44_refuted_bool : ∃ tree, writeGlyphTree env44 true 2 (.str c!"A") (fun _ => none)
      (some (drawing [.contour .none [⟨.tuple [.bool true, .int 2], .str c!"line", .bool false, .none, .none⟩]])) = .ok tree ∧
    readGlyphTree env44 true true true [1, 2] tree = .error .glifLibError := ⟨_, by rfl, by rfl⟩

/-- A point without coordinates is written but not read. -/
theorem C44_refuted_none : ∃ tree, writeGlyphTree env44 true 2 (.str c!"A") (fun _ => none)
      (some (drawing [.contour .none [⟨.none, .str c!"line", .bool false, .none, .none⟩]])) = .ok tree ∧
    readGlyphTree env44 true true true [1, 2] tree = .error .glifLibError := ⟨_, by rfl, by rfl⟩

/-- A drawing for the examples: a closed contour with names and identifiers, an open one, a component. -/
def drawing44 : List Item :=
  [.contour (.str c!"c1") [⟨.tuple [.int 1, .float (.fin (1/2))], .str c!"curve", .bool true, .str c!"top", .str c!"p1"⟩, point44 .none, point44 (.str c!"offcurve")],
   .contour .none [point44 (.str c!"move"), point44 (.str c!"line")], .component (.str c!"B") (.list [.int 2, .int 0]) (.str c!"k1")]

/-- The data for the examples. -/
def glyph44 : Obj := fun k =>
  if k = c!"width" then some (.int 500)
  else if k = c!"height" then some (.float (.fin (1/2)))
  else if k = c!"unicodes" then some (.list [.int 66, .int 65, .int 66])
  else if k = c!"note" then some (.str c!"  one\n\n two  ")
  else if k = c!"image" then some (.dict [(.str c!"fileName", .str c!"a.png"), (.str c!"xScale", .int 2), (.str c!"color", .str c!"0,0,0,1")])
  else if k = c!"guidelines" then some (.list [.dict [(.str c!"x", .int 5), (.str c!"name", .none), (.str c!"identifier", .str c!"g1")]])
  else if k = c!"anchors" then some (.list [.dict [(.str c!"x", .int 5), (.str c!"y", .int 6), (.str c!"name", .str c!"top"), (.str c!"identifier", .str c!"a1")]])
  else if k = c!"lib" then some (.dict [(.str c!"k", .list [.int 1, .str c!"s"])])
  else none

theorem good44 (l : List (Option Str)) (h : l = [some c!"curve", none, none] ∨ l = [some c!"move", some c!"line"]) : GoodContour l := by
  constructor
  · rintro t ht
    rcases h with rfl | rfl <;> simp at ht
    · subst ht; simp
    · rcases ht with rfl | rfl <;> simp
  · rintro a b hab
    rcases h with rfl | rfl
    · rcases a with _ | ⟨x, _ | ⟨y, _ | ⟨z, a⟩⟩⟩ <;> simp at hab
    · rcases a with _ | ⟨x, _ | ⟨y, a⟩⟩ <;> simp at hab ⊢
  · rintro a b t hab ht s hs
    rcases h with rfl | rfl
    · rcases a with _ | ⟨x, _ | ⟨y, _ | ⟨z, a⟩⟩⟩ <;> simp at hab
      rcases ht with rfl | rfl <;> simp at hab
    · have : none ∈ b ++ a := by rw [hs]; simp
      have h2 : (none : Option Str) ∈ [some c!"move", some c!"line"] := by
        rw [hab, List.mem_append, List.mem_cons]
        rcases List.mem_append.1 this with h | h
        · exact .inr (.inr h)
        · exact .inl h
      simp at h2
  · rintro a b hab s hs
    have hl := congrArg List.length hs
    have hl2 := congrArg List.length hab
    rcases h with rfl | rfl <;> simp at hl hl2 <;> omega

theorem readable44 : ∀ it ∈ drawing44, Readable it := by
  have hp : ∀ i : Int, Printable (.int i) := fun i => .inl ⟨i, rfl⟩
  intro it hit
  simp only [drawing44, List.mem_cons, List.not_mem_nil, or_false] at hit
  rcases hit with rfl | rfl | rfl
  · refine ⟨?_, good44 _ (.inl rfl)⟩
    intro p hp'
    simp only [List.mem_cons, List.not_mem_nil, or_false] at hp'
    rcases hp' with rfl | rfl | rfl
    · exact ⟨_, _, [], .inr rfl, hp 1, .inr ⟨_, rfl⟩⟩
    · exact ⟨_, _, [], .inr rfl, hp 1, hp 2⟩
    · exact ⟨_, _, [], .inr rfl, hp 1, hp 2⟩
  · refine ⟨?_, good44 _ (.inr rfl)⟩
    intro p hp'
    simp only [List.mem_cons, List.not_mem_nil, or_false] at hp'
    rcases hp' with rfl | rfl <;> exact ⟨_, _, [], .inr rfl, hp 1, hp 2⟩
  · refine ⟨_, .inl rfl, ?_⟩
    intro v hv
    simp only [List.mem_cons, List.not_mem_nil, or_false] at hv
    rcases hv with rfl | rfl
    · exact hp 2
    · exact hp 0

theorem plain44 : Plain true glyph44 where
  width := .inr (.inl ⟨500, rfl⟩)
  height := .inr (.inr ⟨_, rfl⟩)
  unicodes := ⟨[66, 65, 66], .list _ _ _ (.inl rfl) (.cons (.inl rfl) (.cons (.inl rfl) (.cons (.inl rfl) .nil)))⟩
  image := by rintro d hd; cases hd; decide
  imageNumbers := by
    rintro d hd k i w hk hw
    cases hd
    simp only [List.mem_cons, Prod.mk.injEq, PyVal.str.injEq, List.not_mem_nil, or_false] at hw
    rcases hw with ⟨rfl, rfl⟩ | ⟨rfl, rfl⟩ | ⟨rfl, rfl⟩
    · exact absurd hk (by simp [transformation])
    · exact .inl ⟨2, rfl⟩
    · exact absurd hk (by simp [transformation])
  guidelines := by
    intro e he d hd
    subst hd
    simp [listItems, Obj.attr, glyph44] at he
    subst he
    decide
  guidelineNumbers := by
    rintro d hd k hk v ⟨hv, h0⟩
    simp [listItems, Obj.attr, glyph44] at hd
    subst hd
    simp at hv
    rcases hv with ⟨rfl, rfl⟩ | ⟨rfl, rfl⟩ | ⟨rfl, rfl⟩
    · exact .inl ⟨5, rfl⟩
    · exact absurd rfl h0
    · exact absurd hk (by decide)
  anchors := by
    intro e he d hd
    subst hd
    simp [listItems, Obj.attr, glyph44] at he
    subst he
    decide
  anchorNumbers := by
    rintro d hd k hk v ⟨hv, h0⟩
    simp [listItems, Obj.attr, glyph44] at hd
    subst hd
    simp at hv
    rcases hv with ⟨rfl, rfl⟩ | ⟨rfl, rfl⟩ | ⟨rfl, rfl⟩ | ⟨rfl, rfl⟩
    · exact .inl ⟨5, rfl⟩
    · exact .inl ⟨6, rfl⟩
    · exact absurd hk (by decide)
    · exact absurd hk (by decide)
  lib := by simp [Obj.attr, glyph44, Spec.Plist.WellFormed, Spec.Plist.WellFormedItems, Spec.Plist.WellFormedList]
  libBytes := .inl rfl

/-- What is delivered after writing and reading the example. -/
def again44 (k : Str) : Option PyVal :=
  match writeGlyphTree env44 true 2 (.str c!"A") glyph44 (some (drawing drawing44)) with
  | .error _ => none
  | .ok tree => match readGlyphTree env44 true true true [1, 2] tree with
    | .error _ => none
    | .ok (attrs, _) => some (delivered attrs k)

example : again44 c!"name" = some (.str c!"A") := by decide +kernel

/-! ### C45 -/

/-- The list of unicode values that is read is the list that was written without repetitions, in the order of first occurrence; nothing is
delivered for an empty list. -/
theorem C45_unicodes (E : Env) (name : PyVal) (o : Obj) (draw : Option (List Call)) (tree : Elem) (versions : List Int) (attrs : Dict Str PyVal) (calls : List Call)
    (is : List Int) (hi : Integers (o.attr c!"unicodes") is) (h : writeGlyphTree E true 2 name o draw = .ok tree)
    (hr : readGlyphTree E true true true versions tree = .ok (attrs, calls)) :
    delivered attrs c!"unicodes" = if is = [] then .none else .list ((firsts is).map fun i => .int i) := by
  obtain ⟨S, R, -⟩ := read_written h hr
  exact read_unicodes S R hi

/-- `firsts` does what it says. -/
theorem C45_firsts (is : List Int) : (firsts is).Nodup ∧ (∀ i, i ∈ firsts is ↔ i ∈ is) ∧ (firsts is).Sublist is :=
  ⟨firsts_nodup is, fun _ => mem_firsts, by
    induction is with
    | nil => exact .slnil
    | cons i is ih => exact (List.filter_sublist.trans ih).cons_cons i⟩

example : again44 c!"unicodes" = some (.list [.int 66, .int 65]) := by decide +kernel

/-! ### C46 -/

/-- Width and height read are the ones written, 0 when absent. -/
theorem C46_advance (E : Env) (hF : E.F.Lawful) (name : PyVal) (o : Obj) (draw : Option (List Call)) (tree : Elem) (versions : List Int) (attrs : Dict Str PyVal) (calls : List Call)
    (hw : PrintableOrNone (o.attr c!"width")) (hh : PrintableOrNone (o.attr c!"height")) (h : writeGlyphTree E true 2 name o draw = .ok tree)
    (hr : readGlyphTree E true true true versions tree = .ok (attrs, calls)) :
    SameNumber (.int 0) (orZero (o.attr c!"width")) (orZero (delivered attrs c!"width")) ∧ SameNumber (.int 0) (orZero (o.attr c!"height")) (orZero (delivered attrs c!"height")) := by
  obtain ⟨S, R, -⟩ := read_written h hr
  exact read_width S R hF hw hh

example : again44 c!"width" = some (.int 500) ∧ again44 c!"height" = some (.float (.fin (1/2))) := by decide +kernel

/-! ### C47 -/

/-- The note read consists of the lines of the note written that are not blank, without the white space around them. -/
theorem C47_lines (E : Env) (name : PyVal) (o : Obj) (draw : Option (List Call)) (tree : Elem) (versions : List Int) (attrs : Dict Str PyVal) (calls : List Call)
    (lines : List Str) (hl : NoteLines (noteText (o.attr c!"note")) lines) (h : writeGlyphTree E true 2 name o draw = .ok tree)
    (hr : readGlyphTree E true true true versions tree = .ok (attrs, calls)) : noteText (delivered attrs c!"note") = join ['\n'] lines := by
  obtain ⟨S, R, -⟩ := read_written h hr
  rw [noteLines_spec.1 hl]
  exact read_note S R

/-- A note that was read is read again after it has been written. -/
theorem C47_stable (E : Env) (name : PyVal) (o : Obj) (draw : Option (List Call)) (tree : Elem) (versions : List Int) (attrs : Dict Str PyVal) (calls : List Call)
    (h : writeGlyphTree E true 2 name o draw = .ok tree) (hr : readGlyphTree E true true true versions tree = .ok (attrs, calls))
    (name' : PyVal) (o' : Obj) (ho' : o'.attr c!"note" = delivered attrs c!"note") (draw' : Option (List Call)) (tree' : Elem) (attrs' : Dict Str PyVal) (calls' : List Call)
    (h' : writeGlyphTree E true 2 name' o' draw' = .ok tree') (hr' : readGlyphTree E true true true versions tree' = .ok (attrs', calls')) :
    noteText (delivered attrs' c!"note") = noteText (delivered attrs c!"note") := by
  obtain ⟨S, R, -⟩ := read_written h hr
  obtain ⟨S', R', -⟩ := read_written h' hr'
  rw [read_note S' R', ho', read_note S R, noteLines_join _ fun l hl => noteLines_mem hl]

example : again44 c!"note" = some (.str c!"one\ntwo") := by decide +kernel

/-! ### C48 -/

/-- The image read is the one written, all values of the transformation filled in; an empty one is not delivered.
Missing from the full claim: the values of the transformation must be ints or floats, see `C48_refuted_...`. -/
theorem C48_image_partial (E : Env) (hF : E.F.Lawful) (name : PyVal) (o : Obj) (draw : Option (List Call)) (tree : Elem) (versions : List Int) (attrs : Dict Str PyVal) (calls : List Call)
    (hk : DictKeys (o.attr c!"image")) (hp : ∀ d, o.attr c!"image" = .dict d → ∀ k i w, (k, i) ∈ transformation → (.str k, w) ∈ d → Printable w)
    (h : writeGlyphTree E true 2 name o draw = .ok tree) (hr : readGlyphTree E true true true versions tree = .ok (attrs, calls)) :
    (truthy (o.attr c!"image") = false ∧ delivered attrs c!"image" = .none) ∨
      ∃ d d', o.attr c!"image" = .dict d ∧ delivered attrs c!"image" = .dict d' ∧ SameImage d d' := by
  obtain ⟨S, R, -⟩ := read_written h hr
  exact read_image S R hF hk hp

theorem sameDicts {l l' : List PyVal} (h : SameEntries l l') : SameDicts l l' := by
  refine List.Forall₂.imp ?_ h
  rintro a b ⟨d, d', h1, h2, h3⟩
  exact ⟨d, d', h1, h2, h3.same⟩

/-- The guidelines read are the ones written. Missing from the full claim: coordinates and angles must be ints or floats. -/
theorem C48_guidelines_partial (E : Env) (hF : E.F.Lawful) (name : PyVal) (o : Obj) (draw : Option (List Call)) (tree : Elem) (versions : List Int) (attrs : Dict Str PyVal) (calls : List Call)
    (hk : ∀ e ∈ listItems (o.attr c!"guidelines"), DictKeys e) (hp : ∀ d, .dict d ∈ listItems (o.attr c!"guidelines") → PrintableFields [c!"x", c!"y", c!"angle"] d)
    (h : writeGlyphTree E true 2 name o draw = .ok tree) (hr : readGlyphTree E true true true versions tree = .ok (attrs, calls)) :
    SameDicts (listItems (o.attr c!"guidelines")) (listItems (delivered attrs c!"guidelines")) := by
  obtain ⟨S, R, -⟩ := read_written h hr
  exact sameDicts (read_guidelines S R hF hk hp)

/-- The anchors read are the ones written. Missing from the full claim: coordinates must be ints or floats. -/
theorem C48_anchors_partial (E : Env) (hF : E.F.Lawful) (name : PyVal) (o : Obj) (draw : Option (List Call)) (tree : Elem) (versions : List Int) (attrs : Dict Str PyVal) (calls : List Call)
    (hk : ∀ e ∈ listItems (o.attr c!"anchors"), DictKeys e) (hp : ∀ d, .dict d ∈ listItems (o.attr c!"anchors") → PrintableFields [c!"x", c!"y"] d)
    (h : writeGlyphTree E true 2 name o draw = .ok tree) (hr : readGlyphTree E true true true versions tree = .ok (attrs, calls)) :
    SameDicts (listItems (o.attr c!"anchors")) (listItems (delivered attrs c!"anchors")) := by
  obtain ⟨S, R, -⟩ := read_written h hr
  exact sameDicts (read_anchors S R hF hk hp)

/-- The lib read is the one written, tuples being lists. -/
theorem C48_lib (E : Env) (hF : E.F.Lawful) (name : PyVal) (o : Obj) (draw : Option (List Call)) (tree : Elem) (versions : List Int) (attrs : Dict Str PyVal) (calls : List Call)
    (hw : Spec.Plist.WellFormed (o.attr c!"lib")) (hb : E.lxml = true ∨ Spec.Plist.NoBytes (o.attr c!"lib"))
    (h : writeGlyphTree E true 2 name o draw = .ok tree) (hr : readGlyphTree E true true true versions tree = .ok (attrs, calls)) :
    (truthy (o.attr c!"lib") = false ∧ delivered attrs c!"lib" = .none) ∨ Spec.Plist.Same (Spec.Plist.untuple (o.attr c!"lib")) (delivered attrs c!"lib") := by
  obtain ⟨S, R, -⟩ := read_written h hr
  exact read_lib S R hF hw hb

/-- An image with `None` as a scale is valid and is written, but not read. -/
theorem C48_refuted_image : ∃ tree, writeGlyphTree env44 true 2 (.str c!"A")
      (fun k => if k = c!"image" then some (.dict [(.str c!"fileName", .str c!"a.png"), (.str c!"xScale", .none)]) else none) none = .ok tree ∧
    readGlyphTree env44 true true true [1, 2] tree = .error .glifLibError := ⟨_, by rfl, by rfl⟩

/-- A guideline with a bool as a coordinate is valid and is written, but not read. -/
theorem C48_refuted_guideline : ∃ tree, writeGlyphTree env44 true 2 (.str c!"A")
      (fun k => if k = c!"guidelines" then some (.list [.dict [(.str c!"x", .bool true)]]) else none) none = .ok tree ∧
    readGlyphTree env44 true true true [1, 2] tree = .error .glifLibError := ⟨_, by rfl, by rfl⟩

example : again44 c!"guidelines" = some (.list [.dict [(.str c!"x", .int 5), (.str c!"identifier", .str c!"g1")]]) ∧
    again44 c!"anchors" = some (.list [.dict [(.str c!"x", .int 5), (.str c!"y", .int 6), (.str c!"name", .str c!"top"), (.str c!"identifier", .str c!"a1")]]) ∧
    again44 c!"lib" = some (.dict [(.str c!"k", .list [.int 1, .str c!"s"])]) := by decide +kernel

end Verif.Props
