import Verif.Proofs.GlifPenRest
import Verif.Props.Glif
/-! Reading a glyph onto any glyph object and any pen, also when it fails in the middle: C107. -/
namespace Verif.Props
open Verif Verif.Glif Verif.GlifPen Verif.Spec.GlifPen

/-- A glyph element for the examples: with `y` not a number the reading fails in the outline. -/
def tree107 (y : Str) : Elem :=
  .mk c!"glyph" [(c!"name", c!"A"), (c!"format", c!"2")] none none
    [.mk c!"advance" [(c!"width", c!"500")] none none [],
     .mk c!"outline" [] none none
      [.mk c!"component" [(c!"base", c!"B"), (c!"identifier", c!"k1")] none none [],
       .mk c!"contour" [(c!"identifier", c!"c1")] none none
        [.mk c!"point" [(c!"x", c!"1"), (c!"y", c!"2"), (c!"type", c!"line"), (c!"identifier", c!"p1")] none none [],
         .mk c!"point" [(c!"x", c!"3"), (c!"y", y), (c!"type", c!"line")] none none []]]]

/-- The environment of the examples. -/
def env107 : Env := ⟨fractionCodec, true, fun _ => []⟩

/-- A pen that does not know the keyword. -/
def legacy107 : AnyPen (List Sent) := fun s c => if hasKeyword c then (s, some .typeError) else (s ++ [c], none)

/-- A pen that keeps every call and then answers `TypeError` to the keyword. -/
def hasty107 : AnyPen (List Sent) := fun s c => (s ++ [c], if hasKeyword c then some .typeError else none)

/-- A pen that takes three calls. -/
def full107 : AnyPen Nat := fun n _ => if n < 3 then (n + 1, none) else (n, some .indexError)

/-- The reader's calls do not depend on the pen: on every pen, from every state, the effect is that of the calls a recording pen keeps,
one after the other up to the first that raises, where a pen that answers `TypeError` to the keyword is called again without it. What the
pen raises is raised; otherwise the outcome and the attributes are the same for all pens. -/
theorem C107_any_pen (E : Env) {σ : Type} (P : AnyPen σ) (accepts : Str → Bool) (validate hasObj hasPen : Bool) (versions : List Int) (tree : Elem)
    (a : Dict Str PyVal) (s : σ) :
    let kept := readOnto E record accepts validate hasObj hasPen versions tree ⟨a, []⟩
    let read := readOnto E P accepts validate hasObj hasPen versions tree ⟨a, s⟩
    read.1.pen = (drawOn P s kept.1.pen).1 ∧
    (∀ x, (drawOn P s kept.1.pen).2 = some x → read.2 = .error x) ∧
    ((drawOn P s kept.1.pen).2 = none → read.2 = kept.2 ∧ read.1.attrs = kept.1.attrs) := by
  obtain ⟨h1, h2, h3⟩ := free_readOnto E accepts validate hasObj hasPen versions tree σ P ⟨a, s⟩
  refine ⟨h1, fun x hx => ?_, fun hn => ⟨?_, h3 hn⟩⟩
  · dsimp only at h2 hx ⊢; rw [h2, hx]
  · dsimp only at h2 hn ⊢; rw [h2, hn]

example : (readOnto env107 full107 (fun _ => true) true true true [1, 2] (tree107 c!"4") ⟨[], 0⟩).1.pen = 3 ∧
    (readOnto env107 full107 (fun _ => true) true true true [1, 2] (tree107 c!"4") ⟨[], 0⟩).2.toOption = none ∧
    (readOnto env107 record (fun _ => true) true true true [1, 2] (tree107 c!"4") ⟨[], []⟩).1.pen =
      [.addComponent (.str c!"B") (.tuple [.int 1, .int 0, .int 0, .int 1, .int 0, .int 0]) (some (.str c!"k1")),
       .beginPath (some (.str c!"c1")), .addPoint (.tuple [.int 1, .int 2]) (.str c!"line") (.bool false) .none (some (.str c!"p1")),
       .addPoint (.tuple [.int 3, .int 4]) (.str c!"line") (.bool false) .none (some .none), .endPath] := by decide +kernel

/-- A call at which the pen raises anything but `TypeError` is the last one. -/
theorem C107_raises (E : Env) {σ : Type} (P : AnyPen σ) (accepts : Str → Bool) (validate hasObj hasPen : Bool) (versions : List Int) (tree : Elem)
    (a : Dict Str PyVal) (s s1 s2 : σ) (before later : List Sent) (c : Sent) (x : Exc) (hx : x ≠ .typeError)
    (hc : (readOnto E record accepts validate hasObj hasPen versions tree ⟨a, []⟩).1.pen = before ++ c :: later)
    (h1 : drawOn P s before = (s1, none)) (h2 : P s1 c = (s2, some x)) :
    (readOnto E P accepts validate hasObj hasPen versions tree ⟨a, s⟩).1.pen = s2 ∧
    (readOnto E P accepts validate hasObj hasPen versions tree ⟨a, s⟩).2 = .error x := by
  obtain ⟨h3, h4, -⟩ := C107_any_pen E P accepts validate hasObj hasPen versions tree a s
  have hd : drawOn P s (before ++ c :: later) = (s2, some x) := by
    have hl : deliver P s1 c = (s2, some x) := by
      unfold deliver
      rw [h2]
      cases x <;> first | exact absurd rfl hx | (cases withoutKeyword c <;> rfl)
    rw [drawOn_append, h1]
    dsimp only
    rw [drawOn, hl]
  rw [hc, hd] at h3 h4
  exact ⟨h3, h4 x rfl⟩

example : (readOnto env107 record (fun _ => true) true true true [1, 2] (tree107 c!"4") ⟨[], []⟩).1.pen.length = 5 ∧
    drawOn full107 0 ((readOnto env107 record (fun _ => true) true true true [1, 2] (tree107 c!"4") ⟨[], []⟩).1.pen.take 3) = (3, none) ∧
    full107 3 .endPath = (3, some .indexError) := by decide +kernel

/-- On a pen that knows the keyword and never raises, reading is what the other theorems about reading say: it succeeds with the same
attributes and calls, or raises the same exception. -/
theorem C107_modern (E : Env) {σ : Type} (P : AnyPen σ) (hP : Modern P) (validate hasObj hasPen : Bool) (versions : List Int) (tree : Elem) (s : σ) :
    (∀ attrs calls, readGlyphTree E validate hasObj hasPen versions tree = .ok (attrs, calls) →
      ∃ sent : List Sent, sent.map asCall = calls ∧
        readOnto E P (fun _ => true) validate hasObj hasPen versions tree ⟨[], s⟩ = (⟨attrs, after P s sent⟩, .ok ())) ∧
    (∀ x, readGlyphTree E validate hasObj hasPen versions tree = .error x →
      (readOnto E P (fun _ => true) validate hasObj hasPen versions tree ⟨[], s⟩).2 = .error x) := by
  obtain ⟨h1, -, h3⟩ := C107_any_pen E P (fun _ => true) validate hasObj hasPen versions tree [] s
  rw [agree_tree]
  rw [drawOn_modern hP] at h1 h3
  obtain ⟨h4, h5⟩ := h3 rfl
  rcases hr : readOnto E record (fun _ => true) validate hasObj hasPen versions tree ⟨[], []⟩ with ⟨⟨b, cs⟩, x | v⟩
  · rw [hr] at h4
    exact ⟨fun _ _ h => (nomatch h), fun y hy => by cases hy; exact h4⟩
  · rw [hr] at h1 h4 h5
    refine ⟨fun attrs calls h => ?_, fun _ h => nomatch h⟩
    cases h
    refine ⟨cs, rfl, ?_⟩
    rcases hq : readOnto E P (fun _ => true) validate hasObj hasPen versions tree ⟨[], s⟩ with ⟨⟨b', s'⟩, r⟩
    rw [hq] at h1 h4 h5
    dsimp only at h1 h4 h5
    rw [h1, h4, h5]

/-- On a pen that does not know the keyword reading has the same outcome and sets the same attributes; the pen gets the same calls without
the identifiers. -/
theorem C107_legacy (E : Env) {σ : Type} (P : AnyPen σ) (hP : Legacy P) (validate hasObj hasPen : Bool) (versions : List Int) (tree : Elem) (s : σ) :
    (∀ attrs calls, readGlyphTree E validate hasObj hasPen versions tree = .ok (attrs, calls) →
      ∃ sent : List Sent, sent.map asCall = calls ∧
        readOnto E P (fun _ => true) validate hasObj hasPen versions tree ⟨[], s⟩ = (⟨attrs, after P s (sent.map plain)⟩, .ok ())) ∧
    (∀ x, readGlyphTree E validate hasObj hasPen versions tree = .error x →
      (readOnto E P (fun _ => true) validate hasObj hasPen versions tree ⟨[], s⟩).2 = .error x) := by
  obtain ⟨h1, -, h3⟩ := C107_any_pen E P (fun _ => true) validate hasObj hasPen versions tree [] s
  rw [agree_tree]
  rw [drawOn_legacy hP] at h1 h3
  obtain ⟨h4, h5⟩ := h3 rfl
  rcases hr : readOnto E record (fun _ => true) validate hasObj hasPen versions tree ⟨[], []⟩ with ⟨⟨b, cs⟩, x | v⟩
  · rw [hr] at h4
    exact ⟨fun _ _ h => (nomatch h), fun y hy => by cases hy; exact h4⟩
  · rw [hr] at h1 h4 h5
    refine ⟨fun attrs calls h => ?_, fun _ h => nomatch h⟩
    cases h
    refine ⟨cs, rfl, ?_⟩
    rcases hq : readOnto E P (fun _ => true) validate hasObj hasPen versions tree ⟨[], s⟩ with ⟨⟨b', s'⟩, r⟩
    rw [hq] at h1 h4 h5
    dsimp only at h1 h4 h5
    rw [h1, h4, h5]

example : Modern record ∧ Legacy legacy107 := by
  refine ⟨fun _ _ => rfl, fun s c => ?_⟩
  unfold legacy107
  cases h : hasKeyword c <;> simp

example : (readOnto env107 legacy107 (fun _ => true) true true true [1, 2] (tree107 c!"4") ⟨[], []⟩).1.pen =
      [.addComponent (.str c!"B") (.tuple [.int 1, .int 0, .int 0, .int 1, .int 0, .int 0]) none,
       .beginPath none, .addPoint (.tuple [.int 1, .int 2]) (.str c!"line") (.bool false) .none none,
       .addPoint (.tuple [.int 3, .int 4]) (.str c!"line") (.bool false) .none none, .endPath] ∧
    (readOnto env107 legacy107 (fun _ => true) true true true [1, 2] (tree107 c!"4") ⟨[], []⟩).2.toOption = some () := by decide +kernel

/-- When reading succeeds the pen has got whole contours and components; when it fails the last contour can be without its end, and
everything before it is whole. With validation the whole contours are well formed (C43), also when the reading fails later. -/
theorem C107_shape (E : Env) (accepts : Str → Bool) (validate hasObj hasPen : Bool) (versions : List Int) (tree : Elem) (a : Dict Str PyVal) :
    let read := readOnto E record accepts validate hasObj hasPen versions tree ⟨a, []⟩
    (read.2 = .ok () → Whole validate read.1.pen) ∧ (Whole validate read.1.pen ∨ Unfinished validate read.1.pen) :=
  have h := shaped_readOnto E accepts validate hasObj hasPen versions tree a
  ⟨h.1 (), h.2⟩

/-- What has been drawn when a validating reading fails is the beginning of what reading without validation draws; when it succeeds it is
the same. -/
theorem C107_beginning (E : Env) (accepts : Str → Bool) (hasObj hasPen : Bool) (versions : List Int) (tree : Elem) (a : Dict Str PyVal) :
    let strict := readOnto E record accepts true hasObj hasPen versions tree ⟨a, []⟩
    let loose := readOnto E record accepts false hasObj hasPen versions tree ⟨a, []⟩
    strict.1.pen <+: loose.1.pen ∧ (strict.2 = .ok () → loose.2 = .ok () ∧ loose.1.pen = strict.1.pen) :=
  have h := (pre_readOnto E accepts hasObj hasPen versions tree).rest a a
  ⟨h.1, h.2 ()⟩

/-- A glyph element with the same identifier twice. -/
def twice107 : Elem :=
  .mk c!"glyph" [(c!"name", c!"A"), (c!"format", c!"2")] none none
    [.mk c!"outline" [] none none
      [.mk c!"contour" [(c!"identifier", c!"c1")] none none
        [.mk c!"point" [(c!"x", c!"1"), (c!"y", c!"2"), (c!"type", c!"line"), (c!"identifier", c!"c1")] none none []]]]

example : (readOnto env107 record (fun _ => true) true true true [1, 2] twice107 ⟨[], []⟩).1.pen = [.beginPath (some (.str c!"c1"))] ∧
    (readOnto env107 record (fun _ => true) false true true [1, 2] twice107 ⟨[], []⟩).1.pen =
      [.beginPath (some (.str c!"c1")), .addPoint (.tuple [.int 1, .int 2]) (.str c!"line") (.bool false) .none (some (.str c!"c1")), .endPath] := by decide +kernel

/-- A glyph object that takes only some attributes gets exactly those, with the same values; the calls and the outcome do not change. -/
theorem C107_attributes (E : Env) {σ : Type} (P : AnyPen σ) (accepts : Str → Bool) (validate hasObj hasPen : Bool) (versions : List Int) (tree : Elem) (s : σ) :
    let all := readOnto E P (fun _ => true) validate hasObj hasPen versions tree ⟨[], s⟩
    let some_ := readOnto E P accepts validate hasObj hasPen versions tree ⟨[], s⟩
    some_.1.attrs = kept accepts all.1.attrs ∧ some_.1.pen = all.1.pen ∧ some_.2 = all.2 := by
  have h := filtered_readOnto E P accepts validate hasObj hasPen versions tree [] s
  change readOnto E P accepts validate hasObj hasPen versions tree ⟨[], s⟩ = _ at h
  dsimp only
  rw [h]
  exact ⟨rfl, rfl, rfl⟩

example : (readOnto env107 record (fun _ => true) true true true [1, 2] (tree107 c!"4") ⟨[], []⟩).1.attrs =
      [(c!"name", .str c!"A"), (c!"width", .int 500), (c!"height", .int 0)] ∧
    (readOnto env107 record (fun n => n == c!"width") true true true [1, 2] (tree107 c!"4") ⟨[], []⟩).1.attrs = [(c!"width", .int 500)] := by decide +kernel

/-- Without a pen nothing is called, without a glyph object nothing is set. -/
theorem C107_absent (E : Env) {σ : Type} (P : AnyPen σ) (accepts : Str → Bool) (validate hasObj hasPen : Bool) (versions : List Int) (tree : Elem)
    (a : Dict Str PyVal) (s : σ) :
    (hasPen = false → (readOnto E P accepts validate hasObj hasPen versions tree ⟨a, s⟩).1.pen = s) ∧
    (hasObj = false → (readOnto E P accepts validate hasObj hasPen versions tree ⟨a, s⟩).1.attrs = a) := by
  constructor
  · rintro rfl
    have h := (C107_any_pen E P accepts validate hasObj false versions tree a s).1
    rw [h, silent_readOnto E accepts validate hasObj versions tree a]
    rfl
  · rintro rfl
    rw [still_readOnto E P accepts validate hasPen versions tree a s]

example : (readOnto env107 full107 (fun _ => true) true true false [1, 2] (tree107 c!"4") ⟨[], 0⟩).1.pen = 0 ∧
    (readOnto env107 full107 (fun _ => true) true true false [1, 2] (tree107 c!"4") ⟨[], 0⟩).2.toOption = some () ∧
    (readOnto env107 record (fun _ => true) true false true [1, 2] (tree107 c!"4") ⟨[], []⟩).1.pen.length = 5 := by decide +kernel

/-- Data that is not a glyph, or has no format number, changes nothing. -/
theorem C107_refused (E : Env) {σ : Type} (P : AnyPen σ) (accepts : Str → Bool) (validate hasObj hasPen : Bool) (versions : List Int) (tree : Elem)
    (f : Effects σ) (h : tree.tag ≠ c!"glyph" ∨ textBlank tree.text = false ∨
      (Dict.get? tree.attrib c!"format").bind pyInt = none ∨ (∃ v, (Dict.get? tree.attrib c!"format").bind pyInt = some v ∧ v ≠ 1 ∧ v ≠ 2) ∨
      (validate = true ∧ ∃ v, (Dict.get? tree.attrib c!"format").bind pyInt = some v ∧ v ∉ versions)) :
    (readOnto E P accepts validate hasObj hasPen versions tree f).1 = f ∧ ∃ x, (readOnto E P accepts validate hasObj hasPen versions tree f).2 = .error x := by
  unfold readOnto
  by_cases h1 : tree.tag ≠ c!"glyph"
  · rw [if_pos h1]; exact ⟨rfl, _, rfl⟩
  rw [if_neg h1]
  by_cases h2 : (!textBlank tree.text) = true
  · rw [if_pos h2]; exact ⟨rfl, _, rfl⟩
  rw [if_neg h2]
  cases hg : Dict.get? tree.attrib c!"format" with
  | none => exact ⟨rfl, _, rfl⟩
  | some s =>
    dsimp only
    cases hi : pyInt s with
    | none => exact ⟨rfl, _, rfl⟩
    | some v =>
      dsimp only
      by_cases h3 : (validate && !decide (v ∈ versions)) = true
      · rw [if_pos h3]; exact ⟨rfl, _, rfl⟩
      rw [if_neg h3]
      rw [hg] at h
      simp only [Option.bind, hi] at h
      rcases h with h | h | h | ⟨w, h, hw⟩ | ⟨hv, w, h, hw⟩
      · exact absurd h h1
      · rw [h] at h2; exact absurd rfl h2
      · cases h
      · cases h
        rw [if_neg hw.1, if_neg hw.2]; exact ⟨rfl, _, rfl⟩
      · cases h
        simp [hv, hw] at h3

example : (readOnto env107 full107 (fun _ => true) true true true [1] (tree107 c!"4") ⟨[], 0⟩).1.attrs = [] ∧
    (readOnto env107 full107 (fun _ => true) true true true [1, 2] (tree107 c!"4") ⟨[], 0⟩).1.attrs ≠ [] := by decide +kernel

/-- Reading is not all or nothing: an element that raises `GlifLibError` in a contour leaves the glyph object with its width and the pen
with a component and a contour that has no end. -/
theorem C107_nothing_refuted :
    (∀ validate, ((readOnto env107 record (fun _ => true) validate true true [1, 2] (tree107 c!"four") ⟨[], []⟩).2.toOption = none)) ∧
    (readOnto env107 record (fun _ => true) true true true [1, 2] (tree107 c!"four") ⟨[], []⟩).1.attrs =
      [(c!"name", .str c!"A"), (c!"width", .int 500), (c!"height", .int 0)] ∧
    (readOnto env107 record (fun _ => true) true true true [1, 2] (tree107 c!"four") ⟨[], []⟩).1.pen =
      [.addComponent (.str c!"B") (.tuple [.int 1, .int 0, .int 0, .int 1, .int 0, .int 0]) (some (.str c!"k1")), .beginPath (some (.str c!"c1"))] := by
  decide +kernel

/-- A pen that raises `TypeError` for another reason than the keyword gets the call twice. -/
theorem C107_once_refuted :
    (readOnto env107 hasty107 (fun _ => true) true true true [1, 2] (tree107 c!"4") ⟨[], []⟩).1.pen =
      [.addComponent (.str c!"B") (.tuple [.int 1, .int 0, .int 0, .int 1, .int 0, .int 0]) (some (.str c!"k1")),
       .addComponent (.str c!"B") (.tuple [.int 1, .int 0, .int 0, .int 1, .int 0, .int 0]) none,
       .beginPath (some (.str c!"c1")), .beginPath none,
       .addPoint (.tuple [.int 1, .int 2]) (.str c!"line") (.bool false) .none (some (.str c!"p1")),
       .addPoint (.tuple [.int 1, .int 2]) (.str c!"line") (.bool false) .none none,
       .addPoint (.tuple [.int 3, .int 4]) (.str c!"line") (.bool false) .none (some .none),
       .addPoint (.tuple [.int 3, .int 4]) (.str c!"line") (.bool false) .none none, .endPath] ∧
    (readOnto env107 hasty107 (fun _ => true) true true true [1, 2] (tree107 c!"4") ⟨[], []⟩).2.toOption = some () := by decide +kernel

end Verif.Props
