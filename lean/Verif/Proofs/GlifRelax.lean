import Verif.Model.GlifReader
import Verif.Spec.Relax
/-! Reading and writing GLIF without validation. -/
namespace Verif.Glif
open Verif Verif.Validators Verif.Spec.Relax

theorem relaxes_refl {α : Type} (a : Except Exc α) : Relaxes a a := fun _ h => h
theorem relaxes_error {α : Type} (x : Exc) (b : Except Exc α) : Relaxes (.error x) b := nofun
theorem relaxes_cases {α : Type} {a b : Except Exc α} (h : Relaxes a b) : (∃ x, a = .error x) ∨ ∃ x, a = .ok x ∧ b = .ok x := by
  rcases a with x | x
  · exact .inl ⟨x, rfl⟩
  · exact .inr ⟨x, rfl, h x rfl⟩
theorem relaxes_map {α β : Type} {a b : Except Exc α} (f : α → β) (h : Relaxes a b) : Relaxes (a.map f) (b.map f) := by
  rcases a with x | x
  · exact nofun
  · rw [h x rfl]; exact relaxes_refl _
theorem relaxes_if {α : Type} {c : Prop} [Decidable c] {a b a' b' : Except Exc α} (h : Relaxes a a') (h' : Relaxes b b') : Relaxes (if c then a else b) (if c then a' else b') := by
  split
  · exact h
  · exact h'
theorem relaxes_guard {α : Type} {c : Bool} {x x' : Exc} {a b : Except Exc α} (h : Relaxes a b) : Relaxes (if (true && c) = true then .error x else a) (if (false && c) = true then .error x' else b) := by
  cases c
  · exact h
  · exact relaxes_error _ _

/-- The next step of both is the same or the first fails. -/
macro "relax" t:term : tactic => `(tactic| (rcases relaxes_cases $t with ⟨_, h⟩ | ⟨_, h, h'⟩; · (rw [h]; exact relaxes_error _ _)
                                            rw [h, h']; dsimp only))

theorem coordinate_relax (F : FloatCodec) (o : Option Str) : Relaxes (coordinate F true o) (coordinate F false o) := by
  cases o
  · exact relaxes_error _ _
  · exact relaxes_refl _

theorem massagePoint_relax (E : Env) (fv index : Nat) (e : Elem) : Relaxes (massagePoint E true fv index e) (massagePoint E false fv index e) := by
  unfold massagePoint
  refine relaxes_if (relaxes_refl _) (relaxes_guard (relaxes_guard ?_))
  relax (coordinate_relax E.F (Dict.get? e.attrib c!"x"))
  relax (coordinate_relax E.F (Dict.get? e.attrib c!"y"))
  exact relaxes_guard (relaxes_guard (relaxes_guard (relaxes_guard (relaxes_refl _))))

theorem massagePoints_relax (E : Env) (fv index : Nat) (l : List Elem) : Relaxes (massagePoints E true fv index l) (massagePoints E false fv index l) := by
  induction l generalizing index with
  | nil => exact relaxes_refl _
  | cons e l ih =>
    rw [massagePoints, massagePoints]
    relax (massagePoint_relax E fv index e)
    relax (ih (index + 1))
    exact relaxes_refl _

theorem massage_relax (E : Env) (fv : Nat) (l : List Elem) : Relaxes (massage E true fv l) (massage E false fv l) := by
  unfold massage
  relax (massagePoints_relax E fv 0 l)
  simp only [Bool.and_assoc]
  exact relaxes_guard (relaxes_refl _)

theorem readIdentifier_relax (ids : List Str) (o : Option Str) : Relaxes (readIdentifier true ids o) (readIdentifier false ids o) := by
  cases o
  · exact relaxes_refl _
  · exact relaxes_guard (x' := .glifLibError) (relaxes_refl _)

theorem readPoints2_relax (ids : List Str) (l : List MPoint) : Relaxes (readPoints2 true ids l) (readPoints2 false ids l) := by
  induction l generalizing ids with
  | nil => exact relaxes_refl _
  | cons p l ih =>
    rw [readPoints2, readPoints2]
    rcases relaxes_cases (readIdentifier_relax ids p.identifier) with ⟨_, h⟩ | ⟨ids', h, h'⟩
    · rw [h]; exact relaxes_error _ _
    rw [h, h']
    dsimp only
    relax (ih ids')
    exact relaxes_refl _

theorem readContour2_relax (E : Env) (ids : List Str) (e : Elem) : Relaxes (readContour2 E true ids e) (readContour2 E false ids e) := by
  unfold readContour2
  refine relaxes_guard ?_
  rcases relaxes_cases (readIdentifier_relax ids (Dict.get? e.attrib c!"identifier")) with ⟨_, h⟩ | ⟨ids', h, h'⟩
  · rw [h]; exact relaxes_error _ _
  rw [h, h']
  dsimp only
  rcases relaxes_cases (massage_relax E 2 e.children) with ⟨_, h⟩ | ⟨ps, h, h'⟩
  · rw [h]; exact relaxes_error _ _
  rw [h, h']
  dsimp only
  relax (readPoints2_relax ids' ps)
  exact relaxes_refl _

theorem readComponent_relax (E : Env) (fv : Nat) (ids : List Str) (e : Elem) : Relaxes (readComponent E true fv ids e) (readComponent E false fv ids e) := by
  unfold readComponent
  refine relaxes_guard (relaxes_guard (relaxes_guard ?_))
  split
  · exact relaxes_error _ _
  · refine relaxes_if (relaxes_refl _) ?_
    relax (readIdentifier_relax ids (Dict.get? e.attrib c!"identifier"))
    exact relaxes_refl _

theorem readOutline2_relax (E : Env) (ids : List Str) (l : List Elem) : Relaxes (readOutline2 E true ids l) (readOutline2 E false ids l) := by
  induction l generalizing ids with
  | nil => exact relaxes_refl _
  | cons e l ih =>
    rw [readOutline2, readOutline2]
    rcases relaxes_cases (relaxes_if (c := e.tag = c!"contour") (readContour2_relax E ids e) (relaxes_if (c := e.tag = c!"component") (readComponent_relax E 2 ids e) (relaxes_refl (.error .glifLibError))))
      with ⟨_, h⟩ | ⟨⟨cs, ids'⟩, h, h'⟩
    · rw [h]; exact relaxes_error _ _
    rw [h, h']
    dsimp only
    relax (ih ids')
    exact relaxes_refl _

theorem readAnchor1_relax (E : Env) (e : Elem) : Relaxes (readAnchor1 E true e) (readAnchor1 E false e) := by
  unfold readAnchor1
  refine relaxes_if (relaxes_refl _) ?_
  split
  · exact relaxes_refl _
  · relax (coordinate_relax E.F (Dict.get? e.attrib c!"x"))
    relax (coordinate_relax E.F (Dict.get? e.attrib c!"y"))
    exact relaxes_refl _

theorem readContour1_relax (E : Env) (e : Elem) : Relaxes (readContour1 E true e) (readContour1 E false e) := by
  unfold readContour1
  refine relaxes_guard ?_
  relax (massage_relax E 1 e.children)
  exact relaxes_refl _

theorem contourAnchor1_relax (E : Env) (e : Elem) : Relaxes (contourAnchor1 E true e) (contourAnchor1 E false e) := by
  unfold contourAnchor1
  split
  · exact relaxes_if (readAnchor1_relax E _) (relaxes_refl _)
  · exact relaxes_refl _

theorem readItem1_relax (E : Env) (hasPen : Bool) (e : Elem) : Relaxes (readItem1 E true hasPen e) (readItem1 E false hasPen e) := by
  unfold readItem1
  refine relaxes_if ?_ (relaxes_if (relaxes_if (relaxes_map _ (readComponent_relax E 1 [] e)) (relaxes_refl _)) (relaxes_refl _))
  rcases relaxes_cases (contourAnchor1_relax E e) with ⟨_, h⟩ | ⟨o, h, h'⟩
  · rw [h]; exact relaxes_error _ _
  rw [h, h']
  cases o
  · exact relaxes_if (relaxes_map _ (readContour1_relax E e)) (relaxes_refl _)
  · exact relaxes_refl _

theorem readOutline1_relax (E : Env) (hasPen : Bool) (l : List Elem) : Relaxes (readOutline1 E true hasPen l) (readOutline1 E false hasPen l) := by
  induction l with
  | nil => exact relaxes_refl _
  | cons e l ih =>
    rw [readOutline1, readOutline1]
    relax (readItem1_relax E hasPen e)
    relax ih
    exact relaxes_refl _

theorem readLib_relax (E : Env) (e : Elem) : Relaxes (readLib E true e) (readLib E false e) := by
  unfold readLib
  split
  · split
    · exact relaxes_error _ _
    · simp only [if_true, Bool.false_eq_true, if_false]
      split
      · exact relaxes_error _ _
      · exact relaxes_error _ _
      · exact relaxes_refl _
  · exact relaxes_refl _

theorem readImage_relax (E : Env) (e : Elem) : Relaxes (readImage E true e) (readImage E false e) := by
  unfold readImage
  split
  · exact relaxes_error _ _
  · exact relaxes_guard (relaxes_refl _)

theorem once_relax (s : Collected) (tag : Str) : Relaxes (s.once true tag) (s.once false tag) := relaxes_guard (relaxes_refl _)

theorem outline1_relax (E : Env) (hasObj hasPen : Bool) (s : Collected) (e : Elem) : Relaxes (s.outline1 E true hasObj hasPen e) (s.outline1 E false hasObj hasPen e) := by
  unfold Collected.outline1
  relax (readOutline1_relax E hasPen e.children)
  exact relaxes_if (relaxes_guard (relaxes_refl _)) (relaxes_refl _)

theorem outline2_relax (E : Env) (hasPen : Bool) (s : Collected) (e : Elem) : Relaxes (s.outline2 E true hasPen e) (s.outline2 E false hasPen e) := by
  unfold Collected.outline2
  refine relaxes_if ?_ (relaxes_refl _)
  relax (readOutline2_relax E s.identifiers e.children)
  exact relaxes_refl _

theorem outline_relax (E : Env) (hasObj hasPen : Bool) (fv : Nat) (s : Collected) (e : Elem) : Relaxes (s.outline E true hasObj hasPen fv e) (s.outline E false hasObj hasPen fv e) := by
  unfold Collected.outline
  relax (once_relax s c!"outline")
  exact relaxes_guard (relaxes_if (outline1_relax E hasObj hasPen _ e) (outline2_relax E hasPen _ e))

theorem advance_relax (E : Env) (s : Collected) (e : Elem) : Relaxes (s.advance E true e) (s.advance E false e) := by
  unfold Collected.advance
  relax (once_relax s c!"advance")
  exact relaxes_refl _

theorem note_relax (s : Collected) (e : Elem) : Relaxes (s.note true e) (s.note false e) := by
  unfold Collected.note
  relax (once_relax s c!"note")
  exact relaxes_refl _

theorem lib_relax (E : Env) (s : Collected) (e : Elem) : Relaxes (s.lib E true e) (s.lib E false e) := by
  unfold Collected.lib
  relax (once_relax s c!"lib")
  relax (readLib_relax E e)
  exact relaxes_refl _

theorem image_relax (E : Env) (s : Collected) (e : Elem) : Relaxes (s.image E true e) (s.image E false e) := by
  unfold Collected.image
  relax (once_relax s c!"image")
  refine relaxes_guard ?_
  relax (readImage_relax E e)
  exact relaxes_refl _

theorem readChild_relax (E : Env) (hasObj hasPen : Bool) (fv : Nat) (s : Collected) (e : Elem) : Relaxes (readChild E true hasObj hasPen fv s e) (readChild E false hasObj hasPen fv s e) := by
  unfold readChild
  exact relaxes_if (outline_relax E hasObj hasPen fv s e) (relaxes_if (relaxes_refl _) (relaxes_if (advance_relax E s e) (relaxes_if (relaxes_refl _)
    (relaxes_if (note_relax s e) (relaxes_if (lib_relax E s e) (relaxes_if (relaxes_guard (relaxes_refl _)) (relaxes_if (relaxes_guard (relaxes_refl _))
      (relaxes_if (image_relax E s e) (relaxes_refl _)))))))))

theorem readChildren_relax (E : Env) (hasObj hasPen : Bool) (fv : Nat) (s : Collected) (l : List Elem) : Relaxes (readChildren E true hasObj hasPen fv s l) (readChildren E false hasObj hasPen fv s l) := by
  induction l generalizing s with
  | nil => exact relaxes_refl _
  | cons e l ih =>
    rw [readChildren, readChildren]
    relax (readChild_relax E hasObj hasPen fv s e)
    exact ih _

theorem setList_relax (s : Collected) (name : Str) (l : List PyVal) (v : Bool × List Str) : Relaxes (s.setList true name l v) (s.setList false name l v) :=
  relaxes_if (relaxes_refl _) (relaxes_guard (relaxes_refl _))

theorem finish_relax (E : Env) (s : Collected) : Relaxes (s.finish E true) (s.finish E false) := by
  unfold Collected.finish
  dsimp only
  generalize (if s.unicodes.isEmpty = true then s else s.setAttr c!"unicodes" (.list (s.unicodes.map fun i => .int i))) = s
  relax (setList_relax s c!"guidelines" s.guidelines (guidelinesValidator E.F s.identifiers (.list s.guidelines)))
  exact setList_relax _ _ _ _

theorem readName_relax (hasObj : Bool) (tree : Elem) : Relaxes (readName true hasObj tree) (readName false hasObj tree) := by
  unfold readName
  split
  · exact relaxes_refl _
  · exact relaxes_error _ _

theorem readFormat_relax (E : Env) (hasObj hasPen : Bool) (fv : Nat) (tree : Elem) : Relaxes (readFormat E true hasObj hasPen fv tree) (readFormat E false hasObj hasPen fv tree) := by
  unfold readFormat
  rcases relaxes_cases (readName_relax hasObj tree) with ⟨_, h⟩ | ⟨attrs, h, h'⟩
  · rw [h]; exact relaxes_error _ _
  rw [h, h']
  dsimp only
  rcases relaxes_cases (readChildren_relax E hasObj hasPen fv ⟨attrs, [], [], [], [], [], []⟩ tree.children) with ⟨_, h⟩ | ⟨s, h, h'⟩
  · rw [h]; exact relaxes_error _ _
  rw [h, h']
  dsimp only
  relax (finish_relax E s)
  exact relaxes_refl _

/-- Reading a glyph. -/
theorem readGlyphTree_relax (E : Env) (hasObj hasPen : Bool) (versions : List Int) (tree : Elem) :
    Relaxes (readGlyphTree E true hasObj hasPen versions tree) (readGlyphTree E false hasObj hasPen versions tree) := by
  unfold readGlyphTree
  refine relaxes_if (relaxes_refl _) (relaxes_if (relaxes_refl _) ?_)
  split
  · exact relaxes_error _ _
  · split
    · exact relaxes_refl _
    · exact relaxes_guard (relaxes_if (readFormat_relax E hasObj hasPen 1 tree) (relaxes_if (readFormat_relax E hasObj hasPen 2 tree) (relaxes_refl _)))

/-! ### Writing -/

theorem advanceValue_relax (v : PyVal) : Relaxes (advanceValue true v) (advanceValue false v) := by
  unfold advanceValue
  split
  · exact relaxes_refl _
  · exact relaxes_guard (relaxes_refl _)

theorem writeAdvance_relax (E : Env) (o : Obj) : Relaxes (writeAdvance E true o) (writeAdvance E false o) := by
  unfold writeAdvance
  relax (advanceValue_relax (o.attr c!"width"))
  relax (advanceValue_relax (o.attr c!"height"))
  exact relaxes_refl _

theorem unicodeElements_relax (E : Env) (seen : List Int) (l : List PyVal) : Relaxes (unicodeElements E true seen l) (unicodeElements E false seen l) := by
  induction l generalizing seen with
  | nil => exact relaxes_refl _
  | cons v l ih =>
    rw [unicodeElements, unicodeElements]
    split
    · exact relaxes_error _ _
    · refine relaxes_if (ih seen) ?_
      split
      · exact relaxes_error _ _
      · relax (ih (seen ++ [intOf v]))
        exact relaxes_refl _

/-- A single code point is accepted with validation only. -/
theorem writeUnicodes_relax (E : Env) {v : PyVal} (hv : isInt v = false) : Relaxes (writeUnicodes E true v) (writeUnicodes E false v) := by
  unfold writeUnicodes
  simp only [hv, Bool.and_false, Bool.false_eq_true, if_false]
  split
  · exact relaxes_error _ _
  · exact unicodeElements_relax E [] _

theorem writeNote_relax (E : Env) (v : PyVal) : Relaxes (writeNote E true v) (writeNote E false v) := by
  unfold writeNote
  split
  · exact relaxes_refl _
  · exact relaxes_error _ _

theorem writeImage_relax (E : Env) (v : PyVal) : Relaxes (writeImage E true v) (writeImage E false v) := by
  unfold writeImage
  exact relaxes_guard (relaxes_refl _)

theorem addIdentifier_relax (ids : List Str) (v : PyVal) : Relaxes (addIdentifier true ids v) (addIdentifier false ids v) := by
  unfold addIdentifier
  split
  · exact relaxes_refl _
  · exact relaxes_guard (relaxes_refl _)
  · exact relaxes_guard (relaxes_refl _)

theorem entryElements_relax (E : Env) (tag : Str) (attrs : List (PyVal × PyVal) → Except Exc (List (Str × PyVal))) (ids : List Str) (l : List PyVal) :
    Relaxes (entryElements E true tag attrs ids l) (entryElements E false tag attrs ids l) := by
  induction l generalizing ids with
  | nil => exact relaxes_refl _
  | cons v l ih =>
    rw [entryElements.eq_def, entryElements.eq_def E false]
    cases v with
    | dict d =>
      dsimp only
      split
      · exact relaxes_error _ _
      · rcases relaxes_cases (addIdentifier_relax ids ((get d c!"identifier").getD .none)) with ⟨_, h⟩ | ⟨ids', h, h'⟩
        · rw [h]; exact relaxes_error _ _
        rw [h, h']
        dsimp only
        split
        · exact relaxes_error _ _
        · relax (ih ids')
          exact relaxes_refl _
    | _ => exact relaxes_error _ _

theorem writeGuidelines_relax (E : Env) (ids : List Str) (v : PyVal) : Relaxes (writeGuidelines E true ids v) (writeGuidelines E false ids v) := by
  unfold writeGuidelines
  refine relaxes_guard ?_
  split
  · exact relaxes_error _ _
  · exact entryElements_relax E _ _ _ _

theorem writeAnchors_relax (E : Env) (ids : List Str) (v : PyVal) : Relaxes (writeAnchors E true ids v) (writeAnchors E false ids v) := by
  unfold writeAnchors
  refine relaxes_guard ?_
  split
  · exact relaxes_error _ _
  · exact entryElements_relax E _ _ _ _

theorem writeLib_relax (E : Env) (v : PyVal) : Relaxes (writeLib E true v) (writeLib E false v) := by
  unfold writeLib
  simp only [if_true, Bool.false_eq_true, if_false]
  split
  · exact relaxes_error _ _
  · exact relaxes_error _ _
  · exact relaxes_refl _

theorem penIdentifier_relax (fv : Nat) (ids : List Str) (v : PyVal) : Relaxes (penIdentifier fv true ids v) (penIdentifier fv false ids v) := by
  unfold penIdentifier
  refine relaxes_if (relaxes_refl _) ?_
  relax (addIdentifier_relax ids v)
  exact relaxes_guard (relaxes_refl _)

theorem coordinates_relax (E : Env) (v : PyVal) : Relaxes (coordinates E true v) (coordinates E false v) := by
  unfold coordinates
  refine relaxes_if (relaxes_refl _) ?_
  split
  · exact relaxes_error _ _
  · exact relaxes_guard (relaxes_refl _)

theorem componentTransformation_relax (E : Env) (info : List (Str × PyVal)) (l : List PyVal) : Relaxes (componentTransformation E true info l) (componentTransformation E false info l) := by
  induction info generalizing l with
  | nil => rw [componentTransformation.eq_def, componentTransformation.eq_def E false]; exact relaxes_refl _
  | cons p info ih =>
    rcases l with _ | ⟨v, l⟩
    · rw [componentTransformation.eq_def, componentTransformation.eq_def E false]; exact relaxes_refl _
    · rw [componentTransformation.eq_def, componentTransformation.eq_def E false]
      dsimp only
      refine relaxes_guard ?_
      relax (ih l)
      exact relaxes_refl _

theorem placePoint_relax {E : Env} {fv : Nat} {s s' : Pen} {attrs : List (Str × PyVal)} {i : PyVal} (h : s.placePoint E fv true attrs i = (s', none)) :
    s.placePoint E fv false attrs i = (s', none) := by
  unfold Pen.placePoint at h ⊢
  rcases relaxes_cases (penIdentifier_relax fv s.identifiers i) with ⟨_, hx⟩ | ⟨r, hx, hx'⟩
  · rw [hx] at h; cases h
  · rw [hx] at h; rw [hx']; exact h

/-- A call on the pen that does not raise. -/
theorem step_relax {E : Env} {fv : Nat} {s s' : Pen} {c : Call} (h : s.step E fv true c = (s', none)) : s.step E fv false c = (s', none) := by
  cases c with
  | beginPath i =>
    simp only [Pen.step, Pen.beginPath] at h ⊢
    rcases relaxes_cases (penIdentifier_relax fv s.identifiers i) with ⟨_, hx⟩ | ⟨r, hx, hx'⟩
    · rw [hx] at h; cases h
    · rw [hx] at h; rw [hx']; exact h
  | addPoint pt t smooth name i =>
    simp only [Pen.step, Pen.addPoint] at h ⊢
    rcases relaxes_cases (coordinates_relax E pt) with ⟨_, hx⟩ | ⟨r, hx, hx'⟩
    · rw [hx] at h; cases h
    · rw [hx] at h; rw [hx']
      dsimp only at h ⊢
      generalize (if t = .str c!"offcurve" then PyVal.none else t) = t' at h ⊢
      rw [if_neg (by simp), if_neg (by simp)]
      by_cases h₁ : (true && !typeAllowed s t') = true
      · rw [if_pos h₁] at h; cases h
      · rw [if_neg h₁] at h
        by_cases h₂ : (truthy smooth && true && decide (t' = .none)) = true
        · rw [if_pos h₂] at h; cases h
        · rw [if_neg h₂] at h
          exact placePoint_relax h
  | endPath =>
    simp only [Pen.step, Pen.endPath] at h ⊢
    split at h
    · cases h
    · rw [if_neg (by simp)]; exact h
  | addComponent g t i =>
    simp only [Pen.step, Pen.addComponent] at h ⊢
    split at h
    · cases h
    · rcases relaxes_cases (componentTransformation_relax E transformationInfo ‹_›) with ⟨_, hx⟩ | ⟨r, hx, hx'⟩
      · rw [hx] at h; cases h
      · rw [hx] at h; rw [hx']
        dsimp only at h ⊢
        rcases relaxes_cases (penIdentifier_relax fv s.identifiers i) with ⟨_, hx⟩ | ⟨r, hx, hx'⟩
        · rw [hx] at h; cases h
        · rw [hx] at h; rw [hx']; exact h

theorem draw_relax (E : Env) (fv : Nat) (s : Pen) (l : List Call) : Relaxes (s.draw E fv true l) (s.draw E fv false l) := by
  induction l generalizing s with
  | nil => exact relaxes_refl _
  | cons c l ih =>
    rw [Pen.draw, Pen.draw]
    rcases h : s.step E fv true c with ⟨s', _ | e⟩
    · rw [step_relax h]; exact ih s'
    · exact relaxes_error _ _

theorem writeAnchorsFormat1_relax (E : Env) (s : Pen) (v : PyVal) : Relaxes (writeAnchorsFormat1 E true s v) (writeAnchorsFormat1 E false s v) := by
  unfold writeAnchorsFormat1
  refine relaxes_guard ?_
  split
  · exact relaxes_error _ _
  · split
    · exact relaxes_error _ _
    · exact draw_relax E 2 s _

theorem writeOutline_relax (E : Env) (fv : Nat) (ids : List Str) (anchors : PyVal) (calls : List Call) : Relaxes (writeOutline E true fv ids anchors calls) (writeOutline E false fv ids anchors calls) := by
  unfold writeOutline
  rcases relaxes_cases (draw_relax E 2 (Pen.new ids) calls) with ⟨_, h⟩ | ⟨s, h, h'⟩
  · rw [h]; exact relaxes_error _ _
  rw [h, h']
  dsimp only
  relax (relaxes_if (c := fv = 1 ∧ truthy anchors = true) (writeAnchorsFormat1_relax E s anchors) (relaxes_refl (.ok s)))
  exact relaxes_refl _

theorem drawn_relax (E : Env) (fv : Nat) (ids : List Str) (anchors : PyVal) (draw : Option (List Call)) : Relaxes (drawn E true fv ids anchors draw) (drawn E false fv ids anchors draw) := by
  cases draw
  · exact relaxes_refl _
  · exact relaxes_map _ (writeOutline_relax E fv ids anchors _)

theorem oneIf_relax {c : Bool} {a b : Except Exc Elem} (h : Relaxes a b) : Relaxes (oneIf c a) (oneIf c b) := relaxes_if (relaxes_map _ h) (relaxes_refl _)

theorem writeHead_relax (E : Env) (fv : Nat) {o : Obj} (hu : isInt (o.attr c!"unicodes") = false) : Relaxes (writeHead E true fv o) (writeHead E false fv o) := by
  unfold writeHead
  relax (writeAdvance_relax E o)
  relax (relaxes_if (c := truthy (o.attr c!"unicodes") = true) (writeUnicodes_relax E hu) (relaxes_refl (.ok [])))
  relax (oneIf_relax (c := truthy (o.attr c!"note")) (writeNote_relax E (o.attr c!"note")))
  relax (oneIf_relax (c := decide (2 ≤ fv) && truthy (o.attr c!"image")) (writeImage_relax E (o.attr c!"image")))
  rcases relaxes_cases (relaxes_if (c := (decide (2 ≤ fv) && truthy (o.attr c!"guidelines")) = true) (writeGuidelines_relax E [] (o.attr c!"guidelines")) (relaxes_refl (.ok ([], []))))
    with ⟨_, h⟩ | ⟨⟨g, ids⟩, h, h'⟩
  · rw [h]; exact relaxes_error _ _
  rw [h, h']
  dsimp only
  relax (relaxes_if (c := (decide (2 ≤ fv) && truthy (o.attr c!"anchors")) = true) (writeAnchors_relax E ids (o.attr c!"anchors")) (relaxes_refl (.ok ([], ids))))
  exact relaxes_refl _

/-- Writing a glyph. -/
theorem writeGlyphTree_relax (E : Env) (fv : Nat) (name : PyVal) {o : Obj} (hu : isInt (o.attr c!"unicodes") = false) (draw : Option (List Call)) :
    Relaxes (writeGlyphTree E true fv name o draw) (writeGlyphTree E false fv name o draw) := by
  unfold writeGlyphTree
  refine relaxes_guard ?_
  split
  · exact relaxes_error _ _
  · rcases relaxes_cases (writeHead_relax E fv hu) with ⟨_, h⟩ | ⟨⟨head, ids⟩, h, h'⟩
    · rw [h]; exact relaxes_error _ _
    rw [h, h']
    dsimp only
    relax (drawn_relax E fv ids (o.attr c!"anchors") draw)
    relax (oneIf_relax (c := truthy (o.attr c!"lib")) (writeLib_relax E (o.attr c!"lib")))
    exact relaxes_refl _

end Verif.Glif
