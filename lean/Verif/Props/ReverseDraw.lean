import Verif.Props.Draw
/-! Drawing reversed glyphs: C87, C86. -/
namespace Verif.Props
open Verif Verif.GlyphSet Verif.PointPens Verif.Spec.Draw

/-- What is drawn for the two directions of a part of a glyph: the same component, or the two directions of a path, but for closing lines of length zero. -/
inductive OtherWay : Spec.Draw.Path PyVal ⊕ (PyVal × PyVal) → Spec.Draw.Path PyVal ⊕ (PyVal × PyVal) → Prop
  | component (c : PyVal × PyVal) : OtherWay (.inr c) (.inr c)
  | path {p p' q q' : Spec.Draw.Path PyVal} : Backwards p p' → SamePath p q → SamePath p' q' → OtherWay (.inl q) (.inl q')

theorem isPath_ne_nil {p : Spec.Draw.Path PyVal} (h : IsPath (filePoints ([] : List Spec.Glif.Pt)) p) : False := by
  generalize e : filePoints ([] : List Spec.Glif.Pt) = l at h
  have e' : l = [] := e.symm
  cases h with
  | dot => cases e'
  | «open» => cases e'
  | closed => simp at e'
  | loop h => subst e'; simp at h

theorem fineItem_good {it : Spec.Glif.Item} (h : Glif.FineItem it) : Spec.Glif.GoodItem it := by
  cases it with
  | contour i ps => exact ⟨h.2.1, fun p hp => (h.2.2 p hp).type⟩
  | component g t i => trivial

theorem otherWay_of : ∀ {d d' : List Spec.Glif.Item} {items items' : List (Spec.Draw.Path PyVal ⊕ (PyVal × PyVal))}, List.Forall₂ ReversedItem d d' →
    List.Forall₂ Drawn (d.filter Visible) items → List.Forall₂ Drawn (d'.filter Visible) items' → List.Forall₂ OtherWay items items'
  | [], _, items, items', .nil, h1, h2 => by
    cases h1
    cases h2
    exact .nil
  | _ :: _, _ :: _, items, items', .cons h hr, h1, h2 => by
    cases h with
    | component g t i =>
      rw [List.filter_cons_of_pos rfl] at h1 h2
      cases h1 with
      | cons a1 b1 =>
        cases h2 with
        | cons a2 b2 =>
          cases a1
          cases a2
          exact .cons (.component _) (otherWay_of hr b1 b2)
    | empty i =>
      rw [List.filter_cons_of_neg (by simp [Visible])] at h1 h2
      exact otherWay_of hr h1 h2
    | contour i ps ps' p p' hperm hp hp' hb =>
      have v1 : Visible (.contour i ps) = true := by
        cases ps with
        | nil => exact (isPath_ne_nil hp).elim
        | cons => rfl
      have v2 : Visible (.contour i ps') = true := by
        cases ps' with
        | nil => exact (isPath_ne_nil hp').elim
        | cons => rfl
      rw [List.filter_cons_of_pos v1] at h1
      rw [List.filter_cons_of_pos v2] at h2
      cases h1 with
      | cons a1 b1 =>
        cases h2 with
        | cons a2 b2 =>
          cases a1 with
          | contour i1 s1 =>
            cases a2 with
            | contour i2 s2 =>
              rw [isPath_unique i1 hp] at s1
              rw [isPath_unique i2 hp'] at s2
              exact .cons (.path hb s1 s2) (otherWay_of hr b1 b2)

/-- Every glyph that can be read can be drawn through a reversing pen: the calls keep the pen protocol and draw, in order, the same components and the same paths backwards. -/
theorem C87_drawn (E : Glif.Env) (versions : List Int) (b : Bytes) (attrs : Dict Str PyVal) (calls : List Glif.Call)
    (h : GlifFile.readGlyphFromBytes E true true true versions b = .ok (attrs, calls)) : ∃ calls' evs evs' items items', reversedCalls calls = .ok calls' ∧
      segmentEvents calls = .ok evs ∧ segmentEvents calls' = .ok evs' ∧ paint .idle evs = some items ∧ paint .idle evs' = some items' ∧ List.Forall₂ OtherWay items items' := by
  obtain ⟨d, rfl, hd⟩ := (Glif.readBytes_fine h).drawn
  obtain ⟨e, d', h1, h2, -, -, h3, h4, -, -⟩ := drawing_reversed d hd
  obtain ⟨evs, items, k1, k2, k3⟩ := drawing_drawn d fun it hit => fineItem_good (hd it hit)
  obtain ⟨evs', items', j1, j2, j3⟩ := drawing_drawn d' fun it hit => fineItem_good (h3 it hit)
  exact ⟨Spec.Glif.drawing d', evs, evs', items, items', by rw [reversedCalls, h1, ← h2], by rw [segmentEvents, k1], by rw [segmentEvents, j1], k2, j2, otherWay_of h4 k3 j3⟩

/-- The case of `C87_written_partial`. -/
example : ∃ calls' evs evs' items items', reversedCalls read87.2 = .ok calls' ∧ segmentEvents read87.2 = .ok evs ∧ segmentEvents calls' = .ok evs' ∧
    paint .idle evs = some items ∧ paint .idle evs' = some items' ∧ List.Forall₂ OtherWay items items' := C87_drawn env71 [1, 2] _ _ _ read87_eq

end Verif.Props
