import Verif.Props.Order
import Verif.Proofs.OrderRelaxed
/-! The order of the dictionaries of a glyph does not matter, without validation: C115. -/
namespace Verif.Props
open Verif Verif.Order Verif.Spec.Order Verif.Glif

/-- Without validation: a glyph object whose image, guidelines and anchors are dictionaries that were filled in another order, with the same values, and whose lib is the same up to order, gives the
same file, or is refused as well. -/
theorem C115_glyph_relaxed (E : Glif.Env) (fv : Nat) (name : PyVal) (o p : Glif.Obj) (draw : Option (List Glif.Call)) (h : RefilledGlyph o p) :
    SameResult (GlifFile.writeGlyphToBytes E false fv name o draw) (GlifFile.writeGlyphToBytes E false fv name p draw) := by
  have attr : ∀ {R : PyVal → PyVal → Prop} {a : Str}, (R .none .none) → Option.Rel R (o a) (p a) → R (o.attr a) (p.attr a) := by
    intro R a hn hr
    unfold Glif.Obj.attr
    generalize o a = x, p a = y at hr
    cases hr with
    | none => exact hn
    | some h => exact h
  have ha : ∀ a, a ≠ c!"image" → a ≠ c!"guidelines" → a ≠ c!"anchors" → a ≠ c!"lib" → o.attr a = p.attr a := fun a h1 h2 h3 h4 => congrArg (·.getD .none) (h.rest a h1 h2 h3 h4)
  have hi := attr (.same _) h.image
  have hg := attr (.same _) h.guidelines
  have hn := attr (.same _) h.anchors
  have hl : Alike (o.attr c!"lib") (p.attr c!"lib") := attr ⟨trivial, .refl _⟩ h.lib
  have guide : ∀ ids, writeGuidelines E false ids (o.attr c!"guidelines") = writeGuidelines E false ids (p.attr c!"guidelines") := by
    intro ids
    generalize o.attr c!"guidelines" = v, p.attr c!"guidelines" = w at hg
    cases hg with
    | same => rfl
    | list l m h =>
      unfold writeGuidelines
      exact refilled_entries E _ (fun a b h => by simp only [guidelineAttrs, h]) h ids
    | tuple l m h =>
      unfold writeGuidelines
      exact refilled_entries E _ (fun a b h => by simp only [guidelineAttrs, h]) h ids
  have anchor : ∀ ids, writeAnchors E false ids (o.attr c!"anchors") = writeAnchors E false ids (p.attr c!"anchors") := by
    intro ids
    generalize o.attr c!"anchors" = v, p.attr c!"anchors" = w at hn
    cases hn with
    | same => rfl
    | list l m h =>
      unfold writeAnchors
      exact refilled_entries E _ (fun a b h => by simp only [anchorAttrs, h]) h ids
    | tuple l m h =>
      unfold writeAnchors
      exact refilled_entries E _ (fun a b h => by simp only [anchorAttrs, h]) h ids
  have anchor1 : ∀ s, writeAnchorsFormat1 E false s (o.attr c!"anchors") = writeAnchorsFormat1 E false s (p.attr c!"anchors") := by
    intro s
    generalize o.attr c!"anchors" = v, p.attr c!"anchors" = w at hn
    cases hn with
    | same => rfl
    | list l m h =>
      unfold writeAnchorsFormat1
      simp only [iter, refilled_calls h]
      rfl
    | tuple l m h =>
      unfold writeAnchorsFormat1
      simp only [iter, refilled_calls h]
      rfl
  refine bytes_result (tree_result ?_ (fun ids => ?_) hl)
  · unfold Glif.writeHead Glif.writeAdvance
    rw [ha c!"width" (by decide) (by decide) (by decide) (by decide), ha c!"height" (by decide) (by decide) (by decide) (by decide), ha c!"unicodes" (by decide) (by decide) (by decide) (by decide),
      ha c!"note" (by decide) (by decide) (by decide) (by decide), refilled_truthy hi, refilled_image E hi, refilledList_truthy hg, guide, refilledList_truthy hn]
    simp only [anchor]
  · cases draw with
    | none => rfl
    | some cs => simp only [drawn, writeOutline, refilledList_truthy hn, anchor1]

/-- A guideline that validation would refuse, in two orders. -/
def odd115 (b : Bool) : Glif.Obj := fun a =>
  let d : List (PyVal × PyVal) := [(.str c!"x", .int 1), (.str c!"spam", .int 2), (.str c!"name", .str c!"n")]
  if a = c!"guidelines" then some (.list [.dict (if b then d.reverse else d)]) else none

example : RefilledGlyph (odd115 false) (odd115 true) := by
  refine ⟨fun a _ h _ _ => by simp [odd115, h], .none, .some (.list _ _ (.cons (.dict _ _ (by decide) ?_) .nil)), .none, .none⟩
  simp only [if_true]
  exact (List.reverse_perm _).symm

example : (GlifFile.writeGlyphToBytes env107 true 2 (.str c!"A") (odd115 false) none).toOption.isSome = false ∧
    (GlifFile.writeGlyphToBytes env107 false 2 (.str c!"A") (odd115 false) none).toOption.isSome = true := by decide +kernel

/-- `repr` of a dictionary names its keys in their order (only the first one here). -/
def env115 : Glif.Env := { env107 with reprOther := fun v => match v with | .dict ((.str k, _) :: _) => k | _ => c!"?" }

/-- A glyph whose guideline has a dictionary as `x`. -/
def nested115 (d : List (PyVal × PyVal)) : Glif.Obj := fun a => if a = c!"guidelines" then some (.list [.dict [(.str c!"x", .dict d)]]) else none

/-- Without validation a dictionary inside a guideline is written by its `repr`, so its order matters: why `C115_glyph_relaxed` asks for the same values. -/
theorem C115_refuted_nested : ∃ o p : Glif.Obj, AlikeObj o p ∧ ¬ SameResult (GlifFile.writeGlyphToBytes env115 false 2 (.str c!"A") o none) (GlifFile.writeGlyphToBytes env115 false 2 (.str c!"A") p none) := by
  refine ⟨nested115 [(.str c!"a", .int 1), (.str c!"b", .int 2)], nested115 [(.str c!"b", .int 2), (.str c!"a", .int 1)], fun a => ?_, ?_⟩
  · unfold nested115
    by_cases h : a = c!"guidelines"
    · rw [if_pos h, if_pos h]
      exact .some ⟨⟨⟨by decide, ⟨by decide, trivial, trivial, trivial⟩, trivial⟩, trivial⟩, .list _ _ (.cons _ _ _ _ (.dict _ _ (.cons _ _ _ _ _ (.dict _ _ (.swap _ _ _)) .nil)) .nil)⟩
    · rw [if_neg h, if_neg h]
      exact .none
  · unfold SameResult
    decide +kernel

end Verif.Props
