import Verif.Spec.OrderRelaxed
import Verif.Proofs.OrderGlyph
/-! Dictionaries in another order are written alike without validation. -/
namespace Verif.Order
open Verif Verif.Spec.Order Verif.Glif

theorem refilled_get {a b : List (PyVal × PyVal)} (hw : (a.map Prod.fst).Nodup) (hp : a.Perm b) : Validators.get a = Validators.get b :=
  funext fun k => Dict.get?_perm hw hp (.str k)

theorem refilled_truthy {v w : PyVal} (h : Refilled v w) : Glif.truthy v = Glif.truthy w := by
  cases h with
  | same => rfl
  | dict a b hw hp =>
    unfold Glif.truthy
    dsimp only
    congr 1
    rw [Bool.eq_iff_iff, List.isEmpty_iff, List.isEmpty_iff]
    exact ⟨fun h => by subst h; exact List.nil_perm.1 hp, fun h => by subst h; exact List.perm_nil.1 hp⟩

theorem refilledList_truthy {v w : PyVal} (h : RefilledList v w) : Glif.truthy v = Glif.truthy w := by
  cases h with
  | same => rfl
  | list l m h => cases h <;> rfl
  | tuple l m h => cases h <;> rfl

theorem refilled_image (E : Env) {v w : PyVal} (h : Refilled v w) : writeImage E false v = writeImage E false w := by
  cases h with
  | same => rfl
  | dict a b hw hp =>
    have hg := refilled_get hw hp
    have ht : ∀ l, imageTransformation E a l = imageTransformation E b l := by
      intro l
      induction l with
      | nil => rfl
      | cons x l ih => rw [imageTransformation, imageTransformation, hg, ih]
    unfold writeImage
    simp only [hg, ht, Bool.false_and, Bool.false_eq_true, if_false]

theorem refilled_entries (E : Env) (tag : Str) {attrs : List (PyVal × PyVal) → Except Exc (List (Str × PyVal))} (ha : ∀ a b, Validators.get a = Validators.get b → attrs a = attrs b)
    {l m : List PyVal} (h : List.Forall₂ Refilled l m) : ∀ ids, entryElements E false tag attrs ids l = entryElements E false tag attrs ids m := by
  induction h with
  | nil => intro ids; rfl
  | @cons v w _ _ h _ ih =>
    intro ids
    cases h with
    | same => cases v <;> first | rfl | (unfold entryElements; simp only [ih])
    | dict a b hw hp =>
      have hg := refilled_get hw hp
      unfold entryElements
      simp only [ih, ha a b hg, hg]

theorem refilled_calls {l m : List PyVal} (h : List.Forall₂ Refilled l m) : anchorCalls l = anchorCalls m := by
  induction h with
  | nil => rfl
  | @cons v w _ _ h _ ih =>
    cases h with
    | same => cases v <;> first | rfl | (unfold anchorCalls; rw [ih])
    | dict a b hw hp =>
      have hg := refilled_get hw hp
      unfold anchorCalls
      rw [hg, ih]

end Verif.Order
