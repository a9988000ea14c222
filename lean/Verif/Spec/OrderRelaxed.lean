import Verif.Spec.Order
import Verif.Model.Glif
import Mathlib.Data.List.Forall2
/-! Glyph objects with dictionaries that were filled in another order: C115. -/
namespace Verif.Spec.Order
open Verif

/-- A dictionary that was filled in another order. -/
inductive Refilled : PyVal → PyVal → Prop
  | same (v : PyVal) : Refilled v v
  | dict (a b : List (PyVal × PyVal)) (hw : (a.map Prod.fst).Nodup) (hp : a.Perm b) : Refilled (.dict a) (.dict b)

/-- A list of dictionaries that were filled in another order. -/
inductive RefilledList : PyVal → PyVal → Prop
  | same (v : PyVal) : RefilledList v v
  | list (l m : List PyVal) (h : List.Forall₂ Refilled l m) : RefilledList (.list l) (.list m)
  | tuple (l m : List PyVal) (h : List.Forall₂ Refilled l m) : RefilledList (.tuple l) (.tuple m)

/-- A glyph object whose image, guidelines and anchors were filled in another order, and whose lib is the same up to order at any depth. -/
structure RefilledGlyph (o p : Glif.Obj) : Prop where
  rest : ∀ a, a ≠ c!"image" → a ≠ c!"guidelines" → a ≠ c!"anchors" → a ≠ c!"lib" → o a = p a
  image : Option.Rel Refilled (o c!"image") (p c!"image")
  guidelines : Option.Rel RefilledList (o c!"guidelines") (p c!"guidelines")
  anchors : Option.Rel RefilledList (o c!"anchors") (p c!"anchors")
  lib : Option.Rel Alike (o c!"lib") (p c!"lib")

end Verif.Spec.Order
