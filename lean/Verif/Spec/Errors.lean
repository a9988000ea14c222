import Verif.Model.Plist
/-! Which exceptions a call may raise. -/
namespace Verif.Spec.Errors
open Verif

/-- Whenever the outcome is an exception, it is one of these. -/
def Only {α : Type} (S : Exc → Prop) (x : Except Exc α) : Prop := ∀ e, x = .error e → S e

/-- The exception raised, if any. -/
def raised {α : Type} : Except Exc α → Option Exc
  | .error e => some e
  | .ok _ => none

/-- The places where the GLIF reader looks at an element without having checked it: a code point needs its `hex` attribute, a note its text,
a lib exactly one child, which must be a property list value. -/
structure Guarded (F : FloatCodec) (tree : Elem) : Prop where
  hex : ∀ e ∈ tree.children, e.tag = c!"unicode" → ∃ s, Dict.get? e.attrib c!"hex" = some s
  note : ∀ e ∈ tree.children, e.tag = c!"note" → ∃ s, e.text = some (.str s)
  lib : ∀ e ∈ tree.children, e.tag = c!"lib" → ∃ child v, e.children = [child] ∧ Plist.fromtree F child = .ok v

end Verif.Spec.Errors
