import Verif.Spec.Ufo
import Verif.Spec.Validators
/-! What layer info is, independent of the model. -/
namespace Verif.Spec.LayerInfo
open Verif

/-- The attribute `attr` of the object has the value `v`, which is to be stored: not `None`, and for the lib not empty. -/
def Stores (info : Str → Option PyVal) (attr : Str) (v : PyVal) : Prop :=
  info attr = some v ∧ v ≠ .none ∧ (attr = c!"lib" → Ufo.truthy v = true)

/-- Layer info as the UFO 3 specification has it: a color of four numbers between 0 and 1 and a lib that is a dictionary. -/
structure Valid (F : FloatCodec) (info : Str → Option PyVal) : Prop where
  color : ∀ v, Stores info c!"color" v → ∃ s, v = .str s ∧ Validators.FourNumbers F (Validators.Within 0 1) s
  lib : ∀ v, Stores info c!"lib" v → ∃ d, v = .dict d

/-- The attributes `d` that are read are those of `info`, with tuples read as lists; there are no others. -/
structure SameInfo (info : Str → Option PyVal) (d : List (PyVal × PyVal)) : Prop where
  some : ∀ attr ∈ [c!"color", c!"lib"], ∀ v, Stores info attr v → ∃ x, Dict.get? d (.str attr) = some x ∧ Plist.Same (Plist.untuple v) x
  none : ∀ attr ∈ [c!"color", c!"lib"], (¬ ∃ v, Stores info attr v) → Dict.get? d (.str attr) = none
  only : ∀ k ∈ Dict.keys d, k = .str c!"color" ∨ k = .str c!"lib"

end Verif.Spec.LayerInfo
