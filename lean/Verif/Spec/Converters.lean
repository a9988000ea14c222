import Verif.Spec.Kerning
/-! Kerning conversion, stated without reference to the model. -/
namespace Verif.Spec.Converters
open Verif Verif.Spec.Kerning

/-- The value of a pair in nested kerning data. -/
def pairValue {ν : Type} (kerning : Dict Str (Dict Str ν)) (first second : Str) : Option ν :=
  (kerning.get? first).bind fun row => row.get? second

/-- The new name of `x` under a rename map. -/
def renamed (m : Dict Str Str) (x : Str) : Str := (m.get? x).getD x

/-- No two names are renamed to the same name. -/
def InjectiveMap (m : Dict Str Str) : Prop := ∀ a b n, m.get? a = some n → m.get? b = some n → a = b

/-- `f` is injective on the elements of `l`. -/
def InjOn (f : Str → Str) (l : List Str) : Prop := ∀ a ∈ l, ∀ b ∈ l, f a = f b → a = b

/-- `name` is a first member of a pair. -/
def IsFirst {ν : Type} (kerning : Dict Str (Dict Str ν)) (name : Str) : Prop := ∃ row, (name, row) ∈ kerning

/-- `name` is a second member of a pair. -/
def IsSecond {ν : Type} (kerning : Dict Str (Dict Str ν)) (name : Str) : Prop :=
  ∃ first row v, (first, row) ∈ kerning ∧ (name, v) ∈ row

/-- A kerning dictionary without duplicate keys. -/
def WFKerning {ν : Type} (kerning : Dict Str (Dict Str ν)) : Prop :=
  kerning.WF ∧ ∀ e ∈ kerning, Dict.WF e.2

end Verif.Spec.Converters
