import Verif.Spec.Plist
/-! What reading a property list can deliver, independent of the model. -/
namespace Verif.Spec.Plist
open Verif

mutual
/-- Values made of the types of property lists only: text is XML text, dates exist, dictionaries have different string keys. Integers may
have any size. -/
def Readable : PyVal → Prop
  | .none => False
  | .bool _ => True
  | .int _ => True
  | .float _ => True
  | .str s => XmlText s
  | .bytes _ => True
  | .date d => RealDate d
  | .list l => ReadableList l
  | .tuple _ => False
  | .dict d => (d.map Prod.fst).Nodup ∧ ReadableItems d
  | .other _ => False
def ReadableList : List PyVal → Prop
  | [] => True
  | v :: l => Readable v ∧ ReadableList l
def ReadableItems : List (PyVal × PyVal) → Prop
  | [] => True
  | (k, v) :: l => (∃ s, k = .str s ∧ XmlText s) ∧ Readable v ∧ ReadableItems l
end

mutual
/-- No carriage return in a string or key, and integers of at most 64 bits. -/
def Fits : PyVal → Prop
  | .str s => '\r' ∉ s
  | .int i => -(2 : Int) ^ 63 ≤ i ∧ i < (2 : Int) ^ 64
  | .list l => FitsList l
  | .tuple l => FitsList l
  | .dict d => FitsItems d
  | _ => True
def FitsList : List PyVal → Prop
  | [] => True
  | v :: l => Fits v ∧ FitsList l
def FitsItems : List (PyVal × PyVal) → Prop
  | [] => True
  | (k, v) :: l => Fits k ∧ Fits v ∧ FitsItems l
end

end Verif.Spec.Plist
