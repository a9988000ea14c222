import Verif.Model.FS
import Mathlib.Data.List.Forall2
/-! Files that were cut off, as by a process that was stopped while it wrote them or by an incomplete copy. -/
namespace Verif.Spec.Cut
open Verif

/-- Every file of `fs'` holds the bytes it holds in `fs` up to some place, which may be the end. Nothing else is different. -/
structure CutOff (fs fs' : FS) : Prop where
  canon : fs'.canon = fs.canon
  node : ∀ p, fs'.node? p = fs.node? p ∨ ∃ b k, fs.node? p = some (.file b) ∧ fs'.node? p = some (.file (b.take k))

/-- Of two outcomes, the second is an exception or the value of the first. When the first is an exception nothing is said. -/
def Noticed {α : Type} (whole cut : Except Exc α) : Prop := ∀ x x', whole = .ok x → cut = .ok x' → x' = x

/-- Tables with the same names in the same order, and values that are related. -/
def TablesLike {α : Type} (R : α → α → Prop) (cut whole : Dict Str α) : Prop := List.Forall₂ (fun a b => a.1 = b.1 ∧ R a.2 b.2) cut whole

end Verif.Spec.Cut
