import Verif.Py.Val
/-! Kerning lookup and group validity, stated without reference to the model. -/
namespace Verif.Spec.Kerning
open Verif

/-- `s` begins with `p`. -/
def Begins (s p : Str) : Prop := ∃ r, s = p ++ r

/-- `g` is the kerning group of `name` on the side with prefix `pfx`: the name itself when it is a group name of that
side, otherwise a group of that side listing it. -/
def HasGroup (pfx : Str) (groups : Dict Str (List Str)) (name g : Str) : Prop :=
  (Begins name pfx ∧ g = name) ∨
  (¬ Begins name pfx ∧ Begins g pfx ∧ ∃ ms, (g, ms) ∈ groups ∧ name ∈ ms)

/-- `og` is a possible choice of group for `name`: none only when there is none. -/
def GroupChoice (pfx : Str) (groups : Dict Str (List Str)) (name : Str) : Option Str → Prop
  | some g => HasGroup pfx groups name g
  | none => ∀ g, ¬ HasGroup pfx groups name g

/-- A pair with a possibly missing member has no value. -/
def valueOf {ν : Type} (kerning : Dict (Str × Str) ν) (a b : Option Str) : Option ν :=
  a.bind fun a => b.bind fun b => kerning.get? (a, b)

/-- UFO 3 precedence: glyph/glyph, glyph/group, group/glyph, group/group, default. -/
def precedence {ν : Type} (kerning : Dict (Str × Str) ν) (first second : Str) (g1 g2 : Option Str) (fallback : ν) : ν :=
  ((((valueOf kerning (some first) (some second)).or
    (valueOf kerning (some first) g2)).or
    (valueOf kerning g1 (some second))).or
    (valueOf kerning g1 g2)).getD fallback

/-- The members of the groups on the side with prefix `pfx`, in order, repetitions included. -/
def sideMembers (pfx : Str) (d : List (PyVal × PyVal)) : List PyVal :=
  d.flatMap fun e => match e with
    | (.str name, .list ms) => if pfx.isPrefixOf name then ms else []
    | (.str name, .tuple ms) => if pfx.isPrefixOf name then ms else []
    | _ => []

/-- Well-formed groups data. -/
structure ValidGroups (d : List (PyVal × PyVal)) : Prop where
  entry : ∀ e ∈ d, ∃ name ms, e.1 = .str name ∧ name ≠ [] ∧ (e.2 = .list ms ∨ e.2 = .tuple ms) ∧
    name ≠ c!"public.kern1." ∧ name ≠ c!"public.kern2."
  strings : ∀ m, m ∈ sideMembers c!"public.kern1." d ∨ m ∈ sideMembers c!"public.kern2." d → ∃ s, m = .str s
  side1 : (sideMembers c!"public.kern1." d).Nodup
  side2 : (sideMembers c!"public.kern2." d).Nodup

end Verif.Spec.Kerning
