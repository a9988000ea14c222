import Verif.Model.PlistPaths
/-! What a caller of the property list functions expects of files. -/
namespace Verif.Spec.PlistPaths
open Verif Verif.FileObjects Verif.PlistPaths

/-- The files the caller had are as open or closed as they were, and are still the same files; every file opened meanwhile is closed and nothing is kept back for it. -/
structure Closes (s s' : Proc) : Prop where
  kept : ∀ (i : Nat) (f : File), s.files[i]? = some f → ∃ f' : File, s'.files[i]? = some f' ∧ f'.closed = f.closed ∧ f'.path = f.path ∧ f'.mode = f.mode
  closed : ∀ (i : Nat) (f : File), s.files.length ≤ i → s'.files[i]? = some f → f.closed = true ∧ f.pending = []

/-- The argument is not this file of the caller. -/
def NotFile (a : Arg) (i : Nat) : Prop := a ≠ .file i

end Verif.Spec.PlistPaths
