import Verif.Model.FsObjects
/-! What is said about file system objects. -/
namespace Verif.Spec.FsObjects
open Verif Verif.IO Verif.Ufo

/-- There is a metainfo.plist, and its format version is neither infinite nor a number that Python's `int` makes 1, 2 or 3. -/
def UnknownVersion (F : FloatCodec) (fs : FS) : Prop :=
  ∃ d v, getPlist F fs [c!"metainfo.plist"] none = .ok (.dict d) ∧ v = (Dict.get? d (.str c!"formatVersion")).getD .none ∧ (∀ b, v ≠ .float (.inf b)) ∧
    ∀ i, intOfVal v = .ok i → i ≠ 1 ∧ i ≠ 2 ∧ i ≠ 3

/-- The writers among the uses, as sessions on the files. -/
def sessions : List Use → List Session
  | [] => []
  | .write version creator validate ops :: us => ⟨false, version, creator, validate, ops⟩ :: sessions us
  | _ :: us => sessions us

end Verif.Spec.FsObjects
