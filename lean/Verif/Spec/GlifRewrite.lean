import Verif.Spec.Glif
import Verif.Spec.PlistRead
/-! What rewriting a glyph needs, independently of how the code does it. -/
namespace Verif.Spec.Glif
open Verif Verif.Glif

/-- A glyph object holding the attributes that were read. -/
def asObj (attrs : Dict Str PyVal) : Obj := fun k => Dict.get? attrs k

/-- What was read can be kept by a file: no CR, and no TAB outside the note and the lib, and integers of at most 64 bits in the lib. -/
structure Clean (attrs : Dict Str PyVal) (calls : List Call) : Prop where
  data : ∀ k ∈ [c!"name", c!"image", c!"guidelines", c!"anchors"], ∀ s ∈ strings (delivered attrs k), '\r' ∉ s ∧ '\t' ∉ s
  calls : ∀ c ∈ calls, ∀ s ∈ callStrings c, '\r' ∉ s ∧ '\t' ∉ s
  note : ∀ s ∈ strings (delivered attrs c!"note"), '\r' ∉ s
  lib : Spec.Plist.Fits (delivered attrs c!"lib")

/-- The note consists of its lines that are not blank: no blank lines, no white space around lines. -/
def TidyNote (v : PyVal) : Prop := ∃ lines, NoteLines (noteText v) lines ∧ noteText v = join ['\n'] lines

end Verif.Spec.Glif
