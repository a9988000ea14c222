import Verif.Proofs.PlistRead
import Verif.Props.Plist
/-! What can be read from a property list can be written again: C78. -/
namespace Verif.Props
open Verif Verif.Plist Verif.Spec.Plist

/-- Whatever the text, reading delivers only values of the types of property lists, with XML text, existing dates and dictionaries with different
string keys (or `None`, when the file holds no value). -/
theorem C78_readable (F : FloatCodec) (s : Str) (v : PyVal) (h : loads F s = .ok v) : v = .none ∨ Readable v := loads_readable h

/-- A value that was read, from any text, can be written and is read back; writing what is read then gives the same file again.
Missing from the full claim: strings with CR, integers of more than 64 bits and files without a value, for which it is false
(`C78_refuted`). -/
theorem C78_rewrite_partial (F : FloatCodec) (hF : F.Lawful) (pretty : Bool) (s : Str) (v : PyVal) (h : loads F s = .ok v) (hv : v ≠ .none) (hfit : Fits v) :
    ∃ s' w, dumps F pretty v = .ok s' ∧ loads F s' = .ok w ∧ Same v w ∧ dumps F pretty w = .ok s' := by
  have hr := (loads_readable h).resolve_left hv
  obtain ⟨hw, ht⟩ := wellFormed_of v hr
  obtain ⟨s', w, h1, h2, h3⟩ := loads_dumps F hF pretty v (representable_of v hr hfit) hw
  rw [untuple_noTuple v ht] at h3
  refine ⟨s', w, h1, h2, h3, ?_⟩
  unfold dumps at h1 ⊢
  rw [← C26_order F false pretty 1 v w hw h3]
  exact h1

set_option maxRecDepth 4000 in
/-- Values that are read and cannot be written, or come back changed: a large integer, a file without a value, a carriage return. -/
theorem C78_refuted (F : FloatCodec) (pretty : Bool) :
    (loads F c!"<plist><integer>99999999999999999999</integer></plist>" = .ok (.int 99999999999999999999) ∧
      dumps F pretty (.int 99999999999999999999) = .error .overflowError) ∧
    (loads F c!"<plist/>" = .ok .none ∧ dumps F pretty .none = .error .typeError) ∧
    (loads F c!"<plist><string>&#13;</string></plist>" = .ok (.str ['\r']) ∧
      ∃ s, dumps F pretty (.str ['\r']) = .ok s ∧ loads F s = .ok (.str ['\n'])) := by
  refine ⟨⟨rfl, by cases pretty <;> rfl⟩, ⟨rfl, by cases pretty <;> rfl⟩, rfl, ?_⟩
  cases pretty
  · exact ⟨_, rfl, rfl⟩
  · exact ⟨_, rfl, rfl⟩

/-- A file with unusual spelling: it is read, and after saving it reads the same. -/
example :
    let s := c!"<plist><dict><key>b</key><integer> +7 </integer><key>a</key><array><date>2000-02-29Z</date><data>\nAQ\n I=</data></array><key>b</key><string>&lt;&#x41;</string></dict></plist>"
    let v : PyVal := .dict [(.str c!"b", .str c!"<A"), (.str c!"a", .list [.date ⟨2000, 2, 29, 0, 0, 0⟩, .bytes [1, 2]])];
    (loads fractionCodec s).toOption = some v ∧ v ≠ .none ∧ Fits v ∧
      ((dumps fractionCodec true v).toOption.bind fun s => (loads fractionCodec s).toOption) =
        some (.dict [(.str c!"a", .list [.date ⟨2000, 2, 29, 0, 0, 0⟩, .bytes [1, 2]]), (.str c!"b", .str c!"<A")]) := by
  refine ⟨by decide +kernel, by simp, ?_, by decide +kernel⟩
  simp [Fits, FitsItems, FitsList]

end Verif.Props
