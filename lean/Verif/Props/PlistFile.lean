import Verif.Proofs.PlistFile
/-! Property list files: C67. -/
namespace Verif.Props
open Verif Verif.Plist Verif.Spec.Plist

/-- What `dumps` writes (built-in backend), `loads` reads back, in both printing modes: every well-formed value a property list can
represent, bytes included, up to the order of dictionary items, with tuples as lists. Missing from the full claim: strings
with CR, for which it is false (`C67_cr_refuted`). -/
theorem C67_loads_dumps_partial (F : FloatCodec) (hF : F.Lawful) (pretty : Bool) (v : PyVal) (hv : Representable FileText v) (hw : WellFormed v) :
    ∃ s w, dumps F pretty v = .ok s ∧ loads F s = .ok w ∧ Same (untuple v) w := loads_dumps F hF pretty v hv hw

/-- Without tuples the value itself comes back. -/
theorem C67_loads_dumps_noTuple_partial (F : FloatCodec) (hF : F.Lawful) (pretty : Bool) (v : PyVal) (hv : Representable FileText v)
    (hw : WellFormed v) (ht : NoTuple v) : ∃ s w, dumps F pretty v = .ok s ∧ loads F s = .ok w ∧ Same v w := by
  have := loads_dumps F hF pretty v hv hw
  rwa [untuple_noTuple v ht] at this

set_option maxRecDepth 4000 in
/-- The string CR is written without complaint and read back as LF. -/
theorem C67_cr_refuted (F : FloatCodec) (pretty : Bool) :
    ∃ s, dumps F pretty (.str ['\r']) = .ok s ∧ loads F s = .ok (.str ['\n']) := by
  cases pretty
  · exact ⟨_, rfl, rfl⟩
  · exact ⟨_, rfl, rfl⟩

/-- A nested value with bytes meeting the hypotheses. -/
example : Representable FileText (.dict [(.str c!"z", .list [.int (-5), .str c!"a<b\n"]), (.str c!"d", .bytes [0, 255])]) ∧
    WellFormed (.dict [(.str c!"z", .list [.int (-5), .str c!"a<b\n"]), (.str c!"d", .bytes [0, 255])]) := by
  have hx : ∀ s : Str, s.all isXmlChar = true → '\r' ∉ s → FileText s := fun s h h' => ⟨(xmlText_iff s).2 h, h'⟩
  refine ⟨.dict _ (.cons _ _ _ (hx _ (by decide) (by decide)) (.list _ (.cons _ _ (.int _ (by decide)) (.cons _ _ (.str _ (hx _ (by decide) (by decide))) .nil)))
    (.cons _ _ _ (hx _ (by decide) (by decide)) (.bytes _) .nil)), ?_⟩
  exact ⟨by decide, ⟨trivial, trivial, trivial⟩, trivial, trivial⟩

end Verif.Props
