import Verif.Proofs.PlistOptions
import Verif.Spec.Errors
/-! The options of the property list functions: C100. -/
namespace Verif.Props
open Verif Verif.PlistOptions Verif.Spec.PlistOptions
open Verif.Spec.Plist (Same FileText XmlText TreeText)

/-- C100. What `dumps` writes with any options, `loads` reads back as what is stored for the value, as `Data` objects or bytes as asked for; in the
same order when `sort_keys` is off. Items with keys that are not strings are left out when `skipkeys` is on and `sort_keys` off.
Missing from the full claim: `skipkeys` with `sort_keys`, for which it is false (`C100_skip_sorted_refuted`), and strings with CR
(`C67_cr_refuted`). -/
theorem C100_file_partial (F : FloatCodec) (hF : F.Lawful) (o : Options) (builtin : Bool) (v : PlVal) (w : PyVal)
    (hv : Stored (o.skipKeys && !o.sortKeys) o.builtin FileText v w) (hw : WellFormed v) :
    ∃ s w', PlistOptions.dumps F o v = .ok s ∧ PlistOptions.loads F builtin s = .ok (readAs builtin w') ∧ Same w w' ∧ (o.sortKeys = false → w' = w) :=
  PlistOptions.loads_dumps F hF o builtin v w hv hw

/-- C100. The same for trees (lxml). -/
theorem C100_tree_partial (F : FloatCodec) (hF : F.Lawful) (o : Options) (indent : Nat) (builtin : Bool) (v : PlVal) (w : PyVal)
    (hv : Stored (o.skipKeys && !o.sortKeys) o.builtin FileText v w) (hw : WellFormed v) :
    ∃ e w', PlistOptions.totree F true o indent v = .ok e ∧ PlistOptions.fromtree F builtin e = .ok (readAs builtin w') ∧ Same w w' ∧ (o.sortKeys = false → w' = w) :=
  PlistOptions.fromtree_totree F hF o indent builtin v w hv hw

/-- C100. Nothing else is written: what is not a property list value under the options is refused. -/
theorem C100_refuses (F : FloatCodec) (lxml : Bool) (o : Options) (indent : Nat) (v : PlVal) (h : ∀ w, ¬ Stored o.skipKeys o.builtin (TreeText lxml) v w) :
    ∃ x, PlistOptions.totree F lxml o indent v = .error x := by
  rcases hr : PlistOptions.totree F lxml o indent v with x | e
  · exact ⟨x, rfl⟩
  · obtain ⟨w, hw⟩ := makeElement_stored F lxml o indent v hr
    exact absurd hw (h w)

mutual
/-- C100. What is stored is determined by the value. -/
theorem C100_unique (skip builtin : Bool) (T : Str → Prop) (v : PlVal) (w w' : PyVal) (h : Stored skip builtin T v w) (h' : Stored skip builtin T v w') : w = w' := by
  match v, w, h, w', h' with
  | _, _, .bool b, _, .bool _ => rfl
  | _, _, .int i _, _, .int _ _ => rfl
  | _, _, .float _, _, .float _ => rfl
  | _, _, .str _ _, _, .str _ _ => rfl
  | _, _, .bytes _ _, _, .bytes _ _ => rfl
  | _, _, .bytes _ h, _, .ascii _ _ h' _ _ _ => rw [h] at h'; cases h'
  | _, _, .ascii _ _ h' _ _ _, _, .bytes _ h => rw [h] at h'; cases h'
  | _, _, .ascii _ s _ ha hs _, _, .ascii _ s' _ ha' hs' _ =>
    have h1 := decodeAscii_iff.2 ⟨ha, hs⟩
    have h2 := decodeAscii_iff.2 ⟨ha', hs'⟩
    rw [h1] at h2
    cases h2
    rfl
  | _, _, .bytearray _, _, .bytearray _ => rfl
  | _, _, .data _, _, .data _ => rfl
  | _, _, .date _, _, .date _ => rfl
  | _, _, .list l m h, _, .list _ m' h' => rw [C100_unique_list skip builtin T l m m' h h']
  | _, _, .tuple l m h, _, .tuple _ m' h' => rw [C100_unique_list skip builtin T l m m' h h']
  | _, _, .dict l m h, _, .dict _ m' h' => rw [C100_unique_items skip builtin T l m m' h h']
/-- C100. The same for lists. -/
theorem C100_unique_list (skip builtin : Bool) (T : Str → Prop) (l : List PlVal) (m m' : List PyVal) (h : StoredList skip builtin T l m)
    (h' : StoredList skip builtin T l m') : m = m' := by
  match l, m, h, m', h' with
  | _, _, .nil, _, .nil => rfl
  | _, _, .cons v w l m h g, _, .cons _ w' _ m' h' g' => rw [C100_unique skip builtin T v w w' h h', C100_unique_list skip builtin T l m m' g g']
/-- C100. The same for the items of dictionaries. -/
theorem C100_unique_items (skip builtin : Bool) (T : Str → Prop) (l : List (PlVal × PlVal)) (m m' : List (PyVal × PyVal)) (h : StoredItems skip builtin T l m)
    (h' : StoredItems skip builtin T l m') : m = m' := by
  match l, m, h, m', h' with
  | _, _, .nil, _, .nil => rfl
  | _, _, .cons k v w l m _ h g, _, .cons _ _ w' _ m' _ h' g' => rw [C100_unique skip builtin T v w w' h h', C100_unique_items skip builtin T l m m' g g']
  | _, _, .cons k v w l m _ h g, _, .skip _ _ _ m' _ hk g' => exact absurd rfl (hk k)
  | _, _, .skip k v l m _ hk g, m', h' =>
    cases h' with
    | cons k _ _ _ _ _ _ _ => exact absurd rfl (hk k)
    | skip _ _ _ _ _ _ g' => exact C100_unique_items skip builtin T l m m' g g'
end

/-- C100. Reading with `use_builtin_types` off is reading with it on, bytes as `Data` objects: for every file and every tree, also those that
are refused. -/
theorem C100_read (F : FloatCodec) (builtin : Bool) (s : Str) (e : Elem) :
    PlistOptions.loads F builtin s = (Plist.loads F s).map (readAs builtin) ∧ PlistOptions.fromtree F builtin e = (Plist.fromtree F e).map (readAs builtin) :=
  ⟨loads_as F builtin s, fromtree_as F builtin e⟩

/-- C100. The deprecated functions: `Data` objects come back as such, bytes as the text they are, refused when not ASCII. -/
theorem C100_deprecated_partial (F : FloatCodec) (hF : F.Lawful) (comparable : List PlVal → Bool) (v : PlVal) (w : PyVal)
    (hv : Stored false false FileText v w) (hw : WellFormed v) :
    ∃ s w', writePlistToString F comparable v = .ok s ∧ readPlistFromString F s = .ok (readAs false w') ∧ Same w w' := by
  obtain ⟨s, w', h1, h2, h3, _⟩ := C100_file_partial F hF ⟨true, false, false, true, comparable⟩ false v w hv hw
  exact ⟨s, w', h1, h2, h3⟩

/-- C100. `Data.fromBase64(data.asBase64(...))` is the data, for every line length and indentation. -/
theorem C100_data (b : List UInt8) (maxLine : Option Nat) (indent : Nat) : dataFromBase64 (dataAsBase64 b maxLine indent) = .ok (.data b) := by
  rw [dataFromBase64, dataAsBase64, Plist.b64decode_encode]
  rfl

/-- C100 fails: with `sort_keys` on, which is the default, `skipkeys` does not skip: `{"a": True, 1: True}` is refused, though it is stored as
`{"a": True}`. -/
theorem C100_skip_sorted_refuted (F : FloatCodec) (builtin pretty : Bool) (comparable : List PlVal → Bool) (T : Str → Prop) (hT : T c!"a") :
    Stored true builtin T (.dict [(.str c!"a", .bool true), (.int 1, .bool true)]) (.dict [(.str c!"a", .bool true)]) ∧
      PlistOptions.dumps F ⟨true, true, builtin, pretty, comparable⟩ (.dict [(.str c!"a", .bool true), (.int 1, .bool true)]) = .error .typeError :=
  ⟨.dict _ _ (.cons _ _ _ _ _ hT (.bool _) (.skip _ _ _ _ rfl (by simp) .nil)), rfl⟩

/-- A value with everything the options are about: unsorted keys, a key that is not a string, bytes, a byte array and a `Data` object. -/
def optionsSample : PlVal :=
  .dict [(.str c!"z", .bytes [104, 105]), (.int 1, .none), (.str c!"a", .tuple [.data [0, 255], .bytearray [7]])]

example : Stored true false FileText optionsSample (.dict [(.str c!"z", .str c!"hi"), (.str c!"a", .list [.bytes [0, 255], .bytes [7]])]) ∧ WellFormed optionsSample ∧
    readAs false (.dict [(.str c!"z", .str c!"hi"), (.str c!"a", .list [.bytes [0, 255], .bytes [7]])]) =
      .dict [(.str c!"z", .str c!"hi"), (.str c!"a", .list [.data [0, 255], .data [7]])] := by
  have hx : ∀ s : Str, s.all isXmlChar = true → '\r' ∉ s → FileText s := fun s h h' => ⟨(Plist.xmlText_iff s).2 h, h'⟩
  refine ⟨.dict _ _ (.cons _ _ _ _ _ (hx _ (by decide) (by decide)) (.ascii _ _ rfl (by decide) (by decide) (hx _ (by decide) (by decide)))
    (.skip _ _ _ _ rfl (by simp) (.cons _ _ _ _ _ (hx _ (by decide) (by decide)) (.tuple _ _ (.cons _ _ _ _ (.data _) (.cons _ _ _ _ (.bytearray _) .nil))) .nil))), ?_, rfl⟩
  simp [optionsSample, WellFormed, WellFormedItems, WellFormedList]

/-- Bytes that are not ASCII are not stored without built-in types. -/
example (T : Str → Prop) (w : PyVal) : ¬ Stored false false T (.bytes [200]) w := by
  intro h
  cases h with
  | bytes _ h => cases h
  | ascii _ s _ ha hs _ =>
    have : decodeAscii [200] = some s := decodeAscii_iff.2 ⟨ha, hs⟩
    exact absurd this (by simp [decodeAscii])

end Verif.Props
