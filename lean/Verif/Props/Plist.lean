import Verif.Proofs.Plist
/-! Property lists: C22-C26. -/
namespace Verif.Props
open Verif Verif.Plist Verif.Spec.Plist

/-! ### C22 -/

/-- With the lxml backend every well-formed value that a property list can represent comes back from its tree, up to the order of
dictionary items (Python's `==`), with tuples as lists; whatever the pretty-printing mode and the indentation. -/
theorem C22_lxml (F : FloatCodec) (hF : F.Lawful) (pretty : Bool) (indent : Nat) (v : PyVal)
    (hv : Representable XmlText v) (hw : WellFormed v) :
    ∃ e w, totree F true pretty indent v = .ok e ∧ fromtree F e = .ok w ∧ Same (untuple v) w := by
  have ht : TreeText true = XmlText := by funext s; exact propext ⟨fun h => h rfl, fun h _ => h⟩
  exact fromtree_totree F hF true pretty indent v (ht ▸ hv) hw (.inl rfl)

/-- Without tuples the value itself comes back. -/
theorem C22_lxml_noTuple (F : FloatCodec) (hF : F.Lawful) (pretty : Bool) (indent : Nat) (v : PyVal)
    (hv : Representable XmlText v) (hw : WellFormed v) (ht : NoTuple v) :
    ∃ e w, totree F true pretty indent v = .ok e ∧ fromtree F e = .ok w ∧ Same v w := by
  have := C22_lxml F hF pretty indent v hv hw
  rwa [untuple_noTuple v ht] at this

/-- With the built-in backend the same holds of values without (non-empty) bytes objects.
Missing from the full claim: bytes, for which it is false (`C22_builtin_bytes_refuted`). -/
theorem C22_builtin_partial (F : FloatCodec) (hF : F.Lawful) (pretty : Bool) (indent : Nat) (v : PyVal)
    (hv : Representable (fun _ => True) v) (hw : WellFormed v) (ht : NoTuple v) (hb : NoBytes v) :
    ∃ e w, totree F false pretty indent v = .ok e ∧ fromtree F e = .ok w ∧ Same v w := by
  have hT : TreeText false = fun _ => True := by funext s; exact propext ⟨fun _ => trivial, fun _ h => by cases h⟩
  have := fromtree_totree F hF false pretty indent v (hT ▸ hv) hw (.inr hb)
  rwa [untuple_noTuple v ht] at this

/-- With the built-in backend a bytes object cannot be read back from its own tree: `TypeError`. -/
theorem C22_builtin_bytes_refuted (F : FloatCodec) (pretty : Bool) (indent : Nat) :
    ∃ e, totree F false pretty indent (.bytes [120]) = .ok e ∧ fromtree F e = .error .typeError := by
  refine ⟨_, rfl, ?_⟩
  have hne : ∃ x xs, asciiBytes (encodeBase64 [120] (if pretty then some 76 else none) indent) = x :: xs := by
    cases pretty
    · exact ⟨_, _, rfl⟩
    · exact ⟨_, _, rfl⟩
  obtain ⟨x, xs, hx⟩ := hne
  rw [fromtree, hx, walk_leaf _ _ _ _ (by decide) (by decide), endTag_data]
  rfl

/-- A nested value meeting the hypotheses of the round trip. -/
def plistSample : PyVal :=
  .dict [(.str c!"z", .list [.int (-5), .str c!"a<b\n", .dict []]), (.str [], .date ⟨2024, 2, 29, 23, 59, 58⟩), (.str c!"a", .float .nan), (.str c!"d", .bytes [0, 255])]

example : Representable XmlText plistSample ∧ WellFormed plistSample ∧ NoTuple plistSample := by
  refine ⟨?_, ?_, by simp [plistSample, NoTuple, NoTupleItems, NoTupleList]⟩
  · have hx : ∀ s : Str, s.all isXmlChar = true → XmlText s := fun s h => (xmlText_iff s).2 h
    exact .dict _ (.cons _ _ _ (hx _ (by decide)) (.list _ (.cons _ _ (.int _ (by decide)) (.cons _ _ (.str _ (hx _ (by decide))) (.cons _ _ (.dict _ .nil) .nil))))
      (.cons _ _ _ (hx _ (by decide)) (.date _) (.cons _ _ _ (hx _ (by decide)) (.float _) (.cons _ _ _ (hx _ (by decide)) (.bytes _) .nil))))
  · have hd : RealDate ⟨2024, 2, 29, 23, 59, 58⟩ := (dateOk_iff _).1 (by decide)
    refine ⟨by decide, ⟨trivial, trivial, ?_, trivial⟩, hd, trivial, trivial, trivial⟩
    exact ⟨List.nodup_nil, trivial⟩

/-! ### C23 -/

/-- Decoding what the encoder made gives the bytes back, for every line length (none, or any number) and indentation. -/
theorem C23_base64 (data : List UInt8) (maxLine : Option Nat) (indent : Nat) :
    b64decode (encodeBase64 data maxLine indent) = .ok data := b64decode_encode data maxLine indent

example : encodeBase64 [1, 2, 255, 4, 5, 6, 7, 8, 9, 10, 11, 12, 13, 14] (some 3) 1 = c!"\n  AQL/BAUGBwgJCgsM\n  DQ4=\n  " := by decide +kernel

/-! ### C24 -/

/-- Every existing date and time is read back from its text. -/
theorem C24_dates (d : PyDate) (h : RealDate d) : dateFromString (dateToString d) = .ok d := dateFromString_toString d h

example : RealDate ⟨2000, 2, 29, 0, 7, 59⟩ ∧ dateToString ⟨2000, 2, 29, 0, 7, 59⟩ = c!"2000-02-29T00:07:59Z" :=
  ⟨(dateOk_iff _).1 (by decide), by decide +kernel⟩

/-! ### C25 -/

/-- A tree is made of exactly the representable values (lxml backend: the texts must be XML text). -/
theorem C25_lxml (F : FloatCodec) (hF : F.Lawful) (pretty : Bool) (indent : Nat) (v : PyVal) :
    (∃ e, totree F true pretty indent v = .ok e) ↔ Representable XmlText v := by
  have ht : TreeText true = XmlText := by funext s; exact propext ⟨fun h => h rfl, fun h _ => h⟩
  rw [totree, makeElement_ok F hF, ht]

/-- A tree is made of exactly the representable values (built-in backend: any text). -/
theorem C25_builtin (F : FloatCodec) (hF : F.Lawful) (pretty : Bool) (indent : Nat) (v : PyVal) :
    (∃ e, totree F false pretty indent v = .ok e) ↔ Representable (fun _ => True) v := by
  have hT : TreeText false = fun _ => True := by funext s; exact propext ⟨fun _ => trivial, fun _ h => by cases h⟩
  rw [totree, makeElement_ok F hF, hT]

/-- Anything unsupported, at any depth, makes the whole conversion raise. -/
theorem C25_refuses (F : FloatCodec) (hF : F.Lawful) (lxml pretty : Bool) (indent : Nat) (v w : PyVal) (hw : Unsupported w) (h : Inside w v) :
    ∃ x, totree F lxml pretty indent v = .error x := by
  rcases hr : totree F lxml pretty indent v with x | e
  · exact ⟨x, rfl⟩
  · exact absurd (representable_inside h ((makeElement_ok F hF lxml pretty indent v).1 ⟨e, hr⟩)) (not_representable_unsupported hw)

example : Unsupported (.int (2 ^ 64)) ∧ Inside (.int (2 ^ 64)) (.list [.str c!"x", .dict [(.str c!"k", .int (2 ^ 64))]]) :=
  ⟨.inr (by omega), .list _ (.dict [(.str c!"k", .int (2 ^ 64))]) (by simp) (.dict _ (.str c!"k", .int (2 ^ 64)) (by simp) .here)⟩

/-! ### C26 -/

/-- Values that differ only in the order of dictionary items, at any depth, give the same tree (or the same error). -/
theorem C26_order (F : FloatCodec) (lxml pretty : Bool) (indent : Nat) (v w : PyVal) (hv : WellFormed v) (h : Same v w) :
    totree F lxml pretty indent v = totree F lxml pretty indent w :=
  (same_tree F lxml pretty h hv).2 indent

example : Same (.list [.dict [(.str c!"b", .int 1), (.str c!"a", .int 2), (.str c!"c", .none)]])
    (.list [.dict [(.str c!"c", .none), (.str c!"b", .int 1), (.str c!"a", .int 2)]]) := by
  refine .list _ _ (.cons _ _ _ _ (.dict _ _ (sameItems_of_perm ?_)) .nil)
  exact ((List.Perm.swap _ _ []).cons _).trans (.swap _ _ _)

end Verif.Props
