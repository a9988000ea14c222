import Verif.Proofs.Xml
/-! XML serialization: C27-C29. -/
namespace Verif.Props
open Verif Verif.Xml Verif.Spec.Xml

/-! ### C27 -/

/-- What a parser reads from escaped character data, for every string the serializer accepts: the text with its line ends
normalised (CR LF and CR read as LF). -/
theorem C27_cdata_exact (s u : Str) (h : toUnicode (.str s) = .ok u) : u = s ∧ parseText (normNl false (escapeCdata u)) = some (normNl false s) := by
  rw [toUnicode] at h
  split at h
  · next ha =>
    cases h
    refine ⟨rfl, ?_⟩
    rw [List.all_eq_true] at ha
    rw [escapeCdata_eq, normNl_cdata, parseText_cdata]
    exact normNl_xmlChar s false fun c hc => by rw [← isXmlChar_eq]; exact ha c hc
  · cases h

/-- Text without CR survives. Missing from the full claim: CR, for which it is false (`C27_cr_refuted`). -/
theorem C27_cdata_partial (s u : Str) (h : toUnicode (.str s) = .ok u) (hcr : '\r' ∉ s) : parseText (normNl false (escapeCdata u)) = some s := by
  obtain ⟨_, h2⟩ := C27_cdata_exact s u h
  rw [h2, normNl_no_cr]
  rintro c hc rfl
  exact hcr hc

/-- Text with a CR never survives, although the serializer accepts it. -/
theorem C27_cr_refuted (s u : Str) (h : toUnicode (.str s) = .ok u) (hcr : '\r' ∈ s) : parseText (normNl false (escapeCdata u)) ≠ some s := by
  obtain ⟨_, h2⟩ := C27_cdata_exact s u h
  rw [h2]
  intro he
  injection he with he
  exact no_cr_normNl s false '\r' (by rw [he]; exact hcr) rfl

example : toUnicode (.str c!"a<b & \"c\" ]]> \n\t é") = .ok c!"a<b & \"c\" ]]> \n\t é" ∧ '\r' ∉ c!"a<b & \"c\" ]]> \n\t é" ∧
    escapeCdata c!"a<b & \"c\" ]]> \n\t é" = c!"a&lt;b &amp; \"c\" ]]&gt; \n\t é" := by decide +kernel
example : toUnicode (.str c!"a\rb") = .ok c!"a\rb" ∧ '\r' ∈ c!"a\rb" := by decide

/-! ### C28 -/

/-- What a parser reads from an escaped attribute value, for every string the serializer accepts: the value with every CR and
TAB replaced by a space. -/
theorem C28_attrib_exact (s u : Str) (h : toUnicode (.str s) = .ok u) :
    u = s ∧ parseAttr (normNl false (escapeAttrib u)) = some (s.map fun c => if c = '\r' ∨ c = '\t' then ' ' else c) := by
  rw [toUnicode] at h
  split at h
  · next ha =>
    cases h
    refine ⟨rfl, ?_⟩
    rw [List.all_eq_true] at ha
    rw [escapeAttrib_eq, normNl_attr, parseAttr_attr]
    · rfl
    · exact fun c hc => by rw [← isXmlChar_eq]; exact ha c hc
  · cases h

/-- Values without CR and TAB survive. Missing from the full claim: these two, for which it is false (`C28_tab_refuted`). -/
theorem C28_attrib_partial (s u : Str) (h : toUnicode (.str s) = .ok u) (hcr : '\r' ∉ s) (ht : '\t' ∉ s) :
    parseAttr (normNl false (escapeAttrib u)) = some s := by
  obtain ⟨_, h2⟩ := C28_attrib_exact s u h
  rw [h2]
  congr 1
  conv_rhs => rw [← List.map_id s]
  apply List.map_congr_left
  intro c hc
  rw [if_neg]; · rfl
  rintro (rfl | rfl)
  · exact hcr hc
  · exact ht hc

/-- Values with a CR or TAB never survive. -/
theorem C28_tab_refuted (s u : Str) (h : toUnicode (.str s) = .ok u) (hc : '\r' ∈ s ∨ '\t' ∈ s) :
    parseAttr (normNl false (escapeAttrib u)) ≠ some s := by
  obtain ⟨_, h2⟩ := C28_attrib_exact s u h
  rw [h2]
  intro he
  injection he with he
  have key : ∀ x ∈ s.map (fun c => if c = '\r' ∨ c = '\t' then ' ' else c), x ≠ '\r' ∧ x ≠ '\t' := by
    intro x hx
    obtain ⟨c, _, rfl⟩ := List.mem_map.1 hx
    split
    · decide
    · next hn => rw [not_or] at hn; exact hn
  rw [he] at key
  rcases hc with hc | hc
  · exact (key _ hc).1 rfl
  · exact (key _ hc).2 rfl

example : toUnicode (.str c!"a\"<&>\n'b") = .ok c!"a\"<&>\n'b" ∧ '\r' ∉ c!"a\"<&>\n'b" ∧ '\t' ∉ c!"a\"<&>\n'b" ∧
    escapeAttrib c!"a\"<&>\n'b" = c!"a&quot;&lt;&amp;&gt;&#10;'b" := by decide +kernel
example : toUnicode (.str c!"a\tb") = .ok c!"a\tb" ∧ '\t' ∈ c!"a\tb" := by decide

/-! ### C29 -/

/-- Without pretty printing a writable tree is parsed back exactly: same elements, attributes, texts and tails (empty text is
absent text, bytes are read as text). Writable: names are names, attribute names differ, no CR in texts, no CR or TAB in
attribute values. Missing from the full claim: those characters, for which it is false (`C29_refuted`). -/
theorem C29_plain_partial (decl : Bool) (e : Elem) (h : Writable e) (ht : e.tail = none) :
    ∃ s, tostring decl false e = .ok s ∧ parse s = some (plain e) := by
  have htw : ∀ c ∈ textStr e.tail, ws c = true := by rw [ht]; intro c hc; simp [textStr] at hc
  have hp : withTail none (plain e) = plain e := by
    obtain ⟨tag, attrib, text, tail, children⟩ := e
    simp only [Elem.tail] at ht
    subst ht
    rfl
  refine ⟨_, by rw [tostring, if_neg (by simp), serialize_good h], ?_⟩
  rw [parse_serialized h htw, hp]
  cases decl
  · exact .inl rfl
  · exact .inr (.inl rfl)

/-- With pretty printing the elements, the attributes and the texts of elements without children are the same; other texts are the
same or white space before and after. -/
theorem C29_pretty_partial (decl : Bool) (e : Elem) (h : Writable e) (ht : e.tail = none) :
    ∃ s e', tostring decl true e = .ok s ∧ parse s = some e' ∧ SameTree e e' := by
  refine ⟨_, withTail none (plain (indent 0 e)), by rw [tostring, if_pos rfl, serialize_good (writable_indent 0 h)], ?_,
    sameTree_withTail (sameTree_plain (sameTree_indent 0 e)) ht⟩
  rw [parse_serialized (writable_indent 0 h) (indent_tail_ws e ht)]
  cases decl
  · exact .inl rfl
  · exact .inr (.inr rfl)

/-- A text with a CR and an attribute value with a TAB are written but not read back. -/
theorem C29_refuted :
    ∃ s e', tostring true false (.mk c!"a" [(c!"k", c!"x\ty")] (some (.str c!"p\rq")) none []) = .ok s ∧ parse s = some e' ∧
      ¬ SameTree (.mk c!"a" [(c!"k", c!"x\ty")] (some (.str c!"p\rq")) none []) e' := by
  refine ⟨_, .mk c!"a" [(c!"k", c!"x y")] (some (.str c!"p\nq")) none [], rfl, by decide +kernel, ?_⟩
  rintro ⟨⟩

/-- A tree meeting the hypotheses, with mixed content. -/
def xmlSample : Elem :=
  .mk c!"glyph" [(c!"name", c!"a<\"b\n"), (c!"format", c!"2")] (some (.str c!"x & y")) none
    [.mk c!"note" [] (some (.bytes [65, 60])) (some (.str c!" t ")) [], .mk c!"outline" [] none none [.mk c!"contour" [] (some (.str [])) none []]]

example : Writable xmlSample ∧ xmlSample.tail = none := by
  have hg : ∀ s : Str, s.all (fun c => xmlChar c && c != '\r') = true → GoodText (some (.str s)) := by
    intro s hs
    refine ⟨fun c hc => ?_, fun b hb => by cases hb⟩
    have := List.all_eq_true.1 hs c hc
    simpa using this
  have hn : GoodText none := ⟨fun c hc => by simp [textStr] at hc, fun b hb => by cases hb⟩
  have hb : GoodText (some (.bytes [65, 60])) := ⟨by decide, fun b hb => by cases hb; decide⟩
  refine ⟨⟨by decide, by decide, ?_, hg _ (by decide), hn, ⟨by decide, by decide, by simp, hb, hg _ (by decide), trivial⟩, ?_, trivial⟩, rfl⟩
  · intro p hp
    simp only [List.mem_cons, List.not_mem_nil, or_false] at hp
    rcases hp with rfl | rfl
    · exact ⟨by decide, fun c hc => by revert c hc; decide⟩
    · exact ⟨by decide, fun c hc => by revert c hc; decide⟩
  · exact ⟨by decide, by decide, by simp, hn, hn, ⟨by decide, by decide, by simp, hg _ (by decide), hn, trivial⟩, trivial⟩

example : tostring true true xmlSample = .ok
    c!"<?xml version=\"1.0\" encoding=\"UTF-8\"?>\n<glyph name=\"a&lt;&quot;b&#10;\" format=\"2\">x &amp; y<note>A&lt;</note> t <outline>\n    <contour></contour>\n  </outline>\n</glyph>\n" := by
  decide +kernel

/-! The parser on documents no serializer of the library makes: comments, processing instructions, CDATA sections, a byte order mark,
white space around `=`, declared encodings. -/

example : parse c!"<?xml version='1.0' encoding='utf-8'?>\n<!-- top --><?style x?>\n<a b = \"c\">x<!-- y -->z<![CDATA[<&>]]><d/>t<?p?>u</a>\n<!-- end -->" =
    some (.mk c!"a" [(c!"b", c!"c")] (some (.str c!"xz<&>")) none [.mk c!"d" [] none (some (.str c!"tu")) []]) := by decide +kernel
example : parse (Char.ofNat 0xFEFF :: c!"<a/>") = some (.mk c!"a" [] none none []) := by decide +kernel
example : parse c!"<?xml version='1.0' encoding='utf-16'?><a/>" = none ∧ parse c!"<?xml version='1.0' encoding='us-ascii'?><a>é</a>" = none ∧
    parse c!"<a><!-- -- --></a>" = none ∧ parse c!"<a>x]]></a>" = none ∧ parse c!"<a/><b/>" = none ∧ parse c!"<!-- x --><?xml version='1.0'?><a/>" = none := by
  decide +kernel

end Verif.Props
