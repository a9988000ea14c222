import Verif.Proofs.FontInfoOne
import Verif.Proofs.FontInfo1
import Verif.Proofs.Stored
import Verif.Proofs.Num
/-! Font info: C36-C40. -/
namespace Verif.Props
open Verif Verif.FontInfo Verif.Validators Verif.Spec.Validators Verif.Spec.Woff Verif.Spec.FontInfo Verif.Spec.Plist

/-! ### C36 -/

/-- On Python 3.8 or later, the validator of every attribute of UFO 3 returns a verdict for every property list value.
Missing from the full claim: items of integer lists and of gasp behavior lists must not be lists or dictionaries (see `C36_refuted`,
`C36_gasp_refuted`), and earlier Python versions raise for the year 0 (see `C36_python_refuted`). -/
theorem C36_total_partial (E : Env) (hE : E.py38 = true) (attr : Str) (ha : attr ∈ Dict.keys table3) (v : PyVal) (hk : Keyed v) (hn : NoNone v)
    (hints : attr ∈ integerLists → ∀ l, IsSeq v l → ∀ x ∈ l, Atomic x)
    (hgasp : attr = c!"openTypeGaspRangeRecords" → ∀ l, v = .list l → ∀ r ∈ l, ∀ d b, r = .dict d → (.str c!"rangeGaspBehavior", .list b) ∈ d → ∀ x ∈ b, Atomic x) :
    ∃ b, validateValue E table3 attr v = .ok b := by
  rcases hg : Dict.get? table3 attr with _ | k
  · exact absurd ha ((Dict.get?_eq_none_iff).1 hg)
  · rw [validateValue_of hg]
    have hr := kind_of raisingKinds3 hg
    cases k <;> first
      | exact ⟨_, rfl⟩
      | exact intList_total (hints hr)
      | exact gasp_total (hgasp hr)
      | exact credits_total hk
      | exact description_total hk
      | exact texts_total hk
      | exact license_total hk hn
      | exact extensions_total hk hn
      | (simp only [Kind.check, hE]; exact headCreated_total v)

/-- A list inside the list of flags raises. -/
theorem C36_refuted (E : Env) : validateValue E table3 c!"openTypeHeadFlags" (.list [.list []]) = .error .typeError := by
  rw [validateValue_of (k := .headFlags) (by decide +kernel)]; rfl

/-- The same for gasp behaviors. -/
theorem C36_gasp_refuted (E : Env) : validateValue E table3 c!"openTypeGaspRangeRecords"
    (.list [.dict [(.str c!"rangeMaxPPEM", .int 8), (.str c!"rangeGaspBehavior", .list [.list []])]]) = .error .typeError := by
  rw [validateValue_of (k := .gasp) (by decide +kernel)]; rfl

/-- Before Python 3.8, the year 0 raises. -/
theorem C36_python_refuted (F : FloatCodec) : validateValue ⟨F, false⟩ table3 c!"openTypeHeadCreated" (.str c!"0000/01/01 00:00:00") = .error .valueError := by
  rw [validateValue_of (k := .headCreated) (by decide +kernel)]
  show headCreatedValidator false (.str c!"0000/01/01 00:00:00") = .error .valueError
  decide +kernel

example : validateValue ⟨fractionCodec, true⟩ table3 c!"openTypeHeadFlags" (.list [.int 0, .str c!"x"]) = .ok false ∧
    validateValue ⟨fractionCodec, true⟩ table3 c!"openTypeHeadFlags" (.list [.int 0, .int 14]) = .ok true ∧
    validateValue ⟨fractionCodec, true⟩ table3 c!"woffMetadataLicense" (.dict [(.str c!"text", .int 3)]) = .ok false ∧
    validateValue ⟨fractionCodec, true⟩ table3 c!"openTypeHeadCreated" (.str c!"2024/02/29 23:59:59") = .ok true := by decide +kernel

/-! ### C37 -/

/-- Every value accepted for an attribute that exists in UFO 1 converts to a UFO 1 value, and that converts back to the same attribute and
an equal value.
Missing from the full claim: the value must not be not-a-number or infinite (see `C37_refuted`). -/
theorem C37_value_partial (E : Env) (a b : Str) (h : (a, b) ∈ version1) (v : PyVal) (hv : validateValue E table2 b v = .ok true)
    (hfin : ∀ f, v = .float f → ∃ q, f = .fin q) :
    ∃ w w', convert21 b v = .ok (a, w) ∧ w ≠ .none ∧ convert12 a w = .ok (b, w') ∧ PyVal.pyEq w' v = true := by
  obtain ⟨w, w', h1, h2, -, h3, h4, -⟩ := convert_back h hv hfin
  exact ⟨w, w', h1, h2, h3, h4⟩

/-- The same for a whole dictionary: exactly the attributes of UFO 1 survive, with equal values. -/
theorem C37_data_partial (E : Env) (d : Dict Str PyVal) (hwf : Dict.WF d) (hv : ∀ p ∈ d, validateValue E table2 p.1 p.2 = .ok true)
    (hfin : ∀ p ∈ d, ∀ f, p.2 = .float f → ∃ q, f = .fin q) :
    ∃ d1 d2, convertData21 [] d = .ok d1 ∧ convertData12 [] d1 = .ok d2 ∧ (∀ p ∈ d1, p.2 ≠ .none) ∧
      ∀ b, ((∃ a, (a, b) ∈ version1) → SameEntry (Dict.get? d b) (Dict.get? d2 b)) ∧ ((¬ ∃ a, (a, b) ∈ version1) → Dict.get? d2 b = none) := by
  obtain ⟨L, hL, hF⟩ := convertData21_spec d hwf hv hfin [] (by simp [Dict.keys])
  have hwf' : Dict.WF (d.filter fun p => in1 p.1) := (List.filter_sublist.map Prod.fst).nodup hwf
  obtain ⟨M, hM, hG⟩ := convertData12_spec hF hwf' [] (by simp [Dict.keys])
  refine ⟨L, M, by simpa using hL, by simpa using hM, ?_, fun b => ?_⟩
  · intro q hq
    obtain ⟨p, -, -, -, -, -, h, -⟩ := forall₂_right hF hq
    exact h
  · have hs := get?_forall₂ hG b
    rw [get?_filter] at hs
    by_cases hb : b ∈ Dict.keys table2
    · by_cases h1 : in1 b = true
      · rw [if_pos h1] at hs
        exact ⟨fun _ => hs, fun hn => absurd ((in1_iff hb).1 h1) hn⟩
      · rw [if_neg h1] at hs
        refine ⟨fun he => absurd ((in1_iff hb).2 he) h1, fun _ => ?_⟩
        rcases hg : Dict.get? M b with _ | w
        · rfl
        · rw [hg] at hs; cases hs
    · refine ⟨?_, fun _ => ?_⟩
      · rintro ⟨a, ha⟩
        obtain ⟨_, _, _, _, hb', _⟩ := kept_pair ha
        exact absurd hb' hb
      · have hd : Dict.get? d b = none := by
          rw [Dict.get?_eq_none_iff]
          intro hmem
          obtain ⟨p, hp, rfl⟩ := List.mem_map.1 hmem
          obtain ⟨k, hk, -⟩ := validateValue_ok (hv p hp)
          exact hb (List.mem_map.2 ⟨_, Dict.mem_of_get? hk, rfl⟩)
        rw [hd, ite_self] at hs
        rcases hg : Dict.get? M b with _ | w
        · rfl
        · rw [hg] at hs; cases hs

/-- The style and width values are those of the UFO 1 specification. -/
theorem C37_values : (∀ p ∈ styles1, convert21 c!"styleMapStyleName" (.str p.1) = .ok (c!"fontStyle", .int p.2)) ∧
    (∀ p ∈ widths1, convert21 c!"openTypeOS2WidthClass" (.int p.1) = .ok (c!"widthName", .str p.2)) := by decide +kernel

/-- Not-a-number is an ascender in UFO 2, is written to UFO 1, and reading it back raises. -/
theorem C37_refuted (E : Env) : validateValue E table2 c!"ascender" (.float .nan) = .ok true ∧
    convert21 c!"ascender" (.float .nan) = .ok (c!"ascender", .float .nan) ∧ convert12 c!"ascender" (.float .nan) = .error .valueError := by
  refine ⟨?_, by decide +kernel, rfl⟩
  rw [validateValue_of (k := .num) (by decide +kernel)]; rfl

example : convert21 c!"openTypeOS2WidthClass" (.int 5) = .ok (c!"widthName", .str c!"Medium (normal)") ∧
    convert12 c!"widthName" (.str c!"Medium (normal)") = .ok (c!"openTypeOS2WidthClass", .int 5) ∧
    convert21 c!"unitsPerEm" (.float (.fin 1000)) = .ok (c!"unitsPerEm", .float (.fin 1000)) ∧
    convert12 c!"unitsPerEm" (.float (.fin 1000)) = .ok (c!"unitsPerEm", .int 1000) ∧
    (do convertData12 [] (← convertData21 [] [(c!"styleMapStyleName", .str c!"bold"), (c!"openTypeOS2Panose", .list []), (c!"postscriptFullName", .str c!"F")])) =
      .ok [(c!"styleMapStyleName", .str c!"bold"), (c!"postscriptFullName", .str c!"F")] := by decide +kernel

/-! ### C38 -/

/-- Font info whose values are all valid in UFO 2 is read exactly if none of its values is `Unreadable`.
Missing from the full claim: that no valid value is (see `C38_refuted`). -/
theorem C38_readable_partial (E : Env) (d : Dict Str PyVal) (hv : ∀ a ∈ Dict.keys table2, ∀ v, present (Dict.get? d a) = some v → validateValue E table2 a v = .ok true) :
    (∃ r, readInfo E 2 true d = .ok r) ↔ ∀ a ∈ Dict.keys table2, ∀ v, present (Dict.get? d a) = some v → ¬ Unreadable a v := by
  simp only [readInfo2_ok]
  constructor
  · rintro ⟨r, hr⟩ a ha v hp
    obtain ⟨q, -, h1, h2, h3⟩ := forall₂_left hr (mem_gather.2 ⟨ha, hp⟩)
    rw [h1] at h3
    exact (readable_iff (hv a ha v hp)).1 ⟨_, h2, h3⟩
  · intro h
    apply forall₂_exists
    rintro ⟨a, v⟩ hp
    obtain ⟨ha, hp⟩ := mem_gather.1 hp
    obtain ⟨w, h1, h2⟩ := (readable_iff (hv a ha v hp)).2 (h a ha v hp)
    exact ⟨(a, w), rfl, h1, h2⟩

/-- Values that are valid in UFO 2 and make a UFO 2 font info unreadable. -/
theorem C38_refuted (E : Env) : ∀ p ∈ [(c!"openTypeHheaAscender", PyVal.float (.fin 750)), (c!"unitsPerEm", .int (-1000)), (c!"openTypeOS2TypoLineGap", .float .nan),
      (c!"openTypeOS2Panose", .list [.int (-1), .int 0, .int 0, .int 0, .int 0, .int 0, .int 0, .int 0, .int 0, .int 0])],
    validateValue E table2 p.1 p.2 = .ok true ∧ ∃ e, readInfo E 2 true [p] = .error e := by
  have h : ∀ a k k' v, Dict.get? table2 a = some k → k.check E v = .ok true → gather (Dict.get? [(a, v)]) (Dict.keys table2) = [(a, v)] → Dict.get? table3 a = some k' →
      (∀ w, convert23 a v = .ok w → k'.check E w = .ok false) → validateValue E table2 a v = .ok true ∧ ∃ e, readInfo E 2 true [(a, v)] = .error e := by
    intro a k k' v h1 h2 h3 h4 h5
    refine ⟨by rw [validateValue_of h1, h2], ?_⟩
    rcases hr : readInfo E 2 true [(a, v)] with e | r
    · exact ⟨e, rfl⟩
    · rw [readInfo2_ok, h3] at hr
      cases hr with
      | @cons _ q _ _ hq _ =>
        obtain ⟨hq1, hq2, hq3⟩ := hq
        rw [hq1, validateValue_of h4, h5 _ hq2] at hq3
        cases hq3
  simp only [List.forall_mem_cons, List.not_mem_nil, false_implies, implies_true, and_true]
  refine ⟨h _ .num .int _ (by decide +kernel) rfl (by decide +kernel) (by decide +kernel) ?_, h _ .num .nonNegNum _ (by decide +kernel) rfl (by decide +kernel) (by decide +kernel) ?_,
    h _ .num .int _ (by decide +kernel) rfl (by decide +kernel) (by decide +kernel) ?_, h _ .panose2 .panose3 _ (by decide +kernel) rfl (by decide +kernel) (by decide +kernel) ?_⟩
  all_goals intro w hw
  · have : convert23 c!"openTypeHheaAscender" (.float (.fin 750)) = .ok (.float (.fin 750)) := by decide +kernel
    rw [this] at hw; cases hw; rfl
  · have : convert23 c!"unitsPerEm" (.int (-1000)) = .ok (.int (-1000)) := by decide +kernel
    rw [this] at hw; cases hw; rfl
  · have : convert23 c!"openTypeOS2TypoLineGap" (.float .nan) = .error .ufoLibError := by decide +kernel
    rw [this] at hw; cases hw
  · rw [convert23_other panose_other.2.2 panose_other.1 panose_other.2.1] at hw; cases hw; rfl

example : readInfo ⟨fractionCodec, true⟩ 2 true [(c!"openTypeHheaAscender", .float (.fin (1501 / 2))), (c!"unknown", .int 1), (c!"openTypeOS2WinAscent", .float (.fin (-5 / 2))),
    (c!"versionMinor", .int (-3)), (c!"familyName", .str c!"F"), (c!"unitsPerEm", .int 1000)] =
    .ok [(c!"familyName", .str c!"F"), (c!"versionMinor", .int 3), (c!"unitsPerEm", .int 1000), (c!"openTypeHheaAscender", .int 750), (c!"openTypeOS2WinAscent", .int 2)] := by
  decide +kernel

/-! ### C39 -/

/-- Converting twice is converting once. -/
theorem C39_idempotent (attr : Str) (v w : PyVal) (h : convert23 attr v = .ok w) : convert23 attr w = .ok w := convert23_idem h

/-- Other attributes keep their value, whatever it is. -/
theorem C39_others (attr : Str) (h : attr ∉ c!"versionMinor" :: integerSince3 ++ nonNegativeIntegerSince3) (v : PyVal) : convert23 attr v = .ok v := by
  simp only [List.cons_append, List.mem_cons, List.mem_append, not_or] at h
  exact convert23_other h.1 h.2.1 h.2.2 v

/-- A number becomes the nearest integer, ties going to the even one. -/
theorem C39_integer (attr : Str) (h : attr ∈ integerSince3) (v : PyVal) (q : Rat) (hv : IsRat v q) : ∃ w i, convert23 attr v = .ok w ∧ IsRat w (i : Int) ∧ Nearest q i := by
  obtain ⟨n, hn, hq⟩ := roundInt_rat hv
  obtain ⟨w, hw, hwn⟩ := integerStep_total hn
  exact ⟨w, n, by rw [convert23_integer h, hw], hwn, hq⟩

/-- A number becomes the absolute value of the nearest integer. -/
theorem C39_nonNegative (attr : Str) (h : attr ∈ nonNegativeIntegerSince3) (v : PyVal) (q : Rat) (hv : IsRat v q) :
    ∃ w i, convert23 attr v = .ok w ∧ IsRat w (i.natAbs : Int) ∧ Nearest q i := by
  obtain ⟨w, n, h1, h2, h3⟩ := convert23_nonNegative h hv
  exact ⟨w, n, h1, h3, h2⟩

/-- The minor version, an integer in UFO 2, becomes its absolute value.
Missing from the full claim: other numbers, which are truncated rather than rounded (see `C39_refuted`). -/
theorem C39_minor_partial (v : PyVal) (i : Int) (hv : IsInt v i) : ∃ w, convert23 c!"versionMinor" v = .ok w ∧ IsRat w (i.natAbs : Int) := by
  rw [convert23_minor]
  exact integerStep_total (absInt_int (isInt_numIs hv))

/-- Values of these attributes that are not numbers are refused. -/
theorem C39_notNumber (attr : Str) (h : attr ∈ c!"versionMinor" :: integerSince3 ++ nonNegativeIntegerSince3) (v : PyVal) (hv : ¬ IsNum v) :
    convert23 attr v = .error .ufoLibError := by
  simp only [List.cons_append, List.mem_cons, List.mem_append] at h
  rcases h with rfl | h | h
  · rw [convert23_minor, integerStep, (roundInt_not_num hv).2]
  · rw [convert23_integer h, integerStep, (roundInt_not_num hv).1]
  · exact convert23_error h (roundInt_not_num hv).1

/-- The minor version 1.75 becomes 1, which is neither itself nor the nearest integer. -/
theorem C39_refuted : convert23 c!"versionMinor" (.float (.fin (7 / 4))) = .ok (.int 1) ∧ ¬ Nearest (7 / 4) 1 := by
  refine ⟨by decide +kernel, ?_⟩
  rintro ⟨-, h, -⟩
  norm_num at h

example : convert23 c!"openTypeOS2WinAscent" (.float (.fin (-5 / 2))) = .ok (.int 2) ∧ convert23 c!"openTypeHheaAscender" (.float (.fin (7 / 2))) = .ok (.int 4) ∧
    convert23 c!"versionMinor" (.bool true) = .ok (.bool true) ∧ convert23 c!"ascender" (.float (.fin (7 / 2))) = .ok (.float (.fin (7 / 2))) := by decide +kernel

/-! ### C40 -/

/-- In UFO 3, whatever `writeInfo` writes, `readInfo` reads, and it sets exactly the known attributes of the object that are not `None`. -/
theorem C40_version3 (E : Env) (info : Str → Option PyVal) (d : Dict Str PyVal) (h : writeInfo E 3 true info = .ok d) :
    readInfo E 3 true d = .ok d ∧ ∀ a, Dict.get? d a = if a ∈ Dict.keys table3 then present (info a) else none := by
  obtain ⟨rfl, hv⟩ := writeInfo3_ok.1 h
  refine ⟨readInfo3_ok.2 ⟨?_, hv⟩, get?_gather wf_table3⟩
  refine gather_congr fun a ha => ?_
  rw [get?_gather wf_table3, if_pos ha, present_present]

/-- In UFO 2, the same for the attributes of UFO 2, if the values are valid in UFO 3 and the three attributes that are supposed to be
non-negative integers are integers.
Missing from the full claim: all values that are valid in UFO 2 (see `C40_refuted`). -/
theorem C40_version2_partial (E : Env) (info : Str → Option PyVal) (d : Dict Str PyVal) (h : writeInfo E 2 true info = .ok d)
    (h3 : ∀ p ∈ d, validateValue E table3 p.1 p.2 = .ok true) (hint : ∀ p ∈ d, p.1 ∈ nonNegativeIntegerSince3 → ∃ i, IsInt p.2 i) :
    ∃ r, readInfo E 2 true d = .ok r ∧ ∀ a, Dict.get? r a = if a ∈ Dict.keys table2 then present (info a) else none := by
  obtain ⟨rfl, hv⟩ := writeInfo2_ok.1 h
  have hg : gather (Dict.get? (convertData32 (gather info (Dict.keys table3)))) (Dict.keys table2) = gather info (Dict.keys table2) := by
    refine gather_congr fun a ha => ?_
    rw [get?_written2, if_pos ha, present_present]
  refine ⟨gather info (Dict.keys table2), readInfo2_ok.2 ?_, get?_gather wf_table2⟩
  rw [hg]
  rw [List.forall₂_same]
  rintro ⟨a, v⟩ hp
  obtain ⟨ha, hp⟩ := mem_gather.1 hp
  have hmem : (a, v) ∈ convertData32 (gather info (Dict.keys table3)) := by
    apply Dict.mem_of_get?
    rw [get?_written2, if_pos ha, hp]
  have h3 := h3 _ hmem
  have hint := hint _ hmem
  refine ⟨rfl, ?_, h3⟩
  simp only at h3 hint ⊢
  exact convert23_stable h3 hint

/-- In UFO 1, the attributes that UFO 1 has a name for are read with equal values (an integral float as an integer), and no others.
Missing from the full claim: values that are not valid in UFO 3 (see `C40_refuted`) and numbers that are not finite (see `C37_refuted`). -/
theorem C40_version1_partial (E : Env) (info : Str → Option PyVal) (d : Dict Str PyVal) (h : writeInfo E 1 true info = .ok d)
    (hfin : ∀ a f, info a = some (.float f) → ∃ q, f = .fin q)
    (h3 : ∀ a b, (a, b) ∈ version1 → ∀ v, present (info b) = some v → validateValue E table3 b v = .ok true) :
    ∃ r, readInfo E 1 true d = .ok r ∧ ∀ b, SameEntry (if b ∈ version1.map Prod.snd then present (info b) else none) (Dict.get? r b) := by
  obtain ⟨P, W⟩ := written1 h hfin
  exact file_info1 W h3 (fun a v ha => ⟨v, ha, atomic_stored (W.atomic _ (Dict.mem_of_get? ha))⟩) fun a ha => ha

example : writeInfo ⟨fractionCodec, true⟩ 1 true (Dict.get? [(c!"styleMapStyleName", .str c!"bold"), (c!"ascender", .float (.fin 700)), (c!"openTypeOS2Panose", .list [.int 1, .int 1, .int 1, .int 1, .int 1, .int 1, .int 1, .int 1, .int 1, .int 1])]) =
      .ok [(c!"fontStyle", .int 32), (c!"ascender", .float (.fin 700))] ∧
    readInfo ⟨fractionCodec, true⟩ 1 true [(c!"fontStyle", .int 32), (c!"ascender", .float (.fin 700))] = .ok [(c!"styleMapStyleName", .str c!"bold"), (c!"ascender", .int 700)] := by
  decide +kernel

/-- The same through the file: if every attribute value is one that a property list file can hold, then the file is written, loaded
and read, and sets every known attribute to the value written (tuples as lists, dictionaries up to order) and nothing else. -/
theorem C40_file3 (E : Env) (hF : E.F.Lawful) (pretty : Bool) (info : Str → Option PyVal) (d : Dict Str PyVal) (h : writeInfo E 3 true info = .ok d)
    (hval : ∀ a v, info a = some v → v ≠ .none → Representable FileText v ∧ WellFormed v) :
    ∃ s e r, Plist.dumps E.F pretty (asDict d) = .ok s ∧ Plist.loads E.F s = .ok (asDict e) ∧ readInfo E 3 true e = .ok r ∧
      ∀ a, Option.Rel (fun v w => Same (untuple v) w) (if a ∈ Dict.keys table3 then present (info a) else none) (Dict.get? r a) := by
  obtain ⟨hd, -⟩ := writeInfo3_ok.1 h
  have hval' : ∀ p ∈ d, Representable FileText p.2 ∧ WellFormed p.2 := by
    rintro ⟨a, v⟩ hp
    rw [hd] at hp
    obtain ⟨h1, h2⟩ := present_some.1 (mem_gather.1 hp).2
    exact hval a v h1 h2
  have hwf : Dict.WF d := by rw [hd]; exact (keys_gather _ _).nodup wf_table3
  obtain ⟨s, e, hs, he, h1, h2⟩ := file_dict E.F hF pretty hwf (fun p hp => by rw [hd] at hp; exact (mem_gather.1 hp).1) hval'
  obtain ⟨r, hr, hrel⟩ := file_info3 h (fun p hp => (hval' p hp).2) h1 h2
  exact ⟨s, e, r, hs, he, hr, hrel⟩

/-- The same for UFO 2, with the hypotheses of `C40_version2_partial`. -/
theorem C40_file2_partial (E : Env) (hF : E.F.Lawful) (pretty : Bool) (info : Str → Option PyVal) (d : Dict Str PyVal) (h : writeInfo E 2 true info = .ok d)
    (h3 : ∀ p ∈ d, validateValue E table3 p.1 p.2 = .ok true) (hint : ∀ p ∈ d, p.1 ∈ nonNegativeIntegerSince3 → ∃ i, IsInt p.2 i)
    (hval : ∀ a v, info a = some v → v ≠ .none → Representable FileText v ∧ WellFormed v) :
    ∃ s e r, Plist.dumps E.F pretty (asDict d) = .ok s ∧ Plist.loads E.F s = .ok (asDict e) ∧ readInfo E 2 true e = .ok r ∧
      ∀ a, Option.Rel (fun v w => Same (untuple v) w) (if a ∈ Dict.keys table2 then present (info a) else none) (Dict.get? r a) := by
  obtain ⟨hd, -⟩ := writeInfo2_ok.1 h
  have hmem : ∀ p ∈ d, p ∈ gather info (Dict.keys table3) := fun p hp => by
    rw [hd] at hp
    exact List.mem_of_mem_filter hp
  have hval' : ∀ p ∈ d, Representable FileText p.2 ∧ WellFormed p.2 := by
    rintro ⟨a, v⟩ hp
    obtain ⟨h1, h2⟩ := present_some.1 (mem_gather.1 (hmem _ hp)).2
    exact hval a v h1 h2
  have hwf : Dict.WF d := by
    rw [hd]
    exact (List.filter_sublist.map _).nodup ((keys_gather info _).nodup wf_table3)
  obtain ⟨s, e, hs, he, h1, h2⟩ := file_dict E.F hF pretty hwf (fun p hp => (mem_gather.1 (hmem _ hp)).1) hval'
  obtain ⟨r, hr, hrel⟩ := file_info2 h h3 hint (fun p hp => (hval' p hp).2) h1 h2
  exact ⟨s, e, r, hs, he, hr, hrel⟩

/-- In UFO 2, a fractional ascender is written and read back rounded. -/
theorem C40_refuted : ∃ d, writeInfo ⟨fractionCodec, true⟩ 2 true (Dict.get? [(c!"openTypeHheaAscender", .float (.fin (3 / 2)))]) = .ok d ∧
    readInfo ⟨fractionCodec, true⟩ 2 true d = .ok [(c!"openTypeHheaAscender", .int 2)] :=
  ⟨[(c!"openTypeHheaAscender", .float (.fin (3 / 2)))], by decide +kernel, by decide +kernel⟩

example : writeInfo ⟨fractionCodec, true⟩ 3 true (Dict.get? [(c!"familyName", .str c!"F"), (c!"other", .int 1), (c!"note", .none), (c!"woffMajorVersion", .int 1), (c!"year", .int 2000)]) =
      .ok [(c!"familyName", .str c!"F"), (c!"year", .int 2000), (c!"woffMajorVersion", .int 1)] ∧
    writeInfo ⟨fractionCodec, true⟩ 2 true (Dict.get? [(c!"familyName", .str c!"F"), (c!"other", .int 1), (c!"note", .none), (c!"woffMajorVersion", .int 1), (c!"year", .int 2000)]) =
      .ok [(c!"familyName", .str c!"F"), (c!"year", .int 2000)] := by decide +kernel

/-- The hypotheses of the file theorems hold for an object with a string, an integer and a missing value. -/
example : ∃ info : Str → Option PyVal, (writeInfo ⟨fractionCodec, true⟩ 3 true info = .ok [(c!"familyName", .str c!"F"), (c!"year", .int 2000)]) ∧
    (writeInfo ⟨fractionCodec, true⟩ 2 true info = .ok [(c!"familyName", .str c!"F"), (c!"year", .int 2000)]) ∧
    (∀ a v, info a = some v → v ≠ .none → Representable FileText v ∧ WellFormed v) := by
  refine ⟨Dict.get? [(c!"familyName", .str c!"F"), (c!"year", .int 2000), (c!"note", .none)], by decide +kernel, by decide +kernel, fun a v h hn => ?_⟩
  have := Dict.mem_of_get? h
  simp only [List.mem_cons, Prod.mk.injEq, List.not_mem_nil, or_false] at this
  rcases this with ⟨-, rfl⟩ | ⟨-, rfl⟩ | ⟨-, rfl⟩
  · exact ⟨.str _ ⟨(Plist.xmlText_iff _).2 (by decide +kernel), by decide +kernel⟩, trivial⟩
  · exact ⟨.int _ (by decide), trivial⟩
  · exact absurd rfl hn

end Verif.Props
