import Verif.Proofs.InfoSince
/-! Font info: C98. -/
namespace Verif.Props
open Verif Verif.FontInfo Verif.Spec.Validators Verif.Spec.Woff Verif.Spec.FontInfo Verif.Spec.InfoLegal Verif.Spec.Numerals

/-! ### C98 -/

/-- The values that are valid in UFO 2 are those the specification allows. -/
theorem C98_value2 (E : Env) (a : Str) (v : PyVal) : validateValue E table2 a v = .ok true ↔ Legal2 E.py38 a v := value2_iff

/-- The same for UFO 3. -/
theorem C98_value3 (E : Env) (a : Str) (v : PyVal) (hv : Keyed v) : validateValue E table3 a v = .ok true ↔ Legal3 E.F E.py38 a v := value3_iff hv

/-- Font info of UFO 3 is read exactly if every known attribute that is there has a legal value; the result is these attributes with their values. -/
theorem C98_read3 (E : Env) (d : Dict Str PyVal) (hk : ∀ a v, Dict.get? d a = some v → Keyed v) :
    ((∃ r, readInfo E 3 true d = .ok r) ↔ ∀ a ∈ attributes3, ∀ v, present (Dict.get? d a) = some v → Legal3 E.F E.py38 a v) ∧
    ∀ r, readInfo E 3 true d = .ok r → ∀ a, Dict.get? r a = if a ∈ attributes3 then present (Dict.get? d a) else none := by
  simp only [read3_iff hk]
  refine ⟨?_, ?_⟩
  · simp
  · rintro r ⟨rfl, -⟩ a
    have : a ∈ attributes3 ↔ a ∈ Dict.keys table3 := ⟨attributes3_iff.1 a, attributes3_iff.2 a⟩
    simp only [get?_gather wf_table3, this]

/-- Font info of UFO 2 is read exactly if every known attribute that is there stands for a legal value of UFO 3; the result is these
attributes with what they stand for. -/
theorem C98_read2 (E : Env) (d : Dict Str PyVal) (hk : ∀ a v, Dict.get? d a = some v → Keyed v) :
    ((∃ r, readInfo E 2 true d = .ok r) ↔ ∀ a ∈ attributes2, ∀ v, present (Dict.get? d a) = some v → ∃ w, Since2 a v w ∧ Legal3 E.F E.py38 a w) ∧
    ∀ r, readInfo E 2 true d = .ok r → ∀ a w, Dict.get? r a = some w ↔ a ∈ attributes2 ∧ ∃ v, present (Dict.get? d a) = some v ∧ Since2 a v w := by
  simp only [read2_iff hk]
  refine ⟨⟨?_, ?_⟩, ?_⟩
  · rintro ⟨r, hr⟩ a ha v hv
    obtain ⟨⟨a', w⟩, -, rfl, h1, h2⟩ := forall₂_left hr (mem_gather.2 ⟨attributes2_iff.1 a ha, hv⟩)
    exact ⟨w, h1, h2⟩
  · intro h
    apply forall₂_exists
    rintro ⟨a, v⟩ hp
    obtain ⟨ha, hv⟩ := mem_gather.1 hp
    obtain ⟨w, h1, h2⟩ := h a (attributes2_iff.2 a ha) v hv
    exact ⟨(a, w), rfl, h1, h2⟩
  · intro r hr
    apply get?_of_spec
    · rintro a w w' ⟨-, v, hv, h⟩ ⟨-, v', hv', h'⟩
      rw [hv] at hv'; cases hv'
      exact since2_unique h h'
    · intro a w
      constructor
      · intro hq
        obtain ⟨⟨a', v⟩, hp, rfl, h, -⟩ := forall₂_right hr hq
        obtain ⟨ha, hv⟩ := mem_gather.1 hp
        exact ⟨attributes2_iff.2 _ ha, v, hv, h⟩
      · rintro ⟨ha, v, hv, h⟩
        obtain ⟨⟨a', w'⟩, hq, rfl, h1, -⟩ := forall₂_left hr (mem_gather.2 ⟨attributes2_iff.1 a ha, hv⟩)
        simp only at h1
        rwa [since2_unique h h1]

/-- Font info of UFO 1 is read exactly if every known attribute that is there stands for a value of UFO 2 that stands for a legal value of
UFO 3, weight -1 meaning none; the result is these attributes under their new names with what they stand for. -/
theorem C98_read1 (E : Env) (d : Dict Str PyVal) (hk : ∀ a v, Dict.get? d a = some v → Keyed v) :
    ((∃ r, readInfo E 1 true d = .ok r) ↔
      ∀ a b, (a, b) ∈ version1 → ∀ v, present (Dict.get? d a) = some v → ¬ NoWeight a v → ∃ w x, Since1 a v w ∧ Since2 b w x ∧ Legal3 E.F E.py38 b x) ∧
    ∀ r, readInfo E 1 true d = .ok r → ∀ b x, Dict.get? r b = some x ↔
      ∃ a v w, (a, b) ∈ version1 ∧ present (Dict.get? d a) = some v ∧ ¬ NoWeight a v ∧ Since1 a v w ∧ Since2 b w x := by
  have huniq : ∀ {a b v w w'}, (a, b) ∈ version1 → present (Dict.get? d a) = some v → Since1 a v w → Since1 a v w' → w = w' := by
    intro a b v w w' hab hv h h'
    rw [← since1_iff hab (present_some.1 hv).2] at h h'
    rw [h] at h'; cases h'; rfl
  have hmem : ∀ {a b v}, (a, b) ∈ version1 → (present (Dict.get? d a) = some v ∧ ¬ NoWeight a v ↔ (a, v) ∈ kept1 (gather (Dict.get? d) attributes1)) := by
    intro a b v hab
    rw [mem_kept1, mem_gather]
    simp only [(version1_inj.2.2.1 _ hab).1, true_and]
  simp only [read1_iff hk]
  refine ⟨⟨?_, ?_⟩, ?_⟩
  · rintro ⟨r, hr⟩ a b hab v hv hn
    obtain ⟨⟨b', x⟩, -, hab', w, h1, h2, h3⟩ := forall₂_left hr ((hmem hab).1 ⟨hv, hn⟩)
    obtain rfl : b' = b := version1_inj.1 _ hab' _ hab rfl
    exact ⟨w, x, h1, h2, h3⟩
  · intro h
    apply forall₂_exists
    rintro ⟨a, v⟩ hp
    obtain ⟨⟨a', b⟩, hab, rfl⟩ := version1_inj.2.2.2 a (mem_gather.1 (mem_kept1.1 hp).1).1
    obtain ⟨hv, hn⟩ := (hmem hab).2 hp
    obtain ⟨w, x, h1, h2, h3⟩ := h a' b hab v hv hn
    exact ⟨(b, x), hab, w, h1, h2, h3⟩
  · intro r hr
    apply get?_of_spec
    · rintro b x x' ⟨a, v, w, hab, hv, -, h1, h2⟩ ⟨a', v', w', hab', hv', -, h1', h2'⟩
      obtain rfl : a' = a := version1_inj.2.1 _ hab' _ hab rfl
      rw [hv] at hv'; cases hv'
      rw [huniq hab hv h1 h1'] at h2
      exact since2_unique h2 h2'
    · intro b x
      constructor
      · intro hq
        obtain ⟨⟨a, v⟩, hp, hab, w, h1, h2, -⟩ := forall₂_right hr hq
        obtain ⟨hv, hn⟩ := (hmem hab).2 hp
        exact ⟨a, v, w, hab, hv, hn, h1, h2⟩
      · rintro ⟨a, v, w, hab, hv, hn, h1, h2⟩
        obtain ⟨⟨b', x'⟩, hq, hab', w', h1', h2', -⟩ := forall₂_left hr ((hmem hab).1 ⟨hv, hn⟩)
        obtain rfl : b' = b := version1_inj.1 _ hab' _ hab rfl
        rw [huniq hab hv h1 h1'] at h2
        rwa [since2_unique h2 h2']

/-- Font info is written to UFO 3 exactly if every known attribute that is set has a legal value, and the file has these and no others. -/
theorem C98_write3 (E : Env) (info : Str → Option PyVal) (hk : ∀ a v, info a = some v → Keyed v) :
    ((∃ d, writeInfo E 3 true info = .ok d) ↔ ∀ a ∈ attributes3, ∀ v, present (info a) = some v → Legal3 E.F E.py38 a v) ∧
    ∀ d, writeInfo E 3 true info = .ok d → ∀ a, Dict.get? d a = if a ∈ attributes3 then present (info a) else none := by
  simp only [writeInfo3_ok]
  refine ⟨⟨?_, ?_⟩, ?_⟩
  · rintro ⟨d, rfl, h⟩ a ha v hv
    exact (value3_iff (hk a v (present_some.1 hv).1)).1 (h (a, v) (mem_gather.2 ⟨attributes3_iff.1 a ha, hv⟩))
  · refine fun h => ⟨_, rfl, ?_⟩
    rintro ⟨a, v⟩ hp
    obtain ⟨ha, hv⟩ := mem_gather.1 hp
    exact (value3_iff (hk a v (present_some.1 hv).1)).2 (h a (attributes3_iff.2 a ha) v hv)
  · rintro d ⟨rfl, -⟩ a
    have : a ∈ attributes3 ↔ a ∈ Dict.keys table3 := ⟨attributes3_iff.1 a, attributes3_iff.2 a⟩
    simp only [get?_gather wf_table3, this]

/-- The same for UFO 2. -/
theorem C98_write2 (E : Env) (info : Str → Option PyVal) :
    ((∃ d, writeInfo E 2 true info = .ok d) ↔ ∀ a ∈ attributes2, ∀ v, present (info a) = some v → Legal2 E.py38 a v) ∧
    ∀ d, writeInfo E 2 true info = .ok d → ∀ a, Dict.get? d a = if a ∈ attributes2 then present (info a) else none := by
  have hmem : ∀ p, p ∈ convertData32 (gather info (Dict.keys table3)) ↔ p.1 ∈ attributes2 ∧ present (info p.1) = some p.2 := by
    rintro ⟨a, v⟩
    rw [convertData32, List.mem_filter, mem_gather]
    simp only [decide_eq_true_eq]
    constructor
    · rintro ⟨⟨-, h⟩, h2⟩; exact ⟨attributes2_iff.2 a h2, h⟩
    · rintro ⟨h2, h⟩
      have := attributes2_iff.1 a h2
      exact ⟨⟨table2_sub3 a this, h⟩, this⟩
  simp only [writeInfo2_ok]
  refine ⟨⟨?_, ?_⟩, ?_⟩
  · rintro ⟨d, rfl, h⟩ a ha v hv
    exact value2_iff.1 (h (a, v) ((hmem _).2 ⟨ha, hv⟩))
  · refine fun h => ⟨_, rfl, ?_⟩
    rintro ⟨a, v⟩ hp
    obtain ⟨ha, hv⟩ := (hmem _).1 hp
    exact value2_iff.2 (h a ha v hv)
  · rintro d ⟨rfl, -⟩ a
    have : a ∈ attributes2 ↔ a ∈ Dict.keys table2 := ⟨attributes2_iff.1 a, attributes2_iff.2 a⟩
    simp only [get?_written2, this]

/-- The same for UFO 1: the values must be legal in UFO 2, and those UFO 1 has a name for are written under it, as what they are there. -/
theorem C98_write1 (E : Env) (info : Str → Option PyVal) :
    ((∃ d, writeInfo E 1 true info = .ok d) ↔ ∀ b ∈ attributes2, ∀ v, present (info b) = some v → Legal2 E.py38 b v) ∧
    ∀ d, writeInfo E 1 true info = .ok d → ∀ a w, Dict.get? d a = some w ↔ ∃ b v, (a, b) ∈ version1 ∧ present (info b) = some v ∧ Until1 b v w := by
  have h1 : ∀ d, writeInfo E 1 true info = .ok d ↔ ∃ d2, writeInfo E 2 true info = .ok d2 ∧ convertData21 [] d2 = .ok d := by
    intro d
    have : writeInfo E 1 true info = (writeInfo E 2 true info).bind (convertData21 []) := rfl
    rw [this]
    rcases writeInfo E 2 true info with e | d2 <;> simp [Except.bind]
  obtain ⟨hex, hget⟩ := C98_write2 E info
  have hdata : ∀ d2, writeInfo E 2 true info = .ok d2 → Dict.WF d2 ∧ (∀ p, p ∈ d2 ↔ p.1 ∈ attributes2 ∧ present (info p.1) = some p.2) ∧
      ∀ p ∈ d2, p.1 ∈ Dict.keys table2 ∧ Legal2 E.py38 p.1 p.2 ∧ p.2 ≠ .none := by
    intro d2 h2
    have hwf : Dict.WF d2 := by
      rw [(writeInfo2_ok.1 h2).1]
      exact (List.filter_sublist.map _).nodup ((keys_gather info _).nodup wf_table3)
    have hm : ∀ p, p ∈ d2 ↔ p.1 ∈ attributes2 ∧ present (info p.1) = some p.2 := by
      rintro ⟨a, v⟩
      rw [Dict.mem_iff_get? hwf, hget d2 h2]
      by_cases ha : a ∈ attributes2 <;> simp [ha]
    refine ⟨hwf, hm, fun p hp => ?_⟩
    obtain ⟨ha, hv⟩ := (hm p).1 hp
    exact ⟨attributes2_iff.1 _ ha, hex.1 ⟨d2, h2⟩ _ ha _ hv, (present_some.1 hv).2⟩
  simp only [h1]
  refine ⟨⟨?_, ?_⟩, ?_⟩
  · rintro ⟨d, d2, h2, -⟩
    exact hex.1 ⟨d2, h2⟩
  · intro h
    obtain ⟨d2, h2⟩ := hex.2 h
    obtain ⟨hwf, -, hd⟩ := hdata d2 h2
    obtain ⟨L, hL, -⟩ := convertData21_iff d2 hwf hd [] (by simp [Dict.keys])
    exact ⟨_, d2, h2, hL⟩
  · rintro d ⟨d2, h2, hd21⟩
    obtain ⟨hwf, hm, hd⟩ := hdata d2 h2
    obtain ⟨L, hL, hF⟩ := convertData21_iff d2 hwf hd [] (by simp [Dict.keys])
    rw [hL] at hd21
    obtain rfl : L = d := by simpa using hd21
    apply get?_of_spec
    · rintro a w w' ⟨b, v, hab, hv, hu⟩ ⟨b', v', hab', hv', hu'⟩
      obtain rfl : b' = b := version1_inj.1 _ hab' _ hab rfl
      rw [hv] at hv'; cases hv'
      exact until1_unique hu hu'
    · intro a w
      constructor
      · intro hq
        obtain ⟨⟨b, v⟩, hp, hab, hu⟩ := forall₂_right hF hq
        exact ⟨b, v, hab, ((hm _).1 (List.mem_of_mem_filter hp)).2, hu⟩
      · rintro ⟨b, v, hab, hv, hu⟩
        have hb := (version1_inj.2.2.1 _ hab).2
        have hmem : (b, v) ∈ d2 := (hm _).2 ⟨attributes2_iff.2 b hb, hv⟩
        obtain ⟨⟨a', w'⟩, hq, hab', hu'⟩ := forall₂_left hF (List.mem_filter.2 ⟨hmem, (in1_iff hb).2 ⟨a, hab⟩⟩)
        obtain rfl : a' = a := version1_inj.2.1 _ hab' _ hab rfl
        simp only at hu'
        rwa [until1_unique hu hu']

/-- Font info with an attribute of every sort. -/
example : readInfo ⟨fractionCodec, true⟩ 3 true [(c!"familyName", .str c!"F"), (c!"unitsPerEm", .float (.fin (1001 / 2))), (c!"openTypeHeadCreated", .str c!"2024/02/29 23:59:59"),
      (c!"openTypeOS2Panose", .list (List.replicate 10 (.int 2))), (c!"openTypeHheaAscender", .int (-3)), (c!"unknown", .int 1), (c!"postscriptBlueValues", .list [.int 1, .int 2]),
      (c!"guidelines", .list [.dict [(.str c!"x", .int 1)]])] =
    .ok [(c!"familyName", .str c!"F"), (c!"unitsPerEm", .float (.fin (1001 / 2))), (c!"openTypeHeadCreated", .str c!"2024/02/29 23:59:59"),
      (c!"openTypeHheaAscender", .int (-3)), (c!"openTypeOS2Panose", .list (List.replicate 10 (.int 2))), (c!"postscriptBlueValues", .list [.int 1, .int 2]),
      (c!"guidelines", .list [.dict [(.str c!"x", .int 1)]])] := by decide +kernel

/-- The same date, as a legal value. -/
example : Legal3 fractionCodec true c!"openTypeHeadCreated" (.str c!"2024/02/29 23:59:59") ∧ ¬ Legal3 fractionCodec true c!"openTypeHeadCreated" (.str c!"2023/02/29 23:59:59") :=
  ⟨(C98_value3 ⟨fractionCodec, true⟩ c!"openTypeHeadCreated" (.str c!"2024/02/29 23:59:59") (.atom _ trivial)).1 (by decide +kernel),
   fun h => absurd ((C98_value3 ⟨fractionCodec, true⟩ c!"openTypeHeadCreated" (.str c!"2023/02/29 23:59:59") (.atom _ trivial)).2 h) (by decide +kernel)⟩

/-- A style and a width of UFO 1, and no weight. -/
example : readInfo ⟨fractionCodec, true⟩ 1 true [(c!"fontStyle", .float (.fin 33)), (c!"widthName", .str c!"Condensed"), (c!"msCharSet", .int 77), (c!"weightValue", .int (-1)),
      (c!"unitsPerEm", .float (.fin 1000)), (c!"other", .int 3)] =
    .ok [(c!"styleMapStyleName", .str c!"bold italic"), (c!"unitsPerEm", .int 1000), (c!"openTypeOS2WidthClass", .int 3), (c!"postscriptWindowsCharacterSet", .int 4)] ∧
    Since1 c!"fontStyle" (.float (.fin 33)) (.str c!"bold italic") ∧ Since1 c!"msCharSet" (.int 77) (.int 4) ∧ NoWeight c!"weightValue" (.int (-1)) := by
  refine ⟨by decide +kernel, .style (i := 33) (by decide) (.inr rfl), .characterSet (n := 3) (c := 77) rfl (.inl ⟨77, .inl rfl, rfl⟩), rfl, .inl ⟨-1, .inl rfl, rfl⟩⟩

/-- A value of UFO 2 that stands for no legal value, and one that does. -/
example : (readInfo ⟨fractionCodec, true⟩ 2 true [(c!"openTypeOS2WinAscent", .float (.fin (-5 / 2)))]).toOption = some [(c!"openTypeOS2WinAscent", .int 2)] ∧
    (readInfo ⟨fractionCodec, true⟩ 2 true [(c!"unitsPerEm", .int (-1))]).toOption = none ∧
    (writeInfo ⟨fractionCodec, true⟩ 2 true (Dict.get? [(c!"unitsPerEm", .int (-1)), (c!"guidelines", .int 3)])).toOption = some [(c!"unitsPerEm", .int (-1))] ∧
    (writeInfo ⟨fractionCodec, true⟩ 3 true (Dict.get? [(c!"unitsPerEm", .int (-1)), (c!"guidelines", .int 3)])).toOption = none ∧
    (writeInfo ⟨fractionCodec, true⟩ 1 true (Dict.get? [(c!"openTypeOS2WidthClass", .int 3), (c!"versionMinor", .int (-3))])).toOption =
      some [(c!"versionMinor", .int (-3)), (c!"widthName", .str c!"Condensed")] := by decide +kernel

end Verif.Props
