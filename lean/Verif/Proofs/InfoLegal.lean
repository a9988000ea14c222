import Verif.Proofs.FontInfo1
import Verif.Proofs.HeadCreated
import Verif.Proofs.Numerals
import Verif.Props.Validators
import Verif.Spec.InfoLegal
/-! Font info: what the attributes may be. -/
namespace Verif.FontInfo
open Verif Verif.Validators Verif.Spec.Validators Verif.Spec.Woff Verif.Spec.FontInfo Verif.Spec.InfoLegal Verif.Spec.Numerals

/-! ### Dates -/

theorem monthMaxDay_iff {py38 : Bool} {y m d : Int} (hm : 1 ≤ m ∧ m ≤ 12) :
    (∃ mx, monthMaxDay py38 y m = .ok mx ∧ 1 ≤ d ∧ d ≤ mx) ↔ Day y m d ∧ (py38 = false → 1 ≤ y) := by
  have hl : isLeap y = true ↔ 4 ∣ y ∧ (100 ∣ y → 400 ∣ y) := by
    unfold isLeap
    simp only [Bool.and_eq_true, Bool.or_eq_true, beq_iff_eq, bne_iff_ne]
    omega
  have hy : (!py38 && decide (y < 1)) = true ↔ ¬ (py38 = false → 1 ≤ y) := by cases py38 <;> simp
  unfold monthMaxDay
  by_cases hpy : py38 = false → 1 ≤ y
  · rw [if_neg (by rw [hy]; exact not_not.2 hpy)]
    simp only [Except.ok.injEq, exists_eq_left']
    rw [and_iff_left hpy]
    by_cases h2 : m = 2
    · rw [if_pos h2]
      constructor
      · rintro ⟨h1, h3⟩
        refine ⟨hm, ⟨h1, ?_⟩, fun h => ?_, fun _ => ?_⟩
        · split at h3 <;> omega
        · subst h2; simp at h
        · split at h3
          · next hh => exact ⟨h3, fun _ => hl.1 hh⟩
          · exact ⟨by omega, fun h => by omega⟩
      · intro h
        refine ⟨h.day.1, ?_⟩
        obtain ⟨h3, h4⟩ := h.february h2
        split
        · exact h3
        · next hh =>
          have : d ≠ 29 := fun h => hh (hl.2 (h4 h))
          omega
    · rw [if_neg h2]
      constructor
      · rintro ⟨h1, h3⟩
        refine ⟨hm, ⟨h1, ?_⟩, fun h => ?_, fun h => absurd h h2⟩
        · split at h3 <;> omega
        · rw [if_pos (by simpa using h)] at h3
          exact h3
      · intro h
        refine ⟨h.day.1, ?_⟩
        split
        · next hh => exact h.short (by simpa using hh)
        · exact h.day.2
  · rw [if_pos (hy.2 hpy)]
    simp [hpy]

/-- The characters of a number. -/
theorem literal_chars {s : Str} {i : Int} (h : Literal 10 s i) : ∀ c ∈ s, c ∈ c!"0123456789_+-" := by
  have hd : ∀ (s : Str) n, Unsigned 10 s n → ∀ c ∈ s, c ∈ c!"0123456789_+-" := by
    intro s n h c hc
    rcases h with ⟨⟨-, ds, hds, -⟩, -⟩ | ⟨h, -⟩
    · by_cases hu : c = '_'
      · subst hu; decide
      · obtain ⟨x, -, hlt, hx⟩ := forall₂_left hds (List.mem_filter.2 ⟨hc, by simpa using hu⟩)
        have : x = 0 ∨ x = 1 ∨ x = 2 ∨ x = 3 ∨ x = 4 ∨ x = 5 ∨ x = 6 ∨ x = 7 ∨ x = 8 ∨ x = 9 := by omega
        rcases this with rfl | rfl | rfl | rfl | rfl | rfl | rfl | rfl | rfl | rfl <;> simp at hx <;> subst hx <;> decide
    · exact absurd h (by decide)
  obtain ⟨n, ⟨h, -⟩ | ⟨t, rfl, h, -⟩ | ⟨t, rfl, h, -⟩⟩ := h
  · exact hd s n h
  · intro c hc
    rcases List.mem_cons.1 hc with rfl | hc
    · decide
    · exact hd t n h c hc
  · intro c hc
    rcases List.mem_cons.1 hc with rfl | hc
    · decide
    · exact hd t n h c hc

theorem says_no_sep {s : Str} {i : Int} (h : Says 10 s i) : '/' ∉ s ∧ ':' ∉ s := by
  obtain ⟨w, t, w', rfl, hw, hw', hl⟩ := h
  have key : ∀ c : Char, ¬ White c → c ∉ c!"0123456789_+-" → c ∉ w ++ t ++ w' := by
    intro c h1 h2 hc
    simp only [List.mem_append] at hc
    rcases hc with (hc | hc) | hc
    exacts [h1 (hw c hc), h2 (literal_chars hl c hc), h1 (hw' c hc)]
  exact ⟨key _ (by unfold White; decide) (by decide), key _ (by unfold White; decide) (by decide)⟩

theorem created_iff {py38 : Bool} {v : PyVal} : headCreatedValidator py38 v = .ok true ↔ ∃ s, v = .str s ∧ Created py38 s := by
  constructor
  · intro h
    obtain ⟨ys, ms, ds, hs, mis, ss, rfl, ⟨⟨l1, l2, l3⟩, y, m, d, mx, hy, hm, hd, m1, m2, hmx, d1, d2⟩, ⟨⟨l4, l5, l6⟩, hh, mi, sec, hhh, hmi, hsec, r1, r2, r3, r4, r5, r6⟩, hsp, -, -⟩ :=
      headCreated_parts h
    simp only [List.mem_append, not_or] at hsp
    obtain ⟨⟨⟨⟨⟨n1, n2⟩, n3⟩, n4⟩, n5⟩, n6⟩ := hsp
    obtain ⟨hday, hpy⟩ := (monthMaxDay_iff ⟨m1, m2⟩).1 ⟨mx, hmx, d1, d2⟩
    refine ⟨_, rfl, ys, ms, ds, hs, mis, ss, y, m, d, hh, mi, sec, by simp [headText], ⟨l1, n1, pyInt_iff.1 hy⟩, ⟨l2, n2, pyInt_iff.1 hm⟩, ⟨l3, n3, pyInt_iff.1 hd⟩,
      ⟨l4, n4, pyInt_iff.1 hhh⟩, ⟨l5, n5, pyInt_iff.1 hmi⟩, ⟨l6, n6, pyInt_iff.1 hsec⟩, hday, hpy, r1, r2, r3, r4, r5, r6⟩
  · rintro ⟨s, rfl, ys, ms, ds, hs, mis, ss, y, m, d, h, mi, sec, rfl, ⟨l1, n1, s1⟩, ⟨l2, n2, s2⟩, ⟨l3, n3, s3⟩, ⟨l4, n4, s4⟩, ⟨l5, n5, s5⟩, ⟨l6, n6, s6⟩, hday, hpy, r⟩
    obtain ⟨mx, hmx, d1, d2⟩ := (monthMaxDay_iff hday.month).2 ⟨hday, hpy⟩
    have := headCreated_of_parts (py38 := py38) ⟨⟨l1, l2, l3⟩, y, m, d, mx, pyInt_iff.2 s1, pyInt_iff.2 s2, pyInt_iff.2 s3, hday.month.1, hday.month.2, hmx, d1, d2⟩
      ⟨⟨l4, l5, l6⟩, h, mi, sec, pyInt_iff.2 s4, pyInt_iff.2 s5, pyInt_iff.2 s6, r⟩ ⟨n1, n2, n3, n4, n5, n6⟩ ⟨(says_no_sep s1).1, (says_no_sep s2).1, (says_no_sep s3).1⟩
      ⟨(says_no_sep s4).2, (says_no_sep s5).2, (says_no_sep s6).2⟩
    simpa [headText] using this

/-! ### Kinds -/

theorem integersOf_iff {v : PyVal} {valid : List Int} {P : Int → Prop} (h : ∀ i, i ∈ valid ↔ P i) : genericIntListValidator v valid = .ok true ↔ IntegersOf P v := by
  rw [intList_iff]
  simp only [IntegersOf, h, and_comm]

theorem nonNegative_iff {v : PyVal} : genericNonNegativeNumberValidator v = true ↔ ∃ f, NumIs v f ∧ NonNegative f := by
  have hf : ∀ f : Flt, fltLt f (.fin 0) = false ↔ NonNegative f := by
    intro f
    cases f with
    | nan => simp [fltLt, NonNegative]
    | inf n => cases n <;> simp [fltLt, NonNegative]
    | fin q => simp [fltLt, NonNegative]
  rw [nonNegNumber_iff]
  constructor
  · rintro ⟨h, h'⟩
    obtain ⟨f, hv⟩ := numIs_of_isNum h
    exact ⟨f, hv, (hf f).1 (h' f hv)⟩
  · rintro ⟨f, hv, h⟩
    refine ⟨?_, fun g hg => ?_⟩
    · rcases hv with ⟨i, hi, -⟩ | rfl
      exacts [.inl ⟨i, hi⟩, .inr ⟨_, rfl⟩]
    · rw [numIs_unique hg hv]; exact (hf f).2 h

theorem keyed_dicts {v : PyVal} (hk : Keyed v) : ∀ l, v = .list l → ∀ e ∈ l, DictKeys e := by
  rintro l rfl e he
  have : Keyed e := by
    cases hk with
    | list _ h => exact h e he
    | atom _ h => cases h
  rintro d rfl
  cases this with
  | dict _ h _ => exact h
  | atom _ h => cases h

/-! ### The tables -/

/-- Which attributes have which kind, for the kinds of both versions. -/
def Shared (a : Str) : Kind → Prop
  | .str => a ∈ strings
  | .bool => a ∈ booleans
  | .headFlags => a = c!"openTypeHeadFlags"
  | .selection => a = c!"openTypeOS2Selection"
  | .unicodeRanges => a = c!"openTypeOS2UnicodeRanges"
  | .codePageRanges => a = c!"openTypeOS2CodePageRanges"
  | .os2Type => a = c!"openTypeOS2Type"
  | .styleMap => a = c!"styleMapStyleName"
  | .headCreated => a = c!"openTypeHeadCreated"
  | .widthClass => a = c!"openTypeOS2WidthClass"
  | .weightClass => a = c!"openTypeOS2WeightClass"
  | .familyClass => a = c!"openTypeOS2FamilyClass"
  | .blues => a ∈ [c!"postscriptBlueValues", c!"postscriptFamilyBlues"]
  | .otherBlues => a ∈ [c!"postscriptOtherBlues", c!"postscriptFamilyOtherBlues"]
  | .stems => a ∈ [c!"postscriptStemSnapH", c!"postscriptStemSnapV"]
  | .characterSet => a = c!"postscriptWindowsCharacterSet"
  | _ => False

instance (a : Str) (k : Kind) : Decidable (Shared a k) := by cases k <;> unfold Shared <;> infer_instance

/-- Which attributes have which kind in UFO 2. -/
def Has2 (a : Str) : Kind → Prop
  | .int => a ∈ integers ∨ a = c!"versionMinor"
  | .num => a ∈ numbers ∨ a ∈ c!"unitsPerEm" :: integerSince3 ++ nonNegativeIntegerSince3
  | .panose2 => a = c!"openTypeOS2Panose"
  | k => Shared a k

instance (a : Str) (k : Kind) : Decidable (Has2 a k) := by cases k <;> unfold Has2 <;> infer_instance

/-- Which attributes have which kind in UFO 3. -/
def Has3 (a : Str) : Kind → Prop
  | .int => a ∈ integers ∨ a ∈ integerSince3
  | .num => a ∈ numbers
  | .nonNegInt => a ∈ [c!"versionMinor", c!"woffMajorVersion", c!"woffMinorVersion"]
  | .nonNegNum => a ∈ c!"unitsPerEm" :: nonNegativeIntegerSince3
  | .panose3 => a = c!"openTypeOS2Panose"
  | .gasp => a = c!"openTypeGaspRangeRecords"
  | .nameRecords => a = c!"openTypeNameRecords"
  | .woffUniqueID => a = c!"woffMetadataUniqueID"
  | .woffVendor => a = c!"woffMetadataVendor"
  | .woffCredits => a = c!"woffMetadataCredits"
  | .woffDescription => a = c!"woffMetadataDescription"
  | .woffLicense => a = c!"woffMetadataLicense"
  | .woffTexts => a ∈ [c!"woffMetadataCopyright", c!"woffMetadataTrademark"]
  | .woffLicensee => a = c!"woffMetadataLicensee"
  | .woffExtensions => a = c!"woffMetadataExtensions"
  | .guidelines => a = c!"guidelines"
  | k => Shared a k

instance (a : Str) (k : Kind) : Decidable (Has3 a k) := by cases k <;> unfold Has3 <;> infer_instance

theorem table2_has : ∀ p ∈ table2, Has2 p.1 p.2 := by decide +kernel
theorem table3_has : ∀ p ∈ table3, Has3 p.1 p.2 := by decide +kernel
theorem attributes2_iff : (∀ a ∈ attributes2, a ∈ Dict.keys table2) ∧ ∀ a ∈ Dict.keys table2, a ∈ attributes2 := by decide +kernel
theorem attributes3_iff : (∀ a ∈ attributes3, a ∈ Dict.keys table3) ∧ ∀ a ∈ Dict.keys table3, a ∈ attributes3 := by decide +kernel

/-- The kinds of the attributes of both versions. -/
def sharedKinds : List (List Str × Kind) :=
  [(strings, .str), (integers, .int), (numbers, .num), (booleans, .bool), ([c!"styleMapStyleName"], .styleMap), ([c!"openTypeHeadCreated"], .headCreated),
   ([c!"openTypeHeadFlags"], .headFlags), ([c!"openTypeOS2WidthClass"], .widthClass), ([c!"openTypeOS2WeightClass"], .weightClass), ([c!"openTypeOS2Selection"], .selection),
   ([c!"openTypeOS2FamilyClass"], .familyClass), ([c!"openTypeOS2UnicodeRanges"], .unicodeRanges), ([c!"openTypeOS2CodePageRanges"], .codePageRanges),
   ([c!"openTypeOS2Type"], .os2Type), ([c!"postscriptBlueValues", c!"postscriptFamilyBlues"], .blues), ([c!"postscriptOtherBlues", c!"postscriptFamilyOtherBlues"], .otherBlues),
   ([c!"postscriptStemSnapH", c!"postscriptStemSnapV"], .stems), ([c!"postscriptWindowsCharacterSet"], .characterSet)]

theorem shared2 : ∀ p ∈ sharedKinds, ∀ a ∈ p.1, Dict.get? table2 a = some p.2 := by decide +kernel
theorem shared3 : ∀ p ∈ sharedKinds, ∀ a ∈ p.1, Dict.get? table3 a = some p.2 := by decide +kernel

/-- The kinds that only UFO 3 has. -/
def newKinds : List (List Str × Kind) :=
  [(integerSince3, .int), ([c!"versionMinor", c!"woffMajorVersion", c!"woffMinorVersion"], .nonNegInt), (c!"unitsPerEm" :: nonNegativeIntegerSince3, .nonNegNum),
   ([c!"openTypeOS2Panose"], .panose3), ([c!"openTypeGaspRangeRecords"], .gasp), ([c!"openTypeNameRecords"], .nameRecords), ([c!"woffMetadataUniqueID"], .woffUniqueID),
   ([c!"woffMetadataVendor"], .woffVendor), ([c!"woffMetadataCredits"], .woffCredits), ([c!"woffMetadataDescription"], .woffDescription),
   ([c!"woffMetadataLicense"], .woffLicense), ([c!"woffMetadataCopyright", c!"woffMetadataTrademark"], .woffTexts), ([c!"woffMetadataLicensee"], .woffLicensee),
   ([c!"woffMetadataExtensions"], .woffExtensions), ([c!"guidelines"], .guidelines)]

theorem new3 : ∀ p ∈ newKinds, ∀ a ∈ p.1, Dict.get? table3 a = some p.2 := by decide +kernel

/-- The kinds that only UFO 2 has. -/
def oldKinds : List (List Str × Kind) :=
  [([c!"versionMinor"], .int), (c!"unitsPerEm" :: integerSince3 ++ nonNegativeIntegerSince3, .num), ([c!"openTypeOS2Panose"], .panose2)]

theorem old2 : ∀ p ∈ oldKinds, ∀ a ∈ p.1, Dict.get? table2 a = some p.2 := by decide +kernel

theorem ok_iff {b : Bool} : (Except.ok b : Except Exc Bool) = .ok true ↔ b = true := by simp

theorem flags_iff {v : PyVal} : genericIntListValidator v (upTo 15) = .ok true ↔ IntegersOf (fun i => 0 ≤ i ∧ i ≤ 14) v := integersOf_iff fun i => by rw [mem_upTo]; omega
theorem unicodes_iff {v : PyVal} : genericIntListValidator v (upTo 128) = .ok true ↔ IntegersOf (fun i => 0 ≤ i ∧ i ≤ 127) v := integersOf_iff fun i => by rw [mem_upTo]; omega
theorem pages_iff {v : PyVal} : genericIntListValidator v (upTo 64) = .ok true ↔ IntegersOf (fun i => 0 ≤ i ∧ i ≤ 63) v := integersOf_iff fun i => by rw [mem_upTo]; omega

/-- An attribute of a kind of both versions. -/
theorem legal_of_shared {E : Env} {a : Str} {v : PyVal} {k : Kind} (hs : Shared a k) (h : k.check E v = .ok true) : Legal E.py38 a v := by
  cases k <;> simp only [Shared] at hs <;> simp only [Kind.check, ok_iff] at h
  case str => obtain ⟨s, rfl⟩ := isStr_iff.1 h; exact .string hs
  case bool => obtain ⟨b, rfl⟩ := isBool_iff.1 h; exact .boolean hs
  case headFlags => subst hs; exact .headFlags (flags_iff.1 h)
  case selection => subst hs; exact .selection ((integersOf_iff fun _ => Iff.rfl).1 h)
  case unicodeRanges => subst hs; exact .unicodeRanges (unicodes_iff.1 h)
  case codePageRanges => subst hs; exact .codePageRanges (pages_iff.1 h)
  case os2Type => subst hs; exact .embedding ((integersOf_iff fun _ => Iff.rfl).1 h)
  case styleMap => subst hs; obtain ⟨s, hs, rfl⟩ := styleMap_iff.1 h; exact .styleMap hs
  case headCreated => subst hs; obtain ⟨s, rfl, h'⟩ := created_iff.1 h; exact .created h'
  case widthClass => subst hs; obtain ⟨i, h1, h2, h3⟩ := width_iff.1 h; exact .widthClass h1 h2 h3
  case weightClass => subst hs; obtain ⟨i, h1, h2⟩ := weight_iff.1 h; exact .weightClass h1 h2
  case familyClass => subst hs; obtain ⟨x, y, i, j, h0, h1, h2, h3, h4, h5, h6⟩ := family_iff.1 h; exact .familyClass h0 h1 h2 h3 h4 h5 h6
  case blues => exact .blues hs (blues_iff.1 h)
  case otherBlues => exact .otherBlues hs (blues_iff.1 h)
  case stems => exact .stems hs (stems_iff.1 h)
  case characterSet => subst hs; obtain ⟨i, h1, h2, h3⟩ := characterSet_iff.1 h; exact .characterSet (isNum_rat_of_int h3) h1 h2

theorem Shared.of {t : Dict Str Kind} (ht : ∀ p ∈ sharedKinds, ∀ a ∈ p.1, Dict.get? t a = some p.2) {E : Env} {a : Str} {v : PyVal} (h : Legal E.py38 a v) :
    validateValue E t a v = .ok true := by
  have key : ∀ (l : List Str) (k : Kind), (l, k) ∈ sharedKinds → a ∈ l → k.check E v = .ok true → validateValue E t a v = .ok true :=
    fun l k hm ha hc => by rw [validateValue_of (ht _ hm a ha), hc]
  cases h with
  | string h => exact key _ .str (by simp [sharedKinds]) h rfl
  | integer h hi => exact key _ .int (by simp [sharedKinds]) h (by rw [Kind.check, ok_iff, isInt_iff]; exact ⟨_, hi⟩)
  | number h hn => exact key _ .num (by simp [sharedKinds]) h (by rw [Kind.check, ok_iff, isNumber_iff]; exact hn)
  | boolean h => exact key _ .bool (by simp [sharedKinds]) h rfl
  | styleMap h => exact key [_] .styleMap (by simp [sharedKinds]) List.mem_cons_self (by rw [Kind.check, ok_iff, styleMap_iff]; exact ⟨_, h, rfl⟩)
  | created h => exact key [_] .headCreated (by simp [sharedKinds]) List.mem_cons_self (by rw [Kind.check, created_iff]; exact ⟨_, rfl, h⟩)
  | headFlags h => exact key [_] .headFlags (by simp [sharedKinds]) List.mem_cons_self (flags_iff.2 h)
  | widthClass h h1 h2 => exact key [_] .widthClass (by simp [sharedKinds]) List.mem_cons_self (by rw [Kind.check, ok_iff, width_iff]; exact ⟨_, h, h1, h2⟩)
  | weightClass h h1 => exact key [_] .weightClass (by simp [sharedKinds]) List.mem_cons_self (by rw [Kind.check, ok_iff, weight_iff]; exact ⟨_, h, h1⟩)
  | selection h => exact key [_] .selection (by simp [sharedKinds]) List.mem_cons_self ((integersOf_iff fun _ => Iff.rfl).2 h)
  | familyClass h h1 h2 h3 h4 h5 h6 => exact key [_] .familyClass (by simp [sharedKinds]) List.mem_cons_self (by rw [Kind.check, ok_iff, family_iff]; exact ⟨_, _, _, _, h, h1, h2, h3, h4, h5, h6⟩)
  | unicodeRanges h => exact key [_] .unicodeRanges (by simp [sharedKinds]) List.mem_cons_self (unicodes_iff.2 h)
  | codePageRanges h => exact key [_] .codePageRanges (by simp [sharedKinds]) List.mem_cons_self (pages_iff.2 h)
  | embedding h => exact key [_] .os2Type (by simp [sharedKinds]) List.mem_cons_self ((integersOf_iff fun _ => Iff.rfl).2 h)
  | blues ha h => exact key _ .blues (by simp [sharedKinds]) ha (by rw [Kind.check, ok_iff, blues_iff]; exact h)
  | otherBlues ha h => exact key _ .otherBlues (by simp [sharedKinds]) ha (by rw [Kind.check, ok_iff, blues_iff]; exact h)
  | stems ha h => exact key _ .stems (by simp [sharedKinds]) ha (by rw [Kind.check, ok_iff, stems_iff]; exact h)
  | @characterSet _ i h h1 h2 =>
    refine key [_] .characterSet (by simp [sharedKinds]) List.mem_cons_self ?_
    rw [Kind.check, ok_iff, characterSet_iff]
    refine ⟨i, h1, h2, ?_⟩
    rcases h with ⟨j, hj, e⟩ | h
    · have : i = j := by simpa using e
      subst this; exact .inl hj
    · exact .inr h

/-- The values of UFO 2 that are accepted. -/
theorem value2_iff {E : Env} {a : Str} {v : PyVal} : validateValue E table2 a v = .ok true ↔ Legal2 E.py38 a v := by
  constructor
  · intro h
    obtain ⟨k, hk, hc⟩ := validateValue_ok h
    have hs := kind_of table2_has hk
    have hl : Shared a k → Legal E.py38 a v := fun hs => legal_of_shared hs hc
    cases k
    case int =>
      simp only [Kind.check, ok_iff] at hc
      obtain ⟨i, hi⟩ := isInt_iff.1 hc
      rcases hs with hs | rfl
      exacts [.same (.integer hs hi), .integer hi]
    case num =>
      simp only [Kind.check, ok_iff] at hc
      rcases hs with hs | hs
      exacts [.same (.number hs (isNumber_iff.1 hc)), .number hs (isNumber_iff.1 hc)]
    case panose2 =>
      simp only [Kind.check, ok_iff] at hc
      obtain ⟨l, h1, h2, h3⟩ := panose2_iff.1 hc
      subst hs
      exact .panose h1 h2 h3
    all_goals exact .same (hl hs)
  · intro h
    have key : ∀ (l : List Str) (k : Kind), (l, k) ∈ oldKinds → a ∈ l → k.check E v = .ok true → validateValue E table2 a v = .ok true :=
      fun l k hm ha hc => by rw [validateValue_of (old2 _ hm a ha), hc]
    cases h with
    | same h => exact Shared.of shared2 h
    | integer h => exact key [_] .int (by simp [oldKinds]) List.mem_cons_self (by rw [Kind.check, ok_iff, isInt_iff]; exact ⟨_, h⟩)
    | number ha h => exact key _ .num (by simp [oldKinds]) ha (by rw [Kind.check, ok_iff, isNumber_iff]; exact h)
    | panose h1 h2 h3 => exact key [_] .panose2 (by simp [oldKinds]) List.mem_cons_self (by rw [Kind.check, ok_iff, panose2_iff]; exact ⟨_, h1, h2, h3⟩)

/-- The values of UFO 3 that are accepted. -/
theorem value3_iff {E : Env} {a : Str} {v : PyVal} (hv : Keyed v) : validateValue E table3 a v = .ok true ↔ Legal3 E.F E.py38 a v := by
  obtain ⟨w1, w2, w3, w4, w5, w6, w7, w8⟩ := Props.C68_woff v hv
  have hg := Props.C31_guidelines_partial E.F v (keyed_dicts hv) []
  constructor
  · intro h
    obtain ⟨k, hk, hc⟩ := validateValue_ok h
    have hs := kind_of table3_has hk
    have hl : Shared a k → Legal E.py38 a v := fun hs => legal_of_shared hs hc
    cases k
    case int =>
      simp only [Kind.check, ok_iff] at hc
      obtain ⟨i, hi⟩ := isInt_iff.1 hc
      rcases hs with hs | hs
      exacts [.same (.integer hs hi), .integer hs hi]
    case num =>
      simp only [Kind.check, ok_iff] at hc
      exact .same (.number hs (isNumber_iff.1 hc))
    case panose3 =>
      simp only [Kind.check, ok_iff] at hc
      obtain ⟨l, h1, h2, h3⟩ := panose3_iff.1 hc
      subst hs
      exact .panose h1 h2 h3
    case nonNegInt =>
      simp only [Kind.check, ok_iff] at hc
      obtain ⟨i, h1, h2⟩ := nonNegInt_iff.1 hc
      exact .nonNegativeInteger hs h1 h2
    case nonNegNum =>
      simp only [Kind.check, ok_iff] at hc
      obtain ⟨i, h1, h2⟩ := nonNegative_iff.1 hc
      exact .nonNegativeNumber hs h1 h2
    case gasp =>
      obtain ⟨l, ppems, rfl, h1, h2⟩ := (gasp_iff (keyed_dicts hv)).1 hc
      subst hs
      exact .gasp h1 h2
    case nameRecords =>
      simp only [Kind.check, ok_iff] at hc
      obtain ⟨l, rfl, h1⟩ := nameRecords_iff.1 hc
      subst hs
      exact .names h1
    case woffUniqueID => subst hs; exact .uniqueID (w1.1 (ok_iff.1 hc))
    case woffVendor => subst hs; exact .vendor (w2.1 (ok_iff.1 hc))
    case woffCredits => subst hs; exact .credits (w3.1 hc)
    case woffDescription => subst hs; exact .description (w4.1 hc)
    case woffLicense => subst hs; exact .license (w5.1 hc)
    case woffTexts => exact .texts hs (w6.1 hc)
    case woffLicensee => subst hs; exact .licensee (w7.1 (ok_iff.1 hc))
    case woffExtensions => subst hs; exact .extensions (w8.1 hc)
    case guidelines =>
      subst hs
      simp only [Kind.check, ok_iff] at hc
      obtain ⟨l, rfl, h1, h2, -⟩ := (hg (guidelinesValidator E.F [] v).2).1 (by rw [← hc])
      exact .guidelines h1 h2
    all_goals exact .same (hl hs)
  · intro h
    have key : ∀ (l : List Str) (k : Kind), (l, k) ∈ newKinds → a ∈ l → k.check E v = .ok true → validateValue E table3 a v = .ok true :=
      fun l k hm ha hc => by rw [validateValue_of (new3 _ hm a ha), hc]
    cases h with
    | same h => exact Shared.of shared3 h
    | integer ha h => exact key _ .int (by simp [newKinds]) ha (by rw [Kind.check, ok_iff, isInt_iff]; exact ⟨_, h⟩)
    | nonNegativeInteger ha h h' => exact key _ .nonNegInt (by simp [newKinds]) ha (by rw [Kind.check, ok_iff, nonNegInt_iff]; exact ⟨_, h, h'⟩)
    | nonNegativeNumber ha h h' => exact key _ .nonNegNum (by simp [newKinds]) ha (by rw [Kind.check, ok_iff, nonNegative_iff]; exact ⟨_, h, h'⟩)
    | panose h1 h2 h3 => exact key [_] .panose3 (by simp [newKinds]) List.mem_cons_self (by rw [Kind.check, ok_iff, panose3_iff]; exact ⟨_, h1, h2, h3⟩)
    | gasp h1 h2 => exact key [_] .gasp (by simp [newKinds]) List.mem_cons_self (by rw [Kind.check, gasp_iff (keyed_dicts hv)]; exact ⟨_, _, rfl, h1, h2⟩)
    | names h1 => exact key [_] .nameRecords (by simp [newKinds]) List.mem_cons_self (by rw [Kind.check, ok_iff, nameRecords_iff]; exact ⟨_, rfl, h1⟩)
    | uniqueID h => exact key [_] .woffUniqueID (by simp [newKinds]) List.mem_cons_self (ok_iff.2 (w1.2 h))
    | vendor h => exact key [_] .woffVendor (by simp [newKinds]) List.mem_cons_self (ok_iff.2 (w2.2 h))
    | credits h => exact key [_] .woffCredits (by simp [newKinds]) List.mem_cons_self (w3.2 h)
    | description h => exact key [_] .woffDescription (by simp [newKinds]) List.mem_cons_self (w4.2 h)
    | license h => exact key [_] .woffLicense (by simp [newKinds]) List.mem_cons_self (w5.2 h)
    | texts ha h => exact key _ .woffTexts (by simp [newKinds]) ha (w6.2 h)
    | licensee h => exact key [_] .woffLicensee (by simp [newKinds]) List.mem_cons_self (ok_iff.2 (w7.2 h))
    | extensions h => exact key [_] .woffExtensions (by simp [newKinds]) List.mem_cons_self (w8.2 h)
    | guidelines h1 h2 =>
      refine key [_] .guidelines (by simp [newKinds]) List.mem_cons_self ?_
      rw [Kind.check, ok_iff, (hg _).2 ⟨_, rfl, h1, h2, fun _ _ => List.not_mem_nil, rfl⟩]

end Verif.FontInfo
