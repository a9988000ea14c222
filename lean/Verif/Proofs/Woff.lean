import Verif.Proofs.InfoValues
import Verif.Spec.Woff
/-! Lemmas about the WOFF metadata validators. -/
namespace Verif.Validators
open Verif Verif.Spec.Validators Verif.Spec.Woff

theorem _root_.Verif.Spec.Woff.Keyed.nodup {d : List (PyVal × PyVal)} (h : Keyed (.dict d)) : (d.map Prod.fst).Nodup := by
  cases h with
  | dict _ h _ => exact h
  | atom _ h => cases h

theorem _root_.Verif.Spec.Woff.Keyed.value {d : List (PyVal × PyVal)} (h : Keyed (.dict d)) {p : PyVal × PyVal} (hp : p ∈ d) : Keyed p.2 := by
  cases h with
  | dict _ _ h => exact h p hp
  | atom _ h => cases h

theorem _root_.Verif.Spec.Woff.Keyed.item {l : List PyVal} (h : Keyed (.list l)) {x : PyVal} (hx : x ∈ l) : Keyed x := by
  cases h with
  | list _ h => exact h x hx
  | atom _ h => cases h

theorem _root_.Verif.Spec.Woff.NoNone.value {d : List (PyVal × PyVal)} (h : NoNone (.dict d)) {p : PyVal × PyVal} (hp : p ∈ d) : NoNone p.2 := by
  cases h with
  | dict _ h => exact h p hp
  | atom _ h => cases h

theorem _root_.Verif.Spec.Woff.NoNone.item {l : List PyVal} (h : NoNone (.list l)) {x : PyVal} (hx : x ∈ l) : NoNone x := by
  cases h with
  | list _ h => exact h x hx
  | atom _ h => cases h

theorem _root_.Verif.Spec.Woff.NoNone.ne {v : PyVal} (h : NoNone v) : v ≠ .none := by
  rintro rfl
  cases h with
  | atom _ _ h => exact h rfl

theorem isList_iff' {v : PyVal} : isList v = true ↔ IsListVal v := isList_iff
theorem isInt_iff' {v : PyVal} : isInt v = true ↔ IsIntVal v := isInt_iff

theorem dirOk_iff {d : List (PyVal × PyVal)} (hd : (d.map Prod.fst).Nodup) : dirOk (.dict d) = true ↔ Directed d := by
  rw [dirOk]
  rcases hg : get d c!"dir" with _ | v
  · simp only [true_iff]
    intro v hv
    rw [get_of_mem hd hv] at hg; cases hg
  · simp only [Bool.or_eq_true, pyEq_str]
    have hm := mem_of_get hg
    constructor
    · intro h w hw
      rwa [field_unique hd hw hm]
    · exact fun h => h v hm

/-- A dictionary check followed by a direction check. -/
theorem directed_iff {proto : Prototype} {required optional : List (Str × (PyVal → Prop))} (hr : Reflects proto required optional) {v : PyVal} (hk : Keyed v) :
    (if !genericDictValidator v proto then false else dirOk v) = true ↔ ∃ d, v = .dict d ∧ HasFields required optional d ∧ Directed d := by
  by_cases h : genericDictValidator v proto = true
  · simp only [h, Bool.not_true, Bool.false_eq_true, if_false]
    obtain ⟨d, rfl, hf⟩ := (genericDict_iff hr).1 h
    rw [dirOk_iff hk.nodup]
    simp [hf]
  · simp only [h, Bool.not_false, if_true, Bool.false_eq_true, false_iff]
    rintro ⟨d, rfl, hf, -⟩
    exact h ((genericDict_iff hr).2 ⟨d, rfl, hf⟩)

macro "reflects" : tactic => `(tactic| (refine ⟨by decide, ?_, ?_, ?_, ?_⟩ <;> simp [isInt_iff', isList_iff', isStr_iff, isNumber_iff]))

theorem text_iff {v : PyVal} (hk : Keyed v) : woffText v = true ↔ TextRecord v := by
  unfold woffText
  exact directed_iff (by reflects) hk

theorem vendor_iff {v : PyVal} (hk : Keyed v) : woffVendor v = true ↔ Vendor v := by
  unfold woffVendor
  exact directed_iff (by reflects) hk

theorem licensee_iff {v : PyVal} (hk : Keyed v) : woffLicensee v = true ↔ Licensee v := by
  unfold woffLicensee
  exact directed_iff (by reflects) hk

theorem uniqueID_iff {v : PyVal} : woffUniqueID v = true ↔ UniqueID v := by
  unfold woffUniqueID
  exact genericDict_iff (by reflects)

theorem nameRecords_iff {v : PyVal} : nameRecordsValidator v = true ↔ ∃ l, v = .list l ∧ ∀ r ∈ l, NameRecord r := by
  unfold nameRecordsValidator
  split
  · next l =>
    rw [List.all_eq_true]
    simp only [PyVal.list.injEq, exists_eq_left']
    refine forall_congr' fun r => imp_congr_right fun _ => ?_
    exact genericDict_iff (by unfold nameRecordPrototype; reflects)
  · next h =>
    simp only [Bool.false_eq_true, false_iff]
    rintro ⟨l, rfl, -⟩
    exact h l rfl

theorem credit_iff {v : PyVal} (hk : Keyed v) :
    (genericDictValidator v [(c!"name", isStr, true), (c!"url", isStr, false), (c!"role", isStr, false), (c!"dir", isStr, false), (c!"class", isStr, false)] && dirOk v) = true ↔ Credit v := by
  have h := directed_iff (proto := [(c!"name", isStr, true), (c!"url", isStr, false), (c!"role", isStr, false), (c!"dir", isStr, false), (c!"class", isStr, false)])
    (required := [(c!"name", IsString)]) (optional := [(c!"url", IsString), (c!"role", IsString), (c!"dir", IsString), (c!"class", IsString)]) (by reflects) hk
  unfold Credit
  rw [← h]
  cases genericDictValidator v _ <;> simp

theorem items_of_mem {d : List (PyVal × PyVal)} (hd : (d.map Prod.fst).Nodup) {k : Str} {l : List PyVal} (h : (PyVal.str k, .list l) ∈ d) : items (.dict d) k = .ok l := by
  simp only [items, get_of_mem hd h]

theorem itemsIf_of_mem {d : List (PyVal × PyVal)} (hd : (d.map Prod.fst).Nodup) {k : Str} {l : List PyVal} (h : (PyVal.str k, .list l) ∈ d) : itemsIf (.dict d) k = .ok l := by
  simp only [itemsIf, get_of_mem hd h]

theorem itemsIf_absent {d : List (PyVal × PyVal)} {k : Str} (h : ∀ v, (PyVal.str k, v) ∉ d) : itemsIf (.dict d) k = .ok [] := by
  have : get d k = none := by rw [← Option.isNone_iff_eq_none, get_isNone]; rintro ⟨v, hv⟩; exact h v hv
  simp only [itemsIf, this]

/-- A required list field has a list. -/
theorem required_list {required optional : List (Str × (PyVal → Prop))} {d : List (PyVal × PyVal)} (h : HasFields required optional d) {k : Str}
    (hk : (k, IsListVal) ∈ required) (h1 : ∀ r ∈ required, r.1 = k → r.2 = IsListVal) (h2 : ∀ r ∈ optional, r.1 ≠ k) : ∃ l, (PyVal.str k, .list l) ∈ d := by
  obtain ⟨v, hv⟩ := h.present _ hk
  rcases h.typed _ hv with ⟨r, hr, e, ht⟩ | ⟨r, hr, e, -⟩
  · rw [h1 r hr (by simpa using e.symm)] at ht
    obtain ⟨l, rfl⟩ := ht
    exact ⟨l, hv⟩
  · exact absurd (by simpa using e.symm) (h2 r hr)

/-- An optional list field is absent, `None` or a list. -/
theorem optional_list {required optional : List (Str × (PyVal → Prop))} {d : List (PyVal × PyVal)} (h : HasFields required optional d) {k : Str}
    (h1 : ∀ r ∈ required, r.1 ≠ k) (h2 : ∀ r ∈ optional, r.1 = k → r.2 = IsListVal) :
    (∀ v, (PyVal.str k, v) ∉ d) ∨ (PyVal.str k, .none) ∈ d ∨ ∃ l, (PyVal.str k, .list l) ∈ d := by
  by_cases hex : ∃ v, (PyVal.str k, v) ∈ d
  · obtain ⟨v, hv⟩ := hex
    rcases h.typed _ hv with ⟨r, hr, e, -⟩ | ⟨r, hr, e, ht⟩
    · exact absurd (by simpa using e.symm) (h1 r hr)
    · rcases ht with ht | ht
      · right; left; rw [← ht]; exact hv
      · rw [h2 r hr (by simpa using e.symm)] at ht
        obtain ⟨l, hl⟩ := ht
        right; right; exact ⟨l, hl ▸ hv⟩
  · left; intro v hv; exact hex ⟨v, hv⟩

theorem listOf_iff {P : PyVal → Prop} {d : List (PyVal × PyVal)} (hd : (d.map Prod.fst).Nodup) {k : Str} {l : List PyVal} (h : (PyVal.str k, .list l) ∈ d) :
    ListOf P d k ↔ ∀ x ∈ l, P x := by
  constructor
  · intro hl
    obtain ⟨l', e, h'⟩ := hl _ h
    rw [PyVal.list.injEq] at e
    subst e
    exact h'
  · intro hl v hv
    exact ⟨l, field_unique hd hv h, hl⟩

theorem all_texts {l : List PyVal} (hk : ∀ x ∈ l, Keyed x) : l.all woffText = true ↔ ∀ x ∈ l, TextRecord x := by
  rw [List.all_eq_true]
  exact forall_congr' fun x => ⟨fun h hx => (text_iff (hk x hx)).1 (h hx), fun h hx => (text_iff (hk x hx)).2 (h hx)⟩

theorem credits_iff {v : PyVal} (hk : Keyed v) : woffCredits v = .ok true ↔ Credits v := by
  unfold woffCredits
  have hr : Reflects [(c!"credits", isList, true)] [(c!"credits", IsListVal)] [] := by reflects
  by_cases h : genericDictValidator v [(c!"credits", isList, true)] = true
  · simp only [h, Bool.not_true, Bool.false_eq_true, if_false]
    obtain ⟨d, rfl, hf⟩ := (genericDict_iff hr).1 h
    obtain ⟨l, hl⟩ := required_list hf (k := c!"credits") (by simp) (by simp) (by simp)
    simp only [items_of_mem hk.nodup hl]
    have hkl : ∀ x ∈ l, Keyed x := fun x hx => (hk.value hl).item hx
    have hC : Credits (.dict d) ↔ (∀ x ∈ l, Credit x) ∧ l ≠ [] := by
      unfold Credits
      simp only [PyVal.dict.injEq, exists_eq_left', hf, true_and, listOf_iff hk.nodup hl]
      refine and_congr_right fun _ => not_congr ⟨fun h => ?_, fun h => h ▸ hl⟩
      have := field_unique hk.nodup hl h
      simpa using this
    rw [hC]
    by_cases hne : l = []
    · simp [hne]
    · rw [if_neg (by simp [hne]), Except.ok.injEq, List.all_eq_true]
      simp only [ne_eq, hne, not_false_iff, and_true]
      exact forall_congr' fun x => ⟨fun h hx => (credit_iff (hkl x hx)).1 (h hx), fun h hx => (credit_iff (hkl x hx)).2 (h hx)⟩
  · simp only [h, Bool.not_false, if_true, Except.ok.injEq, Bool.false_eq_true, false_iff]
    rintro ⟨d, rfl, hf, -⟩
    exact h ((genericDict_iff hr).2 ⟨d, rfl, hf⟩)

/-- A dictionary check and a required list of texts. -/
theorem requiredTexts_iff {proto : Prototype} {required optional : List (Str × (PyVal → Prop))} (hr : Reflects proto required optional) {v : PyVal} (hk : Keyed v)
    (h0 : (c!"text", IsListVal) ∈ required) (h1 : ∀ r ∈ required, r.1 = c!"text" → r.2 = IsListVal) (h2 : ∀ r ∈ optional, r.1 ≠ c!"text") :
    (if !genericDictValidator v proto then .ok false else (items v c!"text").map fun l => l.all woffText) = (.ok true : Except Exc Bool) ↔
      ∃ d, v = .dict d ∧ HasFields required optional d ∧ ListOf TextRecord d c!"text" := by
  by_cases h : genericDictValidator v proto = true
  · simp only [h, Bool.not_true, Bool.false_eq_true, if_false]
    obtain ⟨d, rfl, hf⟩ := (genericDict_iff hr).1 h
    obtain ⟨l, hl⟩ := required_list hf (k := c!"text") h0 h1 h2
    simp only [items_of_mem hk.nodup hl, Except.map, Except.ok.injEq, all_texts fun x hx => (hk.value hl).item hx, PyVal.dict.injEq, exists_eq_left', hf, true_and,
      listOf_iff hk.nodup hl]
  · simp only [h, Bool.not_false, if_true, Except.ok.injEq, Bool.false_eq_true, false_iff]
    rintro ⟨d, rfl, hf, -⟩
    exact h ((genericDict_iff hr).2 ⟨d, rfl, hf⟩)

theorem description_iff {v : PyVal} (hk : Keyed v) : woffDescription v = .ok true ↔ Description v := by
  unfold woffDescription
  exact requiredTexts_iff (by reflects) hk (by simp) (by simp) (by simp)

theorem texts_iff {v : PyVal} (hk : Keyed v) : woffTexts v = .ok true ↔ Texts v := by
  unfold woffTexts
  exact requiredTexts_iff (by reflects) hk (by simp) (by simp) (by simp)

theorem license_iff {v : PyVal} (hk : Keyed v) : woffLicense v = .ok true ↔ License v := by
  unfold woffLicense
  have hr : Reflects [(c!"url", isStr, false), (c!"text", isList, false), (c!"id", isStr, false)] [] [(c!"url", IsString), (c!"text", IsListVal), (c!"id", IsString)] := by reflects
  by_cases h : genericDictValidator v [(c!"url", isStr, false), (c!"text", isList, false), (c!"id", isStr, false)] = true
  · simp only [h, Bool.not_true, Bool.false_eq_true, if_false]
    obtain ⟨d, rfl, hf⟩ := (genericDict_iff hr).1 h
    rw [License]
    simp only [PyVal.dict.injEq, exists_eq_left', hf, true_and]
    rcases optional_list hf (k := c!"text") (by simp) (by simp) with ha | hn | ⟨l, hl⟩
    · simp only [itemsIf_absent ha, Except.map, List.all_nil, true_iff]
      exact fun v hv => absurd hv (ha v)
    · simp only [itemsIf, get_of_mem hk.nodup hn, Except.map, reduceCtorEq, false_iff]
      intro hl
      obtain ⟨l, e, -⟩ := hl _ hn
      cases e
    · simp only [itemsIf_of_mem hk.nodup hl, Except.map, Except.ok.injEq, all_texts fun x hx => (hk.value hl).item hx, listOf_iff hk.nodup hl]
  · simp only [h, Bool.not_false, if_true, Except.ok.injEq, Bool.false_eq_true, false_iff]
    rintro ⟨d, rfl, hf, -⟩
    exact h ((genericDict_iff hr).2 ⟨d, rfl, hf⟩)

theorem extensionItem_reflects : Reflects [(c!"id", isStr, false), (c!"names", isList, true), (c!"values", isList, true)]
    [(c!"names", IsListVal), (c!"values", IsListVal)] [(c!"id", IsString)] := by reflects

theorem extensionItem_iff {v : PyVal} (hk : Keyed v) : woffExtensionItem v = .ok true ↔ ExtensionItem v := by
  unfold woffExtensionItem
  by_cases h : genericDictValidator v [(c!"id", isStr, false), (c!"names", isList, true), (c!"values", isList, true)] = true
  · simp only [h, Bool.not_true, Bool.false_eq_true, if_false]
    obtain ⟨d, rfl, hf⟩ := (genericDict_iff extensionItem_reflects).1 h
    obtain ⟨l, hl⟩ := required_list hf (k := c!"names") (by simp) (by simp) (by simp)
    obtain ⟨m, hm⟩ := required_list hf (k := c!"values") (by simp) (by simp) (by simp)
    rw [ExtensionItem]
    simp only [PyVal.dict.injEq, exists_eq_left', hf, true_and, items_of_mem hk.nodup hl, items_of_mem hk.nodup hm, listOf_iff hk.nodup hl, listOf_iff hk.nodup hm,
      ← all_texts fun x hx => (hk.value hl).item hx, ← all_texts fun x hx => (hk.value hm).item hx]
    cases l.all woffText <;> simp [Except.map]
  · simp only [h, Bool.not_false, if_true, Except.ok.injEq, Bool.false_eq_true, false_iff]
    rintro ⟨d, rfl, hf, -⟩
    exact h ((genericDict_iff extensionItem_reflects).2 ⟨d, rfl, hf⟩)

theorem allM_iff {f : PyVal → Except Exc Bool} (l : List PyVal) : allM f l = .ok true ↔ ∀ x ∈ l, f x = .ok true := by
  induction l with
  | nil => simp [allM]
  | cons x l ih =>
    rw [allM, List.forall_mem_cons, ← ih]
    rcases f x with e | _ | _ <;> simp

theorem allM_total {f : PyVal → Except Exc Bool} (l : List PyVal) (h : ∀ x ∈ l, ∃ b, f x = .ok b) : ∃ b, allM f l = .ok b := by
  induction l with
  | nil => exact ⟨_, rfl⟩
  | cons x l ih =>
    rw [List.forall_mem_cons] at h
    obtain ⟨b, hb⟩ := h.1
    rw [allM, hb]
    cases b
    · exact ⟨_, rfl⟩
    · exact ih h.2

theorem extension_reflects : Reflects [(c!"names", isList, false), (c!"items", isList, true), (c!"id", isStr, false)]
    [(c!"items", IsListVal)] [(c!"names", IsListVal), (c!"id", IsString)] := by reflects

theorem extension_iff {v : PyVal} (hk : Keyed v) : woffExtension v = .ok true ↔ Extension v := by
  unfold woffExtension
  by_cases h : genericDictValidator v [(c!"names", isList, false), (c!"items", isList, true), (c!"id", isStr, false)] = true
  · simp only [h, Bool.not_true, Bool.false_eq_true, if_false]
    obtain ⟨d, rfl, hf⟩ := (genericDict_iff extension_reflects).1 h
    obtain ⟨m, hm⟩ := required_list hf (k := c!"items") (by simp) (by simp) (by simp)
    rw [Extension]
    have hitems : allM woffExtensionItem m = .ok true ↔ ∀ x ∈ m, ExtensionItem x := by
      rw [allM_iff]
      exact forall_congr' fun x => ⟨fun h hx => (extensionItem_iff ((hk.value hm).item hx)).1 (h hx), fun h hx => (extensionItem_iff ((hk.value hm).item hx)).2 (h hx)⟩
    simp only [PyVal.dict.injEq, exists_eq_left', hf, true_and, items_of_mem hk.nodup hm, listOf_iff hk.nodup hm]
    rw [← hitems]
    rcases optional_list hf (k := c!"names") (by simp) (by simp) with ha | hn | ⟨l, hl⟩
    · simp only [itemsIf_absent ha, List.all_nil, Bool.not_true, Bool.false_eq_true, if_false]
      exact ⟨fun h => ⟨fun v hv => absurd hv (ha v), h⟩, fun h => h.2⟩
    · simp only [itemsIf, get_of_mem hk.nodup hn, reduceCtorEq, false_iff]
      rintro ⟨hl, -⟩
      obtain ⟨l, e, -⟩ := hl _ hn
      cases e
    · simp only [itemsIf_of_mem hk.nodup hl, listOf_iff hk.nodup hl, ← all_texts fun x hx => (hk.value hl).item hx]
      cases l.all woffText <;> simp
  · simp only [h, Bool.not_false, if_true, Except.ok.injEq, Bool.false_eq_true, false_iff]
    rintro ⟨d, rfl, hf, -⟩
    exact h ((genericDict_iff extension_reflects).2 ⟨d, rfl, hf⟩)

theorem extensions_iff {v : PyVal} (hk : Keyed v) : woffExtensions v = .ok true ↔ Extensions v := by
  unfold woffExtensions Extensions
  split
  · simp
  · next l hne =>
    rw [allM_iff]
    simp only [PyVal.list.injEq, exists_eq_left']
    have : l ≠ [] := by rintro rfl; exact hne rfl
    simp only [ne_eq, this, not_false_iff, true_and]
    exact forall_congr' fun x => ⟨fun h hx => (extension_iff (hk.item hx)).1 (h hx), fun h hx => (extension_iff (hk.item hx)).2 (h hx)⟩
  · next h1 h2 =>
    simp only [Except.ok.injEq, Bool.false_eq_true, false_iff]
    rintro ⟨l, rfl, -⟩
    exact h2 l rfl

theorem image_reflects : Reflects imagePrototype [(c!"fileName", IsString)] [(c!"xScale", IsNum), (c!"xyScale", IsNum), (c!"yxScale", IsNum), (c!"yScale", IsNum),
      (c!"xOffset", IsNum), (c!"yOffset", IsNum), (c!"color", IsString)] := by unfold imagePrototype; reflects

theorem image_iff {F : FloatCodec} {v : PyVal} (hk : DictKeys v) : imageValidator F v = true ↔ Image F v := by
  unfold imageValidator
  by_cases h : genericDictValidator v imagePrototype = true
  · simp only [h, Bool.not_true, Bool.false_eq_true, if_false]
    obtain ⟨d, rfl, hf⟩ := (genericDict_iff image_reflects).1 h
    have hd := hk d rfl
    rw [Image]
    simp only [PyVal.dict.injEq, exists_eq_left', hf, true_and]
    have hfn : get d c!"fileName" = some (.str []) ↔ (PyVal.str c!"fileName", .str []) ∈ d := ⟨mem_of_get, get_of_mem hd⟩
    by_cases he : (PyVal.str c!"fileName", PyVal.str []) ∈ d
    · rw [if_pos (hfn.2 he)]; simp [he]
    · rw [if_neg (fun h => he (hfn.1 h)), noneOr_iff hd]
      simp only [color_iff, he, not_false_iff, true_and]
  · simp only [h, Bool.not_false, if_true, Bool.false_eq_true, false_iff]
    rintro ⟨d, rfl, hf, -⟩
    exact h ((genericDict_iff image_reflects).2 ⟨d, rfl, hf⟩)

/-! ### never raising -/

theorem credits_total {v : PyVal} (hk : Keyed v) : ∃ b, woffCredits v = .ok b := by
  unfold woffCredits
  have hr : Reflects [(c!"credits", isList, true)] [(c!"credits", IsListVal)] [] := by reflects
  split
  · exact ⟨_, rfl⟩
  · next h =>
    simp only [Bool.not_eq_true', Bool.not_eq_false] at h
    obtain ⟨d, rfl, hf⟩ := (genericDict_iff hr).1 h
    obtain ⟨l, hl⟩ := required_list hf (k := c!"credits") (by simp) (by simp) (by simp)
    simp only [items_of_mem hk.nodup hl]
    split <;> exact ⟨_, rfl⟩

theorem requiredTexts_total {proto : Prototype} {required optional : List (Str × (PyVal → Prop))} (hr : Reflects proto required optional) {v : PyVal} (hk : Keyed v)
    (h0 : (c!"text", IsListVal) ∈ required) (h1 : ∀ r ∈ required, r.1 = c!"text" → r.2 = IsListVal) (h2 : ∀ r ∈ optional, r.1 ≠ c!"text") :
    ∃ b, (if !genericDictValidator v proto then .ok false else (items v c!"text").map fun l => l.all woffText) = (.ok b : Except Exc Bool) := by
  split
  · exact ⟨_, rfl⟩
  · next h =>
    simp only [Bool.not_eq_true', Bool.not_eq_false] at h
    obtain ⟨d, rfl, hf⟩ := (genericDict_iff hr).1 h
    obtain ⟨l, hl⟩ := required_list hf (k := c!"text") h0 h1 h2
    rw [items_of_mem hk.nodup hl]
    exact ⟨_, rfl⟩

theorem description_total {v : PyVal} (hk : Keyed v) : ∃ b, woffDescription v = .ok b := by
  unfold woffDescription
  exact requiredTexts_total (required := [(c!"text", IsListVal)]) (optional := [(c!"url", IsString)]) (by reflects) hk (by simp) (by simp) (by simp)

theorem texts_total {v : PyVal} (hk : Keyed v) : ∃ b, woffTexts v = .ok b := by
  unfold woffTexts
  exact requiredTexts_total (required := [(c!"text", IsListVal)]) (optional := []) (by reflects) hk (by simp) (by simp) (by simp)

theorem license_total {v : PyVal} (hk : Keyed v) (hn : NoNone v) : ∃ b, woffLicense v = .ok b := by
  unfold woffLicense
  have hr : Reflects [(c!"url", isStr, false), (c!"text", isList, false), (c!"id", isStr, false)] [] [(c!"url", IsString), (c!"text", IsListVal), (c!"id", IsString)] := by reflects
  split
  · exact ⟨_, rfl⟩
  · next h =>
    simp only [Bool.not_eq_true', Bool.not_eq_false] at h
    obtain ⟨d, rfl, hf⟩ := (genericDict_iff hr).1 h
    rcases optional_list hf (k := c!"text") (by simp) (by simp) with ha | hn' | ⟨l, hl⟩
    · rw [itemsIf_absent ha]; exact ⟨_, rfl⟩
    · exact absurd rfl (hn.value hn').ne
    · rw [itemsIf_of_mem hk.nodup hl]; exact ⟨_, rfl⟩

theorem extensionItem_total {v : PyVal} (hk : Keyed v) : ∃ b, woffExtensionItem v = .ok b := by
  unfold woffExtensionItem
  split
  · exact ⟨_, rfl⟩
  · next h =>
    simp only [Bool.not_eq_true', Bool.not_eq_false] at h
    obtain ⟨d, rfl, hf⟩ := (genericDict_iff extensionItem_reflects).1 h
    obtain ⟨l, hl⟩ := required_list hf (k := c!"names") (by simp) (by simp) (by simp)
    obtain ⟨m, hm⟩ := required_list hf (k := c!"values") (by simp) (by simp) (by simp)
    simp only [items_of_mem hk.nodup hl, items_of_mem hk.nodup hm]
    split <;> exact ⟨_, rfl⟩

theorem extension_total {v : PyVal} (hk : Keyed v) (hn : NoNone v) : ∃ b, woffExtension v = .ok b := by
  unfold woffExtension
  split
  · exact ⟨_, rfl⟩
  · next h =>
    simp only [Bool.not_eq_true', Bool.not_eq_false] at h
    obtain ⟨d, rfl, hf⟩ := (genericDict_iff extension_reflects).1 h
    obtain ⟨m, hm⟩ := required_list hf (k := c!"items") (by simp) (by simp) (by simp)
    have hall := allM_total (f := woffExtensionItem) m fun x hx => extensionItem_total ((hk.value hm).item hx)
    simp only [items_of_mem hk.nodup hm]
    rcases optional_list hf (k := c!"names") (by simp) (by simp) with ha | hn' | ⟨l, hl⟩
    · simp only [itemsIf_absent ha]
      split
      · exact ⟨_, rfl⟩
      · exact hall
    · exact absurd rfl (hn.value hn').ne
    · simp only [itemsIf_of_mem hk.nodup hl]
      split
      · exact ⟨_, rfl⟩
      · exact hall

theorem extensions_total {v : PyVal} (hk : Keyed v) (hn : NoNone v) : ∃ b, woffExtensions v = .ok b := by
  unfold woffExtensions
  split
  · exact ⟨_, rfl⟩
  · next l _ => exact allM_total l fun x hx => extension_total (hk.item hx) (hn.item hx)
  · exact ⟨_, rfl⟩

end Verif.Validators
