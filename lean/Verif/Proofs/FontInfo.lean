import Verif.Model.FontInfo
import Verif.Spec.FontInfo
import Verif.Proofs.Woff
import Verif.Proofs.Dict
import Mathlib.Tactic.Linarith
import Mathlib.Tactic.Tauto
import Mathlib.Tactic.IntervalCases
/-! Font info lemmas. -/
namespace Verif.FontInfo
open Verif Verif.Validators Verif.Spec.Validators Verif.Spec.Woff Verif.Spec.FontInfo

/-! ### Never raising -/

theorem kind_of {P : Str → Kind → Prop} {table : Dict Str Kind} (h : ∀ p ∈ table, P p.1 p.2) {attr : Str} {k : Kind} (hk : Dict.get? table attr = some k) : P attr k :=
  h _ (Dict.mem_of_get? hk)

theorem get_isSome_of_mem {d : List (PyVal × PyVal)} {k : Str} {v : PyVal} (h : (PyVal.str k, v) ∈ d) : ∃ w, get d k = some w := by
  rcases hg : get d k with _ | w
  · exact absurd ⟨v, h⟩ (get_isNone.1 (by rw [hg]; rfl))
  · exact ⟨w, rfl⟩

theorem gaspRecords_total (l : List PyVal) (hl : ∀ r ∈ l, ∀ d b, r = .dict d → (.str c!"rangeGaspBehavior", .list b) ∈ d → ∀ x ∈ b, Atomic x) (acc : List Int) :
    ∃ b, gaspRecords acc l = .ok b := by
  induction l generalizing acc with
  | nil => exact ⟨_, rfl⟩
  | cons r l ih =>
    rw [List.forall_mem_cons] at hl
    unfold gaspRecords
    by_cases hg : genericDictValidator r gaspPrototype = true
    · have hr : Reflects gaspPrototype [(c!"rangeMaxPPEM", fun x => ∃ i, IsInt x i), (c!"rangeGaspBehavior", fun x => ∃ l, x = .list l)] [] := by
        exact gasp_reflects
      obtain ⟨d, rfl, hf⟩ := (genericDict_iff hr).1 hg
      simp only [hg, Bool.not_true, Bool.false_eq_true, if_false]
      split
      · next ppem behavior h1 h2 =>
        split
        · exact ⟨_, rfl⟩
        · have hb := mem_of_get h2
          have hlist : ∃ b, behavior = .list b := by
            rcases hf.typed _ hb with ⟨q, hq, hk, ht⟩ | ⟨q, hq, -⟩
            · simp only [List.mem_cons, List.not_mem_nil, or_false] at hq
              rcases hq with rfl | rfl
              · simp at hk
              · exact ht
            · cases hq
          obtain ⟨b, rfl⟩ := hlist
          obtain ⟨r, hr⟩ := intList_total (v := .list b) (valid := [0, 1, 2, 3]) (by
            rintro l (h | h)
            · cases h; exact hl.1 d b rfl hb
            · cases h)
          rw [hr]
          cases r
          · exact ⟨_, rfl⟩
          · exact ih hl.2 _
      · next hno =>
        exfalso
        obtain ⟨v1, h1⟩ := hf.present (c!"rangeMaxPPEM", _) List.mem_cons_self
        obtain ⟨v2, h2⟩ := hf.present (c!"rangeGaspBehavior", _) (List.mem_cons_of_mem _ List.mem_cons_self)
        obtain ⟨w1, h1⟩ := get_isSome_of_mem h1
        obtain ⟨w2, h2⟩ := get_isSome_of_mem h2
        exact hno _ _ h1 h2
    · simp only [hg, Bool.not_false, if_true]
      exact ⟨_, rfl⟩

theorem gasp_total {v : PyVal}
    (h : ∀ l, v = .list l → ∀ r ∈ l, ∀ d b, r = .dict d → (.str c!"rangeGaspBehavior", .list b) ∈ d → ∀ x ∈ b, Atomic x) : ∃ b, gaspRangeRecordsValidator v = .ok b := by
  unfold gaspRangeRecordsValidator
  split
  · exact ⟨_, rfl⟩
  · next l _ => exact gaspRecords_total l (h l rfl) []
  · exact ⟨_, rfl⟩

/-- Which attributes have the validators that may raise. -/
def RaisingKinds (attr : Str) : Kind → Prop
  | .headFlags | .selection | .unicodeRanges | .codePageRanges | .os2Type => attr ∈ integerLists
  | .gasp => attr = c!"openTypeGaspRangeRecords"
  | _ => True

instance (attr : Str) : (k : Kind) → Decidable (RaisingKinds attr k) := fun k => by
  cases k <;> unfold RaisingKinds <;> infer_instance

theorem raisingKinds3 : ∀ p ∈ table3, RaisingKinds p.1 p.2 := by decide +kernel

/-! ### Numbers -/

theorem nonNegNumber_iff {v : PyVal} : genericNonNegativeNumberValidator v = true ↔ IsNum v ∧ ∀ f, NumIs v f → fltLt f (.fin 0) = false := by
  unfold genericNonNegativeNumberValidator
  by_cases h : IsNum v
  · obtain ⟨f, hf⟩ := numIs_of_isNum h
    have hn := num?_iff.2 hf
    have hl : ltInt v 0 = fltLt f (.fin 0) := by rw [ltInt, hn]; simp
    simp only [isNumber_iff.2 h, Bool.not_true, Bool.false_eq_true, if_false, hl, h, true_and]
    constructor
    · intro hb g hg
      rw [num?_iff.2 hg] at hn
      cases hn
      by_contra hc
      simp [hc] at hb
    · intro hg
      simp [hg f hf]
  · have : isNumber v = false := by
      rcases hb : isNumber v with _ | _
      · rfl
      · exact absurd (isNumber_iff.1 hb) h
    simp [this, h]

theorem roundHalfEven_nearest (q : Rat) : Nearest q (roundHalfEven q) := by
  have h1 := Rat.floor_le q
  have h2 := Rat.lt_floor_add_one q
  rw [Rat.intCast_add, Rat.intCast_one] at h2
  unfold roundHalfEven Nearest
  simp only
  split
  · next h => refine ⟨by linarith, by linarith, ?_⟩; rintro (h | h) <;> linarith
  · next hn =>
    split
    · next h =>
      rw [Rat.intCast_add, Rat.intCast_one]
      refine ⟨by linarith, by linarith, ?_⟩; rintro (h | h) <;> linarith
    · next hm =>
      have hq : q = (q.floor : Rat) + 1 / 2 := by linarith
      split
      · next h => exact ⟨by linarith, by linarith, fun _ => by omega⟩
      · next h =>
        rw [Rat.intCast_add, Rat.intCast_one]
        exact ⟨by linarith, by linarith, fun _ => by omega⟩

theorem pyEq_int_left {n : Int} {v : PyVal} : PyVal.pyEq (.int n) v = true ↔ NumIs v (.fin n) := by
  rw [← num?_iff]
  have : PyVal.pyEq (.int n) v = match v.num? with | some y => Flt.eq (.fin n) y | .none => false := by
    cases v <;> rfl
  rw [this]
  rcases v.num? with _ | f
  · simp
  · cases f <;> simp [Flt.eq, eq_comm]

theorem numIs_unique {v : PyVal} {f g : Flt} (hf : NumIs v f) (hg : NumIs v g) : f = g := by
  rw [← num?_iff] at hf hg
  rw [hf] at hg
  exact Option.some.inj hg

theorem numIs_int (n : Int) : NumIs (.int n) (.fin n) := .inl ⟨n, .inl rfl, rfl⟩

theorem isInt_numIs {v : PyVal} {i : Int} (h : IsInt v i) : NumIs v (.fin i) := .inl ⟨i, h, rfl⟩

theorem nearest_int (i : Int) : Nearest (i : Rat) i := ⟨by linarith, by linarith, by rintro (h | h) <;> linarith⟩

theorem nearest_of_int {i n : Int} (h : Nearest (i : Rat) n) : n = i := by
  obtain ⟨h1, h2, -⟩ := h
  have a : (2 * n - 1 : Rat) ≤ 2 * i := by linarith
  have b : (2 * i : Rat) ≤ 2 * n + 1 := by linarith
  norm_cast at a b
  omega

theorem roundInt_rat {v : PyVal} {q : Rat} (h : IsRat v q) : ∃ n, roundInt v = .ok n ∧ Nearest q n := by
  rcases h with ⟨i, hi, hq⟩ | rfl
  · cases hq
    refine ⟨i, ?_, nearest_int i⟩
    rcases hi with rfl | ⟨rfl, rfl⟩ | ⟨rfl, rfl⟩ <;> rfl
  · exact ⟨_, rfl, roundHalfEven_nearest q⟩

theorem absInt_rat {v : PyVal} {q : Rat} (h : IsRat v q) : absInt v = .ok (if q < 0 then -q else q).floor := by
  rcases h with ⟨i, hi, hq⟩ | rfl
  · cases hq
    rcases hi with rfl | ⟨rfl, rfl⟩ | ⟨rfl, rfl⟩
    · rw [absInt]
      congr 1
      by_cases h : i < 0
      · have : ((i : Rat) < 0) := by exact_mod_cast h
        rw [if_pos this, ← Rat.intCast_neg, Rat.floor_intCast]; omega
      · have : ¬ ((i : Rat) < 0) := by exact_mod_cast h
        rw [if_neg this, Rat.floor_intCast]; omega
    · decide +kernel
    · decide +kernel
  · rfl

theorem absInt_int {v : PyVal} {i : Int} (h : IsRat v i) : absInt v = .ok (i.natAbs : Int) := by
  rw [absInt_rat h, ← absInt_rat (v := .int i) (numIs_int i)]; rfl

theorem roundInt_int {v : PyVal} {i : Int} (h : IsRat v i) : roundInt v = .ok i := by
  obtain ⟨n, hn, hq⟩ := roundInt_rat h
  rw [hn, nearest_of_int hq]

/-- The result of a step is the number computed. -/
theorem integerStep_ok {f : PyVal → Except Exc Int} {v w : PyVal} (h : integerStep f v = .ok w) :
    ∃ n, f v = .ok n ∧ IsRat w n ∧ (w = .int n ∨ w = v) := by
  unfold integerStep at h
  rcases hf : f v with e | n
  · rw [hf] at h; cases h
  · rw [hf] at h
    simp only [Except.ok.injEq] at h
    subst h
    refine ⟨n, rfl, ?_⟩
    rw [replaceIfDifferent]
    split
    · next he => exact ⟨pyEq_int_left.1 he, .inr rfl⟩
    · exact ⟨numIs_int n, .inl rfl⟩

theorem integerStep_of {f : PyVal → Except Exc Int} {v : PyVal} {n : Int} (h : f v = .ok n) (hn : IsRat v n) : integerStep f v = .ok v := by
  rw [integerStep, h]
  simp only [replaceIfDifferent, pyEq_int_left.2 hn, if_true]

theorem integerStep_replace {f : PyVal → Except Exc Int} {v : PyVal} {n : Int} (h : f v = .ok n) (hn : ¬ IsRat v n) : integerStep f v = .ok (.int n) := by
  rw [integerStep, h]
  simp only [replaceIfDifferent, (show ¬ PyVal.pyEq (.int n) v = true from fun hh => hn (pyEq_int_left.1 hh))]
  rfl

theorem integerStep_total {f : PyVal → Except Exc Int} {v : PyVal} {n : Int} (h : f v = .ok n) : ∃ w, integerStep f v = .ok w ∧ IsRat w n := by
  by_cases hn : IsRat v n
  · exact ⟨v, integerStep_of h hn, hn⟩
  · exact ⟨_, integerStep_replace h hn, numIs_int n⟩

theorem roundInt_not_num {v : PyVal} (h : ¬ IsNum v) : roundInt v = .error .ufoLibError ∧ absInt v = .error .ufoLibError := by
  rw [← isNumber_iff] at h
  match v with
  | .bool _ => exact absurd rfl h
  | .int _ => exact absurd rfl h
  | .float _ => exact absurd rfl h
  | .none => exact ⟨rfl, rfl⟩
  | .str _ => exact ⟨rfl, rfl⟩
  | .bytes _ => exact ⟨rfl, rfl⟩
  | .date _ => exact ⟨rfl, rfl⟩
  | .list _ => exact ⟨rfl, rfl⟩
  | .tuple _ => exact ⟨rfl, rfl⟩
  | .dict _ => exact ⟨rfl, rfl⟩
  | .other _ => exact ⟨rfl, rfl⟩

theorem absInt_nonneg {v : PyVal} {n : Int} (h : absInt v = .ok n) : 0 ≤ n := by
  unfold absInt at h
  split at h
  · cases h; omega
  · next b => cases h; cases b <;> simp
  · next q =>
    cases h
    rw [Rat.le_floor_iff]
    split
    · next h => simp; linarith
    · next h => simp; linarith
  all_goals cases h

theorem convert23_idem {attr : Str} {v w : PyVal} (h : convert23 attr v = .ok w) : convert23 attr w = .ok w := by
  unfold convert23 at h ⊢
  by_cases h1 : attr ∈ floatToInt
  · simp only [h1, if_true] at h ⊢
    rcases hr : integerStep roundInt v with e | x
    · rw [hr] at h; cases h
    · rw [hr] at h
      simp only at h
      obtain ⟨n, -, hx, -⟩ := integerStep_ok hr
      by_cases h2 : attr ∈ nonNegativeInt
      · simp only [h2, if_true] at h ⊢
        obtain ⟨m, hm, hw, -⟩ := integerStep_ok h
        rw [integerStep_of (roundInt_int hw) hw]
        have := absInt_nonneg hm
        refine integerStep_of (absInt_int hw) ?_
        rwa [show (m.natAbs : Int) = m by omega]
      · simp only [h2, if_false] at h ⊢
        cases h
        rw [integerStep_of (roundInt_int hx) hx]
  · simp only [h1, if_false] at h ⊢
    by_cases h2 : attr ∈ nonNegativeInt
    · simp only [h2, if_true] at h ⊢
      obtain ⟨m, hm, hw, -⟩ := integerStep_ok h
      have := absInt_nonneg hm
      refine integerStep_of (absInt_int hw) ?_
      rwa [show (m.natAbs : Int) = m by omega]
    · simp only [h2, if_false] at h ⊢

theorem lists3 : (∀ a ∈ integerSince3, a ∈ floatToInt ∧ a ∉ nonNegativeInt) ∧ (∀ a ∈ nonNegativeIntegerSince3, a ∈ floatToInt ∧ a ∈ nonNegativeInt) ∧
    (c!"versionMinor" ∉ floatToInt ∧ c!"versionMinor" ∈ nonNegativeInt) ∧
    (∀ a ∈ floatToInt ++ nonNegativeInt, a = c!"versionMinor" ∨ a ∈ integerSince3 ∨ a ∈ nonNegativeIntegerSince3) := by decide +kernel

theorem convert23_integer {attr : Str} (ha : attr ∈ integerSince3) (v : PyVal) : convert23 attr v = integerStep roundInt v := by
  obtain ⟨h1, h2⟩ := lists3.1 attr ha
  unfold convert23
  simp only [h1, h2, if_true, if_false]
  rcases integerStep roundInt v <;> rfl

theorem convert23_nonNegative {attr : Str} (ha : attr ∈ nonNegativeIntegerSince3) {v : PyVal} {q : Rat} (hv : IsRat v q) :
    ∃ w n, convert23 attr v = .ok w ∧ Nearest q n ∧ IsRat w (n.natAbs : Int) := by
  obtain ⟨h1, h2⟩ := lists3.2.1 attr ha
  obtain ⟨n, hn, hq⟩ := roundInt_rat hv
  obtain ⟨x, hx, hxn⟩ := integerStep_total hn
  obtain ⟨w, hw, hwn⟩ := integerStep_total (absInt_int hxn)
  refine ⟨w, n, ?_, hq, hwn⟩
  unfold convert23
  simp only [h1, h2, if_true, hx, hw]

theorem convert23_error {attr : Str} (ha : attr ∈ nonNegativeIntegerSince3) {v : PyVal} {e : Exc} (hv : roundInt v = .error e) : convert23 attr v = .error e := by
  obtain ⟨h1, -⟩ := lists3.2.1 attr ha
  unfold convert23
  simp only [h1, if_true, integerStep, hv]

theorem convert23_minor (v : PyVal) : convert23 c!"versionMinor" v = integerStep absInt v := by
  unfold convert23
  simp only [lists3.2.2.1.1, lists3.2.2.1.2, if_true, if_false]

theorem convert23_other {attr : Str} (h0 : attr ≠ c!"versionMinor") (h1 : attr ∉ integerSince3) (h2 : attr ∉ nonNegativeIntegerSince3) (v : PyVal) : convert23 attr v = .ok v := by
  have h : attr ∉ floatToInt ++ nonNegativeInt := fun h => by
    rcases lists3.2.2.2 attr h with h | h | h
    exacts [h0 h, h1 h, h2 h]
  rw [List.mem_append, not_or] at h
  unfold convert23
  simp only [h.1, h.2, if_false]

/-! ### Reading UFO 2 -/

/-- How the validators of an attribute of UFO 2 change in UFO 3. -/
inductive Change : Str → Kind → Kind → Prop
  | same {a k} : a ≠ c!"versionMinor" → a ∉ integerSince3 → a ∉ nonNegativeIntegerSince3 → a ≠ c!"unitsPerEm" → a ≠ c!"openTypeOS2Panose" → Change a k k
  | integer {a} : a ∈ integerSince3 → a ∉ nonNegativeIntegerSince3 → a ≠ c!"unitsPerEm" → a ≠ c!"openTypeOS2Panose" → Change a .num .int
  | nonNegative {a} : a ∈ nonNegativeIntegerSince3 → a ∉ integerSince3 → a ≠ c!"unitsPerEm" → a ≠ c!"openTypeOS2Panose" → Change a .num .nonNegNum
  | minor : Change c!"versionMinor" .int .nonNegInt
  | em : Change c!"unitsPerEm" .num .nonNegNum
  | panose : Change c!"openTypeOS2Panose" .panose2 .panose3

/-- `Change`, decidably. -/
def changes (a : Str) (k k' : Kind) : Bool :=
  (decide (k = k') && decide (a ≠ c!"versionMinor") && decide (a ∉ integerSince3) && decide (a ∉ nonNegativeIntegerSince3) && decide (a ≠ c!"unitsPerEm") && decide (a ≠ c!"openTypeOS2Panose")) ||
  (decide (k = .num) && decide (k' = .int) && decide (a ∈ integerSince3) && decide (a ∉ nonNegativeIntegerSince3) && decide (a ≠ c!"unitsPerEm") && decide (a ≠ c!"openTypeOS2Panose")) ||
  (decide (k = .num) && decide (k' = .nonNegNum) && decide (a ∈ nonNegativeIntegerSince3) && decide (a ∉ integerSince3) && decide (a ≠ c!"unitsPerEm") && decide (a ≠ c!"openTypeOS2Panose")) ||
  (decide (a = c!"versionMinor") && decide (k = .int) && decide (k' = .nonNegInt)) ||
  (decide (a = c!"unitsPerEm") && decide (k = .num) && decide (k' = .nonNegNum)) ||
  (decide (a = c!"openTypeOS2Panose") && decide (k = .panose2) && decide (k' = .panose3))

theorem change_of {a : Str} {k k' : Kind} (h : changes a k k' = true) : Change a k k' := by
  simp only [changes, Bool.or_eq_true, Bool.and_eq_true, decide_eq_true_eq] at h
  rcases h with (((((⟨⟨⟨⟨⟨rfl, h1⟩, h2⟩, h3⟩, h4⟩, h5⟩ | ⟨⟨⟨⟨⟨rfl, rfl⟩, h1⟩, h2⟩, h3⟩, h4⟩) | ⟨⟨⟨⟨⟨rfl, rfl⟩, h1⟩, h2⟩, h3⟩, h4⟩) | ⟨⟨rfl, rfl⟩, rfl⟩) | ⟨⟨rfl, rfl⟩, rfl⟩) | ⟨⟨rfl, rfl⟩, rfl⟩)
  · exact .same h1 h2 h3 h4 h5
  · exact .integer h1 h2 h3 h4
  · exact .nonNegative h1 h2 h3 h4
  · exact .minor
  · exact .em
  · exact .panose

/-- The change of an optional validator. -/
def changesTo (a : Str) (k : Kind) : Option Kind → Bool
  | none => false
  | some k' => changes a k k'

theorem changes23 : ∀ p ∈ table2, changesTo p.1 p.2 (Dict.get? table3 p.1) = true := by decide +kernel

theorem change23 {a : Str} {k : Kind} (h : Dict.get? table2 a = some k) : ∃ k', Dict.get? table3 a = some k' ∧ Change a k k' := by
  have := changes23 _ (Dict.mem_of_get? h)
  simp only at this
  rcases hg : Dict.get? table3 a with _ | k'
  · rw [hg] at this; cases this
  · rw [hg] at this; exact ⟨k', rfl, change_of this⟩

theorem validateValue_ok {E : Env} {t : Dict Str Kind} {a : Str} {v : PyVal} (h : validateValue E t a v = .ok true) : ∃ k, Dict.get? t a = some k ∧ k.check E v = .ok true := by
  unfold validateValue at h
  split at h
  · cases h
  · next k hk => exact ⟨k, hk, h⟩

theorem validateValue_of {E : Env} {t : Dict Str Kind} {a : Str} {v : PyVal} {k : Kind} (hk : Dict.get? t a = some k) : validateValue E t a v = k.check E v := by
  rw [validateValue, hk]

theorem floatToInt_minor : c!"versionMinor" ∉ integerSince3 ∧ c!"versionMinor" ∉ nonNegativeIntegerSince3 := by decide +kernel
theorem em_other : c!"unitsPerEm" ∉ integerSince3 ∧ c!"unitsPerEm" ∉ nonNegativeIntegerSince3 ∧ c!"unitsPerEm" ≠ c!"versionMinor" := by decide +kernel
theorem panose_other : c!"openTypeOS2Panose" ∉ integerSince3 ∧ c!"openTypeOS2Panose" ∉ nonNegativeIntegerSince3 ∧ c!"openTypeOS2Panose" ≠ c!"versionMinor" := by decide +kernel

theorem isNum_cases {v : PyVal} (h : IsNum v) : (∃ q, IsRat v q) ∨ ∃ f, v = .float f ∧ ∀ q, f ≠ .fin q := by
  rcases h with ⟨i, hi⟩ | ⟨f, rfl⟩
  · exact .inl ⟨i, isInt_numIs hi⟩
  · cases f with
    | fin q => exact .inl ⟨q, .inr rfl⟩
    | nan => exact .inr ⟨_, rfl, fun q h => by cases h⟩
    | inf b => exact .inr ⟨_, rfl, fun q h => by cases h⟩

theorem roundInt_notFinite {f : Flt} (h : ∀ q, f ≠ .fin q) : ∃ e, roundInt (.float f) = .error e := by
  cases f with
  | fin q => exact absurd rfl (h q)
  | nan => exact ⟨_, rfl⟩
  | inf b => exact ⟨_, rfl⟩

theorem isRat_float_int {v : PyVal} {i : Int} (h : IsRat v i) : IsInt v i ∨ v = .float (.fin i) := by
  rcases h with ⟨j, hj, hq⟩ | rfl
  · left
    have : i = j := by
      have := Flt.fin.inj hq
      exact_mod_cast this
    rwa [this]
  · exact .inr rfl

/-- Exactly the unreadable values are not converted to legal ones. -/
theorem readable_iff {E : Env} {a : Str} {v : PyVal} (hv : validateValue E table2 a v = .ok true) :
    (∃ w, convert23 a v = .ok w ∧ validateValue E table3 a w = .ok true) ↔ ¬ Unreadable a v := by
  obtain ⟨k, hk, hc⟩ := validateValue_ok hv
  obtain ⟨k', hk', hch⟩ := change23 hk
  simp only [validateValue_of hk']
  clear hv hk hk'
  cases hch with
  | same h0 h1 h2 h3 h4 =>
    constructor
    · intro _ hu
      cases hu with
      | notFinite h _ => rcases h with h | h; exacts [h1 h, h2 h]
      | integral h => exact h1 h
      | negativeEm => exact h3 rfl
      | negativeInfiniteEm => exact h3 rfl
      | panose => exact h4 rfl
    · intro _
      exact ⟨v, convert23_other h0 h1 h2 v, hc⟩
  | integer h1 h2 h3 h4 =>
    rw [convert23_integer h1]
    have hn : IsNum v := isNumber_iff.1 (Except.ok.inj hc)
    constructor
    · rintro ⟨w, hw, hi⟩ hu
      obtain ⟨j, hj⟩ := isInt_iff.1 (Except.ok.inj hi)
      cases hu with
      | notFinite h hf =>
        obtain ⟨e, he⟩ := roundInt_notFinite hf
        rw [integerStep, he] at hw
        cases hw
      | @integral _ i h =>
        have hr : IsRat (.float (.fin (i : Rat))) i := .inr rfl
        rw [integerStep_of (roundInt_int hr) hr] at hw
        cases hw
        rcases hj with h | ⟨h, -⟩ | ⟨h, -⟩ <;> cases h
      | negativeEm => exact h3 rfl
      | negativeInfiniteEm => exact h3 rfl
      | panose => exact h4 rfl
    · intro hu
      rcases isNum_cases hn with ⟨q, hq⟩ | ⟨f, rfl, hf⟩
      · obtain ⟨n, hr, -⟩ := roundInt_rat hq
        by_cases hvn : IsRat v n
        · refine ⟨v, integerStep_of hr hvn, ?_⟩
          rcases isRat_float_int hvn with h | rfl
          · exact congrArg _ (isInt_iff.2 ⟨n, h⟩)
          · exact absurd (.integral h1) hu
        · exact ⟨_, integerStep_replace hr hvn, rfl⟩
      · exact absurd (.notFinite (.inl h1) hf) hu
  | nonNegative h1 h2 h3 h4 =>
    have hn : IsNum v := isNumber_iff.1 (Except.ok.inj hc)
    constructor
    · rintro ⟨w, hw, hi⟩ hu
      cases hu with
      | notFinite h hf =>
        obtain ⟨e, he⟩ := roundInt_notFinite hf
        rw [convert23_error h1 he] at hw
        cases hw
      | integral h => exact h2 h
      | negativeEm => exact h3 rfl
      | negativeInfiniteEm => exact h3 rfl
      | panose => exact h4 rfl
    · intro hu
      rcases isNum_cases hn with ⟨q, hq⟩ | ⟨f, rfl, hf⟩
      · obtain ⟨w, n, hw, -, hwn⟩ := convert23_nonNegative h1 hq
        refine ⟨w, hw, congrArg _ (nonNegNumber_iff.2 ⟨?_, ?_⟩)⟩
        · rcases hwn with ⟨i, hi, -⟩ | rfl
          exacts [.inl ⟨i, hi⟩, .inr ⟨_, rfl⟩]
        · intro g hg
          cases numIs_unique hg hwn
          simp [fltLt]
      · exact absurd (.notFinite (.inr h1) hf) hu
  | minor =>
    rw [convert23_minor]
    obtain ⟨i, hi⟩ := isInt_iff.1 (Except.ok.inj hc)
    constructor
    · intro _ hu
      cases hu with
      | notFinite h _ => rcases h with h | h; exacts [floatToInt_minor.1 h, floatToInt_minor.2 h]
      | integral h => exact floatToInt_minor.1 h
    · intro _
      obtain ⟨w, hw, hwn⟩ := integerStep_total (absInt_int (isInt_numIs hi))
      obtain ⟨n, hn, -, hww⟩ := integerStep_ok hw
      refine ⟨w, hw, congrArg _ (nonNegInt_iff.2 ⟨i.natAbs, ?_, by omega⟩)⟩
      rcases isRat_float_int hwn with h | rfl
      · exact h
      · rcases hww with h | rfl
        · cases h
        · rcases hi with h | ⟨h, -⟩ | ⟨h, -⟩ <;> cases h
  | em =>
    rw [convert23_other em_other.2.2 em_other.1 em_other.2.1]
    have hn : IsNum v := isNumber_iff.1 (Except.ok.inj hc)
    have hiff : (∃ w, Except.ok v = (.ok w : Except Exc PyVal) ∧ Kind.check E w .nonNegNum = .ok true) ↔ ∀ f, NumIs v f → fltLt f (.fin 0) = false := by
      have : Kind.check E v .nonNegNum = .ok true ↔ genericNonNegativeNumberValidator v = true := ⟨Except.ok.inj, congrArg _⟩
      simp only [Except.ok.injEq, exists_eq_left', this, nonNegNumber_iff, hn, true_and]
    rw [hiff]
    constructor
    · intro hall hu
      cases hu with
      | notFinite h _ => rcases h with h | h; exacts [em_other.1 h, em_other.2.1 h]
      | integral h => exact em_other.1 h
      | negativeEm hr hq => have := hall _ hr; simp [fltLt] at this; linarith
      | negativeInfiniteEm => have := hall (.inf true) (.inr rfl); simp [fltLt] at this
    · intro hu f hf
      cases f with
      | nan => rfl
      | inf b => cases b
                 · rfl
                 · rcases hf with ⟨i, -, h⟩ | rfl
                   · cases h
                   · exact absurd .negativeInfiniteEm hu
      | fin q =>
        simp only [fltLt, decide_eq_false_iff_not]
        exact fun hq => hu (.negativeEm hf hq)
  | panose =>
    rw [convert23_other panose_other.2.2 panose_other.1 panose_other.2.1]
    obtain ⟨l, hl, hlen, hint⟩ := panose2_iff.1 (Except.ok.inj hc)
    have hiff : (∃ w, Except.ok v = (.ok w : Except Exc PyVal) ∧ Kind.check E w .panose3 = .ok true) ↔ ∃ l, IsSeq v l ∧ l.length = 10 ∧ ∀ x ∈ l, ∃ i, IsInt x i ∧ 0 ≤ i := by
      have : Kind.check E v .panose3 = .ok true ↔ panose3Validator v = true := ⟨Except.ok.inj, congrArg _⟩
      simp only [Except.ok.injEq, exists_eq_left', this, panose3_iff]
    rw [hiff]
    constructor
    · rintro ⟨l, hl, -, h⟩ hu
      cases hu with
      | notFinite h _ => rcases h with h | h; exacts [panose_other.1 h, panose_other.2.1 h]
      | integral h => exact panose_other.1 h
      | panose hl' hx hi hneg =>
        have hl2 := seq?_iff.2 hl
        rw [seq?_iff.2 hl'] at hl2
        cases hl2
        obtain ⟨j, hj, hpos⟩ := h _ hx
        have := numIs_unique (isInt_numIs hi) (isInt_numIs hj)
        have := Flt.fin.inj this
        norm_cast at this
        omega
    · intro hu
      refine ⟨l, hl, hlen, fun x hx => ?_⟩
      obtain ⟨i, hi⟩ := hint x hx
      refine ⟨i, hi, ?_⟩
      by_contra hneg
      exact hu (.panose hl hx hi (by omega))

/-! ### Dictionaries -/

theorem validateData_ok {E : Env} {t : Dict Str Kind} {d r : Dict Str PyVal} : validateData E t d = .ok r ↔ r = d ∧ ∀ p ∈ d, validateValue E t p.1 p.2 = .ok true := by
  induction d generalizing r with
  | nil => simp [validateData, eq_comm]
  | cons p d ih =>
    obtain ⟨a, v⟩ := p
    unfold validateData
    rcases hv : validateValue E t a v with e | b
    · simp [hv]
    · cases b
      · simp [hv]
      · simp only [List.forall_mem_cons, hv, true_and]
        rcases hd : validateData E t d with e | r'
        · simp only [reduceCtorEq, false_iff, not_and]
          intro _ h
          have := (ih (r := d)).2 ⟨rfl, h⟩
          rw [hd] at this; cases this
        · obtain ⟨rfl, h⟩ := ih.1 hd
          simp only [Except.ok.injEq]
          exact ⟨fun h' => ⟨h'.symm, h⟩, fun h' => h'.1.symm⟩

theorem convertData23_ok {d r : Dict Str PyVal} : convertData23 d = .ok r ↔ List.Forall₂ (fun p q => q.1 = p.1 ∧ convert23 p.1 p.2 = .ok q.2) d r := by
  induction d generalizing r with
  | nil => simp [convertData23, eq_comm]
  | cons p d ih =>
    obtain ⟨a, v⟩ := p
    unfold convertData23
    rcases hv : convert23 a v with e | w
    · simp only [reduceCtorEq, false_iff]
      intro h
      cases h with
      | cons h _ => rw [hv] at h; cases h.2
    · simp only
      rcases hd : convertData23 d with e | r'
      · simp only [reduceCtorEq, false_iff]
        intro h
        cases h with
        | cons _ h => rw [ih.2 h] at hd; cases hd
      · simp only [Except.ok.injEq]
        constructor
        · rintro rfl; exact .cons ⟨rfl, hv⟩ (ih.1 hd)
        · intro h
          cases h with
          | @cons _ q _ r'' h h' =>
            rw [ih.2 h'] at hd
            cases hd
            obtain ⟨b, w'⟩ := q
            simp only at h
            rw [hv] at h
            obtain ⟨rfl, h⟩ := h
            cases h
            rfl

theorem mem_gather {f : Str → Option PyVal} {ks : List Str} {a : Str} {v : PyVal} : (a, v) ∈ gather f ks ↔ a ∈ ks ∧ present (f a) = some v := by
  induction ks with
  | nil => simp [gather]
  | cons k ks ih =>
    unfold gather
    split
    · next h => rw [ih, List.mem_cons]; constructor
                · exact fun h => ⟨.inr h.1, h.2⟩
                · rintro ⟨rfl | h', h2⟩
                  · rw [h] at h2; cases h2
                  · exact ⟨h', h2⟩
    · next h => rw [ih, List.mem_cons]; constructor
                · exact fun h => ⟨.inr h.1, h.2⟩
                · rintro ⟨rfl | h', h2⟩
                  · rw [h] at h2; cases h2
                  · exact ⟨h', h2⟩
    · next w hn h =>
      rw [List.mem_cons, ih, List.mem_cons]
      have hp : present (f k) = some w := by
        rw [h]
        cases w <;> first | rfl | exact absurd rfl hn
      constructor
      · rintro (h' | h')
        · cases h'; exact ⟨.inl rfl, hp⟩
        · exact ⟨.inr h'.1, h'.2⟩
      · rintro ⟨rfl | h', h2⟩
        · rw [hp] at h2; cases h2; exact .inl rfl
        · exact .inr ⟨h', h2⟩

theorem keys_gather (f : Str → Option PyVal) (ks : List Str) : (Dict.keys (gather f ks)).Sublist ks := by
  induction ks with
  | nil => exact .slnil
  | cons k ks ih =>
    unfold gather
    split
    · exact ih.cons _
    · exact ih.cons _
    · exact ih.cons_cons _

theorem get?_gather {f : Str → Option PyVal} {ks : List Str} (hk : ks.Nodup) (a : Str) : Dict.get? (gather f ks) a = if a ∈ ks then present (f a) else none := by
  have hw : Dict.WF (gather f ks) := (keys_gather f ks).nodup hk
  rcases h : Dict.get? (gather f ks) a with _ | v
  · split
    · next ha =>
      rcases hp : present (f a) with _ | v
      · rfl
      · rw [Dict.get?_of_mem hw (mem_gather.2 ⟨ha, hp⟩)] at h; cases h
    · rfl
  · obtain ⟨ha, hp⟩ := mem_gather.1 (Dict.mem_of_get? h)
    rw [if_pos ha, hp]

theorem gather_congr {f g : Str → Option PyVal} {ks : List Str} (h : ∀ a ∈ ks, present (f a) = present (g a)) : gather f ks = gather g ks := by
  induction ks with
  | nil => rfl
  | cons k ks ih =>
    rw [List.forall_mem_cons] at h
    have h1 := h.1
    unfold gather
    rw [ih h.2]
    rcases hf : f k with _ | v
    · rw [hf] at h1
      rcases hg : g k with _ | w
      · rfl
      · rw [hg] at h1; cases w <;> first | rfl | cases h1
    · rw [hf] at h1
      rcases hg : g k with _ | w
      · rw [hg] at h1; cases v <;> first | rfl | cases h1
      · rw [hg] at h1
        by_cases hv : v = .none
        · subst hv
          by_cases hw : w = .none
          · subst hw; rfl
          · cases w <;> first | exact absurd rfl hw | cases h1
        · by_cases hw : w = .none
          · subst hw; cases v <;> first | exact absurd rfl hv | cases h1
          · have hpv : present (some v) = some v := by cases v <;> first | rfl | exact absurd rfl hv
            have hpw : present (some w) = some w := by cases w <;> first | rfl | exact absurd rfl hw
            rw [hpv, hpw] at h1
            cases h1
            rfl

theorem present_present (o : Option PyVal) : present (present o) = present o := by
  rcases o with _ | v
  · rfl
  · cases v <;> rfl

theorem wf_table2 : Dict.WF table2 := by unfold Dict.WF; decide +kernel
theorem wf_table3 : Dict.WF table3 := by unfold Dict.WF; decide +kernel
theorem table2_sub3 : ∀ a ∈ Dict.keys table2, a ∈ Dict.keys table3 := by decide +kernel

/-! ### UFO 1 -/

/-- How an attribute of UFO 1 is converted. -/
inductive Kept : Str → Str → Kind → Prop
  | plain {a b k} : a ∉ [c!"fontStyle", c!"widthName", c!"msCharSet"] → b ∉ [c!"styleMapStyleName", c!"openTypeOS2WidthClass", c!"postscriptWindowsCharacterSet"] →
      k = .str ∨ k = .int ∨ k = .num ∨ k = .weightClass → Kept a b k
  | style : Kept c!"fontStyle" c!"styleMapStyleName" .styleMap
  | width : Kept c!"widthName" c!"openTypeOS2WidthClass" .widthClass
  | charSet : Kept c!"msCharSet" c!"postscriptWindowsCharacterSet" .characterSet

/-- `Kept`, decidably. -/
def keeps (a b : Str) : Option Kind → Bool
  | none => false
  | some k =>
    (decide (a ∉ [c!"fontStyle", c!"widthName", c!"msCharSet"]) && decide (b ∉ [c!"styleMapStyleName", c!"openTypeOS2WidthClass", c!"postscriptWindowsCharacterSet"]) &&
      (decide (k = .str) || decide (k = .int) || decide (k = .num) || decide (k = .weightClass))) ||
    (decide (a = c!"fontStyle") && decide (b = c!"styleMapStyleName") && decide (k = .styleMap)) ||
    (decide (a = c!"widthName") && decide (b = c!"openTypeOS2WidthClass") && decide (k = .widthClass)) ||
    (decide (a = c!"msCharSet") && decide (b = c!"postscriptWindowsCharacterSet") && decide (k = .characterSet))

theorem kept_of {a b : Str} {k : Kind} (h : keeps a b (some k) = true) : Kept a b k := by
  simp only [keeps, Bool.or_eq_true, Bool.and_eq_true, decide_eq_true_eq] at h
  rcases h with (((⟨⟨h1, h2⟩, h3⟩ | ⟨⟨rfl, rfl⟩, rfl⟩) | ⟨⟨rfl, rfl⟩, rfl⟩) | ⟨⟨rfl, rfl⟩, rfl⟩)
  · exact .plain h1 h2 (by tauto)
  · exact .style
  · exact .width
  · exact .charSet

theorem version1_ok : ∀ p ∈ version1, p.1 ∈ attributes1 ∧ p.2 ∈ Dict.keys table2 ∧ Dict.getD names12 p.1 p.1 = p.2 ∧ Dict.getD names21 p.2 p.2 = p.1 ∧
    keeps p.1 p.2 (Dict.get? table2 p.2) = true := by decide +kernel

theorem version1_complete : ∀ b ∈ Dict.keys table2, Dict.getD names21 b b ∈ attributes1 → (Dict.getD names21 b b, b) ∈ version1 := by decide +kernel

/-- Scalars and finite numbers equal themselves. -/
def Plain : PyVal → Prop
  | .str _ => True
  | .int _ => True
  | .bool _ => True
  | .float (.fin _) => True
  | _ => False

theorem floatToInt1_plain {v : PyVal} (h : Plain v) : ∃ w, floatToInt1 v = .ok w ∧ PyVal.pyEq w v = true ∧ w ≠ .none := by
  match v, h with
  | .str s, _ => exact ⟨_, rfl, by simp [PyVal.pyEq], by simp⟩
  | .int i, _ => exact ⟨_, rfl, by simp [PyVal.pyEq, PyVal.num?, Flt.eq], by simp⟩
  | .bool b, _ => exact ⟨_, rfl, by simp [PyVal.pyEq, PyVal.num?, Flt.eq], by simp⟩
  | .float (.fin q), _ =>
    by_cases hq : q.den = 1
    · refine ⟨.int q.num, by simp [floatToInt1, hq], ?_, by simp⟩
      rw [pyEq_int_left]
      refine .inr ?_
      congr 2
      have := Rat.num_div_den q
      rw [hq] at this
      simpa using this.symm
    · exact ⟨.float (.fin q), by simp [floatToInt1, hq], by simp [PyVal.pyEq, PyVal.num?, Flt.eq], by simp⟩

theorem special12_plain {a : Str} (ha : a ∉ [c!"fontStyle", c!"widthName", c!"msCharSet"]) (v : PyVal) : special12 a v = .ok v := by
  simp only [List.mem_cons, List.not_mem_nil, or_false, not_or] at ha
  unfold special12
  split
  · rfl
  · rw [if_neg ha.1, if_neg ha.2.1, if_neg ha.2.2]

theorem special21_plain {a : Str} (ha : a ∉ [c!"styleMapStyleName", c!"openTypeOS2WidthClass", c!"postscriptWindowsCharacterSet"]) (v : PyVal) : special21 a v = .ok v := by
  simp only [List.mem_cons, List.not_mem_nil, or_false, not_or] at ha
  unfold special21
  split
  · rfl
  · rw [if_neg ha.1, if_neg ha.2.1, if_neg ha.2.2]

end Verif.FontInfo
