import Verif.Proofs.HeadCreated
import Mathlib.Tactic.Tauto
import Mathlib.Data.List.Forall2
/-! Lemmas about the font info, layer table, kerning and lib validators. -/
namespace Verif.Validators
open Verif Verif.Spec.Validators

/-! ### scalars and lists -/

theorem nonNegInt_iff {v : PyVal} : genericNonNegativeIntValidator v = true ↔ ∃ i, IsInt v i ∧ 0 ≤ i := by
  unfold genericNonNegativeIntValidator
  by_cases h : ∃ i, IsInt v i
  · obtain ⟨i, hi⟩ := h
    simp only [isInt_iff.2 ⟨i, hi⟩, Bool.not_true, Bool.false_eq_true, if_false, ltInt_int hi, decide_eq_true_eq]
    constructor
    · intro h; split at h
      · cases h
      · exact ⟨i, hi, by omega⟩
    · rintro ⟨j, hj, h⟩
      rw [isInt_unique hi hj, if_neg (by omega)]
  · have : isInt v = false := by rw [← Bool.not_eq_true, isInt_iff]; exact h
    simp only [this, Bool.not_false, if_true]
    constructor
    · intro h; cases h
    · rintro ⟨i, hi, -⟩; exact absurd ⟨i, hi⟩ h

theorem weight_iff {v : PyVal} : weightClassValidator v = true ↔ ∃ i, IsInt v i ∧ 0 ≤ i := nonNegInt_iff

theorem width_iff {v : PyVal} : widthClassValidator v = true ↔ ∃ i, IsInt v i ∧ 1 ≤ i ∧ i ≤ 9 := by
  unfold widthClassValidator
  by_cases h : ∃ i, IsInt v i
  · obtain ⟨i, hi⟩ := h
    simp only [isInt_iff.2 ⟨i, hi⟩, Bool.not_true, Bool.false_eq_true, if_false, ltInt_int hi, gtInt_int hi, decide_eq_true_eq]
    constructor
    · intro h; split at h
      · cases h
      · split at h
        · cases h
        · exact ⟨i, hi, by omega, by omega⟩
    · rintro ⟨j, hj, h⟩
      rw [isInt_unique hi hj, if_neg (by omega), if_neg (by omega)]
  · have : isInt v = false := by rw [← Bool.not_eq_true, isInt_iff]; exact h
    simp only [this, Bool.not_false, if_true]
    constructor
    · intro h; cases h
    · rintro ⟨i, hi, -⟩; exact absurd ⟨i, hi⟩ h

theorem isSeq_unique {v : PyVal} {l l' : List PyVal} (h : IsSeq v l) (h' : IsSeq v l') : l = l' := by
  rw [← seq?_iff] at h h'
  rw [h] at h'
  exact Option.some.inj h'

theorem seq_cases {v : PyVal} {P : List PyVal → Prop} {f : List PyVal → Bool} (hf : ∀ l, f l = true ↔ P l) :
    (match seq? v with | none => false | some l => f l) = true ↔ ∃ l, IsSeq v l ∧ P l := by
  split
  · next h =>
    constructor
    · intro h; cases h
    · rintro ⟨l, hl, -⟩
      exact absurd hl (seq?_none.1 h l)
  · next l h =>
    rw [hf]
    constructor
    · exact fun hp => ⟨l, seq?_iff.1 h, hp⟩
    · rintro ⟨l', hl, hp⟩
      rwa [isSeq_unique (seq?_iff.1 h) hl]

theorem panose2_iff {v : PyVal} : panose2Validator v = true ↔ ∃ l, IsSeq v l ∧ l.length = 10 ∧ ∀ x ∈ l, ∃ i, IsInt x i := by
  unfold panose2Validator
  apply seq_cases
  intro l
  by_cases h : l.length = 10
  · rw [if_neg (by simp [h])]; simp [h, isInt_iff]
  · rw [if_pos h]; simp [h]

theorem isInt_nonneg {x : PyVal} : (isInt x && !ltInt x 0) = true ↔ ∃ i, IsInt x i ∧ 0 ≤ i := by
  rw [← nonNegInt_iff, genericNonNegativeIntValidator]
  cases isInt x <;> cases ltInt x 0 <;> simp

theorem panose3_iff {v : PyVal} : panose3Validator v = true ↔ ∃ l, IsSeq v l ∧ l.length = 10 ∧ ∀ x ∈ l, ∃ i, IsInt x i ∧ 0 ≤ i := by
  unfold panose3Validator
  apply seq_cases
  intro l
  by_cases h : l.length = 10
  · rw [if_neg (by simp [h]), List.all_eq_true]
    simp only [isInt_nonneg, h, true_and]
  · rw [if_pos h]; simp [h]

theorem family_iff {v : PyVal} : familyClassValidator v = true ↔
    ∃ a b i j, IsSeq v [a, b] ∧ IsInt a i ∧ IsInt b j ∧ 0 ≤ i ∧ i ≤ 14 ∧ 0 ≤ j ∧ j ≤ 15 := by
  unfold familyClassValidator
  refine (seq_cases (P := fun l => ∃ a b i j, l = [a, b] ∧ IsInt a i ∧ IsInt b j ∧ 0 ≤ i ∧ i ≤ 14 ∧ 0 ≤ j ∧ j ≤ 15) ?_).trans ?_
  rotate_left
  · constructor
    · rintro ⟨l, hl, a, b, i, j, rfl, h⟩; exact ⟨a, b, i, j, hl, h⟩
    · rintro ⟨a, b, i, j, hl, h⟩; exact ⟨_, hl, a, b, i, j, rfl, h⟩
  · intro l
    by_cases hl : l.length = 2
    · obtain ⟨a, b, rfl⟩ := List.length_eq_two.1 hl
      rw [if_neg (by simp)]
      by_cases ha : ∃ i, IsInt a i
      · by_cases hb : ∃ j, IsInt b j
        · obtain ⟨i, ha⟩ := ha
          obtain ⟨j, hb⟩ := hb
          simp only [List.all_cons, List.all_nil, isInt_iff.2 ⟨i, ha⟩, isInt_iff.2 ⟨j, hb⟩, Bool.and_self, Bool.not_true, Bool.false_eq_true, if_false,
            ltInt_int ha, gtInt_int ha, ltInt_int hb, gtInt_int hb, Bool.or_eq_true, decide_eq_true_eq]
          constructor
          · intro h
            split at h
            · cases h
            · split at h
              · cases h
              · exact ⟨a, b, i, j, rfl, ha, hb, by omega, by omega, by omega, by omega⟩
          · rintro ⟨a', b', i', j', e, ha', hb', h⟩
            obtain ⟨rfl, rfl⟩ : a = a' ∧ b = b' := by simpa using e
            rw [isInt_unique ha ha', isInt_unique hb hb', if_neg (by omega), if_neg (by omega)]
        · have : isInt b = false := by rw [← Bool.not_eq_true, isInt_iff]; exact hb
          simp only [List.all_cons, this, Bool.false_and, Bool.and_false, Bool.not_false, if_true]
          constructor
          · intro h; cases h
          · rintro ⟨a', b', i', j', e, ha', hb', h⟩
            obtain ⟨rfl, rfl⟩ : a = a' ∧ b = b' := by simpa using e
            exact absurd ⟨j', hb'⟩ hb
      · have : isInt a = false := by rw [← Bool.not_eq_true, isInt_iff]; exact ha
        simp only [List.all_cons, this, Bool.false_and, Bool.not_false, if_true]
        constructor
        · intro h; cases h
        · rintro ⟨a', b', i', j', e, ha', hb', h⟩
          obtain ⟨rfl, rfl⟩ : a = a' ∧ b = b' := by simpa using e
          exact absurd ⟨i', ha'⟩ ha
    · rw [if_pos hl]
      constructor
      · intro h; cases h
      · rintro ⟨a, b, i, j, rfl, h⟩; exact absurd rfl hl

theorem blues_iff {max : Nat} {v : PyVal} : bluesValidator max v = true ↔ ∃ l, IsSeq v l ∧ l.length ≤ max ∧ 2 ∣ l.length ∧ ∀ x ∈ l, IsNum x := by
  unfold bluesValidator
  apply seq_cases
  intro l
  by_cases h1 : l.length > max
  · rw [if_pos h1]; constructor
    · intro h; cases h
    · rintro ⟨h, -⟩; omega
  · rw [if_neg h1]
    by_cases h2 : l.length % 2 = 0
    · rw [if_neg (by simp [h2]), List.all_eq_true]
      simp only [isNumber_iff]
      exact ⟨fun h => ⟨by omega, Nat.dvd_of_mod_eq_zero h2, h⟩, fun h => h.2.2⟩
    · rw [if_pos h2]; constructor
      · intro h; cases h
      · rintro ⟨-, h, -⟩; omega

theorem stems_iff {v : PyVal} : stemsValidator v = true ↔ ∃ l, IsSeq v l ∧ l.length ≤ 12 ∧ ∀ x ∈ l, IsNum x := by
  unfold stemsValidator
  apply seq_cases
  intro l
  by_cases h1 : l.length > 12
  · rw [if_pos h1]; constructor
    · intro h; cases h
    · rintro ⟨h, -⟩; omega
  · rw [if_neg h1, List.all_eq_true]
    simp only [isNumber_iff]
    exact ⟨fun h => ⟨by omega, h⟩, fun h => h.2⟩

theorem inInts_iff {v : PyVal} {l : List Int} : inInts v l = true ↔ ∃ i ∈ l, IsInt v i ∨ v = .float (.fin i) := by
  rw [inInts, List.any_eq_true]
  simp only [pyEq_int]

theorem characterSets_mem {i : Int} : i ∈ characterSets ↔ 1 ≤ i ∧ i ≤ 20 := by
  simp only [characterSets, List.mem_cons, List.not_mem_nil, or_false]
  omega

theorem characterSet_iff {v : PyVal} : windowsCharacterSetValidator v = true ↔ ∃ i : Int, 1 ≤ i ∧ i ≤ 20 ∧ (IsInt v i ∨ v = .float (.fin i)) := by
  rw [windowsCharacterSetValidator, inInts_iff]
  simp only [characterSets_mem, and_assoc]

theorem styleMap_iff {v : PyVal} : styleMapStyleNameValidator v = true ↔ ∃ s ∈ [c!"regular", c!"italic", c!"bold", c!"bold italic"], v = .str s := by
  rw [styleMapStyleNameValidator, List.any_eq_true]
  simp only [pyEq_str]

theorem intList_iff {v : PyVal} {valid : List Int} : genericIntListValidator v valid = .ok true ↔ ∃ l, IsSeq v l ∧ ∀ x ∈ l, ∃ i ∈ valid, IsInt x i := by
  unfold genericIntListValidator
  split
  · next h =>
    constructor
    · intro h; cases h
    · rintro ⟨l, hl, -⟩
      exact absurd hl (seq?_none.1 h l)
  · next l h =>
    have hl := seq?_iff.1 h
    constructor
    · intro h
      split at h
      · cases h
      · split at h
        · cases h
        · next hany =>
          refine ⟨l, hl, fun x hx => ?_⟩
          have hall : ∀ x ∈ l, isInt x = true := by simpa using h
          obtain ⟨i, hi⟩ := isInt_iff.1 (hall x hx)
          simp only [List.any_eq_true, not_exists, not_and, Bool.not_eq_true', Bool.not_eq_false] at hany
          obtain ⟨j, hj, h1 | h1⟩ := inInts_iff.1 (hany x hx)
          · exact ⟨j, hj, h1⟩
          · subst h1; rcases hi with h | ⟨h, -⟩ | ⟨h, -⟩ <;> cases h
    · rintro ⟨l', hl', hall⟩
      obtain rfl := isSeq_unique hl hl'
      have h1 : hashableList l = true := (hashableList_iff l).2 fun x hx => by
        obtain ⟨i, -, hi⟩ := hall x hx
        exact hashable_int hi
      rw [if_neg (by simp [h1]), if_neg, Except.ok.injEq, List.all_eq_true]
      · intro x hx
        obtain ⟨i, -, hi⟩ := hall x hx
        exact isInt_iff.2 ⟨i, hi⟩
      · simp only [List.any_eq_true, not_exists, not_and, Bool.not_eq_true', Bool.not_eq_false]
        intro x hx
        obtain ⟨i, hm, hi⟩ := hall x hx
        exact inInts_iff.2 ⟨i, hm, .inl hi⟩

theorem hashable_atomic {v : PyVal} (h : Atomic v) : hashable v = true := by
  cases v <;> simp [Atomic, hashable] at *

theorem intList_total {v : PyVal} {valid : List Int} (h : ∀ l, IsSeq v l → ∀ x ∈ l, Atomic x) : ∃ b, genericIntListValidator v valid = .ok b := by
  unfold genericIntListValidator
  split
  · exact ⟨_, rfl⟩
  · next l hl =>
    have h1 : hashableList l = true := (hashableList_iff l).2 fun x hx => hashable_atomic (h l (seq?_iff.1 hl) x hx)
    simp only [h1, Bool.not_true, Bool.false_eq_true, if_false]
    split <;> exact ⟨_, rfl⟩

/-! ### gasp -/

theorem gasp_reflects : Reflects gaspPrototype [(c!"rangeMaxPPEM", fun x => ∃ i, IsInt x i), (c!"rangeGaspBehavior", fun x => ∃ l, x = .list l)] [] := by
  refine ⟨by decide, ?_, ?_, ?_, ?_⟩ <;> simp [gaspPrototype, isInt_iff, isList_iff]

theorem sortedInts_iff (l : List Int) : sortedInts l = true ↔ l.Pairwise (· ≤ ·) := by
  induction l with
  | nil => simp [sortedInts]
  | cons a l ih => cases l with
    | nil => simp [sortedInts]
    | cons b l =>
      rw [sortedInts, Bool.and_eq_true, decide_eq_true_eq, ih]
      constructor
      · rintro ⟨h1, h2⟩
        rw [List.pairwise_cons] at h2
        refine List.pairwise_cons.2 ⟨fun x hx => ?_, List.pairwise_cons.2 h2⟩
        rcases List.mem_cons.1 hx with rfl | hx
        · exact h1
        · exact Int.le_trans h1 (h2.1 x hx)
      · intro h
        exact ⟨(List.pairwise_cons.1 h).1 b (by simp), (List.pairwise_cons.1 h).2⟩

theorem intOf_eq {v : PyVal} {i : Int} (h : IsInt v i) : intOf v = i := by
  rcases h with rfl | ⟨rfl, rfl⟩ | ⟨rfl, rfl⟩ <;> rfl

theorem field_unique {d : List (PyVal × PyVal)} (hd : (d.map Prod.fst).Nodup) {k : Str} {v w : PyVal} (h : (PyVal.str k, v) ∈ d) (h' : (PyVal.str k, w) ∈ d) : v = w := by
  have h1 := get_of_mem hd h
  rw [get_of_mem hd h'] at h1
  exact (Option.some.inj h1).symm

theorem intList_range {v : PyVal} : genericIntListValidator v [0, 1, 2, 3] = .ok true ↔ ∃ l, IsSeq v l ∧ ∀ x ∈ l, ∃ i, IsInt x i ∧ 0 ≤ i ∧ i ≤ 3 := by
  rw [intList_iff]
  refine exists_congr fun l => and_congr_right fun _ => forall_congr' fun x => imp_congr_right fun _ => exists_congr fun i => ?_
  have : i ∈ ([0, 1, 2, 3] : List Int) ↔ 0 ≤ i ∧ i ≤ 3 := by
    simp only [List.mem_cons, List.not_mem_nil, or_false]; omega
  rw [this]
  tauto

theorem gaspRecords_iff (l : List PyVal) (hl : ∀ e ∈ l, DictKeys e) (acc : List Int) :
    gaspRecords acc l = .ok true ↔ ∃ ppems, List.Forall₂ GaspRecord l ppems ∧ (acc ++ ppems).Pairwise (· ≤ ·) := by
  induction l generalizing acc with
  | nil => simp [gaspRecords, sortedInts_iff]
  | cons r l ih =>
    rw [List.forall_mem_cons] at hl
    unfold gaspRecords
    by_cases hg : genericDictValidator r gaspPrototype = true
    · simp only [hg, Bool.not_true, Bool.false_eq_true, if_false]
      obtain ⟨d, rfl, hf⟩ := (genericDict_iff gasp_reflects).1 hg
      have hd := hl.1 d rfl
      obtain ⟨p, hp⟩ := hf.present (c!"rangeMaxPPEM", fun x => ∃ i, IsInt x i) (by simp)
      obtain ⟨b, hb⟩ := hf.present (c!"rangeGaspBehavior", fun x => ∃ l, x = .list l) (by simp)
      simp only [get_of_mem hd hp, get_of_mem hd hb]
      have hrec : ∀ ppem, GaspRecord (.dict d) ppem ↔ IsInt p ppem ∧ 0 ≤ ppem ∧ ∃ l, b = .list l ∧ ∀ x ∈ l, ∃ i, IsInt x i ∧ 0 ≤ i ∧ i ≤ 3 := by
        intro ppem
        constructor
        · rintro ⟨d', p', b', e, -, h1, h2, h3, h4, h5⟩
          rw [PyVal.dict.injEq] at e
          subst e
          rw [field_unique hd hp h1]
          exact ⟨h2, h3, b', field_unique hd hb h4, h5⟩
        · rintro ⟨h2, h3, l, rfl, h5⟩
          exact ⟨d, p, l, rfl, hf, hp, h2, h3, hb, h5⟩
      have hblist : ∃ l, b = .list l := by
        rcases hf.typed _ hb with ⟨r, hr, e, ht⟩ | ⟨r, hr, -⟩
        · simp only [List.mem_cons, List.not_mem_nil, or_false] at hr
          rcases hr with rfl | rfl
          · simp at e
          · exact ht
        · cases hr
      obtain ⟨bl, rfl⟩ := hblist
      have hcons : (∃ ppems, List.Forall₂ GaspRecord (.dict d :: l) ppems ∧ (acc ++ ppems).Pairwise (· ≤ ·)) ↔
          ∃ i ppems, GaspRecord (.dict d) i ∧ List.Forall₂ GaspRecord l ppems ∧ (acc ++ i :: ppems).Pairwise (· ≤ ·) := by
        constructor
        · rintro ⟨ppems, h, hp⟩
          cases h with
          | cons h1 h2 => exact ⟨_, _, h1, h2, hp⟩
        · rintro ⟨i, ppems, h1, h2, hp⟩
          exact ⟨i :: ppems, .cons h1 h2, hp⟩
      rw [hcons]
      simp only [hrec]
      by_cases hn : genericNonNegativeIntValidator p = true
      · simp only [hn, Bool.not_true, Bool.false_eq_true, if_false]
        obtain ⟨i, hi, hi0⟩ := nonNegInt_iff.1 hn
        have hrange := intList_range (v := .list bl)
        rcases hgl : genericIntListValidator (.list bl) [0, 1, 2, 3] with e | _ | _
        · simp only [reduceCtorEq, false_iff]
          rintro ⟨j, ppems, ⟨-, -, l', e, h⟩, -⟩
          rw [hgl] at hrange
          exact absurd (hrange.2 ⟨l', .inl e, h⟩) (by simp)
        · simp only [Except.ok.injEq, Bool.false_eq_true, false_iff]
          rintro ⟨j, ppems, ⟨-, -, l', e, h⟩, -⟩
          rw [hgl] at hrange
          exact absurd (hrange.2 ⟨l', .inl e, h⟩) (by simp)
        · rw [ih hl.2, intOf_eq hi]
          obtain ⟨l', hl', h⟩ := hrange.1 hgl
          have hbl : l' = bl := isSeq_unique hl' (.inl rfl)
          subst hbl
          constructor
          · rintro ⟨ppems, h1, h2⟩
            exact ⟨i, ppems, ⟨hi, hi0, _, rfl, h⟩, h1, by simpa using h2⟩
          · rintro ⟨j, ppems, ⟨hj, -⟩, h1, h2⟩
            obtain rfl := isInt_unique hi hj
            exact ⟨ppems, h1, by simpa using h2⟩
      · simp only [hn, Bool.not_false, if_true, Except.ok.injEq, Bool.false_eq_true, false_iff]
        rintro ⟨j, ppems, ⟨hj, hj0, -⟩, -⟩
        exact hn (nonNegInt_iff.2 ⟨j, hj, hj0⟩)
    · simp only [hg, Bool.not_false, if_true, Except.ok.injEq, Bool.false_eq_true, false_iff]
      rintro ⟨ppems, h, -⟩
      cases h with
      | cons h1 _ =>
        obtain ⟨d, p, b, rfl, hf, -⟩ := h1
        exact hg ((genericDict_iff gasp_reflects).2 ⟨d, rfl, hf⟩)

theorem gasp_iff {v : PyVal} (hv : ∀ l, v = .list l → ∀ e ∈ l, DictKeys e) :
    gaspRangeRecordsValidator v = .ok true ↔ ∃ l ppems, v = .list l ∧ List.Forall₂ GaspRecord l ppems ∧ ppems.Pairwise (· ≤ ·) := by
  unfold gaspRangeRecordsValidator
  split
  · simp
  · next l _ =>
    rw [gaspRecords_iff l (hv l rfl)]
    simp
  · next h1 h2 =>
    simp only [Except.ok.injEq, Bool.false_eq_true, false_iff]
    rintro ⟨l, ppems, rfl, -⟩
    exact h2 l rfl

/-! ### layer tables -/

/-- The table as a Python value. -/
def tableVal (t : List (Str × Str)) : List PyVal := t.map fun p => .list [.str p.1, .str p.2]

theorem startsWith_iff (s p : Str) : startsWith s p = true ↔ ∃ r, s = p ++ r := by
  rw [startsWith, List.isPrefixOf_iff_prefix]
  exact ⟨fun ⟨r, h⟩ => ⟨r, h.symm⟩, fun ⟨r, h⟩ => ⟨r, h.symm⟩⟩

/-- `LayerTable` with the names and directories already seen. -/
structure LayerRest (fsExists : Str → Except Exc Bool) (names dirs : List Str) (t : List (Str × Str)) : Prop where
  newNames : (t.map Prod.fst).Nodup ∧ ∀ p ∈ t, p.1 ∉ names
  newDirs : (t.map Prod.snd).Nodup ∧ ∀ p ∈ t, p.2 ∉ dirs
  named : ∀ p ∈ t, p.1 ≠ []
  dirNames : ∀ p ∈ t, p.2 = c!"glyphs" ∨ ∃ r, p.2 = c!"glyphs." ++ r
  exist : ∀ p ∈ t, fsExists p.2 = .ok true
  default : c!"glyphs" ∈ dirs ++ t.map Prod.snd
  publicName : ∀ p ∈ t, p.1 = c!"public.default" → p.2 = c!"glyphs"

theorem layerEntries_iff (fsExists : Str → Except Exc Bool) (l : List PyVal) (names dirs : List Str) :
    layerEntries fsExists names dirs l = .ok true ↔ ∃ t, l = tableVal t ∧ LayerRest fsExists names dirs t := by
  induction l generalizing names dirs with
  | nil =>
    simp only [layerEntries, Except.ok.injEq, decide_eq_true_eq]
    constructor
    · intro h
      exact ⟨[], rfl, by constructor <;> simp [h]⟩
    · rintro ⟨t, ht, h⟩
      cases t with
      | nil => simpa using h.default
      | cons p t => cases ht
  | cons v l ih =>
    by_cases hv : ∃ n d, v = .list [.str n, .str d]
    · obtain ⟨n, d, rfl⟩ := hv
      rw [layerEntries]
      have hcons : (∃ t, (PyVal.list [.str n, .str d]) :: l = tableVal t ∧ LayerRest fsExists names dirs t) ↔
          ∃ t, l = tableVal t ∧ LayerRest fsExists names dirs ((n, d) :: t) := by
        constructor
        · rintro ⟨t, ht, h⟩
          cases t with
          | nil => cases ht
          | cons p t =>
            simp only [tableVal, List.map_cons, List.cons.injEq, PyVal.list.injEq, PyVal.str.injEq, and_true] at ht
            obtain ⟨⟨h1, h2⟩, h3⟩ := ht
            have : (n, d) = p := Prod.ext h1 h2
            exact ⟨t, h3, this ▸ h⟩
        · rintro ⟨t, rfl, h⟩
          exact ⟨(n, d) :: t, rfl, h⟩
      rw [hcons]
      have hrest : ∀ t, LayerRest fsExists names dirs ((n, d) :: t) ↔
          (d = c!"glyphs" ∨ ∃ r, d = c!"glyphs." ++ r) ∧ n ≠ [] ∧ fsExists d = .ok true ∧ (n = c!"public.default" → d = c!"glyphs") ∧ n ∉ names ∧ d ∉ dirs ∧
            LayerRest fsExists (names ++ [n]) (dirs ++ [d]) t := by
        intro t
        constructor
        · rintro ⟨⟨h1, h1'⟩, ⟨h2, h2'⟩, h3, h4, h5, h6, h7⟩
          rw [List.forall_mem_cons] at h1' h2' h3 h4 h5 h7
          simp only [List.map_cons, List.nodup_cons] at h1 h2
          refine ⟨h4.1, h3.1, h5.1, h7.1, h1'.1, h2'.1, ⟨h1.2, ?_⟩, ⟨h2.2, ?_⟩, h3.2, h4.2, h5.2, ?_, h7.2⟩
          · intro p hp
            simp only [List.mem_append, List.mem_singleton, not_or]
            exact ⟨h1'.2 p hp, fun e => h1.1 (e ▸ List.mem_map_of_mem hp)⟩
          · intro p hp
            simp only [List.mem_append, List.mem_singleton, not_or]
            exact ⟨h2'.2 p hp, fun e => h2.1 (e ▸ List.mem_map_of_mem hp)⟩
          · simpa using h6
        · rintro ⟨g1, g2, g3, g4, g5, g6, ⟨h1, h1'⟩, ⟨h2, h2'⟩, h3, h4, h5, h6, h7⟩
          simp only [List.mem_append, List.mem_singleton, not_or] at h1' h2'
          refine ⟨⟨?_, ?_⟩, ⟨?_, ?_⟩, ?_, ?_, ?_, ?_, ?_⟩
          · simp only [List.map_cons, List.nodup_cons]
            refine ⟨?_, h1⟩
            intro hm
            obtain ⟨p, hp, e⟩ := List.mem_map.1 hm
            exact (h1' p hp).2 e
          · rw [List.forall_mem_cons]
            exact ⟨g5, fun p hp => (h1' p hp).1⟩
          · simp only [List.map_cons, List.nodup_cons]
            refine ⟨?_, h2⟩
            intro hm
            obtain ⟨p, hp, e⟩ := List.mem_map.1 hm
            exact (h2' p hp).2 e
          · rw [List.forall_mem_cons]
            exact ⟨g6, fun p hp => (h2' p hp).1⟩
          · rw [List.forall_mem_cons]; exact ⟨g2, h3⟩
          · rw [List.forall_mem_cons]; exact ⟨g1, h4⟩
          · rw [List.forall_mem_cons]; exact ⟨g3, h5⟩
          · simpa using h6
          · rw [List.forall_mem_cons]; exact ⟨g4, h7⟩
      simp only [hrest]
      by_cases g1 : d = c!"glyphs" ∨ ∃ r, d = c!"glyphs." ++ r
      · rw [if_neg (by
          rw [← startsWith_iff] at g1
          rintro ⟨h1, h2⟩
          rcases g1 with g1 | g1
          · exact h1 g1
          · rw [h2] at g1; cases g1)]
        by_cases g2 : n = []
        · rw [if_pos g2]; simp [g2]
        · rw [if_neg g2]
          rcases g3 : fsExists d with e | _ | _
          · simp
          · simp
          · dsimp only
            by_cases g4 : n = c!"public.default" → d = c!"glyphs"
            · rw [if_neg (by rintro ⟨h1, h2⟩; exact h2 (g4 h1))]
              by_cases g5 : n ∈ names
              · rw [if_pos g5]; simp [g5]
              · rw [if_neg g5]
                by_cases g6 : d ∈ dirs
                · rw [if_pos g6]; simp [g6]
                · rw [if_neg g6, ih]
                  exact exists_congr fun t => and_congr_right fun _ => ⟨fun h => ⟨g1, g2, rfl, g4, g5, g6, h⟩, fun h => h.2.2.2.2.2.2⟩
            · rw [if_pos (by simpa using g4)]
              simp only [Except.ok.injEq, Bool.false_eq_true, false_iff]
              rintro ⟨t, -, -, -, -, h, -⟩
              exact g4 h
      · rw [if_pos (by
          rw [not_or, ← startsWith_iff, Bool.not_eq_true] at g1
          exact g1)]
        simp only [Except.ok.injEq, Bool.false_eq_true, false_iff]
        rintro ⟨t, -, h, -⟩
        exact g1 h
    · have hout : layerEntries fsExists names dirs (v :: l) = .ok false := by
        unfold layerEntries
        split
        · next heq => cases heq
        · next heq =>
          rw [List.cons.injEq] at heq
          exact absurd ⟨_, _, heq.1⟩ hv
        · rfl
      rw [hout]
      simp only [Except.ok.injEq, Bool.false_eq_true, false_iff]
      rintro ⟨t, ht, -⟩
      cases t with
      | nil => cases ht
      | cons p t =>
        simp only [tableVal, List.map_cons, List.cons.injEq] at ht
        exact hv ⟨_, _, ht.1⟩

theorem layerTable_iff {fsExists : Str → Except Exc Bool} {t : List (Str × Str)} : LayerRest fsExists [] [] t ↔ LayerTable fsExists t := by
  constructor
  · rintro ⟨⟨h1, -⟩, ⟨h2, -⟩, h3, h4, h5, h6, h7⟩
    exact ⟨h1, h2, h3, h4, h5, by simpa using h6, h7⟩
  · rintro ⟨h1, h2, h3, h4, h5, h6, h7⟩
    exact ⟨⟨h1, by simp⟩, ⟨h2, by simp⟩, h3, h4, h5, by simpa using h6, h7⟩

theorem layerContents_iff {fsExists : Str → Except Exc Bool} {v : PyVal} :
    layerContentsValidator fsExists v = .ok true ↔ ∃ t, v = .list (tableVal t) ∧ LayerTable fsExists t := by
  unfold layerContentsValidator
  split
  · next l =>
    rw [layerEntries_iff]
    simp only [PyVal.list.injEq, layerTable_iff]
  · next h =>
    simp only [Except.ok.injEq, Bool.false_eq_true, false_iff]
    rintro ⟨t, rfl, -⟩
    exact h _ rfl

theorem layerEntries_total {fsExists : Str → Except Exc Bool} (hf : ∀ d, ∃ b, fsExists d = .ok b) (l : List PyVal) (names dirs : List Str) :
    ∃ b, layerEntries fsExists names dirs l = .ok b := by
  induction l generalizing names dirs with
  | nil => exact ⟨_, rfl⟩
  | cons v l ih =>
    unfold layerEntries
    split
    · next heq => cases heq
    · split; · exact ⟨_, rfl⟩
      split; · exact ⟨_, rfl⟩
      split
      · next d _ _ _ _ _ e he =>
        obtain ⟨b, hb⟩ := hf d
        rw [hb] at he; cases he
      · exact ⟨_, rfl⟩
      · split; · exact ⟨_, rfl⟩
        split; · exact ⟨_, rfl⟩
        split; · exact ⟨_, rfl⟩
        next heq _ _ _ _ _ _ _ =>
        rw [List.cons.injEq] at heq
        rw [← heq.2]
        exact ih _ _
    · exact ⟨_, rfl⟩

/-! ### kerning and libs -/

theorem kerning_iff {v : PyVal} : kerningValidator v = true ↔
    ∃ d, v = .dict d ∧ ∀ p ∈ d, IsString p.1 ∧ ∃ s, p.2 = .dict s ∧ ∀ q ∈ s, IsString q.1 ∧ IsNum q.2 := by
  unfold kerningValidator
  split
  · next d =>
    rw [List.all_eq_true]
    simp only [PyVal.dict.injEq, exists_eq_left', Bool.and_eq_true, isStr_iff]
    refine forall_congr' fun p => imp_congr_right fun _ => and_congr_right fun _ => ?_
    split
    · next s hs =>
      rw [List.all_eq_true]
      simp only [Bool.and_eq_true, isStr_iff, isNumber_iff, hs, PyVal.dict.injEq, exists_eq_left']
    · next hs =>
      simp only [Bool.false_eq_true, false_iff]
      rintro ⟨s, h, -⟩
      exact hs s h
  · next h =>
    simp only [Bool.false_eq_true, false_iff]
    rintro ⟨d, rfl, -⟩
    exact h d rfl

theorem fontLib_iff {v : PyVal} : fontLibValidator v = true ↔
    ∃ d, v = .dict d ∧ ∀ p ∈ d, IsString p.1 ∧ (p.1 = .str c!"public.glyphOrder" → ∃ l, IsSeq p.2 l ∧ ∀ x ∈ l, IsString x) := by
  unfold fontLibValidator
  split
  · next d =>
    rw [List.all_eq_true]
    simp only [PyVal.dict.injEq, exists_eq_left', Bool.and_eq_true, isStr_iff]
    refine forall_congr' fun p => imp_congr_right fun _ => and_congr_right fun _ => ?_
    by_cases hk : p.1 = .str c!"public.glyphOrder"
    · rw [if_pos hk]
      simp only [hk, true_imp_iff]
      split
      · next hs =>
        simp only [Bool.false_eq_true, false_iff]
        rintro ⟨l, hl, -⟩
        exact seq?_none.1 hs l hl
      · next l hs =>
        rw [List.all_eq_true]
        simp only [isStr_iff]
        constructor
        · exact fun h => ⟨l, seq?_iff.1 hs, h⟩
        · rintro ⟨l', hl, h⟩
          rwa [isSeq_unique (seq?_iff.1 hs) hl]
    · rw [if_neg hk]
      simp [hk]
  · next h =>
    simp only [Bool.false_eq_true, false_iff]
    rintro ⟨d, rfl, -⟩
    exact h d rfl

theorem glyphLibItems_iff {F : FloatCodec} (d : List (PyVal × PyVal)) : glyphLibItems F d = .ok true ↔
    ∀ p ∈ d, IsString p.1 ∧ (p.1 = .str c!"public.markColor" → ∃ s, p.2 = .str s ∧ FourNumbers F (Within 0 1) s) := by
  induction d with
  | nil => simp [glyphLibItems]
  | cons p d ih =>
    rw [List.forall_mem_cons, ← ih]
    obtain ⟨k, v⟩ := p
    by_cases hs : IsString k
    · obtain ⟨key, rfl⟩ := hs
      rw [glyphLibItems]
      have hstr : IsString (.str key) := ⟨key, rfl⟩
      simp only [hstr, true_and, PyVal.str.injEq, ← color_iff]
      by_cases hk : key = c!"public.markColor"
      · rw [if_pos hk]
        simp only [hk, true_imp_iff]
        cases colorValidator F v <;> simp
      · rw [if_neg hk]; simp [hk]
    · simp only [hs, false_and, iff_false]
      unfold glyphLibItems
      split
      · next heq => cases heq
      · next heq =>
        simp only [List.cons.injEq, Prod.mk.injEq] at heq
        exact absurd ⟨_, heq.1.1⟩ hs
      · split <;> simp
      · simp

theorem glyphLib_iff {F : FloatCodec} {v : PyVal} : glyphLibValidator F v = .ok true ↔
    ∃ d, v = .dict d ∧ ∀ p ∈ d, IsString p.1 ∧ (p.1 = .str c!"public.markColor" → ∃ s, p.2 = .str s ∧ FourNumbers F (Within 0 1) s) := by
  unfold glyphLibValidator
  split
  · rw [glyphLibItems_iff]; simp
  · next h =>
    simp only [Except.ok.injEq, Bool.false_eq_true, false_iff]
    rintro ⟨d, rfl, -⟩
    exact h d rfl

end Verif.Validators
