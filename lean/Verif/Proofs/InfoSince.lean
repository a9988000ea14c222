import Verif.Proofs.InfoLegal
import Verif.Proofs.Stored
/-! Font info: what the values of UFO 1 and 2 stand for. -/
namespace Verif.FontInfo
open Verif Verif.Validators Verif.Spec.Validators Verif.Spec.Woff Verif.Spec.FontInfo Verif.Spec.InfoLegal

/-! ### From UFO 2 -/

theorem settled_iff {f : PyVal → Except Exc Int} {v w : PyVal} {n : Int} (h : f v = .ok n) : integerStep f v = .ok w ↔ Settled v n w := by
  by_cases hn : IsRat v n
  · rw [integerStep_of h hn]
    simp [Settled, hn, eq_comm]
  · rw [integerStep_replace h hn]
    simp [Settled, hn, eq_comm]

theorem nearest_unique {q : Rat} {i j : Int} (hi : Nearest q i) (hj : Nearest q j) : i = j := by
  obtain ⟨a1, a2, a3⟩ := hi
  obtain ⟨b1, b2, b3⟩ := hj
  rcases lt_trichotomy i j with h | h | h
  · have : (i : Rat) + 1 ≤ j := by exact_mod_cast h
    have e1 : q = (i : Rat) + 1 / 2 := by linarith
    have e2 : q = (j : Rat) - 1 / 2 := by linarith
    have e3 : (j : Rat) = i + 1 := by linarith
    have e4 : j = i + 1 := by exact_mod_cast e3
    have := a3 (.inr e1)
    have := b3 (.inl e2)
    omega
  · exact h
  · have : (j : Rat) + 1 ≤ i := by exact_mod_cast h
    have e1 : q = (j : Rat) + 1 / 2 := by linarith
    have e2 : q = (i : Rat) - 1 / 2 := by linarith
    have e3 : (i : Rat) = j + 1 := by linarith
    have e4 : i = j + 1 := by exact_mod_cast e3
    have := b3 (.inr e1)
    have := a3 (.inl e2)
    omega

theorem isRat_unique {v : PyVal} {q q' : Rat} (h : IsRat v q) (h' : IsRat v q') : q = q' := by
  have := numIs_unique h h'
  simpa using this

theorem rat_of_roundInt {v : PyVal} {n : Int} (h : roundInt v = .ok n) : ∃ q, IsRat v q := by
  by_cases hn : IsNum v
  · rcases isNum_cases hn with h' | ⟨f, rfl, hf⟩
    · exact h'
    · obtain ⟨e, he⟩ := roundInt_notFinite hf
      rw [he] at h; cases h
  · rw [(roundInt_not_num hn).1] at h; cases h

theorem roundInt_iff {v : PyVal} {n : Int} : roundInt v = .ok n ↔ ∃ q, IsRat v q ∧ Nearest q n := by
  constructor
  · intro h
    obtain ⟨q, hq⟩ := rat_of_roundInt h
    obtain ⟨m, hm, hn⟩ := roundInt_rat hq
    rw [h] at hm; cases hm
    exact ⟨q, hq, hn⟩
  · rintro ⟨q, hq, hn⟩
    obtain ⟨m, hm, hn'⟩ := roundInt_rat hq
    rw [hm, nearest_unique hn hn']

theorem absInt_iff {v : PyVal} {n : Int} : absInt v = .ok n ↔ ∃ q, IsRat v q ∧ Truncated q n := by
  have hfl : ∀ q : Rat, q.floor = n ↔ (n : Rat) ≤ q ∧ q < n + 1 := by
    intro q
    constructor
    · rintro rfl
      have := Rat.lt_floor_add_one q
      rw [Rat.intCast_add, Rat.intCast_one] at this
      exact ⟨Rat.floor_le q, this⟩
    · rintro ⟨h1, h2⟩
      have a := Rat.le_floor_iff.2 h1
      have b : q.floor < n + 1 := Rat.floor_lt_iff.2 (by rw [Rat.intCast_add, Rat.intCast_one]; exact h2)
      omega
  have key : ∀ q, IsRat v q → (absInt v = .ok n ↔ Truncated q n) := by
    intro q hq
    rw [absInt_rat hq, Except.ok.injEq, hfl, Truncated]
    by_cases h : q < 0
    · rw [if_pos h]
      have : ¬ 0 ≤ q := not_le.2 h
      simp [h, this]
    · rw [if_neg h]
      have : 0 ≤ q := not_lt.1 h
      simp [h, this]
  constructor
  · intro h
    by_cases hn : IsNum v
    · rcases isNum_cases hn with ⟨q, hq⟩ | ⟨f, rfl, hf⟩
      · exact ⟨q, hq, (key q hq).1 h⟩
      · cases f with
        | fin q => exact absurd rfl (hf q)
        | nan => cases h
        | inf b => cases h
    · rw [(roundInt_not_num hn).2] at h; cases h
  · rintro ⟨q, hq, h⟩
    exact (key q hq).2 h

theorem integerStep_iff {f : PyVal → Except Exc Int} {v w : PyVal} : integerStep f v = .ok w ↔ ∃ n, f v = .ok n ∧ Settled v n w := by
  constructor
  · intro h
    obtain ⟨n, hn, -⟩ := integerStep_ok h
    exact ⟨n, hn, (settled_iff hn).1 h⟩
  · rintro ⟨n, hn, h⟩
    exact (settled_iff hn).2 h

theorem settled_rat {v w : PyVal} {n : Int} (h : Settled v n w) : IsRat w n := by
  rcases h with ⟨h, rfl⟩ | ⟨-, rfl⟩
  exacts [h, numIs_int n]

/-- Rounding and then dropping the sign. -/
theorem settled_twice {v w x : PyVal} {q : Rat} {n : Int} (hq : IsRat v q) (hN : Nearest q n) (h : Settled v n w) :
    Settled w (n.natAbs : Int) x ↔ Settled v (n.natAbs : Int) x := by
  have hw := settled_rat h
  by_cases hn : (n.natAbs : Int) = n
  · rw [hn]
    rcases h with ⟨h, rfl⟩ | ⟨h, rfl⟩
    · exact Iff.rfl
    · simp only [Settled, hw, h, true_and, false_and, not_true_eq_false, or_false, false_or, not_false_eq_true]
  · have hw' : ¬ IsRat w (n.natAbs : Int) := fun h' => hn (by have := isRat_unique h' hw; exact_mod_cast this)
    have hv : ¬ IsRat v (n.natAbs : Int) := fun h' => hn (by
      rw [isRat_unique hq h'] at hN
      exact (nearest_of_int hN).symm)
    simp only [Settled, hw', hv, false_and, not_false_eq_true, true_and, false_or]

/-- The conversion of values from UFO 2 to UFO 3. -/
theorem since2_iff {a : Str} {v w : PyVal} : convert23 a v = .ok w ↔ Since2 a v w := by
  have hdis : ∀ a ∈ integerSince3, a ∉ nonNegativeIntegerSince3 := by decide +kernel
  have hmin := floatToInt_minor
  by_cases h1 : a ∈ integerSince3
  · rw [convert23_integer h1, integerStep_iff]
    constructor
    · rintro ⟨n, hn, hs⟩
      obtain ⟨q, hq, hN⟩ := roundInt_iff.1 hn
      exact .integer h1 hq hN hs
    · intro h
      cases h with
      | integer _ hq hN hs => exact ⟨_, roundInt_iff.2 ⟨_, hq, hN⟩, hs⟩
      | nonNegative h2 => exact absurd h2 (hdis a h1)
      | minor => exact absurd h1 hmin.1
      | same h2 => exact absurd (by simp [h1]) h2
  by_cases h2 : a ∈ nonNegativeIntegerSince3
  · have hc : convert23 a v = .ok w ↔ ∃ x, integerStep roundInt v = .ok x ∧ integerStep absInt x = .ok w := by
      obtain ⟨ha, hb⟩ := lists3.2.1 a h2
      unfold convert23
      simp only [ha, hb, if_true]
      rcases integerStep roundInt v with e | x <;> simp
    rw [hc]
    constructor
    · rintro ⟨x, hx, hw⟩
      obtain ⟨n, hn, hs⟩ := integerStep_iff.1 hx
      obtain ⟨q, hq, hN⟩ := roundInt_iff.1 hn
      exact .nonNegative h2 hq hN ((settled_twice hq hN hs).1 ((settled_iff (absInt_int (settled_rat hs))).1 hw))
    · intro h
      cases h with
      | integer h => exact absurd h h1
      | @nonNegative _ _ q n _ _ hq hN hs =>
        obtain ⟨x, hx, -⟩ := integerStep_total (roundInt_iff.2 ⟨q, hq, hN⟩)
        have hsx := (settled_iff (roundInt_iff.2 ⟨q, hq, hN⟩)).1 hx
        exact ⟨x, hx, (settled_iff (absInt_int (settled_rat hsx))).2 ((settled_twice hq hN hsx).2 hs)⟩
      | minor => exact absurd h2 hmin.2
      | same h => exact absurd (by simp [h2]) h
  by_cases h3 : a = c!"versionMinor"
  · subst h3
    rw [convert23_minor, integerStep_iff]
    constructor
    · rintro ⟨n, hn, hs⟩
      obtain ⟨q, hq, hN⟩ := absInt_iff.1 hn
      exact .minor hq hN hs
    · intro h
      cases h with
      | integer h => exact absurd h h1
      | nonNegative h => exact absurd h h2
      | minor hq hN hs => exact ⟨_, absInt_iff.2 ⟨_, hq, hN⟩, hs⟩
      | same h => exact absurd (by simp) h
  · rw [convert23_other h3 h1 h2]
    constructor
    · intro h; cases h
      exact .same (by simp [h1, h2, h3])
    · intro h
      cases h with
      | integer h => exact absurd h h1
      | nonNegative h => exact absurd h h2
      | minor => exact absurd rfl h3
      | same h => rfl

/-! ### From UFO 1 -/

theorem floatToInt1_other {v : PyVal} (h : ∀ f, v ≠ .float f) : floatToInt1 v = .ok v := by
  cases v <;> first | rfl | exact absurd rfl (h _)

theorem int_of_den {q : Rat} : q.den = 1 ↔ ∃ i : Int, q = i := by
  constructor
  · intro h; exact ⟨q.num, (Rat.den_eq_one_iff q).1 h |>.symm⟩
  · rintro ⟨i, rfl⟩; exact Rat.den_intCast i

/-- Integral floats become integers. -/
theorem floatToInt1_iff {v w : PyVal} : floatToInt1 v = .ok w ↔
    (∃ i : Int, v = .float (.fin i) ∧ w = .int i) ∨ (w = v ∧ ∀ f, v = .float f → ∃ q, f = .fin q ∧ ∀ i : Int, q ≠ i) := by
  by_cases h : ∃ f, v = .float f
  · obtain ⟨f, rfl⟩ := h
    cases f with
    | nan => simp [floatToInt1]
    | inf b => simp [floatToInt1]
    | fin q =>
      by_cases hd : q.den = 1
      · obtain ⟨i, rfl⟩ := int_of_den.1 hd
        simp [floatToInt1, eq_comm]
      · have : ∀ i : Int, q ≠ i := fun i hi => hd (int_of_den.2 ⟨i, hi⟩)
        simp only [floatToInt1, hd, if_false, Except.ok.injEq, PyVal.float.injEq, Flt.fin.injEq]
        constructor
        · rintro rfl; exact .inr ⟨rfl, fun f hf => ⟨q, hf.symm, this⟩⟩
        · rintro (⟨i, hi, -⟩ | ⟨rfl, -⟩)
          exacts [absurd hi (this i), rfl]
  · rw [floatToInt1_other (fun f hf => h ⟨f, hf⟩)]
    constructor
    · intro e; cases e; exact .inr ⟨rfl, fun f hf => absurd ⟨f, hf⟩ h⟩
    · rintro (⟨i, rfl, -⟩ | ⟨rfl, -⟩)
      exacts [absurd ⟨_, rfl⟩ h, rfl]

theorem floatToInt1_rat {v w : PyVal} (h : floatToInt1 v = .ok w) {i : Int} : IsRat w i ↔ IsRat v i := by
  rcases floatToInt1_iff.1 h with ⟨j, rfl, rfl⟩ | ⟨rfl, -⟩
  · constructor
    · intro hi
      rw [isRat_unique hi (numIs_int j)]; exact .inr rfl
    · intro hi
      rw [isRat_unique hi (.inr rfl)]; exact numIs_int j
  · exact Iff.rfl

theorem getInt_iff {β : Type} {d : Dict Int β} {v : PyVal} {x : β} : getInt d v = .ok (some x) ↔ ∃ i : Int, IsRat v i ∧ Dict.get? d i = some x := by
  constructor
  · intro h
    have : ∃ i : Int, IsRat v i := by
      unfold getInt at h
      split at h
      · cases h
      · rw [Except.ok.injEq, Option.map_eq_some_iff] at h
        obtain ⟨p, hp, -⟩ := h
        have := List.find?_some hp
        exact ⟨p.1, isNum_rat_of_int (pyEq_int.1 this)⟩
    obtain ⟨i, hi⟩ := this
    rw [getInt_rat d hi, Except.ok.injEq] at h
    exact ⟨i, hi, h⟩
  · rintro ⟨i, hi, h⟩
    rw [getInt_rat d hi, h]

theorem getStr_iff {β : Type} {d : Dict Str β} {v : PyVal} {x : β} : getStr d v = .ok (some x) ↔ ∃ s, v = .str s ∧ Dict.get? d s = some x := by
  constructor
  · intro h
    have : ∃ s, v = .str s := by
      unfold getStr at h
      split at h
      · cases h
      · rw [Except.ok.injEq, Option.map_eq_some_iff] at h
        obtain ⟨p, hp, -⟩ := h
        have := List.find?_some hp
        exact ⟨p.1, pyEq_str.1 this⟩
    obtain ⟨s, rfl⟩ := this
    rw [getStr_str d, Except.ok.injEq] at h
    exact ⟨s, rfl, h⟩
  · rintro ⟨s, rfl, h⟩
    rw [getStr_str d, h]

theorem required_iff {β : Type} {f : β → PyVal} {e : Except Exc (Option β)} {w : PyVal} : required f e = .ok w ↔ ∃ x, e = .ok (some x) ∧ w = f x := by
  rcases e with e | _ | x <;> simp [required, eq_comm]

theorem fontStyle_iff {i : Int} {s : Str} : Dict.get? fontStyle12 i = some s ↔ (s, i) ∈ stylesRead := by
  have h1 : ∀ p ∈ fontStyle12, (p.2, p.1) ∈ stylesRead := by decide +kernel
  have h2 : ∀ p ∈ stylesRead, Dict.get? fontStyle12 p.2 = some p.1 := by decide +kernel
  exact ⟨fun h => h1 _ (Dict.mem_of_get? h), h2 (s, i)⟩

theorem widthName_iff {i : Int} {s : Str} : Dict.get? widthName12 s = some i ↔ (i, s) ∈ widthsRead := by
  have h1 : ∀ p ∈ widthName12, (p.2, p.1) ∈ widthsRead := by decide +kernel
  have h2 : ∀ p ∈ widthsRead, Dict.get? widthName12 p.2 = some p.1 := by decide +kernel
  exact ⟨fun h => h1 _ (Dict.mem_of_get? h), h2 (i, s)⟩

theorem charSet_iff {c i : Int} : Dict.get? charSet12 c = some i ↔ ∃ n : Nat, characterSets1[n]? = some c ∧ i = n + 1 := by
  have h1 : ∀ p ∈ charSet12, ∃ n ∈ List.range 20, characterSets1[n]? = some p.1 ∧ p.2 = (n : Int) + 1 := by decide +kernel
  have h2 : ∀ n ∈ List.range 20, ∀ c ∈ characterSets1[n]?, Dict.get? charSet12 c = some ((n : Int) + 1) := by decide +kernel
  constructor
  · intro h
    obtain ⟨n, -, h⟩ := h1 _ (Dict.mem_of_get? h)
    exact ⟨n, h⟩
  · rintro ⟨n, hn, rfl⟩
    have hlt : n < characterSets1.length := (List.getElem?_eq_some_iff.1 hn).1
    exact h2 n (List.mem_range.2 hlt) c hn

/-- The conversion of values from UFO 1 to UFO 2. -/
theorem since1_iff {a b : Str} (hab : (a, b) ∈ version1) {v w : PyVal} (hv : v ≠ .none) : convert12 a v = .ok (b, w) ↔ Since1 a v w := by
  have hb : Dict.getD names12 a a = b := by
    have : ∀ p ∈ version1, Dict.getD names12 p.1 p.1 = p.2 := by decide +kernel
    exact this _ hab
  have hc : convert12 a v = .ok (b, w) ↔ ∃ x, floatToInt1 v = .ok x ∧ special12 a x = .ok w := by
    unfold convert12
    rcases floatToInt1 v with e | x
    · simp
    · simp only [Except.ok.injEq, exists_eq_left']
      rcases special12 a x with e | y <;> simp [hb]
  have hx : ∀ x, floatToInt1 v = .ok x → x ≠ .none := by
    intro x h
    rcases floatToInt1_iff.1 h with ⟨j, rfl, rfl⟩ | ⟨rfl, -⟩
    exacts [by simp, hv]
  have hrat : ∀ {i : Int}, IsRat v i → ∃ x, floatToInt1 v = .ok x ∧ IsRat x i := by
    intro i hi
    rcases isRat_float_int hi with h | rfl
    · refine ⟨v, floatToInt1_other ?_, hi⟩
      rintro f rfl
      rcases h with h | ⟨h, -⟩ | ⟨h, -⟩ <;> cases h
    · exact ⟨.int i, floatToInt1_iff.2 (.inl ⟨i, rfl, rfl⟩), numIs_int i⟩
  rw [hc]
  by_cases h1 : a = c!"fontStyle"
  · subst h1
    constructor
    · rintro ⟨x, hxv, hs⟩
      rw [special12, if_neg (hx x hxv), if_pos rfl, required_iff] at hs
      obtain ⟨s, hs, rfl⟩ := hs
      obtain ⟨i, hi, hs⟩ := getInt_iff.1 hs
      exact .style (fontStyle_iff.1 hs) ((floatToInt1_rat hxv).1 hi)
    · intro h
      cases h with
      | style hs hi =>
        obtain ⟨x, hxv, hi⟩ := hrat hi
        refine ⟨x, hxv, ?_⟩
        rw [special12, if_neg (hx x hxv), if_pos rfl, required_iff]
        exact ⟨_, getInt_iff.2 ⟨_, hi, fontStyle_iff.2 hs⟩, rfl⟩
      | integral h => exact absurd (by decide) h
      | same h => exact absurd (by decide) h
  by_cases h2 : a = c!"widthName"
  · subst h2
    constructor
    · rintro ⟨x, hxv, hs⟩
      rw [special12, if_neg (hx x hxv), if_neg h1, if_pos rfl, required_iff] at hs
      obtain ⟨i, hs, rfl⟩ := hs
      obtain ⟨s, rfl, hg⟩ := getStr_iff.1 hs
      rcases floatToInt1_iff.1 hxv with ⟨j, -, h⟩ | ⟨rfl, -⟩
      · cases h
      · exact .width (widthName_iff.1 hg)
    · intro h
      cases h with
      | width hs =>
        refine ⟨_, rfl, ?_⟩
        rw [special12, if_neg (by simp), if_neg h1, if_pos rfl, required_iff]
        exact ⟨_, getStr_iff.2 ⟨_, rfl, widthName_iff.2 hs⟩, rfl⟩
      | integral h => exact absurd (by decide) h
      | same h => exact absurd (by decide) h
  by_cases h3 : a = c!"msCharSet"
  · subst h3
    constructor
    · rintro ⟨x, hxv, hs⟩
      rw [special12, if_neg (hx x hxv), if_neg h1, if_neg h2, if_pos rfl, required_iff] at hs
      obtain ⟨i, hs, rfl⟩ := hs
      obtain ⟨c, hcx, hs⟩ := getInt_iff.1 hs
      obtain ⟨n, hn, rfl⟩ := charSet_iff.1 hs
      exact .characterSet hn ((floatToInt1_rat hxv).1 hcx)
    · intro h
      cases h with
      | characterSet hs hi =>
        obtain ⟨x, hxv, hi⟩ := hrat hi
        refine ⟨x, hxv, ?_⟩
        rw [special12, if_neg (hx x hxv), if_neg h1, if_neg h2, if_pos rfl, required_iff]
        exact ⟨_, getInt_iff.2 ⟨_, hi, charSet_iff.2 ⟨_, hs, rfl⟩⟩, rfl⟩
      | integral h => exact absurd (by decide) h
      | same h => exact absurd (by decide) h
  have hno : a ∉ [c!"fontStyle", c!"widthName", c!"msCharSet"] := by simp [h1, h2, h3]
  have hsp : ∀ x, special12 a x = .ok x := by
    intro x
    simp only [special12, h1, h2, h3, if_false, ite_self]
  simp only [hsp, Except.ok.injEq, exists_eq_right]
  rw [floatToInt1_iff]
  constructor
  · rintro (⟨i, rfl, rfl⟩ | ⟨rfl, h⟩)
    exacts [.integral hno, .same hno h]
  · intro h
    cases h with
    | style => exact absurd rfl h1
    | width => exact absurd rfl h2
    | characterSet => exact absurd rfl h3
    | integral => exact .inl ⟨_, rfl, rfl⟩
    | same _ h => exact .inr ⟨rfl, h⟩

/-! ### Reading -/

theorem keyed_atom {v : PyVal} (h : Atomic v) : Keyed v := .atom v h

theorem keyed_since2 {a : Str} {v w : PyVal} (h : Since2 a v w) (hv : Keyed v) : Keyed w := by
  have hs : ∀ {i : Int}, Settled v i w → Keyed w := by
    rintro i (⟨-, rfl⟩ | ⟨-, rfl⟩)
    exacts [hv, keyed_atom trivial]
  cases h with
  | integer _ _ _ h => exact hs h
  | nonNegative _ _ _ h => exact hs h
  | minor _ _ h => exact hs h
  | same => exact hv

theorem keyed_since1 {a : Str} {v w : PyVal} (h : Since1 a v w) (hv : Keyed v) : Keyed w := by
  cases h with
  | same => exact hv
  | _ => exact keyed_atom trivial

theorem since2_unique {a : Str} {v w w' : PyVal} (h : Since2 a v w) (h' : Since2 a v w') : w = w' := by
  rw [← since2_iff] at h h'
  rw [h] at h'; cases h'; rfl

/-- An entry of a dictionary whose entries are known. -/
theorem get?_of_spec {r : Dict Str PyVal} {S : Str → PyVal → Prop} (hS : ∀ a w w', S a w → S a w' → w = w') (h : ∀ a w, (a, w) ∈ r ↔ S a w) (a : Str) (w : PyVal) :
    Dict.get? r a = some w ↔ S a w := by
  constructor
  · intro hg; exact (h a w).1 (Dict.mem_of_get? hg)
  · intro hw
    rcases hg : Dict.get? r a with _ | w'
    · exact absurd (List.mem_map.2 ⟨_, (h a w).2 hw, rfl⟩) (Dict.get?_eq_none_iff.1 hg)
    · rw [hS a w w' hw ((h a w').1 (Dict.mem_of_get? hg))]

/-- A list of known entries, converted one by one. -/
theorem forall₂_spec {g r : Dict Str PyVal} {R : Str × PyVal → Str × PyVal → Prop} (h : List.Forall₂ R g r) (hR : ∀ p ∈ g, ∀ q q', R p q → R p q' → q = q') (q : Str × PyVal) :
    q ∈ r ↔ ∃ p ∈ g, R p q := by
  constructor
  · exact fun hq => forall₂_right h hq
  · rintro ⟨p, hp, hq⟩
    obtain ⟨q', hq', h'⟩ := forall₂_left h hp
    rwa [hR p hp q q' hq h']

/-- Names of UFO 1 and UFO 2 correspond. -/
theorem version1_inj : (∀ p ∈ version1, ∀ q ∈ version1, p.1 = q.1 → p.2 = q.2) ∧ (∀ p ∈ version1, ∀ q ∈ version1, p.2 = q.2 → p.1 = q.1) ∧
    (∀ p ∈ version1, p.1 ∈ attributes1 ∧ p.2 ∈ Dict.keys table2) ∧ ∀ a ∈ attributes1, ∃ p ∈ version1, p.1 = a := by decide +kernel

/-- What becomes of an entry in UFO 1. -/
def Step1 (p q : Str × PyVal) : Prop := (p.1, q.1) ∈ version1 ∧ convert12 p.1 p.2 = .ok q

/-- The entries of UFO 1 that are converted. -/
def kept1 (g : Dict Str PyVal) : Dict Str PyVal := g.filter fun p => !(decide (p.1 = c!"weightValue") && PyVal.pyEq p.2 (.int (-1)))

theorem mem_kept1 {g : Dict Str PyVal} {p : Str × PyVal} : p ∈ kept1 g ↔ p ∈ g ∧ ¬ NoWeight p.1 p.2 := by
  unfold kept1 NoWeight
  rw [List.mem_filter]
  have : PyVal.pyEq p.2 (.int (-1)) = true ↔ IsRat p.2 (-1 : Int) := by
    rw [pyEq_int]
    exact ⟨isNum_rat_of_int, isRat_float_int⟩
  rw [← this]
  cases PyVal.pyEq p.2 (.int (-1)) <;> simp

theorem convertData12_iff {g : Dict Str PyVal} (hg : Dict.WF g) (h1 : ∀ p ∈ g, p.1 ∈ attributes1 ∧ p.2 ≠ .none) {acc r : Dict Str PyVal}
    (hacc : ∀ p ∈ g, ∀ b, (p.1, b) ∈ version1 → b ∉ Dict.keys acc) :
    convertData12 acc g = .ok r ↔ ∃ M, r = acc ++ M ∧ List.Forall₂ Step1 (kept1 g) M := by
  induction g generalizing acc with
  | nil =>
    simp [convertData12, kept1, eq_comm]
  | cons p g ih =>
    obtain ⟨a, v⟩ := p
    have hg' := List.nodup_cons.1 hg
    rw [List.forall_mem_cons] at h1 hacc
    obtain ⟨⟨ha, hv⟩, h1⟩ := h1
    obtain ⟨hacc0, hacc⟩ := hacc
    simp only at ha hv hacc0
    unfold convertData12
    by_cases hw : a = c!"weightValue" ∧ PyVal.pyEq v (.int (-1)) = true
    · rw [if_pos hw, ih hg'.2 h1 hacc]
      have : kept1 ((a, v) :: g) = kept1 g := by
        unfold kept1; rw [List.filter_cons_of_neg]; simp [hw.1, hw.2]
      rw [this]
    · rw [if_neg hw]
      have hk : kept1 ((a, v) :: g) = (a, v) :: kept1 g := by
        unfold kept1; rw [List.filter_cons_of_pos]
        simp only [Bool.not_eq_true', Bool.and_eq_false_iff, decide_eq_false_iff_not]
        rw [not_and_or] at hw
        rcases hw with hw | hw
        exacts [.inl hw, .inr (by simpa using hw)]
      rw [hk]
      obtain ⟨⟨a', b⟩, hab, rfl⟩ := version1_inj.2.2.2 a ha
      simp only at *
      have hbn : ∀ {b'} {w}, convert12 a' v = .ok (b', w) → b' = b := by
        intro b' w h
        have : Dict.getD names12 a' a' = b := by
          have : ∀ p ∈ version1, Dict.getD names12 p.1 p.1 = p.2 := by decide +kernel
          exact this _ hab
        unfold convert12 at h
        split at h
        · cases h
        · split at h
          · cases h
          · cases h; exact this
      rcases hc : convert12 a' v with e | ⟨b', w⟩
      · simp only
        constructor
        · intro h; cases h
        · rintro ⟨M, -, hM⟩
          cases hM with
          | cons h _ => rw [h.2] at hc; cases hc
      · have hb' := hbn hc
        subst hb'
        simp only
        rw [if_neg (not_not.2 (version1_inj.2.2.1 _ hab).2), if_neg hv, Dict.keys_set_of_not_mem (hacc0 _ hab), ih hg'.2 h1]
        · constructor
          · rintro ⟨M, rfl, hM⟩
            exact ⟨(b', w) :: M, by simp, .cons ⟨hab, hc⟩ hM⟩
          · rintro ⟨M, rfl, hM⟩
            cases hM with
            | @cons _ q _ M h hM =>
              rw [Step1, hc] at h
              obtain ⟨-, h⟩ := h
              cases h
              exact ⟨M, by simp, hM⟩
        · intro p hp b hb hmem
          simp only [Dict.keys, List.map_append, List.mem_append, List.map_cons, List.map_nil, List.mem_singleton] at hmem
          rcases hmem with hmem | hmem
          · exact hacc p hp b hb hmem
          · subst hmem
            have := version1_inj.2.1 _ hb _ hab rfl
            exact hg'.1 (List.mem_map.2 ⟨p, hp, this⟩)

theorem forall₂_congr_left {α β : Type} {R S : α → β → Prop} {l : List α} {m : List β} (h : ∀ a ∈ l, ∀ b, R a b ↔ S a b) : List.Forall₂ R l m ↔ List.Forall₂ S l m := by
  induction l generalizing m with
  | nil => simp
  | cons a l ih =>
    rw [List.forall_mem_cons] at h
    cases m with
    | nil => simp
    | cons b m => rw [List.forall₂_cons, List.forall₂_cons, h.1 b, ih h.2]

theorem forall₂_comp {α β γ : Type} {R : α → β → Prop} {S : β → γ → Prop} {T : α → γ → Prop} {l : List α} {m : List β} {n : List γ}
    (h : ∀ a ∈ l, ∀ b c, R a b → S b c → T a c) (h1 : List.Forall₂ R l m) (h2 : List.Forall₂ S m n) : List.Forall₂ T l n := by
  induction h1 generalizing n with
  | nil => cases h2; exact .nil
  | cons hr _ ih =>
    rw [List.forall_mem_cons] at h
    cases h2 with
    | cons hs h2 => exact .cons (h.1 _ _ hr hs) (ih h.2 h2)

theorem forall₂_split {α β γ : Type} {R : α → β → Prop} {S : β → γ → Prop} {T : α → γ → Prop} {l : List α} {n : List γ}
    (h : ∀ a ∈ l, ∀ c, T a c → ∃ b, R a b ∧ S b c) (h1 : List.Forall₂ T l n) : ∃ m, List.Forall₂ R l m ∧ List.Forall₂ S m n := by
  induction h1 with
  | nil => exact ⟨[], .nil, .nil⟩
  | cons ht _ ih =>
    rw [List.forall_mem_cons] at h
    obtain ⟨b, hr, hs⟩ := h.1 _ ht
    obtain ⟨m, h2, h3⟩ := ih h.2
    exact ⟨b :: m, .cons hr h2, .cons hs h3⟩

/-- Font info of UFO 3. -/
theorem read3_iff {E : Env} {d r : Dict Str PyVal} (hk : ∀ a v, Dict.get? d a = some v → Keyed v) : readInfo E 3 true d = .ok r ↔
    r = gather (Dict.get? d) (Dict.keys table3) ∧ ∀ a ∈ attributes3, ∀ v, present (Dict.get? d a) = some v → Legal3 E.F E.py38 a v := by
  rw [readInfo3_ok]
  refine and_congr_right fun hr => ?_
  subst hr
  constructor
  · intro h a ha v hv
    have := h (a, v) (mem_gather.2 ⟨attributes3_iff.1 a ha, hv⟩)
    exact (value3_iff (hk a v (present_some.1 hv).1)).1 this
  · rintro h ⟨a, v⟩ hp
    obtain ⟨ha, hv⟩ := mem_gather.1 hp
    exact (value3_iff (hk a v (present_some.1 hv).1)).2 (h a (attributes3_iff.2 a ha) v hv)

/-- Font info of UFO 2. -/
theorem read2_iff {E : Env} {d r : Dict Str PyVal} (hk : ∀ a v, Dict.get? d a = some v → Keyed v) : readInfo E 2 true d = .ok r ↔
    List.Forall₂ (fun p q => q.1 = p.1 ∧ Since2 p.1 p.2 q.2 ∧ Legal3 E.F E.py38 q.1 q.2) (gather (Dict.get? d) (Dict.keys table2)) r := by
  rw [readInfo2_ok]
  have key : ∀ p ∈ gather (Dict.get? d) (Dict.keys table2), ∀ q : Str × PyVal,
      (q.1 = p.1 ∧ convert23 p.1 p.2 = .ok q.2 ∧ validateValue E table3 q.1 q.2 = .ok true) ↔ (q.1 = p.1 ∧ Since2 p.1 p.2 q.2 ∧ Legal3 E.F E.py38 q.1 q.2) := by
    rintro ⟨a, v⟩ hp q
    obtain ⟨-, hv⟩ := mem_gather.1 hp
    have hkv := hk a v (present_some.1 hv).1
    refine and_congr_right fun _ => ?_
    rw [since2_iff]
    exact and_congr_right fun hs => value3_iff (keyed_since2 hs hkv)
  exact forall₂_congr_left key

/-- Font info of UFO 1. -/
theorem read1_iff {E : Env} {d r : Dict Str PyVal} (hk : ∀ a v, Dict.get? d a = some v → Keyed v) : readInfo E 1 true d = .ok r ↔
    List.Forall₂ (fun p q => (p.1, q.1) ∈ version1 ∧ ∃ w, Since1 p.1 p.2 w ∧ Since2 q.1 w q.2 ∧ Legal3 E.F E.py38 q.1 q.2) (kept1 (gather (Dict.get? d) attributes1)) r := by
  have hread : readInfo E 1 true d = (convertData12 [] (gather (Dict.get? d) attributes1)).bind fun m => (convertData23 m).bind (validateData E table3) := by
    unfold readInfo
    rcases convertData12 [] (gather (Dict.get? d) attributes1) with e | m <;> rfl
  have hwf : Dict.WF (gather (Dict.get? d) attributes1) := (keys_gather _ _).nodup (by decide +kernel)
  have h12 := fun r => convertData12_iff (r := r) hwf (acc := []) (by
    rintro ⟨a, v⟩ hp
    obtain ⟨ha, hv⟩ := mem_gather.1 hp
    exact ⟨ha, (present_some.1 hv).2⟩) (by simp [Dict.keys])
  simp only [List.nil_append, exists_eq_left'] at h12
  have step : ∀ p ∈ kept1 (gather (Dict.get? d) attributes1), Keyed p.2 ∧ p.2 ≠ .none := by
    rintro ⟨a, v⟩ hp
    obtain ⟨-, hv⟩ := mem_gather.1 (mem_kept1.1 hp).1
    exact ⟨hk a v (present_some.1 hv).1, (present_some.1 hv).2⟩
  rw [hread]
  have hbind : ((convertData12 [] (gather (Dict.get? d) attributes1)).bind fun m => (convertData23 m).bind (validateData E table3)) = .ok r ↔
      ∃ m, convertData12 [] (gather (Dict.get? d) attributes1) = .ok m ∧ ((convertData23 m).bind (validateData E table3)) = .ok r := by
    rcases convertData12 [] (gather (Dict.get? d) attributes1) with e | m <;> simp [Except.bind]
  rw [hbind]
  have hval : ∀ m, (convertData23 m).bind (validateData E table3) = .ok r ↔
      List.Forall₂ (fun p q => q.1 = p.1 ∧ convert23 p.1 p.2 = .ok q.2 ∧ validateValue E table3 q.1 q.2 = .ok true) m r := convert_validate
  simp only [h12, hval]
  generalize kept1 (gather (Dict.get? d) attributes1) = g at step
  constructor
  · rintro ⟨m, h1, h2⟩
    refine forall₂_comp (fun p hp x q hpx hxq => ?_) h1 h2
    obtain ⟨hv, hn⟩ := step p hp
    obtain ⟨hab, hc⟩ := hpx
    obtain ⟨b, w⟩ := x
    obtain ⟨rfl, hs, hval⟩ := hxq
    have h1 := (since1_iff hab hn).1 hc
    have h2 := since2_iff.1 hs
    exact ⟨hab, w, h1, h2, (value3_iff (keyed_since2 h2 (keyed_since1 h1 hv))).1 hval⟩
  · intro h
    obtain ⟨m, h1, h2⟩ := forall₂_split (R := Step1) (S := fun p q => q.1 = p.1 ∧ convert23 p.1 p.2 = .ok q.2 ∧ validateValue E table3 q.1 q.2 = .ok true) (fun p hp q hpq => by
      obtain ⟨hv, hn⟩ := step p hp
      obtain ⟨hab, w, h1, h2, h3⟩ := hpq
      exact ⟨(q.1, w), ⟨hab, (since1_iff hab hn).2 h1⟩, rfl, since2_iff.2 h2, (value3_iff (keyed_since2 h2 (keyed_since1 h1 hv))).2 h3⟩) h
    exact ⟨m, h1, h2⟩

/-! ### Writing UFO 1 -/

theorem until1_convert {a b : Str} (hab : (a, b) ∈ version1) {v w : PyVal} (hv : v ≠ .none) (h : Until1 b v w) : convert21 b v = .ok (a, w) := by
  obtain ⟨-, -, -, -, -, -, h21⟩ := kept_pair hab
  have hs : special21 b v = .ok w → convert21 b v = .ok (a, w) := by
    intro h; rw [convert21, h, h21]
  apply hs
  cases h with
  | @style s i h =>
    have : ∀ p ∈ styles1, Dict.get? fontStyle21 p.1 = some p.2 := by decide +kernel
    unfold special21
    rw [if_neg hv, if_pos rfl, getStr_str, this _ h]; rfl
  | width h hi =>
    have : ∀ p ∈ widths1, Dict.get? widthName21 p.1 = some p.2 := by decide +kernel
    unfold special21
    rw [if_neg hv, if_neg (by decide), if_pos rfl, getInt_rat _ hi, this _ h]; rfl
  | @characterSet _ c n hc hi =>
    have h2 : ∀ n ∈ List.range 20, ∀ c ∈ characterSets1[n]?, Dict.get? charSet21 ((n : Int) + 1) = some c := by decide +kernel
    have hlt : n < characterSets1.length := (List.getElem?_eq_some_iff.1 hc).1
    unfold special21
    rw [if_neg hv, if_neg (by decide), if_neg (by decide), if_pos rfl, getInt_rat _ hi, h2 n (List.mem_range.2 hlt) c hc]; rfl
  | same h => exact special21_plain h v

theorem until1_total {py38 : Bool} {b : Str} {v : PyVal} (h : Legal2 py38 b v) : ∃ w, Until1 b v w := by
  by_cases hb : b ∈ [c!"styleMapStyleName", c!"openTypeOS2WidthClass", c!"postscriptWindowsCharacterSet"]
  · have hno : ∀ l ∈ [strings, integers, numbers, booleans, [c!"postscriptBlueValues", c!"postscriptFamilyBlues"], [c!"postscriptOtherBlues", c!"postscriptFamilyOtherBlues"],
        [c!"postscriptStemSnapH", c!"postscriptStemSnapV"], c!"unitsPerEm" :: integerSince3 ++ nonNegativeIntegerSince3],
        ∀ b ∈ [c!"styleMapStyleName", c!"openTypeOS2WidthClass", c!"postscriptWindowsCharacterSet"], b ∉ l := by decide +kernel
    cases h with
    | same h =>
      cases h with
      | string h => exact absurd h (hno _ (by simp) b hb)
      | integer h => exact absurd h (hno _ (by simp) b hb)
      | number h => exact absurd h (hno _ (by simp) b hb)
      | boolean h => exact absurd h (hno _ (by simp) b hb)
      | blues h => exact absurd h (hno _ (by simp) b hb)
      | otherBlues h => exact absurd h (hno _ (by simp) b hb)
      | stems h => exact absurd h (hno _ (by simp) b hb)
      | styleMap h =>
        have : ∀ s ∈ [c!"regular", c!"italic", c!"bold", c!"bold italic"], ∃ p ∈ styles1, p.1 = s := by decide +kernel
        obtain ⟨p, hp, rfl⟩ := this _ h
        exact ⟨_, .style hp⟩
      | @widthClass _ i hi h1 h9 =>
        have : ∀ i ∈ upTo 9, ∃ p ∈ widths1, p.1 = i + 1 := by decide +kernel
        obtain ⟨⟨j, s⟩, hp, e⟩ := this (i - 1) (mem_upTo.2 ⟨by omega, by omega⟩)
        have : j = i := by simp only at e; omega
        subst this
        exact ⟨_, .width hp (isInt_numIs hi)⟩
      | @characterSet _ i hi h1 h20 =>
        have hlt : (i - 1).toNat < characterSets1.length := by simp only [characterSets1, List.length_cons, List.length_nil]; omega
        refine ⟨_, .characterSet (List.getElem?_eq_getElem hlt) ?_⟩
        rwa [show (((i - 1).toNat : Int) + 1) = i by omega]
      | _ => exact absurd hb (by decide)
    | number h => exact absurd h (hno _ (by simp) b hb)
    | _ => exact absurd hb (by decide)
  · exact ⟨v, .same hb⟩

/-- What becomes of an entry in UFO 1. -/
def Back1 (p q : Str × PyVal) : Prop := (q.1, p.1) ∈ version1 ∧ Until1 p.1 p.2 q.2

theorem convertData21_iff {py38 : Bool} (d : Dict Str PyVal) (hwf : Dict.WF d) (hd : ∀ p ∈ d, p.1 ∈ Dict.keys table2 ∧ Legal2 py38 p.1 p.2 ∧ p.2 ≠ .none)
    (acc : Dict Str PyVal) (hacc : ∀ p ∈ d, Dict.getD names21 p.1 p.1 ∉ Dict.keys acc) :
    ∃ L, convertData21 acc d = .ok (acc ++ L) ∧ List.Forall₂ Back1 (d.filter fun p => in1 p.1) L := by
  induction d generalizing acc with
  | nil => exact ⟨[], by simp [convertData21], .nil⟩
  | cons p d ih =>
    obtain ⟨b, v⟩ := p
    rw [List.forall_mem_cons] at hd hacc
    simp only [Dict.WF, Dict.keys, List.map_cons, List.nodup_cons] at hwf
    obtain ⟨⟨hb, hl, hvn⟩, hd⟩ := hd
    simp only at hb hl hvn
    rw [convertData21.eq_def]
    simp only
    by_cases h1 : in1 b = true
    · obtain ⟨a, ha⟩ := (in1_iff hb).1 h1
      obtain ⟨_, _, _, ha1, _, h12, h21⟩ := kept_pair ha
      obtain ⟨w, hw⟩ := until1_total hl
      have hna : a ∉ Dict.keys acc := by have := hacc.1; simp only [h21] at this; exact this
      simp only [until1_convert ha hvn hw, ha1, not_true, if_false, hvn]
      rw [Dict.keys_set_of_not_mem hna]
      obtain ⟨L, hL, hF⟩ := ih hwf.2 hd (acc ++ [(a, w)]) (by
        intro p hp hmem
        simp only [Dict.keys, List.map_append, List.map_cons, List.map_nil, List.mem_append, List.mem_singleton] at hmem
        rcases hmem with hmem | hmem
        · exact hacc.2 p hp hmem
        · have := version1_complete p.1 (hd p hp).1 (by rw [hmem]; exact ha1)
          rw [hmem] at this
          obtain ⟨_, _, _, _, _, h12', _⟩ := kept_pair this
          rw [h12] at h12'
          exact hwf.1 (List.mem_map.2 ⟨p, hp, h12'.symm⟩))
      refine ⟨(a, w) :: L, ?_, ?_⟩
      · rw [hL]; simp
      · rw [List.filter_cons_of_pos (p := fun p : Str × PyVal => in1 p.1) (a := (b, v)) h1]
        exact .cons ⟨ha, hw⟩ hF
    · have hsp : b ∉ [c!"styleMapStyleName", c!"openTypeOS2WidthClass", c!"postscriptWindowsCharacterSet"] := by
        intro hmem
        have : ∀ b ∈ [c!"styleMapStyleName", c!"openTypeOS2WidthClass", c!"postscriptWindowsCharacterSet"], in1 b = true := by decide +kernel
        exact h1 (this b hmem)
      have hw : convert21 b v = .ok (Dict.getD names21 b b, v) := by
        rw [convert21, special21_plain hsp]
      have hn : Dict.getD names21 b b ∉ attributes1 := by simpa [in1] using h1
      simp only [hw, hn, not_false_eq_true, if_true]
      obtain ⟨L, hL, hF⟩ := ih hwf.2 hd acc hacc.2
      refine ⟨L, hL, ?_⟩
      rwa [List.filter_cons_of_neg (p := fun p : Str × PyVal => in1 p.1) (a := (b, v)) h1]

theorem until1_unique {b : Str} {v w w' : PyVal} (h : Until1 b v w) (h' : Until1 b v w') : w = w' := by
  by_cases hb : b ∈ [c!"styleMapStyleName", c!"openTypeOS2WidthClass", c!"postscriptWindowsCharacterSet"]
  · have hv : v ≠ .none := by
      rintro rfl
      cases h with
      | width _ hi => exact not_none_of_rat hi rfl
      | characterSet _ hi => exact not_none_of_rat hi rfl
      | same h => exact h hb
    have : ∀ b ∈ [c!"styleMapStyleName", c!"openTypeOS2WidthClass", c!"postscriptWindowsCharacterSet"], ∃ p ∈ version1, p.2 = b := by decide +kernel
    obtain ⟨⟨a, b⟩, hab, rfl⟩ := this b hb
    have h1 := until1_convert hab hv h
    rw [until1_convert hab hv h'] at h1
    cases h1; rfl
  · have : ∀ {w}, Until1 b v w → w = v := by
      intro w h
      cases h with
      | same => rfl
      | _ => exact absurd (by decide) hb
    rw [this h, this h']

end Verif.FontInfo
