import Verif.Proofs.FontInfo
/-! Conversion of font info between UFO 1 and UFO 2. -/
namespace Verif.FontInfo
open Verif Verif.Validators Verif.Spec.Validators Verif.Spec.Woff Verif.Spec.FontInfo

theorem pyEq_int_of_rat {v : PyVal} {i j : Int} (h : IsRat v i) : PyVal.pyEq v (.int j) = decide (i = j) := by
  rw [Bool.eq_iff_iff, pyEq_int, decide_eq_true_eq]
  constructor
  · intro hj
    have hn : NumIs v (.fin (j : Rat)) := by
      rcases hj with hj | rfl
      exacts [isInt_numIs hj, .inr rfl]
    have := Flt.fin.inj (numIs_unique h hn)
    exact_mod_cast this
  · rintro rfl
    rcases isRat_float_int h with h | h
    exacts [.inl h, .inr h]

theorem hashable_rat {v : PyVal} {q : Rat} (h : IsRat v q) : hashable v = true := by
  rcases h with ⟨i, hi, -⟩ | rfl
  · exact hashable_int hi
  · rfl

theorem getInt_rat {β : Type} (d : Dict Int β) {v : PyVal} {i : Int} (h : IsRat v i) : getInt d v = .ok (Dict.get? d i) := by
  rw [getInt, hashable_rat h]
  simp only [Bool.not_true, Bool.false_eq_true, if_false, Except.ok.injEq]
  have : (fun p : Int × β => PyVal.pyEq v (.int p.1)) = fun p => decide (i = p.1) := by
    funext p; exact pyEq_int_of_rat h
  rw [this]
  induction d with
  | nil => rfl
  | cons p d ih =>
    obtain ⟨k, x⟩ := p
    rw [List.find?_cons, Dict.get?]
    by_cases hk : i = k
    · subst hk; simp
    · have hk' : ¬ k = i := fun h => hk h.symm
      simp only [hk, decide_false, hk', if_false]
      exact ih

theorem getStr_str {β : Type} (d : Dict Str β) (s : Str) : getStr d (.str s) = .ok (Dict.get? d s) := by
  rw [getStr]
  simp only [hashable, Bool.not_true, Bool.false_eq_true, if_false, Except.ok.injEq]
  induction d with
  | nil => rfl
  | cons p d ih =>
    obtain ⟨k, x⟩ := p
    rw [List.find?_cons, Dict.get?]
    by_cases hk : s = k
    · subst hk; simp [PyVal.pyEq]
    · have hk' : ¬ k = s := fun h => hk h.symm
      simp only [PyVal.pyEq, hk, decide_false, hk', if_false]
      exact ih

theorem isNum_rat_of_int {v : PyVal} {i : Int} (h : IsInt v i ∨ v = .float (.fin i)) : IsRat v i := by
  rcases h with h | rfl
  exacts [isInt_numIs h, .inr rfl]

theorem not_none_of_rat {v : PyVal} {q : Rat} (h : IsRat v q) : v ≠ .none := by
  rintro rfl
  rcases h with ⟨i, h | ⟨h, -⟩ | ⟨h, -⟩, -⟩ | h <;> cases h

theorem charSets_back : ∀ i ∈ upTo 20, ∃ c, Dict.get? charSet21 (i + 1) = some c ∧ Dict.get? charSet12 c = some (i + 1) := by
  have h : ∀ i ∈ upTo 20, ((Dict.get? charSet21 (i + 1)).bind fun c => Dict.get? charSet12 c) = some (i + 1) := by decide +kernel
  intro i hi
  have := h i hi
  rcases hc : Dict.get? charSet21 (i + 1) with _ | c
  · rw [hc] at this; cases this
  · rw [hc] at this; exact ⟨c, rfl, this⟩

theorem widths_back : ∀ i ∈ upTo 9, ∃ c, Dict.get? widthName21 (i + 1) = some c ∧ Dict.get? widthName12 c = some (i + 1) := by
  have h : ∀ i ∈ upTo 9, ((Dict.get? widthName21 (i + 1)).bind fun c => Dict.get? widthName12 c) = some (i + 1) := by decide +kernel
  intro i hi
  have := h i hi
  rcases hc : Dict.get? widthName21 (i + 1) with _ | c
  · rw [hc] at this; cases this
  · rw [hc] at this; exact ⟨c, rfl, this⟩

theorem styles_back : ∀ s ∈ [c!"regular", c!"italic", c!"bold", c!"bold italic"], ∃ c, Dict.get? fontStyle21 s = some c ∧ Dict.get? fontStyle12 c = some s := by
  have h : ∀ s ∈ [c!"regular", c!"italic", c!"bold", c!"bold italic"], ((Dict.get? fontStyle21 s).bind fun c => Dict.get? fontStyle12 c) = some s := by decide +kernel
  intro s hs
  have := h s hs
  rcases hc : Dict.get? fontStyle21 s with _ | c
  · rw [hc] at this; cases this
  · rw [hc] at this; exact ⟨c, rfl, this⟩

theorem mem_upTo {n : Nat} {i : Int} : i ∈ upTo n ↔ 0 ≤ i ∧ i < n := by
  simp only [upTo, List.mem_map, List.mem_range]
  constructor
  · rintro ⟨k, hk, rfl⟩; omega
  · rintro ⟨h1, h2⟩; exact ⟨i.toNat, by omega, by omega⟩

theorem plain_int {v : PyVal} {i : Int} (h : IsInt v i) : Plain v := by
  rcases h with rfl | ⟨rfl, -⟩ | ⟨rfl, -⟩ <;> trivial

theorem plain_ne_none {v : PyVal} (h : Plain v) : v ≠ .none := by rintro rfl; exact h

/-- Value conversion there and back. -/
theorem special_back {E : Env} {a b : Str} {k : Kind} (hk : Kept a b k) {v : PyVal} (hc : k.check E v = .ok true) (hfin : ∀ f, v = .float f → ∃ q, f = .fin q) :
    ∃ w, special21 b v = .ok w ∧ w ≠ .none ∧ v ≠ .none ∧ ∃ x w', floatToInt1 w = .ok x ∧ special12 a x = .ok w' ∧ PyVal.pyEq w' v = true ∧
      (∀ i : Int, PyVal.pyEq w (.int i) = true → k = .weightClass → 0 ≤ i) := by
  cases hk with
  | plain ha hb hk =>
    have hp : Plain v := by
      rcases hk with rfl | rfl | rfl | rfl
      · obtain ⟨s, rfl⟩ := isStr_iff.1 (Except.ok.inj hc); trivial
      · obtain ⟨i, hi⟩ := isInt_iff.1 (Except.ok.inj hc); exact plain_int hi
      · rcases isNumber_iff.1 (Except.ok.inj hc) with ⟨i, hi⟩ | ⟨f, rfl⟩
        · exact plain_int hi
        · obtain ⟨q, rfl⟩ := hfin f rfl; trivial
      · obtain ⟨i, hi, -⟩ := weight_iff.1 (Except.ok.inj hc); exact plain_int hi
    obtain ⟨x, hx, he, -⟩ := floatToInt1_plain hp
    refine ⟨v, special21_plain hb v, plain_ne_none hp, plain_ne_none hp, x, x, hx, special12_plain ha x, he, ?_⟩
    rintro i hi rfl
    obtain ⟨j, hj, hj0⟩ := weight_iff.1 (Except.ok.inj hc)
    rw [pyEq_int_of_rat (isInt_numIs hj), decide_eq_true_eq] at hi
    omega
  | style =>
    obtain ⟨s, hs, rfl⟩ := styleMap_iff.1 (Except.ok.inj hc)
    obtain ⟨c, h1, h2⟩ := styles_back s hs
    refine ⟨.int c, ?_, by simp, by simp, .int c, .str s, rfl, ?_, by simp [PyVal.pyEq], by simp⟩
    · unfold special21
      rw [if_neg (by simp), if_pos rfl, getStr_str, h1]; rfl
    · unfold special12
      rw [if_neg (by simp), if_pos rfl, getInt_rat _ (numIs_int c), h2]; rfl
  | width =>
    obtain ⟨i, hi, h1, h9⟩ := width_iff.1 (Except.ok.inj hc)
    obtain ⟨c, hc1, hc2⟩ := widths_back (i - 1) (mem_upTo.2 ⟨by omega, by omega⟩)
    rw [show i - 1 + 1 = i by omega] at hc1 hc2
    refine ⟨.str c, ?_, by simp, not_none_of_rat (isInt_numIs hi), .str c, .int i, rfl, ?_, pyEq_int_left.2 (isInt_numIs hi), by simp⟩
    · unfold special21
      rw [if_neg (not_none_of_rat (isInt_numIs hi)), if_neg (by decide), if_pos rfl, getInt_rat _ (isInt_numIs hi), hc1]; rfl
    · unfold special12
      rw [if_neg (by simp), if_neg (by decide), if_pos rfl, getStr_str, hc2]; rfl
  | charSet =>
    obtain ⟨i, h1, h20, hi⟩ := characterSet_iff.1 (Except.ok.inj hc)
    have hr := isNum_rat_of_int hi
    obtain ⟨c, hc1, hc2⟩ := charSets_back (i - 1) (mem_upTo.2 ⟨by omega, by omega⟩)
    rw [show i - 1 + 1 = i by omega] at hc1 hc2
    refine ⟨.int c, ?_, by simp, not_none_of_rat hr, .int c, .int i, rfl, ?_, pyEq_int_left.2 hr, by simp⟩
    · unfold special21
      rw [if_neg (not_none_of_rat hr), if_neg (by decide), if_neg (by decide), if_pos rfl, getInt_rat _ hr, hc1]; rfl
    · unfold special12
      rw [if_neg (by simp), if_neg (by decide), if_neg (by decide), if_pos rfl, getInt_rat _ (numIs_int c), hc2]; rfl

/-- The kind of attribute 2 of a pair of names. -/
theorem kept_pair {a b : Str} (h : (a, b) ∈ version1) : ∃ k, Dict.get? table2 b = some k ∧ Kept a b k ∧ a ∈ attributes1 ∧ b ∈ Dict.keys table2 ∧
    Dict.getD names12 a a = b ∧ Dict.getD names21 b b = a := by
  obtain ⟨h1, h2, h3, h4, h5⟩ := version1_ok _ h
  simp only at h1 h2 h3 h4 h5
  rcases hk : Dict.get? table2 b with _ | k
  · rw [hk] at h5; cases h5
  · rw [hk] at h5
    exact ⟨k, rfl, kept_of h5, h1, h2, h3, h4⟩

theorem convert_back {E : Env} {a b : Str} (h : (a, b) ∈ version1) {v : PyVal} (hv : validateValue E table2 b v = .ok true) (hfin : ∀ f, v = .float f → ∃ q, f = .fin q) :
    ∃ w w', convert21 b v = .ok (a, w) ∧ w ≠ .none ∧ v ≠ .none ∧ convert12 a w = .ok (b, w') ∧ PyVal.pyEq w' v = true ∧
      ¬ (a = c!"weightValue" ∧ PyVal.pyEq w (.int (-1)) = true) := by
  obtain ⟨k, hk, hkept, -, -, h12, h21⟩ := kept_pair h
  rw [validateValue_of hk] at hv
  obtain ⟨w, hw, hwn, hvn, x, w', hx, hw', he, hweight⟩ := special_back hkept hv hfin
  refine ⟨w, w', ?_, hwn, hvn, ?_, he, ?_⟩
  · rw [convert21, hw, h21]
  · simp only [convert12, hx, hw', h12]
  · rintro ⟨rfl, hm⟩
    have hb : b = c!"openTypeOS2WeightClass" := by rw [← h12]; decide +kernel
    subst hb
    have : k = .weightClass := by
      have h0 : Dict.get? table2 c!"openTypeOS2WeightClass" = some .weightClass := by decide +kernel
      rw [hk] at h0; exact Option.some.inj h0
    have := hweight (-1) hm this
    omega

/-- The attribute exists in UFO 1. -/
def in1 (b : Str) : Bool := decide (Dict.getD names21 b b ∈ attributes1)

theorem in1_iff {b : Str} (hb : b ∈ Dict.keys table2) : in1 b = true ↔ ∃ a, (a, b) ∈ version1 := by
  rw [in1, decide_eq_true_eq]
  constructor
  · intro h; exact ⟨_, version1_complete b hb h⟩
  · rintro ⟨a, ha⟩
    obtain ⟨_, _, _, h1, _, _, h21⟩ := kept_pair ha
    rw [h21]; exact h1

/-- An item, its conversion to UFO 1. -/
def Step21 (p q : Str × PyVal) : Prop :=
  (q.1, p.1) ∈ version1 ∧ ∃ w', convert12 q.1 q.2 = .ok (p.1, w') ∧ PyVal.pyEq w' p.2 = true ∧ q.2 ≠ .none ∧ ¬ (q.1 = c!"weightValue" ∧ PyVal.pyEq q.2 (.int (-1)) = true)

theorem convertData21_spec {E : Env} (d : Dict Str PyVal) (hwf : Dict.WF d) (hv : ∀ p ∈ d, validateValue E table2 p.1 p.2 = .ok true)
    (hfin : ∀ p ∈ d, ∀ f, p.2 = .float f → ∃ q, f = .fin q) (acc : Dict Str PyVal) (hacc : ∀ p ∈ d, Dict.getD names21 p.1 p.1 ∉ Dict.keys acc) :
    ∃ L, convertData21 acc d = .ok (acc ++ L) ∧ List.Forall₂ Step21 (d.filter fun p => in1 p.1) L := by
  induction d generalizing acc with
  | nil => exact ⟨[], by simp [convertData21], .nil⟩
  | cons p d ih =>
    obtain ⟨b, v⟩ := p
    rw [List.forall_mem_cons] at hv hfin hacc
    simp only [Dict.WF, Dict.keys, List.map_cons, List.nodup_cons] at hwf
    obtain ⟨k, hk, -⟩ := validateValue_ok hv.1
    have hb : b ∈ Dict.keys table2 := List.mem_map.2 ⟨_, Dict.mem_of_get? hk, rfl⟩
    rw [convertData21.eq_def]
    simp only
    by_cases h1 : in1 b = true
    · obtain ⟨a, ha⟩ := (in1_iff hb).1 h1
      obtain ⟨_, _, _, ha1, _, h12, h21⟩ := kept_pair ha
      obtain ⟨w, w', hw, hwn, hvn, hw', he, hweight⟩ := convert_back ha hv.1 hfin.1
      have hna : a ∉ Dict.keys acc := by have := hacc.1; simp only [h21] at this; exact this
      simp only [hw, ha1, not_true, if_false, hvn]
      rw [Dict.keys_set_of_not_mem hna]
      obtain ⟨L, hL, hF⟩ := ih hwf.2 hv.2 hfin.2 (acc ++ [(a, w)]) (by
        intro p hp hmem
        simp only [Dict.keys, List.map_append, List.map_cons, List.map_nil, List.mem_append, List.mem_singleton] at hmem
        rcases hmem with hmem | hmem
        · exact hacc.2 p hp hmem
        · obtain ⟨kp, hkp, -⟩ := validateValue_ok (hv.2 p hp)
          have hpb : p.1 ∈ Dict.keys table2 := List.mem_map.2 ⟨_, Dict.mem_of_get? hkp, rfl⟩
          have := version1_complete p.1 hpb (by rw [hmem]; exact ha1)
          rw [hmem] at this
          obtain ⟨_, _, _, _, _, h12', _⟩ := kept_pair this
          rw [h12] at h12'
          exact hwf.1 (List.mem_map.2 ⟨p, hp, h12'.symm⟩))
      refine ⟨(a, w) :: L, ?_, ?_⟩
      · rw [hL]; simp
      · rw [List.filter_cons_of_pos (p := fun p : Str × PyVal => in1 p.1) (a := (b, v)) h1]
        exact .cons ⟨ha, w', hw', he, hwn, hweight⟩ hF
    · have hsp : b ∉ [c!"styleMapStyleName", c!"openTypeOS2WidthClass", c!"postscriptWindowsCharacterSet"] := by
        intro hmem
        have : ∀ b ∈ [c!"styleMapStyleName", c!"openTypeOS2WidthClass", c!"postscriptWindowsCharacterSet"], in1 b = true := by decide +kernel
        exact h1 (this b hmem)
      have hw : convert21 b v = .ok (Dict.getD names21 b b, v) := by
        rw [convert21, special21_plain hsp]
      have hn : Dict.getD names21 b b ∉ attributes1 := by simpa [in1] using h1
      simp only [hw, hn, not_false_eq_true, if_true]
      obtain ⟨L, hL, hF⟩ := ih hwf.2 hv.2 hfin.2 acc hacc.2
      refine ⟨L, hL, ?_⟩
      rwa [List.filter_cons_of_neg (p := fun p : Str × PyVal => in1 p.1) (a := (b, v)) h1]

theorem convertData12_spec {P L : Dict Str PyVal} (hF : List.Forall₂ Step21 P L) (hwf : Dict.WF P) (acc : Dict Str PyVal) (hacc : ∀ p ∈ P, p.1 ∉ Dict.keys acc) :
    ∃ M, convertData12 acc L = .ok (acc ++ M) ∧ List.Forall₂ (fun p q => q.1 = p.1 ∧ PyVal.pyEq q.2 p.2 = true) P M := by
  induction hF generalizing acc with
  | nil => exact ⟨[], by simp [convertData12], .nil⟩
  | @cons p q P L h _ ih =>
    obtain ⟨b, v⟩ := p
    obtain ⟨a, w⟩ := q
    obtain ⟨ha, w', hw', he, hwn, hweight⟩ := h
    rw [List.forall_mem_cons] at hacc
    simp only [Dict.WF, Dict.keys, List.map_cons, List.nodup_cons] at hwf
    obtain ⟨_, _, _, _, hb, _, _⟩ := kept_pair ha
    simp only at hw' hwn hweight hb he
    rw [convertData12.eq_def]
    simp only [hweight, if_false, hw', hb, not_true, hwn]
    rw [Dict.keys_set_of_not_mem hacc.1]
    obtain ⟨M, hM, hF⟩ := ih hwf.2 (acc ++ [(b, w')]) (by
      intro p hp hmem
      simp only [Dict.keys, List.map_append, List.map_cons, List.map_nil, List.mem_append, List.mem_singleton] at hmem
      rcases hmem with hmem | hmem
      · exact hacc.2 p hp hmem
      · exact hwf.1 (List.mem_map.2 ⟨p, hp, hmem⟩))
    exact ⟨(b, w') :: M, by rw [hM]; simp, .cons ⟨rfl, he⟩ hF⟩

theorem get?_forall₂ {P M : Dict Str PyVal} (h : List.Forall₂ (fun p q => q.1 = p.1 ∧ PyVal.pyEq q.2 p.2 = true) P M) (b : Str) : SameEntry (Dict.get? P b) (Dict.get? M b) := by
  induction h with
  | nil => exact .none
  | @cons p q P M h _ ih =>
    obtain ⟨k, v⟩ := p
    obtain ⟨k', w⟩ := q
    obtain ⟨rfl, h⟩ := h
    simp only [Dict.get?]
    split
    · exact .some h
    · exact ih

theorem get?_filter (f : Str → Bool) (d : Dict Str PyVal) (b : Str) : Dict.get? (d.filter fun p => f p.1) b = if f b = true then Dict.get? d b else none := by
  induction d with
  | nil => simp [Dict.get?]
  | cons p d ih =>
    obtain ⟨k, v⟩ := p
    by_cases hk : f k = true
    · rw [List.filter_cons_of_pos (p := fun p : Str × PyVal => f p.1) (a := (k, v)) hk]
      simp only [Dict.get?]
      rw [ih]
      by_cases he : k = b
      · subst he; simp [hk]
      · simp [he]
    · rw [List.filter_cons_of_neg (p := fun p : Str × PyVal => f p.1) (a := (k, v)) hk, ih]
      simp only [Dict.get?]
      by_cases he : k = b
      · subst he; simp [hk]
      · simp [he]

theorem forall₂_right {α β : Type} {R : α → β → Prop} {l : List α} {m : List β} (h : List.Forall₂ R l m) {b : β} (hb : b ∈ m) : ∃ a ∈ l, R a b := by
  induction h with
  | nil => cases hb
  | @cons x y l m hxy _ ih =>
    rcases List.mem_cons.1 hb with rfl | hb
    · exact ⟨x, List.mem_cons_self, hxy⟩
    · obtain ⟨a, ha, h⟩ := ih hb; exact ⟨a, List.mem_cons_of_mem _ ha, h⟩

theorem forall₂_left {α β : Type} {R : α → β → Prop} {l : List α} {m : List β} (h : List.Forall₂ R l m) {a : α} (ha : a ∈ l) : ∃ b ∈ m, R a b := by
  induction h with
  | nil => cases ha
  | @cons x y l m hxy _ ih =>
    rcases List.mem_cons.1 ha with rfl | ha
    · exact ⟨y, List.mem_cons_self, hxy⟩
    · obtain ⟨b, hb, h⟩ := ih ha; exact ⟨b, List.mem_cons_of_mem _ hb, h⟩

theorem forall₂_exists {α β : Type} {R : α → β → Prop} (l : List α) (h : ∀ a ∈ l, ∃ b, R a b) : ∃ m, List.Forall₂ R l m := by
  induction l with
  | nil => exact ⟨[], .nil⟩
  | cons a l ih =>
    rw [List.forall_mem_cons] at h
    obtain ⟨b, hb⟩ := h.1
    obtain ⟨m, hm⟩ := ih h.2
    exact ⟨b :: m, .cons hb hm⟩

/-- The converted and validated data. -/
theorem convert_validate {E : Env} {r : Dict Str PyVal} (g : Dict Str PyVal) : (convertData23 g).bind (validateData E table3) = .ok r ↔
    List.Forall₂ (fun p q => q.1 = p.1 ∧ convert23 p.1 p.2 = .ok q.2 ∧ validateValue E table3 q.1 q.2 = .ok true) g r := by
  constructor
  · intro h
    rcases hc : convertData23 g with e | c
    · rw [hc] at h; cases h
    · rw [hc] at h
      obtain ⟨rfl, hall⟩ := validateData_ok.1 h
      have hF := convertData23_ok.1 hc
      clear hc h
      induction hF with
      | nil => exact .nil
      | cons h _ ih =>
        rw [List.forall_mem_cons] at hall
        exact .cons ⟨h.1, h.2, hall.1⟩ (ih hall.2)
  · intro h
    have hc := convertData23_ok.2 (h.imp fun p q hpq => ⟨hpq.1, hpq.2.1⟩)
    rw [hc]
    refine validateData_ok.2 ⟨rfl, fun q hq => ?_⟩
    obtain ⟨p, -, hp⟩ := forall₂_right h hq
    exact hp.2.2

theorem readInfo2_ok {E : Env} {d r : Dict Str PyVal} : readInfo E 2 true d = .ok r ↔
    List.Forall₂ (fun p q => q.1 = p.1 ∧ convert23 p.1 p.2 = .ok q.2 ∧ validateValue E table3 q.1 q.2 = .ok true) (gather (Dict.get? d) (Dict.keys table2)) r :=
  convert_validate _

theorem readInfo3_ok {E : Env} {d r : Dict Str PyVal} : readInfo E 3 true d = .ok r ↔
    r = gather (Dict.get? d) (Dict.keys table3) ∧ ∀ p ∈ r, validateValue E table3 p.1 p.2 = .ok true := by
  have : readInfo E 3 true d = validateData E table3 (gather (Dict.get? d) (Dict.keys table3)) := rfl
  rw [this, validateData_ok]
  constructor
  · rintro ⟨rfl, h⟩; exact ⟨rfl, h⟩
  · rintro ⟨rfl, h⟩; exact ⟨rfl, h⟩

theorem writeInfo3_ok {E : Env} {info : Str → Option PyVal} {d : Dict Str PyVal} : writeInfo E 3 true info = .ok d ↔
    d = gather info (Dict.keys table3) ∧ ∀ p ∈ d, validateValue E table3 p.1 p.2 = .ok true := by
  have : writeInfo E 3 true info = validateData E table3 (gather info (Dict.keys table3)) := rfl
  rw [this, validateData_ok]
  constructor
  · rintro ⟨rfl, h⟩; exact ⟨rfl, h⟩
  · rintro ⟨rfl, h⟩; exact ⟨rfl, h⟩

theorem writeInfo2_ok {E : Env} {info : Str → Option PyVal} {d : Dict Str PyVal} : writeInfo E 2 true info = .ok d ↔
    d = convertData32 (gather info (Dict.keys table3)) ∧ ∀ p ∈ d, validateValue E table2 p.1 p.2 = .ok true := by
  have : writeInfo E 2 true info = validateData E table2 (convertData32 (gather info (Dict.keys table3))) := rfl
  rw [this, validateData_ok]
  constructor
  · rintro ⟨rfl, h⟩; exact ⟨rfl, h⟩
  · rintro ⟨rfl, h⟩; exact ⟨rfl, h⟩

/-- Values valid in UFO 3 are not changed. -/
theorem convert23_stable {E : Env} {a : Str} {v : PyVal} (h3 : validateValue E table3 a v = .ok true) (hint : a ∈ nonNegativeIntegerSince3 → ∃ i, IsInt v i) :
    convert23 a v = .ok v := by
  obtain ⟨k, hk, hc⟩ := validateValue_ok h3
  by_cases h0 : a = c!"versionMinor"
  · subst h0
    have : Dict.get? table3 c!"versionMinor" = some .nonNegInt := by decide +kernel
    rw [this] at hk; cases hk
    obtain ⟨i, hi, h⟩ := nonNegInt_iff.1 (Except.ok.inj hc)
    rw [convert23_minor]
    refine integerStep_of (absInt_int (isInt_numIs hi)) ?_
    rw [show (i.natAbs : Int) = i by omega]
    exact isInt_numIs hi
  · by_cases h1 : a ∈ integerSince3
    · have : ∀ a ∈ integerSince3, Dict.get? table3 a = some .int := by decide +kernel
      rw [this a h1] at hk; cases hk
      obtain ⟨i, hi⟩ := isInt_iff.1 (Except.ok.inj hc)
      rw [convert23_integer h1]
      exact integerStep_of (roundInt_int (isInt_numIs hi)) (isInt_numIs hi)
    · by_cases h2 : a ∈ nonNegativeIntegerSince3
      · have : ∀ a ∈ nonNegativeIntegerSince3, Dict.get? table3 a = some .nonNegNum := by decide +kernel
        rw [this a h2] at hk; cases hk
        obtain ⟨i, hi⟩ := hint h2
        have hpos := (nonNegNumber_iff.1 (Except.ok.inj hc)).2 _ (isInt_numIs hi)
        simp only [fltLt, decide_eq_false_iff_not, not_lt] at hpos
        have hpos : 0 ≤ i := by exact_mod_cast hpos
        obtain ⟨h3, h4⟩ := lists3.2.1 a h2
        unfold convert23
        simp only [h3, h4, if_true]
        rw [integerStep_of (roundInt_int (isInt_numIs hi)) (isInt_numIs hi)]
        refine integerStep_of (absInt_int (isInt_numIs hi)) ?_
        rw [show (i.natAbs : Int) = i by omega]
        exact isInt_numIs hi
      · exact convert23_other h0 h1 h2 v

/-- What is written in UFO 2. -/
theorem get?_written2 (info : Str → Option PyVal) (a : Str) : Dict.get? (convertData32 (gather info (Dict.keys table3))) a = if a ∈ Dict.keys table2 then present (info a) else none := by
  rw [convertData32, get?_filter fun b => decide (b ∈ Dict.keys table2)]
  simp only [decide_eq_true_eq]
  split
  · next h => rw [get?_gather wf_table3, if_pos (table2_sub3 a h)]
  · rfl

end Verif.FontInfo
