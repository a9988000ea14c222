import Verif.Proofs.FontInfo1
import Verif.Proofs.Stored
/-! Font info of UFO 1, through a file. -/
namespace Verif.FontInfo
open Verif Verif.Validators Verif.Spec.Validators Verif.Spec.Woff Verif.Spec.FontInfo Verif.Spec.Plist

theorem plain_atomic {v : PyVal} (h : Plain v) : Atomic v := by
  cases v <;> first | trivial | exact h.elim

/-- The values of the attributes of UFO 1. -/
theorem plain_kept {E : Env} {a b : Str} (h : (a, b) ∈ version1) {v : PyVal} (hv : validateValue E table2 b v = .ok true) (hfin : ∀ f, v = .float f → ∃ q, f = .fin q) : Plain v := by
  obtain ⟨k, hk, hkept, -⟩ := kept_pair h
  rw [validateValue_of hk] at hv
  cases hkept with
  | plain _ _ hk =>
    rcases hk with rfl | rfl | rfl | rfl
    · obtain ⟨s, rfl⟩ := isStr_iff.1 (Except.ok.inj hv); trivial
    · obtain ⟨i, hi⟩ := isInt_iff.1 (Except.ok.inj hv); exact plain_int hi
    · rcases isNumber_iff.1 (Except.ok.inj hv) with ⟨i, hi⟩ | ⟨f, rfl⟩
      · exact plain_int hi
      · obtain ⟨q, rfl⟩ := hfin f rfl; trivial
    · obtain ⟨i, hi, -⟩ := weight_iff.1 (Except.ok.inj hv); exact plain_int hi
  | style => obtain ⟨s, hs, rfl⟩ := styleMap_iff.1 (Except.ok.inj hv); trivial
  | width => obtain ⟨i, hi, -⟩ := width_iff.1 (Except.ok.inj hv); exact plain_int hi
  | charSet =>
    obtain ⟨i, -, -, hi | rfl⟩ := characterSet_iff.1 (Except.ok.inj hv)
    exacts [plain_int hi, trivial]

/-- An equal value that is not an integral float. -/
theorem same_plain {v w : PyVal} (hv : Plain v) (h : PyVal.pyEq w v = true) (hw : ∀ q : Rat, w = .float (.fin q) → q.den ≠ 1) :
    w = v ∨ ∃ i : Int, IsInt w i ∧ IsRat v i := by
  match v, hv with
  | .str s, _ => exact .inl (pyEq_str.1 h)
  | .int i, _ =>
    rcases pyEq_int.1 h with h | rfl
    · exact .inr ⟨i, h, isInt_numIs (.inl rfl)⟩
    · exact absurd rfl (hw _ rfl)
  | .bool b, _ =>
    have h : PyVal.pyEq w (.int (if b then 1 else 0)) = true := by
      cases b <;> cases w <;> simp_all [PyVal.pyEq, PyVal.num?]
    rcases pyEq_int.1 h with h | rfl
    · refine .inr ⟨_, h, isInt_numIs ?_⟩
      cases b
      · exact .inr (.inr ⟨rfl, rfl⟩)
      · exact .inr (.inl ⟨rfl, rfl⟩)
    · exact absurd (Rat.den_intCast _) (hw _ rfl)
  | .float (.fin q), _ =>
    cases w with
    | int i =>
      have := pyEq_int_left.1 h
      exact .inr ⟨i, .inl rfl, this⟩
    | bool b =>
      right
      refine ⟨if b then 1 else 0, by cases b <;> simp [IsInt], .inr ?_⟩
      cases b <;> simp_all [PyVal.pyEq, PyVal.num?, Flt.eq]
    | float f =>
      cases f <;> simp_all [PyVal.pyEq, PyVal.num?, Flt.eq]
    | _ => simp [PyVal.pyEq, PyVal.num?] at h

/-- What the conversion returns is not an integral float. -/
theorem convert12_float {a b : Str} {w w' : PyVal} (h : convert12 a w = .ok (b, w')) (q : Rat) (hq : w' = .float (.fin q)) : q.den ≠ 1 := by
  unfold convert12 at h
  rcases hx : floatToInt1 w with e | x
  · rw [hx] at h; cases h
  · rw [hx] at h
    simp only at h
    rcases hy : special12 a x with e | y
    · rw [hy] at h; cases h
    · rw [hy] at h
      have hy' : y = w' := (Prod.mk.inj (Except.ok.inj h)).2
      rw [hq] at hy'
      subst hy'
      have hx' : x = .float (.fin q) := by
        unfold special12 at hy
        split at hy
        · exact Except.ok.inj hy
        · split at hy
          · unfold required at hy; split at hy <;> cases hy
          · split at hy
            · unfold required at hy; split at hy <;> cases hy
            · split at hy
              · unfold required at hy; split at hy <;> cases hy
              · exact Except.ok.inj hy
      subst hx'
      unfold floatToInt1 at hx
      split at hx
      · cases hx
      · cases hx
      · split at hx
        · cases hx
        · cases hx; assumption
      · next h1 => cases hx; exact absurd rfl (h1 _)

/-- The kinds of UFO 3 for the attributes of UFO 1. -/
theorem kinds3 : ∀ p ∈ version1, Dict.get? table3 p.2 = Dict.get? table2 p.2 ∨ (Dict.get? table2 p.2 = some .int ∧ Dict.get? table3 p.2 = some .nonNegInt) ∨
    (Dict.get? table2 p.2 = some .num ∧ Dict.get? table3 p.2 = some .nonNegNum) := by decide +kernel

theorem not_integer1 : ∀ p ∈ version1, p.2 ∉ nonNegativeIntegerSince3 := by decide +kernel

/-- An integer equal to a valid number is valid. -/
theorem valid_int {E : Env} {a b : Str} (h : (a, b) ∈ version1) {v w : PyVal} {i : Int} (hv : IsRat v i) (hw : IsInt w i) (h3 : validateValue E table3 b v = .ok true) :
    validateValue E table3 b w = .ok true := by
  obtain ⟨k, hk, hkept, -⟩ := kept_pair h
  have hone : ∀ j, IsInt v j → j = i := fun j hj => by
    have := Flt.fin.inj (numIs_unique hv (isInt_numIs hj))
    exact_mod_cast this.symm
  rcases kinds3 _ h with hs | ⟨-, hs⟩ | ⟨-, hs⟩
  · simp only at hs
    rw [hk] at hs
    rw [validateValue_of hs] at h3 ⊢
    cases hkept with
    | plain _ _ hk =>
      rcases hk with rfl | rfl | rfl | rfl
      · obtain ⟨s, rfl⟩ := isStr_iff.1 (Except.ok.inj h3)
        rcases hv with ⟨j, h | ⟨h, -⟩ | ⟨h, -⟩, -⟩ | h <;> cases h
      · exact congrArg _ (isInt_iff.2 ⟨i, hw⟩)
      · exact congrArg _ (isNumber_iff.2 (.inl ⟨i, hw⟩))
      · obtain ⟨j, hj, h0⟩ := weight_iff.1 (Except.ok.inj h3)
        exact congrArg _ (weight_iff.2 ⟨i, hw, hone j hj ▸ h0⟩)
    | style =>
      obtain ⟨s, -, rfl⟩ := styleMap_iff.1 (Except.ok.inj h3)
      rcases hv with ⟨j, h | ⟨h, -⟩ | ⟨h, -⟩, -⟩ | h <;> cases h
    | width =>
      obtain ⟨j, hj, h0⟩ := width_iff.1 (Except.ok.inj h3)
      exact congrArg _ (width_iff.2 ⟨i, hw, hone j hj ▸ h0⟩)
    | charSet =>
      obtain ⟨j, h1, h2, hj⟩ := characterSet_iff.1 (Except.ok.inj h3)
      have : j = i := by
        have := Flt.fin.inj (numIs_unique hv (isNum_rat_of_int hj))
        exact_mod_cast this.symm
      subst this
      exact congrArg _ (characterSet_iff.2 ⟨j, h1, h2, .inl hw⟩)
  · simp only at hs
    rw [validateValue_of hs] at h3 ⊢
    obtain ⟨j, hj, h0⟩ := nonNegInt_iff.1 (Except.ok.inj h3)
    exact congrArg _ (nonNegInt_iff.2 ⟨i, hw, hone j hj ▸ h0⟩)
  · simp only at hs
    rw [validateValue_of hs] at h3 ⊢
    obtain ⟨-, h0⟩ := nonNegNumber_iff.1 (Except.ok.inj h3)
    refine congrArg _ (nonNegNumber_iff.2 ⟨.inl ⟨i, hw⟩, fun f hf => ?_⟩)
    rw [← numIs_unique (isInt_numIs hw) hf]
    exact h0 _ hv

/-- The converted value is valid in UFO 3 if the original is, and is not changed by the conversion to UFO 3. -/
theorem step_valid {E : Env} {p q : Str × PyVal} (h : Step21 p q) (hp : Plain p.2) (h3 : validateValue E table3 p.1 p.2 = .ok true) {w' : PyVal}
    (hw : convert12 q.1 q.2 = .ok (p.1, w')) : validateValue E table3 p.1 w' = .ok true ∧ convert23 p.1 w' = .ok w' := by
  obtain ⟨hv1, w'', hw', he, -⟩ := h
  rw [hw] at hw'
  cases hw'
  have hval : validateValue E table3 p.1 w' = .ok true := by
    rcases same_plain hp he (convert12_float hw) with rfl | ⟨i, hi, hr⟩
    · exact h3
    · exact valid_int hv1 hr hi h3
  exact ⟨hval, convert23_stable hval fun h => absurd h (not_integer1 _ hv1)⟩

theorem mem_set {d : Dict Str PyVal} {k : Str} {v : PyVal} {q : Str × PyVal} (h : q ∈ Dict.set d k v) : q ∈ d ∨ q = (k, v) := by
  induction d with
  | nil => exact .inr (List.mem_singleton.1 h)
  | cons p d ih =>
    obtain ⟨k', v'⟩ := p
    rw [Dict.set] at h
    split at h
    · next hk =>
      rcases List.mem_cons.1 h with h | h
      · exact .inr (hk ▸ h)
      · exact .inl (List.mem_cons_of_mem _ h)
    · rcases List.mem_cons.1 h with h | h
      · exact .inl (h ▸ List.mem_cons_self)
      · exact (ih h).imp (List.mem_cons_of_mem _) id

/-- Where the items read from a UFO 1 come from. -/
theorem convertData12_mem {d acc r : Dict Str PyVal} (h : convertData12 acc d = .ok r) : ∀ m ∈ r, m ∈ acc ∨ ∃ q ∈ d, convert12 q.1 q.2 = .ok m := by
  induction d generalizing acc with
  | nil => rw [convertData12] at h; cases h; exact fun q hq => .inl hq
  | cons p d ih =>
    obtain ⟨b, v⟩ := p
    have up : ∀ m, (∃ q ∈ d, convert12 q.1 q.2 = .ok m) → ∃ q ∈ (b, v) :: d, convert12 q.1 q.2 = .ok m := by
      rintro m ⟨q, hq, h⟩; exact ⟨q, List.mem_cons_of_mem _ hq, h⟩
    rw [convertData12.eq_def] at h
    simp only at h
    split at h
    · exact fun m hm => (ih h m hm).imp id (up m)
    · split at h
      · cases h
      · next a w hw =>
        split at h
        · exact fun m hm => (ih h m hm).imp id (up m)
        · split at h
          · cases h
          · intro m hm
            rcases ih h m hm with hm | hm
            · rcases mem_set hm with hm | rfl
              · exact .inl hm
              · exact .inr ⟨(b, v), List.mem_cons_self, hw⟩
            · exact .inr (up m hm)

theorem mem_version1 {b : Str} : b ∈ version1.map Prod.snd ↔ ∃ a, (a, b) ∈ version1 := by
  constructor
  · intro h
    obtain ⟨⟨a, b⟩, h', rfl⟩ := List.mem_map.1 h
    exact ⟨a, h'⟩
  · rintro ⟨a, h⟩; exact List.mem_map.2 ⟨_, h, rfl⟩

/-- Where the items written to a UFO 1 come from. -/
theorem convertData21_mem {d acc r : Dict Str PyVal} (h : convertData21 acc d = .ok r) : ∀ q ∈ r, q ∈ acc ∨ ∃ p ∈ d, convert21 p.1 p.2 = .ok q ∧ q.1 ∈ attributes1 := by
  induction d generalizing acc with
  | nil => rw [convertData21] at h; cases h; exact fun q hq => .inl hq
  | cons p d ih =>
    obtain ⟨b, v⟩ := p
    rw [convertData21.eq_def] at h
    simp only at h
    split at h
    · cases h
    · next a w hw =>
      split at h
      · intro q hq
        rcases ih h q hq with hq | ⟨p, hp, hpq⟩
        · exact .inl hq
        · exact .inr ⟨p, List.mem_cons_of_mem _ hp, hpq⟩
      · next ha =>
        split at h
        · cases h
        · intro q hq
          rcases ih h q hq with hq | ⟨p, hp, hpq⟩
          · rcases mem_set hq with hq | rfl
            · exact .inl hq
            · exact .inr ⟨(b, v), List.mem_cons_self, hw, not_not.1 ha⟩
          · exact .inr ⟨p, List.mem_cons_of_mem _ hp, hpq⟩

/-- The values the conversion makes. -/
theorem special21_value {b : Str} {v w : PyVal} (h : special21 b v = .ok w) : w = v ∨ w = .none ∨ (∃ i : Int, w = .int i ∧ 0 ≤ i ∧ i < 256) ∨ ∃ s, w = .str s ∧ FileText s := by
  have h1 : ∀ p ∈ fontStyle21, 0 ≤ p.2 ∧ p.2 < 256 := by decide +kernel
  have h2 : ∀ p ∈ widthName21, p.2.all (fun c => isXmlChar c && !decide (c = '\r')) = true := by decide +kernel
  have h3 : ∀ p ∈ charSet21, 0 ≤ p.2 ∧ p.2 < 256 := by decide +kernel
  unfold special21 at h
  split at h
  · exact .inl (Except.ok.inj h).symm
  · split at h
    · unfold getStr at h
      split at h
      · cases h
      · rcases hf : List.find? (fun p => PyVal.pyEq v (.str p.1)) fontStyle21 with _ | p
        · rw [hf] at h; exact .inr (.inl (Except.ok.inj h).symm)
        · rw [hf] at h; exact .inr (.inr (.inl ⟨_, (Except.ok.inj h).symm, h1 _ (List.mem_of_find?_eq_some hf)⟩))
    · split at h
      · unfold getInt at h
        split at h
        · cases h
        · rcases hf : List.find? (fun p => PyVal.pyEq v (.int p.1)) widthName21 with _ | p
          · rw [hf] at h; exact .inr (.inl (Except.ok.inj h).symm)
          · rw [hf] at h
            have := List.all_eq_true.1 (h2 _ (List.mem_of_find?_eq_some hf))
            simp only [Bool.and_eq_true, Bool.not_eq_true', decide_eq_false_iff_not] at this
            exact .inr (.inr (.inr ⟨_, (Except.ok.inj h).symm, (Plist.xmlText_iff _).2 (List.all_eq_true.2 fun c hc => (this c hc).1), fun hc => (this _ hc).2 rfl⟩))
      · split at h
        · unfold getInt at h
          split at h
          · cases h
          · rcases hf : List.find? (fun p => PyVal.pyEq v (.int p.1)) charSet21 with _ | p
            · rw [hf] at h; exact .inr (.inl (Except.ok.inj h).symm)
            · rw [hf] at h; exact .inr (.inr (.inl ⟨_, (Except.ok.inj h).symm, h3 _ (List.mem_of_find?_eq_some hf)⟩))
        · exact .inl (Except.ok.inj h).symm

theorem convert21_value {b a : Str} {v w : PyVal} (h : convert21 b v = .ok (a, w)) : a = Dict.getD names21 b b ∧ (w = v ∨ w = .none ∨ (∃ i : Int, w = .int i ∧ 0 ≤ i ∧ i < 256) ∨ ∃ s, w = .str s ∧ FileText s) := by
  unfold convert21 at h
  rcases hx : special21 b v with e | x
  · rw [hx] at h; cases h
  · rw [hx] at h
    cases h
    exact ⟨rfl, special21_value hx⟩

theorem names1_fileText : ∀ a ∈ attributes1, FileText a := by
  have : attributes1.all (fun a => a.all isXmlChar && !a.contains '\r') = true := by decide +kernel
  intro a ha
  have := List.all_eq_true.1 this a ha
  simp only [Bool.and_eq_true, Bool.not_eq_true', List.contains_eq_mem, decide_eq_false_iff_not] at this
  exact ⟨(Plist.xmlText_iff a).2 this.1, this.2⟩

theorem attributes1_nodup : attributes1.Nodup := by decide +kernel

theorem writeInfo1_eq {E : Env} {info : Str → Option PyVal} {d : Dict Str PyVal} : writeInfo E 1 true info = .ok d ↔
    (∀ p ∈ convertData32 (gather info (Dict.keys table3)), validateValue E table2 p.1 p.2 = .ok true) ∧ convertData21 [] (convertData32 (gather info (Dict.keys table3))) = .ok d := by
  have : writeInfo E 1 true info = (validateData E table2 (convertData32 (gather info (Dict.keys table3)))).bind (convertData21 []) := rfl
  rw [this]
  constructor
  · intro h
    rcases hv : validateData E table2 (convertData32 (gather info (Dict.keys table3))) with e | x
    · rw [hv] at h; cases h
    · rw [hv] at h
      obtain ⟨rfl, hall⟩ := validateData_ok.1 hv
      exact ⟨hall, h⟩
  · rintro ⟨h1, h2⟩
    rw [validateData_ok.2 ⟨rfl, h1⟩]
    exact h2

/-- What is written to a UFO 1. -/
structure Written1 (E : Env) (info : Str → Option PyVal) (P d : Dict Str PyVal) : Prop where
  wf : Dict.WF P
  get : ∀ b, Dict.get? P b = if b ∈ version1.map Prod.snd then present (info b) else none
  steps : List.Forall₂ Step21 P d
  plain : ∀ p ∈ P, Plain p.2
  names : ∀ q ∈ d, q.1 ∈ attributes1
  values : ∀ q ∈ d, (∃ b, info b = some q.2) ∨ (∃ i : Int, q.2 = .int i ∧ 0 ≤ i ∧ i < 256) ∨ ∃ s, q.2 = .str s ∧ FileText s
  wf' : Dict.WF d
  atomic : ∀ q ∈ d, Atomic q.2

theorem step21_names {p p' q : Str × PyVal} (h : Step21 p q) (h' : Step21 p' q) : p.1 = p'.1 := by
  obtain ⟨_, _, _, _, _, h1, _⟩ := kept_pair h.1
  obtain ⟨_, _, _, _, _, h2, _⟩ := kept_pair h'.1
  rw [← h1, ← h2]

theorem step21_names' {p q q' : Str × PyVal} (h : Step21 p q) (h' : Step21 p q') : q.1 = q'.1 := by
  obtain ⟨_, _, _, _, _, _, h1⟩ := kept_pair h.1
  obtain ⟨_, _, _, _, _, _, h2⟩ := kept_pair h'.1
  rw [← h1, ← h2]

theorem written1 {E : Env} {info : Str → Option PyVal} {d : Dict Str PyVal} (h : writeInfo E 1 true info = .ok d)
    (hfin : ∀ a f, info a = some (.float f) → ∃ q, f = .fin q) : ∃ P, Written1 E info P d := by
  obtain ⟨hv, hd⟩ := writeInfo1_eq.1 h
  have hwf : Dict.WF (convertData32 (gather info (Dict.keys table3))) := (List.filter_sublist.map _).nodup ((keys_gather info _).nodup wf_table3)
  have hget := get?_written2 info
  generalize convertData32 (gather info (Dict.keys table3)) = D at *
  have hinfo : ∀ p ∈ D, info p.1 = some p.2 ∧ p.2 ≠ .none := by
    rintro ⟨b, v⟩ hp
    have := Dict.get?_of_mem hwf hp
    rw [hget] at this
    split at this
    · exact present_some.1 this
    · cases this
  have hf : ∀ p ∈ D, ∀ f, p.2 = .float f → ∃ q, f = .fin q := fun p hp f he => hfin p.1 f (by rw [(hinfo p hp).1, he])
  obtain ⟨L, hL, hF⟩ := convertData21_spec D hwf hv hf [] (by simp [Dict.keys])
  rw [hd, List.nil_append] at hL
  cases hL
  have hP : ∀ p ∈ D.filter fun p => in1 p.1, Plain p.2 := by
    intro p hp
    obtain ⟨hp, h1⟩ := List.mem_filter.1 hp
    obtain ⟨k, hk, -⟩ := validateValue_ok (hv p hp)
    obtain ⟨a, ha⟩ := (in1_iff (List.mem_map.2 ⟨_, Dict.mem_of_get? hk, rfl⟩)).1 h1
    exact plain_kept ha (hv p hp) (hf p hp)
  have hval : ∀ q ∈ d, (∃ b, info b = some q.2) ∨ (∃ i : Int, q.2 = .int i ∧ 0 ≤ i ∧ i < 256) ∨ ∃ s, q.2 = .str s ∧ FileText s := by
    rintro ⟨a, w⟩ hq
    rcases convertData21_mem hd _ hq with hm | ⟨⟨b, v⟩, hp, hc, -⟩
    · cases hm
    · rcases (convert21_value hc).2 with rfl | rfl | h | h
      · exact .inl ⟨b, (hinfo _ hp).1⟩
      · obtain ⟨p, -, hs⟩ := forall₂_right hF hq
        exact absurd rfl hs.2.choose_spec.2.2.1
      · exact .inr (.inl h)
      · exact .inr (.inr h)
  refine ⟨D.filter fun p => in1 p.1, (List.filter_sublist.map Prod.fst).nodup hwf, fun b => ?_, hF, hP, fun q hq => ?_, hval, ?_, ?_⟩
  · rw [get?_filter, hget]
    by_cases hb : b ∈ Dict.keys table2
    · simp only [hb, if_true]
      by_cases h1 : in1 b = true
      · rw [if_pos h1, if_pos (mem_version1.2 ((in1_iff hb).1 h1))]
      · rw [if_neg h1, if_neg (fun h => h1 ((in1_iff hb).2 (mem_version1.1 h)))]
    · simp only [hb, if_false]
      rw [if_neg (c := b ∈ version1.map Prod.snd) (fun h => by obtain ⟨a, ha⟩ := mem_version1.1 h; exact hb (version1_ok _ ha).2.1)]
      split <;> rfl
  · rcases convertData21_mem hd _ hq with hm | ⟨p, hp, hc, h1⟩
    · cases hm
    · exact h1
  · have hwfP : Dict.WF (D.filter fun p => in1 p.1) := (List.filter_sublist.map Prod.fst).nodup hwf
    clear hval hP hd h
    generalize D.filter (fun p => in1 p.1) = P at *
    induction hF with
    | nil => exact List.nodup_nil
    | @cons p q P L hs hF ih =>
      simp only [Dict.WF, Dict.keys, List.map_cons, List.nodup_cons] at hwfP ⊢
      refine ⟨fun hm => ?_, ih hwfP.2⟩
      obtain ⟨q', hq', he⟩ := List.mem_map.1 hm
      obtain ⟨p', hp', hs'⟩ := forall₂_right hF hq'
      obtain ⟨_, _, _, _, _, h1, _⟩ := kept_pair hs.1
      obtain ⟨_, _, _, _, _, h2, _⟩ := kept_pair hs'.1
      rw [he] at h2
      exact hwfP.1 (List.mem_map.2 ⟨p', hp', h2.symm.trans h1⟩)
  · rintro ⟨a, w⟩ hq
    rcases convertData21_mem hd _ hq with hm | ⟨⟨b, v⟩, hp, hc, h1⟩
    · cases hm
    · obtain ⟨he, hw⟩ := convert21_value hc
      rcases hw with rfl | rfl | ⟨i, rfl, -⟩ | ⟨s, rfl, -⟩
      · refine plain_atomic (hP (b, w) (List.mem_filter.2 ⟨hp, ?_⟩))
        simp only at he h1
        rw [he] at h1
        exact decide_eq_true h1
      all_goals trivial

/-- Reading what was written. -/
theorem file_info1 {E : Env} {info : Str → Option PyVal} {d e P : Dict Str PyVal} (W : Written1 E info P d)
    (h3 : ∀ a b, (a, b) ∈ version1 → ∀ v, present (info b) = some v → validateValue E table3 b v = .ok true)
    (h1 : ∀ a v, Dict.get? d a = some v → ∃ w, Dict.get? e a = some w ∧ Stored v w)
    (h2 : ∀ a, Dict.get? d a = none → Dict.get? e a = none) :
    ∃ r, readInfo E 1 true e = .ok r ∧ ∀ b, SameEntry (if b ∈ version1.map Prod.snd then present (info b) else none) (Dict.get? r b) := by
  have he : ∀ a, Dict.get? e a = Dict.get? d a := by
    intro a
    rcases hd : Dict.get? d a with _ | v
    · exact h2 a hd
    · obtain ⟨w, hw, hs⟩ := h1 a v hd
      rw [hw, stored_atomic (W.atomic _ (Dict.mem_of_get? hd)) hs]
  have hg : ∀ q, q ∈ gather (Dict.get? e) attributes1 ↔ q ∈ d := by
    rintro ⟨a, w⟩
    rw [mem_gather, he, present_some]
    constructor
    · rintro ⟨-, h, -⟩; exact Dict.mem_of_get? h
    · intro h
      obtain ⟨p, -, hs⟩ := forall₂_right W.steps h
      exact ⟨W.names _ h, Dict.get?_of_mem W.wf' h, hs.2.choose_spec.2.2.1⟩
  have hgwf : Dict.WF (gather (Dict.get? e) attributes1) := (keys_gather _ _).nodup attributes1_nodup
  obtain ⟨P', hP'⟩ := forall₂_exists (R := fun q p => p ∈ P ∧ Step21 p q) (gather (Dict.get? e) attributes1) fun q hq => by
    obtain ⟨p, hp, hs⟩ := forall₂_right W.steps ((hg q).1 hq)
    exact ⟨p, hp, hs⟩
  have hF : List.Forall₂ Step21 P' (gather (Dict.get? e) attributes1) := hP'.flip.imp fun p q h => h.2
  have hsub : ∀ p ∈ P', p ∈ P := fun p hp => by
    obtain ⟨q, -, h⟩ := forall₂_right hP' hp
    exact h.1
  have hwf' : Dict.WF P' := by
    clear hg hP' hsub
    generalize gather (Dict.get? e) attributes1 = L at *
    induction hF with
    | nil => exact List.nodup_nil
    | @cons p q P L hs hF ih =>
      simp only [Dict.WF, Dict.keys, List.map_cons, List.nodup_cons] at hgwf ⊢
      refine ⟨fun hm => ?_, ih hgwf.2⟩
      obtain ⟨p', hp', he⟩ := List.mem_map.1 hm
      obtain ⟨q', hq', hs'⟩ := forall₂_left hF hp'
      obtain ⟨_, _, _, _, _, _, h1⟩ := kept_pair hs.1
      obtain ⟨_, _, _, _, _, _, h2⟩ := kept_pair hs'.1
      rw [he] at h2
      exact hgwf.1 (List.mem_map.2 ⟨q', hq', h2.symm.trans h1⟩)
  have hget : ∀ b, Dict.get? P' b = Dict.get? P b := by
    intro b
    rcases hb : Dict.get? P' b with _ | v
    · rcases hb' : Dict.get? P b with _ | v
      · rfl
      · exfalso
        obtain ⟨q, hq, hs⟩ := forall₂_left W.steps (Dict.mem_of_get? hb')
        obtain ⟨p, hp, hs'⟩ := forall₂_right hF ((hg q).2 hq)
        have := step21_names hs hs'
        simp only at this
        exact Dict.get?_eq_none_iff.1 hb (this ▸ Dict.mem_keys_of_mem hp)
    · exact (Dict.get?_of_mem W.wf (hsub _ (Dict.mem_of_get? hb))).symm
  obtain ⟨M, hM, hG⟩ := convertData12_spec hF hwf' [] (by simp [Dict.keys])
  rw [List.nil_append] at hM
  have hall : ∀ p ∈ M, convert23 p.1 p.2 = .ok p.2 ∧ validateValue E table3 p.1 p.2 = .ok true := by
    rintro ⟨b, w⟩ hm
    rcases convertData12_mem hM _ hm with hm | ⟨q, hq, hc⟩
    · cases hm
    · obtain ⟨p, hp, hs⟩ := forall₂_right hF hq
      obtain ⟨w', hw', -⟩ := hs.2
      have hb : b = p.1 := by rw [hc] at hw'; exact congrArg Prod.fst (Except.ok.inj hw')
      subst hb
      have hg := Dict.get?_of_mem W.wf (hsub p hp)
      rw [W.get] at hg
      split at hg
      · exact (step_valid hs (W.plain _ (hsub p hp)) (h3 _ _ hs.1 _ hg) hc).symm
      · cases hg
  refine ⟨M, ?_, fun b => ?_⟩
  · have : readInfo E 1 true e = (((convertData12 [] (gather (Dict.get? e) attributes1)).bind convertData23).bind (validateData E table3)) := rfl
    rw [this, hM]
    have : convertData23 M = .ok M := convertData23_ok.2 (List.forall₂_same.2 fun p hp => ⟨rfl, (hall p hp).1⟩)
    show (convertData23 M).bind _ = _
    rw [this]
    exact validateData_ok.2 ⟨rfl, fun p hp => (hall p hp).2⟩
  · have := get?_forall₂ hG b
    rw [hget, W.get] at this
    exact this

theorem atomic_stored {v : PyVal} (h : Atomic v) : Stored v v := by
  have hu : untuple v = v := by cases v <;> first | rfl | exact h.elim
  rw [Stored, hu]
  exact .refl v

/-- The file of a UFO 1 can be stored. -/
theorem storable1 {E : Env} {info : Str → Option PyVal} {P d : Dict Str PyVal} (W : Written1 E info P d)
    (hval : ∀ a v, info a = some v → v ≠ .none → Representable FileText v ∧ WellFormed v) : Representable FileText (asDict d) ∧ WellFormed (asDict d) := by
  refine asDict_representable (fun q hq => ⟨names1_fileText _ (W.names q hq), ?_⟩) W.wf'
  rcases W.values q hq with ⟨b, hb⟩ | ⟨i, hi, h0, h1⟩ | ⟨s, hs, ht⟩
  · obtain ⟨p, -, hs⟩ := forall₂_right W.steps hq
    exact hval b _ hb hs.2.choose_spec.2.2.1
  · rw [hi]
    exact ⟨.int i ⟨by norm_num; omega, by norm_num; omega⟩, trivial⟩
  · rw [hs]
    exact ⟨.str s ht, trivial⟩

end Verif.FontInfo
