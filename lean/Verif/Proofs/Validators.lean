import Verif.Model.Validators
import Verif.Spec.Validators
import Verif.Proofs.Dict
import Verif.Proofs.Str
import Verif.Proofs.Num
import Verif.Proofs.Plist
import Mathlib.Data.Rat.Cast.Order
/-! Lemmas about validators. -/
namespace Verif.Validators
open Verif Verif.Spec.Validators

theorem isInt_iff {v : PyVal} : isInt v = true ↔ ∃ i, IsInt v i := by
  constructor
  · intro h
    match v, h with
    | .int i, _ => exact ⟨i, .inl rfl⟩
    | .bool true, _ => exact ⟨1, .inr (.inl ⟨rfl, rfl⟩)⟩
    | .bool false, _ => exact ⟨0, .inr (.inr ⟨rfl, rfl⟩)⟩
  · rintro ⟨i, rfl | ⟨rfl, rfl⟩ | ⟨rfl, rfl⟩⟩ <;> rfl

theorem isNumber_iff {v : PyVal} : isNumber v = true ↔ IsNum v := by
  constructor
  · intro h
    match v, h with
    | .int i, _ => exact .inl ⟨i, .inl rfl⟩
    | .bool true, _ => exact .inl ⟨1, .inr (.inl ⟨rfl, rfl⟩)⟩
    | .bool false, _ => exact .inl ⟨0, .inr (.inr ⟨rfl, rfl⟩)⟩
    | .float f, _ => exact .inr ⟨f, rfl⟩
  · rintro (⟨i, rfl | ⟨rfl, rfl⟩ | ⟨rfl, rfl⟩⟩ | ⟨f, rfl⟩) <;> rfl

theorem isStr_iff {v : PyVal} : isStr v = true ↔ IsString v := by
  constructor
  · intro h
    match v, h with
    | .str s, _ => exact ⟨s, rfl⟩
  · rintro ⟨s, rfl⟩; rfl

theorem isList_iff {v : PyVal} : isList v = true ↔ ∃ l, v = .list l := by
  constructor
  · intro h
    match v, h with
    | .list s, _ => exact ⟨s, rfl⟩
  · rintro ⟨s, rfl⟩; rfl

theorem isBool_iff {v : PyVal} : isBool v = true ↔ ∃ b, v = .bool b := by
  constructor
  · intro h
    match v, h with
    | .bool s, _ => exact ⟨s, rfl⟩
  · rintro ⟨s, rfl⟩; rfl

theorem seq?_iff {v : PyVal} {l : List PyVal} : seq? v = some l ↔ IsSeq v l := by
  cases v <;> simp [seq?, IsSeq]

theorem seq?_none {v : PyVal} : seq? v = none ↔ ∀ l, ¬ IsSeq v l := by
  cases v <;> simp [seq?, IsSeq]

theorem num?_int {v : PyVal} {i : Int} (h : IsInt v i) : v.num? = some (.fin i) := by
  rcases h with rfl | ⟨rfl, rfl⟩ | ⟨rfl, rfl⟩ <;> simp [PyVal.num?]

theorem num?_iff {v : PyVal} {f : Flt} : v.num? = some f ↔ NumIs v f := by
  constructor
  · intro h
    match v, h with
    | .int i, h => simp only [PyVal.num?, Option.some.injEq] at h; exact .inl ⟨i, .inl rfl, h.symm⟩
    | .bool true, h =>
      refine .inl ⟨1, .inr (.inl ⟨rfl, rfl⟩), ?_⟩
      simp [PyVal.num?] at h
      rw [← h]; rfl
    | .bool false, h =>
      refine .inl ⟨0, .inr (.inr ⟨rfl, rfl⟩), ?_⟩
      simp [PyVal.num?] at h
      rw [← h]; rfl
    | .float f, h => simp only [PyVal.num?, Option.some.injEq] at h; exact .inr (by rw [h])
  · rintro (⟨i, h, rfl⟩ | rfl)
    · exact num?_int h
    · rfl

theorem ltInt_int {v : PyVal} {i : Int} (h : IsInt v i) (k : Int) : ltInt v k = decide (i < k) := by
  rw [ltInt, num?_int h]
  simp only [fltLt]
  by_cases hk : i < k
  · rw [decide_eq_true hk]; exact decide_eq_true (by exact_mod_cast hk)
  · rw [decide_eq_false hk]; exact decide_eq_false (by exact_mod_cast hk)

theorem gtInt_int {v : PyVal} {i : Int} (h : IsInt v i) (k : Int) : gtInt v k = decide (k < i) := by
  rw [gtInt, num?_int h]
  simp only [fltLt]
  by_cases hk : k < i
  · rw [decide_eq_true hk]; exact decide_eq_true (by exact_mod_cast hk)
  · rw [decide_eq_false hk]; exact decide_eq_false (by exact_mod_cast hk)

theorem isInt_unique {v : PyVal} {i j : Int} (h : IsInt v i) (h' : IsInt v j) : i = j := by
  rcases h with rfl | ⟨rfl, rfl⟩ | ⟨rfl, rfl⟩ <;> rcases h' with h | ⟨h, rfl⟩ | ⟨h, rfl⟩ <;> cases h <;> rfl

theorem not_out_iff {f : Flt} {lo hi : Int} : (fltLt f (.fin lo) = false ∧ fltLt (.fin hi) f = false) ↔ Within lo hi f := by
  match f with
  | .nan => simp [fltLt, Within]
  | .inf true => simp [fltLt, Within]
  | .inf false => simp [fltLt, Within]
  | .fin q => simp [fltLt, Within]

/-- Equality with an integer. -/
theorem pyEq_int {v : PyVal} {i : Int} : PyVal.pyEq v (.int i) = true ↔ IsInt v i ∨ v = .float (.fin i) := by
  constructor
  · intro h
    match v, h with
    | .int j, h =>
      simp only [PyVal.pyEq, PyVal.num?, Flt.eq, Flt.fin.injEq, decide_eq_true_eq] at h
      exact .inl (.inl (by rw [PyVal.int.injEq]; exact_mod_cast h))
    | .bool b, h =>
      simp only [PyVal.pyEq, PyVal.num?, Flt.eq, Flt.fin.injEq, decide_eq_true_eq] at h
      cases b
      · exact .inl (.inr (.inr ⟨rfl, by simp at h; exact_mod_cast h.symm⟩))
      · exact .inl (.inr (.inl ⟨rfl, by simp at h; exact_mod_cast h.symm⟩))
    | .float f, h =>
      right
      match f, h with
      | .nan, h => simp [PyVal.pyEq, PyVal.num?, Flt.eq] at h
      | .inf b, h => simp [PyVal.pyEq, PyVal.num?, Flt.eq] at h
      | .fin q, h =>
        simp only [PyVal.pyEq, PyVal.num?, Flt.eq, Flt.fin.injEq, decide_eq_true_eq] at h
        rw [h]
  · rintro ((rfl | ⟨rfl, rfl⟩ | ⟨rfl, rfl⟩) | rfl) <;> simp [PyVal.pyEq, PyVal.num?, Flt.eq]

theorem pyEq_str {v : PyVal} {s : Str} : PyVal.pyEq v (.str s) = true ↔ v = .str s := by
  cases v <;> simp [PyVal.pyEq, PyVal.num?]

theorem hashableList_iff (l : List PyVal) : hashableList l = true ↔ ∀ v ∈ l, hashable v = true := by
  induction l with
  | nil => simp [hashableList]
  | cons v l ih => simp [hashableList, ih]

theorem hashable_int {v : PyVal} {i : Int} (h : IsInt v i) : hashable v = true := by
  rcases h with rfl | ⟨rfl, rfl⟩ | ⟨rfl, rfl⟩ <;> rfl

/-! ### dictionaries -/

theorem get_of_mem {d : List (PyVal × PyVal)} {k : Str} {v : PyVal} (hd : (d.map Prod.fst).Nodup) (h : (PyVal.str k, v) ∈ d) : get d k = some v :=
  Dict.get?_of_mem hd h

theorem mem_of_get {d : List (PyVal × PyVal)} {k : Str} {v : PyVal} (h : get d k = some v) : (PyVal.str k, v) ∈ d := Dict.mem_of_get? h

theorem getVal_eq_some {d : List (PyVal × PyVal)} {k : Str} {v : PyVal} : getVal d k = some v ↔ get d k = some v ∧ v ≠ .none := by
  rw [getVal]
  rcases get d k with _ | w
  · simp
  · cases w <;> simp +contextual [eq_comm]

theorem getVal_field {d : List (PyVal × PyVal)} {k : Str} {v : PyVal} (h : getVal d k = some v) : Field d k v :=
  ⟨mem_of_get (getVal_eq_some.1 h).1, (getVal_eq_some.1 h).2⟩

theorem getVal_iff {d : List (PyVal × PyVal)} (hd : (d.map Prod.fst).Nodup) {k : Str} {v : PyVal} : getVal d k = some v ↔ Field d k v :=
  ⟨getVal_field, fun h => getVal_eq_some.2 ⟨get_of_mem hd h.1, h.2⟩⟩

theorem getVal_isSome {d : List (PyVal × PyVal)} (hd : (d.map Prod.fst).Nodup) {k : Str} : (getVal d k).isSome = true ↔ ∃ v, Field d k v := by
  rw [Option.isSome_iff_exists]
  exact exists_congr fun v => getVal_iff hd

/-- The prototype says the same as the two lists. -/
structure Reflects (proto : Prototype) (required optional : List (Str × (PyVal → Prop))) : Prop where
  keys : (proto.map Prod.fst).Nodup
  req : ∀ p ∈ proto, p.2.2 = true → ∃ r ∈ required, r.1 = p.1 ∧ ∀ v, p.2.1 v = true ↔ r.2 v
  opt : ∀ p ∈ proto, p.2.2 = false → ∃ r ∈ optional, r.1 = p.1 ∧ ∀ v, p.2.1 v = true ↔ r.2 v
  req' : ∀ r ∈ required, ∃ p ∈ proto, r.1 = p.1 ∧ p.2.2 = true ∧ ∀ v, p.2.1 v = true ↔ r.2 v
  opt' : ∀ r ∈ optional, ∃ p ∈ proto, r.1 = p.1 ∧ p.2.2 = false ∧ ∀ v, p.2.1 v = true ↔ r.2 v

theorem find_iff {proto : Prototype} (hk : (proto.map Prod.fst).Nodup) {key : PyVal} {x : (PyVal → Bool) × Bool} :
    proto.find key = some x ↔ ∃ k, key = .str k ∧ (k, x) ∈ proto := by
  constructor
  · intro h
    match key, h with
    | .str k, h => exact ⟨k, rfl, Dict.mem_of_get? h⟩
  · rintro ⟨k, rfl, h⟩
    exact Dict.get?_of_mem hk h

theorem get_isNone {d : List (PyVal × PyVal)} {k : Str} : (get d k).isNone = true ↔ ¬ ∃ v, (PyVal.str k, v) ∈ d := by
  rw [Option.isNone_iff_eq_none, get, Dict.get?_eq_none_iff, Dict.keys]
  simp

theorem genericDict_iff {proto : Prototype} {required optional : List (Str × (PyVal → Prop))} (hr : Reflects proto required optional) {v : PyVal} :
    genericDictValidator v proto = true ↔ ∃ d, v = .dict d ∧ HasFields required optional d := by
  constructor
  · intro h
    match v, h with
    | .dict d, h =>
      refine ⟨d, rfl, ?_⟩
      rw [genericDictValidator] at h
      split at h
      · cases h
      · next h1 =>
        split at h
        · cases h
        · constructor
          · intro r hrr
            obtain ⟨p, hp, hpr, hreq, _⟩ := hr.req' r hrr
            by_contra hne
            apply h1
            rw [List.any_eq_true]
            exact ⟨p, hp, by rw [hreq, Bool.true_and, get_isNone, ← hpr]; exact hne⟩
          · intro i hi
            have := List.all_eq_true.1 h i hi
            rcases hf : Prototype.find proto i.1 with _ | ⟨typ, required⟩
            · rw [hf] at this; cases this
            · rw [hf] at this
              obtain ⟨k, hk, hmem⟩ := (find_iff hr.keys).1 hf
              cases required with
              | true =>
                obtain ⟨r, hrr, hrk, ht⟩ := hr.req _ hmem rfl
                simp only [Bool.not_true, Bool.and_false, Bool.false_or] at this
                exact .inl ⟨r, hrr, by rw [hk, hrk], (ht _).1 this⟩
              | false =>
                obtain ⟨r, hrr, hrk, ht⟩ := hr.opt _ hmem rfl
                simp only [Bool.not_false, Bool.and_true, Bool.or_eq_true, beq_iff_eq] at this
                exact .inr ⟨r, hrr, by rw [hk, hrk], this.imp id (ht _).1⟩
  · rintro ⟨d, rfl, h⟩
    have hfind : ∀ i ∈ d, ∃ typ required, Prototype.find proto i.1 = some (typ, required) ∧ ((i.2 = .none ∧ required = false) ∨ typ i.2 = true) := by
      intro i hi
      rcases h.typed i hi with ⟨r, hrr, hk, ht⟩ | ⟨r, hrr, hk, ht⟩
      · obtain ⟨p, hp, hpr, hreq, hty⟩ := hr.req' r hrr
        exact ⟨p.2.1, p.2.2, (find_iff hr.keys).2 ⟨r.1, hk, by rw [hpr]; exact hp⟩, .inr ((hty _).2 ht)⟩
      · obtain ⟨p, hp, hpr, hreq, hty⟩ := hr.opt' r hrr
        exact ⟨p.2.1, p.2.2, (find_iff hr.keys).2 ⟨r.1, hk, by rw [hpr]; exact hp⟩, ht.imp (fun h => ⟨h, hreq⟩) (hty _).2⟩
    rw [genericDictValidator, if_neg, if_neg, List.all_eq_true]
    · intro i hi
      obtain ⟨typ, required, hf, hc⟩ := hfind i hi
      rw [hf]
      rcases hc with ⟨h1, h2⟩ | hc
      · simp [h1, h2]
      · simp [hc]
    · rw [List.any_eq_true]
      rintro ⟨i, hi, hn⟩
      obtain ⟨typ, required, hf, _⟩ := hfind i hi
      rw [hf] at hn
      cases hn
    · rw [List.any_eq_true]
      rintro ⟨p, hp, hn⟩
      rw [Bool.and_eq_true, get_isNone] at hn
      obtain ⟨r, hrr, hrk, _⟩ := hr.req p hp hn.1
      exact hn.2 (hrk ▸ h.present r hrr)

/-! ### identifiers -/

theorem identifier_iff {v : PyVal} : identifierValidator v = true ↔ ∃ s, v = .str s ∧ LegalIdentifier s := by
  cases v with
  | str s =>
    have hc : ∀ c : Char, (!(decide (c.toNat < 0x20) || decide (c.toNat > 0x7E))) = true ↔ ' ' ≤ c ∧ c ≤ '~' := by
      intro c
      simp only [Bool.not_eq_true', Bool.or_eq_false_iff, decide_eq_false_iff_not, Nat.not_lt, gt_iff_lt, Char.le_def]
      exact Iff.rfl
    simp only [identifierValidator, PyVal.str.injEq, exists_eq_left', LegalIdentifier]
    by_cases h0 : s = []
    · subst h0; simp
    · have : 1 ≤ s.length := List.length_pos_iff.2 h0
      rw [if_neg (by simpa using h0)]
      by_cases h1 : s.length > 100
      · rw [if_pos h1]; simp; omega
      · rw [if_neg h1, List.all_eq_true]
        simp only [hc]
        constructor
        · exact fun h => ⟨this, by omega, h⟩
        · exact fun h => h.2.2
  | _ => simp [identifierValidator]

/-! ### colors -/

theorem splitOn_length (c : Char) (s : Str) : (splitOn c s).length = s.count c + 1 := by
  induction s with
  | nil => rfl
  | cons x s ih =>
    rw [splitOn]
    split
    · next h => subst h; simp [ih]
    · next h =>
      rw [List.count_cons_of_ne h]
      rcases hs : splitOn c s with _ | ⟨p, ps⟩
      · exact absurd hs (splitOn_ne_nil c s)
      · rw [hs] at ih; simpa using ih

theorem colorNumber_iff {F : FloatCodec} {p : Str} {f : Flt} : colorNumber F (strip p) = some f ↔ Denotes F p f := by
  rw [colorNumber, Denotes]
  rcases pyInt (strip p) with _ | i
  · simp
  · simp [eq_comm]

theorem colorPart_iff {F : FloatCodec} {p : Str} : (match colorNumber F (strip p) with
      | none => false
      | some f => if fltLt f (.fin 0) then false else if fltLt (.fin 1) f then false else true) = true ↔ ∃ f, Denotes F p f ∧ Within 0 1 f := by
  have h := fun f => @not_out_iff f 0 1
  simp only [Int.cast_zero, Int.cast_one] at h
  rcases hc : colorNumber F (strip p) with _ | f
  · simp only [Bool.false_eq_true, false_iff]
    rintro ⟨f, hf, _⟩
    rw [colorNumber_iff.2 hf] at hc
    cases hc
  · simp only
    have : (if fltLt f (.fin 0) = true then false else if fltLt (.fin 1) f = true then false else true) = true ↔ Within 0 1 f := by
      rw [← h f]
      cases fltLt f (.fin 0) <;> cases fltLt (.fin 1) f <;> simp
    rw [this]
    constructor
    · exact fun h => ⟨f, colorNumber_iff.1 hc, h⟩
    · rintro ⟨g, hg, hw⟩
      rw [← colorNumber_iff, hc] at hg
      cases hg
      exact hw

theorem color_iff {F : FloatCodec} {v : PyVal} : colorValidator F v = true ↔ ∃ s, v = .str s ∧ FourNumbers F (Within 0 1) s := by
  cases v with
  | str s =>
    simp only [colorValidator, PyVal.str.injEq, exists_eq_left']
    constructor
    · intro h
      split at h
      · cases h
      · next hlen =>
        have hlen : (splitOn ',' s).length = 4 := by simpa using hlen
        rw [List.all_eq_true] at h
        obtain ⟨a, b, c, d, habcd⟩ : ∃ a b c d, splitOn ',' s = [a, b, c, d] := by
          match hs : splitOn ',' s, hlen with
          | [a, b, c, d], _ => exact ⟨a, b, c, d, rfl⟩
        refine ⟨a, b, c, d, ?_, fun p hp => ?_⟩
        · have := join_splitOn ',' s
          rw [habcd] at this
          rw [← this]
          simp [join]
        · rw [← habcd] at hp
          exact ⟨splitOn_not_mem _ _ p hp, colorPart_iff.1 (h p hp)⟩
    · rintro ⟨a, b, c, d, rfl, h⟩
      have hs : splitOn ',' (a ++ ',' :: (b ++ ',' :: (c ++ ',' :: d))) = [a, b, c, d] := by
        rw [splitOn_append_sep _ _ _ (h a (by simp)).1, splitOn_append_sep _ _ _ (h b (by simp)).1,
          splitOn_append_sep _ _ _ (h c (by simp)).1, splitOn_of_not_mem _ _ (h d (by simp)).1]
      rw [hs, if_neg (by simp), List.all_eq_true]
      intro p hp
      exact colorPart_iff.2 (h p hp).2
  | _ => simp [colorValidator]

/-! ### guidelines and anchors -/

theorem noneOr_iff {d : List (PyVal × PyVal)} (hd : (d.map Prod.fst).Nodup) (k : Str) (f : PyVal → Bool) :
    noneOr (getVal d k) f = true ↔ ∀ v, Field d k v → f v = true := by
  rcases hg : getVal d k with _ | w
  · simp only [noneOr, true_iff]
    intro v hv
    rw [(getVal_iff hd).2 hv] at hg
    cases hg
  · simp only [noneOr]
    constructor
    · intro h v hv
      rw [(getVal_iff hd).2 hv] at hg
      cases hg
      exact h
    · exact fun h => h w (getVal_field hg)

theorem identifierColor_iff {F : FloatCodec} {d : List (PyVal × PyVal)} (hd : (d.map Prod.fst).Nodup) : identifierColorOk F d = true ↔ Tagged F d := by
  rw [identifierColorOk, Bool.and_eq_true, noneOr_iff hd, noneOr_iff hd]
  simp only [identifier_iff, color_iff]
  exact ⟨fun h => ⟨h.1, h.2⟩, fun h => ⟨h.identifier, h.color⟩⟩

theorem guideline_reflects : Reflects guidelinePrototype []
    [(c!"x", IsNum), (c!"y", IsNum), (c!"angle", IsNum), (c!"name", IsString), (c!"color", IsString), (c!"identifier", IsString)] := by
  refine ⟨by decide, ?_, ?_, ?_, ?_⟩ <;> simp [guidelinePrototype, isNumber_iff, isStr_iff]

theorem anchor_reflects : Reflects anchorPrototype []
    [(c!"x", IsNum), (c!"y", IsNum), (c!"name", IsString), (c!"color", IsString), (c!"identifier", IsString)] := by
  refine ⟨by decide, ?_, ?_, ?_, ?_⟩ <;> simp [anchorPrototype, isNumber_iff, isStr_iff]

theorem numIs_of_isNum {v : PyVal} (h : IsNum v) : ∃ f, NumIs v f := by
  rcases h with ⟨i, h⟩ | ⟨f, rfl⟩
  · exact ⟨_, .inl ⟨i, h, rfl⟩⟩
  · exact ⟨f, .inr rfl⟩

/-- The type of a field with a given key. -/
theorem field_typed {required optional : List (Str × (PyVal → Prop))} {d : List (PyVal × PyVal)} (h : HasFields required optional d)
    {k : Str} {v : PyVal} (hf : Field d k v) : (∃ r ∈ required, r.1 = k ∧ r.2 v) ∨ ∃ r ∈ optional, r.1 = k ∧ r.2 v := by
  rcases h.typed _ hf.1 with ⟨r, hr, hk, ht⟩ | ⟨r, hr, hk, ht⟩
  · exact .inl ⟨r, hr, by simpa using hk.symm, ht⟩
  · exact .inr ⟨r, hr, by simpa using hk.symm, ht.resolve_left hf.2⟩

theorem angle_iff {v : PyVal} (hv : IsNum v) : (ltInt v 0 || gtInt v 360) = false ↔ ∃ f, NumIs v f ∧ Within 0 360 f := by
  obtain ⟨f, hf⟩ := numIs_of_isNum hv
  have hn := num?_iff.2 hf
  rw [ltInt, gtInt, hn]
  simp only [Bool.or_eq_false_iff]
  rw [not_out_iff]
  constructor
  · exact fun h => ⟨f, hf, h⟩
  · rintro ⟨g, hg, hw⟩
    rw [num?_iff.2 hg] at hn
    cases hn
    exact hw

theorem guideline_iff {F : FloatCodec} {v : PyVal} (hk : DictKeys v) : guidelineValidator F v = true ↔ ∃ d, v = .dict d ∧ Guideline F d := by
  unfold guidelineValidator
  by_cases hg : genericDictValidator v guidelinePrototype = true
  · simp only [hg, Bool.not_true, Bool.false_eq_true, if_false]
    obtain ⟨d, rfl, hfields⟩ := (genericDict_iff guideline_reflects).1 hg
    have hd := hk d rfl
    simp only [PyVal.dict.injEq, exists_eq_left']
    have hx := getVal_isSome hd (k := c!"x")
    have hy := getVal_isSome hd (k := c!"y")
    have ha := getVal_isSome hd (k := c!"angle")
    have hrange : noneOr (getVal d c!"angle") (fun a => !(ltInt a 0 || gtInt a 360)) = true ↔
        ∀ v, Field d c!"angle" v → ∃ f, NumIs v f ∧ Within 0 360 f := by
      rw [noneOr_iff hd]
      refine forall_congr' fun a => imp_congr_right fun hfa => ?_
      have hnum : IsNum a := by
        rcases field_typed hfields hfa with ⟨r, hr, _⟩ | ⟨r, hr, h1, h2⟩
        · cases hr
        · simp only [List.mem_cons, List.not_mem_nil, or_false] at hr
          rcases hr with rfl | rfl | rfl | rfl | rfl | rfl <;> first | exact h2 | (exfalso; revert h1; decide)
      rw [Bool.not_eq_true', angle_iff hnum]
    have htag := identifierColor_iff (F := F) hd
    generalize hX : (getVal d c!"x") = X at *
    generalize hY : (getVal d c!"y") = Y at *
    generalize hA : (getVal d c!"angle") = A at *
    generalize hR : noneOr A (fun a => !(ltInt a 0 || gtInt a 360)) = R at *
    constructor
    · intro h
      split at h; · cases h
      next h1 =>
      split at h; · cases h
      next h2 =>
      split at h; · cases h
      next h3 =>
      split at h; · cases h
      next h4 =>
      refine ⟨htag.1 h, hfields, ?_, ?_, ?_⟩
      · rw [← hx, ← hy]; cases X <;> cases Y <;> simp at h1 ⊢
      · rw [← hx, ← hy, ← ha]; cases X <;> cases Y <;> cases A <;> simp at h1 h2 h3 ⊢
      · exact hrange.1 (by simpa using h4)
    · rintro ⟨ht, _, hpos, hang, hr⟩
      rw [← hx, ← hy] at hpos
      rw [← hx, ← hy, ← ha] at hang
      rw [hrange.2 hr, htag.2 ht]
      cases X <;> cases Y <;> cases A <;> simp at hpos hang ⊢
  · rw [Bool.not_eq_true] at hg
    rw [hg]
    simp only [Bool.not_false, if_true, Bool.false_eq_true, false_iff]
    rintro ⟨d, rfl, h⟩
    rw [(genericDict_iff guideline_reflects).2 ⟨d, rfl, h.fields⟩] at hg
    cases hg

theorem anchor_iff {F : FloatCodec} {v : PyVal} (hk : DictKeys v) : anchorValidator F v = true ↔ ∃ d, v = .dict d ∧ Anchor F d := by
  unfold anchorValidator
  by_cases hg : genericDictValidator v anchorPrototype = true
  · simp only [hg, Bool.not_true, Bool.false_eq_true, if_false]
    obtain ⟨d, rfl, hfields⟩ := (genericDict_iff anchor_reflects).1 hg
    have hd := hk d rfl
    simp only [PyVal.dict.injEq, exists_eq_left']
    have hx := getVal_isSome hd (k := c!"x")
    have hy := getVal_isSome hd (k := c!"y")
    have htag := identifierColor_iff (F := F) hd
    constructor
    · intro h
      split at h; · cases h
      next h1 =>
      simp only [Bool.or_eq_true, Option.isNone_iff_eq_none, not_or, ← Option.isSome_iff_ne_none] at h1
      exact ⟨htag.1 h, hfields, hx.1 h1.1, hy.1 h1.2⟩
    · rintro ⟨ht, _, hpx, hpy⟩
      rw [if_neg, htag.2 ht]
      simp only [Bool.or_eq_true, Option.isNone_iff_eq_none, not_or, ← Option.isSome_iff_ne_none]
      exact ⟨hx.2 hpx, hy.2 hpy⟩
  · rw [Bool.not_eq_true] at hg
    rw [hg]
    simp only [Bool.not_false, if_true, Bool.false_eq_true, false_iff]
    rintro ⟨d, rfl, h⟩
    rw [(genericDict_iff anchor_reflects).2 ⟨d, rfl, h.fields⟩] at hg
    cases hg

theorem identifiers_dict (d : List (PyVal × PyVal)) (hd : (d.map Prod.fst).Nodup) (l : List PyVal) :
    identifiers (.dict d :: l) = (match getVal d c!"identifier" with | some (.str s) => [s] | _ => []) ++ identifiers l := by
  rw [identifiers]
  congr 1
  have hmem : ∀ e : List (PyVal × PyVal), (∀ w, (PyVal.str c!"identifier", w) ∉ e) → e.filterMap itemIdentifier = [] := by
    intro e he
    rw [List.filterMap_eq_nil_iff]
    rintro ⟨k, v⟩ hp
    unfold itemIdentifier
    split
    · next k' s heq =>
      rw [Prod.mk.injEq] at heq
      rw [if_neg]
      rintro rfl
      exact he _ (heq.1 ▸ hp)
    · rfl
  induction d with
  | nil => rfl
  | cons p d ih =>
    obtain ⟨k, v⟩ := p
    rw [List.map_cons, List.nodup_cons] at hd
    by_cases hk : k = .str c!"identifier"
    · subst hk
      have hn := hmem d fun w hw => hd.1 (List.mem_map.2 ⟨_, hw, rfl⟩)
      have hg : get ((PyVal.str c!"identifier", v) :: d) c!"identifier" = some v := by simp [get, Dict.get?]
      rw [List.filterMap_cons, hn, getVal, hg]
      cases v <;> simp [itemIdentifier]
    · have hg : getVal ((k, v) :: d) c!"identifier" = getVal d c!"identifier" := by simp [getVal, get, Dict.get?, hk]
      have hi : itemIdentifier (k, v) = none := by
        unfold itemIdentifier
        split
        · next k' s heq =>
          rw [Prod.mk.injEq] at heq
          obtain ⟨rfl, rfl⟩ := heq
          rw [if_neg (by intro h; exact hk (by rw [h]))]
        · rfl
      rw [hg, List.filterMap_cons, ← ih hd.2, hi]

theorem entries_iff {check : PyVal → Bool} {P : List (PyVal × PyVal) → Prop} (hcheck : ∀ v, DictKeys v → (check v = true ↔ ∃ d, v = .dict d ∧ P d))
    (hid : ∀ d, P d → ∀ w, Field d c!"identifier" w → ∃ s, w = .str s) (l : List PyVal) (hl : ∀ e ∈ l, DictKeys e) (ids out : List Str) :
    entriesValidator check ids l = (true, out) ↔
      (∀ e ∈ l, ∃ d, e = .dict d ∧ P d) ∧ (identifiers l).Nodup ∧ (∀ i ∈ identifiers l, i ∉ ids) ∧ out = ids ++ identifiers l := by
  induction l generalizing ids with
  | nil => simp [entriesValidator, identifiers, eq_comm]
  | cons v l ih =>
    rw [List.forall_mem_cons] at hl
    rw [List.forall_mem_cons]
    unfold entriesValidator
    by_cases hc : check v = true
    · simp only [hc, Bool.not_true, Bool.false_eq_true, if_false]
      obtain ⟨d, rfl, hP⟩ := (hcheck v hl.1).1 hc
      have hd := hl.1 d rfl
      rw [identifiers_dict d hd l]
      simp only [PyVal.dict.injEq, exists_eq_left', hP, true_and]
      rcases hg : getVal d c!"identifier" with _ | w
      · simp only [List.nil_append]
        exact ih hl.2 ids
      · obtain ⟨s, rfl⟩ := hid d hP w (getVal_field hg)
        simp only [List.singleton_append, List.nodup_cons, List.forall_mem_cons]
        by_cases hs : s ∈ ids
        · simp [hs]
        · rw [if_neg hs, ih hl.2]
          simp only [List.mem_append, List.mem_singleton, not_or, hs, not_false_eq_true, true_and, List.append_assoc, List.singleton_append]
          constructor
          · rintro ⟨h1, h2, h3, h4⟩
            exact ⟨h1, ⟨fun h => (h3 s h).2 rfl, h2⟩, fun i hi => (h3 i hi).1, h4⟩
          · rintro ⟨h1, ⟨h2, h2'⟩, h3, h4⟩
            exact ⟨h1, h2', fun i hi => ⟨h3 i hi, by rintro rfl; exact h2 hi⟩, h4⟩
    · rw [Bool.not_eq_true] at hc
      rw [hc, if_pos (by simp)]
      simp only [Prod.mk.injEq, Bool.false_eq_true, false_and, false_iff, not_and]
      intro h
      rw [(hcheck v hl.1).2 h.1] at hc
      cases hc

end Verif.Validators
