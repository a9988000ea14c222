import Verif.Spec.GlifMeaning
import Verif.Proofs.Numerals
import Verif.Proofs.GlifOutline
/-! The outline readers do exactly what the outline elements say. -/
namespace Verif.Glif
open Verif Verif.Validators Verif.Spec.Validators Verif.Spec.Glif Verif.Spec.GlifMeaning Verif.Spec.Numerals

theorem orNone_eq (o : Option Str) : orNone o = orNothing o := by cases o <;> rfl

theorem number_iff {F : FloatCodec} {s : Str} {v : PyVal} : number F s = .ok v ↔ Number F s v := by
  unfold number Number
  cases h : pyInt s with
  | some i =>
    simp only [Except.ok.injEq, ← pyInt_iff, h, Option.some.injEq]
    constructor
    · rintro rfl; exact .inl ⟨i, rfl, rfl⟩
    · rintro (⟨j, rfl, rfl⟩ | ⟨hn, -⟩)
      · rfl
      · exact absurd rfl (hn i)
  | none =>
    simp only [← pyInt_iff, h, reduceCtorEq, false_and, exists_false, false_or, not_false_eq_true, implies_true, true_and]
    cases hf : F.parse s with
    | none => simp
    | some f => simp [eq_comm]

theorem numberOr_iff {F : FloatCodec} {d : Int} {o : Option Str} {v : PyVal} : numberOr F (.int d) o = .ok v ↔ NumberOr F d o v := by
  unfold NumberOr
  cases o with
  | none => simp [numberOr, eq_comm]
  | some s => simp [numberOr, number_iff]

theorem coordinate_iff {F : FloatCodec} {o : Option Str} {v : PyVal} : coordinate F true o = .ok v ↔ ∃ s, o = some s ∧ Number F s v := by
  cases o with
  | none => simp [coordinate]
  | some s => simp [coordinate, number_iff]

theorem blankText_iff {t : Option Text} : textBlank t = true ↔ BlankText t := by
  unfold BlankText
  match t with
  | none => simp [textBlank]
  | some (.str s) =>
    simp only [textBlank, List.isEmpty_iff, reduceCtorEq, Option.some.injEq, Text.str.injEq, false_or, exists_eq_left']
    constructor
    · intro h c hc
      obtain ⟨a, b, e, ha, hb⟩ := strip_split s
      rw [h, List.append_nil] at e
      rw [e] at hc
      exact isSpace_iff.1 ((List.mem_append.1 hc).elim (ha c) (hb c))
    · intro h
      have : lstrip s = [] := lstrip_eq_nil.2 fun c hc => isSpace_iff.2 (h c hc)
      unfold strip
      rw [this]; rfl
  | some (.bytes b) => cases b <;> simp [textBlank]

/-! ### Points -/

theorem massagePoint_says {E : Env} {fv index : Nat} {e : Elem} {m : MPoint} (h : massagePoint E true fv index e = .ok m) :
    PointSays E.F (decide (fv ≠ 1)) e (pointOf m) ∧ m.identifier = attr e c!"identifier" := by
  unfold massagePoint at h
  split at h
  · cases h
  next htag =>
  split at h
  · cases h
  next hkeys =>
  split at h
  · cases h
  next hch =>
  split at h
  · cases h
  next x hx =>
  split at h
  · cases h
  next y hy =>
  simp only [Bool.true_and] at h
  split at h
  · cases h
  next htype =>
  split at h
  · cases h
  next hmove =>
  split at h
  · cases h
  next hsm =>
  split at h
  · cases h
  next hoff =>
  cases h
  obtain ⟨sx, gx, nx⟩ := coordinate_iff.1 hx
  obtain ⟨sy, gy, ny⟩ := coordinate_iff.1 hy
  simp only [Bool.true_and, Bool.not_eq_true', Bool.not_eq_false, List.all_eq_true, decide_eq_true_eq] at hkeys
  simp only [Bool.true_and, Bool.not_eq_true', Bool.not_eq_false, List.isEmpty_iff] at hch
  simp only [Bool.not_eq_true', Bool.not_eq_false, decide_eq_true_eq] at htype
  simp only [Bool.not_eq_true', Bool.not_eq_false, Bool.or_eq_true, decide_eq_true_eq] at hsm
  simp only [Bool.and_eq_true, decide_eq_true_eq, not_and] at hoff
  refine ⟨⟨by simpa using htag, ?_, hch, ⟨sx, sy, x, y, gx, gy, nx, ny, rfl⟩, ?_, ?_, orNone_eq _, orNone_eq _⟩, rfl⟩
  · intro k hk
    have := hkeys k hk
    unfold pointAttributes at this
    rcases List.mem_append.1 this with h | h
    · exact .inl h
    · by_cases hf : fv = 1
      · simp [hf] at h
      · exact .inr ⟨by simpa using hf, by simpa [hf] using h⟩
  · show ((attr e c!"type" = none ∨ _) ∧ orNone _ = _) ∨ _
    unfold attr
    cases ht : Dict.get? e.attrib c!"type" with
    | none => exact .inl ⟨.inl rfl, rfl⟩
    | some t =>
      rw [ht] at htype
      simp only [Option.getD_some] at htype ⊢
      by_cases hto : t = c!"offcurve"
      · exact .inl ⟨.inr (by rw [hto]), by rw [if_pos hto]; rfl⟩
      · refine .inr ⟨t, ?_, rfl, by show orNone (if t = c!"offcurve" then none else some t) = _; rw [if_neg hto]; rfl⟩
        simp only [pointTypeOptions, List.mem_cons, List.not_mem_nil, or_false] at htype ⊢
        tauto
  · show ((attr e c!"smooth" = none ∨ _) ∧ PyVal.bool _ = _) ∨ _
    unfold attr
    cases hs : Dict.get? e.attrib c!"smooth" with
    | none => exact .inl ⟨.inl rfl, by rfl⟩
    | some t =>
      rw [hs] at hsm hoff
      simp only [Option.getD_some] at hsm hoff ⊢
      rcases hsm with rfl | rfl
      · exact .inl ⟨.inr rfl, by rfl⟩
      · refine .inr ⟨rfl, by rfl, ?_⟩
        show orNone (if _ = c!"offcurve" then none else some _) ≠ .none
        rw [if_neg (hoff rfl)]
        exact nofun

theorem says_massagePoint {E : Env} {fv index : Nat} {e : Elem} {p : Pt} (h : PointSays E.F (decide (fv ≠ 1)) e p) (hm : p.segmentType = .str c!"move" → index = 0) :
    ∃ m, massagePoint E true fv index e = .ok m ∧ pointOf m = p := by
  obtain ⟨htag, hkeys, hch, ⟨sx, sy, x, y, gx, gy, nx, ny, hpt⟩, htype, hsmooth, hname, hid⟩ := h
  have hk : (Dict.keys e.attrib).all (fun a => decide (a ∈ pointAttributes fv)) = true := by
    rw [List.all_eq_true]
    intro a ha
    refine decide_eq_true ?_
    unfold pointAttributes
    rcases hkeys a ha with h | ⟨h1, rfl⟩
    · exact List.mem_append_left _ h
    · rw [if_neg (by simpa using h1)]; exact List.mem_append_right _ (by simp)
  have ht : ∃ t, (Dict.get? e.attrib c!"type").getD c!"offcurve" = t ∧ t ∈ pointTypeOptions ∧ p.segmentType = (if t = c!"offcurve" then .none else .str t) := by
    rcases htype with ⟨h | h, h2⟩ | ⟨t, h1, h2, h3⟩
    · unfold attr at h; rw [h, h2]; exact ⟨_, rfl, by decide, rfl⟩
    · unfold attr at h; rw [h, h2]; exact ⟨_, rfl, by decide, rfl⟩
    · unfold attr at h2
      rw [h2]
      have hne : t ≠ c!"offcurve" := by rintro rfl; revert h1; decide
      refine ⟨t, rfl, ?_, by rw [h3, if_neg hne]⟩
      simp only [pointTypeOptions, List.mem_cons, List.not_mem_nil, or_false] at h1 ⊢
      tauto
  obtain ⟨t, ht1, ht2, ht3⟩ := ht
  have hs : ∃ s, (Dict.get? e.attrib c!"smooth").getD c!"no" = s ∧ (s = c!"no" ∨ s = c!"yes") ∧ p.smooth = .bool (decide (s = c!"yes")) ∧ (s = c!"yes" → t ≠ c!"offcurve") := by
    rcases hsmooth with ⟨h | h, h2⟩ | ⟨h1, h2, h3⟩
    · unfold attr at h; rw [h, h2]; exact ⟨_, rfl, .inl rfl, rfl, fun h => absurd h (by decide)⟩
    · unfold attr at h; rw [h, h2]; exact ⟨_, rfl, .inl rfl, rfl, fun h => absurd h (by decide)⟩
    · unfold attr at h1; rw [h1, h2]
      refine ⟨_, rfl, .inr rfl, rfl, fun _ hto => h3 ?_⟩
      rw [ht3, if_pos hto]
  obtain ⟨s, hs1, hs2, hs3, hs4⟩ := hs
  have hmv : (decide (t = c!"move") && decide (index ≠ 0)) = false := by
    by_cases h : t = c!"move"
    · subst h; simp [hm ht3]
    · simp [h]
  refine ⟨⟨x, y, if t = c!"offcurve" then none else some t, decide (s = c!"yes"), Dict.get? e.attrib c!"name", Dict.get? e.attrib c!"identifier"⟩, ?_, ?_⟩
  · unfold massagePoint
    have cx : coordinate E.F true (Dict.get? e.attrib c!"x") = .ok x := coordinate_iff.2 ⟨sx, gx, nx⟩
    have cy : coordinate E.F true (Dict.get? e.attrib c!"y") = .ok y := coordinate_iff.2 ⟨sy, gy, ny⟩
    rw [if_neg (by simpa using htag), hk, hch, cx, cy]
    simp only [Bool.not_true, Bool.and_false, Bool.false_eq_true, if_false, List.isEmpty_nil, Bool.true_and, ht1, hs1, hmv]
    rw [if_neg (by simpa using ht2), if_neg (by rcases hs2 with rfl | rfl <;> decide), if_neg]
    simp only [Bool.and_eq_true, decide_eq_true_eq, not_and]
    exact hs4
  · unfold pointOf
    obtain ⟨a, b, c, d, f⟩ := p
    simp only at hpt ht3 hs3 hname hid
    rw [hpt, ht3, hs3, hname, hid]
    simp only [orNone_eq]
    congr 1
    split <;> rfl

theorem massagePoints_says {E : Env} {fv : Nat} {es : List Elem} : ∀ {index : Nat} {ms : List MPoint}, massagePoints E true fv index es = .ok ms →
    List.Forall₂ (PointSays E.F (decide (fv ≠ 1))) es (ms.map pointOf) ∧ ms.flatMap (fun m => m.identifier.toList) = es.flatMap ownIdentifier := by
  induction es with
  | nil => intro index ms h; cases h; exact ⟨.nil, rfl⟩
  | cons e es ih =>
    intro index ms h
    unfold massagePoints at h
    split at h
    · cases h
    next p hp =>
    split at h
    · cases h
    next ps hps =>
    cases h
    obtain ⟨h1, h2⟩ := massagePoint_says hp
    obtain ⟨h3, h4⟩ := ih hps
    refine ⟨.cons h1 h3, ?_⟩
    rw [List.flatMap_cons, List.flatMap_cons, h4, h2]
    rfl

theorem says_massagePoints {E : Env} {fv : Nat} {es : List Elem} {ps : List Pt} (h : List.Forall₂ (PointSays E.F (decide (fv ≠ 1))) es ps) : ∀ {index : Nat},
    (∀ a p b, ps = a ++ p :: b → p.segmentType = .str c!"move" → a.length + index = 0) → ∃ ms, massagePoints E true fv index es = .ok ms ∧ ms.map pointOf = ps := by
  induction h with
  | nil => intro index _; exact ⟨[], rfl, rfl⟩
  | @cons e p es ps h _ ih =>
    intro index hm
    obtain ⟨m, h1, h2⟩ := says_massagePoint h (index := index) fun ht => by have := hm [] p ps rfl ht; simpa using this
    obtain ⟨ms, h3, h4⟩ := ih (index := index + 1) fun a q b hq ht => by have := hm (p :: a) q b (by rw [hq]; rfl) ht; simp at this
    refine ⟨m :: ms, ?_, by rw [List.map_cons, h2, h4]⟩
    unfold massagePoints
    rw [h1]
    simp only
    rw [h3]

theorem fileType_orNone {o : Option Str} (h : o ≠ some c!"offcurve") : fileType (orNone o) = o := by
  cases o with
  | none => rfl
  | some t =>
    show (if t = c!"offcurve" then none else some t) = some t
    rw [if_neg fun e => h (by rw [e])]

theorem types_pointOf {ms : List MPoint} (h : ∀ m ∈ ms, m.seg ≠ some c!"offcurve") : types (ms.map pointOf) = ms.map MPoint.seg := by
  unfold types
  rw [List.map_map]
  apply List.map_congr_left
  intro m hm
  exact fileType_orNone (h m hm)

theorem seg_of_says {E : Env} {b : Bool} {es : List Elem} {ms : List MPoint} (h : List.Forall₂ (PointSays E.F b) es (ms.map pointOf)) : ∀ m ∈ ms, m.seg ≠ some c!"offcurve" := by
  intro m hm hs
  obtain ⟨e, -, he⟩ := forall₂_right h (pointOf m) (List.mem_map_of_mem hm)
  have : (pointOf m).segmentType = .str c!"offcurve" := by
    show orNone m.seg = _
    rw [hs]; rfl
  rcases he.type with ⟨-, h2⟩ | ⟨t, h1, -, h3⟩
  · rw [this] at h2; cases h2
  · rw [this] at h3; cases h3; revert h1; decide

theorem massage_of {E : Env} {fv : Nat} {es : List Elem} {ms : List MPoint} (h : massagePoints E true fv 0 es = .ok ms) (hg : GoodContour ((lenient fv ms).map MPoint.seg)) :
    massage E true fv es = .ok (lenient fv ms) := by
  unfold massage
  rw [h]
  simp only [segmentsOk_good hg, Bool.not_true, Bool.and_false, Bool.false_eq_true, if_false]

theorem massage_good {E : Env} {fv : Nat} {es : List Elem} {l : List MPoint} (h : massage E true fv es = .ok l) :
    ∃ ms, massagePoints E true fv 0 es = .ok ms ∧ l = lenient fv ms ∧ GoodContour (l.map MPoint.seg) := by
  have hg := (massage_ok h).1
  unfold massage at h
  split at h
  · cases h
  next ms hms =>
  split at h
  · cases h
  cases h
  exact ⟨ms, hms, rfl, hg⟩

theorem lenient_two (l : List MPoint) : lenient 2 l = l := by cases l <;> simp [lenient]

/-- Points of a well-formed contour: `move` is first. -/
theorem good_contour_move {ps : List Pt} (hg : GoodContour (types ps)) : ∀ a p b, ps = a ++ p :: b → p.segmentType = .str c!"move" → a.length + 0 = 0 := by
  rintro a p b rfl ht
  have := hg.move (types a) (types b) (by simp [types, ht, fileType])
  simpa [types] using this

/-- The contour of format 2. -/
theorem massage2_iff {E : Env} {es : List Elem} {ps : List Pt} : (∃ ms, massage E true 2 es = .ok ms ∧ ms.map pointOf = ps) ↔
    List.Forall₂ (PointSays E.F true) es ps ∧ GoodContour (types ps) := by
  constructor
  · rintro ⟨ms, h, rfl⟩
    obtain ⟨ms, h0, rfl, hg⟩ := massage_good h
    rw [lenient_two] at hg ⊢
    obtain ⟨h1, -⟩ := massagePoints_says h0
    exact ⟨h1, by rw [types_pointOf (seg_of_says h1)]; exact hg⟩
  · rintro ⟨h, hg⟩
    obtain ⟨ms, h1, rfl⟩ := says_massagePoints (fv := 2) h (index := 0) (good_contour_move hg)
    refine ⟨ms, ?_, rfl⟩
    have := massage_of h1 (by rw [lenient_two, ← types_pointOf (seg_of_says h)]; exact hg)
    rwa [lenient_two] at this

theorem massage2_identifiers {E : Env} {es : List Elem} {ms : List MPoint} (h : massage E true 2 es = .ok ms) :
    ms.flatMap (fun m => m.identifier.toList) = es.flatMap ownIdentifier := by
  obtain ⟨ms, h0, rfl, -⟩ := massage_good h
  rw [lenient_two]
  exact (massagePoints_says h0).2

/-! ### Identifiers -/

/-- New identifiers. -/
def NewIds (ids new : List Str) : Prop := new.Nodup ∧ ∀ i ∈ new, i ∉ ids ∧ LegalIdentifier i

theorem NewIds.nil (ids : List Str) : NewIds ids [] := ⟨.nil, nofun⟩

theorem newIds_append {ids a b : List Str} : NewIds ids (a ++ b) ↔ NewIds ids a ∧ NewIds (ids ++ a) b := by
  unfold NewIds
  simp only [List.nodup_append, List.mem_append]
  constructor
  · rintro ⟨⟨h1, h2, h3⟩, h4⟩
    exact ⟨⟨h1, fun i hi => h4 i (.inl hi)⟩, h2, fun i hi => ⟨fun h => h.elim (h4 i (.inr hi)).1 fun h => h3 i h i hi rfl, (h4 i (.inr hi)).2⟩⟩
  · rintro ⟨⟨h1, h2⟩, h3, h4⟩
    exact ⟨⟨h1, h3, fun i hi j hj e => (h4 j hj).1 (.inr (e ▸ hi))⟩, fun i hi => hi.elim (h2 i) fun hi => ⟨fun h => (h4 i hi).1 (.inl h), (h4 i hi).2⟩⟩

theorem readIdentifier_iff {ids ids' : List Str} {o : Option Str} : readIdentifier true ids o = .ok ids' ↔ ids' = ids ++ o.toList ∧ NewIds ids o.toList := by
  cases o with
  | none => simp [readIdentifier, NewIds, eq_comm]
  | some i =>
    unfold readIdentifier NewIds
    have hv := identifier_iff (v := .str i)
    simp only [PyVal.str.injEq, exists_eq_left'] at hv
    by_cases h1 : i ∈ ids
    · simp [h1]
    · by_cases h2 : identifierValidator (.str i) = true
      · simp [h1, h2, hv.1 h2, eq_comm]
      · have : ¬ LegalIdentifier i := fun h => h2 (hv.2 h)
        simp [h1, h2, this]

theorem readPoints2_iff {ms : List MPoint} : ∀ {ids ids' : List Str} {cs : List Call}, readPoints2 true ids ms = .ok (cs, ids') ↔
    cs = (ms.map pointOf).map Pt.call ∧ ids' = ids ++ ms.flatMap (fun m => m.identifier.toList) ∧ NewIds ids (ms.flatMap fun m => m.identifier.toList) := by
  induction ms with
  | nil => intro ids ids' cs; simp [readPoints2, NewIds.nil, eq_comm]
  | cons m ms ih =>
    intro ids ids' cs
    rw [List.flatMap_cons, newIds_append]
    unfold readPoints2
    cases h1 : readIdentifier true ids m.identifier with
    | error x =>
      simp only [reduceCtorEq, false_iff]
      rintro ⟨-, -, h, -⟩
      rw [readIdentifier_iff.2 ⟨rfl, h⟩] at h1
      cases h1
    | ok ids1 =>
      obtain ⟨rfl, hf⟩ := readIdentifier_iff.1 h1
      simp only
      cases h2 : readPoints2 true (ids ++ m.identifier.toList) ms with
      | error x =>
        simp only [reduceCtorEq, false_iff]
        rintro ⟨-, -, -, h⟩
        rw [ih.2 ⟨rfl, rfl, h⟩] at h2
        cases h2
      | ok r =>
        obtain ⟨cs2, ids2⟩ := r
        obtain ⟨rfl, rfl, hf2⟩ := ih.1 h2
        simp only [Except.ok.injEq, Prod.mk.injEq, List.map_cons, hf, hf2, and_true, List.append_assoc]
        constructor
        · rintro ⟨rfl, rfl⟩; exact ⟨rfl, rfl⟩
        · rintro ⟨rfl, rfl⟩; exact ⟨rfl, rfl⟩

/-! ### Outlines of format 2 -/

/-- The identifiers of an element of an outline. -/
def itemIdentifiers (e : Elem) : List Str := ownIdentifier e ++ e.children.flatMap ownIdentifier

theorem outlineIdentifiers_cons (e : Elem) (es : List Elem) : outlineIdentifiers (e :: es) = itemIdentifiers e ++ outlineIdentifiers es := rfl

theorem readContour2_iff {E : Env} {ids ids' : List Str} {e : Elem} {cs : List Call} (ht : e.tag = c!"contour") :
    readContour2 E true ids e = .ok (cs, ids') ↔ (∃ it, ItemSays2 E.F e it ∧ cs = it.calls) ∧ ids' = ids ++ itemIdentifiers e ∧ NewIds ids (itemIdentifiers e) := by
  unfold itemIdentifiers
  rw [newIds_append]
  constructor
  · intro h
    unfold readContour2 at h
    split at h
    · cases h
    next hk =>
    split at h
    · cases h
    next ids1 h1 =>
    split at h
    · cases h
    next ms hms =>
    split at h
    · cases h
    next cs2 ids2 h2 =>
    cases h
    obtain ⟨rfl, hf⟩ := readIdentifier_iff.1 h1
    obtain ⟨rfl, rfl, hf2⟩ := readPoints2_iff.1 h2
    obtain ⟨hp, hg⟩ := massage2_iff.1 ⟨ms, hms, rfl⟩
    rw [massage2_identifiers hms] at hf2 ⊢
    refine ⟨⟨.contour (orNothing (attr e c!"identifier")) (ms.map pointOf), .contour _ _ ht ?_ rfl hp hg, ?_⟩, by rw [List.append_assoc]; rfl, hf, hf2⟩
    · simpa [List.all_eq_true] using hk
    · rw [orNone_eq]; rfl
  · rintro ⟨⟨it, hi, rfl⟩, rfl, hf, hf2⟩
    cases hi with
    | component g t i tag => rw [ht] at tag; exact absurd tag (by decide)
    | contour i ps tag known hi points good =>
      obtain ⟨ms, hms, rfl⟩ := massage2_iff.2 ⟨points, good⟩
      unfold readContour2
      have hk : ((Dict.keys e.attrib).all fun a => decide (a = c!"identifier")) = true := by simpa [List.all_eq_true] using known
      have h1 : readIdentifier true ids (Dict.get? e.attrib c!"identifier") = .ok (ids ++ ownIdentifier e) := readIdentifier_iff.2 ⟨rfl, hf⟩
      rw [hk, h1]
      simp only [Bool.not_true, Bool.and_false, Bool.false_eq_true, if_false, hms]
      rw [← massage2_identifiers hms] at hf2 ⊢
      rw [readPoints2_iff.2 ⟨rfl, rfl, hf2⟩, hi, orNone_eq, List.append_assoc]
      rfl

theorem readTransformation_iff {F : FloatCodec} {attrib : Dict Str Str} : ∀ {info : List (Str × Int)} {l : List PyVal},
    readTransformation F attrib (info.map fun p => (p.1, .int p.2)) = .ok l ↔ List.Forall₂ (fun p v => NumberOr F p.2 (Dict.get? attrib p.1) v) info l := by
  intro info
  induction info with
  | nil => intro l; simp [readTransformation, eq_comm]
  | cons p info ih =>
    intro l
    rw [List.map_cons, readTransformation]
    cases h1 : numberOr F (.int p.2) (Dict.get? attrib p.1) with
    | error x =>
      simp only [reduceCtorEq, false_iff]
      intro h
      cases h with
      | cons h _ => rw [numberOr_iff.2 h] at h1; cases h1
    | ok v =>
      simp only
      cases h2 : readTransformation F attrib (info.map fun p => (p.1, .int p.2)) with
      | error x =>
        simp only [reduceCtorEq, false_iff]
        intro h
        cases h with
        | cons _ h => rw [ih.2 h] at h2; cases h2
      | ok vs =>
        simp only [Except.ok.injEq]
        constructor
        · rintro rfl; exact .cons (numberOr_iff.1 h1) (ih.1 h2)
        · intro h
          cases h with
          | cons h h' =>
            rw [numberOr_iff.2 h] at h1
            rw [ih.2 h'] at h2
            cases h1; cases h2; rfl

theorem readComponent_says {E : Env} {fv : Nat} {ids ids' : List Str} {e : Elem} {cs : List Call} :
    readComponent E true fv ids e = .ok (cs, ids') ↔ ∃ g t i, ComponentSays E.F (decide (fv ≠ 1)) e g t i ∧ cs = [.addComponent g t i] ∧
      ids' = ids ++ itemIdentifiers e ∧ NewIds ids (itemIdentifiers e) := by
  have hinfo : transformationInfo = transformation.map fun p => (p.1, .int p.2) := rfl
  have hkeys : (∀ k ∈ Dict.keys e.attrib, k ∈ componentAttributes fv) ↔
      ∀ k ∈ Dict.keys e.attrib, k = c!"base" ∨ k ∈ transformation.map Prod.fst ∨ (decide (fv ≠ 1) = true ∧ k = c!"identifier") := by
    refine forall_congr' fun k => forall_congr' fun _ => ?_
    unfold componentAttributes
    have : transformationInfo.map Prod.fst = transformation.map Prod.fst := rfl
    rw [List.cons_append, List.mem_cons, List.mem_append, this]
    by_cases hf : fv = 1 <;> simp [hf]
  have hno : fv = 1 → (∀ k ∈ Dict.keys e.attrib, k ∈ componentAttributes fv) → Dict.get? e.attrib c!"identifier" = none := by
    intro hf hk
    rw [Dict.get?_eq_none_iff]
    intro h
    have := hk _ h
    rw [hf] at this
    revert this
    decide
  constructor
  · intro h
    unfold readComponent at h
    split at h
    · cases h
    next hc =>
    split at h
    · cases h
    next hk =>
    split at h
    · cases h
    next hb =>
    split at h
    · cases h
    next t ht =>
    simp only [Bool.true_and, Bool.not_eq_true', Bool.not_eq_false, List.isEmpty_iff] at hc
    simp only [Bool.true_and, Bool.not_eq_true', Bool.not_eq_false, List.all_eq_true, decide_eq_true_eq] at hk
    obtain ⟨b, hb⟩ : ∃ b, Dict.get? e.attrib c!"base" = some b := by
      cases hg : Dict.get? e.attrib c!"base" with
      | none => rw [hg] at hb; exact absurd rfl hb
      | some b => exact ⟨b, rfl⟩
    have hid : itemIdentifiers e = ownIdentifier e := by rw [itemIdentifiers, hc]; simp
    rw [hinfo] at ht
    have hsays : ComponentSays E.F (decide (fv ≠ 1)) e (.str b) (.tuple t) (orNothing (attr e c!"identifier")) :=
      ⟨hc, hkeys.1 hk, ⟨b, hb, rfl⟩, ⟨t, readTransformation_iff.1 ht, rfl⟩, rfl⟩
    rw [hb] at h
    split at h
    · next hf =>
      cases h
      have hn := hno hf hk
      refine ⟨_, _, _, hsays, ?_, ?_, ?_⟩
      · unfold attr; rw [hn]; rfl
      · rw [hid, ownIdentifier, hn]; simp
      · rw [hid, ownIdentifier, hn]; exact .nil _
    · split at h
      · cases h
      next ids1 h1 =>
      cases h
      obtain ⟨rfl, hfr⟩ := readIdentifier_iff.1 h1
      exact ⟨_, _, _, hsays, by rw [orNone_eq, orNone_eq]; rfl, by rw [hid]; rfl, by rw [hid]; exact hfr⟩
  · rintro ⟨g, t, i, ⟨hc, hk, ⟨b, hb, rfl⟩, ⟨l, hl, rfl⟩, rfl⟩, rfl, rfl, hfr⟩
    have hk' := hkeys.2 hk
    have hid : itemIdentifiers e = ownIdentifier e := by rw [itemIdentifiers, hc]; simp
    have hk2 : ((Dict.keys e.attrib).all fun a => decide (a ∈ componentAttributes fv)) = true := by simpa [List.all_eq_true] using hk'
    have ht : readTransformation E.F e.attrib transformationInfo = .ok l := by rw [hinfo]; exact readTransformation_iff.2 hl
    have hb' : Dict.get? e.attrib c!"base" = some b := hb
    unfold readComponent
    rw [hc, hk2, hb', ht]
    simp only [List.isEmpty_nil, Bool.not_true, Bool.and_false, Bool.false_eq_true, if_false, Option.isNone_some]
    rw [hid] at hfr ⊢
    by_cases hf : fv = 1
    · rw [if_pos hf]
      have hn := hno hf hk'
      unfold attr
      rw [ownIdentifier, hn]
      simp [orNothing, orNone]
    · rw [if_neg hf]
      have h1 : readIdentifier true ids (Dict.get? e.attrib c!"identifier") = .ok (ids ++ ownIdentifier e) := readIdentifier_iff.2 ⟨rfl, hfr⟩
      rw [h1, orNone_eq, orNone_eq]
      rfl

theorem readOutline2_iff {E : Env} {es : List Elem} : ∀ {ids ids' : List Str} {cs : List Call}, readOutline2 E true ids es = .ok (cs, ids') ↔
    (∃ d, List.Forall₂ (ItemSays2 E.F) es d ∧ cs = drawing d) ∧ ids' = ids ++ outlineIdentifiers es ∧ NewIds ids (outlineIdentifiers es) := by
  induction es with
  | nil =>
    intro ids ids' cs
    simp only [readOutline2, outlineIdentifiers, List.flatMap_nil, List.append_nil, NewIds.nil, and_true, Except.ok.injEq, Prod.mk.injEq, List.forall₂_nil_left_iff, exists_eq_left]
    constructor
    · rintro ⟨rfl, rfl⟩; exact ⟨rfl, rfl⟩
    · rintro ⟨rfl, rfl⟩; exact ⟨rfl, rfl⟩
  | cons e es ih =>
    intro ids ids' cs
    have key : ∀ {ids1 : List Str} {cs1 : List Call}, (if e.tag = c!"contour" then readContour2 E true ids e
        else if e.tag = c!"component" then readComponent E true 2 ids e else .error .glifLibError) = .ok (cs1, ids1) ↔
        (∃ it, ItemSays2 E.F e it ∧ cs1 = it.calls) ∧ ids1 = ids ++ itemIdentifiers e ∧ NewIds ids (itemIdentifiers e) := by
      intro ids1 cs1
      by_cases h1 : e.tag = c!"contour"
      · rw [if_pos h1]; exact readContour2_iff h1
      rw [if_neg h1]
      by_cases h2 : e.tag = c!"component"
      · rw [if_pos h2, readComponent_says]
        constructor
        · rintro ⟨g, t, i, h, rfl, h3⟩
          exact ⟨⟨_, .component g t i h2 h, rfl⟩, h3⟩
        · rintro ⟨⟨it, h, rfl⟩, h3⟩
          cases h with
          | contour i ps tag => exact absurd tag h1
          | component g t i tag h => exact ⟨g, t, i, h, rfl, h3⟩
      · rw [if_neg h2]
        simp only [reduceCtorEq, false_iff]
        rintro ⟨⟨it, h, -⟩, -⟩
        cases h with
        | contour i ps tag => exact h1 tag
        | component g t i tag h => exact h2 tag
    rw [outlineIdentifiers_cons, newIds_append]
    unfold readOutline2
    constructor
    · intro h
      split at h
      · cases h
      next cs1 ids1 h1 =>
      split at h
      · cases h
      next cs2 ids2 h2 =>
      cases h
      obtain ⟨⟨it, hi, rfl⟩, rfl, hf⟩ := key.1 h1
      obtain ⟨⟨d, hd, rfl⟩, rfl, hf2⟩ := ih.1 h2
      exact ⟨⟨it :: d, .cons hi hd, rfl⟩, by rw [List.append_assoc], hf, hf2⟩
    · rintro ⟨⟨d, hd, rfl⟩, rfl, hf, hf2⟩
      cases hd with
      | @cons _ it _ d hi hd =>
        rw [key.2 ⟨⟨it, hi, rfl⟩, rfl, hf⟩]
        simp only
        rw [ih.2 ⟨⟨d, hd, rfl⟩, rfl, hf2⟩, List.append_assoc]
        rfl

/-! ### Outlines of format 1 -/

theorem dropTrailing_kept {l r : List MPoint} (h1 : ∀ m ∈ r, m.seg = none) (h2 : ∀ m, l.getLast? = some m → m.seg ≠ none) : dropTrailing (l ++ r) = l := by
  unfold dropTrailing
  rw [List.reverse_append, List.dropWhile_append_of_pos (by
    intro m hm
    rw [h1 m (List.mem_reverse.1 hm)]
    rfl)]
  have : l.reverse.dropWhile (fun p => p.seg.isNone) = l.reverse := by
    cases hr : l.reverse with
    | nil => rfl
    | cons m t =>
      rw [List.dropWhile_cons_of_neg]
      have hl : l.getLast? = some m := by rw [List.getLast?_eq_head?_reverse, hr]; rfl
      have := h2 m hl
      cases hs : m.seg with
      | none => exact absurd hs this
      | some _ => simp
  rw [this, List.reverse_reverse]

theorem dropTrailing_split (l : List MPoint) : ∃ r, l = dropTrailing l ++ r ∧ (∀ m ∈ r, m.seg = none) ∧ ∀ m, (dropTrailing l).getLast? = some m → m.seg ≠ none := by
  refine ⟨(l.reverse.takeWhile fun p => p.seg.isNone).reverse, ?_, ?_, ?_⟩
  · unfold dropTrailing
    rw [← List.reverse_append, List.takeWhile_append_dropWhile, List.reverse_reverse]
  · intro m hm
    have := List.mem_takeWhile_imp (List.mem_reverse.1 hm)
    simpa using this
  · intro m hm
    unfold dropTrailing at hm
    rw [List.getLast?_reverse] at hm
    have := List.head?_dropWhile_not (fun p : MPoint => p.seg.isNone) l.reverse
    rw [hm] at this
    simp only at this
    intro h
    rw [h] at this
    exact absurd this (by decide)

theorem seg_none_iff {m : MPoint} : (pointOf m).segmentType = .none ↔ m.seg = none := by
  show orNone m.seg = .none ↔ _
  cases m.seg <;> simp [orNone]

theorem lenient_kept {ms : List MPoint} (h : ∀ m ∈ ms, m.seg ≠ some c!"offcurve") {kept : List Pt} : Kept1 (ms.map pointOf) kept ↔ kept = (lenient 1 ms).map pointOf := by
  unfold Kept1
  rw [types_pointOf h]
  cases ms with
  | nil => simp [lenient]
  | cons m ms =>
    unfold lenient
    simp only [List.map_cons, List.head?_cons, Option.some.injEq, true_and]
    by_cases hm : m.seg = some c!"move"
    · rw [if_pos hm, if_pos hm]
      constructor
      · rintro ⟨off, h1, h2, h3⟩
        rw [← List.map_cons] at h1
        obtain ⟨l, r, e, rfl, rfl⟩ := List.map_eq_append_iff.1 h1
        rw [e, dropTrailing_kept]
        · intro x hx
          exact seg_none_iff.1 (h2 _ (List.mem_map_of_mem hx))
        · intro x hx hn
          exact h3 (pointOf x) (by rw [List.getLast?_map, hx]; rfl) (seg_none_iff.2 hn)
      · rintro rfl
        obtain ⟨r, h1, h2, h3⟩ := dropTrailing_split (m :: ms)
        refine ⟨r.map pointOf, ?_, ?_, ?_⟩
        · rw [← List.map_append, ← h1]; rfl
        · intro p hp
          obtain ⟨x, hx, rfl⟩ := List.mem_map.1 hp
          exact seg_none_iff.2 (h2 x hx)
        · intro p hp
          rw [List.getLast?_map] at hp
          obtain ⟨x, hx, rfl⟩ := Option.map_eq_some_iff.1 hp
          exact fun h => h3 x hx (seg_none_iff.1 h)
    · rw [if_neg hm, if_neg hm]; rfl

theorem kept_move {ps kept : List Pt} (hk : Kept1 ps kept) (hg : GoodContour (types kept)) : ∀ a p b, ps = a ++ p :: b → p.segmentType = .str c!"move" → a.length + 0 = 0 := by
  unfold Kept1 at hk
  split at hk
  · obtain ⟨off, rfl, h2, -⟩ := hk
    intro a p b he ht
    have hp : p ∉ off := fun hp => by rw [h2 p hp] at ht; cases ht
    rcases List.append_eq_append_iff.1 he with ⟨c, h1, h2⟩ | ⟨c, h1, h2⟩
    · exfalso
      apply hp
      rw [h2]; simp
    · cases c with
      | nil =>
        exfalso
        rw [List.nil_append] at h2
        apply hp
        rw [← h2]; simp
      | cons q c =>
        simp only [List.cons_append, List.cons.injEq] at h2
        obtain ⟨rfl, -⟩ := h2
        exact good_contour_move hg a p c h1 ht
  · subst hk
    exact good_contour_move hg

theorem massage1_iff {E : Env} {es : List Elem} {kept : List Pt} : (∃ ms, massage E true 1 es = .ok ms ∧ ms.map pointOf = kept) ↔
    ∃ ps, List.Forall₂ (PointSays E.F false) es ps ∧ Kept1 ps kept ∧ GoodContour (types kept) := by
  have hsub : ∀ {l : List MPoint}, ∀ m ∈ lenient 1 l, m ∈ l := by
    intro l m hm
    obtain ⟨r, hr⟩ := lenient_prefix 1 l
    rw [hr]
    exact List.mem_append_left _ hm
  constructor
  · rintro ⟨ms, h, rfl⟩
    obtain ⟨ms, h0, rfl, hg⟩ := massage_good h
    obtain ⟨h1, -⟩ := massagePoints_says h0
    have hs := seg_of_says h1
    exact ⟨_, h1, (lenient_kept hs).2 rfl, by rw [types_pointOf fun m hm => hs m (hsub m hm)]; exact hg⟩
  · rintro ⟨ps, h, hk, hg⟩
    obtain ⟨ms, h1, rfl⟩ := says_massagePoints (fv := 1) h (index := 0) (kept_move hk hg)
    have hs := seg_of_says h
    obtain rfl := (lenient_kept hs).1 hk
    exact ⟨_, massage_of h1 (by rw [← types_pointOf fun m hm => hs m (hsub m hm)]; exact hg), rfl⟩

theorem readAnchor1_some {E : Env} {e : Elem} {v : PyVal} : readAnchor1 E true e = .ok (some v) ↔
    ∃ n sx sy x y, attr e c!"type" = some c!"move" ∧ attr e c!"name" = some n ∧ attr e c!"x" = some sx ∧ attr e c!"y" = some sy ∧ Number E.F sx x ∧ Number E.F sy y ∧
      v = .dict [(.str c!"x", x), (.str c!"y", y), (.str c!"name", .str n)] := by
  constructor
  · intro h
    unfold readAnchor1 at h
    split at h
    · cases h
    next ht =>
    split at h
    · cases h
    next n hn =>
    split at h
    · cases h
    next x hx =>
    split at h
    · cases h
    next y hy =>
    cases h
    obtain ⟨sx, gx, nx⟩ := coordinate_iff.1 hx
    obtain ⟨sy, gy, ny⟩ := coordinate_iff.1 hy
    exact ⟨n, sx, sy, x, y, by simpa [attr] using ht, hn, gx, gy, nx, ny, rfl⟩
  · rintro ⟨n, sx, sy, x, y, ht, hn, gx, gy, nx, ny, rfl⟩
    have cx : coordinate E.F true (Dict.get? e.attrib c!"x") = .ok x := coordinate_iff.2 ⟨sx, gx, nx⟩
    have cy : coordinate E.F true (Dict.get? e.attrib c!"y") = .ok y := coordinate_iff.2 ⟨sy, gy, ny⟩
    have hn' : Dict.get? e.attrib c!"name" = some n := hn
    unfold readAnchor1
    rw [if_neg (by simpa [attr] using ht), hn', cx, cy]

theorem readAnchor1_none {E : Env} {e : Elem} : readAnchor1 E true e = .ok none ↔ ¬ (attr e c!"type" = some c!"move" ∧ attr e c!"name" ≠ none) := by
  unfold attr readAnchor1
  by_cases ht : Dict.get? e.attrib c!"type" = some c!"move"
  · rw [if_neg (by simpa using ht)]
    cases hn : Dict.get? e.attrib c!"name" with
    | none => simp
    | some n =>
      simp only [ht, ne_eq, reduceCtorEq, not_false_eq_true, and_self, not_true, iff_false]
      intro h
      split at h
      · cases h
      split at h
      · cases h
      cases h
  · simp [ht]

theorem contourAnchor1_some {E : Env} {e : Elem} {v : PyVal} (ht : e.tag = c!"contour") : contourAnchor1 E true e = .ok (some v) ↔ AnchorSays1 E.F e v := by
  constructor
  · intro h
    unfold contourAnchor1 at h
    split at h
    · next p hp =>
      split at h
      · next hpt =>
        obtain ⟨n, sx, sy, x, y, h1, h2, h3, h4, h5, h6, h7⟩ := readAnchor1_some.1 h
        exact ⟨ht, p, n, sx, sy, x, y, hp, hpt, h1, h2, h3, h4, h5, h6, h7⟩
      · cases h
    · cases h
  · rintro ⟨-, p, n, sx, sy, x, y, hp, hpt, h1, h2, h3, h4, h5, h6, h7⟩
    unfold contourAnchor1
    rw [hp]
    simp only [hpt, if_true]
    exact readAnchor1_some.2 ⟨n, sx, sy, x, y, h1, h2, h3, h4, h5, h6, h7⟩

theorem contourAnchor1_none {E : Env} {e : Elem} (ht : e.tag = c!"contour") : contourAnchor1 E true e = .ok none ↔ ¬ Marker e := by
  unfold contourAnchor1 Marker
  split
  · next p hp =>
    have huniq : (∃ q, e.children = [q] ∧ q.tag = c!"point" ∧ attr q c!"type" = some c!"move" ∧ attr q c!"name" ≠ none) ↔
        (p.tag = c!"point" ∧ attr p c!"type" = some c!"move" ∧ attr p c!"name" ≠ none) := by
      constructor
      · rintro ⟨q, h1, h2⟩
        rw [hp] at h1
        cases h1
        exact h2
      · exact fun h => ⟨p, hp, h⟩
    rw [huniq]
    simp only [ht, true_and]
    by_cases hpt : p.tag = c!"point"
    · rw [if_pos hpt, readAnchor1_none]
      simp [hpt]
    · rw [if_neg hpt]
      simp [hpt]
  · next hne =>
    simp only [true_iff, not_and]
    rintro - ⟨p, hp, -⟩
    exact hne p hp

theorem readItem1_iff {E : Env} {e : Elem} {as : List PyVal} {cs : List Call} : readItem1 E true true e = .ok (as, cs) ↔ ∃ d, ItemSays1 E.F e as d ∧ cs = drawing d := by
  constructor
  · intro h
    unfold readItem1 at h
    split at h
    · next ht =>
      split at h
      · cases h
      · next a ha =>
        cases h
        exact ⟨[], .anchor _ ((contourAnchor1_some ht).1 ha), rfl⟩
      · next hn =>
        simp only [if_true] at h
        unfold readContour1 at h
        split at h
        · cases h
        next hk =>
        split at h
        · cases h
        next ms hms =>
        cases h
        obtain ⟨ps, h1, h2, h3⟩ := massage1_iff.1 ⟨ms, hms, rfl⟩
        refine ⟨_, .contour ps (ms.map pointOf) ht ((contourAnchor1_none ht).1 hn) (by simpa using hk) h1 h2 h3, ?_⟩
        have hid : ∀ m ∈ ms, orNone m.identifier = .none := by
          intro m hm
          have hmem : pointOf m ∈ ps := by
            have hm' : pointOf m ∈ ms.map pointOf := List.mem_map_of_mem hm
            unfold Kept1 at h2
            split at h2
            · obtain ⟨off, rfl, -⟩ := h2; exact List.mem_append_left _ hm'
            · rwa [← h2]
          obtain ⟨e', -, he'⟩ := forall₂_right h1 _ hmem
          have hi : orNone m.identifier = orNothing (attr e' c!"identifier") := he'.identifier
          have hno : attr e' c!"identifier" = none := by
            unfold attr
            rw [Dict.get?_eq_none_iff]
            intro hk
            rcases he'.known _ hk with h | ⟨h, -⟩
            · revert h; decide
            · cases h
          rw [hi, hno]; rfl
        simp only [drawing, List.flatMap_cons, List.flatMap_nil, List.append_nil, Item.calls, List.map_map]
        congr 2
        apply List.map_congr_left
        intro m hm
        show Call.addPoint _ _ _ _ PyVal.none = Call.addPoint _ _ _ _ (orNone m.identifier)
        rw [hid m hm]
        rfl
    · split at h
      · next ht =>
        simp only [if_true] at h
        cases hr : readComponent E true 1 [] e with
        | error x => rw [hr] at h; cases h
        | ok r =>
          obtain ⟨cs1, ids1⟩ := r
          rw [hr] at h
          cases h
          obtain ⟨g, t, i, h1, rfl, -, -⟩ := readComponent_says.1 hr
          have hno : attr e c!"identifier" = none := by
            unfold attr
            rw [Dict.get?_eq_none_iff]
            intro hk
            rcases h1.known _ hk with h | h | ⟨h, -⟩
            · revert h; decide
            · revert h; decide
            · cases h
          have hi : i = .none := by rw [h1.identifier, hno]; rfl
          subst hi
          exact ⟨_, .component g t ht h1, rfl⟩
      · cases h
  · rintro ⟨d, h, rfl⟩
    cases h with
    | anchor v h =>
      unfold readItem1
      rw [if_pos h.tag, (contourAnchor1_some h.tag).2 h]
      rfl
    | contour ps kept tag no known points hk good =>
      obtain ⟨ms, hms, rfl⟩ := massage1_iff.2 ⟨ps, points, hk, good⟩
      unfold readItem1
      rw [if_pos tag, (contourAnchor1_none tag).2 no]
      simp only [if_true]
      unfold readContour1
      rw [known, hms]
      have hid : ∀ m ∈ ms, orNone m.identifier = .none := by
        intro m hm
        have hmem : pointOf m ∈ ps := by
          have hm' : pointOf m ∈ ms.map pointOf := List.mem_map_of_mem hm
          unfold Kept1 at hk
          split at hk
          · obtain ⟨off, rfl, -⟩ := hk; exact List.mem_append_left _ hm'
          · rwa [← hk]
        obtain ⟨e', -, he'⟩ := forall₂_right points _ hmem
        have hi : orNone m.identifier = orNothing (attr e' c!"identifier") := he'.identifier
        have hno : attr e' c!"identifier" = none := by
          unfold attr
          rw [Dict.get?_eq_none_iff]
          intro hk
          rcases he'.known _ hk with h | ⟨h, -⟩
          · revert h; decide
          · cases h
        rw [hi, hno]; rfl
      simp only [List.isEmpty_nil, Bool.not_true, Bool.and_false, Bool.false_eq_true, if_false, Except.map, drawing, List.flatMap_cons, List.flatMap_nil, List.append_nil,
        Item.calls, List.map_map]
      congr 4
      apply List.map_congr_left
      intro m hm
      show Call.addPoint _ _ _ _ PyVal.none = Call.addPoint _ _ _ _ (orNone m.identifier)
      rw [hid m hm]
      rfl
    | component g t tag h =>
      unfold readItem1
      have hid : itemIdentifiers e = [] := by
        have hno : Dict.get? e.attrib c!"identifier" = none := by
          rw [Dict.get?_eq_none_iff]
          intro hk
          rcases h.known _ hk with h | h | ⟨h, -⟩
          · revert h; decide
          · revert h; decide
          · cases h
        rw [itemIdentifiers, h.empty, ownIdentifier, hno]
        rfl
      rw [tag, if_neg (by decide), if_pos rfl, if_pos rfl, readComponent_says.2 ⟨g, t, .none, h, rfl, rfl, by rw [hid]; exact .nil _⟩]
      rfl

theorem readOutline1_iff {E : Env} {es : List Elem} : ∀ {as : List PyVal} {cs : List Call}, readOutline1 E true true es = .ok (as, cs) ↔
    ∃ d, OutlineSays1 E.F es as d ∧ cs = drawing d := by
  induction es with
  | nil =>
    intro as cs
    simp only [readOutline1, Except.ok.injEq, Prod.mk.injEq]
    constructor
    · rintro ⟨rfl, rfl⟩; exact ⟨[], .nil, rfl⟩
    · rintro ⟨d, h, rfl⟩; cases h; exact ⟨rfl, rfl⟩
  | cons e es ih =>
    intro as cs
    unfold readOutline1
    constructor
    · intro h
      split at h
      · cases h
      next as1 cs1 h1 =>
      split at h
      · cases h
      next as2 cs2 h2 =>
      cases h
      obtain ⟨d, hd, rfl⟩ := readItem1_iff.1 h1
      obtain ⟨d', hd', rfl⟩ := ih.1 h2
      exact ⟨d ++ d', .cons e es _ _ _ _ hd hd', by simp [drawing]⟩
    · rintro ⟨d, h, rfl⟩
      cases h with
      | cons _ _ as as' d d' h t =>
        rw [readItem1_iff.2 ⟨d, h, rfl⟩]
        simp only
        rw [ih.2 ⟨d', t, rfl⟩]
        simp [drawing]

end Verif.Glif
