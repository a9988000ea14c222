import Verif.Proofs.GlifPen
/-! Writing a glyph: identifiers of the whole tree. -/
namespace Verif.Glif
open Verif Verif.Validators Verif.Spec.Validators Verif.Spec.Glif

/-- The identifier of a guideline or an anchor. -/
def entryIdentifier : PyVal → List Str
  | .dict d => argument ((get d c!"identifier").getD .none)
  | _ => []

theorem argument_get (d : List (PyVal × PyVal)) : argument ((get d c!"identifier").getD .none) = (match getVal d c!"identifier" with | some (.str s) => [s] | _ => []) := by
  unfold getVal
  cases get d c!"identifier" with
  | none => rfl
  | some v => cases v <;> rfl

theorem entryIdentifiers_eq (l : List PyVal) (hl : ∀ e ∈ l, DictKeys e) : l.flatMap entryIdentifier = identifiers l := by
  induction l with
  | nil => rfl
  | cons v l ih =>
    rw [List.forall_mem_cons] at hl
    rw [List.flatMap_cons, ih hl.2]
    cases v with
    | dict d =>
      rw [identifiers_dict d (hl.1 d rfl), entryIdentifier, argument_get]
      cases getVal d c!"identifier" with
      | none => rfl
      | some v => cases v <;> rfl
    | _ => rfl

theorem entriesValidator_all {check : PyVal → Bool} {ids out : List Str} {l : List PyVal} (h : entriesValidator check ids l = (true, out)) :
    ∀ e ∈ l, check e = true ∧ ∃ d, e = .dict d := by
  induction l generalizing ids with
  | nil => simp
  | cons v l ih =>
    unfold entriesValidator at h
    split at h
    · cases h
    next hc =>
    rw [Bool.not_eq_true', Bool.not_eq_false] at hc
    split at h
    next d =>
      rw [List.forall_mem_cons]
      refine ⟨⟨hc, d, rfl⟩, ?_⟩
      split at h
      · exact ih h
      · split at h
        · cases h
        · exact ih h
      · cases h
    · cases h

theorem identifierColorOk_legal {F : FloatCodec} {d : List (PyVal × PyVal)} (h : identifierColorOk F d = true) (v : PyVal) (hv : getVal d c!"identifier" = some v) :
    ∃ s, v = .str s ∧ LegalIdentifier s := by
  rw [identifierColorOk, Bool.and_eq_true, hv] at h
  exact identifier_iff.1 h.1

theorem guidelineValidator_tagged {F : FloatCodec} {d : List (PyVal × PyVal)} (h : guidelineValidator F (.dict d) = true) : identifierColorOk F d = true := by
  unfold guidelineValidator at h
  simp only at h
  repeat' (split at h; · cases h)
  exact h

theorem anchorValidator_tagged {F : FloatCodec} {d : List (PyVal × PyVal)} (h : anchorValidator F (.dict d) = true) : identifierColorOk F d = true := by
  unfold anchorValidator at h
  simp only at h
  repeat' (split at h; · cases h)
  exact h

/-- The attributes of an entry carry its identifier. -/
def CarriesIdentifier (attrs : List (PyVal × PyVal) → Except Exc (List (Str × PyVal))) : Prop :=
  ∀ d a, attrs d = .ok a → Dict.get? a c!"identifier" = getVal d c!"identifier"

theorem get?_optional_identifier (d : List (PyVal × PyVal)) : Dict.get? (optional c!"identifier" ((get d c!"identifier").getD .none)) c!"identifier" = getVal d c!"identifier" := by
  rw [get?_optional]
  unfold getVal
  cases get d c!"identifier" with
  | none => rfl
  | some v => cases v <;> rfl

theorem guidelineAttrs_identifier (E : Env) : CarriesIdentifier fun d => .ok (guidelineAttrs E d) := by
  rintro d a h
  cases h
  rw [guidelineAttrs]
  simp only [Dict.get?_append, get?_optionalRepr, get?_optional, show ¬ c!"x" = c!"identifier" by decide, show ¬ c!"y" = c!"identifier" by decide,
    show ¬ c!"angle" = c!"identifier" by decide, show ¬ c!"name" = c!"identifier" by decide, show ¬ c!"color" = c!"identifier" by decide, false_and, if_false, Option.or]
  have := get?_optional_identifier d
  rw [get?_optional] at this
  simpa using this

theorem anchorAttrs_identifier (E : Env) : CarriesIdentifier (anchorAttrs E) := by
  rintro d a h
  unfold anchorAttrs at h
  split at h
  · cases h
    simp only [List.cons_append, List.nil_append, Dict.get?_cons, Dict.get?_append, get?_optional, show ¬ c!"x" = c!"identifier" by decide, show ¬ c!"y" = c!"identifier" by decide,
      show ¬ c!"name" = c!"identifier" by decide, show ¬ c!"color" = c!"identifier" by decide, false_and, if_false, Option.or]
    have := get?_optional_identifier d
    rw [get?_optional] at this
    simpa using this
  · cases h

/-- Guidelines or anchors. -/
theorem entryElements_spec {E : Env} {tag : Str} {attrs : List (PyVal × PyVal) → Except Exc (List (Str × PyVal))} (ha : CarriesIdentifier attrs) {l : List PyVal} :
    ∀ {ids ids' : List Str} {es : List Elem}, (∀ d, .dict d ∈ l → ∀ v, getVal d c!"identifier" = some v → ∃ s, v = .str s ∧ LegalIdentifier s) →
      entryElements E true tag attrs ids l = .ok (es, ids') →
      ids' = ids ++ l.flatMap entryIdentifier ∧ es.flatMap ownIdentifier = l.flatMap entryIdentifier ∧ (ids.Nodup → ids'.Nodup) ∧
        (∀ i ∈ l.flatMap entryIdentifier, LegalIdentifier i) ∧ ∀ e ∈ es, e.tag = tag := by
  induction l with
  | nil => intro ids ids' es _ h; cases h; simp
  | cons v l ih =>
    intro ids ids' es hleg h
    cases v <;> try (cases h)
    case dict d =>
      unfold entryElements at h
      split at h
      · cases h
      next a hattr =>
      split at h
      · cases h
      next ids1 h1 =>
      split at h
      · cases h
      next e he =>
      split at h
      · cases h
      next l' ids2 h2 =>
      cases h
      obtain ⟨g1, g2, g3, g4, g5⟩ := ih (fun d hd => hleg d (List.mem_cons_of_mem _ hd)) h2
      obtain ⟨k1, k2⟩ := addIdentifier_ok h1
      obtain ⟨e1, -, e3⟩ := newElement_identifier he
      have hw : ownIdentifier e = entryIdentifier (.dict d) := by
        rw [e1, ha d a hattr, entryIdentifier, argument_get]
        rcases hg : getVal d c!"identifier" with _ | v
        · rfl
        · obtain ⟨s, rfl, -⟩ := hleg d List.mem_cons_self v hg
          rfl
      refine ⟨?_, ?_, fun hn => g3 ?_, ?_, ?_⟩
      · rw [g1, k1, List.flatMap_cons, List.append_assoc]; rfl
      · rw [List.flatMap_cons, List.flatMap_cons, g2, hw]
      · rw [k1]
        exact List.Nodup.append hn (argument_nodup _) fun i hi hc => k2 i hc hi
      · intro i hi
        rw [List.flatMap_cons, List.mem_append] at hi
        rcases hi with hi | hi
        · rw [entryIdentifier, argument_get] at hi
          rcases hg : getVal d c!"identifier" with _ | v
          · simp [hg] at hi
          · obtain ⟨s, rfl, hs⟩ := hleg d List.mem_cons_self v hg
            rw [hg] at hi
            simp only [List.mem_singleton] at hi
            exact hi ▸ hs
        · exact g4 i hi
      · exact List.forall_mem_cons.2 ⟨e3, g5⟩

/-- What a writer of guidelines or anchors achieves. -/
structure Wrote (tag : Str) (v : PyVal) (ids ids' : List Str) (es : List Elem) : Prop where
  identifiers : ids' = ids ++ (listItems v).flatMap entryIdentifier
  elements : es.flatMap ownIdentifier = (listItems v).flatMap entryIdentifier
  nodup : ids.Nodup → ids'.Nodup
  legal : ∀ i ∈ (listItems v).flatMap entryIdentifier, LegalIdentifier i
  tags : ∀ e ∈ es, e.tag = tag

theorem writeGuidelines_spec {E : Env} {ids ids' : List Str} {v : PyVal} {es : List Elem} (h : writeGuidelines E true ids v = .ok (es, ids')) : Wrote c!"guideline" v ids ids' es := by
  unfold writeGuidelines at h
  split at h
  · cases h
  next hv =>
  cases v <;> simp only [guidelinesValidator, Bool.true_and, Bool.not_false, not_true_eq_false, iter] at hv h
  next l =>
  rcases hr : entriesValidator (guidelineValidator E.F) [] l with ⟨b, out⟩
  rw [hr] at hv
  simp only [Bool.not_eq_true', Bool.not_eq_false] at hv
  subst hv
  have hall := entriesValidator_all hr
  obtain ⟨h1, h2, h3, h4, h5⟩ := entryElements_spec (guidelineAttrs_identifier E)
    (fun d hd v hv => identifierColorOk_legal (guidelineValidator_tagged (hall _ hd).1) v hv) h
  exact ⟨h1, h2, h3, h4, h5⟩

theorem writeAnchors_spec {E : Env} {ids ids' : List Str} {v : PyVal} {es : List Elem} (h : writeAnchors E true ids v = .ok (es, ids')) : Wrote c!"anchor" v ids ids' es := by
  unfold writeAnchors at h
  split at h
  · cases h
  next hv =>
  cases v <;> simp only [anchorsValidator, Bool.true_and, Bool.not_false, not_true_eq_false, iter] at hv h
  next l =>
  rcases hr : entriesValidator (anchorValidator E.F) [] l with ⟨b, out⟩
  rw [hr] at hv
  simp only [Bool.not_eq_true', Bool.not_eq_false] at hv
  subst hv
  have hall := entriesValidator_all hr
  obtain ⟨h1, h2, h3, h4, h5⟩ := entryElements_spec (anchorAttrs_identifier E)
    (fun d hd v hv => identifierColorOk_legal (anchorValidator_tagged (hall _ hd).1) v hv) h
  exact ⟨h1, h2, h3, h4, h5⟩

/-! ### The parts of the tree -/

/-- The identifiers an element of a glyph contributes. -/
def childIdentifiers (e : Elem) : List Str :=
  if e.tag = c!"guideline" ∨ e.tag = c!"anchor" then ownIdentifier e
  else if e.tag = c!"outline" then outlineIdentifiers e.children
  else []

theorem glyphIdentifiers_eq (tree : Elem) : glyphIdentifiers tree = tree.children.flatMap childIdentifiers := rfl

theorem childIdentifiers_tag {tag : Str} (ht : tag = c!"guideline" ∨ tag = c!"anchor") {es : List Elem} (h : ∀ e ∈ es, e.tag = tag) : es.flatMap childIdentifiers = es.flatMap ownIdentifier := by
  induction es with
  | nil => rfl
  | cons e es ih =>
    rw [List.forall_mem_cons] at h
    rw [List.flatMap_cons, List.flatMap_cons, ih h.2, childIdentifiers, if_pos (by rw [h.1]; exact ht)]

theorem childIdentifiers_none {tag : Str} (ht : ¬ (tag = c!"guideline" ∨ tag = c!"anchor") ∧ tag ≠ c!"outline") {es : List Elem} (h : ∀ e ∈ es, e.tag = tag) :
    es.flatMap childIdentifiers = [] := by
  induction es with
  | nil => rfl
  | cons e es ih =>
    rw [List.forall_mem_cons] at h
    rw [List.flatMap_cons, ih h.2, childIdentifiers, if_neg (by rw [h.1]; exact ht.1), if_neg (by rw [h.1]; exact ht.2)]
    rfl

theorem writeAdvance_tag {E : Env} {b : Bool} {o : Obj} {es : List Elem} (h : writeAdvance E b o = .ok es) : ∀ e ∈ es, e.tag = c!"advance" := by
  unfold writeAdvance at h
  split at h
  · cases h
  split at h
  · cases h
  split at h
  · cases h; simp
  cases he : newElement E c!"advance" _ with
  | error x => rw [he] at h; cases h
  | ok e =>
    rw [he] at h
    cases h
    simpa using (newElement_identifier he).2.2

theorem unicodeElements_tag {E : Env} {b : Bool} {l : List PyVal} : ∀ {seen : List Int} {es : List Elem}, unicodeElements E b seen l = .ok es → ∀ e ∈ es, e.tag = c!"unicode" := by
  induction l with
  | nil => intro seen es h; cases h; simp
  | cons c l ih =>
    intro seen es h
    unfold unicodeElements at h
    split at h
    · cases h
    split at h
    · exact ih h
    split at h
    · cases h
    next e he =>
    split at h
    · cases h
    next l' hl =>
    cases h
    exact List.forall_mem_cons.2 ⟨(newElement_identifier he).2.2, ih hl⟩

theorem oneIf_tag {b : Bool} {r : Except Exc Elem} {es : List Elem} {tag : Str} (h : oneIf b r = .ok es) (hr : ∀ e, r = .ok e → e.tag = tag) : ∀ e ∈ es, e.tag = tag := by
  unfold oneIf at h
  split at h
  · cases r with
    | error x => cases h
    | ok e => cases h; simpa using hr e rfl
  · cases h; simp

theorem writeNote_tag {E : Env} {b : Bool} {v : PyVal} {e : Elem} (h : writeNote E b v = .ok e) : e.tag = c!"note" := by
  unfold writeNote at h
  split at h
  · next s =>
    cases hs : Plist.setText E.lxml (.str ('\n' :: strip s ++ ['\n'])) with
    | error x => rw [hs] at h; cases h
    | ok t => rw [hs] at h; cases h; rfl
  · cases h

theorem writeImage_tag {E : Env} {b : Bool} {v : PyVal} {e : Elem} (h : writeImage E b v = .ok e) : e.tag = c!"image" := by
  unfold writeImage at h
  split at h
  · cases h
  split at h
  · split at h
    · cases h
    · exact (newElement_identifier h).2.2
  · cases h

theorem writeLib_tag {E : Env} {b : Bool} {v : PyVal} {e : Elem} (h : writeLib E b v = .ok e) : e.tag = c!"lib" := by
  unfold writeLib at h
  split at h
  · cases h
  · cases h
  split at h
  · split at h
    · cases h
    · cases h; rfl
  · cases h

/-- The parts written before the outline. -/
structure Head (E : Env) (validate : Bool) (o : Obj) (head : List Elem) (ids : List Str) where
  advance : List Elem
  unicodes : List Elem
  note : List Elem
  image : List Elem
  guidelines : List Elem
  ids1 : List Str
  anchors : List Elem
  hadvance : writeAdvance E validate o = .ok advance
  hunicodes : (if truthy (o.attr c!"unicodes") then writeUnicodes E validate (o.attr c!"unicodes") else .ok []) = .ok unicodes
  hnote : oneIf (truthy (o.attr c!"note")) (writeNote E validate (o.attr c!"note")) = .ok note
  himage : oneIf (truthy (o.attr c!"image")) (writeImage E validate (o.attr c!"image")) = .ok image
  hguidelines : (if truthy (o.attr c!"guidelines") then writeGuidelines E validate [] (o.attr c!"guidelines") else .ok ([], [])) = .ok (guidelines, ids1)
  hanchors : (if truthy (o.attr c!"anchors") then writeAnchors E validate ids1 (o.attr c!"anchors") else .ok ([], ids1)) = .ok (anchors, ids)
  eq : head = advance ++ unicodes ++ note ++ image ++ guidelines ++ anchors

theorem writeHead_parts {E : Env} {b : Bool} {o : Obj} {head : List Elem} {ids : List Str} (h : writeHead E b 2 o = .ok (head, ids)) : Nonempty (Head E b o head ids) := by
  unfold writeHead at h
  split at h
  · cases h
  next advance h1 =>
  split at h
  · cases h
  next unicodes h2 =>
  split at h
  · cases h
  next note h3 =>
  split at h
  · cases h
  next image h4 =>
  split at h
  · cases h
  next guidelines ids1 h5 =>
  split at h
  · cases h
  next anchors ids2 h6 =>
  cases h
  simp only [show decide (2 ≤ 2) = true from rfl, Bool.true_and] at h4 h5 h6
  exact ⟨⟨advance, unicodes, note, image, guidelines, ids1, anchors, h1, h2, h3, h4, h5, h6, rfl⟩⟩

/-- The parts of a glyph. -/
structure Parts (E : Env) (validate : Bool) (fv : Nat) (name : PyVal) (o : Obj) (draw : Option (List Call)) (tree : Elem) where
  attrs : Dict Str Str
  head : List Elem
  ids : List Str
  outline : List Elem
  lib : List Elem
  hname : validate = true → isStr name = true ∧ name ≠ .str []
  hattrs : attrTexts E [(c!"name", name), (c!"format", .str (natRepr fv))] = .ok attrs
  hhead : writeHead E validate fv o = .ok (head, ids)
  houtline : drawn E validate fv ids (o.attr c!"anchors") draw = .ok outline
  hlib : oneIf (truthy (o.attr c!"lib")) (writeLib E validate (o.attr c!"lib")) = .ok lib
  eq : tree = .mk c!"glyph" attrs none none (head ++ outline ++ lib)

theorem writeGlyphTree_parts {E : Env} {b : Bool} {fv : Nat} {name : PyVal} {o : Obj} {draw : Option (List Call)} {tree : Elem} (h : writeGlyphTree E b fv name o draw = .ok tree) :
    Nonempty (Parts E b fv name o draw tree) := by
  unfold writeGlyphTree at h
  split at h
  · cases h
  next hn =>
  split at h
  · cases h
  next attrs h1 =>
  split at h
  · cases h
  next head ids h2 =>
  split at h
  · cases h
  next outline h3 =>
  split at h
  · cases h
  next lib h4 =>
  cases h
  refine ⟨⟨attrs, head, ids, outline, lib, fun hb => ?_, h1, h2, h3, h4, rfl⟩⟩
  subst hb
  simpa using hn

theorem writeHead_spec {E : Env} {o : Obj} {head : List Elem} {ids : List Str} (h : writeHead E true 2 o = .ok (head, ids)) :
    ids = (listItems (o.attr c!"guidelines")).flatMap entryIdentifier ++ (listItems (o.attr c!"anchors")).flatMap entryIdentifier ∧
      head.flatMap childIdentifiers = ids ∧ ids.Nodup ∧ ∀ i ∈ ids, LegalIdentifier i := by
  obtain ⟨⟨advance, unicodes, note, image, guidelines, ids1, anchors, hadvance, hU, hnote, himage, hG, hA, rfl⟩⟩ := writeHead_parts h
  have empty : ∀ v, truthy v = false → (listItems v).flatMap entryIdentifier = [] := by
    intro v hv
    cases v <;> simp_all [listItems, truthy]
  have hg : Wrote c!"guideline" (o.attr c!"guidelines") [] ids1 guidelines := by
    split at hG
    · exact writeGuidelines_spec hG
    next ht =>
      have h0 := empty _ (by simpa using ht)
      simp only [Except.ok.injEq, Prod.mk.injEq] at hG
      obtain ⟨rfl, rfl⟩ := hG
      exact ⟨by simp [h0], by simp [h0], id, by simp [h0], by simp⟩
  have ha : Wrote c!"anchor" (o.attr c!"anchors") ids1 ids anchors := by
    split at hA
    · exact writeAnchors_spec hA
    next ht =>
      have h0 := empty _ (by simpa using ht)
      simp only [Except.ok.injEq, Prod.mk.injEq] at hA
      obtain ⟨rfl, rfl⟩ := hA
      exact ⟨by simp [h0], by simp [h0], id, by simp [h0], by simp⟩
  have hu : ∀ e ∈ unicodes, e.tag = c!"unicode" := by
    split at hU
    · unfold writeUnicodes at hU
      split at hU
      · cases hU
      · exact unicodeElements_tag hU
    · cases hU; simp
  have hids : ids = (listItems (o.attr c!"guidelines")).flatMap entryIdentifier ++ (listItems (o.attr c!"anchors")).flatMap entryIdentifier := by
    rw [ha.identifiers, hg.identifiers, List.nil_append]
  refine ⟨hids, ?_, ha.nodup (hg.nodup List.nodup_nil), ?_⟩
  · simp only [List.flatMap_append]
    rw [childIdentifiers_none (by decide) (writeAdvance_tag hadvance), childIdentifiers_none (by decide) hu,
      childIdentifiers_none (by decide) (oneIf_tag hnote fun e he => writeNote_tag he), childIdentifiers_none (by decide) (oneIf_tag himage fun e he => writeImage_tag he),
      childIdentifiers_tag (.inl rfl) hg.tags, childIdentifiers_tag (.inr rfl) ha.tags, hg.elements, ha.elements, hids]
    rfl
  · intro i hi
    rw [hids] at hi
    rcases List.mem_append.1 hi with hi | hi
    · exact hg.legal i hi
    · exact ha.legal i hi

/-- The identifiers of a written glyph. -/
theorem writeGlyphTree_spec {E : Env} {name : PyVal} {o : Obj} {calls : List Call} {tree : Elem} (h : writeGlyphTree E true 2 name o (some calls) = .ok tree) :
    (glyphIdentifiers tree).Perm ((listItems (o.attr c!"guidelines")).flatMap entryIdentifier ++ (listItems (o.attr c!"anchors")).flatMap entryIdentifier ++ calls.flatMap callIdentifier) ∧
      (glyphIdentifiers tree).Nodup ∧ ∀ i ∈ glyphIdentifiers tree, LegalIdentifier i := by
  obtain ⟨⟨attrs, head, ids, outline, lib, -, -, hhead, ho, hlib, htree⟩⟩ := writeGlyphTree_parts h
  subst htree
  obtain ⟨h1, h2, h3, h4⟩ := writeHead_spec hhead
  have hl : lib.flatMap childIdentifiers = [] := childIdentifiers_none (by decide) (oneIf_tag hlib fun e he => writeLib_tag he)
  rw [drawn, writeOutline] at ho
  cases hd : (Pen.new ids).draw E 2 true calls with
  | error x => rw [hd] at ho; cases ho
  | ok s =>
    rw [hd] at ho
    simp only [show ¬ ((2 : Nat) = 1) by decide, false_and, if_false] at ho
    cases outline with
    | nil => cases ho
    | cons e rest =>
    obtain ⟨g1, g2, g3, g4, g5⟩ := draw_spec (s := Pen.new ids) (by simp [Pen.Valid, Pen.new]) hd
    have hp : (glyphIdentifiers (.mk c!"glyph" attrs none none (head ++ (e :: rest) ++ lib))).Perm (ids ++ calls.flatMap callIdentifier) := by
      rw [glyphIdentifiers_eq, Elem.children, List.flatMap_append, List.flatMap_append, h2, hl, List.append_nil]
      refine .append_left _ ?_
      simp only [Except.map, Except.ok.injEq, List.cons.injEq] at ho
      obtain ⟨rfl, rfl⟩ := ho
      rw [List.flatMap_cons, List.flatMap_nil, List.append_nil, fillEmpty, childIdentifiers, if_neg (by simp [Elem.tag]), if_pos (by simp [Elem.tag]), Elem.children]
      exact g3
    refine ⟨by rw [← h1]; exact hp, hp.nodup_iff.2 (by rw [show ids = (Pen.new ids).identifiers from rfl, ← g2]; exact g4 h3), fun i hi => ?_⟩
    rcases List.mem_append.1 (hp.mem_iff.1 hi) with hi | hi
    · exact h4 i hi
    · exact g5 i hi

end Verif.Glif
