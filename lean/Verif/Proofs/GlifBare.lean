import Verif.Proofs.GlifWrite
/-! Writing a glyph: what identifiers can make fail. -/
namespace Verif.Glif
open Verif Verif.Validators Verif.Spec.Validators Verif.Spec.Glif

theorem attrTexts_append {E : Env} {l l' : List (Str × PyVal)} {a a' : Dict Str Str} (h : attrTexts E l = .ok a) (h' : attrTexts E l' = .ok a') :
    attrTexts E (l ++ l') = .ok (a ++ a') := by
  induction l generalizing a with
  | nil => cases h; exact h'
  | cons p l ih =>
    obtain ⟨k, v⟩ := p
    unfold attrTexts at h
    split at h
    · cases h
    next s hs =>
    split at h
    · cases h
    next d hd =>
    cases h
    rw [List.cons_append, attrTexts, hs]
    simp only [ih hd, List.cons_append]

theorem newElement_append {E : Env} {tag : Str} {l l' : List (Str × PyVal)} {e : Elem} {a' : Dict Str Str} (h : newElement E tag l = .ok e) (h' : attrTexts E l' = .ok a') :
    ∃ e', newElement E tag (l ++ l') = .ok e' := by
  unfold newElement at h ⊢
  cases ha : attrTexts E l with
  | error x => rw [ha] at h; cases h
  | ok a => exact ⟨_, by rw [attrTexts_append ha h']; rfl⟩

theorem attrTexts_legal (E : Env) {v : PyVal} (h : v = .none ∨ ∃ s, v = .str s ∧ LegalIdentifier s) : ∃ a, attrTexts E (optional c!"identifier" v) = .ok a := by
  rcases h with rfl | ⟨s, rfl, -, -, hs⟩
  · exact ⟨[], rfl⟩
  · refine ⟨[(c!"identifier", s)], ?_⟩
    have : s.all isXmlChar = true := by
      rw [List.all_eq_true]
      intro c hc
      have h1 : (32 : Nat) ≤ c.toNat := (hs c hc).1
      have h2 : c.toNat ≤ 126 := (hs c hc).2
      simp only [isXmlChar, Bool.or_eq_true, Bool.and_eq_true, decide_eq_true_eq]
      exact .inr ⟨⟨h1, by omega⟩, by omega⟩
    simp [optional, attrTexts, attrText, this]

/-- An identifier argument that can be hashed is accepted if it is `None` or legal, or else `GlifLibError` is raised. -/
theorem penIdentifier_cases (ids : List Str) {v : PyVal} (hv : hashable v = true) :
    penIdentifier 2 true ids v = .error .glifLibError ∨
      ∃ ids', penIdentifier 2 true ids v = .ok (optional c!"identifier" v, ids') ∧ (v = .none ∨ ∃ s, v = .str s ∧ LegalIdentifier s) := by
  cases hr : penIdentifier 2 true ids v with
  | error x =>
    left
    unfold penIdentifier at hr
    split at hr
    · cases hr
    split at hr
    · next he =>
      cases v <;> simp only [addIdentifier] at he
      case none => cases he
      case str =>
        split at he
        · cases he; cases hr; rfl
        · cases he
      all_goals
        rw [hv] at he
        cases he
    · split at hr
      · cases hr; rfl
      · cases hr
  | ok r =>
    obtain ⟨attrs, ids'⟩ := r
    obtain ⟨-, h2, h3, h4⟩ := penIdentifier_ok hr
    refine .inr ⟨ids', by rw [h3], ?_⟩
    rcases h4 with rfl | ⟨i, rfl⟩
    · exact .inl rfl
    · exact .inr ⟨i, rfl, (h2 i (by simp [argument])).2⟩

/-- Two pens that differ in identifiers only. -/
structure Sim (s s' : Pen) : Prop where
  contour : s'.contour = s.contour
  children : s'.children.length = s.children.length
  count : s'.prevOffCurveCount = s.prevOffCurveCount
  types : s'.prevPointTypes = s.prevPointTypes

/-- The outcome of a call whose bare version succeeds. -/
def Follows (s1 : Pen) (r : Pen × Option Exc) : Prop := r.2 = some .glifLibError ∨ r.2 = none ∧ Sim s1 r.1

theorem placePoint_sim {E : Env} {s s' s1 : Pen} {attrs : List (Str × PyVal)} {v : PyVal} (hs : Sim s s') (hv : hashable v = true)
    (h : s.placePoint E 2 true attrs .none = (s1, none)) : Follows s1 (s'.placePoint E 2 true attrs v) := by
  unfold Pen.placePoint at h ⊢
  rw [show penIdentifier 2 true s.identifiers PyVal.none = .ok ([], s.identifiers) from rfl] at h
  simp only [List.append_nil] at h
  split at h
  · cases h
  · cases h
  next e i he hi =>
  cases h
  rcases penIdentifier_cases s'.identifiers hv with hp | ⟨ids', hp, hl⟩
  · rw [hp]; exact .inl rfl
  · obtain ⟨a, ha⟩ := attrTexts_legal E hl
    obtain ⟨e', he'⟩ := newElement_append he ha
    simp only [hp, he', hs.contour, hi]
    exact .inr ⟨rfl, rfl, by simp [hs.children], hs.count, hs.types⟩

theorem step_sim {E : Env} {s s' s1 : Pen} {c : Call} (hs : Sim s s') (hv : hashable (callArgument c) = true) (h : s.step E 2 true (bareCall c) = (s1, none)) :
    Follows s1 (s'.step E 2 true c) := by
  cases c with
  | endPath =>
    simp only [Pen.step, bareCall, Pen.endPath] at h ⊢
    rw [hs.types, hs.contour]
    split at h
    · cases h
    next hn =>
    rw [if_neg hn]
    split at h
    · cases h
    · cases h
      exact .inr ⟨rfl, rfl, by simp [hs.children], rfl, rfl⟩
  | beginPath v =>
    simp only [Pen.step, bareCall, Pen.beginPath] at h ⊢
    rw [show penIdentifier 2 true s.identifiers PyVal.none = .ok ([], s.identifiers) from rfl] at h
    simp only at h
    split at h
    · cases h
    next e he =>
    cases h
    rcases penIdentifier_cases s'.identifiers hv with hp | ⟨ids', hp, hl⟩
    · simp only [callArgument] at hp
      rw [hp]; exact .inl rfl
    · simp only [callArgument] at hp hl
      obtain ⟨a, ha⟩ := attrTexts_legal E hl
      obtain ⟨e', he'⟩ := newElement_append he ha
      rw [List.nil_append] at he'
      simp only [hp, he']
      exact .inr ⟨rfl, by simp [hs.children], by simp [hs.children], rfl, hs.types⟩
  | addComponent g t v =>
    simp only [Pen.step, bareCall, Pen.addComponent] at h ⊢
    split at h
    · cases h
    next values hvs =>
    rw [show penIdentifier 2 true s.identifiers PyVal.none = .ok ([], s.identifiers) from rfl] at h
    split at h
    · cases h
    next attrs hattrs =>
    simp only [List.append_nil] at h
    split at h
    · cases h
    next e he =>
    cases h
    rcases penIdentifier_cases s'.identifiers hv with hp | ⟨ids', hp, hl⟩
    · simp only [callArgument] at hp
      simp only [hp]; exact .inl rfl
    · simp only [callArgument] at hp hl
      obtain ⟨a, ha⟩ := attrTexts_legal E hl
      obtain ⟨e', he'⟩ := newElement_append he ha
      simp only [hp, List.cons_append]
      rw [List.cons_append] at he'
      rw [he']
      exact .inr ⟨rfl, hs.contour, by simp [hs.children], hs.count, hs.types⟩
  | addPoint pt t smooth name v =>
    simp only [Pen.step, bareCall, Pen.addPoint] at h ⊢
    split at h
    · cases h
    next coords hc =>
    have hta : ∀ t, typeAllowed s' t = typeAllowed s t := fun t => by simp only [typeAllowed, hs.types, hs.count]
    simp only [hta]
    generalize (if t = .str c!"offcurve" then PyVal.none else t) = t' at h ⊢
    split at h
    · cases h
    next h1 =>
    rw [if_neg h1]
    split at h
    · cases h
    next h2 =>
    rw [if_neg h2]
    refine placePoint_sim ?_ hv h
    refine ⟨hs.contour, hs.children, ?_, ?_⟩
    · simp only [hs.count]
    · simp only [hs.types]

theorem draw_sim {E : Env} {cs : List Call} : ∀ {s s' s1 : Pen}, Sim s s' → (∀ c ∈ cs, hashable (callArgument c) = true) → s.draw E 2 true (cs.map bareCall) = .ok s1 →
    s'.draw E 2 true cs = .error .glifLibError ∨ ∃ s1', s'.draw E 2 true cs = .ok s1' := by
  induction cs with
  | nil => intro s s' s1 _ _ _; exact .inr ⟨s', rfl⟩
  | cons c cs ih =>
    intro s s' s1 hs hv h
    rw [List.forall_mem_cons] at hv
    rw [List.map_cons, Pen.draw] at h
    rw [Pen.draw]
    split at h
    · cases h
    next s2 h2 =>
    rcases step_sim hs hv.1 h2 with h3 | ⟨h3, h4⟩
    · rcases hr : s'.step E 2 true c with ⟨s2', r⟩
      rw [hr] at h3
      simp only at h3
      subst h3
      exact .inl rfl
    · rcases hr : s'.step E 2 true c with ⟨s2', r⟩
      rw [hr] at h3 h4
      simp only at h3 h4
      subst h3
      exact ih h4 hv.2 h

/-! ### Guidelines and anchors -/

theorem get_bare (d : List (PyVal × PyVal)) (k : Str) : get (d.filter fun p => decide (p.1 ≠ .str c!"identifier")) k = if k = c!"identifier" then none else get d k := by
  induction d with
  | nil => simp [Validators.get, Dict.get?]
  | cons p d ih =>
    rw [List.filter_cons]
    unfold Validators.get at ih ⊢
    rw [Dict.get?_cons]
    split
    · next hp =>
      simp only [decide_eq_true_eq] at hp
      rw [Dict.get?_cons, ih]
      split
      · next he =>
        rw [if_neg]
        rintro rfl
        exact hp he
      · rfl
    · next hp =>
      simp only [decide_eq_true_eq, not_not] at hp
      rw [ih, hp]
      by_cases hk : k = c!"identifier"
      · simp [hk]
      · rw [if_neg hk, if_neg hk, if_neg]
        intro h
        cases h
        exact hk rfl

theorem truthy_bareList (v : PyVal) : truthy (bareList v) = truthy v := by
  cases v <;> simp [bareList, truthy]

/-- The attributes of an entry are those of the bare one and the identifier. -/
def Extends (attrs : List (PyVal × PyVal) → Except Exc (List (Str × PyVal))) : Prop :=
  ∀ d a, attrs (d.filter fun p => decide (p.1 ≠ .str c!"identifier")) = .ok a → attrs d = .ok (a ++ optional c!"identifier" ((get d c!"identifier").getD .none))

theorem guidelineAttrs_extends (E : Env) : Extends fun d => .ok (guidelineAttrs E d) := by
  intro d a h
  cases h
  simp only [guidelineAttrs, get_bare]
  simp [optional, List.append_assoc]

theorem anchorAttrs_extends (E : Env) : Extends (anchorAttrs E) := by
  intro d a h
  simp only [anchorAttrs, get_bare] at h ⊢
  simp only [show ¬ c!"x" = c!"identifier" by decide, show ¬ c!"y" = c!"identifier" by decide, if_false] at h
  split at h
  · next hx hy =>
    cases h
    simp [optional, List.append_assoc]
  · cases h

theorem entryElements_sim {E : Env} {tag : Str} {attrs : List (PyVal × PyVal) → Except Exc (List (Str × PyVal))} (hx : Extends attrs) {l : List PyVal} :
    ∀ {ids0 ids ids1 : List Str} {es : List Elem}, (∀ d, .dict d ∈ l → ∀ v, getVal d c!"identifier" = some v → ∃ s, v = .str s ∧ LegalIdentifier s) →
      entryElements E true tag attrs ids0 (l.map bareEntry) = .ok (es, ids1) →
      entryElements E true tag attrs ids l = .error .glifLibError ∨ ∃ r, entryElements E true tag attrs ids l = .ok r := by
  induction l with
  | nil => intro ids0 ids ids1 es _ _; exact .inr ⟨_, rfl⟩
  | cons v l ih =>
    intro ids0 ids ids1 es hleg h
    cases v <;> try (cases h)
    case dict d =>
      rw [List.map_cons, bareEntry] at h
      unfold entryElements at h ⊢
      split at h
      · cases h
      next a ha =>
      rw [hx d a ha]
      have hg : get (d.filter fun p => decide (p.1 ≠ .str c!"identifier")) c!"identifier" = none := by rw [get_bare]; simp
      simp only [hg, Option.getD_none, addIdentifier] at h
      have hl : (get d c!"identifier").getD .none = .none ∨ ∃ s, (get d c!"identifier").getD .none = .str s ∧ LegalIdentifier s := by
        rcases hgv : getVal d c!"identifier" with _ | v
        · left
          unfold getVal at hgv
          split at hgv
          · next hg => rw [hg]; rfl
          · rw [hgv]; rfl
        · right
          obtain ⟨s, rfl, hs⟩ := hleg d List.mem_cons_self v hgv
          exact ⟨s, by rw [(getVal_eq_some.1 hgv).1]; rfl, hs⟩
      split at h
      · cases h
      next e he =>
      split at h
      · cases h
      next l1 ids2 hrest =>
      obtain ⟨a', ha'⟩ := attrTexts_legal E hl
      obtain ⟨e', he'⟩ := newElement_append he ha'
      have hadd : addIdentifier true ids ((get d c!"identifier").getD .none) = .error .glifLibError ∨ ∃ ids', addIdentifier true ids ((get d c!"identifier").getD .none) = .ok ids' := by
        rcases hl with hl | ⟨s, hl, -⟩
        · rw [hl]; exact .inr ⟨_, rfl⟩
        · rw [hl, addIdentifier]
          split
          · exact .inl rfl
          · exact .inr ⟨_, rfl⟩
      rcases hadd with hadd | ⟨ids', hadd⟩
      · rw [hadd]; exact .inl rfl
      · simp only [hadd, he']
        rcases ih (ids := ids') (fun d hd => hleg d (List.mem_cons_of_mem _ hd)) hrest with h3 | ⟨r, h3⟩
        · rw [h3]; exact .inl rfl
        · rw [h3]; exact .inr ⟨_, rfl⟩

theorem writeGuidelines_sim {E : Env} {ids0 ids : List Str} {v : PyVal} {r : List Elem × List Str} (h : writeGuidelines E true ids0 (bareList v) = .ok r) :
    writeGuidelines E true ids v = .error .glifLibError ∨ ∃ r, writeGuidelines E true ids v = .ok r := by
  unfold writeGuidelines at h ⊢
  split at h
  · cases h
  clear * - h
  split
  · exact .inl rfl
  next hv =>
  cases v <;> simp only [guidelinesValidator, Bool.true_and, Bool.not_false, not_true_eq_false, iter, bareList] at hv h ⊢
  next l =>
  rcases hr : entriesValidator (guidelineValidator E.F) [] l with ⟨b, out⟩
  rw [hr] at hv
  simp only [Bool.not_eq_true', Bool.not_eq_false] at hv
  subst hv
  have hall := entriesValidator_all hr
  exact entryElements_sim (guidelineAttrs_extends E) (fun d hd v hv => identifierColorOk_legal (guidelineValidator_tagged (hall _ hd).1) v hv) h

theorem writeAnchors_sim {E : Env} {ids0 ids : List Str} {v : PyVal} {r : List Elem × List Str} (h : writeAnchors E true ids0 (bareList v) = .ok r) :
    writeAnchors E true ids v = .error .glifLibError ∨ ∃ r, writeAnchors E true ids v = .ok r := by
  unfold writeAnchors at h ⊢
  split at h
  · cases h
  clear * - h
  split
  · exact .inl rfl
  next hv =>
  cases v <;> simp only [anchorsValidator, Bool.true_and, Bool.not_false, not_true_eq_false, iter, bareList] at hv h ⊢
  next l =>
  rcases hr : entriesValidator (anchorValidator E.F) [] l with ⟨b, out⟩
  rw [hr] at hv
  simp only [Bool.not_eq_true', Bool.not_eq_false] at hv
  subst hv
  have hall := entriesValidator_all hr
  exact entryElements_sim (anchorAttrs_extends E) (fun d hd v hv => identifierColorOk_legal (anchorValidator_tagged (hall _ hd).1) v hv) h

theorem bareObj_attr (o : Obj) (k : Str) : (bareObj o).attr k = if k = c!"guidelines" ∨ k = c!"anchors" then bareList (o.attr k) else o.attr k := by
  unfold Obj.attr bareObj
  split
  · cases o k <;> rfl
  · rfl

theorem bareObj_other (o : Obj) {k : Str} (h : ¬ (k = c!"guidelines" ∨ k = c!"anchors")) : (bareObj o).attr k = o.attr k := by rw [bareObj_attr, if_neg h]

theorem writeHead_sim {E : Env} {o : Obj} {r : List Elem × List Str} (h : writeHead E true 2 (bareObj o) = .ok r) :
    writeHead E true 2 o = .error .glifLibError ∨ ∃ r, writeHead E true 2 o = .ok r := by
  obtain ⟨head, ids⟩ := r
  obtain ⟨⟨advance, unicodes, note, image, guidelines, ids1, anchors, hadvance, hU, hnote, himage, hG, hA, -⟩⟩ := writeHead_parts h
  have h1 : writeAdvance E true (bareObj o) = writeAdvance E true o := by
    unfold writeAdvance
    rw [bareObj_other o (by decide), bareObj_other o (by decide)]
  rw [h1] at hadvance
  rw [bareObj_other o (by decide)] at hU hnote himage
  have eg : (bareObj o).attr c!"guidelines" = bareList (o.attr c!"guidelines") := by rw [bareObj_attr, if_pos (.inl rfl)]
  have ea : (bareObj o).attr c!"anchors" = bareList (o.attr c!"anchors") := by rw [bareObj_attr, if_pos (.inr rfl)]
  rw [eg, truthy_bareList] at hG
  rw [ea, truthy_bareList] at hA
  have hG' : (if truthy (o.attr c!"guidelines") then writeGuidelines E true [] (o.attr c!"guidelines") else .ok ([], [])) = .error .glifLibError ∨
      ∃ r, (if truthy (o.attr c!"guidelines") then writeGuidelines E true [] (o.attr c!"guidelines") else .ok ([], [])) = .ok r := by
    split at hG
    · next ht => rw [if_pos ht]; exact writeGuidelines_sim hG
    · next ht => rw [if_neg ht]; exact .inr ⟨_, rfl⟩
  have hA' : ∀ ids, (if truthy (o.attr c!"anchors") then writeAnchors E true ids (o.attr c!"anchors") else .ok ([], ids)) = .error .glifLibError ∨
      ∃ r, (if truthy (o.attr c!"anchors") then writeAnchors E true ids (o.attr c!"anchors") else .ok ([], ids)) = .ok r := by
    intro ids
    split at hA
    · next ht => rw [if_pos ht]; exact writeAnchors_sim hA
    · next ht => rw [if_neg ht]; exact .inr ⟨_, rfl⟩
  unfold writeHead
  simp only [hadvance, hU, hnote, himage, show decide (2 ≤ 2) = true from rfl, Bool.true_and]
  rcases hG' with hg | ⟨⟨g, ids2⟩, hg⟩
  · rw [hg]; exact .inl rfl
  rw [hg]
  rcases hA' ids2 with ha | ⟨⟨a, ids3⟩, ha⟩
  · simp [ha]
  · simp only [ha]; exact .inr ⟨_, rfl⟩

/-- If the glyph without identifiers can be written, the only exception identifiers lead to is `GlifLibError`. -/
theorem writeGlyphTree_sim {E : Env} {name : PyVal} {o : Obj} {calls : List Call} {t : Elem}
    (h : writeGlyphTree E true 2 name (bareObj o) (some (calls.map bareCall)) = .ok t) (hv : ∀ c ∈ calls, hashable (callArgument c) = true) :
    writeGlyphTree E true 2 name o (some calls) = .error .glifLibError ∨ ∃ t, writeGlyphTree E true 2 name o (some calls) = .ok t := by
  obtain ⟨⟨attrs, head, ids, outline, lib, hname, hattrs, hhead, ho, hlib, htree⟩⟩ := writeGlyphTree_parts h
  rw [bareObj_other o (by decide)] at hlib
  have hn := hname rfl
  unfold writeGlyphTree
  rw [if_neg (by simp [hn.1, hn.2]), hattrs]
  simp only
  rcases writeHead_sim hhead with hh | ⟨⟨head', ids'⟩, hh⟩
  · rw [hh]; exact .inl rfl
  simp only [hh]
  have hd : drawn E true 2 ids' (o.attr c!"anchors") (some calls) = .error .glifLibError ∨ ∃ l, drawn E true 2 ids' (o.attr c!"anchors") (some calls) = .ok l := by
    rw [drawn, writeOutline] at ho ⊢
    simp only [show ¬ ((2 : Nat) = 1) by decide, false_and, if_false] at ho ⊢
    cases hdr : (Pen.new ids).draw E 2 true (calls.map bareCall) with
    | error x => rw [hdr] at ho; cases ho
    | ok s =>
      rcases draw_sim (s := Pen.new ids) (s' := Pen.new ids') ⟨rfl, rfl, rfl, rfl⟩ hv hdr with h1 | ⟨s', h1⟩
      · rw [h1]; exact .inl rfl
      · rw [h1]; exact .inr ⟨_, rfl⟩
  rcases hd with hd | ⟨l, hd⟩
  · rw [hd]; exact .inl rfl
  · rw [hd]
    simp only [hlib]
    exact .inr ⟨_, rfl⟩

end Verif.Glif
