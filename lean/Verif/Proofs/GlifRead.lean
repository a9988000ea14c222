import Verif.Proofs.GlifContour
import Mathlib.Data.List.Nodup
/-! Reading glyphs: identifiers and drawings. -/
namespace Verif.Glif
open Verif Verif.Validators Verif.Spec.Validators Verif.Spec.Glif

/-- Identifiers are added to a set of legal, different ones. -/
structure Adds (ids ids' new : List Str) : Prop where
  eq : ids' = ids ++ new
  nodup : ids.Nodup → ids'.Nodup
  legal : ∀ i ∈ new, LegalIdentifier i

theorem Adds.nil (ids : List Str) : Adds ids ids [] := ⟨by simp, id, by simp⟩

theorem Adds.trans {a b c x y : List Str} (h : Adds a b x) (h' : Adds b c y) : Adds a c (x ++ y) :=
  ⟨by rw [h'.eq, h.eq, List.append_assoc], fun hn => h'.nodup (h.nodup hn), fun i hi => (List.mem_append.1 hi).elim (h.legal i) (h'.legal i)⟩

theorem readIdentifier_ok {ids ids' : List Str} {v : Option Str} (h : readIdentifier true ids v = .ok ids') : Adds ids ids' (argument (orNone v)) := by
  cases v with
  | none => cases h; exact .nil _
  | some i =>
    simp only [readIdentifier, Bool.true_and] at h
    split at h
    · cases h
    next hn =>
    cases h
    simp only [Bool.or_eq_true, decide_eq_true_eq, Bool.not_eq_true', not_or, Bool.not_eq_false] at hn
    refine ⟨rfl, fun hd => ?_, ?_⟩
    · exact List.Nodup.append hd (by simp) (by simpa using hn.1)
    · simp only [orNone, argument, List.mem_singleton, forall_eq]
      obtain ⟨s, hs, hl⟩ := identifier_iff.1 hn.2
      cases hs
      exact hl

/-- The point that a massaged point is delivered as. -/
def pointOf (p : MPoint) : Pt := ⟨.tuple [p.x, p.y], orNone p.seg, .bool p.smooth, orNone p.name, orNone p.identifier⟩

theorem readPoints2_ok {ps : List MPoint} : ∀ {ids ids' : List Str} {cs : List Call}, readPoints2 true ids ps = .ok (cs, ids') →
    cs = ps.map (fun p => (pointOf p).call) ∧ Adds ids ids' (cs.flatMap callIdentifier) := by
  induction ps with
  | nil => intro ids ids' cs h; cases h; exact ⟨rfl, .nil _⟩
  | cons p ps ih =>
    intro ids ids' cs h
    unfold readPoints2 at h
    split at h
    · cases h
    next ids1 h1 =>
    split at h
    · cases h
    next cs' ids2 h2 =>
    cases h
    obtain ⟨h3, h4⟩ := ih h2
    exact ⟨by rw [h3]; rfl, (readIdentifier_ok h1).trans h4⟩

theorem goodItem_of_massage {E : Env} {fv : Nat} {es : List Elem} {l : List MPoint} (h : massage E true fv es = .ok l) (f : MPoint → Pt)
    (hf : ∀ p, (f p).segmentType = orNone p.seg ∧ (f p).smooth = .bool p.smooth) (i : PyVal) : GoodItem (.contour i (l.map f)) := by
  obtain ⟨h1, h2⟩ := massage_ok h
  have he : (l.map f).map (fun p => fileType p.segmentType) = l.map MPoint.seg := by
    rw [List.map_map]
    apply List.map_congr_left
    intro p hp
    rw [Function.comp, (hf p).1]
    have := (h2 p hp).2
    rcases hs : p.seg with _ | t
    · rfl
    · rw [hs] at this
      rw [orNone, fileType, if_neg (by rintro rfl; exact this rfl)]
  refine ⟨by rw [he]; exact h1, ?_⟩
  intro q hq
  obtain ⟨p, hp, rfl⟩ := List.mem_map.1 hq
  rw [(hf p).1, (hf p).2]
  rcases hs : p.seg with _ | t
  · exact .inl ⟨rfl, by rw [(h2 p hp).1 hs]⟩
  · refine .inr ⟨t, p.smooth, rfl, ?_, rfl⟩
    rintro rfl
    exact (h2 p hp).2 hs

/-- The calls are a well-nested sequence of good parts. -/
def GoodCalls (cs : List Call) : Prop := ∃ d, cs = drawing d ∧ ∀ it ∈ d, GoodItem it

theorem GoodCalls.nil : GoodCalls [] := ⟨[], rfl, by simp⟩

theorem GoodCalls.append {a b : List Call} (h : GoodCalls a) (h' : GoodCalls b) : GoodCalls (a ++ b) := by
  obtain ⟨d, rfl, hd⟩ := h
  obtain ⟨d', rfl, hd'⟩ := h'
  refine ⟨d ++ d', by simp [drawing], fun it hit => ?_⟩
  rcases List.mem_append.1 hit with hit | hit
  · exact hd it hit
  · exact hd' it hit

theorem readContour2_ok {E : Env} {ids ids' : List Str} {e : Elem} {cs : List Call} (h : readContour2 E true ids e = .ok (cs, ids')) :
    GoodCalls cs ∧ Adds ids ids' (cs.flatMap callIdentifier) := by
  unfold readContour2 at h
  split at h
  · cases h
  split at h
  · cases h
  next ids1 h1 =>
  split at h
  · cases h
  next ps hps =>
  split at h
  · cases h
  next cs' ids2 h2 =>
  cases h
  obtain ⟨h3, h4⟩ := readPoints2_ok h2
  constructor
  · refine ⟨[.contour (orNone (Dict.get? e.attrib c!"identifier")) (ps.map pointOf)], ?_, ?_⟩
    · rw [h3]; simp [drawing, Item.calls]
    · intro it hit
      rw [List.mem_singleton] at hit
      subst hit
      exact goodItem_of_massage hps pointOf (fun _ => ⟨rfl, rfl⟩) _
  · have := (readIdentifier_ok h1).trans h4
    simpa [callIdentifier] using this

theorem readComponent_ok {E : Env} {fv : Nat} {ids ids' : List Str} {e : Elem} {cs : List Call} (h : readComponent E true fv ids e = .ok (cs, ids')) :
    GoodCalls cs ∧ Adds ids ids' (cs.flatMap callIdentifier) := by
  unfold readComponent at h
  split at h
  · cases h
  split at h
  · cases h
  split at h
  · cases h
  split at h
  · cases h
  next t ht =>
  split at h
  · cases h
    exact ⟨⟨[.component _ _ _], rfl, by simp [GoodItem]⟩, .nil _⟩
  split at h
  · cases h
  next ids1 h1 =>
  cases h
  refine ⟨⟨[.component _ _ _], rfl, by simp [GoodItem]⟩, ?_⟩
  simpa [callIdentifier] using readIdentifier_ok h1

theorem readOutline2_ok {E : Env} {es : List Elem} : ∀ {ids ids' : List Str} {cs : List Call}, readOutline2 E true ids es = .ok (cs, ids') →
    GoodCalls cs ∧ Adds ids ids' (cs.flatMap callIdentifier) := by
  induction es with
  | nil => intro ids ids' cs h; cases h; exact ⟨.nil, .nil _⟩
  | cons e es ih =>
    intro ids ids' cs h
    unfold readOutline2 at h
    split at h
    · cases h
    next cs1 ids1 h1 =>
    split at h
    · cases h
    next cs2 ids2 h2 =>
    cases h
    obtain ⟨h3, h4⟩ := ih h2
    have hg : GoodCalls cs1 ∧ Adds ids ids1 (cs1.flatMap callIdentifier) := by
      split at h1
      · exact readContour2_ok h1
      split at h1
      · exact readComponent_ok h1
      · cases h1
    exact ⟨hg.1.append h3, by rw [List.flatMap_append]; exact hg.2.trans h4⟩

theorem readContour1_ok {E : Env} {e : Elem} {cs : List Call} (h : readContour1 E true e = .ok cs) : GoodCalls cs := by
  unfold readContour1 at h
  split at h
  · cases h
  split at h
  · cases h
  next ps hps =>
  cases h
  refine ⟨[.contour .none (ps.map fun p => ⟨.tuple [p.x, p.y], orNone p.seg, .bool p.smooth, orNone p.name, .none⟩)], ?_, ?_⟩
  · simp [drawing, Item.calls, Pt.call]
  · intro it hit
    rw [List.mem_singleton] at hit
    subst hit
    exact goodItem_of_massage hps _ (fun _ => ⟨rfl, rfl⟩) _

theorem readOutline1_ok {E : Env} {hasPen : Bool} {es : List Elem} : ∀ {as : List PyVal} {cs : List Call}, readOutline1 E true hasPen es = .ok (as, cs) → GoodCalls cs := by
  induction es with
  | nil => intro as cs h; cases h; exact .nil
  | cons e es ih =>
    intro as cs h
    unfold readOutline1 at h
    split at h
    · cases h
    next as1 cs1 h1 =>
    split at h
    · cases h
    next as2 cs2 h2 =>
    cases h
    refine GoodCalls.append ?_ (ih h2)
    unfold readItem1 at h1
    split at h1
    · split at h1
      · cases h1
      · cases h1; exact .nil
      · split at h1
        · cases hc : readContour1 E true e with
          | error x => rw [hc] at h1; cases h1
          | ok cs => rw [hc] at h1; cases h1; exact readContour1_ok hc
        · cases h1; exact .nil
    · split at h1
      · split at h1
        · cases hc : readComponent E true 1 [] e with
          | error x => rw [hc] at h1; cases h1
          | ok r => rw [hc] at h1; cases h1; exact (readComponent_ok hc).1
        · cases h1; exact .nil
      · cases h1

/-! ### The whole glyph -/

theorem once_ok {s s' : Collected} {b : Bool} {tag : Str} (h : s.once b tag = .ok s') : s' = { s with seen := s.seen ++ [tag] } := by
  unfold Collected.once at h
  split at h
  · cases h
  · cases h; rfl

/-- An element other than guidelines and anchors leaves their lists alone; an element other than the outline leaves the calls alone. -/
structure Kept (s s' : Collected) : Prop where
  calls : s'.calls = s.calls
  identifiers : s'.identifiers = s.identifiers
  guidelines : s'.guidelines = s.guidelines
  anchors : s'.anchors = s.anchors
  attrs : ∀ k, k = c!"guidelines" ∨ k = c!"anchors" → Dict.get? s'.attrs k = Dict.get? s.attrs k

theorem setAttr_kept {s s' : Collected} {k : Str} {v : PyVal} (h : Kept s s') (hk : ¬ (k = c!"guidelines" ∨ k = c!"anchors")) : Kept s (s'.setAttr k v) :=
  ⟨h.calls, h.identifiers, h.guidelines, h.anchors, fun k' hk' => by
    rw [Collected.setAttr]
    simp only
    rw [Dict.get?_set_ne (k := k) _ _ (by rintro rfl; exact hk hk'), h.attrs k' hk']⟩

theorem kept_once {s s' : Collected} {b : Bool} {tag : Str} (h : s.once b tag = .ok s') : Kept s s' := by
  rw [once_ok h]; exact ⟨rfl, rfl, rfl, rfl, fun _ _ => rfl⟩

theorem advance_kept {E : Env} {b : Bool} {s s' : Collected} {e : Elem} (h : s.advance E b e = .ok s') : Kept s s' := by
  unfold Collected.advance at h
  split at h
  · cases h
  next h1 =>
  split at h
  · cases h
  cases h
  exact setAttr_kept (setAttr_kept (kept_once h1) (by decide)) (by decide)

theorem unicode_kept {s s' : Collected} {e : Elem} (h : s.unicode e = .ok s') : Kept s s' := by
  unfold Collected.unicode at h
  split at h
  · cases h
  cases h
  split
  · exact ⟨rfl, rfl, rfl, rfl, fun _ _ => rfl⟩
  · exact ⟨rfl, rfl, rfl, rfl, fun _ _ => rfl⟩

theorem note_kept {b : Bool} {s s' : Collected} {e : Elem} (h : s.note b e = .ok s') : Kept s s' := by
  unfold Collected.note at h
  split at h
  · cases h
  next h1 =>
  split at h
  · cases h
  cases h
  exact setAttr_kept (kept_once h1) (by decide)

theorem lib_kept {E : Env} {b : Bool} {s s' : Collected} {e : Elem} (h : s.lib E b e = .ok s') : Kept s s' := by
  unfold Collected.lib at h
  split at h
  · cases h
  next h1 =>
  split at h
  · cases h
  cases h
  exact setAttr_kept (kept_once h1) (by decide)

theorem image_kept {E : Env} {b : Bool} {s s' : Collected} {e : Elem} (h : s.image E b e = .ok s') : Kept s s' := by
  unfold Collected.image at h
  split at h
  · cases h
  next h1 =>
  split at h
  · cases h
  split at h
  · cases h
  cases h
  exact setAttr_kept (kept_once h1) (by decide)

/-- What one element does to the calls and the lists, in format 2. -/
inductive Effect (E : Env) (hasObj hasPen : Bool) (s s' : Collected) (e : Elem) : Prop
  | kept (h : Kept s s')
  | outline (cs : List Call) (hcs : GoodCalls cs) (hcalls : s'.calls = s.calls ++ cs) (hids : Adds s.identifiers s'.identifiers (cs.flatMap callIdentifier))
      (hg : s'.guidelines = s.guidelines) (ha : s'.anchors = s.anchors) (hattrs : s'.attrs = s.attrs)
  | guideline (d : List (PyVal × PyVal)) (hd : readEntry E.F [c!"x", c!"y", c!"angle"] e.attrib = .ok d) (hs : s' = { s with guidelines := s.guidelines ++ [.dict d] })
  | anchor (d : List (PyVal × PyVal)) (hd : readEntry E.F [c!"x", c!"y"] e.attrib = .ok d) (hs : s' = { s with anchors := s.anchors ++ [.dict d] })

theorem readChild_effect {E : Env} {hasObj hasPen : Bool} {s s' : Collected} {e : Elem} (h : readChild E true hasObj hasPen 2 s e = .ok s') : Effect E hasObj hasPen s s' e := by
  unfold readChild at h
  split at h
  · unfold Collected.outline at h
    split at h
    · cases h
    next s1 h1 =>
    split at h
    · cases h
    rw [if_neg (by decide)] at h
    unfold Collected.outline2 at h
    have hk := kept_once h1
    have h1' := once_ok h1
    split at h
    · split at h
      · cases h
      next cs ids hr =>
      cases h
      obtain ⟨g1, g2⟩ := readOutline2_ok hr
      subst h1'
      exact .outline cs g1 rfl g2 rfl rfl rfl
    · cases h
      exact .kept hk
  split at h
  · cases h; exact .kept ⟨rfl, rfl, rfl, rfl, fun _ _ => rfl⟩
  split at h
  · exact .kept (advance_kept h)
  split at h
  · exact .kept (unicode_kept h)
  split at h
  · exact .kept (note_kept h)
  split at h
  · exact .kept (lib_kept h)
  split at h
  · unfold Collected.guideline at h
    split at h
    · cases h
    split at h
    · cases h
    next d hd =>
    cases h
    exact .guideline d hd rfl
  split at h
  · unfold Collected.anchor at h
    split at h
    · cases h
    split at h
    · cases h
    next d hd =>
    cases h
    exact .anchor d hd rfl
  split at h
  · exact .kept (image_kept h)
  · cases h

theorem readEntry_keys {F : FloatCodec} {numbers : List Str} {a : Dict Str Str} {d : List (PyVal × PyVal)} (h : readEntry F numbers a = .ok d) :
    d.map Prod.fst = (Dict.keys a).map PyVal.str := by
  induction a generalizing d with
  | nil => cases h; rfl
  | cons p a ih =>
    obtain ⟨k, s⟩ := p
    unfold readEntry at h
    split at h
    · cases h
    split at h
    · cases h
    next d' hd' =>
    cases h
    rw [List.map_cons, ih hd']
    rfl

theorem readEntry_dictKeys {F : FloatCodec} {numbers : List Str} {a : Dict Str Str} {d : List (PyVal × PyVal)} (h : readEntry F numbers a = .ok d) (ha : (Dict.keys a).Nodup) :
    DictKeys (.dict d) := by
  rintro d' hd'
  cases hd'
  rw [readEntry_keys h]
  exact ha.map fun x y hxy => by cases hxy; rfl

/-- The invariant of the loop over the elements, format 2. -/
structure Inv (s : Collected) : Prop where
  calls : GoodCalls s.calls
  identifiers : s.identifiers = s.calls.flatMap callIdentifier
  nodup : s.identifiers.Nodup
  legal : ∀ i ∈ s.identifiers, LegalIdentifier i
  guidelines : ∀ e ∈ s.guidelines, DictKeys e
  anchors : ∀ e ∈ s.anchors, DictKeys e
  attrs : ∀ k, k = c!"guidelines" ∨ k = c!"anchors" → Dict.get? s.attrs k = none

theorem inv_effect {E : Env} {hasObj hasPen : Bool} {s s' : Collected} {e : Elem} (hi : Inv s) (h : Effect E hasObj hasPen s s' e) (he : (Dict.keys e.attrib).Nodup) : Inv s' := by
  cases h with
  | kept h =>
    exact ⟨by rw [h.calls]; exact hi.calls, by rw [h.identifiers, h.calls]; exact hi.identifiers, by rw [h.identifiers]; exact hi.nodup, by rw [h.identifiers]; exact hi.legal,
      by rw [h.guidelines]; exact hi.guidelines, by rw [h.anchors]; exact hi.anchors, fun k hk => by rw [h.attrs k hk]; exact hi.attrs k hk⟩
  | outline cs hcs hcalls hids hg ha hattrs =>
    refine ⟨by rw [hcalls]; exact hi.calls.append hcs, ?_, hids.nodup hi.nodup, ?_, by rw [hg]; exact hi.guidelines, by rw [ha]; exact hi.anchors, by rw [hattrs]; exact hi.attrs⟩
    · rw [hids.eq, hcalls, List.flatMap_append, hi.identifiers]
    · intro i him
      rw [hids.eq] at him
      exact (List.mem_append.1 him).elim (hi.legal i) (hids.legal i)
  | guideline d hd hs =>
    subst hs
    exact ⟨hi.calls, hi.identifiers, hi.nodup, hi.legal, fun x hx => (List.mem_append.1 hx).elim (hi.guidelines x) fun h => by
      rw [List.mem_singleton] at h; subst h; exact readEntry_dictKeys hd he, hi.anchors, hi.attrs⟩
  | anchor d hd hs =>
    subst hs
    exact ⟨hi.calls, hi.identifiers, hi.nodup, hi.legal, hi.guidelines, fun x hx => (List.mem_append.1 hx).elim (hi.anchors x) fun h => by
      rw [List.mem_singleton] at h; subst h; exact readEntry_dictKeys hd he, hi.attrs⟩

theorem readChildren_inv {E : Env} {hasObj hasPen : Bool} {es : List Elem} : ∀ {s s' : Collected}, Inv s → (∀ e ∈ es, (Dict.keys e.attrib).Nodup) →
    readChildren E true hasObj hasPen 2 s es = .ok s' → Inv s' := by
  induction es with
  | nil => intro s s' hi _ h; cases h; exact hi
  | cons e es ih =>
    intro s s' hi hn h
    rw [List.forall_mem_cons] at hn
    unfold readChildren at h
    split at h
    · cases h
    next s1 h1 =>
    exact ih (inv_effect hi (readChild_effect h1) hn.1) hn.2 h

theorem mem_identifiers {l : List PyVal} {i : Str} (h : i ∈ identifiers l) : ∃ d, .dict d ∈ l ∧ (PyVal.str c!"identifier", PyVal.str i) ∈ d := by
  induction l with
  | nil => simp [identifiers] at h
  | cons v l ih =>
    cases v with
    | dict d =>
      rw [identifiers, List.mem_append] at h
      rcases h with h | h
      · refine ⟨d, List.mem_cons_self, ?_⟩
        obtain ⟨⟨k, v⟩, hp, hk⟩ := List.mem_filterMap.1 h
        unfold itemIdentifier at hk
        split at hk
        · next k' s heq =>
          cases heq
          split at hk
          · next hk' => cases hk; subst hk'; exact hp
          · cases hk
        · cases hk
      · obtain ⟨d', h1, h2⟩ := ih h
        exact ⟨d', List.mem_cons_of_mem _ h1, h2⟩
    | _ =>
      obtain ⟨d', h1, h2⟩ := ih h
      exact ⟨d', List.mem_cons_of_mem _ h1, h2⟩

theorem entries_adds {check : PyVal → Bool} {P : List (PyVal × PyVal) → Prop} (hcheck : ∀ v, DictKeys v → (check v = true ↔ ∃ d, v = .dict d ∧ P d))
    (hid : ∀ d, P d → ∀ w, Field d c!"identifier" w → ∃ s, w = .str s ∧ LegalIdentifier s) {ids out : List Str} {l : List PyVal} (hl : ∀ e ∈ l, DictKeys e)
    (h : entriesValidator check ids l = (true, out)) : Adds ids out (identifiers l) := by
  obtain ⟨h1, h2, h3, h4⟩ := (entries_iff hcheck (fun d hd w hw => by obtain ⟨s, hs, -⟩ := hid d hd w hw; exact ⟨s, hs⟩) l hl ids out).1 h
  refine ⟨h4, fun hn => by rw [h4]; exact List.Nodup.append hn h2 fun i hi hi' => h3 i hi' hi, fun i hi => ?_⟩
  obtain ⟨d, hd, hm⟩ := mem_identifiers hi
  obtain ⟨d', hd', hP⟩ := h1 _ hd
  cases hd'
  obtain ⟨s, hs, hl⟩ := hid d hP _ ⟨hm, by simp⟩
  cases hs
  exact hl

/-- Setting a list of guidelines or anchors. -/
theorem setList_ok {s s' : Collected} {name : Str} {l : List PyVal} {verdict : Bool × List Str} (hn : Dict.get? s.attrs name = none)
    (hv : verdict.1 = true → Adds s.identifiers verdict.2 (identifiers l)) (h : s.setList true name l verdict = .ok s') :
    Adds s.identifiers s'.identifiers (identifiers (listItems (delivered s'.attrs name))) ∧ s'.calls = s.calls ∧ s'.guidelines = s.guidelines ∧ s'.anchors = s.anchors ∧
      ∀ k, k ≠ name → Dict.get? s'.attrs k = Dict.get? s.attrs k := by
  unfold Collected.setList at h
  split at h
  · next he =>
    cases h
    rw [delivered, hn]
    exact ⟨.nil _, rfl, rfl, rfl, fun _ _ => rfl⟩
  split at h
  · cases h
  next hb =>
  cases h
  simp only [Bool.true_and, Bool.not_eq_true', Bool.not_eq_false] at hb
  refine ⟨?_, rfl, rfl, rfl, fun k hk => ?_⟩
  · have : delivered (s.setAttr name (.list l)).attrs name = .list l := by rw [delivered, Collected.setAttr, Dict.get?_set_self]; rfl
    simp only [this, listItems]
    exact hv hb
  · rw [Collected.setAttr]
    exact Dict.get?_set_ne _ _ (Ne.symm hk)

theorem finish_ok {E : Env} {s s' : Collected} (hi : Inv s) (h : s.finish E true = .ok s') :
    s'.calls = s.calls ∧ Adds s.identifiers s'.identifiers (identifiers (listItems (delivered s'.attrs c!"guidelines")) ++ identifiers (listItems (delivered s'.attrs c!"anchors"))) := by
  unfold Collected.finish at h
  simp only at h
  obtain ⟨s1, hs1⟩ : ∃ s1, s1 = (if s.unicodes.isEmpty then s else s.setAttr c!"unicodes" (.list (s.unicodes.map fun i => .int i))) := ⟨_, rfl⟩
  have hk : Kept s s1 := by
    rw [hs1]
    split
    · exact ⟨rfl, rfl, rfl, rfl, fun _ _ => rfl⟩
    · exact setAttr_kept ⟨rfl, rfl, rfl, rfl, fun _ _ => rfl⟩ (by decide)
  rw [← hs1] at h
  split at h
  · cases h
  next s2 h2 =>
  obtain ⟨g1, g2, g3, g4, g5⟩ := setList_ok (by rw [hk.attrs _ (.inl rfl)]; exact hi.attrs _ (.inl rfl))
    (fun hv => entries_adds (fun v hv => guideline_iff hv) (fun d hd => hd.identifier) (by rw [hk.guidelines]; exact hi.guidelines)
      (show guidelinesValidator E.F s1.identifiers (.list s1.guidelines) = (true, _) from Prod.ext hv rfl)) h2
  obtain ⟨a1, a2, a3, a4, a5⟩ := setList_ok (by rw [g5 _ (by decide), hk.attrs _ (.inr rfl)]; exact hi.attrs _ (.inr rfl))
    (fun hv => entries_adds (fun v hv => anchor_iff hv) (fun d hd => hd.identifier) (by rw [g4, hk.anchors]; exact hi.anchors)
      (show anchorsValidator E.F s2.identifiers (.list s2.anchors) = (true, _) from Prod.ext hv rfl)) h
  refine ⟨by rw [a2, g2, hk.calls], ?_⟩
  have he : delivered s'.attrs c!"guidelines" = delivered s2.attrs c!"guidelines" := by rw [delivered, delivered, a5 _ (by decide)]
  rw [he, ← hk.identifiers]
  exact g1.trans a1

theorem readFormat2_ok {E : Env} {hasObj hasPen : Bool} {tree : Elem} {attrs : Dict Str PyVal} {calls : List Call} (ht : DistinctAttributes tree)
    (h : readFormat E true hasObj hasPen 2 tree = .ok (attrs, calls)) :
    GoodCalls calls ∧ (calls.flatMap callIdentifier ++ (identifiers (listItems (delivered attrs c!"guidelines")) ++ identifiers (listItems (delivered attrs c!"anchors")))).Nodup ∧
      ∀ i ∈ calls.flatMap callIdentifier ++ (identifiers (listItems (delivered attrs c!"guidelines")) ++ identifiers (listItems (delivered attrs c!"anchors"))), LegalIdentifier i := by
  unfold readFormat at h
  split at h
  · cases h
  next attrs0 h0 =>
  split at h
  · cases h
  next s hs =>
  split at h
  · cases h
  next s' hs' =>
  cases h
  have hi0 : Inv ⟨attrs0, [], [], [], [], [], []⟩ := by
    refine ⟨.nil, rfl, .nil, by simp, by simp, by simp, fun k hk => ?_⟩
    unfold readName at h0
    split at h0
    · cases h0
      split
      · rw [Dict.get?_cons, if_neg]
        · rfl
        · rintro rfl
          simp at hk
      · rfl
    · split at h0
      · cases h0
      · cases h0; rfl
  have hi := readChildren_inv hi0 ht hs
  obtain ⟨h1, h2⟩ := finish_ok hi hs'
  rw [h1]
  refine ⟨hi.calls, ?_, ?_⟩
  · rw [← hi.identifiers, ← h2.eq]
    exact h2.nodup hi.nodup
  · intro i him
    rw [← hi.identifiers] at him
    exact (List.mem_append.1 him).elim (hi.legal i) (h2.legal i)

/-- What one element does to the calls, in format 1. -/
theorem readChild1_calls {E : Env} {hasObj hasPen : Bool} {s s' : Collected} {e : Elem} (h : readChild E true hasObj hasPen 1 s e = .ok s') :
    ∃ cs, s'.calls = s.calls ++ cs ∧ GoodCalls cs := by
  have kept : ∀ {s'}, Kept s s' → ∃ cs, s'.calls = s.calls ++ cs ∧ GoodCalls cs := fun h => ⟨[], by rw [h.calls, List.append_nil], .nil⟩
  unfold readChild at h
  split at h
  · unfold Collected.outline at h
    split at h
    · cases h
    next s1 h1 =>
    split at h
    · cases h
    rw [if_pos rfl] at h
    have hk := kept_once h1
    unfold Collected.outline1 at h
    split at h
    · cases h
    next as cs hr =>
    refine ⟨cs, ?_, readOutline1_ok hr⟩
    simp only at h
    rw [← hk.calls]
    split at h
    · split at h
      · cases h
      · cases h; rfl
    · cases h; rfl
  split at h
  · cases h; exact ⟨[], by simp, .nil⟩
  split at h
  · exact kept (advance_kept h)
  split at h
  · exact kept (unicode_kept h)
  split at h
  · exact kept (note_kept h)
  split at h
  · exact kept (lib_kept h)
  simp only [ne_eq, not_true_eq_false, false_and, if_false] at h
  cases h

theorem readChildren1_calls {E : Env} {hasObj hasPen : Bool} {es : List Elem} : ∀ {s s' : Collected}, GoodCalls s.calls → readChildren E true hasObj hasPen 1 s es = .ok s' → GoodCalls s'.calls := by
  induction es with
  | nil => intro s s' hi h; cases h; exact hi
  | cons e es ih =>
    intro s s' hi h
    unfold readChildren at h
    split at h
    · cases h
    next s1 h1 =>
    obtain ⟨cs, h2, h3⟩ := readChild1_calls h1
    exact ih (by rw [h2]; exact hi.append h3) h

theorem setList_calls {s s' : Collected} {b : Bool} {name : Str} {l : List PyVal} {v : Bool × List Str} (h : s.setList b name l v = .ok s') : s'.calls = s.calls := by
  unfold Collected.setList at h
  split at h
  · cases h; rfl
  split at h
  · cases h
  · cases h; rfl

theorem finish_calls {E : Env} {b : Bool} {s s' : Collected} (h : s.finish E b = .ok s') : s'.calls = s.calls := by
  unfold Collected.finish at h
  simp only at h
  split at h
  · cases h
  next s2 h2 =>
  rw [setList_calls h, setList_calls h2]
  split <;> rfl

theorem readFormat1_calls {E : Env} {hasObj hasPen : Bool} {tree : Elem} {attrs : Dict Str PyVal} {calls : List Call} (h : readFormat E true hasObj hasPen 1 tree = .ok (attrs, calls)) :
    GoodCalls calls := by
  unfold readFormat at h
  split at h
  · cases h
  split at h
  · cases h
  next s hs =>
  split at h
  · cases h
  next s' hs' =>
  cases h
  rw [finish_calls hs']
  exact readChildren1_calls .nil hs

/-- Calls need no assumption on attribute names. -/
theorem readFormat2_calls {E : Env} {hasObj hasPen : Bool} {tree : Elem} {attrs : Dict Str PyVal} {calls : List Call} (h : readFormat E true hasObj hasPen 2 tree = .ok (attrs, calls)) :
    GoodCalls calls := by
  unfold readFormat at h
  split at h
  · cases h
  split at h
  · cases h
  next s hs =>
  split at h
  · cases h
  next s' hs' =>
  cases h
  rw [finish_calls hs']
  have : ∀ {es : List Elem} {s s' : Collected}, GoodCalls s.calls → readChildren E true hasObj hasPen 2 s es = .ok s' → GoodCalls s'.calls := by
    intro es
    induction es with
    | nil => intro s s' hi h; cases h; exact hi
    | cons e es ih =>
      intro s s' hi h
      unfold readChildren at h
      split at h
      · cases h
      next s1 h1 =>
      refine ih ?_ h
      cases readChild_effect h1 with
      | kept h => rw [h.calls]; exact hi
      | outline cs hcs hcalls => rw [hcalls]; exact hi.append hcs
      | guideline d hd hs => subst hs; exact hi
      | anchor d hd hs => subst hs; exact hi
  exact this .nil hs

/-- A glyph is read in one of the two formats. -/
theorem readGlyphTree_format {E : Env} {b hasObj hasPen : Bool} {versions : List Int} {tree : Elem} {r : Dict Str PyVal × List Call}
    (h : readGlyphTree E b hasObj hasPen versions tree = .ok r) :
    ∃ s, Dict.get? tree.attrib c!"format" = some s ∧ (pyInt s = some 1 ∧ readFormat E b hasObj hasPen 1 tree = .ok r ∨ pyInt s = some 2 ∧ readFormat E b hasObj hasPen 2 tree = .ok r) := by
  unfold readGlyphTree at h
  split at h
  · cases h
  split at h
  · cases h
  split at h
  · cases h
  next s hs =>
  split at h
  · cases h
  next v hv =>
  split at h
  · cases h
  refine ⟨s, hs, ?_⟩
  split at h
  · next h1 => subst h1; exact .inl ⟨hv, h⟩
  split at h
  · next h1 => subst h1; exact .inr ⟨hv, h⟩
  · cases h

end Verif.Glif
