import Verif.Proofs.GlifOutline
/-! Reading a written glyph. -/
namespace Verif.Glif
open Verif Verif.Validators Verif.Spec.Validators Verif.Spec.Glif

theorem pick_eq {t t' : Str} {es : List Elem} (h : ∀ e ∈ es, e.tag = t') : pick t es = if t' = t then es else [] := by
  unfold pick
  split
  · next ht => rw [List.filter_eq_self]; intro e he; simp [h e he, ht]
  · next ht => rw [List.filter_eq_nil_iff]; intro e he; simp [h e he, ht]

theorem forall₂_unique {α β : Type} {P : α → β → Prop} (hP : ∀ a b c, P a b → P a c → b = c) {l : List α} {l1 l2 : List β} (h1 : List.Forall₂ P l l1) (h2 : List.Forall₂ P l l2) :
    l1 = l2 := by
  induction h1 generalizing l2 with
  | nil => cases h2; rfl
  | cons h _ ih =>
    cases h2 with
    | cons h' h2 => rw [hP _ _ _ h h', ih h2]

theorem forall₂_left {α β : Type} {P : α → β → Prop} {l : List α} {l' : List β} (h : List.Forall₂ P l l') : ∀ a ∈ l, ∃ b ∈ l', P a b := by
  induction h with
  | nil => simp
  | cons h _ ih =>
    rw [List.forall_mem_cons]
    exact ⟨⟨_, List.mem_cons_self, h⟩, fun a ha => by obtain ⟨b, hb, hp⟩ := ih a ha; exact ⟨b, List.mem_cons_of_mem _ hb, hp⟩⟩

/-- A written glyph by its sections. -/
structure Sections (E : Env) (name : PyVal) (o : Obj) (draw : Option (List Call)) (tree : Elem) where
  s : Str
  advance : List Elem
  unicodes : List Elem
  note : List Elem
  image : List Elem
  guidelines : List Elem
  ids1 : List Str
  anchors : List Elem
  ids : List Str
  outline : List Elem
  lib : List Elem
  hname : name = .str s ∧ s ≠ []
  htree : tree = .mk c!"glyph" [(c!"name", s), (c!"format", c!"2")] none none (advance ++ unicodes ++ note ++ image ++ guidelines ++ anchors ++ outline ++ lib)
  hadvance : writeAdvance E true o = .ok advance
  hunicodes : (if truthy (o.attr c!"unicodes") then writeUnicodes E true (o.attr c!"unicodes") else .ok []) = .ok unicodes
  hnote : oneIf (truthy (o.attr c!"note")) (writeNote E true (o.attr c!"note")) = .ok note
  himage : oneIf (truthy (o.attr c!"image")) (writeImage E true (o.attr c!"image")) = .ok image
  hguidelines : (if truthy (o.attr c!"guidelines") then writeGuidelines E true [] (o.attr c!"guidelines") else .ok ([], [])) = .ok (guidelines, ids1)
  hanchors : (if truthy (o.attr c!"anchors") then writeAnchors E true ids1 (o.attr c!"anchors") else .ok ([], ids1)) = .ok (anchors, ids)
  houtline : drawn E true 2 ids (o.attr c!"anchors") draw = .ok outline
  hlib : oneIf (truthy (o.attr c!"lib")) (writeLib E true (o.attr c!"lib")) = .ok lib
  tadvance : ∀ e ∈ advance, e.tag = c!"advance"
  tunicodes : ∀ e ∈ unicodes, e.tag = c!"unicode"
  tnote : ∀ e ∈ note, e.tag = c!"note"
  timage : ∀ e ∈ image, e.tag = c!"image"
  tguidelines : ∀ e ∈ guidelines, e.tag = c!"guideline"
  tanchors : ∀ e ∈ anchors, e.tag = c!"anchor"
  toutline : ∀ e ∈ outline, e.tag = c!"outline"
  tlib : ∀ e ∈ lib, e.tag = c!"lib"

theorem drawn_tag {E : Env} {b : Bool} {fv : Nat} {ids : List Str} {anchors : PyVal} {draw : Option (List Call)} {es : List Elem} (h : drawn E b fv ids anchors draw = .ok es) :
    ∀ e ∈ es, e.tag = c!"outline" := by
  cases draw with
  | none => cases h; simp
  | some calls =>
    rw [drawn] at h
    cases ho : writeOutline E b fv ids anchors calls with
    | error x => rw [ho] at h; cases h
    | ok e =>
      rw [ho] at h
      cases h
      unfold writeOutline at ho
      split at ho
      · cases ho
      split at ho
      · cases ho
      cases ho
      simp [fillEmpty, Elem.tag]

theorem attrTexts_name {E : Env} {name : PyVal} {f : Str} {attrs : Dict Str Str} (hn : isStr name = true ∧ name ≠ .str [])
    (h : attrTexts E [(c!"name", name), (c!"format", .str f)] = .ok attrs) : ∃ s, name = .str s ∧ s ≠ [] ∧ attrs = [(c!"name", s), (c!"format", f)] := by
  cases name <;> simp only [isStr, Bool.false_eq_true, false_and] at hn
  next s =>
  refine ⟨s, rfl, fun hs => hn.2 (by rw [hs]), ?_⟩
  simp only [attrTexts, attrText] at h
  by_cases h1 : (E.lxml && !List.all s isXmlChar) = true
  · rw [if_pos h1] at h; cases h
  by_cases h2 : (E.lxml && !List.all f isXmlChar) = true
  · rw [if_neg h1, if_pos h2] at h; cases h
  rw [if_neg h1, if_neg h2] at h
  cases h
  rfl

theorem writeGlyphTree_sections {E : Env} {name : PyVal} {o : Obj} {draw : Option (List Call)} {tree : Elem} (h : writeGlyphTree E true 2 name o draw = .ok tree) :
    Nonempty (Sections E name o draw tree) := by
  obtain ⟨⟨attrs, head, ids, outline, lib, hname, hattrs, hhead, ho, hlib, htree⟩⟩ := writeGlyphTree_parts h
  obtain ⟨⟨advance, unicodes, note, image, guidelines, ids1, anchors, hadvance, hU, hnote, himage, hG, hA, rfl⟩⟩ := writeHead_parts hhead
  obtain ⟨s, hs, hs0, rfl⟩ := attrTexts_name (hname rfl) hattrs
  refine ⟨⟨s, advance, unicodes, note, image, guidelines, ids1, anchors, ids, outline, lib, ⟨hs, hs0⟩, htree, hadvance, hU, hnote, himage, hG, hA, ho, hlib, writeAdvance_tag hadvance, ?_,
    oneIf_tag hnote fun e he => writeNote_tag he, oneIf_tag himage fun e he => writeImage_tag he, ?_, ?_, drawn_tag ho, oneIf_tag hlib fun e he => writeLib_tag he⟩⟩
  · split at hU
    · unfold writeUnicodes at hU
      split at hU
      · cases hU
      · exact unicodeElements_tag hU
    · cases hU; simp
  · split at hG
    · exact (writeGuidelines_spec hG).tags
    · cases hG; simp
  · split at hA
    · exact (writeAnchors_spec hA).tags
    · cases hA; simp

section
variable {E : Env} {name : PyVal} {o : Obj} {draw : Option (List Call)} {tree : Elem}

theorem Sections.pick (S : Sections E name o draw tree) (t : Str) : Glif.pick t tree.children =
    (if c!"advance" = t then S.advance else []) ++ (if c!"unicode" = t then S.unicodes else []) ++ (if c!"note" = t then S.note else []) ++ (if c!"image" = t then S.image else []) ++
      (if c!"guideline" = t then S.guidelines else []) ++ (if c!"anchor" = t then S.anchors else []) ++ (if c!"outline" = t then S.outline else []) ++
      (if c!"lib" = t then S.lib else []) := by
  conv => lhs; rw [S.htree]
  rw [Elem.children]
  simp only [pick_append]
  rw [pick_eq S.tadvance, pick_eq S.tunicodes, pick_eq S.tnote, pick_eq S.timage, pick_eq S.tguidelines, pick_eq S.tanchors, pick_eq S.toutline, pick_eq S.tlib]

theorem Sections.pick_advance (S : Sections E name o draw tree) : Glif.pick c!"advance" tree.children = S.advance := by rw [S.pick]; simp
theorem Sections.pick_unicode (S : Sections E name o draw tree) : Glif.pick c!"unicode" tree.children = S.unicodes := by rw [S.pick]; simp
theorem Sections.pick_note (S : Sections E name o draw tree) : Glif.pick c!"note" tree.children = S.note := by rw [S.pick]; simp
theorem Sections.pick_image (S : Sections E name o draw tree) : Glif.pick c!"image" tree.children = S.image := by rw [S.pick]; simp
theorem Sections.pick_guideline (S : Sections E name o draw tree) : Glif.pick c!"guideline" tree.children = S.guidelines := by rw [S.pick]; simp
theorem Sections.pick_anchor (S : Sections E name o draw tree) : Glif.pick c!"anchor" tree.children = S.anchors := by rw [S.pick]; simp
theorem Sections.pick_outline (S : Sections E name o draw tree) : Glif.pick c!"outline" tree.children = S.outline := by rw [S.pick]; simp
theorem Sections.pick_lib (S : Sections E name o draw tree) : Glif.pick c!"lib" tree.children = S.lib := by rw [S.pick]; simp

theorem Sections.read (S : Sections E name o draw tree) (fvs : List Int) :
    readGlyphTree E true true true fvs tree = if 2 ∈ fvs then readFormat E true true true 2 tree else .error .glifLibError := by
  unfold readGlyphTree
  have h1 : tree.tag = c!"glyph" := by rw [S.htree]; rfl
  have h2 : tree.text = none := by rw [S.htree]; rfl
  have h3 : Dict.get? tree.attrib c!"format" = some c!"2" := by rw [S.htree]; rfl
  have h4 : pyInt c!"2" = some 2 := by decide +kernel
  rw [h1, h2, h3]
  simp only [h4, textBlank, ne_eq, not_true_eq_false, if_false, Bool.not_true, Bool.false_eq_true, Bool.true_and]
  by_cases h : (2 : Int) ∈ fvs <;> simp [h]

/-- What is known when a written glyph has been read. -/
theorem read_written {fvs : List Int} {attrs : Dict Str PyVal} {calls : List Call} (h : writeGlyphTree E true 2 name o draw = .ok tree)
    (hr : readGlyphTree E true true true fvs tree = .ok (attrs, calls)) : ∃ (_ : Sections E name o draw tree) (_ : ReadResult E 2 tree attrs calls), True := by
  obtain ⟨S⟩ := writeGlyphTree_sections h
  rw [S.read] at hr
  split at hr
  · obtain ⟨R⟩ := readFormat_result hr
    exact ⟨S, R, trivial⟩
  · cases hr

theorem oneIf_cases {b : Bool} {r : Except Exc Elem} {es : List Elem} (h : oneIf b r = .ok es) : (b = false ∧ es = []) ∨ ∃ e, b = true ∧ es = [e] ∧ r = .ok e := by
  unfold oneIf at h
  cases b with
  | false => cases h; exact .inl ⟨rfl, rfl⟩
  | true =>
    cases r with
    | error x => cases h
    | ok e => cases h; exact .inr ⟨e, rfl, rfl, rfl⟩

theorem AtMostOne.nil {P : Elem → Prop} {Q : Prop} (h : AtMostOne [] P Q) : Q := by
  rcases h with h | ⟨_, h, _⟩
  · exact h.2
  · cases h

theorem AtMostOne.one {P : Elem → Prop} {Q : Prop} {e : Elem} (h : AtMostOne [e] P Q) : P e := by
  rcases h with ⟨h, _⟩ | ⟨_, h, hp⟩
  · cases h
  · cases h; exact hp

section
variable {attrs : Dict Str PyVal} {calls : List Call} {fv : Nat} (S : Sections E name o draw tree) (R : ReadResult E fv tree attrs calls)
include S R

theorem read_name : delivered attrs c!"name" = name := by
  have h1 : Dict.get? tree.attrib c!"name" = some S.s := (congrArg (fun t => Dict.get? (Elem.attrib t) c!"name") S.htree).trans rfl
  have h2 : S.s = R.name := by
    rw [R.hname.2] at h1
    injection h1 with h1
    exact h1.symm
  rw [delivered, R.final.other _ (by decide), R.result.delivered_unicodes.2.2, S.hname.1, h2]
  rfl

theorem read_unicodes {is : List Int} (hi : Integers (o.attr c!"unicodes") is) :
    delivered attrs c!"unicodes" = if is = [] then .none else .list ((firsts is).map fun i => .int i) := by
  obtain ⟨l, hl, hu⟩ := R.result.unicodes
  rw [S.pick_unicode] at hl
  have hw := writeUnicodes_read hi S.hunicodes
  have heq : l = firsts is := by
    exact forall₂_unique (fun e i j h1 h2 => by rw [h1] at h2; cases h2; rfl) hl hw
  subst heq
  rw [dedup_nodup (by simpa using firsts_nodup is), List.nil_append] at hu
  rw [delivered, R.final.unicodes, R.result.delivered_unicodes.1, hu]
  cases is with
  | nil => rfl
  | cons i is => rw [firsts, if_neg (by simp), if_neg (by simp)]; rfl

theorem read_width (hF : E.F.Lawful) (hw : PrintableOrNone (o.attr c!"width")) (hh : PrintableOrNone (o.attr c!"height")) :
    SameNumber (.int 0) (orZero (o.attr c!"width")) (orZero (delivered attrs c!"width")) ∧ SameNumber (.int 0) (orZero (o.attr c!"height")) (orZero (delivered attrs c!"height")) := by
  have hr := R.result.advance
  rw [S.pick_advance] at hr
  rw [delivered, delivered, R.final.other _ (by decide), R.final.other _ (by decide)]
  rcases writeAdvance_read hF hw hh S.hadvance with ⟨h1, h2, h3⟩ | ⟨e, h1, x, y, h2, h3, h4⟩
  · rw [h1] at hr
    rw [hr.nil.1, hr.nil.2]
    exact ⟨h2, h3⟩
  · rw [h1] at hr
    obtain ⟨w, h, g1, g2, g3⟩ := hr.one
    rw [h2] at g1
    cases g1
    rw [g2, g3]
    have nn : ∀ {v x}, SameNumber (.int 0) (orZero v) x → PrintableOrNone v → orZero x = x := by
      intro v x hs hv
      unfold orZero at hs ⊢
      split
      · next hx =>
        subst hx
        exfalso
        rcases hs with hs | hs
        · split at hs
          · cases hs
          · next hn => exact hn hs
        · rcases hv with rfl | ⟨i, rfl⟩ | ⟨f, rfl⟩ <;> simp [PyVal.pyEq, PyVal.num?] at hs
      · rfl
    simp only [Option.getD_some]
    rw [nn h3 hw, nn h4 hh]
    exact ⟨h3, h4⟩

theorem read_note : noteText (delivered attrs c!"note") = join ['\n'] (noteLines (noteText (o.attr c!"note"))) := by
  have hr := R.result.note
  rw [S.pick_note] at hr
  rw [delivered, R.final.other _ (by decide)]
  rcases oneIf_cases S.hnote with ⟨h1, h2⟩ | ⟨e, h1, h2, h3⟩
  · rw [h2] at hr
    rw [hr.nil]
    cases hv : o.attr c!"note" <;> simp_all [truthy, noteText, noteLines] <;> rfl
  · rw [h2] at hr
    obtain ⟨t, g1, g2⟩ := hr.one
    obtain ⟨s, k1, k2⟩ := writeNote_read h3
    rw [g1] at k2
    cases k2
    rw [g2, k1]
    rfl

theorem read_image (hF : E.F.Lawful) (hk : DictKeys (o.attr c!"image"))
    (hp : ∀ d, o.attr c!"image" = .dict d → ∀ k i w, (k, i) ∈ transformation → (.str k, w) ∈ d → Printable w) :
    (truthy (o.attr c!"image") = false ∧ delivered attrs c!"image" = .none) ∨
      ∃ d d', o.attr c!"image" = .dict d ∧ delivered attrs c!"image" = .dict d' ∧ SameImage d d' := by
  have hr := R.result.image
  rw [S.pick_image] at hr
  rw [delivered, R.final.other _ (by decide)]
  rcases oneIf_cases S.himage with ⟨h1, h2⟩ | ⟨e, h1, h2, h3⟩
  · rw [h2] at hr
    rw [hr.nil]
    exact .inl ⟨h1, rfl⟩
  · rw [h2] at hr
    obtain ⟨-, v, g1, g2⟩ := hr.one
    obtain ⟨-, d, d', k1, k2, k3⟩ := writeImage_read hF hk hp h3
    rw [g1] at k2
    cases k2
    rw [g2]
    exact .inr ⟨d, d', k1, rfl, k3⟩

theorem read_lib (hF : E.F.Lawful) (hw : Spec.Plist.WellFormed (o.attr c!"lib")) (hb : E.lxml = true ∨ Spec.Plist.NoBytes (o.attr c!"lib")) :
    (truthy (o.attr c!"lib") = false ∧ delivered attrs c!"lib" = .none) ∨ Spec.Plist.Same (Spec.Plist.untuple (o.attr c!"lib")) (delivered attrs c!"lib") := by
  have hr := R.result.lib
  rw [S.pick_lib] at hr
  rw [delivered, R.final.other _ (by decide)]
  rcases oneIf_cases S.hlib with ⟨h1, h2⟩ | ⟨e, h1, h2, h3⟩
  · rw [h2] at hr
    rw [hr.nil]
    exact .inl ⟨h1, rfl⟩
  · rw [h2] at hr
    obtain ⟨v, g1, g2⟩ := hr.one
    obtain ⟨w, k1, k2⟩ := writeLib_read hF hw hb h3
    rw [g1] at k1
    cases k1
    rw [g2]
    exact .inr k2
end

/-- Entries read: the ones written. -/
def SameEntries (l l' : List PyVal) : Prop := List.Forall₂ (fun v w => ∃ d d', v = .dict d ∧ w = .dict d' ∧ EntryRead d d') l l'

theorem sameEntries {numbers : List Str} {es : List Elem} {l l' : List PyVal}
    (h : List.Forall₂ (fun e v => e.children = [] ∧ ∃ d d', v = .dict d ∧ readEntry E.F numbers e.attrib = .ok d' ∧ EntryRead d d') es l)
    (hr : List.Forall₂ (fun e v => ∃ d, readEntry E.F numbers e.attrib = .ok d ∧ v = .dict d) es l') : SameEntries l l' := by
  induction h generalizing l' with
  | nil => cases hr; exact .nil
  | cons h1 _ ih =>
    cases hr with
    | cons h2 hr =>
      refine .cons ?_ (ih hr)
      obtain ⟨-, d, d', rfl, g1, g2⟩ := h1
      obtain ⟨d2, g3, rfl⟩ := h2
      rw [g1] at g3
      cases g3
      exact ⟨d, _, rfl, rfl, g2⟩

theorem listItems_falsy {v : PyVal} (h : truthy v = false) : listItems v = [] := by
  cases v <;> simp_all [listItems, truthy]

theorem Sections.guidelines_read (S : Sections E name o draw tree) (hF : E.F.Lawful) (hk : ∀ e ∈ listItems (o.attr c!"guidelines"), DictKeys e)
    (hp : ∀ d, .dict d ∈ listItems (o.attr c!"guidelines") → PrintableFields [c!"x", c!"y", c!"angle"] d) :
    (∀ d, .dict d ∈ listItems (o.attr c!"guidelines") → Guideline E.F d) ∧
      List.Forall₂ (fun e v => e.children = [] ∧ ∃ d d', v = .dict d ∧ readEntry E.F [c!"x", c!"y", c!"angle"] e.attrib = .ok d' ∧ EntryRead d d') S.guidelines
        (listItems (o.attr c!"guidelines")) := by
  have h := S.hguidelines
  split at h
  · exact (writeGuidelines_read hF hk hp h).2
  · next ht =>
    rw [listItems_falsy (by simpa using ht)]
    simp only [Except.ok.injEq, Prod.mk.injEq] at h
    rw [← h.1]
    exact ⟨by simp, .nil⟩

theorem Sections.anchors_read (S : Sections E name o draw tree) (hF : E.F.Lawful) (hk : ∀ e ∈ listItems (o.attr c!"anchors"), DictKeys e)
    (hp : ∀ d, .dict d ∈ listItems (o.attr c!"anchors") → PrintableFields [c!"x", c!"y"] d) :
    (∀ d, .dict d ∈ listItems (o.attr c!"anchors") → Anchor E.F d) ∧
      List.Forall₂ (fun e v => e.children = [] ∧ ∃ d d', v = .dict d ∧ readEntry E.F [c!"x", c!"y"] e.attrib = .ok d' ∧ EntryRead d d') S.anchors
        (listItems (o.attr c!"anchors")) := by
  have h := S.hanchors
  split at h
  · exact (writeAnchors_read hF hk hp h).2
  · next ht =>
    rw [listItems_falsy (by simpa using ht)]
    simp only [Except.ok.injEq, Prod.mk.injEq] at h
    rw [← h.1]
    exact ⟨by simp, .nil⟩

theorem read_guidelines {attrs : Dict Str PyVal} {calls : List Call} (S : Sections E name o draw tree) (R : ReadResult E 2 tree attrs calls) (hF : E.F.Lawful)
    (hk : ∀ e ∈ listItems (o.attr c!"guidelines"), DictKeys e) (hp : ∀ d, .dict d ∈ listItems (o.attr c!"guidelines") → PrintableFields [c!"x", c!"y", c!"angle"] d) :
    SameEntries (listItems (o.attr c!"guidelines")) (listItems (delivered attrs c!"guidelines")) := by
  have hr := R.result.guidelines
  rw [S.pick_guideline] at hr
  have := sameEntries (S.guidelines_read hF hk hp).2 hr
  rw [delivered, R.final.guidelines, R.result.delivered_unicodes.2.1]
  split
  · next hn => rw [hn] at this; exact this
  · exact this

theorem read_anchors {attrs : Dict Str PyVal} {calls : List Call} (S : Sections E name o draw tree) (R : ReadResult E 2 tree attrs calls) (hF : E.F.Lawful)
    (hk : ∀ e ∈ listItems (o.attr c!"anchors"), DictKeys e) (hp : ∀ d, .dict d ∈ listItems (o.attr c!"anchors") → PrintableFields [c!"x", c!"y"] d) :
    SameEntries (listItems (o.attr c!"anchors")) (listItems (delivered attrs c!"anchors")) := by
  have hr := R.result.anchors
  rw [S.pick_anchor] at hr
  have := sameEntries (S.anchors_read hF hk hp).2 hr
  rw [delivered, R.final.anchors, R.result.anchors2 (by decide)]
  split
  · next hn => rw [hn] at this; exact this
  · exact this

/-! ### Success -/

theorem SameEntries.identifiers {l l' : List PyVal} (h : SameEntries l l') : l'.flatMap entryIdentifier = l.flatMap entryIdentifier := by
  induction h with
  | nil => rfl
  | cons h1 _ ih =>
    obtain ⟨d, d', rfl, rfl, h⟩ := h1
    rw [List.flatMap_cons, List.flatMap_cons, ih, entryIdentifier, entryIdentifier, argument_get, argument_get, h.identifier]

theorem SameEntries.dictKeys {l l' : List PyVal} (h : SameEntries l l') : ∀ e ∈ l', DictKeys e := by
  induction h with
  | nil => simp
  | cons h1 _ ih =>
    obtain ⟨d, d', rfl, rfl, h⟩ := h1
    rw [List.forall_mem_cons]
    refine ⟨?_, ih⟩
    intro d2 hd
    cases hd
    exact h.keys

theorem SameEntries.all {P Q : List (PyVal × PyVal) → Prop} {l l' : List PyVal} (h : SameEntries l l') (hP : ∀ d, .dict d ∈ l → P d)
    (hPQ : ∀ d d', EntryRead d d' → P d → Q d') : ∀ e ∈ l', ∃ d, e = .dict d ∧ Q d := by
  induction h with
  | nil => simp
  | cons h1 _ ih =>
    obtain ⟨d, d', rfl, rfl, h⟩ := h1
    rw [List.forall_mem_cons]
    exact ⟨⟨d', rfl, hPQ d d' h (hP d List.mem_cons_self)⟩, ih fun d hd => hP d (List.mem_cons_of_mem _ hd)⟩

/-- The outline element of a written glyph. -/
theorem Sections.outline_read {d : List Item} (S : Sections E name o (some (drawing d)) tree) (h : writeGlyphTree E true 2 name o (some (drawing d)) = .ok tree) (hF : E.F.Lawful)
    (hd : ∀ it ∈ d, Readable it) : ∃ e cs, S.outline = [e] ∧ outlineOk e = true ∧ readOutline2 E true [] e.children = .ok (cs, outlineIdentifiers e.children) ∧
      List.Forall₂ SameCall (drawing d) cs := by
  obtain ⟨-, hn, hl⟩ := writeGlyphTree_spec h
  have ho := S.houtline
  rw [drawn, writeOutline] at ho
  cases hp : (Pen.new S.ids).draw E 2 true (drawing d) with
  | error x => rw [hp] at ho; cases ho
  | ok s =>
    rw [hp] at ho
    simp only [show ¬ ((2 : Nat) = 1) by decide, false_and, if_false, Except.map, Except.ok.injEq] at ho
    obtain ⟨es, h1, h2⟩ := draw_items (s := Pen.new S.ids) (fun it hit i ps hc p hps => by
      have := hd it hit
      rw [hc] at this
      obtain ⟨x, y, rest, hs, -⟩ := this.1 p hps
      exact ⟨x, y, rest, hs⟩) hp
    rw [show (Pen.new S.ids).children = [] from rfl, List.nil_append] at h1
    have hmem : ∀ e ∈ S.outline, e ∈ tree.children := by
      intro e he
      rw [S.htree, Elem.children]
      exact List.mem_append_left _ (List.mem_append_right _ he)
    refine ⟨fillEmpty (.mk c!"outline" [] none none s.children), ?_⟩
    have he := hmem (fillEmpty (.mk c!"outline" [] none none s.children)) (by rw [← ho]; exact List.mem_singleton.2 rfl)
    rw [show (fillEmpty (.mk c!"outline" [] none none s.children)).children = s.children from rfl]
    obtain ⟨pre, post, hsplit⟩ := List.append_of_mem he
    rw [glyphIdentifiers_eq, hsplit, List.flatMap_append, List.flatMap_cons] at hn hl
    have hci : childIdentifiers (fillEmpty (.mk c!"outline" [] none none s.children)) = outlineIdentifiers s.children := by
      rw [fillEmpty, childIdentifiers, if_neg (by simp [Elem.tag]), if_pos (by simp [Elem.tag]), Elem.children]
    rw [hci] at hn hl
    have hn' := (List.Nodup.of_append_left (List.Nodup.of_append_right hn))
    obtain ⟨cs, k1, k2⟩ := readOutline2_read hF (h1 ▸ h2) (ids := []) hd hn' (fun i hi => hl i (List.mem_append_right _ (List.mem_append_left _ hi)))
    refine ⟨cs, ho.symm, ?_, k1, k2⟩
    simp only [outlineOk, fillEmpty, Elem.attrib, Elem.text, List.isEmpty_nil, Bool.true_and]
    cases s.children.isEmpty <;> decide

theorem setList_succeeds {s : Collected} {name : Str} {l : List PyVal} {verdict : Bool × List Str} (h : verdict.1 = true) : ∃ s', s.setList true name l verdict = .ok s' := by
  unfold Collected.setList
  split
  · exact ⟨_, rfl⟩
  · rw [h]; exact ⟨_, rfl⟩

theorem finish_succeeds {s : Collected} {gl an : List PyVal}
    (hn : (gl.flatMap entryIdentifier ++ an.flatMap entryIdentifier ++ s.identifiers).Nodup) (hg : SameEntries gl s.guidelines) (ha : SameEntries an s.anchors)
    (hG : ∀ d, .dict d ∈ gl → Guideline E.F d) (hA : ∀ d, .dict d ∈ an → Anchor E.F d) : ∃ s', s.finish E true = .ok s' := by
  have hig : identifiers s.guidelines = gl.flatMap entryIdentifier := by rw [← entryIdentifiers_eq _ hg.dictKeys, hg.identifiers]
  have hia : identifiers s.anchors = an.flatMap entryIdentifier := by rw [← entryIdentifiers_eq _ ha.dictKeys, ha.identifiers]
  rw [← hig, ← hia, List.nodup_append, List.nodup_append] at hn
  obtain ⟨⟨n1, n2, n3⟩, n4, n5⟩ := hn
  have hgv : guidelinesValidator E.F s.identifiers (.list s.guidelines) = (true, s.identifiers ++ identifiers s.guidelines) := by
    refine (entries_iff (fun v hv => guideline_iff hv) (fun d hd w hw => ?_) _ hg.dictKeys _ _).2 ⟨hg.all hG fun d d' h => h.guideline, n1, ?_, rfl⟩
    · obtain ⟨s, h, -⟩ := hd.identifier w hw
      exact ⟨s, h⟩
    · exact fun i hi hc => n5 i (List.mem_append_left _ hi) i hc rfl
  have hav : anchorsValidator E.F (s.identifiers ++ identifiers s.guidelines) (.list s.anchors) = (true, s.identifiers ++ identifiers s.guidelines ++ identifiers s.anchors) := by
    refine (entries_iff (fun v hv => anchor_iff hv) (fun d hd w hw => ?_) _ ha.dictKeys _ _).2 ⟨ha.all hA fun d d' h => h.anchor, n2, ?_, rfl⟩
    · obtain ⟨s, h, -⟩ := hd.identifier w hw
      exact ⟨s, h⟩
    · intro i hi hc
      rcases List.mem_append.1 hc with hc | hc
      · exact n5 i (List.mem_append_right _ hi) i hc rfl
      · exact n3 i hc i hi rfl
  unfold Collected.finish
  simp only
  obtain ⟨s1, hs1⟩ : ∃ s1, s1 = (if s.unicodes.isEmpty then s else s.setAttr c!"unicodes" (.list (s.unicodes.map fun i => .int i))) := ⟨_, rfl⟩
  rw [← hs1]
  have h1 : s1.guidelines = s.guidelines := by rw [hs1]; split <;> rfl
  have h2 : s1.anchors = s.anchors := by rw [hs1]; split <;> rfl
  have h3 : s1.identifiers = s.identifiers := by rw [hs1]; split <;> rfl
  rw [h1, h3, hgv]
  obtain ⟨s2, hs2⟩ := setList_succeeds (s := s1) (name := c!"guidelines") (l := s.guidelines) (verdict := (true, s.identifiers ++ identifiers s.guidelines)) rfl
  rw [hs2]
  obtain ⟨-, -, -, g4, g5⟩ := setList_values hs2
  have h4 : s2.identifiers = s.identifiers ++ identifiers s.guidelines := by
    rw [g5, h3]
    split
    · next hn => rw [hn]; simp [identifiers]
    · rfl
  simp only [g4, h2, h4, hav]
  exact setList_succeeds rfl

/-- A written glyph is read. -/
theorem Sections.succeeds {d : List Item} (S : Sections E name o (some (drawing d)) tree) (h : writeGlyphTree E true 2 name o (some (drawing d)) = .ok tree) (hF : E.F.Lawful)
    (ho : Plain E.lxml o) (hd : ∀ it ∈ d, Readable it) :
    ∃ attrs calls, readFormat E true true true 2 tree = .ok (attrs, calls) ∧ List.Forall₂ SameCall (drawing d) calls := by
  obtain ⟨e, cs, o1, o2, o3, o4⟩ := S.outline_read h hF hd
  obtain ⟨hG, hg⟩ := S.guidelines_read hF ho.guidelines ho.guidelineNumbers
  obtain ⟨hA, ha⟩ := S.anchors_read hF ho.anchors ho.anchorNumbers
  obtain ⟨is, hi⟩ := ho.unicodes
  have hu := writeUnicodes_read hi S.hunicodes
  have hname : readName true true tree = .ok [(c!"name", .str S.s)] := by
    have h1 : Dict.get? tree.attrib c!"name" = some S.s := (congrArg (fun t => Dict.get? (Elem.attrib t) c!"name") S.htree).trans rfl
    unfold readName
    rw [h1]
    cases hs : S.s with
    | nil => exact absurd hs S.hname.2
    | cons c cs => rfl
  have hfine : ∀ e ∈ tree.children, Fine E e := by
    intro e0 he
    rw [congrArg Elem.children S.htree] at he
    simp only [Elem.children, List.mem_append] at he
    rcases he with ((((((he | he) | he) | he) | he) | he) | he) | he
    · rcases writeAdvance_read hF ho.width ho.height S.hadvance with ⟨h1, -, -⟩ | ⟨e1, h1, x, y, h2, -, -⟩
      · rw [h1] at he; cases he
      · rw [h1, List.mem_singleton] at he
        subst he
        exact .advance (S.tadvance _ (by rw [h1]; simp)) x y h2
    · obtain ⟨i, -, h2⟩ := forall₂_left hu _ he
      exact .unicode (S.tunicodes _ he) i h2
    · rcases oneIf_cases S.hnote with ⟨h1, h2⟩ | ⟨e1, h1, h2, h3⟩
      · rw [h2] at he; cases he
      · obtain ⟨s, k1, k2⟩ := writeNote_read h3
        have ht := S.tnote _ he
        rw [h2, List.mem_singleton] at he
        subst he
        exact .note ht _ k2
    · rcases oneIf_cases S.himage with ⟨h1, h2⟩ | ⟨e1, h1, h2, h3⟩
      · rw [h2] at he; cases he
      · obtain ⟨k0, d, d', k1, k2, k3⟩ := writeImage_read hF ho.image ho.imageNumbers h3
        have ht := S.timage _ he
        rw [h2, List.mem_singleton] at he
        subst he
        exact .image ht k0 _ k2
    · obtain ⟨i, -, h2, d, d', -, h3, -⟩ := forall₂_left hg _ he
      exact .guideline (S.tguidelines _ he) h2 d' h3
    · obtain ⟨i, -, h2, d, d', -, h3, -⟩ := forall₂_left ha _ he
      exact .anchor (S.tanchors _ he) h2 d' h3
    · have ht := S.toutline _ he
      rw [o1, List.mem_singleton] at he
      subst he
      exact .outline ht o2 _ _ o3
    · rcases oneIf_cases S.hlib with ⟨h1, h2⟩ | ⟨e1, h1, h2, h3⟩
      · rw [h2] at he; cases he
      · obtain ⟨w, k1, k2⟩ := writeLib_read hF ho.lib ho.libBytes h3
        have ht := S.tlib _ he
        rw [h2, List.mem_singleton] at he
        subst he
        exact .lib ht _ k1
  have one : ∀ {b : Bool} {r : Except Exc Elem} {es : List Elem}, oneIf b r = .ok es → es.length ≤ 1 := by
    intro b r es h
    rcases oneIf_cases h with ⟨-, rfl⟩ | ⟨e, -, rfl, -⟩ <;> simp
  have hstart : Result E 2 [(c!"name", .str S.s)] [] ⟨[(c!"name", .str S.s)], [], [], [], [], [], []⟩ := by
    refine result_start ?_
    intro k hk
    simp only [List.mem_cons, List.not_mem_nil, or_false] at hk
    rcases hk with rfl | rfl | rfl | rfl | rfl | rfl <;> rfl
  obtain ⟨s, hs⟩ := readChildren_fine hstart hfine (by
    intro t ht
    rw [List.nil_append]
    simp only [List.mem_cons, List.not_mem_nil, or_false] at ht
    rcases ht with rfl | rfl | rfl | rfl | rfl
    · rw [S.pick_outline, o1]; simp
    · rw [S.pick_advance]
      rcases writeAdvance_read hF ho.width ho.height S.hadvance with ⟨h1, -, -⟩ | ⟨e1, h1, -⟩ <;> rw [h1] <;> simp
    · rw [S.pick_note]; exact one S.hnote
    · rw [S.pick_lib]; exact one S.hlib
    · rw [S.pick_image]; exact one S.himage)
  have hR := readChildren_result hstart hs
  rw [List.nil_append] at hR
  have r1 := hR.outline2 (by decide)
  rw [S.pick_outline, o1] at r1
  obtain ⟨-, r1⟩ := r1.one
  rw [o3] at r1
  simp only [Except.ok.injEq, Prod.mk.injEq] at r1
  have r2 := hR.guidelines
  rw [S.pick_guideline] at r2
  have r3 := hR.anchors
  rw [S.pick_anchor] at r3
  obtain ⟨-, hn, -⟩ := writeGlyphTree_spec h
  rw [glyphIdentifiers_eq, congrArg Elem.children S.htree] at hn
  simp only [Elem.children, List.flatMap_append] at hn
  have z1 : S.guidelines.flatMap childIdentifiers = (listItems (o.attr c!"guidelines")).flatMap entryIdentifier := by
    rw [childIdentifiers_tag (.inl rfl) S.tguidelines]
    have h := S.hguidelines
    split at h
    · exact (writeGuidelines_spec h).elements
    · next ht =>
      rw [listItems_falsy (by simpa using ht)]
      simp only [Except.ok.injEq, Prod.mk.injEq] at h
      rw [← h.1]; rfl
  have z2 : S.anchors.flatMap childIdentifiers = (listItems (o.attr c!"anchors")).flatMap entryIdentifier := by
    rw [childIdentifiers_tag (.inr rfl) S.tanchors]
    have h := S.hanchors
    split at h
    · exact (writeAnchors_spec h).elements
    · next ht =>
      rw [listItems_falsy (by simpa using ht)]
      simp only [Except.ok.injEq, Prod.mk.injEq] at h
      rw [← h.1]; rfl
  have z3 : S.outline.flatMap childIdentifiers = s.identifiers := by
    rw [o1, List.flatMap_cons, List.flatMap_nil, List.append_nil, childIdentifiers]
    have ht := S.toutline e (by rw [o1]; simp)
    rw [if_neg (by rw [ht]; decide), if_pos ht, ← r1.2]
  rw [childIdentifiers_none (by decide) S.tadvance, childIdentifiers_none (by decide) S.tunicodes, childIdentifiers_none (by decide) S.tnote, childIdentifiers_none (by decide) S.timage,
    childIdentifiers_none (by decide) S.tlib, z1, z2, z3, List.append_nil, List.append_nil, List.append_nil, List.append_nil, List.nil_append] at hn
  obtain ⟨s', hs'⟩ := finish_succeeds hn (sameEntries hg r2) (sameEntries ha r3) hG hA
  refine ⟨s'.attrs, s'.calls, ?_, ?_⟩
  · rw [readFormat, hname]
    simp only
    rw [hs]
    simp only
    rw [hs']
  · rw [(finish_values hs').2, ← r1.1]
    exact o4

end
end Verif.Glif
