import Verif.Proofs.GlifText
import Verif.Proofs.GlifFormat1
import Verif.Proofs.GlifScan
import Verif.Proofs.PlistRead
import Verif.Spec.GlifRewrite
/-! Writing a glyph that was read. -/
namespace Verif.Glif
open Verif Verif.Validators Verif.Spec.Validators Verif.Spec.Glif
open Verif.Spec.Plist (XmlText)

/-! ### What the parser delivers -/

mutual
/-- Attribute values are XML text, attribute names are different. -/
def AttrsOk : Elem → Prop
  | .mk _ attrib _ _ children => (Dict.keys attrib).Nodup ∧ (∀ p ∈ attrib, XmlText p.2) ∧ AttrsOkList children
def AttrsOkList : List Elem → Prop
  | [] => True
  | e :: es => AttrsOk e ∧ AttrsOkList es
end

theorem attrsOk_iff {e : Elem} : AttrsOk e ↔ (Dict.keys e.attrib).Nodup ∧ (∀ p ∈ e.attrib, XmlText p.2) ∧ AttrsOkList e.children := by
  cases e
  rw [AttrsOk]
  rfl

theorem attrsOkList_iff {es : List Elem} : AttrsOkList es ↔ ∀ e ∈ es, AttrsOk e := by
  induction es with
  | nil => simp [AttrsOkList]
  | cons e es ih => simp [AttrsOkList, ih]

theorem attrsOk_withTail {t : Option Text} {e : Elem} (he : AttrsOk e) : AttrsOk (Spec.Xml.withTail t e) := by
  cases e
  exact he

theorem unescapeAttr_xmlText {f : Char → Char} (hf : ∀ c, Spec.Xml.xmlChar c = true → Spec.Xml.xmlChar (f c) = true) :
    ∀ (s : Str) (st : Option Str) (r : Str), Spec.Xml.unescape f st s = some r → XmlText r
  | [], st, r, h => by
    unfold Spec.Xml.unescape at h
    split at h
    · cases h; simp [XmlText]
    · cases h
  | c :: s, st, r, h => by
    unfold Spec.Xml.unescape at h
    split at h
    · split at h
      · exact unescapeAttr_xmlText hf s _ r h
      · split at h
        · rename_i hc
          obtain ⟨r', h', rfl⟩ := Option.map_eq_some_iff.1 h
          have := unescapeAttr_xmlText hf s _ r' h'
          rw [Plist.xmlText_chars] at this ⊢
          simpa [hf c hc] using this
        · cases h
    · split at h
      · obtain ⟨x, hx, h⟩ := Option.bind_eq_some_iff.1 h
        obtain ⟨r', h', rfl⟩ := Option.map_eq_some_iff.1 h
        have := unescapeAttr_xmlText hf s _ r' h'
        rw [Plist.xmlText_chars] at this ⊢
        simpa [Plist.resolve_xmlChar hx] using this
      · exact unescapeAttr_xmlText hf s _ r h

theorem parseAttr_xmlText {s r : Str} (h : Spec.Xml.parseAttr s = some r) : XmlText r := by
  unfold Spec.Xml.parseAttr at h
  split at h
  · cases h
  · refine unescapeAttr_xmlText ?_ _ _ _ h
    intro c hc
    split
    · decide
    · exact hc

theorem parseAttrs_ok : ∀ (n : Nat) (s : Str) (l : List (Str × Str)) (b : Bool) (rest : Str), Spec.Xml.parseAttrs n s = some (l, b, rest) →
    (l.map Prod.fst).Nodup ∧ ∀ p ∈ l, XmlText p.2
  | 0, s, l, b, rest, h => by simp [Spec.Xml.parseAttrs] at h
  | n + 1, s, l, b, rest, h => by
    unfold Spec.Xml.parseAttrs at h
    split at h
    · cases h
    split at h
    · cases h; simp
    split at h
    · split at h
      · cases h; simp
      · cases h
    split at h
    · cases h
    dsimp only at h
    split at h
    · cases h
    split at h
    · cases h
    split at h
    · cases h
    split at h
    · cases h
    split at h
    · next hv _ =>
      split at h
      · next l' b' rest' hr =>
        split at h
        · cases h
        next hn =>
        cases h
        obtain ⟨h1, h2⟩ := parseAttrs_ok n _ _ _ _ hr
        refine ⟨by rw [List.map_cons, List.nodup_cons]; exact ⟨hn, h1⟩, ?_⟩
        rw [List.forall_mem_cons]
        exact ⟨parseAttr_xmlText hv, h2⟩
      · cases h
    · cases h

mutual
theorem parseElem_attrs : ∀ (n : Nat) (s : Str) (e : Elem) (rest : Str), Spec.Xml.parseElem n s = some (e, rest) → AttrsOk e
  | 0, s, e, rest, h => by simp [Spec.Xml.parseElem] at h
  | n + 1, s, e, rest, h => by
    unfold Spec.Xml.parseElem at h
    split at h
    · cases h
    · split at h
      · cases h
      · split at h
        · cases h
        · split at h
          · cases h
          · next hp =>
            cases h
            exact ⟨(parseAttrs_ok _ _ _ _ _ hp).1, (parseAttrs_ok _ _ _ _ _ hp).2, trivial⟩
          · next hp =>
            split at h
            · cases h
            · rename_i t es rest' hc
              cases h
              exact ⟨(parseAttrs_ok _ _ _ _ _ hp).1, (parseAttrs_ok _ _ _ _ _ hp).2, parseContent_attrs n _ _ _ _ _ hc⟩
theorem parseContent_attrs : ∀ (n : Nat) (name s : Str) (t : Option Text) (es : List Elem) (rest : Str),
    Spec.Xml.parseContent n name s = some (t, es, rest) → AttrsOkList es
  | 0, name, s, t, es, rest, h => by simp [Spec.Xml.parseContent] at h
  | n + 1, name, s, t, es, rest, h => by
    unfold Spec.Xml.parseContent at h
    split at h
    · cases h
    · split at h
      · dsimp only at h
        split at h
        · cases h
        · split at h
          · cases h
          · split at h
            · cases h; exact trivial
            · cases h
      split at h
      · split at h
        · cases h
        · split at h
          · cases h
          · rename_i x es' rest'' hc
            cases h
            exact parseContent_attrs n _ _ _ _ _ hc
      · split at h
        · cases h
        · rename_i e rest' he
          split at h
          · cases h
          · rename_i tail es' rest'' hc
            cases h
            exact ⟨attrsOk_withTail (parseElem_attrs n _ _ _ he), parseContent_attrs n _ _ _ _ _ hc⟩
end

theorem parse_attrs {s : Str} {e : Elem} (h : Spec.Xml.parse s = some e) : AttrsOk e := by
  unfold Spec.Xml.parse at h
  obtain ⟨s1, -, h⟩ := Option.bind_eq_some_iff.1 h
  obtain ⟨s2, -, h⟩ := Option.bind_eq_some_iff.1 h
  obtain ⟨s3, -, h⟩ := Option.bind_eq_some_iff.1 h
  obtain ⟨s4, -, h⟩ := Option.bind_eq_some_iff.1 h
  unfold Spec.Xml.parseRoot at h
  split at h
  · cases h
  · split at h
    · rename_i e' rest he _
      cases h
      exact parseElem_attrs _ _ _ _ he
    · cases h

theorem glifTree_ok {b : Bytes} {t : Elem} (h : GlyphSet.glifTree b = .ok t) : AttrsOk t ∧ Plist.TreeOk t := by
  unfold GlyphSet.glifTree at h
  repeat' split at h
  all_goals first
    | cases h; done
    | (cases h; exact ⟨parse_attrs (by assumption), Plist.parse_ok (by assumption)⟩)

theorem attr_xmlText {e : Elem} (h : AttrsOk e) {k s : Str} (hs : Dict.get? e.attrib k = some s) : XmlText s :=
  (attrsOk_iff.1 h).2.1 (k, s) (Dict.mem_of_get? hs)

/-! ### What the reader delivers -/

/-- `None` or XML text. -/
def TextOrNone (v : PyVal) : Prop := v = .none ∨ ∃ s, v = .str s ∧ XmlText s

/-- A point as the reader delivers it. -/
structure FinePoint (p : Pt) : Prop where
  pt : ∃ x y, p.pt = .tuple [x, y] ∧ Printable x ∧ Printable y
  type : (p.segmentType = .none ∧ p.smooth = .bool false) ∨ ∃ t b, p.segmentType = .str t ∧ t ≠ c!"offcurve" ∧ p.smooth = .bool b
  name : TextOrNone p.name
  identifier : TextOrNone p.identifier

/-- A part of a drawing as the reader delivers it. -/
def FineItem : Item → Prop
  | .contour i ps => TextOrNone i ∧ GoodContour (ps.map fun p => fileType p.segmentType) ∧ ∀ p ∈ ps, FinePoint p
  | .component g t i => (∃ s, g = .str s ∧ XmlText s) ∧ (∃ l, t = .tuple l ∧ ∀ v ∈ l, Printable v) ∧ TextOrNone i

/-- Calls as the reader makes them. -/
def FineCalls (cs : List Call) : Prop := ∃ d, cs = drawing d ∧ ∀ it ∈ d, FineItem it

theorem FineCalls.nil : FineCalls [] := ⟨[], rfl, by simp⟩

theorem FineCalls.append {a b : List Call} (h : FineCalls a) (h' : FineCalls b) : FineCalls (a ++ b) := by
  obtain ⟨d, rfl, hd⟩ := h
  obtain ⟨d', rfl, hd'⟩ := h'
  refine ⟨d ++ d', by simp [drawing], fun it hit => ?_⟩
  rcases List.mem_append.1 hit with hit | hit
  · exact hd it hit
  · exact hd' it hit

theorem number_printable {F : FloatCodec} {s : Str} {v : PyVal} (h : number F s = .ok v) : Printable v := by
  unfold number at h
  split at h
  · cases h; exact .inl ⟨_, rfl⟩
  · split at h
    · cases h; exact .inr ⟨_, rfl⟩
    · cases h

theorem coordinate_printable {F : FloatCodec} {b : Bool} {s : Option Str} {v : PyVal} (h : coordinate F b s = .ok v) : Printable v := by
  cases s with
  | none => cases h
  | some s => exact number_printable h

theorem numberOr_printable {F : FloatCodec} {dflt : PyVal} {s : Option Str} {v : PyVal} (hd : Printable dflt) (h : numberOr F dflt s = .ok v) : Printable v := by
  cases s with
  | none => cases h; exact hd
  | some s => exact number_printable h

theorem textOrNone_attr {e : Elem} (h : AttrsOk e) (k : Str) : TextOrNone (orNone (Dict.get? e.attrib k)) := by
  rcases hs : Dict.get? e.attrib k with _ | s
  · exact .inl rfl
  · exact .inr ⟨s, rfl, attr_xmlText h hs⟩

theorem massagePoint_fine {E : Env} {fv index : Nat} {e : Elem} {p : MPoint} (he : AttrsOk e) (h : massagePoint E true fv index e = .ok p) :
    Printable p.x ∧ Printable p.y ∧ TextOrNone (orNone p.name) ∧ TextOrNone (orNone p.identifier) := by
  unfold massagePoint at h
  split at h
  · cases h
  split at h
  · cases h
  split at h
  · cases h
  split at h
  · cases h
  next x hx =>
  split at h
  · cases h
  next y hy =>
  dsimp only at h
  repeat' split at h
  all_goals first
    | cases h; done
    | (cases h; exact ⟨coordinate_printable hx, coordinate_printable hy, textOrNone_attr he _, textOrNone_attr he _⟩)

theorem massage_fine {E : Env} {fv : Nat} {es : List Elem} {l : List MPoint} (he : ∀ e ∈ es, AttrsOk e) (h : massage E true fv es = .ok l) :
    ∀ p ∈ l, Printable p.x ∧ Printable p.y ∧ TextOrNone (orNone p.name) ∧ TextOrNone (orNone p.identifier) := by
  unfold massage at h
  split at h
  · cases h
  next l' hl =>
  split at h
  · cases h
  cases h
  intro p hp
  obtain ⟨r, hr⟩ := lenient_prefix fv l'
  have hp' : p ∈ l' := by rw [hr]; exact List.mem_append_left _ hp
  obtain ⟨a, b, hab⟩ := List.append_of_mem hp'
  obtain ⟨e, hm, hq⟩ := mem_of_massagePoints hl a p b hab
  exact massagePoint_fine (he e hm) hq

theorem fineContour {E : Env} {fv : Nat} {es : List Elem} {l : List MPoint} (he : ∀ e ∈ es, AttrsOk e) (h : massage E true fv es = .ok l) (f : MPoint → Pt)
    (hf : ∀ p, (f p).pt = .tuple [p.x, p.y] ∧ (f p).segmentType = orNone p.seg ∧ (f p).smooth = .bool p.smooth ∧ (f p).name = orNone p.name ∧
      ((f p).identifier = .none ∨ (f p).identifier = orNone p.identifier)) {i : PyVal} (hi : TextOrNone i) : FineItem (.contour i (l.map f)) := by
  obtain ⟨h1, h2⟩ := goodItem_of_massage h f (fun p => ⟨(hf p).2.1, (hf p).2.2.1⟩) i
  refine ⟨hi, h1, fun q hq => ?_⟩
  have h3 := h2 q hq
  obtain ⟨p, hp, rfl⟩ := List.mem_map.1 hq
  obtain ⟨a1, a2, a3, a4⟩ := massage_fine he h p hp
  refine ⟨⟨_, _, (hf p).1, a1, a2⟩, h3, by rw [(hf p).2.2.2.1]; exact a3, ?_⟩
  rcases (hf p).2.2.2.2 with h5 | h5
  · rw [h5]; exact .inl rfl
  · rw [h5]; exact a4

theorem readContour2_fine {E : Env} {ids ids' : List Str} {e : Elem} {cs : List Call} (he : AttrsOk e) (h : readContour2 E true ids e = .ok (cs, ids')) : FineCalls cs := by
  unfold readContour2 at h
  split at h
  · cases h
  split at h
  · cases h
  next ids1 h1 =>
  split at h
  · cases h
  next ps hps =>
  split at h
  · cases h
  next cs' ids2 h2 =>
  cases h
  obtain ⟨h3, h4⟩ := readPoints2_ok h2
  refine ⟨[.contour (orNone (Dict.get? e.attrib c!"identifier")) (ps.map pointOf)], ?_, ?_⟩
  · rw [h3]; simp [drawing, Item.calls]
  · intro it hit
    rw [List.mem_singleton] at hit
    subst hit
    exact fineContour (attrsOkList_iff.1 (attrsOk_iff.1 he).2.2) hps pointOf (fun _ => ⟨rfl, rfl, rfl, rfl, .inr rfl⟩) (textOrNone_attr he _)

theorem readTransformation_printable {F : FloatCodec} {a : Dict Str Str} {info : List (Str × PyVal)} (hi : ∀ p ∈ info, Printable p.2) : ∀ {l : List PyVal},
    readTransformation F a info = .ok l → ∀ v ∈ l, Printable v := by
  induction info with
  | nil => intro l h; cases h; simp
  | cons p info ih =>
    intro l h
    obtain ⟨k, dflt⟩ := p
    rw [List.forall_mem_cons] at hi
    unfold readTransformation at h
    split at h
    · cases h
    next v hv =>
    split at h
    · cases h
    next vs hvs =>
    cases h
    rw [List.forall_mem_cons]
    exact ⟨numberOr_printable hi.1 hv, ih hi.2 hvs⟩

theorem transformationInfo_printable : ∀ p ∈ transformationInfo, Printable p.2 := by
  intro p hp
  simp only [transformationInfo, List.mem_cons, List.not_mem_nil, or_false] at hp
  rcases hp with rfl | rfl | rfl | rfl | rfl | rfl <;> exact .inl ⟨_, rfl⟩

theorem readComponent_fine {E : Env} {fv : Nat} {ids ids' : List Str} {e : Elem} {cs : List Call} (he : AttrsOk e) (h : readComponent E true fv ids e = .ok (cs, ids')) : FineCalls cs := by
  unfold readComponent at h
  split at h
  · cases h
  split at h
  · cases h
  split at h
  · cases h
  next hb =>
  split at h
  · cases h
  next t ht =>
  have hg : ∃ s, orNone (Dict.get? e.attrib c!"base") = .str s ∧ XmlText s := by
    rcases hs : Dict.get? e.attrib c!"base" with _ | s
    · rw [hs] at hb; simp at hb
    · exact ⟨s, rfl, attr_xmlText he hs⟩
  have hp := readTransformation_printable transformationInfo_printable ht
  split at h
  · cases h
    exact ⟨[.component _ _ _], rfl, by simpa [FineItem] using ⟨hg, hp, .inl rfl⟩⟩
  split at h
  · cases h
  next ids1 h1 =>
  cases h
  exact ⟨[.component _ _ _], rfl, by simpa [FineItem] using ⟨hg, hp, textOrNone_attr he _⟩⟩

theorem readOutline2_fine {E : Env} {es : List Elem} : ∀ {ids ids' : List Str} {cs : List Call}, (∀ e ∈ es, AttrsOk e) → readOutline2 E true ids es = .ok (cs, ids') → FineCalls cs := by
  induction es with
  | nil => intro ids ids' cs _ h; cases h; exact .nil
  | cons e es ih =>
    intro ids ids' cs he h
    rw [List.forall_mem_cons] at he
    unfold readOutline2 at h
    split at h
    · cases h
    next cs1 ids1 h1 =>
    split at h
    · cases h
    next cs2 ids2 h2 =>
    cases h
    refine FineCalls.append ?_ (ih he.2 h2)
    split at h1
    · exact readContour2_fine he.1 h1
    split at h1
    · exact readComponent_fine he.1 h1
    · cases h1

theorem readContour1_fine {E : Env} {e : Elem} {cs : List Call} (he : AttrsOk e) (h : readContour1 E true e = .ok cs) : FineCalls cs := by
  unfold readContour1 at h
  split at h
  · cases h
  split at h
  · cases h
  next ps hps =>
  cases h
  refine ⟨[.contour .none (ps.map fun p => ⟨.tuple [p.x, p.y], orNone p.seg, .bool p.smooth, orNone p.name, .none⟩)], ?_, ?_⟩
  · simp [drawing, Item.calls, Pt.call]
  · intro it hit
    rw [List.mem_singleton] at hit
    subst hit
    exact fineContour (attrsOkList_iff.1 (attrsOk_iff.1 he).2.2) hps _ (fun _ => ⟨rfl, rfl, rfl, rfl, .inl rfl⟩) (.inl rfl)

/-- An anchor as format 1 has it. -/
def FineAnchor (v : PyVal) : Prop := ∃ x y n, v = anchorOf x y n ∧ Printable x ∧ Printable y ∧ XmlText n

theorem readAnchor1_fine {E : Env} {e : Elem} {a : PyVal} (he : AttrsOk e) (h : readAnchor1 E true e = .ok (some a)) : FineAnchor a := by
  unfold readAnchor1 at h
  split at h
  · cases h
  split at h
  · cases h
  next n hn =>
  split at h
  · cases h
  next x hx =>
  split at h
  · cases h
  next y hy =>
  cases h
  exact ⟨x, y, n, rfl, coordinate_printable hx, coordinate_printable hy, attr_xmlText he hn⟩

theorem contourAnchor1_fine {E : Env} {e : Elem} {a : PyVal} (he : AttrsOk e) (h : contourAnchor1 E true e = .ok (some a)) : FineAnchor a := by
  unfold contourAnchor1 at h
  split at h
  · next p hp =>
    split at h
    · have := (attrsOk_iff.1 he).2.2
      rw [hp] at this
      exact readAnchor1_fine this.1 h
    · cases h
  · cases h

theorem readOutline1_fine {E : Env} {es : List Elem} : ∀ {as : List PyVal} {cs : List Call}, (∀ e ∈ es, AttrsOk e) → readOutline1 E true true es = .ok (as, cs) →
    FineCalls cs ∧ ∀ a ∈ as, FineAnchor a := by
  induction es with
  | nil => intro as cs _ h; cases h; exact ⟨.nil, by simp⟩
  | cons e es ih =>
    intro as cs he h
    rw [List.forall_mem_cons] at he
    unfold readOutline1 at h
    split at h
    · cases h
    next as1 cs1 h1 =>
    split at h
    · cases h
    next as2 cs2 h2 =>
    cases h
    obtain ⟨i1, i2⟩ := ih he.2 h2
    have hk : FineCalls cs1 ∧ ∀ a ∈ as1, FineAnchor a := by
      unfold readItem1 at h1
      split at h1
      · split at h1
        · cases h1
        · next ha => cases h1; exact ⟨.nil, by simpa using contourAnchor1_fine he.1 ha⟩
        · rw [if_pos rfl] at h1
          cases hc : readContour1 E true e with
          | error x => rw [hc] at h1; cases h1
          | ok cs => rw [hc] at h1; cases h1; exact ⟨readContour1_fine he.1 hc, by simp⟩
      · split at h1
        · rw [if_pos rfl] at h1
          cases hc : readComponent E true 1 [] e with
          | error x => rw [hc] at h1; cases h1
          | ok r => rw [hc] at h1; cases h1; exact ⟨readComponent_fine he.1 hc, by simp⟩
        · cases h1
    exact ⟨hk.1.append i1, fun a ha => (List.mem_append.1 ha).elim (hk.2 a) (i2 a)⟩

/-! ### The drawing can be written -/

theorem attrTexts_str {E : Env} (hE : E.lxml = false) {l : List (Str × PyVal)} (hl : ∀ p ∈ l, ∃ s, p.2 = .str s) : ∃ a, attrTexts E l = .ok a := by
  induction l with
  | nil => exact ⟨[], rfl⟩
  | cons p l ih =>
    obtain ⟨k, v⟩ := p
    rw [List.forall_mem_cons] at hl
    obtain ⟨⟨s, hs⟩, hl⟩ := hl
    obtain ⟨a, ha⟩ := ih hl
    simp only at hs
    subst hs
    refine ⟨(k, s) :: a, ?_⟩
    rw [attrTexts, ha]
    simp [attrText, hE]

theorem newElement_str {E : Env} (hE : E.lxml = false) (tag : Str) {l : List (Str × PyVal)} (hl : ∀ p ∈ l, ∃ s, p.2 = .str s) : ∃ e, newElement E tag l = .ok e := by
  obtain ⟨a, ha⟩ := attrTexts_str hE hl
  exact ⟨_, by rw [newElement, ha]; rfl⟩

theorem optional_str {v : PyVal} (hv : TextOrNone v) (k : Str) : ∀ p ∈ optional k v, ∃ s, p.2 = .str s := by
  rcases hv with rfl | ⟨s, rfl, -⟩ <;> simp [optional]

theorem optionalRepr_str {E : Env} {v : PyVal} (k : Str) : ∀ p ∈ optionalRepr E k v, ∃ s, p.2 = .str s := by
  unfold optionalRepr
  split <;> simp

/-- Identifiers that can be added to those in use. -/
structure Fresh (ids new : List Str) : Prop where
  nodup : (ids ++ new).Nodup
  legal : ∀ i ∈ new, LegalIdentifier i

theorem Fresh.left {ids a b : List Str} (h : Fresh ids (a ++ b)) : Fresh ids a := by
  refine ⟨?_, fun i hi => h.legal i (List.mem_append_left _ hi)⟩
  have := h.nodup
  rw [← List.append_assoc] at this
  exact (List.nodup_append.1 this).1

theorem Fresh.right {ids a b : List Str} (h : Fresh ids (a ++ b)) : Fresh (ids ++ a) b :=
  ⟨by rw [List.append_assoc]; exact h.nodup, fun i hi => h.legal i (List.mem_append_right _ hi)⟩

theorem penIdentifier_succeeds {ids : List Str} {v : PyVal} (hv : TextOrNone v) (hf : Fresh ids (argument v)) :
    penIdentifier 2 true ids v = .ok (optional c!"identifier" v, ids ++ argument v) := by
  rcases hv with rfl | ⟨i, rfl, -⟩
  · simp [penIdentifier, optional, argument]
  · have h1 : i ∉ ids := by
      have := hf.nodup
      rw [argument, List.nodup_append] at this
      intro hi
      exact this.2.2 i hi i (by simp) rfl
    have h2 : identifierValidator (.str i) = true := identifier_iff.2 ⟨i, rfl, hf.legal i (by simp [argument])⟩
    simp [penIdentifier, addIdentifier, h1, h2, optional, argument]

/-- The point types the pen remembers. -/
def typeName : Option Str → PyVal
  | none => .str c!"offcurve"
  | some t => .str t

theorem tail_snoc_none (a : List (Option Str)) : tail (a ++ [none]) = tail a + 1 := by
  rw [tail_append]
  simp [Nat.add_comm]

theorem tail_snoc_some (a : List (Option Str)) (t : Str) : tail (a ++ [some t]) = 0 := by
  rw [tail_append_some]
  rfl

/-- The segment type of a point as an argument. -/
def segmentOf : Option Str → PyVal
  | none => .none
  | some t => .str t

/-- The state of a pen inside a contour. -/
structure Inside (s : Pen) (i : Nat) (a : List (Option Str)) : Prop where
  contour : s.contour = some i
  types : s.prevPointTypes = a.map typeName
  count : s.prevOffCurveCount = tail a

theorem typeAllowed_good {s : Pen} {i : Nat} {a b : List (Option Str)} {t : Option Str} (hs : Inside s i a) (hg : GoodContour (a ++ t :: b)) :
    typeAllowed s (segmentOf t) = true := by
  cases t with
  | none => simp [typeAllowed, segmentOf]
  | some t =>
    unfold typeAllowed segmentOf
    rw [hs.types, hs.count]
    have hmove : t = c!"move" → a = [] := fun h => hg.move a b (by rw [h])
    have hline : t = c!"move" ∨ t = c!"line" → (a.map typeName).getLast? ≠ some (.str c!"offcurve") := by
      intro ht hl
      have h1 := hg.line a b t rfl ht
      rcases List.eq_nil_or_concat a with rfl | ⟨a', x, rfl⟩
      · simp at hl
      · cases x with
        | none => exact h1 (b ++ a') (by simp)
        | some x =>
          simp [typeName] at hl
          subst hl
          have := hg.types c!"offcurve" (by simp)
          revert this
          decide
    have hcurve : t = c!"curve" → tail a ≤ 2 := by
      rintro rfl
      rw [tail_le_two]
      rintro s rfl
      exact hg.curve _ b rfl (b ++ s) (by simp)
    have e1 : ∀ u : Str, (PyVal.str t = .str u) = (t = u) := fun u => by simp
    simp only [e1]
    rw [if_neg, if_neg, if_neg]
    · rintro ⟨h1, h2⟩
      have := hcurve h1
      omega
    · rintro ⟨h1, h2⟩
      exact hline h1 h2
    · rintro ⟨h1, h2⟩
      rw [hmove h1] at h2
      exact h2 rfl

theorem addPoint_succeeds {E : Env} (hE : E.lxml = false) {s : Pen} {i : Nat} {a b : List (Option Str)} {p : Pt} (hp : FinePoint p) (hs : Inside s i a)
    (hg : GoodContour (a ++ fileType p.segmentType :: b)) (hf : Fresh s.identifiers (argument p.identifier)) :
    ∃ s', s.addPoint E 2 true p.pt p.segmentType p.smooth p.name p.identifier = (s', none) ∧ Inside s' i (a ++ [fileType p.segmentType]) ∧
      s'.identifiers = s.identifiers ++ argument p.identifier := by
  obtain ⟨x, y, hpt, hx, hy⟩ := hp.pt
  have hnum : ∀ v, Printable v → isNumber v = true := by rintro v (⟨i, rfl⟩ | ⟨f, rfl⟩) <;> rfl
  have hc : coordinates E true p.pt = .ok [(c!"x", .str (pyRepr E x)), (c!"y", .str (pyRepr E y))] := by
    rw [hpt]
    simp [coordinates, seq?, hnum x hx, hnum y hy]
  have hid := penIdentifier_succeeds hp.identifier hf
  have hok := typeAllowed_good hs hg
  have hattrs : ∀ (l : List (Str × PyVal)), (∀ q ∈ l, ∃ s, q.2 = .str s) → ∃ e, newElement E c!"point" (l ++ optional c!"name" p.name ++ optional c!"identifier" p.identifier) = .ok e := by
    intro l hl
    apply newElement_str hE
    intro q hq
    rcases List.mem_append.1 hq with hq | hq
    · rcases List.mem_append.1 hq with hq | hq
      · exact hl q hq
      · exact optional_str hp.name _ q hq
    · exact optional_str hp.identifier _ q hq
  unfold Pen.addPoint
  rw [hc]
  dsimp only
  rcases hp.type with ⟨ht, hsm⟩ | ⟨t, sm, ht, hne, hsm⟩
  · rw [ht] at hok ⊢
    rw [hsm]
    simp only [fileType, segmentOf] at hok ⊢
    obtain ⟨e, he⟩ := hattrs ([(c!"x", .str (pyRepr E x)), (c!"y", .str (pyRepr E y))] ++ optional c!"type" .none ++ []) (by simp [optional])
    simp only [reduceCtorEq, if_false, hok, Bool.not_true, Bool.and_false, Bool.false_eq_true, decide_true, truthy, Bool.false_and]
    unfold Pen.placePoint
    dsimp only
    rw [hid]
    dsimp only
    simp only [if_true, hs.contour, he]
    refine ⟨_, rfl, ⟨rfl, ?_, ?_⟩, rfl⟩
    · simp [hs.types, typeName]
    · simp [hs.count, tail_snoc_none]
  · rw [ht] at hok ⊢
    rw [hsm]
    have hft : fileType (.str t) = some t := by simp [fileType, hne]
    rw [hft] at hok ⊢
    simp only [segmentOf] at hok
    obtain ⟨e, he⟩ := hattrs ([(c!"x", .str (pyRepr E x)), (c!"y", .str (pyRepr E y))] ++ optional c!"type" (.str t) ++ (if truthy (.bool sm) = true then [(c!"smooth", .str c!"yes")] else []))
      (by cases sm <;> simp [optional, truthy])
    have hne' : ¬ (PyVal.str t = .str c!"offcurve") := by simpa using hne
    have hnn : ¬ (PyVal.str t = .none) := by simp
    rw [if_neg hne']
    simp only [hok, Bool.not_true, Bool.and_false, Bool.false_eq_true, if_false, hnn, decide_false]
    unfold Pen.placePoint
    dsimp only
    rw [hid]
    dsimp only
    simp only [hs.contour, he]
    refine ⟨_, rfl, ⟨rfl, ?_, ?_⟩, rfl⟩
    · simp [hs.types, typeName]
    · simp [tail_snoc_some]

theorem draw_cons {E : Env} {s s' : Pen} {c : Call} {cs : List Call} (h : s.step E 2 true c = (s', none)) : s.draw E 2 true (c :: cs) = s'.draw E 2 true cs := by
  rw [Pen.draw, h]

theorem points_succeed {E : Env} (hE : E.lxml = false) {l : List (Option Str)} (hg : GoodContour l) {i : Nat} : ∀ {ps : List Pt} {s : Pen} {a : List (Option Str)},
    l = a ++ ps.map (fun p => fileType p.segmentType) → Inside s i a → (∀ p ∈ ps, FinePoint p) → Fresh s.identifiers ((ps.map Pt.call).flatMap callIdentifier) →
    ∃ s', s.draw E 2 true (ps.map Pt.call) = .ok s' ∧ Inside s' i l ∧ s'.identifiers = s.identifiers ++ (ps.map Pt.call).flatMap callIdentifier := by
  intro ps
  induction ps with
  | nil =>
    intro s a hl hs _ _
    rw [List.map_nil, List.append_nil] at hl
    subst hl
    exact ⟨s, rfl, hs, by simp⟩
  | cons p ps ih =>
    intro s a hl hs hp hf
    rw [List.forall_mem_cons] at hp
    rw [List.map_cons] at hl
    rw [List.map_cons, List.flatMap_cons] at hf
    subst hl
    obtain ⟨s1, h1, h2, h3⟩ := addPoint_succeeds hE hp.1 hs hg hf.left
    have hf' := hf.right
    rw [show callIdentifier p.call = argument p.identifier from rfl, ← h3] at hf'
    obtain ⟨s', h4, h5, h6⟩ := ih (a := a ++ [fileType p.segmentType]) (by simp) h2 hp.2 hf'
    refine ⟨s', by rw [List.map_cons, draw_cons (c := p.call) (s' := s1) (by rw [Pt.call, Pen.step]; exact h1)]; exact h4, h5, ?_⟩
    rw [h6, h3, List.map_cons, List.flatMap_cons, List.append_assoc]
    rfl

/-- The state of a pen between contours. -/
def Outside (s : Pen) : Prop := s.prevPointTypes = []

theorem contour_succeeds {E : Env} (hE : E.lxml = false) {s : Pen} {i : PyVal} {ps : List Pt} (hs : Outside s) (h : FineItem (.contour i ps))
    (hf : Fresh s.identifiers ((Item.contour i ps).calls.flatMap callIdentifier)) :
    ∃ s', s.draw E 2 true (Item.contour i ps).calls = .ok s' ∧ Outside s' ∧ s'.identifiers = s.identifiers ++ (Item.contour i ps).calls.flatMap callIdentifier := by
  obtain ⟨h1, h2, h3⟩ := h
  have hcalls : (Item.contour i ps).calls.flatMap callIdentifier = argument i ++ (ps.map Pt.call).flatMap callIdentifier := by
    simp [Item.calls, callIdentifier]
  rw [hcalls] at hf ⊢
  obtain ⟨e, he⟩ := newElement_str hE c!"contour" (optional_str h1 c!"identifier")
  have hb : ∃ s1, s.step E 2 true (.beginPath i) = (s1, none) ∧ Inside s1 s.children.length [] ∧ s1.identifiers = s.identifiers ++ argument i := by
    rw [Pen.step, Pen.beginPath, penIdentifier_succeeds h1 hf.left]
    simp only [he]
    exact ⟨_, rfl, ⟨rfl, hs, rfl⟩, rfl⟩
  obtain ⟨s1, b1, b2, b3⟩ := hb
  obtain ⟨s2, p1, p2, p3⟩ := points_succeed hE h2 (a := []) rfl b2 h3 (by rw [b3]; exact hf.right)
  have hend : ∃ s3, s2.step E 2 true .endPath = (s3, none) ∧ Outside s3 ∧ s3.identifiers = s2.identifiers := by
    rw [Pen.step, Pen.endPath, if_neg, p2.contour]
    · exact ⟨_, rfl, rfl, rfl⟩
    · rw [p2.types]
      rintro ⟨-, e1, e2⟩
      generalize hl : (ps.map fun p => fileType p.segmentType) = l at h2 e1 e2
      cases l with
      | nil => simp at e1
      | cons t r =>
        cases t with
        | none =>
          simp only [List.map_cons, List.head?_cons, typeName, Option.some.injEq, PyVal.str.injEq] at e1
          revert e1
          decide
        | some t =>
          simp only [List.map_cons, List.head?_cons, typeName, Option.some.injEq, PyVal.str.injEq] at e1
          subst e1
          have h4 := h2.line [] r c!"move" rfl (.inl rfl)
          rw [List.append_nil] at h4
          rcases List.eq_nil_or_concat r with rfl | ⟨r', x, rfl⟩
          · simp only [List.map_cons, List.map_nil, List.getLast?_singleton, typeName, Option.some.injEq, PyVal.str.injEq] at e2
            revert e2
            decide
          · cases x with
            | none => exact h4 r' (by simp)
            | some x =>
              have e3 : x = c!"offcurve" := by simpa [List.getLast?_cons, typeName] using e2
              subst e3
              have := h2.types c!"offcurve" (by simp)
              revert this
              decide
  obtain ⟨s3, q1, q2, q3⟩ := hend
  refine ⟨s3, ?_, q2, by rw [q3, p3, b3, List.append_assoc]⟩
  rw [Item.calls, List.cons_append, draw_cons b1]
  refine draw_append p1 ?_
  rw [draw_cons q1]
  rfl

theorem componentTransformation_succeeds {E : Env} : ∀ {info : List (Str × PyVal)} {l : List PyVal}, (∀ v ∈ l, Printable v) →
    ∃ a, componentTransformation E true info l = .ok a ∧ ∀ p ∈ a, ∃ s, p.2 = .str s := by
  intro info
  induction info with
  | nil => intro l _; exact ⟨[], by cases l <;> rfl, by simp⟩
  | cons p info ih =>
    intro l hl
    obtain ⟨k, dflt⟩ := p
    cases l with
    | nil => exact ⟨[], rfl, by simp⟩
    | cons v l =>
      rw [List.forall_mem_cons] at hl
      obtain ⟨a, ha, hs⟩ := ih hl.2
      have hn : isNumber v = true := by rcases hl.1 with ⟨i, rfl⟩ | ⟨f, rfl⟩ <;> rfl
      rw [componentTransformation, hn]
      simp only [ha, Bool.not_true, Bool.and_false, Bool.false_eq_true, if_false]
      refine ⟨_, rfl, ?_⟩
      split
      · exact hs
      · rw [List.forall_mem_cons]
        exact ⟨⟨_, rfl⟩, hs⟩

theorem component_succeeds {E : Env} (hE : E.lxml = false) {s : Pen} {g t i : PyVal} (hs : Outside s) (h : FineItem (.component g t i)) (hf : Fresh s.identifiers (argument i)) :
    ∃ s', s.draw E 2 true (Item.component g t i).calls = .ok s' ∧ Outside s' ∧ s'.identifiers = s.identifiers ++ argument i := by
  obtain ⟨⟨g, rfl, -⟩, ⟨l, rfl, hl⟩, h3⟩ := h
  obtain ⟨a, ha, hstr⟩ := componentTransformation_succeeds (E := E) (info := transformationInfo) hl
  obtain ⟨e, he⟩ : ∃ e, newElement E c!"component" ((c!"base", .str g) :: a ++ optional c!"identifier" i) = .ok e := by
    apply newElement_str hE
    intro q hq
    rcases List.mem_append.1 hq with hq | hq
    · rcases List.mem_cons.1 hq with rfl | hq
      · exact ⟨_, rfl⟩
      · exact hstr q hq
    · exact optional_str h3 _ q hq
  have : ∃ s', s.step E 2 true (.addComponent (.str g) (.tuple l) i) = (s', none) ∧ Outside s' ∧ s'.identifiers = s.identifiers ++ argument i := by
    rw [Pen.step, Pen.addComponent]
    simp only [seq?, ha, penIdentifier_succeeds h3 hf, he]
    exact ⟨_, rfl, hs, rfl⟩
  obtain ⟨s', h4, h5⟩ := this
  exact ⟨s', by rw [Item.calls, draw_cons h4]; rfl, h5⟩

theorem drawing_succeeds {E : Env} (hE : E.lxml = false) : ∀ {d : List Item} {s : Pen}, Outside s → (∀ it ∈ d, FineItem it) → Fresh s.identifiers ((drawing d).flatMap callIdentifier) →
    ∃ s', s.draw E 2 true (drawing d) = .ok s' := by
  intro d
  induction d with
  | nil => intro s _ _ _; exact ⟨s, rfl⟩
  | cons it d ih =>
    intro s hs hd hf
    rw [List.forall_mem_cons] at hd
    rw [show drawing (it :: d) = it.calls ++ drawing d from rfl, List.flatMap_append] at hf
    have h1 : ∃ s1, s.draw E 2 true it.calls = .ok s1 ∧ Outside s1 ∧ s1.identifiers = s.identifiers ++ it.calls.flatMap callIdentifier := by
      cases it with
      | contour i ps => exact contour_succeeds hE hs hd.1 hf.left
      | component g t i =>
        have := hf.left
        simp only [Item.calls, List.flatMap_cons, List.flatMap_nil, List.append_nil, callIdentifier] at this ⊢
        exact component_succeeds hE hs hd.1 this
    obtain ⟨s1, h1, h2, h3⟩ := h1
    obtain ⟨s', h4⟩ := ih h2 hd.2 (by rw [h3]; exact hf.right)
    exact ⟨s', draw_append h1 h4⟩

end Verif.Glif
