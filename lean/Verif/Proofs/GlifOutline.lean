import Verif.Proofs.GlifSections
import Verif.Proofs.GlifContour
/-! Outlines: what the reader makes of what the pen wrote. -/
namespace Verif.Glif
open Verif Verif.Validators Verif.Spec.Validators Verif.Spec.Glif

/-! ### What the pen writes -/

/-- A point element. -/
structure PointElem (E : Env) (p : Pt) (e : Elem) : Prop where
  tag : e.tag = c!"point"
  children : e.children = []
  keys : ∀ k ∈ Dict.keys e.attrib, k ∈ pointAttributes 2
  coordinates : ∀ x y rest, IsSeq p.pt (x :: y :: rest) → Dict.get? e.attrib c!"x" = some (pyRepr E x) ∧ Dict.get? e.attrib c!"y" = some (pyRepr E y)
  type : Dict.get? e.attrib c!"type" = fileType p.segmentType
  typeNone : fileType p.segmentType = none → (p.segmentType = .none ∨ p.segmentType = .str c!"offcurve") ∧ truthy p.smooth = false
  smooth : Dict.get? e.attrib c!"smooth" = if truthy p.smooth then some c!"yes" else none
  name : orNone (Dict.get? e.attrib c!"name") = p.name
  identifier : orNone (Dict.get? e.attrib c!"identifier") = p.identifier

/-- A component element. -/
structure ComponentElem (E : Env) (g t i : PyVal) (e : Elem) : Prop where
  tag : e.tag = c!"component"
  children : e.children = []
  keys : ∀ k ∈ Dict.keys e.attrib, k ∈ componentAttributes 2
  base : ∃ s, Dict.get? e.attrib c!"base" = some s ∧ g = .str s
  transformation : ∃ l attrs, seq? t = some l ∧ componentTransformation E true transformationInfo l = .ok attrs ∧
    ∀ k ∈ transformationInfo.map Prod.fst, (Dict.get? e.attrib k).map PyVal.str = Dict.get? attrs k
  identifier : orNone (Dict.get? e.attrib c!"identifier") = i

/-- The element for an item. -/
inductive ItemElem (E : Env) : Item → Elem → Prop
  | contour (i : PyVal) (ps : List Pt) (e : Elem) (tag : e.tag = c!"contour") (keys : ∀ k ∈ Dict.keys e.attrib, k = c!"identifier")
      (identifier : orNone (Dict.get? e.attrib c!"identifier") = i) (points : List.Forall₂ (PointElem E) ps e.children) : ItemElem E (.contour i ps) e
  | component (g t i : PyVal) (e : Elem) (h : ComponentElem E g t i e) : ItemElem E (.component g t i) e

theorem penIdentifier_attrs {ids ids' : List Str} {i : PyVal} {a : List (Str × PyVal)} (h : penIdentifier 2 true ids i = .ok (a, ids')) :
    a = optional c!"identifier" i := by
  unfold penIdentifier at h
  split at h
  · next hn =>
    cases h
    rw [hn.resolve_right (by decide)]
    rfl
  · next hn =>
    split at h
    · cases h
    split at h
    · cases h
    cases h
    cases i <;> simp_all [optional]

theorem orNone_optional {o : Option Str} {k : Str} {v : PyVal} (h : o.map PyVal.str = Dict.get? (optional k v) k) : orNone o = v := by
  rw [get?_optional] at h
  cases o with
  | none => by_cases hv : v = .none <;> simp_all [orNone]
  | some s => by_cases hv : v = .none <;> simp_all [orNone]

theorem keys_newElement {E : Env} {tag : Str} {attrs : List (Str × PyVal)} {e : Elem} (h : newElement E tag attrs = .ok e) : Dict.keys e.attrib = attrs.map Prod.fst := by
  obtain ⟨a, rfl, rfl⟩ := newElement_eq h
  rw [List.map_map]
  rfl

theorem keys_optional {k k' : Str} {v : PyVal} (h : k' ∈ (optional k v).map Prod.fst) : k' = k := by
  cases v <;> simp [optional] at h <;> exact h

theorem coordinates_ok {E : Env} {pt : PyVal} {a : List (Str × PyVal)} (h : coordinates E true pt = .ok a) :
    a = [] ∨ ∃ x y rest, seq? pt = some (x :: y :: rest) ∧ a = [(c!"x", .str (pyRepr E x)), (c!"y", .str (pyRepr E y))] := by
  unfold coordinates at h
  split at h
  · cases h; exact .inl rfl
  split at h
  · cases h
  next l hl =>
  split at h
  · cases h
  split at h
  · cases h; exact .inr ⟨_, _, _, hl, rfl⟩
  · cases h

theorem seq?_isSeq {v : PyVal} {l : List PyVal} : seq? v = some l ↔ IsSeq v l := by
  unfold IsSeq
  cases v <;> simp [seq?]

theorem modify_last {α : Type} (pre : List α) (c : α) (f : α → α) : (pre ++ [c]).modify pre.length f = pre ++ [f c] := by
  induction pre with
  | nil => rfl
  | cons x pre ih => simpa using ih

theorem addPoint_elem {E : Env} {s s' : Pen} {p : Pt} {pre : List Elem} {c : Elem} (hc : s.children = pre ++ [c]) (hi : s.contour = some pre.length)
    (h : s.addPoint E 2 true p.pt p.segmentType p.smooth p.name p.identifier = (s', none)) :
    ∃ e, s'.children = pre ++ [appendChild e c] ∧ s'.contour = some pre.length ∧
      ((∃ x y rest, IsSeq p.pt (x :: y :: rest)) → PointElem E p e) := by
  unfold Pen.addPoint at h
  split at h
  · cases h
  next coords hcoords =>
  obtain ⟨t, ht⟩ : ∃ t, t = if p.segmentType = .str c!"offcurve" then PyVal.none else p.segmentType := ⟨_, rfl⟩
  simp only [← ht] at h
  split at h
  · cases h
  split at h
  · cases h
  next hsm =>
  unfold Pen.placePoint at h
  split at h
  · cases h
  next idAttrs ids hid =>
  rw [penIdentifier_attrs hid] at h
  simp only [hi] at h
  split at h
  · cases h
  · next hne => cases hne
  next e i he hii =>
  cases hii
  cases h
  refine ⟨e, by rw [hc, modify_last], rfl, ?_⟩
  rintro ⟨x0, y0, rest0, hseq⟩
  obtain ⟨x, y, rest, hpt, rfl⟩ := (coordinates_ok hcoords).resolve_left (by
    rintro rfl
    unfold coordinates at hcoords
    split at hcoords
    · next hn => rw [hn] at hseq; rcases hseq with h | h <;> cases h
    · rw [seq?_isSeq.2 hseq] at hcoords
      simp only at hcoords
      split at hcoords <;> cases hcoords)
  have hget := newElement_get? he
  have hkeys := keys_newElement he
  have htype : Dict.get? e.attrib c!"type" = fileType p.segmentType ∧ (fileType p.segmentType = none → p.segmentType = .none ∨ p.segmentType = .str c!"offcurve") := by
    have h1 := hget c!"type"
    simp only [List.cons_append, List.nil_append, Dict.get?_cons, Dict.get?_append, get?_optional, show ¬ c!"x" = c!"type" by decide, show ¬ c!"y" = c!"type" by decide,
      show ¬ c!"name" = c!"type" by decide, show ¬ c!"identifier" = c!"type" by decide, false_and, if_false] at h1
    have h2 : Dict.get? (if truthy p.smooth = true then [(c!"smooth", PyVal.str c!"yes")] else []) c!"type" = none := by split <;> rfl
    rw [h2] at h1
    simp only [Option.or_none, true_and] at h1
    rw [ht] at h1
    by_cases ho : p.segmentType = .str c!"offcurve"
    · rw [if_pos ho] at h1
      simp only [ne_eq, not_true_eq_false, if_false, Option.map_eq_none_iff] at h1
      rw [h1, ho]
      exact ⟨rfl, fun _ => .inr rfl⟩
    · rw [if_neg ho] at h1
      by_cases hn : p.segmentType = .none
      · rw [if_neg (by simpa using hn), Option.map_eq_none_iff] at h1
        rw [h1, hn]
        exact ⟨rfl, fun _ => .inl rfl⟩
      · rw [if_pos hn, Option.map_eq_some_iff] at h1
        obtain ⟨s, hs, hs'⟩ := h1
        rw [hs, ← hs']
        rw [← hs'] at ho
        have hne : s ≠ c!"offcurve" := fun h => ho (by rw [h])
        simp only [fileType, hne, if_false]
        exact ⟨trivial, fun h => by cases h⟩
  constructor
  · exact (newElement_identifier he).2.2
  · exact (newElement_identifier he).2.1
  · intro k hk
    rw [hkeys] at hk
    simp only [List.map_append, List.mem_append] at hk
    rcases hk with (((hk | hk) | hk) | hk) | hk
    · simp at hk; rcases hk with rfl | rfl <;> decide
    · rw [keys_optional hk]; decide
    · split at hk
      · simp at hk; rw [hk]; decide
      · simp at hk
    · rw [keys_optional hk]; decide
    · rw [keys_optional hk]; decide
  · intro x' y' rest' hs'
    rw [seq?_isSeq.2 hs'] at hpt
    cases hpt
    exact ⟨newElement_get?_eq he (o := some _) rfl, newElement_get?_eq he (o := some _) rfl⟩
  · exact htype.1
  · intro hn
    refine ⟨htype.2 hn, ?_⟩
    have hoff : t = .none := by
      rw [ht]
      rcases htype.2 hn with h | h <;> rw [h] <;> rfl
    rw [hoff] at hsm
    simpa using hsm
  · apply newElement_get?_eq he
    simp only [List.cons_append, List.nil_append, Dict.get?_cons, Dict.get?_append, get?_optional, show ¬ c!"x" = c!"smooth" by decide, show ¬ c!"y" = c!"smooth" by decide,
      show ¬ c!"type" = c!"smooth" by decide, show ¬ c!"name" = c!"smooth" by decide, show ¬ c!"identifier" = c!"smooth" by decide, false_and, if_false]
    cases truthy p.smooth <;> rfl
  · apply orNone_optional (k := c!"name")
    rw [hget]
    simp only [List.cons_append, List.nil_append, Dict.get?_cons, Dict.get?_append, get?_optional, show ¬ c!"x" = c!"name" by decide, show ¬ c!"y" = c!"name" by decide,
      show ¬ c!"type" = c!"name" by decide, show ¬ c!"identifier" = c!"name" by decide, false_and, if_false]
    cases truthy p.smooth <;> simp [Dict.get?]
  · apply orNone_optional (k := c!"identifier")
    rw [hget]
    simp only [List.cons_append, List.nil_append, Dict.get?_cons, Dict.get?_append, get?_optional, show ¬ c!"x" = c!"identifier" by decide, show ¬ c!"y" = c!"identifier" by decide,
      show ¬ c!"type" = c!"identifier" by decide, show ¬ c!"name" = c!"identifier" by decide, false_and, if_false]
    cases truthy p.smooth <;> simp [Dict.get?]

theorem drawPoints {E : Env} {rest : List Call} {s' : Pen} {pre : List Elem} : ∀ {ps : List Pt} {s : Pen} {c : Elem}, s.children = pre ++ [c] → s.contour = some pre.length →
    (∀ p ∈ ps, ∃ x y rest, IsSeq p.pt (x :: y :: rest)) → s.draw E 2 true (ps.map Pt.call ++ rest) = .ok s' →
    ∃ (s1 : Pen) (es : List Elem), s1.draw E 2 true rest = .ok s' ∧ s1.children = pre ++ [.mk c.tag c.attrib c.text c.tail (c.children ++ es)] ∧ s1.contour = some pre.length ∧
      List.Forall₂ (PointElem E) ps es := by
  intro ps
  induction ps with
  | nil =>
    intro s c hc hi _ h
    refine ⟨s, [], h, ?_, hi, .nil⟩
    rw [hc]
    cases c
    simp [Elem.tag, Elem.attrib, Elem.text, Elem.tail, Elem.children]
  | cons p ps ih =>
    intro s c hc hi hps h
    rw [List.map_cons, List.cons_append, Pen.draw] at h
    split at h
    · cases h
    next s1 h1 =>
    obtain ⟨e, g1, g2, g3⟩ := addPoint_elem hc hi h1
    obtain ⟨s2, es, k1, k2, k3, k4⟩ := ih g1 g2 (fun p hp => hps p (List.mem_cons_of_mem _ hp)) h
    refine ⟨s2, e :: es, k1, ?_, k3, .cons (g3 (hps p List.mem_cons_self)) k4⟩
    rw [k2]
    cases c
    simp [appendChild, Elem.tag, Elem.attrib, Elem.text, Elem.tail, Elem.children]

theorem drawContour {E : Env} {rest : List Call} {s s' : Pen} {i : PyVal} {ps : List Pt} (hps : ∀ p ∈ ps, ∃ x y rest, IsSeq p.pt (x :: y :: rest))
    (h : s.draw E 2 true ((Item.contour i ps).calls ++ rest) = .ok s') :
    ∃ (s1 : Pen) (e : Elem), s1.draw E 2 true rest = .ok s' ∧ s1.children = s.children ++ [e] ∧ ItemElem E (.contour i ps) e := by
  rw [Item.calls, List.cons_append, List.cons_append, List.append_assoc, List.singleton_append, Pen.draw] at h
  split at h
  · cases h
  next s1 h1 =>
  change s.beginPath E 2 true i = _ at h1
  unfold Pen.beginPath at h1
  split at h1
  · cases h1
  next attrs ids hid =>
  rw [penIdentifier_attrs hid] at h1
  split at h1
  · cases h1
  next e he =>
  cases h1
  obtain ⟨s2, es, k1, k2, k3, k4⟩ := drawPoints (pre := s.children) (c := e) rfl rfl hps h
  rw [Pen.draw] at k1
  split at k1
  · cases k1
  next s3 h3 =>
  change s2.endPath true = _ at h3
  unfold Pen.endPath at h3
  split at h3
  · cases h3
  rw [k3] at h3
  simp only at h3
  cases h3
  rw [k2] at k1
  refine ⟨_, fillEmpty (.mk e.tag e.attrib e.text e.tail (e.children ++ es)), k1, ?_, ?_⟩
  · simp only [modify_last]
  · have hch := (newElement_identifier he).2.1
    refine .contour _ _ _ (newElement_identifier he).2.2 ?_ ?_ ?_
    · intro k hk
      rw [show (fillEmpty (.mk e.tag e.attrib e.text e.tail (e.children ++ es))).attrib = e.attrib from rfl, keys_newElement he] at hk
      exact keys_optional hk
    · exact orNone_optional (k := c!"identifier") (newElement_get? he _)
    · rw [show (fillEmpty (.mk e.tag e.attrib e.text e.tail (e.children ++ es))).children = e.children ++ es from rfl, hch]
      exact k4

theorem componentTransformation_sublist {E : Env} {info : List (Str × PyVal)} : ∀ {l : List PyVal} {a : List (Str × PyVal)}, componentTransformation E true info l = .ok a →
    (a.map Prod.fst).Sublist (info.map Prod.fst) := by
  induction info with
  | nil => intro l a h; rw [componentTransformation] at h; cases h; exact .slnil; simp
  | cons p info ih =>
    intro l a h
    obtain ⟨k, dflt⟩ := p
    cases l with
    | nil => rw [componentTransformation] at h; cases h; exact List.nil_sublist _; simp
    | cons v l =>
      rw [componentTransformation] at h
      split at h
      · cases h
      split at h
      · cases h
      next r hr =>
      cases h
      split
      · exact (ih hr).cons _
      · exact (ih hr).cons_cons _

theorem drawComponent {E : Env} {rest : List Call} {s s' : Pen} {g t i : PyVal} (h : s.draw E 2 true ((Item.component g t i).calls ++ rest) = .ok s') :
    ∃ (s1 : Pen) (e : Elem), s1.draw E 2 true rest = .ok s' ∧ s1.children = s.children ++ [e] ∧ ItemElem E (.component g t i) e := by
  rw [Item.calls, List.singleton_append, Pen.draw] at h
  split at h
  · cases h
  next s1 h1 =>
  change s.addComponent E 2 true g t i = _ at h1
  unfold Pen.addComponent at h1
  split at h1
  · cases h1
  next l hl =>
  split at h1
  · cases h1
  next attrs hattrs =>
  split at h1
  · cases h1
  next idAttrs ids hid =>
  rw [penIdentifier_attrs hid] at h1
  split at h1
  · cases h1
  next e he =>
  cases h1
  have hsub := componentTransformation_sublist hattrs
  have hnot : ∀ k, k ∉ transformationInfo.map Prod.fst → Dict.get? attrs k = none := fun k hk => Dict.get?_eq_none_iff.2 fun h => hk (hsub.subset h)
  refine ⟨_, e, h, rfl, .component _ _ _ _ ⟨(newElement_identifier he).2.2, (newElement_identifier he).2.1, ?_, ?_, ?_, ?_⟩⟩
  · intro k hk
    rw [keys_newElement he, List.map_append, List.map_cons, List.mem_append, List.mem_cons] at hk
    rw [componentAttributes, List.mem_append, List.mem_cons]
    rcases hk with (rfl | hk) | hk
    · exact .inl (.inl rfl)
    · exact .inl (.inr (hsub.subset hk))
    · rw [keys_optional hk]; exact .inr (by simp)
  · have := newElement_get? he c!"base"
    rw [List.cons_append, Dict.get?_cons, if_pos rfl, Option.map_eq_some_iff] at this
    obtain ⟨s, h1, h2⟩ := this
    exact ⟨s, h1, h2.symm⟩
  · refine ⟨l, attrs, hl, hattrs, fun k hk => ?_⟩
    have h1 : c!"base" ≠ k ∧ c!"identifier" ≠ k := by
      constructor <;> rintro rfl <;> revert hk <;> decide
    rw [newElement_get? he, List.cons_append, Dict.get?_cons, if_neg h1.1, Dict.get?_append, get?_optional, if_neg fun h => h1.2 h.1]
    simp
  · apply orNone_optional (k := c!"identifier")
    rw [newElement_get? he, List.cons_append, Dict.get?_cons, if_neg (show ¬ c!"base" = c!"identifier" by decide), Dict.get?_append, hnot _ (by decide)]
    rfl

theorem draw_items {E : Env} {s' : Pen} : ∀ {d : List Item} {s : Pen}, (∀ it ∈ d, ∀ i ps, it = .contour i ps → ∀ p ∈ ps, ∃ x y rest, IsSeq p.pt (x :: y :: rest)) →
    s.draw E 2 true (drawing d) = .ok s' → ∃ es, s'.children = s.children ++ es ∧ List.Forall₂ (ItemElem E) d es := by
  intro d
  induction d with
  | nil => intro s _ h; cases h; exact ⟨[], by simp, .nil⟩
  | cons it d ih =>
    intro s hd h
    rw [drawing, List.flatMap_cons] at h
    have hstep : ∃ (s1 : Pen) (e : Elem), s1.draw E 2 true (drawing d) = .ok s' ∧ s1.children = s.children ++ [e] ∧ ItemElem E it e := by
      cases it with
      | contour i ps => exact drawContour (hd _ List.mem_cons_self i ps rfl) h
      | component g t i => exact drawComponent h
    obtain ⟨s1, e, h1, h2, h3⟩ := hstep
    obtain ⟨es, h4, h5⟩ := ih (fun it hit => hd it (List.mem_cons_of_mem _ hit)) h1
    exact ⟨e :: es, by rw [h4, h2, List.append_assoc, List.singleton_append], .cons h3 h5⟩

/-! ### What the reader makes of it -/

theorem forall₂_right {α β : Type} {P : α → β → Prop} {l : List α} {l' : List β} (h : List.Forall₂ P l l') : ∀ b ∈ l', ∃ a ∈ l, P a b := by
  induction h with
  | nil => simp
  | cons h _ ih =>
    rw [List.forall_mem_cons]
    exact ⟨⟨_, List.mem_cons_self, h⟩, fun b hb => by obtain ⟨a, ha, hp⟩ := ih b hb; exact ⟨a, List.mem_cons_of_mem _ ha, hp⟩⟩

theorem tail_wrap (a b : List (Option Str)) : tail (List.replicate (tail b) none ++ a) = tail (b ++ a) := by
  rw [tail_append, tail_append, tail_replicate]

theorem segmentsOk_good {l : List MPoint} (h : GoodContour (l.map MPoint.seg)) : segmentsOk (trailing l) l = true := by
  rw [segmentsOk_iff]
  intro a t b hl
  rw [trailing_eq, hl, tail_append_some, tail_wrap, tail_eq_zero, tail_le_two]
  exact ⟨fun ht => h.line a b t hl ht, fun ht => h.curve a b (by rw [hl, ht])⟩

/-- The massaged point for a point. -/
structure PointRead (p : Pt) (m : MPoint) : Prop where
  seg : m.seg = fileType p.segmentType
  identifier : orNone m.identifier = p.identifier
  call : SameCall p.call (pointCall m)

theorem massagePoint_read {E : Env} (hF : E.F.Lawful) {fv : Nat} {p : Pt} {e : Elem} {index : Nat} (he : PointElem E p e) (hkeys : ∀ k ∈ Dict.keys e.attrib, k ∈ pointAttributes fv) (hp : ∃ x y rest, IsSeq p.pt (x :: y :: rest) ∧ Printable x ∧ Printable y)
    (ht : ∀ t, fileType p.segmentType = some t → t = c!"move" ∨ t = c!"line" ∨ t = c!"curve" ∨ t = c!"qcurve") (hm : fileType p.segmentType = some c!"move" → index = 0) :
    ∃ m, massagePoint E true fv index e = .ok m ∧ PointRead p m ∧ m.identifier = Dict.get? e.attrib c!"identifier" := by
  obtain ⟨x, y, rest, hseq, hx, hy⟩ := hp
  obtain ⟨gx, gy⟩ := he.coordinates x y rest hseq
  have hk : (Dict.keys e.attrib).all (fun a => decide (a ∈ pointAttributes fv)) = true := by
    rw [List.all_eq_true]
    intro a ha
    exact decide_eq_true (hkeys a ha)
  have hopt : ((fileType p.segmentType).getD c!"offcurve") ∈ pointTypeOptions := by
    rcases hft : fileType p.segmentType with _ | t
    · decide
    · rcases ht t hft with rfl | rfl | rfl | rfl <;> decide
  have hmv : (decide ((fileType p.segmentType).getD c!"offcurve" = c!"move") && decide (index ≠ 0)) = false := by
    rcases hft : fileType p.segmentType with _ | t
    · rfl
    · by_cases h : t = c!"move"
      · subst h; simp [hm hft]
      · simp [h]
  have hoff : ∀ t, fileType p.segmentType = some t → t ≠ c!"offcurve" := by
    rintro t h rfl
    rcases ht _ h with h | h | h | h <;> revert h <;> decide
  refine ⟨⟨x, y, fileType p.segmentType, truthy p.smooth, Dict.get? e.attrib c!"name", Dict.get? e.attrib c!"identifier"⟩, ?_, ⟨rfl, he.identifier, ?_⟩, rfl⟩
  · unfold massagePoint
    rw [if_neg (by simp [he.tag]), hk, he.children, gx, gy, coordinate, coordinate, number_repr hF hx, number_repr hF hy]
    simp only [Bool.not_true, Bool.and_false, Bool.false_eq_true, if_false, List.isEmpty_nil]
    rw [he.type, he.smooth, hmv]
    simp only [hopt, decide_true, Bool.not_true, Bool.and_false, Bool.false_eq_true, if_false]
    rcases hft : fileType p.segmentType with _ | t
    · rw [(he.typeNone hft).2]
      rfl
    · have := hoff t hft
      cases truthy p.smooth <;> simp [this]
  · rcases hft : fileType p.segmentType with _ | t
    · obtain ⟨h1, h2⟩ := he.typeNone hft
      have := SameCall.offcurve p.pt x y rest p.segmentType p.smooth p.name p.identifier hseq h1
      rw [pointCall, he.name, he.identifier]
      exact this
    · have h1 : p.segmentType = .str t := by
        cases hs : p.segmentType <;> rw [hs] at hft <;> simp [fileType] at hft
        rw [hft.2]
      have := SameCall.oncurve p.pt x y rest p.segmentType p.smooth p.name p.identifier hseq ⟨by rw [h1]; simp, by rw [h1]; simpa using hoff t hft⟩
      rw [pointCall, he.name, he.identifier]
      rw [h1] at this
      rw [Pt.call, h1]
      exact this

theorem massagePoints_read {E : Env} (hF : E.F.Lawful) {fv : Nat} {ps : List Pt} {es : List Elem} (h : List.Forall₂ (PointElem E) ps es) : ∀ {index : Nat},
    (∀ e ∈ es, ∀ k ∈ Dict.keys e.attrib, k ∈ pointAttributes fv) →
    (∀ p ∈ ps, ∃ x y rest, IsSeq p.pt (x :: y :: rest) ∧ Printable x ∧ Printable y) →
    (∀ p ∈ ps, ∀ t, fileType p.segmentType = some t → t = c!"move" ∨ t = c!"line" ∨ t = c!"curve" ∨ t = c!"qcurve") →
    (∀ a p b, ps = a ++ p :: b → fileType p.segmentType = some c!"move" → index + a.length = 0) →
    ∃ ms, massagePoints E true fv index es = .ok ms ∧ List.Forall₂ PointRead ps ms ∧ ms.map MPoint.identifier = es.map fun e => Dict.get? e.attrib c!"identifier" := by
  induction h with
  | nil => intro _ _ _ _ _; exact ⟨[], rfl, .nil, rfl⟩
  | @cons p e ps es he _ ih =>
    intro index h0 h1 h2 h3
    obtain ⟨m, g1, g2, g3⟩ := massagePoint_read hF (index := index) he (h0 e List.mem_cons_self) (h1 p List.mem_cons_self) (h2 p List.mem_cons_self) (fun hm => by simpa using h3 [] p ps rfl hm)
    obtain ⟨ms, k1, k2, k3⟩ := ih (index := index + 1) (fun e he => h0 e (List.mem_cons_of_mem _ he)) (fun p hp => h1 p (List.mem_cons_of_mem _ hp)) (fun p hp => h2 p (List.mem_cons_of_mem _ hp))
      (fun a q b hab hm => by have := h3 (p :: a) q b (by rw [hab]; rfl) hm; simp at this)
    exact ⟨m :: ms, by rw [massagePoints, g1, k1], .cons g2 k2, by rw [List.map_cons, List.map_cons, g3, k3]⟩

theorem lenient_good {fv : Nat} {l : List MPoint} (h : GoodContour (l.map MPoint.seg)) : lenient fv l = l := by
  cases l with
  | nil => rfl
  | cons p ps =>
    rw [lenient]
    split
    · next hm =>
      unfold dropTrailing
      rw [List.dropWhile_eq_self_iff.2, List.reverse_reverse]
      intro hl hn
      have := h.line [] (ps.map MPoint.seg) c!"move" (by rw [List.map_cons, hm.2]; rfl) (.inl rfl)
      rw [List.append_nil] at this
      rw [← List.head_eq_getElem (List.ne_nil_of_length_pos hl), List.head_reverse] at hn
      rcases List.eq_nil_or_concat ps with rfl | ⟨q, x, rfl⟩
      · simp [hm.2] at hn
      · simp only [List.concat_eq_append, ← List.cons_append, List.getLast_append_singleton, Option.isNone_iff_eq_none] at hn
        exact this (q.map MPoint.seg) (by simp [hn])
    · rfl

theorem massage_read {E : Env} (hF : E.F.Lawful) {fv : Nat} {ps : List Pt} {es : List Elem} (h : List.Forall₂ (PointElem E) ps es)
    (h0 : ∀ e ∈ es, ∀ k ∈ Dict.keys e.attrib, k ∈ pointAttributes fv)
    (h1 : ∀ p ∈ ps, ∃ x y rest, IsSeq p.pt (x :: y :: rest) ∧ Printable x ∧ Printable y) (hg : GoodContour (ps.map fun p => fileType p.segmentType)) :
    ∃ ms, massage E true fv es = .ok ms ∧ List.Forall₂ PointRead ps ms ∧ ms.map MPoint.identifier = es.map fun e => Dict.get? e.attrib c!"identifier" := by
  obtain ⟨ms, k1, k2, k3⟩ := massagePoints_read hF h (index := 0) h0 h1 (fun p hp t ht => hg.types t (ht ▸ List.mem_map_of_mem hp))
    (fun a p b hab hm => by
      have := hg.move (a.map fun p => fileType p.segmentType) (b.map fun p => fileType p.segmentType) (by rw [hab]; simp [hm])
      simpa using this)
  have hs : ms.map MPoint.seg = ps.map fun p => fileType p.segmentType := by
    clear h h1 h0 hg k1 k3
    induction k2 with
    | nil => rfl
    | cons hp _ ih => rw [List.map_cons, List.map_cons, hp.seg, ih]
  have hl : lenient fv ms = ms := lenient_good (hs ▸ hg)
  refine ⟨ms, ?_, k2, k3⟩
  unfold massage
  rw [k1]
  simp only [hl]
  rw [segmentsOk_good (hs ▸ hg)]
  simp

theorem readIdentifier_fresh {ids : List Str} {o : Option Str} (hn : (ids ++ o.toList).Nodup) (hl : ∀ i ∈ o.toList, LegalIdentifier i) :
    readIdentifier true ids o = .ok (ids ++ o.toList) := by
  cases o with
  | none => simp [readIdentifier]
  | some i =>
    have h1 : i ∉ ids := fun h => by
      rw [List.nodup_append] at hn
      exact hn.2.2 i h i (by simp) rfl
    have h2 : identifierValidator (.str i) = true := identifier_iff.2 ⟨i, rfl, hl i (by simp)⟩
    simp [readIdentifier, h1, h2]

theorem readPoints2_read {ps : List Pt} {ms : List MPoint} (h : List.Forall₂ PointRead ps ms) : ∀ {ids : List Str}, (ids ++ ms.flatMap fun m => m.identifier.toList).Nodup →
    (∀ i ∈ ms.flatMap fun m => m.identifier.toList, LegalIdentifier i) →
    ∃ cs, readPoints2 true ids ms = .ok (cs, ids ++ ms.flatMap fun m => m.identifier.toList) ∧ List.Forall₂ SameCall (ps.map Pt.call) cs := by
  induction h with
  | nil => intro ids _ _; exact ⟨[], by simp [readPoints2], .nil⟩
  | @cons p m ps ms hp _ ih =>
    intro ids hn hl
    rw [List.flatMap_cons, ← List.append_assoc] at hn
    rw [List.flatMap_cons] at hl
    obtain ⟨cs, h1, h2⟩ := ih hn (fun i hi => hl i (List.mem_append_right _ hi))
    refine ⟨pointCall m :: cs, ?_, .cons hp.call h2⟩
    rw [readPoints2, readIdentifier_fresh (List.Nodup.of_append_left hn) (fun i hi => hl i (List.mem_append_left _ hi))]
    simp only [h1, List.flatMap_cons, List.append_assoc]

/-- The values with defaults. -/
def padInfo (info : List (Str × PyVal)) (l : List PyVal) : List PyVal := l.take info.length ++ (info.map Prod.snd).drop l.length

theorem readTransformation_read {E : Env} (hF : E.F.Lawful) {attrib : Dict Str Str} {info : List (Str × PyVal)} : ∀ {l : List PyVal} {attrs : List (Str × PyVal)},
    (info.map Prod.fst).Nodup → (∀ v ∈ l, Printable v) → componentTransformation E true info l = .ok attrs →
    (∀ k ∈ info.map Prod.fst, (Dict.get? attrib k).map PyVal.str = Dict.get? attrs k) →
    ∃ l', readTransformation E.F attrib info = .ok l' ∧ List.Forall₂ (fun p w => SameNumber p.1 p.2 w) ((info.map Prod.snd).zip (padInfo info l)) l' := by
  induction info with
  | nil => intro l attrs _ _ _ _; exact ⟨[], rfl, by simp [padInfo]⟩
  | cons p info ih =>
    intro l attrs hn hl hc hg
    obtain ⟨k, dflt⟩ := p
    rw [List.map_cons, List.nodup_cons] at hn
    rw [List.map_cons, List.forall_mem_cons] at hg
    cases l with
    | nil =>
      rw [componentTransformation] at hc
      · cases hc
        have h0 := hg.1
        simp only [Dict.get?, Option.map_eq_none_iff] at h0
        obtain ⟨l', h1, h2⟩ := ih (l := []) (attrs := []) hn.2 (by simp) (by cases info <;> rfl) (fun k hk => by rw [hg.2 k hk])
        refine ⟨dflt :: l', ?_, ?_⟩
        · rw [readTransformation, h0, h1]; rfl
        · exact .cons (.inl rfl) (by simp only [padInfo, List.take_nil, List.length_nil, List.drop_zero, List.nil_append] at h2 ⊢; exact h2)
      · simp
    | cons v l =>
      rw [List.forall_mem_cons] at hl
      rw [componentTransformation] at hc
      split at hc
      · cases hc
      split at hc
      · cases hc
      next r hr =>
      cases hc
      have hrk : Dict.get? r k = none := Dict.get?_eq_none_iff.2 fun h => hn.1 ((componentTransformation_sublist hr).subset h)
      obtain ⟨l', h1, h2⟩ := ih hn.2 hl.2 hr (fun k' hk' => by
        rw [hg.2 k' hk']
        split
        · rfl
        · rw [Dict.get?_cons, if_neg]
          rintro rfl
          exact hn.1 hk')
      have h0 := hg.1
      by_cases hd : PyVal.pyEq v dflt = true
      · rw [if_pos hd, hrk, Option.map_eq_none_iff] at h0
        exact ⟨dflt :: l', by rw [readTransformation, h0, h1]; rfl, by simp only [padInfo, List.length_cons, List.take_succ_cons, List.map_cons, List.drop_succ_cons]; exact .cons (.inr ⟨rfl, hd⟩) h2⟩
      · rw [if_neg hd, Dict.get?_cons, if_pos rfl, Option.map_eq_some_iff] at h0
        obtain ⟨s, hs, hs'⟩ := h0
        cases hs'
        refine ⟨v :: l', ?_, by simp only [padInfo, List.length_cons, List.take_succ_cons, List.map_cons, List.drop_succ_cons]; exact .cons (.inl rfl) h2⟩
        rw [readTransformation, hs, numberOr, number_repr hF hl.1, h1]

theorem readItem {E : Env} (hF : E.F.Lawful) {it : Item} {e : Elem} (h : ItemElem E it e) (hr : Readable it) {ids : List Str}
    (hn : (ids ++ (ownIdentifier e ++ e.children.flatMap ownIdentifier)).Nodup) (hl : ∀ i ∈ ownIdentifier e ++ e.children.flatMap ownIdentifier, LegalIdentifier i) :
    ∃ cs, (if e.tag = c!"contour" then readContour2 E true ids e else if e.tag = c!"component" then readComponent E true 2 ids e else .error .glifLibError) =
      .ok (cs, ids ++ (ownIdentifier e ++ e.children.flatMap ownIdentifier)) ∧ List.Forall₂ SameCall it.calls cs := by
  rw [← List.append_assoc] at hn
  have hn1 : (ids ++ ownIdentifier e).Nodup := List.Nodup.of_append_left hn
  have hid := readIdentifier_fresh (ids := ids) (o := Dict.get? e.attrib c!"identifier") hn1 (fun i hi => hl i (List.mem_append_left _ hi))
  cases h with
  | contour i ps _ tag keys identifier points =>
    rw [if_pos tag]
    obtain ⟨hr1, hr2⟩ := hr
    obtain ⟨ms, g1, g2, g3⟩ := massage_read hF points (fun e he => by obtain ⟨p, -, hp⟩ := forall₂_right points e he; exact hp.keys) hr1 hr2
    have hms : (ms.flatMap fun m => m.identifier.toList) = e.children.flatMap ownIdentifier := by
      rw [show (ms.flatMap fun m => m.identifier.toList) = (ms.map MPoint.identifier).flatMap Option.toList from by rw [List.flatMap_map], g3, List.flatMap_map]
      rfl
    obtain ⟨cs, k1, k2⟩ := readPoints2_read g2 (ids := ids ++ ownIdentifier e) (by rw [hms]; exact hn) (by rw [hms]; exact fun i hi => hl i (List.mem_append_right _ hi))
    refine ⟨.beginPath i :: cs ++ [.endPath], ?_, ?_⟩
    · unfold readContour2
      have hk : (Dict.keys e.attrib).all (fun a => decide (a = c!"identifier")) = true := by
        rw [List.all_eq_true]; intro a ha; exact decide_eq_true (keys a ha)
      rw [hk, hid]
      simp only [Bool.not_true, Bool.and_false, Bool.false_eq_true, if_false, g1]
      rw [show (Dict.get? e.attrib c!"identifier").toList = ownIdentifier e from rfl, k1, identifier, hms, List.append_assoc]
    · rw [Item.calls, List.cons_append, List.cons_append]
      exact .cons (.beginPath i) (List.rel_append k2 (.cons .endPath .nil))
  | component g t i _ h =>
    rw [if_neg (by rw [h.tag]; decide), if_pos h.tag]
    obtain ⟨l, hseq, hp⟩ := hr
    obtain ⟨l0, attrs, hl0, hattrs, hget⟩ := h.transformation
    rw [seq?_isSeq.2 hseq] at hl0
    cases hl0
    obtain ⟨l', k1, k2⟩ := readTransformation_read hF (by decide) hp hattrs hget
    obtain ⟨b, hb, rfl⟩ := h.base
    refine ⟨[.addComponent (.str b) (.tuple l') i], ?_, .cons (.addComponent _ _ _ l l' hseq k2) .nil⟩
    unfold readComponent
    have hk : (Dict.keys e.attrib).all (fun a => decide (a ∈ componentAttributes 2)) = true := by
      rw [List.all_eq_true]; intro a ha; exact decide_eq_true (h.keys a ha)
    rw [hk, h.children, hb, hid, k1]
    simp only [List.isEmpty_nil, Bool.not_true, Bool.and_false, Bool.false_eq_true, if_false, Option.isNone_some, show ¬ (2 = 1) by decide, h.identifier, List.flatMap_nil,
      List.append_nil]
    rfl

theorem readOutline2_read {E : Env} (hF : E.F.Lawful) {d : List Item} {es : List Elem} (h : List.Forall₂ (ItemElem E) d es) : ∀ {ids : List Str}, (∀ it ∈ d, Readable it) →
    (ids ++ outlineIdentifiers es).Nodup → (∀ i ∈ outlineIdentifiers es, LegalIdentifier i) →
    ∃ cs, readOutline2 E true ids es = .ok (cs, ids ++ outlineIdentifiers es) ∧ List.Forall₂ SameCall (drawing d) cs := by
  induction h with
  | nil => intro ids _ _ _; exact ⟨[], by simp [readOutline2, outlineIdentifiers], .nil⟩
  | @cons it e d es hit _ ih =>
    intro ids hr hn hl
    rw [outlineIdentifiers, List.flatMap_cons] at hn hl
    rw [← List.append_assoc] at hn
    obtain ⟨cs, h1, h2⟩ := readItem hF hit (hr it List.mem_cons_self) (List.Nodup.of_append_left hn) (fun i hi => hl i (List.mem_append_left _ hi))
    obtain ⟨cs', h3, h4⟩ := ih (fun it hit => hr it (List.mem_cons_of_mem _ hit)) hn (fun i hi => hl i (List.mem_append_right _ hi))
    refine ⟨cs ++ cs', ?_, ?_⟩
    · rw [readOutline2, h1]
      simp only [h3]
      rw [outlineIdentifiers, outlineIdentifiers, List.flatMap_cons, List.append_assoc, List.append_assoc]
    · rw [drawing, List.flatMap_cons]
      exact List.rel_append h2 h4

end Verif.Glif
