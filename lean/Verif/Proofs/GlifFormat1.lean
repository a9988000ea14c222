import Verif.Proofs.GlifRoundTrip
/-! Format 1: the outline and the anchors in it. -/
namespace Verif.Glif
open Verif Verif.Validators Verif.Spec.Validators Verif.Spec.Glif

/-! ### Reading -/

theorem identifier_none {e : Elem} (h : orNone (Dict.get? e.attrib c!"identifier") = .none) : c!"identifier" ∉ Dict.keys e.attrib := by
  rw [← Dict.get?_eq_none_iff]
  cases hg : Dict.get? e.attrib c!"identifier" with
  | none => rfl
  | some s => rw [hg] at h; cases h

theorem keys_point1 {E : Env} {p : Pt} {e : Elem} (h : PointElem E p e) (hi : p.identifier = .none) : ∀ k ∈ Dict.keys e.attrib, k ∈ pointAttributes 1 := by
  intro k hk
  have h1 := h.keys k hk
  have h2 : k ≠ c!"identifier" := by
    rintro rfl
    exact identifier_none (h.identifier.trans hi) hk
  simp only [pointAttributes, List.mem_append, List.mem_cons, List.not_mem_nil, or_false, show ¬ (2 = 1) by decide, if_false, if_true] at h1 ⊢
  exact h1.resolve_right h2

theorem readOutline1_cons {E : Env} {e : Elem} {es : List Elem} {as as' : List PyVal} {cs cs' : List Call} (h1 : readItem1 E true true e = .ok (as, cs))
    (h2 : readOutline1 E true true es = .ok (as', cs')) : readOutline1 E true true (e :: es) = .ok (as ++ as', cs ++ cs') := by
  rw [readOutline1, h1]
  simp only [h2]

theorem asAnchor_contour {i : PyVal} {p : Pt} {x y : PyVal} {rest : List PyVal} (hs : IsSeq p.pt (x :: y :: rest)) :
    asAnchor (.contour i [p]) = match p.segmentType, p.name with
      | .str t, .str n => if t = c!"move" then some (anchorOf x y n) else none
      | _, _ => none := by
  obtain ⟨pt, t, sm, n, id⟩ := p
  rcases hs with hs | hs <;> simp only at hs <;> subst hs <;> cases t <;> cases n <;> rfl

theorem contourAnchor1_read {E : Env} (hF : E.F.Lawful) {i : PyVal} {ps : List Pt} {e : Elem} (hps : List.Forall₂ (PointElem E) ps e.children)
    (h1 : ∀ p ∈ ps, ∃ x y rest, IsSeq p.pt (x :: y :: rest) ∧ Printable x ∧ Printable y) : contourAnchor1 E true e = .ok (asAnchor (.contour i ps)) := by
  unfold contourAnchor1
  generalize e.children = es at hps
  cases hps with
  | nil => rfl
  | @cons p c ps es hp hps =>
    cases hps with
    | cons hq hps =>
      simp only [asAnchor]
    | nil =>
      obtain ⟨x, y, rest, hs, hx, hy⟩ := h1 p List.mem_cons_self
      obtain ⟨gx, gy⟩ := hp.coordinates x y rest hs
      rw [asAnchor_contour hs]
      simp only [hp.tag, if_true]
      unfold readAnchor1
      rw [hp.type]
      have hname := hp.name
      cases ht : p.segmentType <;> simp only [fileType, ne_eq, reduceCtorEq, not_false_eq_true, if_true]
      next t =>
      by_cases hm : t = c!"move"
      · subst hm
        simp only [show ¬ (c!"move" = c!"offcurve") by decide, not_true_eq_false, if_false, gx, gy, coordinate, number_repr hF hx, number_repr hF hy]
        cases hn : Dict.get? c.attrib c!"name" with
        | none => rw [hn] at hname; rw [← hname]; rfl
        | some n => rw [hn] at hname; rw [← hname]; rfl
      · have : ¬ (if t = c!"offcurve" then none else some t) = some c!"move" := by
          split <;> simp [hm]
        simp only [this, not_false_eq_true, if_true]
        cases p.name <;> simp [hm]

theorem readItem1_read {E : Env} (hF : E.F.Lawful) {it : Item} {e : Elem} (h : ItemElem E it e) (hr : Readable it) (hi : NoIdentifiers it) :
    ∃ cs, readItem1 E true true e = .ok ((asAnchor it).toList, cs) ∧ List.Forall₂ SameCall (if (asAnchor it).isNone then it.calls else []) cs := by
  unfold readItem1
  cases h with
  | contour i ps _ tag keys identifier points =>
    rw [if_pos tag, contourAnchor1_read hF (i := i) points hr.1]
    obtain ⟨rfl, hi⟩ := hi
    cases asAnchor (.contour .none ps) with
    | some a => exact ⟨[], rfl, .nil⟩
    | none =>
      obtain ⟨ms, g1, g2, g3⟩ := massage_read (fv := 1) hF points (fun e he => by
        obtain ⟨p, hp, hpe⟩ := forall₂_right points e he
        exact keys_point1 hpe (hi p hp)) hr.1 hr.2
      have hattr : e.attrib = [] := by
        have hid := identifier_none identifier
        cases ha : e.attrib with
        | nil => rfl
        | cons x l =>
          rw [ha] at keys hid
          exact absurd (keys x.1 (by simp [Dict.keys]) ▸ (by simp [Dict.keys])) hid
      simp only
      rw [readContour1, hattr]
      simp only [List.isEmpty_nil, Bool.not_true, Bool.and_false, Bool.false_eq_true, if_false, g1, Except.map, Option.toList]
      refine ⟨_, rfl, ?_⟩
      rw [Item.calls, List.cons_append, List.cons_append]
      refine .cons (.beginPath _) (List.rel_append ?_ (.cons .endPath .nil))
      clear g1 g3 hattr points hr keys identifier
      induction g2 with
      | nil => exact .nil
      | @cons p m ps ms hp _ ih =>
        refine .cons ?_ (ih fun p hp => hi p (List.mem_cons_of_mem _ hp))
        have := hp.call
        rw [pointCall, hp.identifier, hi p List.mem_cons_self] at this
        exact this
  | component g t i _ h =>
    rw [if_neg (by rw [h.tag]; decide), if_pos h.tag]
    obtain rfl : i = .none := hi
    obtain ⟨l, hseq, hp⟩ := hr
    obtain ⟨l0, attrs, hl0, hattrs, hget⟩ := h.transformation
    rw [seq?_isSeq.2 hseq] at hl0
    cases hl0
    obtain ⟨l', k1, k2⟩ := readTransformation_read hF (by decide) hp hattrs hget
    obtain ⟨b, hb, rfl⟩ := h.base
    refine ⟨[.addComponent (.str b) (.tuple l') .none], ?_, .cons (.addComponent _ _ _ l l' hseq k2) .nil⟩
    unfold readComponent
    have hk : (Dict.keys e.attrib).all (fun a => decide (a ∈ componentAttributes 1)) = true := by
      rw [List.all_eq_true]
      intro a ha
      apply decide_eq_true
      have h1 := h.keys a ha
      have h2 : a ≠ c!"identifier" := by
        rintro rfl
        exact identifier_none h.identifier ha
      simp only [componentAttributes, List.mem_append, List.not_mem_nil, or_false, List.mem_singleton, show ¬ (2 = 1) by decide, if_false, if_true] at h1 ⊢
      exact h1.resolve_right h2
    rw [hk, h.children, hb, k1]
    rfl

theorem readOutline1_read {E : Env} (hF : E.F.Lawful) {d : List Item} {es : List Elem} (h : List.Forall₂ (ItemElem E) d es) : (∀ it ∈ d, Readable it) → (∀ it ∈ d, NoIdentifiers it) →
    ∃ cs, readOutline1 E true true es = .ok (d.filterMap asAnchor, cs) ∧ List.Forall₂ SameCall (drawing (d.filter fun it => (asAnchor it).isNone)) cs := by
  induction h with
  | nil => intro _ _; exact ⟨[], rfl, .nil⟩
  | @cons it e d es hit _ ih =>
    intro hr hi
    obtain ⟨cs, h1, h2⟩ := readItem1_read hF hit (hr it List.mem_cons_self) (hi it List.mem_cons_self)
    obtain ⟨cs', h3, h4⟩ := ih (fun it hit => hr it (List.mem_cons_of_mem _ hit)) (fun it hit => hi it (List.mem_cons_of_mem _ hit))
    refine ⟨cs ++ cs', ?_, ?_⟩
    · rw [readOutline1_cons h1 h3, List.filterMap_cons]
      cases asAnchor it <;> rfl
    · rw [List.filter_cons]
      cases ha : asAnchor it with
      | none => rw [ha] at h2; exact List.rel_append h2 h4
      | some a => rw [ha] at h2; cases h2; exact h4

/-! ### Writing -/

theorem draw_append {E : Env} {fv : Nat} {b : Bool} {a c : List Call} : ∀ {s s' s'' : Pen}, s.draw E fv b a = .ok s' → s'.draw E fv b c = .ok s'' → s.draw E fv b (a ++ c) = .ok s'' := by
  induction a with
  | nil => intro s s' s'' h1 h2; cases h1; exact h2
  | cons x a ih =>
    intro s s' s'' h1 h2
    rw [List.cons_append, Pen.draw]
    rw [Pen.draw] at h1
    split at h1
    · cases h1
    · exact ih h1 h2

theorem anchorCalls_markers : ∀ {l : List PyVal} {cs : List Call}, anchorCalls l = .ok cs → cs = drawing (l.map marker) := by
  intro l
  induction l with
  | nil => intro cs h; cases h; rfl
  | cons a l ih =>
    intro cs h
    cases a <;> try (simp only [anchorCalls] at h; cases h)
    next d =>
    rw [anchorCalls] at h
    split at h
    · next x y hx hy =>
      split at h
      · cases h
      · next cs' hc =>
        cases h
        rw [ih hc, List.map_cons, drawing, drawing, List.flatMap_cons, marker, Item.calls]
        have e1 : fieldValue d c!"x" = x := by rw [fieldValue]; change (Validators.get d c!"x").getD .none = _; rw [hx]; rfl
        have e2 : fieldValue d c!"y" = y := by rw [fieldValue]; change (Validators.get d c!"y").getD .none = _; rw [hy]; rfl
        rw [e1, e2]
        rfl
    · cases h

/-- The glyph object without image, guidelines and anchors. -/
def withoutLists (o : Obj) : Obj := fun k => if k = c!"image" ∨ k = c!"guidelines" ∨ k = c!"anchors" then none else o k

/-- The parts of a drawing with the anchors. -/
def withMarkers (o : Obj) (d : List Item) : List Item := d ++ (listItems (o.attr c!"anchors")).map marker

theorem writeHead_one {E : Env} {b : Bool} {o : Obj} : writeHead E b 1 o = writeHead E b 2 (withoutLists o) := by
  unfold writeHead
  rfl

theorem anchors_list {F : FloatCodec} {ids : List Str} {v : PyVal} (h : (anchorsValidator F ids v).1 = true) : v = .list (listItems v) := by
  cases v <;> simp [anchorsValidator] at h
  rfl

theorem writeOutline_one {E : Env} {ids : List Str} {o : Obj} {d : List Item} {e : Elem} (h : writeOutline E true 1 ids (o.attr c!"anchors") (drawing d) = .ok e) :
    writeOutline E true 2 ids .none (drawing (withMarkers o d)) = .ok e ∧ (truthy (o.attr c!"anchors") = true → (anchorsValidator E.F [] (o.attr c!"anchors")).1 = true) := by
  unfold writeOutline at h ⊢
  split at h
  · cases h
  next s hs =>
  split at h
  · cases h
  next s' hs' =>
  cases h
  split at hs'
  · next ht =>
    unfold writeAnchorsFormat1 at hs'
    split at hs'
    · cases hs'
    next hv =>
    have hv : (anchorsValidator E.F [] (o.attr c!"anchors")).1 = true := by simpa using hv
    split at hs'
    · cases hs'
    next l hl =>
    rw [anchors_list hv, iter] at hl
    cases hl
    split at hs'
    · cases hs'
    next cs hcs =>
    rw [anchorCalls_markers hcs] at hs'
    have := draw_append hs hs'
    rw [withMarkers, drawing, List.flatMap_append]
    rw [drawing, drawing] at this
    rw [this]
    exact ⟨rfl, fun _ => hv⟩
  · next ht =>
    cases hs'
    have hf : truthy (o.attr c!"anchors") = false := by simpa using ht
    rw [withMarkers, listItems_falsy hf, List.map_nil, List.append_nil, hs]
    exact ⟨rfl, fun h => by rw [hf] at h; cases h⟩

/-- A format 1 glyph has the elements of a format 2 glyph without image, guidelines and anchors, the anchors being contours. -/
theorem writeGlyphTree_one {E : Env} {name : PyVal} {o : Obj} {d : List Item} {tree : Elem} (h : writeGlyphTree E true 1 name o (some (drawing d)) = .ok tree) :
    ∃ tree2, writeGlyphTree E true 2 name (withoutLists o) (some (drawing (withMarkers o d))) = .ok tree2 ∧ tree2.children = tree.children ∧
      Dict.get? tree2.attrib c!"name" = Dict.get? tree.attrib c!"name" ∧ Dict.get? tree.attrib c!"format" = some c!"1" ∧ tree.tag = c!"glyph" ∧ tree.text = none ∧
      (truthy (o.attr c!"anchors") = true → (anchorsValidator E.F [] (o.attr c!"anchors")).1 = true) := by
  obtain ⟨⟨attrs, head, ids, outline, lib, hname, hattrs, hhead, ho, hlib, htree⟩⟩ := writeGlyphTree_parts h
  obtain ⟨s, rfl, hs0, rfl⟩ := attrTexts_name (hname rfl) hattrs
  subst htree
  rw [drawn] at ho
  cases hw : writeOutline E true 1 ids (o.attr c!"anchors") (drawing d) with
  | error x => rw [hw] at ho; cases ho
  | ok e =>
    rw [hw] at ho
    obtain ⟨h1, h2⟩ := writeOutline_one hw
    cases ho
    refine ⟨.mk c!"glyph" [(c!"name", s), (c!"format", c!"2")] none none (head ++ [e] ++ lib), ?_, rfl, rfl, rfl, rfl, rfl, h2⟩
    unfold writeGlyphTree
    rw [if_neg (by simpa using hname rfl)]
    have ha : attrTexts E [(c!"name", .str s), (c!"format", .str (natRepr 2))] = .ok [(c!"name", s), (c!"format", c!"2")] := by
      simp only [attrTexts, attrText] at hattrs ⊢
      by_cases h1 : (E.lxml && !List.all s isXmlChar) = true
      · rw [if_pos h1] at hattrs; cases hattrs
      · rw [if_neg h1, if_neg (by
          have : List.all (natRepr 2) isXmlChar = true := by decide +kernel
          simp [this])]
        rfl
    rw [ha, ← writeHead_one, hhead]
    simp only
    rw [drawn, show (withoutLists o).attr c!"anchors" = .none from rfl, h1]
    simp only [Except.map]
    rw [show (withoutLists o).attr c!"lib" = o.attr c!"lib" from rfl, hlib]

theorem readFormat_congr {E : Env} {b hasObj hasPen : Bool} {fv : Nat} {tree tree2 : Elem} (h1 : tree2.children = tree.children)
    (h2 : Dict.get? tree2.attrib c!"name" = Dict.get? tree.attrib c!"name") : readFormat E b hasObj hasPen fv tree2 = readFormat E b hasObj hasPen fv tree := by
  unfold readFormat readName
  rw [h1, h2]

theorem readGlyphTree_one {E : Env} {tree : Elem} (h1 : Dict.get? tree.attrib c!"format" = some c!"1") (h2 : tree.tag = c!"glyph") (h3 : tree.text = none) (fvs : List Int) :
    readGlyphTree E true true true fvs tree = if 1 ∈ fvs then readFormat E true true true 1 tree else .error .glifLibError := by
  unfold readGlyphTree
  have h4 : pyInt c!"1" = some 1 := by decide +kernel
  rw [h1, h2, h3]
  simp only [h4, textBlank, ne_eq, not_true_eq_false, if_false, Bool.not_true, Bool.false_eq_true, Bool.true_and]
  by_cases h : (1 : Int) ∈ fvs <;> simp [h]

/-! ### Success -/

/-- An element the format 1 reader takes. -/
inductive Fine1 (E : Env) (e : Elem) : Prop
  | outline (ht : e.tag = c!"outline") (hok : outlineOk e = true) (as : List PyVal) (cs : List Call) (hr : readOutline1 E true true e.children = .ok (as, cs))
      (hv : as ≠ [] → (anchorsValidator E.F [] (.list as)).1 = true)
  | advance (ht : e.tag = c!"advance") (w h : PyVal) (hr : readAdvance E.F e = .ok (w, h))
  | unicode (ht : e.tag = c!"unicode") (i : Int) (hr : readHex e = .ok i)
  | note (ht : e.tag = c!"note") (t : Str) (hr : readNote e = .ok t)
  | lib (ht : e.tag = c!"lib") (v : PyVal) (hr : readLib E true e = .ok v)

theorem readChildren_fine1 {E : Env} {a : Dict Str PyVal} : ∀ {es es0 : List Elem} {s : Collected}, Result E 1 a es0 s → (∀ e ∈ es, Fine1 E e) →
    (∀ t ∈ [c!"outline", c!"advance", c!"note", c!"lib"], (pick t (es0 ++ es)).length ≤ 1) → ∃ s', readChildren E true true true 1 s es = .ok s' := by
  intro es
  induction es with
  | nil => intro es0 s _ _ _; exact ⟨s, rfl⟩
  | cons e es ih =>
    intro es0 s hR hf hl
    have key : ∀ t ∈ [c!"outline", c!"advance", c!"note", c!"lib"], e.tag = t → t ∉ s.seen := by
      intro t ht he hs
      have h1 := ((hR.seen t).1 hs).2
      have h2 := hl t ht
      rw [show es0 ++ e :: es = (es0 ++ [e]) ++ es by simp, pick_append, pick_take he] at h2
      have : 0 < (pick t es0).length := List.length_pos_iff.2 h1
      simp at h2
      omega
    have hstep : ∃ s', Did E 1 s s' e := by
      rcases hf e List.mem_cons_self with ⟨ht, hok, as, cs, hr, hv⟩ | ⟨ht, w, h, hr⟩ | ⟨ht, i, hr⟩ | ⟨ht, t, hr⟩ | ⟨ht, v, hr⟩
      · exact ⟨_, .outline1 ht (key _ (by decide) ht) hok rfl as cs hr hv rfl⟩
      · exact ⟨_, .advance ht (key _ (by decide) ht) w h hr rfl⟩
      · exact ⟨_, .unicode ht i hr rfl⟩
      · exact ⟨_, .note ht (key _ (by decide) ht) t hr rfl⟩
      · exact ⟨_, .lib ht (key _ (by decide) ht) v hr rfl⟩
    obtain ⟨s', hs'⟩ := hstep
    rw [readChildren, did_readChild hs']
    exact ih (hR.frame hs') (fun e he => hf e (List.mem_cons_of_mem _ he)) (by simpa [List.append_assoc] using hl)

theorem finish_one {E : Env} {s : Collected} (h1 : s.guidelines = []) (h2 : s.anchors = []) : ∃ s', s.finish E true = .ok s' := by
  unfold Collected.finish
  simp only
  obtain ⟨s1, hs1⟩ : ∃ s1, s1 = (if s.unicodes.isEmpty then s else s.setAttr c!"unicodes" (.list (s.unicodes.map fun i => .int i))) := ⟨_, rfl⟩
  rw [← hs1]
  have h3 : s1.guidelines = [] := by rw [hs1]; split <;> exact h1
  have h4 : s1.anchors = [] := by rw [hs1]; split <;> exact h2
  have h5 : ∀ v, s1.setList true c!"guidelines" [] v = .ok s1 := fun _ => rfl
  rw [h3, h5]
  simp only [h4]
  exact ⟨_, rfl⟩

theorem asAnchor_eq {it : Item} {a : PyVal} (h : asAnchor it = some a) : ∃ i p x y rest n, it = .contour i [p] ∧ IsSeq p.pt (x :: y :: rest) ∧ p.segmentType = .str c!"move" ∧
    p.name = .str n ∧ a = anchorOf x y n := by
  unfold asAnchor at h
  split at h
  · next x y rest t sm n id =>
    split at h
    · next ht => subst ht; cases h; exact ⟨_, _, x, y, rest, n, rfl, .inr rfl, rfl, rfl, rfl⟩
    · cases h
  · next x y rest t sm n id =>
    split at h
    · next ht => subst ht; cases h; exact ⟨_, _, x, y, rest, n, rfl, .inl rfl, rfl, rfl, rfl⟩
    · cases h
  · cases h

theorem anchorOf_valid {F : FloatCodec} {x y : PyVal} {n : Str} (hx : Printable x) (hy : Printable y) : DictKeys (anchorOf x y n) ∧ anchorValidator F (anchorOf x y n) = true := by
  constructor
  · intro d hd
    cases hd
    simp
  · rcases hx with ⟨i, rfl⟩ | ⟨f, rfl⟩ <;> rcases hy with ⟨j, rfl⟩ | ⟨g, rfl⟩ <;> rfl

theorem anchorsOf_valid {F : FloatCodec} {as : List PyVal} (h : ∀ a ∈ as, ∃ x y n, a = anchorOf x y n ∧ Printable x ∧ Printable y) : (anchorsValidator F [] (.list as)).1 = true := by
  have hk : ∀ e ∈ as, DictKeys e := by
    intro e he
    obtain ⟨x, y, n, rfl, hx, hy⟩ := h e he
    exact (anchorOf_valid (F := F) hx hy).1
  have hi : identifiers as = [] := by
    rw [← entryIdentifiers_eq _ hk, List.flatMap_eq_nil_iff]
    intro e he
    obtain ⟨x, y, n, rfl, hx, hy⟩ := h e he
    rfl
  have := (entries_iff (fun v hv => anchor_iff (F := F) hv) (fun d hd w hw => by obtain ⟨s, h, -⟩ := hd.identifier w hw; exact ⟨s, h⟩) as hk [] []).2
    ⟨fun e he => by
      obtain ⟨x, y, n, rfl, hx, hy⟩ := h e he
      exact (anchor_iff (anchorOf_valid (F := F) hx hy).1).1 (anchorOf_valid hx hy).2, by rw [hi]; exact List.nodup_nil, by rw [hi]; simp, by rw [hi]; rfl⟩
  have h2 : anchorsValidator F [] (.list as) = (true, []) := this
  rw [h2]

theorem good_move : GoodContour [some c!"move"] := by
  constructor
  · intro t ht; simp at ht; exact .inl ht
  · intro a b h
    rcases a with _ | ⟨x, a⟩ <;> simp at h ⊢
  · intro a b t h _ s hs
    rcases a with _ | ⟨x, a⟩
    · simp at h; rw [h.2] at hs; simp at hs
    · simp at h
  · intro a b h s hs
    rcases a with _ | ⟨x, a⟩ <;> simp at h

theorem get_field {d : List (PyVal × PyVal)} (hd : (Dict.keys d).Nodup) {k : Str} {v : PyVal} (h : Field d k v) : fieldValue d k = v := by
  rw [fieldValue, Dict.get?_of_mem hd h.1]
  rfl

/-- The contours standing for anchors are read. -/
theorem marker_readable {F : FloatCodec} {d : List (PyVal × PyVal)} (hk : DictKeys (.dict d)) (hA : Anchor F d) (hp : PrintableFields [c!"x", c!"y"] d) :
    Readable (marker (.dict d)) ∧ NoIdentifiers (marker (.dict d)) := by
  obtain ⟨x, hx⟩ := hA.x
  obtain ⟨y, hy⟩ := hA.y
  have hd := hk d rfl
  refine ⟨⟨?_, good_move⟩, rfl, ?_⟩
  · intro p hp'
    rw [List.mem_singleton] at hp'
    subst hp'
    refine ⟨_, _, [], .inr rfl, ?_, ?_⟩
    · rw [get_field hd hx]; exact hp _ (by simp) _ hx
    · rw [get_field hd hy]; exact hp _ (by simp) _ hy
  · intro p hp'
    rw [List.mem_singleton] at hp'
    subst hp'
    rfl

theorem anchors_ok {F : FloatCodec} {v : PyVal} (hv : truthy v = true → (anchorsValidator F [] v).1 = true) (hk : ∀ e ∈ listItems v, DictKeys e) :
    ∀ e ∈ listItems v, ∃ d, e = .dict d ∧ Anchor F d := by
  cases ht : truthy v with
  | false => rw [listItems_falsy ht]; simp
  | true =>
    have h1 := hv ht
    have h0 := anchors_list h1
    generalize listItems v = l at *
    subst h0
    obtain ⟨out, h2⟩ : ∃ out, entriesValidator (anchorValidator F) [] l = (true, out) := ⟨_, Prod.ext h1 rfl⟩
    exact ((entries_iff (fun v hv => anchor_iff (F := F) hv) (fun d hd w hw => by obtain ⟨s, h, -⟩ := hd.identifier w hw; exact ⟨s, h⟩) _ hk [] _).1 h2).1

/-- A glyph written in format 1 is read in format 1. -/
theorem format1_succeeds {E : Env} {name : PyVal} {o : Obj} {d : List Item} {tree : Elem} (hF : E.F.Lawful) (ho : Plain E.lxml (format1 o)) (hd : ∀ it ∈ d, Readable it)
    (hi : ∀ it ∈ d, NoIdentifiers it) (h : writeGlyphTree E true 1 name o (some (drawing d)) = .ok tree) :
    ∃ attrs calls, readFormat E true true true 1 tree = .ok (attrs, calls) ∧ listItems (delivered attrs c!"anchors") = (withMarkers o d).filterMap asAnchor ∧
      List.Forall₂ SameCall (drawing ((withMarkers o d).filter fun it => (asAnchor it).isNone)) calls := by
  obtain ⟨tree2, w1, w2, w3, w4, w5, w6, w7⟩ := writeGlyphTree_one h
  have hall : ∀ it ∈ withMarkers o d, Readable it ∧ NoIdentifiers it := by
    intro it hit
    rcases List.mem_append.1 hit with hit | hit
    · exact ⟨hd it hit, hi it hit⟩
    · obtain ⟨a, ha, rfl⟩ := List.mem_map.1 hit
      obtain ⟨f, rfl, hf⟩ := anchors_ok w7 ho.anchors a ha
      exact marker_readable (ho.anchors _ ha) hf (ho.anchorNumbers f ha)
  obtain ⟨S⟩ := writeGlyphTree_sections w1
  rw [← readFormat_congr w2 w3]
  have houtline : ∃ e cs, S.outline = [e] ∧ outlineOk e = true ∧ readOutline1 E true true e.children = .ok ((withMarkers o d).filterMap asAnchor, cs) ∧
      List.Forall₂ SameCall (drawing ((withMarkers o d).filter fun it => (asAnchor it).isNone)) cs := by
    have hS := S.houtline
    rw [drawn, writeOutline] at hS
    cases hp : (Pen.new S.ids).draw E 2 true (drawing (withMarkers o d)) with
    | error x => rw [hp] at hS; cases hS
    | ok s =>
      rw [hp] at hS
      simp only [show ¬ ((2 : Nat) = 1) by decide, false_and, if_false, Except.map, Except.ok.injEq] at hS
      obtain ⟨es, h1, h2⟩ := draw_items (s := Pen.new S.ids) (fun it hit i ps hc p hps => by
        have := (hall it hit).1
        rw [hc] at this
        obtain ⟨x, y, rest, hs, -⟩ := this.1 p hps
        exact ⟨x, y, rest, hs⟩) hp
      rw [show (Pen.new S.ids).children = [] from rfl, List.nil_append] at h1
      obtain ⟨cs, k1, k2⟩ := readOutline1_read hF (h1 ▸ h2) (fun it hit => (hall it hit).1) (fun it hit => (hall it hit).2)
      refine ⟨_, cs, hS.symm, ?_, k1, k2⟩
      simp only [outlineOk, fillEmpty, Elem.attrib, Elem.text, List.isEmpty_nil, Bool.true_and]
      cases s.children.isEmpty <;> decide
  obtain ⟨e, cs, o1, o2, o3, o4⟩ := houtline
  obtain ⟨is, hi'⟩ := ho.unicodes
  have hu := writeUnicodes_read (v := (withoutLists o).attr c!"unicodes") hi' S.hunicodes
  have hwidth : PrintableOrNone ((withoutLists o).attr c!"width") := ho.width
  have hheight : PrintableOrNone ((withoutLists o).attr c!"height") := ho.height
  have hlib : Spec.Plist.WellFormed ((withoutLists o).attr c!"lib") := ho.lib
  have hlibBytes : E.lxml = true ∨ Spec.Plist.NoBytes ((withoutLists o).attr c!"lib") := ho.libBytes
  have himage : S.image = [] := by have h : Except.ok [] = Except.ok S.image := S.himage; injection h with h; exact h.symm
  have hguidelines : S.guidelines = [] ∧ S.ids1 = [] := by
    have h : Except.ok ([], []) = Except.ok (S.guidelines, S.ids1) := S.hguidelines
    simp only [Except.ok.injEq, Prod.mk.injEq] at h
    exact ⟨h.1.symm, h.2.symm⟩
  have hanchors : S.anchors = [] := by
    have h : Except.ok ([], S.ids1) = Except.ok (S.anchors, S.ids) := S.hanchors
    simp only [Except.ok.injEq, Prod.mk.injEq] at h
    exact h.1.symm
  have hname : readName true true tree2 = .ok [(c!"name", .str S.s)] := by
    have h1 : Dict.get? tree2.attrib c!"name" = some S.s := (congrArg (fun t => Dict.get? (Elem.attrib t) c!"name") S.htree).trans rfl
    unfold readName
    rw [h1]
    cases hs : S.s with
    | nil => exact absurd hs S.hname.2
    | cons c cs => rfl
  have hfine : ∀ e ∈ tree2.children, Fine1 E e := by
    intro e0 he
    rw [congrArg Elem.children S.htree, himage, hguidelines.1, hanchors] at he
    simp only [Elem.children, List.mem_append, List.not_mem_nil, or_false] at he
    rcases he with (((he | he) | he) | he) | he
    · rcases writeAdvance_read hF hwidth hheight S.hadvance with ⟨h1, -, -⟩ | ⟨e1, h1, x, y, h2, -, -⟩
      · rw [h1] at he; cases he
      · rw [h1, List.mem_singleton] at he
        subst he
        exact .advance (S.tadvance _ (by rw [h1]; simp)) x y h2
    · obtain ⟨i, -, h2⟩ := forall₂_left hu _ he
      exact .unicode (S.tunicodes _ he) i h2
    · rcases oneIf_cases S.hnote with ⟨h1, h2⟩ | ⟨e1, h1, h2, h3⟩
      · rw [h2] at he; cases he
      · obtain ⟨s, k1, k2⟩ := writeNote_read h3
        have ht := S.tnote _ he
        rw [h2, List.mem_singleton] at he
        subst he
        exact .note ht _ k2
    · have ht := S.toutline _ he
      rw [o1, List.mem_singleton] at he
      subst he
      refine .outline ht o2 _ _ o3 fun _ => anchorsOf_valid fun a ha => ?_
      obtain ⟨it, hit, hia⟩ := List.mem_filterMap.1 ha
      obtain ⟨i, p, x, y, rest, n, rfl, hs, -, -, rfl⟩ := asAnchor_eq hia
      obtain ⟨x', y', rest', hs', hx, hy⟩ := (hall _ hit).1.1 p (by simp)
      have := (seq?_isSeq.2 hs).symm.trans (seq?_isSeq.2 hs')
      cases this
      exact ⟨_, _, n, rfl, hx, hy⟩
    · rcases oneIf_cases S.hlib with ⟨h1, h2⟩ | ⟨e1, h1, h2, h3⟩
      · rw [h2] at he; cases he
      · obtain ⟨w, k1, k2⟩ := writeLib_read hF hlib hlibBytes h3
        have ht := S.tlib _ he
        rw [h2, List.mem_singleton] at he
        subst he
        exact .lib ht _ k1
  have one : ∀ {b : Bool} {r : Except Exc Elem} {es : List Elem}, oneIf b r = .ok es → es.length ≤ 1 := by
    intro b r es h
    rcases oneIf_cases h with ⟨-, rfl⟩ | ⟨e, -, rfl, -⟩ <;> simp
  have hstart : Result E 1 [(c!"name", .str S.s)] [] ⟨[(c!"name", .str S.s)], [], [], [], [], [], []⟩ := by
    refine result_start ?_
    intro k hk
    simp only [List.mem_cons, List.not_mem_nil, or_false] at hk
    rcases hk with rfl | rfl | rfl | rfl | rfl | rfl <;> rfl
  obtain ⟨s, hs⟩ := readChildren_fine1 hstart hfine (by
    intro t ht
    rw [List.nil_append]
    simp only [List.mem_cons, List.not_mem_nil, or_false] at ht
    rcases ht with rfl | rfl | rfl | rfl
    · rw [S.pick_outline, o1]; simp
    · rw [S.pick_advance]
      rcases writeAdvance_read hF hwidth hheight S.hadvance with ⟨h1, -, -⟩ | ⟨e1, h1, -⟩ <;> rw [h1] <;> simp
    · rw [S.pick_note]; exact one S.hnote
    · rw [S.pick_lib]; exact one S.hlib)
  have hR := readChildren_result hstart hs
  rw [List.nil_append] at hR
  have r1 := hR.outline1 rfl
  rw [S.pick_outline, o1] at r1
  obtain ⟨-, as, r1, r2⟩ := r1.one
  rw [o3] at r1
  simp only [Except.ok.injEq, Prod.mk.injEq] at r1
  obtain ⟨n1, n2, -⟩ := hR.noLists rfl
  obtain ⟨s', hs'⟩ := finish_one (E := E) n1 n2
  obtain ⟨f1, f2⟩ := finish_values hs'
  refine ⟨s'.attrs, s'.calls, ?_, ?_, ?_⟩
  · rw [readFormat, hname]
    simp only
    rw [hs]
    simp only
    rw [hs']
  · rw [delivered, f1.anchors, n2, if_pos rfl, r2, ← r1.1]
    split
    · next hn => rw [hn]; rfl
    · rfl
  · rw [f2, ← r1.2]
    exact o4

end Verif.Glif
