import Verif.Proofs.GlifScan
/-! Written glyphs have no nested elements called `glyph` or `outline`. -/
namespace Verif.Glif
open Verif Verif.Validators Verif.Spec.Validators Verif.Spec.Glif

/-- The tags below the sections. -/
def Inner (t : Str) : Prop := t ≠ c!"glyph" ∧ t ≠ c!"outline"

theorem allTagsList_append (a b : List Elem) : allTagsList (a ++ b) = allTagsList a ++ allTagsList b := by
  induction a with
  | nil => rfl
  | cons e a ih => rw [List.cons_append, allTagsList, allTagsList, ih, List.append_assoc]

theorem allTagsList_leaves {P : Str → Prop} {es : List Elem} (h : ∀ e ∈ es, e.children = [] ∧ P e.tag) : ∀ t ∈ allTagsList es, P t :=
  allTagsList_tags (fun e he => (h e he).2) (fun e he t ht => by rw [(h e he).1] at ht; cases ht)

theorem newElement_leaf {E : Env} {tag : Str} {attrs : List (Str × PyVal)} {e : Elem} (h : newElement E tag attrs = .ok e) : e.children = [] ∧ e.tag = tag := by
  unfold newElement at h
  cases h1 : attrTexts E attrs with
  | error x => rw [h1] at h; cases h
  | ok a => rw [h1] at h; cases h; exact ⟨rfl, rfl⟩

theorem mem_allTagsList {t : Str} {es : List Elem} : t ∈ allTagsList es ↔ ∃ e ∈ es, t ∈ allTags e := by
  induction es with
  | nil => simp [allTagsList]
  | cons e es ih => rw [allTagsList, List.mem_append, ih]; simp

theorem allTagsList_modify {P : Str → Prop} {l : List Elem} {f : Elem → Elem} (i : Nat) (h : ∀ t ∈ allTagsList l, P t) (hf : ∀ e, (∀ t ∈ allTags e, P t) → ∀ t ∈ allTags (f e), P t) :
    ∀ t ∈ allTagsList (l.modify i f), P t := by
  induction l generalizing i with
  | nil => cases i <;> simpa using h
  | cons e l ih =>
    rw [allTagsList, List.forall_mem_append] at h
    cases i with
    | zero => rw [List.modify_zero_cons, allTagsList, List.forall_mem_append]; exact ⟨hf e h.1, h.2⟩
    | succ i => rw [List.modify_succ_cons, allTagsList, List.forall_mem_append]; exact ⟨h.1, ih i h.2⟩

theorem fillEmpty_tags (e : Elem) : allTags (fillEmpty e) = allTags e := by
  obtain ⟨tag, a, text, tail, children⟩ := e
  rfl

theorem appendChild_tags {P : Str → Prop} {c : Elem} (hc : ∀ t ∈ allTags c, P t) (e : Elem) (h : ∀ t ∈ allTags e, P t) : ∀ t ∈ allTags (appendChild c e), P t := by
  obtain ⟨tag, a, text, tail, children⟩ := e
  rw [allTags, List.forall_mem_cons] at h
  rw [appendChild, allTags, List.forall_mem_cons, allTagsList_append, List.forall_mem_append]
  refine ⟨h.1, h.2, ?_⟩
  rw [allTagsList, allTagsList, List.append_nil]
  exact hc

theorem leaf_tags {P : Str → Prop} {E : Env} {tag : Str} {attrs : List (Str × PyVal)} {e : Elem} (h : newElement E tag attrs = .ok e) (hp : P tag) : ∀ t ∈ allTags e, P t := by
  obtain ⟨h1, h2⟩ := newElement_leaf h
  obtain ⟨tag, a, text, tail, children⟩ := e
  simp only [Elem.children, Elem.tag] at h1 h2
  rw [h1, h2, allTags, allTagsList]
  simpa using hp

theorem placePoint_tags {E : Env} {fv : Nat} {b : Bool} {s : Pen} {attrs : List (Str × PyVal)} {i : PyVal} (h : ∀ t ∈ allTagsList s.children, Inner t) :
    ∀ t ∈ allTagsList (s.placePoint E fv b attrs i).1.children, Inner t := by
  rw [Pen.placePoint]
  split
  · exact h
  next idAttrs ids h1 =>
  dsimp only
  cases he : newElement E c!"point" (attrs ++ idAttrs) with
  | error x => exact h
  | ok e =>
    cases s.contour with
    | none => exact h
    | some j => exact allTagsList_modify _ h (appendChild_tags (leaf_tags he ⟨by decide, by decide⟩))

theorem map_single {r : Except Exc Elem} {es : List Elem} (h : (r.map fun e => [e]) = .ok es) : ∃ e, r = .ok e ∧ es = [e] := by
  cases r with
  | error x => cases h
  | ok e => cases h; exact ⟨e, rfl, rfl⟩

theorem step_tags {E : Env} {fv : Nat} {b : Bool} {s : Pen} {c : Call} (h : ∀ t ∈ allTagsList s.children, Inner t) : ∀ t ∈ allTagsList (s.step E fv b c).1.children, Inner t := by
  cases c with
  | beginPath i =>
    rw [Pen.step, Pen.beginPath]
    split
    · exact h
    split
    · exact h
    next e he =>
    dsimp only
    rw [allTagsList_append, List.forall_mem_append]
    refine ⟨h, ?_⟩
    rw [allTagsList, allTagsList, List.append_nil]
    exact leaf_tags he ⟨by decide, by decide⟩
  | endPath =>
    rw [Pen.step, Pen.endPath]
    split
    · exact h
    split
    · exact h
    · exact allTagsList_modify _ h fun e he => by rw [fillEmpty_tags]; exact he
  | addComponent g t i =>
    rw [Pen.step, Pen.addComponent]
    split
    · exact h
    split
    · exact h
    split
    · exact h
    split
    · exact h
    next e he =>
    dsimp only
    rw [allTagsList_append, List.forall_mem_append]
    refine ⟨h, ?_⟩
    rw [allTagsList, allTagsList, List.append_nil]
    exact leaf_tags he ⟨by decide, by decide⟩
  | addPoint pt t smooth name i =>
    rw [Pen.step, Pen.addPoint]
    split
    · exact h
    dsimp only
    generalize (if t = .str c!"offcurve" then PyVal.none else t) = t'
    split
    · exact h
    split
    · exact h
    exact placePoint_tags h

theorem draw_tags {E : Env} {fv : Nat} {b : Bool} {cs : List Call} : ∀ {s s' : Pen}, (∀ t ∈ allTagsList s.children, Inner t) → s.draw E fv b cs = .ok s' → ∀ t ∈ allTagsList s'.children, Inner t := by
  induction cs with
  | nil => intro s s' h hd; rw [Pen.draw] at hd; cases hd; exact h
  | cons c cs ih =>
    intro s s' h hd
    rw [Pen.draw] at hd
    split at hd
    · cases hd
    next s1 h1 =>
    have := step_tags (E := E) (fv := fv) (b := b) (c := c) h
    rw [h1] at this
    exact ih this hd

theorem writeOutline_tags {E : Env} {b : Bool} {fv : Nat} {ids : List Str} {anchors : PyVal} {calls : List Call} {e : Elem} (h : writeOutline E b fv ids anchors calls = .ok e) :
    ∀ t ∈ allTagsList e.children, Inner t := by
  unfold writeOutline at h
  split at h
  · cases h
  next s h1 =>
  have hs := draw_tags (by intro t ht; cases ht) h1
  split at h
  · cases h
  next s' h2 =>
  cases h
  simp only [fillEmpty, Elem.children]
  split at h2
  · unfold writeAnchorsFormat1 at h2
    split at h2
    · cases h2
    split at h2
    · cases h2
    split at h2
    · cases h2
    exact draw_tags hs h2
  · cases h2; exact hs

/-! ### The lib -/

theorem textLeaf_tags {lxml : Bool} {tag : Str} {x : Text} {e : Elem} (h : Plist.textLeaf lxml tag x = .ok e) (ht : Inner tag) : ∀ t ∈ allTags e, Inner t := by
  unfold Plist.textLeaf at h
  cases h1 : Plist.setText lxml x with
  | error y => rw [h1] at h; cases h
  | ok y => rw [h1] at h; cases h; simpa [Elem.leaf, allTags, allTagsList] using ht

theorem dictChildren_tags {lxml : Bool} {l : List (Str × Except Exc Elem)} : ∀ {es : List Elem}, (∀ p ∈ l, ∀ e, p.2 = .ok e → ∀ t ∈ allTags e, Inner t) → Plist.dictChildren lxml l = .ok es →
    ∀ t ∈ allTagsList es, Inner t := by
  induction l with
  | nil => intro es _ h; rw [Plist.dictChildren] at h; cases h; intro t ht; cases ht
  | cons p l ih =>
    intro es hp h
    obtain ⟨k, r⟩ := p
    rw [List.forall_mem_cons] at hp
    rw [Plist.dictChildren] at h
    split at h
    · cases h
    next ke h1 =>
    split at h
    · cases h
    next ve =>
    split at h
    · cases h
    next more h2 =>
    cases h
    rw [allTagsList, allTagsList, List.forall_mem_append, List.forall_mem_append]
    exact ⟨textLeaf_tags h1 ⟨by decide, by decide⟩, hp.1 ve rfl, ih hp.2 h2⟩

theorem mem_insertItem {α : Type} {x p : Str × α} {l : List (Str × α)} (h : p ∈ Plist.insertItem x l) : p = x ∨ p ∈ l := by
  induction l with
  | nil => simpa [Plist.insertItem] using h
  | cons y l ih =>
    rw [Plist.insertItem] at h
    split at h
    · simpa using h
    · rw [List.mem_cons] at h
      rcases h with h | h
      · right; rw [h]; simp
      · rcases ih h with h | h
        · exact .inl h
        · exact .inr (List.mem_cons_of_mem _ h)

theorem mem_sortItems {α : Type} {p : Str × α} {l : List (Str × α)} (h : p ∈ Plist.sortItems l) : p ∈ l := by
  induction l with
  | nil => exact h
  | cons y l ih =>
    rcases mem_insertItem h with h | h
    · rw [h]; simp
    · exact List.mem_cons_of_mem _ (ih h)

theorem strKeys_mem {α : Type} {l : List (PyVal × α)} : ∀ {l' : List (Str × α)}, Plist.strKeys l = some l' → ∀ p ∈ l', (.str p.1, p.2) ∈ l := by
  induction l with
  | nil => intro l' h; rw [Plist.strKeys] at h; cases h; intro p hp; cases hp
  | cons q l ih =>
    intro l' h p hp
    obtain ⟨k, v⟩ := q
    cases k with
    | str k =>
      rw [Plist.strKeys] at h
      cases h1 : Plist.strKeys l with
      | none => rw [h1] at h; cases h
      | some m =>
        rw [h1] at h
        cases h
        rw [List.mem_cons] at hp
        rcases hp with rfl | hp
        · simp
        · exact List.mem_cons_of_mem _ (ih h1 p hp)
    | _ => simp [Plist.strKeys] at h

mutual
theorem makeElement_tags {F : FloatCodec} {lxml pretty : Bool} (indent : Nat) (v : PyVal) {e : Elem} (h : Plist.makeElement F lxml pretty indent v = .ok e) : ∀ t ∈ allTags e, Inner t := by
  match v with
  | .str s => exact textLeaf_tags h ⟨by decide, by decide⟩
  | .bool b =>
    rw [Plist.makeElement] at h
    cases h
    cases b <;> simp [Elem.node, allTags, allTagsList, Inner]
  | .int i =>
    rw [Plist.makeElement, Plist.integerElement] at h
    split at h
    · exact textLeaf_tags h ⟨by decide, by decide⟩
    · cases h
  | .float f => exact textLeaf_tags h ⟨by decide, by decide⟩
  | .date d => exact textLeaf_tags h ⟨by decide, by decide⟩
  | .bytes b => exact textLeaf_tags h ⟨by decide, by decide⟩
  | .none => rw [Plist.makeElement] at h; cases h
  | .other n => rw [Plist.makeElement] at h; cases h
  | .dict items =>
    rw [Plist.makeElement] at h
    split at h
    · cases h
    next l hl =>
    cases h1 : Plist.dictChildren lxml (Plist.sortItems l) with
    | error x => rw [h1] at h; cases h
    | ok es =>
      rw [h1] at h
      cases h
      rw [Elem.node, allTags, List.forall_mem_cons]
      refine ⟨⟨by decide, by decide⟩, dictChildren_tags (fun p hp e he => ?_) h1⟩
      exact makeValues_tags (indent + 1) items _ (strKeys_mem hl p (mem_sortItems hp)) e he
  | .list l =>
    rw [Plist.makeElement] at h
    cases h1 : Plist.makeList F lxml pretty (indent + 1) l with
    | error x => rw [h1] at h; cases h
    | ok es =>
      rw [h1] at h
      cases h
      rw [Elem.node, allTags, List.forall_mem_cons]
      exact ⟨⟨by decide, by decide⟩, makeList_tags (indent + 1) l h1⟩
  | .tuple l =>
    rw [Plist.makeElement] at h
    cases h1 : Plist.makeList F lxml pretty (indent + 1) l with
    | error x => rw [h1] at h; cases h
    | ok es =>
      rw [h1] at h
      cases h
      rw [Elem.node, allTags, List.forall_mem_cons]
      exact ⟨⟨by decide, by decide⟩, makeList_tags (indent + 1) l h1⟩
theorem makeValues_tags {F : FloatCodec} {lxml pretty : Bool} (indent : Nat) (items : List (PyVal × PyVal)) : ∀ p ∈ Plist.makeValues F lxml pretty indent items, ∀ e, p.2 = .ok e →
    ∀ t ∈ allTags e, Inner t := by
  match items with
  | [] => intro p hp; rw [Plist.makeValues] at hp; cases hp
  | (k, v) :: rest =>
    intro p hp e he
    rw [Plist.makeValues, List.mem_cons] at hp
    rcases hp with rfl | hp
    · exact makeElement_tags indent v he
    · exact makeValues_tags indent rest p hp e he
theorem makeList_tags {F : FloatCodec} {lxml pretty : Bool} (indent : Nat) (l : List PyVal) {es : List Elem} (h : Plist.makeList F lxml pretty indent l = .ok es) :
    ∀ t ∈ allTagsList es, Inner t := by
  match l with
  | [] => rw [Plist.makeList] at h; cases h; intro t ht; cases ht
  | v :: rest =>
    rw [Plist.makeList] at h
    split at h
    · cases h
    next e h1 =>
    split at h
    · cases h
    next es h2 =>
    cases h
    rw [allTagsList, List.forall_mem_append]
    exact ⟨makeElement_tags indent v h1, makeList_tags indent rest h2⟩
end

theorem writeLib_tags {E : Env} {b : Bool} {v : PyVal} {e : Elem} (h : writeLib E b v = .ok e) : ∀ t ∈ allTagsList e.children, Inner t := by
  unfold writeLib at h
  split at h
  · cases h
  · cases h
  split at h
  · split at h
    · cases h
    next h1 =>
    cases h
    simp only [Elem.children, allTagsList, List.append_nil]
    exact makeElement_tags _ _ h1
  · cases h

/-! ### The sections -/

theorem entryElements_leaves {E : Env} {b : Bool} {tag : Str} {attrs : List (PyVal × PyVal) → Except Exc (List (Str × PyVal))} {l : List PyVal} : ∀ {ids ids' : List Str} {es : List Elem},
    entryElements E b tag attrs ids l = .ok (es, ids') → ∀ e ∈ es, e.children = [] := by
  induction l with
  | nil => intro ids ids' es h; rw [entryElements] at h; cases h; intro e he; cases he
  | cons v l ih =>
    intro ids ids' es h
    cases v with
    | dict d =>
      rw [entryElements] at h
      split at h
      · cases h
      split at h
      · cases h
      split at h
      · cases h
      next e he =>
      split at h
      · cases h
      next h2 =>
      cases h
      rw [List.forall_mem_cons]
      exact ⟨(newElement_leaf he).1, ih h2⟩
    | _ => simp [entryElements] at h

theorem entryElements_tag {E : Env} {b : Bool} {tag : Str} {attrs : List (PyVal × PyVal) → Except Exc (List (Str × PyVal))} {l : List PyVal} : ∀ {ids ids' : List Str} {es : List Elem},
    entryElements E b tag attrs ids l = .ok (es, ids') → ∀ e ∈ es, e.tag = tag := by
  induction l with
  | nil => intro ids ids' es h; rw [entryElements] at h; cases h; intro e he; cases he
  | cons v l ih =>
    intro ids ids' es h
    cases v with
    | dict d =>
      rw [entryElements] at h
      split at h
      · cases h
      split at h
      · cases h
      split at h
      · cases h
      next e he =>
      split at h
      · cases h
      next h2 =>
      cases h
      rw [List.forall_mem_cons]
      exact ⟨(newElement_leaf he).2, ih h2⟩
    | _ => simp [entryElements] at h

theorem unicodeElements_leaves {E : Env} {b : Bool} {l : List PyVal} : ∀ {seen : List Int} {es : List Elem}, unicodeElements E b seen l = .ok es → ∀ e ∈ es, e.children = [] := by
  induction l with
  | nil => intro seen es h; rw [unicodeElements] at h; cases h; intro e he; cases he
  | cons v l ih =>
    intro seen es h
    rw [unicodeElements] at h
    split at h
    · cases h
    split at h
    · exact ih h
    split at h
    · cases h
    next e he =>
    split at h
    · cases h
    next h2 =>
    cases h
    rw [List.forall_mem_cons]
    exact ⟨(newElement_leaf he).1, ih h2⟩

theorem oneIf_all {b : Bool} {r : Except Exc Elem} {es : List Elem} {P : Elem → Prop} (h : oneIf b r = .ok es) (hr : ∀ e, r = .ok e → P e) : ∀ e ∈ es, P e := by
  rcases oneIf_cases h with ⟨_, rfl⟩ | ⟨e, _, rfl, he⟩
  · intro e he; cases he
  · intro e' he'; rw [List.mem_singleton.1 he']; exact hr e he

theorem writeHead_leaves {E : Env} {b : Bool} {fv : Nat} {o : Obj} {head : List Elem} {ids : List Str} (h : writeHead E b fv o = .ok (head, ids)) : ∀ e ∈ head, e.children = [] := by
  unfold writeHead at h
  split at h
  · cases h
  next advance h1 =>
  split at h
  · cases h
  next unicodes h2 =>
  split at h
  · cases h
  next note h3 =>
  split at h
  · cases h
  next image h4 =>
  split at h
  · cases h
  next guidelines ids1 h5 =>
  split at h
  · cases h
  next anchors ids2 h6 =>
  cases h
  simp only [List.forall_mem_append]
  refine ⟨⟨⟨⟨⟨?_, ?_⟩, ?_⟩, ?_⟩, ?_⟩, ?_⟩
  · unfold writeAdvance at h1
    split at h1
    · cases h1
    split at h1
    · cases h1
    split at h1
    · cases h1; intro e he; cases he
    · obtain ⟨e, h7, rfl⟩ := map_single h1
      intro e' he'; rw [List.mem_singleton.1 he']; exact (newElement_leaf h7).1
  · split at h2
    · unfold writeUnicodes at h2
      split at h2
      · cases h2
      · exact unicodeElements_leaves h2
    · cases h2; intro e he; cases he
  · refine oneIf_all h3 fun e he => ?_
    unfold writeNote at he
    split at he
    · next s _ =>
      cases h7 : Plist.setText E.lxml (.str ('\n' :: strip s ++ ['\n'])) with
      | error x => rw [h7] at he; cases he
      | ok t => rw [h7] at he; cases he; rfl
    · cases he
  · refine oneIf_all h4 fun e he => ?_
    unfold writeImage at he
    split at he
    · cases he
    split at he
    · split at he
      · cases he
      · exact (newElement_leaf he).1
    · cases he
  · split at h5
    · unfold writeGuidelines at h5
      split at h5
      · cases h5
      split at h5
      · cases h5
      · exact entryElements_leaves h5
    · cases h5; intro e he; cases he
  · split at h6
    · unfold writeAnchors at h6
      split at h6
      · cases h6
      split at h6
      · cases h6
      · exact entryElements_leaves h6
    · cases h6; intro e he; cases he

theorem writeGlyphTree_noNested {E : Env} {b : Bool} {fv : Nat} {name : PyVal} {o : Obj} {draw : Option (List Call)} {tree : Elem} (h : writeGlyphTree E b fv name o draw = .ok tree) :
    NoNestedGlyph tree := by
  obtain ⟨⟨attrs, head, ids, outline, lib, h1, h2, h3, h4, h5, rfl⟩⟩ := writeGlyphTree_parts h
  unfold NoNestedGlyph
  simp only [Elem.children, List.forall_mem_append]
  refine ⟨⟨fun e he t ht => ?_, ?_⟩, oneIf_all h5 fun e he => writeLib_tags he⟩
  · have hl := writeHead_leaves h3 e he
    simp only [Elem.children] at hl
    rw [hl] at ht
    cases ht
  · cases draw with
    | none => rw [drawn] at h4; cases h4; intro e he; cases he
    | some calls =>
      rw [drawn] at h4
      cases h7 : writeOutline E b fv ids (o.attr c!"anchors") calls with
      | error x => rw [h7] at h4; cases h4
      | ok e => rw [h7] at h4; cases h4; intro e' he'; rw [List.mem_singleton.1 he']; exact writeOutline_tags h7

theorem writeImage_keys {E : Env} {b : Bool} {v : PyVal} {e : Elem} (h : writeImage E b v = .ok e) : (Dict.keys e.attrib).Nodup := by
  unfold writeImage at h
  split at h
  · cases h
  split at h
  · next d _ =>
    split at h
    · cases h
    next f _ =>
    rw [keys_newElement h, List.map_append, List.map_cons]
    have h1 := imageTransformation_keys E d transformationInfo
    have h2 : ∀ k ∈ (optional c!"color" ((get d c!"color").getD .none)).map Prod.fst, k = c!"color" := fun k hk => keys_optional hk
    have h3 : ((optional c!"color" ((get d c!"color").getD .none)).map Prod.fst).Nodup := by
      cases (get d c!"color").getD .none <;> simp [optional]
    rw [List.nodup_append, List.nodup_cons]
    dsimp only
    refine ⟨⟨fun hm => absurd (h1.subset hm) (by decide), h1.nodup (by decide)⟩, h3, ?_⟩
    intro a ha b' hb
    rw [h2 b' hb]
    rintro rfl
    rw [List.mem_cons] at ha
    rcases ha with ha | ha
    · exact absurd ha (by decide)
    · exact absurd (h1.subset ha) (by decide)
  · cases h

theorem writeHead_image {E : Env} {b : Bool} {fv : Nat} {o : Obj} {head : List Elem} {ids : List Str} (h : writeHead E b fv o = .ok (head, ids)) :
    ∀ e ∈ head, e.tag = c!"image" → (Dict.keys e.attrib).Nodup := by
  unfold writeHead at h
  split at h
  · cases h
  next advance h1 =>
  split at h
  · cases h
  next unicodes h2 =>
  split at h
  · cases h
  next note h3 =>
  split at h
  · cases h
  next image h4 =>
  split at h
  · cases h
  next guidelines ids1 h5 =>
  split at h
  · cases h
  next anchors ids2 h6 =>
  cases h
  have no : ∀ {tag : Str} {es : List Elem}, tag ≠ c!"image" → (∀ e ∈ es, e.tag = tag) → ∀ e ∈ es, e.tag = c!"image" → (Dict.keys e.attrib).Nodup :=
    fun hne hall e he ht => absurd ((hall e he).symm.trans ht) hne
  simp only [List.forall_mem_append]
  refine ⟨⟨⟨⟨⟨no (by decide) (writeAdvance_tag h1), ?_⟩, no (by decide) (oneIf_tag h3 fun e he => writeNote_tag he)⟩, ?_⟩, ?_⟩, ?_⟩
  · split at h2
    · unfold writeUnicodes at h2
      split at h2
      · cases h2
      · exact no (by decide) (unicodeElements_tag h2)
    · cases h2; intro e he; cases he
  · exact oneIf_all h4 fun e he _ => writeImage_keys he
  · split at h5
    · unfold writeGuidelines at h5
      split at h5
      · cases h5
      split at h5
      · cases h5
      · exact no (by decide) (entryElements_tag h5)
    · cases h5; intro e he; cases he
  · split at h6
    · unfold writeAnchors at h6
      split at h6
      · cases h6
      split at h6
      · cases h6
      · exact no (by decide) (entryElements_tag h6)
    · cases h6; intro e he; cases he

theorem writeGlyphTree_image {E : Env} {b : Bool} {fv : Nat} {name : PyVal} {o : Obj} {draw : Option (List Call)} {tree : Elem} (h : writeGlyphTree E b fv name o draw = .ok tree) :
    ∀ e ∈ tree.children, e.tag = c!"image" → (Dict.keys e.attrib).Nodup := by
  obtain ⟨⟨attrs, head, ids, outline, lib, h1, h2, h3, h4, h5, rfl⟩⟩ := writeGlyphTree_parts h
  simp only [Elem.children, List.forall_mem_append]
  refine ⟨⟨writeHead_image h3, fun e he ht => ?_⟩, oneIf_all h5 fun e he ht => ?_⟩
  · rw [drawn_tag h4 e he] at ht
    exact absurd ht (by decide)
  · rw [writeLib_tag he] at ht
    exact absurd ht (by decide)

end Verif.Glif
