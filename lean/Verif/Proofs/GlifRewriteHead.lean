import Verif.Proofs.GlifRewrite
/-! Writing a glyph that was read: the data other than the drawing. -/
namespace Verif.Glif
open Verif Verif.Validators Verif.Spec.Validators Verif.Spec.Glif Verif.Spec.Woff
open Verif.Spec.Plist (XmlText)

/-! ### What the reader delivers -/

/-- A dictionary as the reader makes it: the named fields are numbers, the others XML text. -/
structure FineEntry (numbers : List Str) (d : List (PyVal × PyVal)) : Prop where
  keys : (d.map Prod.fst).Nodup
  values : ∀ p ∈ d, ∃ k, p.1 = .str k ∧ ((k ∈ numbers ∧ Printable p.2) ∨ (k ∉ numbers ∧ ∃ s, p.2 = .str s ∧ XmlText s))

theorem readEntry_fine {F : FloatCodec} {numbers : List Str} : ∀ {a : Dict Str Str} {d : List (PyVal × PyVal)}, (∀ p ∈ a, XmlText p.2) → readEntry F numbers a = .ok d →
    d.map Prod.fst = (Dict.keys a).map PyVal.str ∧ ∀ p ∈ d, ∃ k, p.1 = .str k ∧ ((k ∈ numbers ∧ Printable p.2) ∨ (k ∉ numbers ∧ ∃ s, p.2 = .str s ∧ XmlText s)) := by
  intro a
  induction a with
  | nil => intro d _ h; cases h; simp [Dict.keys]
  | cons p a ih =>
    obtain ⟨k, s⟩ := p
    intro d ha h
    rw [List.forall_mem_cons] at ha
    rw [readEntry] at h
    split at h
    · cases h
    next v hv =>
    split at h
    · cases h
    next d' hd' =>
    cases h
    obtain ⟨h1, h2⟩ := ih ha.2 hd'
    refine ⟨by simp [Dict.keys] at h1 ⊢; exact h1, ?_⟩
    rw [List.forall_mem_cons]
    refine ⟨⟨k, rfl, ?_⟩, h2⟩
    split at hv
    · next hk => exact .inl ⟨hk, number_printable hv⟩
    · next hk => cases hv; exact .inr ⟨hk, s, rfl, ha.1⟩

theorem readEntry_entry {F : FloatCodec} {numbers : List Str} {e : Elem} {d : List (PyVal × PyVal)} (he : AttrsOk e) (h : readEntry F numbers e.attrib = .ok d) : FineEntry numbers d := by
  obtain ⟨h1, h2, -⟩ := attrsOk_iff.1 he
  obtain ⟨h3, h4⟩ := readEntry_fine h2 h
  exact ⟨by rw [h3]; exact List.Nodup.map (fun a b h => by cases h; rfl) h1, h4⟩

theorem imageNumbers_fine {F : FloatCodec} {attrib : Dict Str Str} : ∀ {info : List (Str × PyVal)} {d d' : List (PyVal × PyVal)}, (∀ p ∈ info, Printable p.2) → (d.map Prod.fst).Nodup →
    imageNumbers F attrib d info = .ok d' → (d'.map Prod.fst).Nodup ∧ ∀ x v, Dict.get? d' x = some v →
      (∃ p ∈ info, x = .str p.1 ∧ Printable v) ∨ ((∀ p ∈ info, x ≠ .str p.1) ∧ Dict.get? d x = some v) := by
  intro info
  induction info with
  | nil => intro d d' _ hd h; cases h; exact ⟨hd, fun x v hv => .inr ⟨by simp, hv⟩⟩
  | cons p info ih =>
    obtain ⟨k, dflt⟩ := p
    intro d d' hi hd h
    rw [List.forall_mem_cons] at hi
    rw [imageNumbers] at h
    split at h
    · cases h
    next v0 hv0 =>
    obtain ⟨h1, h2⟩ := ih hi.2 (Dict.wf_set hd _ _) h
    refine ⟨h1, fun x v hv => ?_⟩
    rcases h2 x v hv with ⟨p, hp, hx⟩ | ⟨hx, hg⟩
    · exact .inl ⟨p, List.mem_cons_of_mem _ hp, hx⟩
    · by_cases hk : x = .str k
      · subst hk
        rw [Dict.get?_set_self] at hg
        cases hg
        exact .inl ⟨(k, dflt), by simp, rfl, numberOr_printable hi.1 hv0⟩
      · rw [Dict.get?_set_ne _ _ (Ne.symm hk)] at hg
        refine .inr ⟨?_, hg⟩
        rw [List.forall_mem_cons]
        exact ⟨hk, hx⟩

theorem readImage_fine {E : Env} {e : Elem} {v : PyVal} (he : AttrsOk e) (h : readImage E true e = .ok v) :
    ∃ d, v = .dict d ∧ imageValidator E.F (.dict d) = true ∧ FineEntry (transformationInfo.map Prod.fst) d := by
  rw [readImage] at h
  split at h
  · cases h
  next d hd =>
  split at h
  · cases h
  next hv =>
  cases h
  obtain ⟨h1, h2, -⟩ := attrsOk_iff.1 he
  have hk : ((attribDict e.attrib).map Prod.fst).Nodup := by
    have : (attribDict e.attrib).map Prod.fst = (Dict.keys e.attrib).map PyVal.str := by simp [attribDict, Dict.keys]
    rw [this]
    exact List.Nodup.map (fun a b h => by cases h; rfl) h1
  obtain ⟨h3, h4⟩ := imageNumbers_fine transformationInfo_printable hk hd
  refine ⟨d, rfl, by simpa using hv, h3, ?_⟩
  rintro ⟨x, w⟩ hp
  rcases h4 x w (Dict.get?_of_mem h3 hp) with ⟨p, hq, rfl, hw⟩ | ⟨hx, hg⟩
  · exact ⟨p.1, rfl, .inl ⟨List.mem_map_of_mem hq, hw⟩⟩
  · have := Dict.mem_of_get? hg
    simp only [attribDict, List.mem_map, Prod.mk.injEq] at this
    obtain ⟨q, hq, rfl, rfl⟩ := this
    refine ⟨q.1, rfl, .inr ⟨?_, q.2, rfl, h2 q hq⟩⟩
    intro hm
    obtain ⟨p, hp, he⟩ := List.mem_map.1 hm
    exact hx p hp (by rw [he])

theorem mem_strip {c : Char} {s : Str} (h : c ∈ strip s) : c ∈ s := by
  obtain ⟨a, b, h1, -⟩ := strip_split s
  rw [h1]
  simp [h]

theorem readNote_text {e : Elem} {s : Str} (he : Plist.TreeOk e) (h : readNote e = .ok s) : XmlText s := by
  have ht : Plist.TextOk e.text := by
    cases e
    exact he.1
  rw [readNote] at h
  split at h
  · cases h
  · cases h
  next t hs =>
  cases h
  rw [hs] at ht
  have ht : XmlText t := ht
  rw [Plist.xmlText_chars] at ht ⊢
  intro c hc
  rcases mem_join hc with hc | ⟨p, hp, hc⟩
  · rw [List.mem_singleton] at hc
    subst hc
    decide
  · obtain ⟨q, hq, rfl⟩ := List.mem_map.1 hp
    exact ht c (mem_splitOn (List.mem_filter.1 hq).1 (mem_strip hc))

theorem readNote_tidy {e : Elem} {s : Str} (h : readNote e = .ok s) : TidyNote (.str s) := by
  rw [readNote] at h
  split at h
  · cases h
  · cases h
  next t hs =>
  cases h
  have hl : ∀ l ∈ ((splitOn '\n' t).filter fun l => !(strip l).isEmpty).map strip, '\n' ∉ l ∧ strip l = l ∧ l ≠ [] := by
    intro l hl
    obtain ⟨q, hq, rfl⟩ := List.mem_map.1 hl
    rw [List.mem_filter] at hq
    exact ⟨fun hc => splitOn_not_mem _ _ q hq.1 (mem_strip hc), strip_strip q, by simpa using hq.2⟩
  generalize ((splitOn '\n' t).filter fun l => !(strip l).isEmpty).map strip = lines at hl
  refine ⟨lines, ⟨lines, rfl, fun l h => (hl l h).1, ?_⟩, rfl⟩
  rw [List.map_congr_left (fun l h => (hl l h).2.1), List.map_id', List.filter_eq_self.2 (fun l h => by simpa using (hl l h).2.2)]

theorem orEmpty_ok {x : Option Text} (hx : Plist.TextOk x) : Plist.TextOk (some (Plist.orEmpty x)) := by
  unfold Plist.orEmpty
  split
  · exact hx
  · exact hx
  · simp [Plist.TextOk, XmlText]
  · simp [Plist.TextOk, XmlText]

mutual
theorem walk_ok (F : FloatCodec) : ∀ (e : Elem) (t t' : Plist.Target), Plist.TreeOk e → Plist.TargetOk t → Plist.walk F t e = .ok t' → Plist.TargetOk t'
  | .mk tag a text tail children, t, t', he, ht, h => by
    unfold Plist.walk at h
    split at h
    · cases h
    · rename_i t1 h1
      split at h
      · cases h
      · rename_i t2 h2
        have h3 := walkList_ok F children _ t2 he.2.2 (Plist.startTag_ok ht h1) h2
        refine Plist.endTag_ok F ?_ h
        split
        · refine ⟨h3.stack, h3.key, h3.root, ?_⟩
          intro y hy
          rcases List.mem_append.1 hy with hy | hy
          · exact h3.data y hy
          · rw [List.mem_singleton.1 hy]; exact orEmpty_ok he.1
        · exact h3
theorem walkList_ok (F : FloatCodec) : ∀ (es : List Elem) (t t' : Plist.Target), Plist.TreesOk es → Plist.TargetOk t → Plist.walkList F t es = .ok t' → Plist.TargetOk t'
  | [], t, t', _, ht, h => by cases h; exact ht
  | e :: es, t, t', he, ht, h => by
    unfold Plist.walkList at h
    split at h
    · cases h
    · rename_i t1 h1
      exact walkList_ok F es _ t' he.2 (walk_ok F e t t1 he.1 ht h1) h
end

theorem fromtree_readable {F : FloatCodec} {e : Elem} {v : PyVal} (he : Plist.TreeOk e) (h : Plist.fromtree F e = .ok v) : v = .none ∨ Spec.Plist.Readable v := by
  unfold Plist.fromtree at h
  split at h
  · cases h
  next t ht =>
  cases h
  have := walk_ok F e _ t he ⟨by simp [Plist.Target.new], by simp [Plist.Target.new], by simp [Plist.Target.new], by simp [Plist.Target.new]⟩ ht
  rcases hr : t.root with _ | v
  · exact .inl rfl
  · exact .inr (this.root v hr)

theorem treesOk_iff {es : List Elem} : Plist.TreesOk es ↔ ∀ e ∈ es, Plist.TreeOk e := by
  induction es with
  | nil => simp [Plist.TreesOk]
  | cons e es ih => simp [Plist.TreesOk, ih]

theorem treeOk_children {e : Elem} (h : Plist.TreeOk e) : ∀ c ∈ e.children, Plist.TreeOk c := by
  cases e
  exact treesOk_iff.1 h.2.2

theorem attrsOk_children {e : Elem} (h : AttrsOk e) : ∀ c ∈ e.children, AttrsOk c := attrsOkList_iff.1 (attrsOk_iff.1 h).2.2

theorem readLib_fine {E : Env} {e : Elem} {v : PyVal} (he : Plist.TreeOk e) (h : readLib E true e = .ok v) :
    ∃ d, v = .dict d ∧ glyphLibValidator E.F (.dict d) = .ok true ∧ Spec.Plist.Readable (.dict d) := by
  unfold readLib at h
  split at h
  · next child hc =>
    split at h
    · cases h
    next w hw =>
    simp only [if_true] at h
    split at h
    · cases h
    · cases h
    next hv =>
    cases h
    rcases fromtree_readable (treeOk_children he child (by rw [hc]; simp)) hw with rfl | hr
    · cases hv
    · cases v with
      | dict d => exact ⟨d, rfl, hv, hr⟩
      | _ => cases hv
  · cases h

/-- What the reader delivers. -/
structure FineGlyph (F : FloatCodec) (attrs : Dict Str PyVal) (calls : List Call) : Prop where
  name : ∃ s, s ≠ [] ∧ XmlText s ∧ delivered attrs c!"name" = .str s
  width : PrintableOrNone (delivered attrs c!"width")
  height : PrintableOrNone (delivered attrs c!"height")
  unicodes : delivered attrs c!"unicodes" = .none ∨ ∃ is : List Int, delivered attrs c!"unicodes" = .list (is.map fun i => .int i)
  note : TextOrNone (delivered attrs c!"note")
  tidy : TidyNote (delivered attrs c!"note")
  image : delivered attrs c!"image" = .none ∨ ∃ d, delivered attrs c!"image" = .dict d ∧ imageValidator F (.dict d) = true ∧ FineEntry (transformationInfo.map Prod.fst) d
  guidelines : delivered attrs c!"guidelines" = .none ∨ ∃ l, delivered attrs c!"guidelines" = .list l ∧ ∀ v ∈ l, ∃ d, v = .dict d ∧ FineEntry [c!"x", c!"y", c!"angle"] d ∧ Guideline F d
  anchors : delivered attrs c!"anchors" = .none ∨ ∃ l, delivered attrs c!"anchors" = .list l ∧ ∀ v ∈ l, ∃ d, v = .dict d ∧ FineEntry [c!"x", c!"y"] d ∧ Anchor F d
  lib : delivered attrs c!"lib" = .none ∨ ∃ d, delivered attrs c!"lib" = .dict d ∧ glyphLibValidator F (.dict d) = .ok true ∧ Spec.Plist.Readable (.dict d)
  drawn : FineCalls calls
  ids : Fresh [] (identifiers (listItems (delivered attrs c!"guidelines")) ++ identifiers (listItems (delivered attrs c!"anchors")) ++ calls.flatMap callIdentifier)

/-- The verdicts at the end. -/
structure Verdicts (F : FloatCodec) (s : Collected) : Prop where
  guidelines : ∃ ids, (guidelinesValidator F ids (.list s.guidelines)).1 = true
  anchors : ∃ ids, (anchorsValidator F ids (.list s.anchors)).1 = true

theorem setList_verdict {s s' : Collected} {name : Str} {l : List PyVal} {verdict : Bool × List Str} (h : s.setList true name l verdict = .ok s') :
    l = [] ∨ verdict.1 = true := by
  unfold Collected.setList at h
  split at h
  · next hl => exact .inl (by simpa using hl)
  · split at h
    · cases h
    · next hv => exact .inr (by simpa using hv)

theorem setList_lists {b : Bool} {s s' : Collected} {name : Str} {l : List PyVal} {verdict : Bool × List Str} (h : s.setList b name l verdict = .ok s') :
    s'.anchors = s.anchors := by
  unfold Collected.setList at h
  split at h
  · cases h; rfl
  · split at h
    · cases h
    · cases h; rfl

theorem finish_verdicts {E : Env} {s s' : Collected} (h : s.finish E true = .ok s') : Verdicts E.F s := by
  unfold Collected.finish at h
  simp only at h
  obtain ⟨s1, hs1⟩ : ∃ s1, s1 = (if s.unicodes.isEmpty then s else s.setAttr c!"unicodes" (.list (s.unicodes.map fun i => .int i))) := ⟨_, rfl⟩
  rw [← hs1] at h
  have hg : s1.guidelines = s.guidelines := by rw [hs1]; split <;> rfl
  have ha : s1.anchors = s.anchors := by rw [hs1]; split <;> rfl
  split at h
  · cases h
  next s2 h2 =>
  constructor
  · rcases setList_verdict h2 with h3 | h3
    · rw [← hg, h3]; exact ⟨[], rfl⟩
    · rw [hg] at h3; exact ⟨_, h3⟩
  · rw [← ha, ← setList_lists h2]
    rcases setList_verdict h with h3 | h3
    · rw [h3]; exact ⟨[], rfl⟩
    · exact ⟨_, h3⟩

theorem readFormat_verdicts {E : Env} {fv : Nat} {tree : Elem} {attrs : Dict Str PyVal} {calls : List Call} (h : readFormat E true true true fv tree = .ok (attrs, calls)) :
    ∃ r : ReadResult E fv tree attrs calls, Verdicts E.F r.s := by
  unfold readFormat at h
  split at h
  · cases h
  next attrs0 h0 =>
  split at h
  · cases h
  next s hs =>
  split at h
  · cases h
  next s' hs' =>
  cases h
  unfold readName at h0
  split at h0
  · next c cs hn =>
    cases h0
    obtain ⟨h1, h2⟩ := finish_values hs'
    refine ⟨⟨c :: cs, s, ⟨by simp, hn⟩, ?_, h1, h2⟩, finish_verdicts hs'⟩
    refine readChildren_result (result_start ?_) hs
    intro k hk
    simp only [List.mem_cons, List.not_mem_nil, or_false] at hk
    rcases hk with rfl | rfl | rfl | rfl | rfl | rfl <;> rfl
  · cases h0

theorem readComponent1_bare {E : Env} {ids : List Str} {e : Elem} {r : List Call × List Str} (h : readComponent E true 1 ids e = .ok r) : r.1.flatMap callIdentifier = [] := by
  unfold readComponent at h
  split at h
  · cases h
  split at h
  · cases h
  split at h
  · cases h
  split at h
  · cases h
  rw [if_pos rfl] at h
  cases h
  rfl

theorem readContour1_bare {E : Env} {e : Elem} {cs : List Call} (h : readContour1 E true e = .ok cs) : cs.flatMap callIdentifier = [] := by
  unfold readContour1 at h
  repeat' split at h
  all_goals first
    | cases h; done
    | (cases h; simp [callIdentifier, argument])

theorem readItem1_bare {E : Env} {e : Elem} {as : List PyVal} {cs : List Call} (h : readItem1 E true true e = .ok (as, cs)) : cs.flatMap callIdentifier = [] := by
  unfold readItem1 at h
  split at h
  · split at h
    · cases h
    · cases h; rfl
    · rw [if_pos rfl] at h
      rcases hc : readContour1 E true e with x | r <;> rw [hc] at h <;> cases h
      exact readContour1_bare hc
  · split at h
    · rw [if_pos rfl] at h
      rcases hc : readComponent E true 1 [] e with x | r <;> rw [hc] at h <;> cases h
      exact readComponent1_bare hc
    · cases h

theorem readOutline1_bare {E : Env} : ∀ {es : List Elem} {as : List PyVal} {cs : List Call}, readOutline1 E true true es = .ok (as, cs) → cs.flatMap callIdentifier = [] := by
  intro es
  induction es with
  | nil => intro as cs h; cases h; rfl
  | cons e es ih =>
    intro as cs h
    rw [readOutline1] at h
    split at h
    · cases h
    next h1 =>
    split at h
    · cases h
    next h2 =>
    cases h
    rw [List.flatMap_append, readItem1_bare h1, ih h2]
    rfl

theorem get?_start {name : Str} {k : Str} (hk : k ≠ c!"name") : Dict.get? [(c!"name", PyVal.str name)] k = none := by
  rw [Dict.get?_cons, if_neg (fun h => hk h.symm)]
  rfl

theorem pick_mem {tag : Str} {es : List Elem} {e : Elem} (h : pick tag es = [e]) : e ∈ es := by
  have : e ∈ pick tag es := by rw [h]; simp
  exact (List.mem_filter.1 this).1

theorem fine_of_read {E : Env} {fv : Nat} (hfv : fv = 1 ∨ fv = 2) {tree : Elem} {attrs : Dict Str PyVal} {calls : List Call} (h1 : AttrsOk tree) (h2 : Plist.TreeOk tree)
    (h : readFormat E true true true fv tree = .ok (attrs, calls)) : FineGlyph E.F attrs calls := by
  obtain ⟨r, hv⟩ := readFormat_verdicts h
  have ha := attrsOk_children h1
  have ht := treeOk_children h2
  have hother : ∀ k, k ∉ [c!"unicodes", c!"guidelines", c!"anchors"] → delivered attrs k = delivered r.s.attrs k := fun k hk => by
    rw [delivered, delivered, r.final.other k hk]
  have hadv : PrintableOrNone (delivered attrs c!"width") ∧ PrintableOrNone (delivered attrs c!"height") := by
    rw [hother _ (by decide), hother _ (by decide), delivered, delivered]
    rcases r.result.advance with ⟨-, h3, h4⟩ | ⟨e, -, w, h, h3, h4, h5⟩
    · rw [h3, h4]; exact ⟨.inl rfl, .inl rfl⟩
    · rw [h4, h5]
      unfold readAdvance at h3
      split at h3
      · cases h3
      next hw =>
      split at h3
      · cases h3
      next hh =>
      cases h3
      exact ⟨.inr (numberOr_printable (.inl ⟨0, rfl⟩) hw), .inr (numberOr_printable (.inl ⟨0, rfl⟩) hh)⟩
  have hgl : ∀ v ∈ r.s.guidelines, ∃ d, v = .dict d ∧ FineEntry [c!"x", c!"y", c!"angle"] d := by
    intro v hv
    obtain ⟨e, he, d, hd, rfl⟩ := forall₂_right r.result.guidelines v hv
    exact ⟨d, rfl, readEntry_entry (ha e (List.mem_filter.1 he).1) hd⟩
  have han : ∀ v ∈ r.s.anchors, ∃ d, v = .dict d ∧ FineEntry [c!"x", c!"y"] d := by
    intro v hv
    obtain ⟨e, he, d, hd, rfl⟩ := forall₂_right r.result.anchors v hv
    exact ⟨d, rfl, readEntry_entry (ha e (List.mem_filter.1 he).1) hd⟩
  have hgl' : ∀ v ∈ r.s.guidelines, ∃ d, v = .dict d ∧ FineEntry [c!"x", c!"y", c!"angle"] d ∧ Guideline E.F d := by
    obtain ⟨ids, hi⟩ := hv.guidelines
    have := ((entries_iff (fun v hv => guideline_iff (F := E.F) hv) (fun d hd w hw => by obtain ⟨s, h, -⟩ := hd.identifier w hw; exact ⟨s, h⟩) r.s.guidelines
      (fun v hv d hd => by obtain ⟨d', rfl, hf⟩ := hgl v hv; cases hd; exact hf.keys) ids _).1 (Prod.ext hi rfl)).1
    intro v hv
    obtain ⟨d, rfl, hf⟩ := hgl v hv
    obtain ⟨d', hd, hg⟩ := this _ hv
    cases hd
    exact ⟨d, rfl, hf, hg⟩
  have han' : ∀ v ∈ r.s.anchors, ∃ d, v = .dict d ∧ FineEntry [c!"x", c!"y"] d ∧ Anchor E.F d := by
    obtain ⟨ids, hi⟩ := hv.anchors
    have := ((entries_iff (fun v hv => anchor_iff (F := E.F) hv) (fun d hd w hw => by obtain ⟨s, h, -⟩ := hd.identifier w hw; exact ⟨s, h⟩) r.s.anchors
      (fun v hv d hd => by obtain ⟨d', rfl, hf⟩ := han v hv; cases hd; exact hf.keys) ids _).1 (Prod.ext hi rfl)).1
    intro v hv
    obtain ⟨d, rfl, hf⟩ := han v hv
    obtain ⟨d', hd, hg⟩ := this _ hv
    cases hd
    exact ⟨d, rfl, hf, hg⟩
  have hguide : delivered attrs c!"guidelines" = .none ∨ ∃ l, delivered attrs c!"guidelines" = .list l ∧ ∀ v ∈ l, ∃ d, v = .dict d ∧ FineEntry [c!"x", c!"y", c!"angle"] d ∧ Guideline E.F d := by
    rw [delivered, r.final.guidelines]
    split
    · rw [r.result.other _ (by decide), get?_start (by decide)]; exact .inl rfl
    · exact .inr ⟨_, rfl, hgl'⟩
  exact {
    name := by
      refine ⟨r.name, r.hname.1, attr_xmlText h1 r.hname.2, ?_⟩
      rw [hother _ (by decide), delivered, r.result.other _ (by decide)]
      rfl
    width := hadv.1
    height := hadv.2
    unicodes := by
      rw [delivered, r.final.unicodes]
      split
      · rw [r.result.other _ (by decide), get?_start (by decide)]; exact .inl rfl
      · exact .inr ⟨_, rfl⟩
    note := by
      rw [hother _ (by decide), delivered]
      rcases r.result.note with ⟨-, h3⟩ | ⟨e, he, t, h3, h4⟩
      · rw [h3]; exact .inl rfl
      · rw [h4]; exact .inr ⟨t, rfl, readNote_text (ht e (pick_mem he)) h3⟩
    tidy := by
      rw [hother _ (by decide), delivered]
      rcases r.result.note with ⟨-, h3⟩ | ⟨e, he, t, h3, h4⟩
      · rw [h3]; exact ⟨[], ⟨[], rfl, by simp, rfl⟩, rfl⟩
      · rw [h4]; exact readNote_tidy h3
    image := by
      rw [hother _ (by decide), delivered]
      rcases r.result.image with ⟨-, h3⟩ | ⟨e, he, -, v, h3, h4⟩
      · rw [h3]; exact .inl rfl
      · rw [h4]
        obtain ⟨d, rfl, h5⟩ := readImage_fine (ha e (pick_mem he)) h3
        exact .inr ⟨d, rfl, h5⟩
    guidelines := hguide
    anchors := by
      rw [delivered, r.final.anchors]
      split
      · rcases hfv with rfl | rfl
        · rcases r.result.outline1 rfl with ⟨-, -, h3⟩ | ⟨e, he, -, as, h3, h4⟩
          · rw [h3]; exact .inl rfl
          · rw [h4]
            split
            · exact .inl rfl
            · refine .inr ⟨as, rfl, fun v hv => ?_⟩
              obtain ⟨x, y, n, rfl, hx, hy, hn⟩ := (readOutline1_fine (attrsOk_children (ha e (pick_mem he))) h3).2 v hv
              refine ⟨_, rfl, ⟨by simp, ?_⟩, ?_⟩
              · intro p hp
                simp only [List.mem_cons, List.not_mem_nil, or_false] at hp
                rcases hp with rfl | rfl | rfl
                · exact ⟨_, rfl, .inl ⟨by decide, hx⟩⟩
                · exact ⟨_, rfl, .inl ⟨by decide, hy⟩⟩
                · exact ⟨_, rfl, .inr ⟨by decide, n, rfl, hn⟩⟩
              · obtain ⟨h5, h6⟩ := anchorOf_valid (F := E.F) (n := n) hx hy
                obtain ⟨d, hd, h7⟩ := (anchor_iff h5).1 h6
                cases hd
                exact h7
        · rw [r.result.anchors2 (by decide), get?_start (by decide)]; exact .inl rfl
      · exact .inr ⟨_, rfl, han'⟩
    lib := by
      rw [hother _ (by decide), delivered]
      rcases r.result.lib with ⟨-, h3⟩ | ⟨e, he, v, h3, h4⟩
      · rw [h3]; exact .inl rfl
      · rw [h4]
        obtain ⟨d, rfl, h5⟩ := readLib_fine (ht e (pick_mem he)) h3
        exact .inr ⟨d, rfl, h5⟩
    drawn := by
      rw [r.hcalls]
      rcases hfv with rfl | rfl
      · rcases r.result.outline1 rfl with ⟨-, h3, -⟩ | ⟨e, he, -, as, h3, -⟩
        · rw [h3]; exact .nil
        · exact (readOutline1_fine (attrsOk_children (ha e (pick_mem he))) h3).1
      · rcases r.result.outline2 (by decide) with ⟨-, h3, -⟩ | ⟨e, he, -, h3⟩
        · rw [h3]; exact .nil
        · exact readOutline2_fine (attrsOk_children (ha e (pick_mem he))) h3
    ids := by
      rcases hfv with rfl | rfl
      · have hc : calls.flatMap callIdentifier = [] := by
          rw [r.hcalls]
          rcases r.result.outline1 rfl with ⟨-, h3, -⟩ | ⟨e, he, -, as, h3, -⟩
          · rw [h3]; rfl
          · exact readOutline1_bare h3
        have hg : identifiers (listItems (delivered attrs c!"guidelines")) = [] := by
          rw [delivered, r.final.guidelines, if_pos (r.result.noLists rfl).1, r.result.other _ (by decide), get?_start (by decide)]
          rfl
        have han : identifiers (listItems (delivered attrs c!"anchors")) = [] := by
          rw [delivered, r.final.anchors, if_pos (r.result.noLists rfl).2.1]
          rcases r.result.outline1 rfl with ⟨-, -, h3⟩ | ⟨e, he, -, as, h3, h4⟩
          · rw [h3]; rfl
          · rw [h4]
            split
            · rfl
            · have h5 := (readOutline1_fine (attrsOk_children (ha e (pick_mem he))) h3).2
              show identifiers as = []
              rw [← entryIdentifiers_eq as fun v hv => ?_, List.flatMap_eq_nil_iff]
              · intro v hv
                obtain ⟨x, y, n, rfl, -⟩ := h5 v hv
                rfl
              · obtain ⟨x, y, n, rfl, hx, hy, -⟩ := h5 v hv
                exact (anchorOf_valid (F := E.F) hx hy).1
        rw [hc, hg, han]
        exact ⟨by simp, by simp⟩
      · obtain ⟨-, h3, h4⟩ := readFormat2_ok (fun e he => (attrsOk_iff.1 (ha e he)).1) h
        constructor
        · rw [List.nil_append]
          exact (List.perm_append_comm.nodup_iff).1 h3
        · intro i hi
          exact h4 i (List.perm_append_comm.mem_iff.1 hi) }

/-! ### It can be written -/

theorem advanceValue_succeeds {v : PyVal} (h : PrintableOrNone v) : ∃ w, advanceValue true v = .ok w := by
  rcases h with rfl | ⟨i, rfl⟩ | ⟨f, rfl⟩
  · exact ⟨_, rfl⟩
  · simp only [advanceValue, isNumber, Bool.not_true, Bool.and_false, Bool.false_eq_true, if_false]
    split <;> exact ⟨_, rfl⟩
  · simp only [advanceValue, isNumber, Bool.not_true, Bool.and_false, Bool.false_eq_true, if_false]
    split <;> exact ⟨_, rfl⟩

theorem writeAdvance_succeeds {E : Env} (hE : E.lxml = false) {o : Obj} (hw : PrintableOrNone (o.attr c!"width")) (hh : PrintableOrNone (o.attr c!"height")) :
    ∃ l, writeAdvance E true o = .ok l := by
  obtain ⟨w, hw⟩ := advanceValue_succeeds hw
  obtain ⟨h, hh⟩ := advanceValue_succeeds hh
  unfold writeAdvance
  rw [hw, hh]
  dsimp only
  split
  · exact ⟨_, rfl⟩
  · next a ha =>
    obtain ⟨e, he⟩ := newElement_str hE c!"advance" (l := optionalRepr E c!"height" h ++ optionalRepr E c!"width" w) (by
      intro q hq
      rcases List.mem_append.1 hq with hq | hq
      · exact optionalRepr_str _ q hq
      · exact optionalRepr_str _ q hq)
    exact ⟨[e], by rw [he]; rfl⟩

theorem unicodeElements_succeeds {E : Env} (hE : E.lxml = false) : ∀ {is : List Int} {seen : List Int}, ∃ l, unicodeElements E true seen (is.map fun i => .int i) = .ok l := by
  intro is
  induction is with
  | nil => intro seen; exact ⟨[], rfl⟩
  | cons i is ih =>
    intro seen
    rw [List.map_cons, unicodeElements]
    rw [if_neg (by simp [isInt])]
    split
    · exact ih
    · obtain ⟨e, he⟩ := newElement_str hE c!"unicode" (l := [(c!"hex", .str (hex4 (intOf (.int i))))]) (by simp)
      obtain ⟨l, hl⟩ := ih (seen := seen ++ [intOf (.int i)])
      rw [he, hl]
      exact ⟨_, rfl⟩

theorem get_text {numbers : List Str} {d : List (PyVal × PyVal)} (hd : FineEntry numbers d) {k : Str} (hk : k ∉ numbers) : TextOrNone ((get d k).getD .none) := by
  rcases hg : get d k with _ | v
  · exact .inl rfl
  · obtain ⟨k', h1, h2⟩ := hd.values _ (mem_of_get hg)
    cases h1
    rcases h2 with ⟨h2, -⟩ | ⟨-, s, h2, h3⟩
    · exact absurd h2 hk
    · exact .inr ⟨s, h2, h3⟩

theorem imageTransformation_str {E : Env} {d : List (PyVal × PyVal)} : ∀ {info : List (Str × PyVal)}, ∀ p ∈ imageTransformation E d info, ∃ s, p.2 = .str s := by
  intro info
  induction info with
  | nil => simp [imageTransformation]
  | cons p info ih =>
    obtain ⟨k, dflt⟩ := p
    rw [imageTransformation]
    split
    · exact ih
    · rw [List.forall_mem_cons]
      exact ⟨⟨_, rfl⟩, ih⟩

theorem writeImage_succeeds {E : Env} (hE : E.lxml = false) {d : List (PyVal × PyVal)} (hv : imageValidator E.F (.dict d) = true) (hd : FineEntry (transformationInfo.map Prod.fst) d) :
    ∃ e, writeImage E true (.dict d) = .ok e := by
  obtain ⟨d', h1, h2, -, -⟩ := (image_iff (v := .dict d) (fun _ h => by cases h; exact hd.keys)).1 hv
  cases h1
  obtain ⟨v, hm⟩ := h2.present _ (List.mem_singleton.2 rfl)
  have hg := get_of_mem hd.keys hm
  have hstr : ∃ s, v = .str s := by
    have := get_text hd (k := c!"fileName") (by decide)
    rw [hg] at this
    rcases this with h | ⟨s, h, -⟩
    · obtain ⟨k, hk, h3⟩ := hd.values _ hm
      rcases h3 with ⟨-, ⟨i, h3⟩ | ⟨f, h3⟩⟩ | ⟨-, s, h3, -⟩
      · simp only [Option.getD_some] at h; rw [h] at h3; cases h3
      · simp only [Option.getD_some] at h; rw [h] at h3; cases h3
      · exact ⟨s, h3⟩
    · exact ⟨s, h⟩
  obtain ⟨s, rfl⟩ := hstr
  unfold writeImage
  rw [hv, if_neg (by simp)]
  simp only [hg]
  apply newElement_str hE
  intro q hq
  rcases List.mem_append.1 hq with hq | hq
  · rcases List.mem_cons.1 hq with rfl | hq
    · exact ⟨_, rfl⟩
    · exact imageTransformation_str q hq
  · exact optional_str (get_text hd (by decide)) _ q hq

theorem addIdentifier_succeeds {ids : List Str} {v : PyVal} (hv : TextOrNone v) (hf : Fresh ids (argument v)) : addIdentifier true ids v = .ok (ids ++ argument v) := by
  rcases hv with rfl | ⟨i, rfl, -⟩
  · simp [addIdentifier, argument]
  · have h1 : i ∉ ids := by
      have := hf.nodup
      rw [argument, List.nodup_append] at this
      intro hi
      exact this.2.2 i hi i (by simp) rfl
    simp [addIdentifier, h1, argument]

theorem entryElements_succeeds {E : Env} (hE : E.lxml = false) {tag : Str} {f : List (PyVal × PyVal) → Except Exc (List (Str × PyVal))} {numbers : List Str} (hn : c!"identifier" ∉ numbers) :
    ∀ {l : List PyVal} {ids : List Str}, (∀ v ∈ l, ∃ d, v = .dict d ∧ FineEntry numbers d ∧ ∃ a, f d = .ok a ∧ ∀ p ∈ a, ∃ s, p.2 = .str s) → Fresh ids (l.flatMap entryIdentifier) →
      ∃ es, entryElements E true tag f ids l = .ok (es, ids ++ l.flatMap entryIdentifier) := by
  intro l
  induction l with
  | nil => intro ids _ _; exact ⟨[], by simp [entryElements]⟩
  | cons v l ih =>
    intro ids hl hf
    rw [List.forall_mem_cons] at hl
    rw [List.flatMap_cons] at hf
    obtain ⟨⟨d, rfl, hd, a, ha, hs⟩, hl⟩ := hl
    obtain ⟨e, he⟩ := newElement_str hE tag hs
    obtain ⟨es, hes⟩ := ih hl hf.right
    rw [entryElements, ha]
    dsimp only
    rw [addIdentifier_succeeds (get_text hd hn) hf.left]
    dsimp only
    rw [he]
    dsimp only
    rw [show argument ((get d c!"identifier").getD .none) = entryIdentifier (.dict d) from rfl, hes]
    exact ⟨e :: es, by rw [List.flatMap_cons, List.append_assoc]⟩

theorem guidelineAttrs_str {E : Env} {d : List (PyVal × PyVal)} (hd : FineEntry [c!"x", c!"y", c!"angle"] d) : ∀ p ∈ guidelineAttrs E d, ∃ s, p.2 = .str s := by
  intro p hp
  unfold guidelineAttrs at hp
  simp only [List.mem_append] at hp
  rcases hp with ((((hp | hp) | hp) | hp) | hp) | hp
  · exact optionalRepr_str _ p hp
  · exact optionalRepr_str _ p hp
  · exact optionalRepr_str _ p hp
  · exact optional_str (get_text hd (by decide)) _ p hp
  · exact optional_str (get_text hd (by decide)) _ p hp
  · exact optional_str (get_text hd (by decide)) _ p hp

theorem anchorAttrs_succeeds {E : Env} {d : List (PyVal × PyVal)} (hd : FineEntry [c!"x", c!"y"] d) (ha : Anchor E.F d) : ∃ a, anchorAttrs E d = .ok a ∧ ∀ p ∈ a, ∃ s, p.2 = .str s := by
  obtain ⟨x, hx, -⟩ := ha.x
  obtain ⟨y, hy, -⟩ := ha.y
  unfold anchorAttrs
  rw [get_of_mem hd.keys hx, get_of_mem hd.keys hy]
  refine ⟨_, rfl, ?_⟩
  intro p hp
  simp only [List.mem_append] at hp
  rcases hp with ((hp | hp) | hp) | hp
  · simp only [List.mem_cons, List.not_mem_nil, or_false] at hp
    rcases hp with rfl | rfl <;> exact ⟨_, rfl⟩
  · exact optional_str (get_text hd (by decide)) _ p hp
  · exact optional_str (get_text hd (by decide)) _ p hp
  · exact optional_str (get_text hd (by decide)) _ p hp

theorem fineEntries_keys {numbers : List Str} {P : List (PyVal × PyVal) → Prop} {l : List PyVal} (h : ∀ v ∈ l, ∃ d, v = .dict d ∧ FineEntry numbers d ∧ P d) : ∀ e ∈ l, DictKeys e := by
  intro v hv d hd
  obtain ⟨d', rfl, hf, -⟩ := h v hv
  cases hd
  exact hf.keys

theorem writeGuidelines_succeeds {E : Env} (hE : E.lxml = false) {l : List PyVal} {ids : List Str} (hl : ∀ v ∈ l, ∃ d, v = .dict d ∧ FineEntry [c!"x", c!"y", c!"angle"] d ∧ Guideline E.F d)
    (hf : Fresh ids (identifiers l)) : ∃ es, writeGuidelines E true ids (.list l) = .ok (es, ids ++ identifiers l) := by
  have hk := fineEntries_keys hl
  have hn := hf.nodup
  rw [List.nodup_append] at hn
  have hv : guidelinesValidator E.F [] (.list l) = (true, [] ++ identifiers l) :=
    (entries_iff (fun v hv => guideline_iff (F := E.F) hv) (fun d hd w hw => by obtain ⟨s, h, -⟩ := hd.identifier w hw; exact ⟨s, h⟩) l hk [] _).2
      ⟨fun v hv => by obtain ⟨d, rfl, -, h⟩ := hl v hv; exact ⟨d, rfl, h⟩, hn.2.1, by simp, rfl⟩
  unfold writeGuidelines
  rw [hv, if_neg (by simp)]
  simp only [iter]
  rw [← entryIdentifiers_eq l hk] at hf ⊢
  refine entryElements_succeeds hE (numbers := [c!"x", c!"y", c!"angle"]) (by decide) (fun v hv => ?_) hf
  obtain ⟨d, rfl, hd, -⟩ := hl v hv
  exact ⟨d, rfl, hd, _, rfl, guidelineAttrs_str hd⟩

theorem writeAnchors_succeeds {E : Env} (hE : E.lxml = false) {l : List PyVal} {ids : List Str} (hl : ∀ v ∈ l, ∃ d, v = .dict d ∧ FineEntry [c!"x", c!"y"] d ∧ Anchor E.F d)
    (hf : Fresh ids (identifiers l)) : ∃ es, writeAnchors E true ids (.list l) = .ok (es, ids ++ identifiers l) := by
  have hk := fineEntries_keys hl
  have hn := hf.nodup
  rw [List.nodup_append] at hn
  have hv : anchorsValidator E.F [] (.list l) = (true, [] ++ identifiers l) :=
    (entries_iff (fun v hv => anchor_iff (F := E.F) hv) (fun d hd w hw => by obtain ⟨s, h, -⟩ := hd.identifier w hw; exact ⟨s, h⟩) l hk [] _).2
      ⟨fun v hv => by obtain ⟨d, rfl, -, h⟩ := hl v hv; exact ⟨d, rfl, h⟩, hn.2.1, by simp, rfl⟩
  unfold writeAnchors
  rw [hv, if_neg (by simp)]
  simp only [iter]
  rw [← entryIdentifiers_eq l hk] at hf ⊢
  refine entryElements_succeeds hE (numbers := [c!"x", c!"y"]) (by decide) (fun v hv => ?_) hf
  obtain ⟨d, rfl, hd, ha⟩ := hl v hv
  obtain ⟨a, h1, h2⟩ := anchorAttrs_succeeds hd ha
  exact ⟨d, rfl, hd, a, h1, h2⟩

theorem head_succeeds {E : Env} (hE : E.lxml = false) {attrs : Dict Str PyVal} {calls : List Call} (hf : FineGlyph E.F attrs calls) :
    ∃ head, writeHead E true 2 (asObj attrs) = .ok (head, identifiers (listItems (delivered attrs c!"guidelines")) ++ identifiers (listItems (delivered attrs c!"anchors"))) := by
  have hattr : ∀ k, (asObj attrs).attr k = delivered attrs k := fun _ => rfl
  obtain ⟨l1, h1⟩ := writeAdvance_succeeds hE (o := asObj attrs) hf.width hf.height
  obtain ⟨l2, h2⟩ : ∃ l, (if truthy (delivered attrs c!"unicodes") then writeUnicodes E true (delivered attrs c!"unicodes") else .ok []) = .ok l := by
    split
    · rcases hf.unicodes with h | ⟨is, h⟩
      · rename_i ht; rw [h] at ht; cases ht
      · rw [h]
        unfold writeUnicodes
        simp only [isInt, Bool.and_false, Bool.false_eq_true, if_false, iter]
        exact unicodeElements_succeeds hE
    · exact ⟨_, rfl⟩
  obtain ⟨l3, h3⟩ : ∃ l, oneIf (truthy (delivered attrs c!"note")) (writeNote E true (delivered attrs c!"note")) = .ok l := by
    unfold oneIf
    split
    · rcases hf.note with h | ⟨s, h, -⟩
      · rename_i ht; rw [h] at ht; cases ht
      · rw [h]
        simp only [writeNote, Plist.setText, hE]
        exact ⟨_, rfl⟩
    · exact ⟨_, rfl⟩
  obtain ⟨l4, h4⟩ : ∃ l, oneIf (decide (2 ≤ 2) && truthy (delivered attrs c!"image")) (writeImage E true (delivered attrs c!"image")) = .ok l := by
    unfold oneIf
    split
    · rcases hf.image with h | ⟨d, h, h5, h6⟩
      · rename_i ht; rw [h] at ht; cases ht
      · rw [h]
        obtain ⟨e, he⟩ := writeImage_succeeds hE h5 h6
        rw [he]
        exact ⟨_, rfl⟩
    · exact ⟨_, rfl⟩
  have hids := hf.ids
  obtain ⟨l5, h5⟩ : ∃ l, (if decide (2 ≤ 2) && truthy (delivered attrs c!"guidelines") then writeGuidelines E true [] (delivered attrs c!"guidelines") else .ok ([], [])) =
      .ok (l, identifiers (listItems (delivered attrs c!"guidelines"))) := by
    rcases hf.guidelines with h | ⟨l, h, hl⟩
    · rw [h]; exact ⟨_, rfl⟩
    · rw [h] at hids ⊢
      split
      · exact writeGuidelines_succeeds hE hl hids.left.left
      · rename_i ht
        cases l with
        | nil => exact ⟨_, rfl⟩
        | cons v l => exact absurd rfl ht
  obtain ⟨l6, h6⟩ : ∃ l, (if decide (2 ≤ 2) && truthy (delivered attrs c!"anchors") then writeAnchors E true (identifiers (listItems (delivered attrs c!"guidelines"))) (delivered attrs c!"anchors")
      else .ok ([], identifiers (listItems (delivered attrs c!"guidelines")))) = .ok (l, identifiers (listItems (delivered attrs c!"guidelines")) ++ identifiers (listItems (delivered attrs c!"anchors"))) := by
    rcases hf.anchors with h | ⟨l, h, hl⟩
    · rw [h]; exact ⟨[], by simp [truthy, listItems, identifiers]⟩
    · rw [h] at hids ⊢
      split
      · exact writeAnchors_succeeds hE hl hids.left.right
      · rename_i ht
        cases l with
        | nil => exact ⟨[], by simp [listItems, identifiers]⟩
        | cons v l => exact absurd rfl ht
  unfold writeHead
  simp only [hattr]
  rw [h1]
  dsimp only
  rw [h2]
  dsimp only
  rw [h3]
  dsimp only
  rw [h4]
  dsimp only
  rw [h5]
  dsimp only
  rw [h6]
  exact ⟨_, rfl⟩

theorem write_succeeds {E : Env} (hE : E.lxml = false) (hF : E.F.Lawful) {attrs : Dict Str PyVal} {calls : List Call} (hf : FineGlyph E.F attrs calls) (hl : Spec.Plist.Fits (delivered attrs c!"lib")) :
    ∃ tree, writeGlyphTree E true 2 (delivered attrs c!"name") (asObj attrs) (some calls) = .ok tree := by
  have hattr : ∀ k, (asObj attrs).attr k = delivered attrs k := fun _ => rfl
  obtain ⟨n, hn, -, hname⟩ := hf.name
  obtain ⟨a, ha⟩ := attrTexts_str hE (l := [(c!"name", .str n), (c!"format", .str (natRepr 2))]) (by simp)
  obtain ⟨head, hhead⟩ := head_succeeds hE hf
  obtain ⟨d, rfl, hd⟩ := hf.drawn
  obtain ⟨s, hs⟩ := drawing_succeeds hE (s := Pen.new (identifiers (listItems (delivered attrs c!"guidelines")) ++ identifiers (listItems (delivered attrs c!"anchors")))) rfl hd hf.ids.right
  obtain ⟨l, hlib⟩ : ∃ l, oneIf (truthy (delivered attrs c!"lib")) (writeLib E true (delivered attrs c!"lib")) = .ok l := by
    unfold oneIf
    split
    · rcases hf.lib with h | ⟨d, h, h5, h6⟩
      · rename_i ht; rw [h] at ht; cases ht
      · rw [h] at hl ⊢
        obtain ⟨e, he⟩ := (Plist.makeElement_ok E.F hF E.lxml true 2 (.dict d)).2 (by
          rw [hE]
          exact Plist.representable_mono (fun s _ => by simp [Spec.Plist.TreeText]) (Plist.representable_of _ h6 hl))
        rw [writeLib, if_pos rfl, h5]
        simp only [Plist.totree, he]
        exact ⟨_, rfl⟩
    · exact ⟨_, rfl⟩
  unfold writeGlyphTree
  rw [hname, if_neg (by simp [isStr, hn]), ha]
  dsimp only
  rw [hhead]
  dsimp only
  simp only [drawn, writeOutline, hs, hattr, hlib]
  exact ⟨_, rfl⟩

/-! ### The text survives -/

theorem printable_strings {v : PyVal} (h : Printable v) : strings v = [] := by
  rcases h with ⟨i, rfl⟩ | ⟨f, rfl⟩ <;> rfl

theorem printables_strings : ∀ {l : List PyVal}, (∀ v ∈ l, Printable v) → stringsList l = []
  | [], _ => rfl
  | v :: l, h => by
    rw [List.forall_mem_cons] at h
    rw [stringsList, printable_strings h.1, printables_strings h.2]
    rfl

theorem textOrNone_strings {v : PyVal} (h : TextOrNone v) : ∀ s ∈ strings v, XmlText s := by
  rcases h with rfl | ⟨s, rfl, hs⟩
  · simp [strings]
  · simpa [strings] using hs

theorem entry_strings {numbers : List Str} : ∀ {d : List (PyVal × PyVal)},
    (∀ p ∈ d, ∃ k, p.1 = .str k ∧ ((k ∈ numbers ∧ Printable p.2) ∨ (k ∉ numbers ∧ ∃ s, p.2 = .str s ∧ XmlText s))) → (∀ p ∈ d, ∃ k, p.1 = .str k ∧ XmlText k) → ∀ s ∈ stringsItems d, XmlText s
  | [], _, _ => by simp [stringsItems]
  | (x, v) :: d, h, hk => by
    rw [List.forall_mem_cons] at h hk
    rw [stringsItems, List.forall_mem_append, List.forall_mem_append]
    refine ⟨⟨?_, ?_⟩, entry_strings h.2 hk.2⟩
    · obtain ⟨k, h1, h2⟩ := hk.1
      simp only at h1
      rw [h1]
      simpa [strings] using h2
    · obtain ⟨k, -, ⟨-, h2⟩ | ⟨-, s, h2, h3⟩⟩ := h.1
      · rw [printable_strings h2]; simp
      · simp only at h2
        rw [h2]
        simpa [strings] using h3

theorem xmlText_names : ∀ k ∈ [c!"x", c!"y", c!"angle", c!"name", c!"color", c!"identifier", c!"fileName", c!"xScale", c!"xyScale", c!"yxScale", c!"yScale", c!"xOffset", c!"yOffset",
    c!"move", c!"line", c!"curve", c!"qcurve"], XmlText k := by
  have : ∀ k ∈ [c!"x", c!"y", c!"angle", c!"name", c!"color", c!"identifier", c!"fileName", c!"xScale", c!"xyScale", c!"yxScale", c!"yScale", c!"xOffset", c!"yOffset",
    c!"move", c!"line", c!"curve", c!"qcurve"], ∀ c ∈ k, Spec.Xml.xmlChar c = true := by decide
  exact fun k hk => Plist.xmlText_chars.2 (this k hk)

theorem hasFields_keys {required optional : List (Str × (PyVal → Prop))} {d : List (PyVal × PyVal)} (h : HasFields required optional d)
    (hr : ∀ k ∈ required.map Prod.fst ++ optional.map Prod.fst, XmlText k) : ∀ p ∈ d, ∃ k, p.1 = .str k ∧ XmlText k := by
  intro p hp
  rcases h.typed p hp with ⟨r, hm, h1, -⟩ | ⟨r, hm, h1, -⟩
  · exact ⟨r.1, h1, hr _ (List.mem_append_left _ (List.mem_map_of_mem hm))⟩
  · exact ⟨r.1, h1, hr _ (List.mem_append_right _ (List.mem_map_of_mem hm))⟩

theorem entries_strings {numbers : List Str} {P : List (PyVal × PyVal) → Prop} (hP : ∀ d, P d → ∀ p ∈ d, ∃ k, p.1 = .str k ∧ XmlText k) :
    ∀ {l : List PyVal}, (∀ v ∈ l, ∃ d, v = .dict d ∧ FineEntry numbers d ∧ P d) → ∀ s ∈ stringsList l, XmlText s
  | [], _ => by simp [stringsList]
  | v :: l, h => by
    rw [List.forall_mem_cons] at h
    rw [stringsList, List.forall_mem_append]
    refine ⟨?_, entries_strings hP h.2⟩
    obtain ⟨d, rfl, hd, hp⟩ := h.1
    rw [strings]
    exact entry_strings hd.values (hP d hp)

theorem item_strings {it : Item} (h : FineItem it) : ∀ c ∈ it.calls, ∀ s ∈ callStrings c, XmlText s := by
  cases it with
  | contour i ps =>
    obtain ⟨h1, h2, h3⟩ := h
    intro c hc s hs
    simp only [Item.calls, List.cons_append, List.mem_cons, List.mem_append, List.mem_map, List.not_mem_nil, or_false] at hc
    rcases hc with rfl | ⟨p, hp, rfl⟩ | rfl
    · exact textOrNone_strings h1 s hs
    · have hf := h3 p hp
      obtain ⟨x, y, hpt, hx, hy⟩ := hf.pt
      rw [Pt.call, callStrings] at hs
      simp only [List.mem_append] at hs
      rcases hs with (((hs | hs) | hs) | hs) | hs
      · rw [hpt, strings, printables_strings (by simp [hx, hy])] at hs
        cases hs
      · rcases hf.type with ⟨ht, -⟩ | ⟨t, b, ht, hne, -⟩
        · rw [ht] at hs; simp [strings] at hs
        · rw [ht, strings, List.mem_singleton] at hs
          subst hs
          have hm : some s ∈ ps.map fun p => fileType p.segmentType := List.mem_map.2 ⟨p, hp, by rw [ht]; simp [fileType, hne]⟩
          apply xmlText_names
          rcases h2.types s hm with rfl | rfl | rfl | rfl <;> decide
      · rcases hf.type with ⟨-, ht⟩ | ⟨t, b, -, -, ht⟩ <;> (rw [ht] at hs; simp [strings] at hs)
      · exact textOrNone_strings hf.name s hs
      · exact textOrNone_strings hf.identifier s hs
    · simp [callStrings] at hs
  | component g t i =>
    obtain ⟨⟨n, rfl, h1⟩, ⟨l, rfl, h2⟩, h3⟩ := h
    intro c hc s hs
    rw [Item.calls, List.mem_singleton] at hc
    subst hc
    rw [callStrings] at hs
    simp only [List.mem_append] at hs
    rcases hs with (hs | hs) | hs
    · rw [strings, List.mem_singleton] at hs; rw [hs]; exact h1
    · rw [strings, printables_strings h2] at hs; cases hs
    · exact textOrNone_strings h3 s hs

mutual
theorem representable_strings {T : Str → Prop} : ∀ {v : PyVal}, Spec.Plist.Representable T v → ∀ s ∈ strings v, T s
  | .none, h => by cases h
  | .bool _, _ => by simp [strings]
  | .int _, _ => by simp [strings]
  | .float _, _ => by simp [strings]
  | .str s, h => by cases h with | str _ h => simpa [strings] using h
  | .bytes _, _ => by simp [strings]
  | .date _, _ => by simp [strings]
  | .list l, h => by cases h with | list _ h => rw [strings]; exact representableList_strings h
  | .tuple l, h => by cases h with | tuple _ h => rw [strings]; exact representableList_strings h
  | .dict d, h => by cases h with | dict _ h => rw [strings]; exact representableItems_strings h
  | .other _, h => by cases h
theorem representableList_strings {T : Str → Prop} : ∀ {l : List PyVal}, Spec.Plist.RepresentableList T l → ∀ s ∈ stringsList l, T s
  | [], _ => by simp [stringsList]
  | v :: l, h => by
    cases h with
    | cons _ _ h h' =>
      rw [stringsList, List.forall_mem_append]
      exact ⟨representable_strings h, representableList_strings h'⟩
theorem representableItems_strings {T : Str → Prop} : ∀ {d : List (PyVal × PyVal)}, Spec.Plist.RepresentableItems T d → ∀ s ∈ stringsItems d, T s
  | [], _ => by simp [stringsItems]
  | (x, v) :: d, h => by
    cases h with
    | cons k _ _ hk hv h' =>
      rw [stringsItems, List.forall_mem_append, List.forall_mem_append]
      exact ⟨⟨by simpa [strings] using hk, representable_strings hv⟩, representableItems_strings h'⟩
end

theorem fine_legible {F : FloatCodec} {attrs : Dict Str PyVal} {calls : List Call} (hf : FineGlyph F attrs calls) (hc : Spec.Glif.Clean attrs calls) :
    Legible (delivered attrs c!"name") (asObj attrs) (some calls) where
  name s hs := by
    obtain ⟨n, -, h1, h2⟩ := hf.name
    have h3 := hc.data c!"name" (by decide) s hs
    rw [h2, strings, List.mem_singleton] at hs
    rw [hs] at h3 ⊢
    exact ⟨⟨h1, h3.1⟩, h3.2⟩
  image s hs := by
    have h3 := hc.data c!"image" (by decide) s hs
    refine ⟨⟨?_, h3.1⟩, h3.2⟩
    change s ∈ strings (delivered attrs c!"image") at hs
    rcases hf.image with h | ⟨d, h, h5, h6⟩
    · rw [h] at hs; simp [strings] at hs
    · rw [h, strings] at hs
      obtain ⟨d', h1, h2, -, -⟩ := (image_iff (v := .dict d) (fun _ h => by cases h; exact h6.keys)).1 h5
      cases h1
      exact entry_strings h6.values (hasFields_keys h2 fun k hk => xmlText_names k (by revert k; decide)) s hs
  guidelines s hs := by
    have h3 := hc.data c!"guidelines" (by decide) s hs
    refine ⟨⟨?_, h3.1⟩, h3.2⟩
    change s ∈ strings (delivered attrs c!"guidelines") at hs
    rcases hf.guidelines with h | ⟨l, h, hl⟩
    · rw [h] at hs; simp [strings] at hs
    · rw [h, strings] at hs
      exact entries_strings (fun d hd => hasFields_keys hd.fields fun k hk => xmlText_names k (by revert k; decide)) hl s hs
  anchors s hs := by
    have h3 := hc.data c!"anchors" (by decide) s hs
    refine ⟨⟨?_, h3.1⟩, h3.2⟩
    change s ∈ strings (delivered attrs c!"anchors") at hs
    rcases hf.anchors with h | ⟨l, h, hl⟩
    · rw [h] at hs; simp [strings] at hs
    · rw [h, strings] at hs
      exact entries_strings (fun d hd => hasFields_keys hd.fields fun k hk => xmlText_names k (by revert k; decide)) hl s hs
  draw cs hcs c hm s hs := by
    cases hcs
    have h3 := hc.calls c hm s hs
    refine ⟨⟨?_, h3.1⟩, h3.2⟩
    obtain ⟨d, rfl, hd⟩ := hf.drawn
    obtain ⟨it, hit, hm⟩ := List.mem_flatMap.1 hm
    exact item_strings (hd it hit) c hm s hs
  note s hs := ⟨textOrNone_strings hf.note s hs, hc.note s hs⟩
  lib s hs := by
    have hl := hc.lib
    change s ∈ strings (delivered attrs c!"lib") at hs
    rcases hf.lib with h | ⟨d, h, -, h6⟩
    · rw [h] at hs; simp [strings] at hs
    · rw [h] at hs hl
      exact representable_strings (Plist.representable_of _ h6 hl) s hs

theorem fine_plain {F : FloatCodec} {attrs : Dict Str PyVal} {calls : List Call} (hf : FineGlyph F attrs calls) : Plain true (asObj attrs) where
  width := hf.width
  height := hf.height
  unicodes := by
    show ∃ is, Integers (delivered attrs c!"unicodes") is
    rcases hf.unicodes with h | ⟨is, h⟩
    · rw [h]; exact ⟨[], .none⟩
    · rw [h]
      refine ⟨is, .list _ _ _ (.inl rfl) ?_⟩
      rw [List.forall₂_map_left_iff, List.forall₂_same]
      exact fun i _ => .inl rfl
  image := by
    show DictKeys (delivered attrs c!"image")
    rcases hf.image with h | ⟨d, h, -, h6⟩
    · rw [h]; intro d h; cases h
    · rw [h]; intro d h; cases h; exact h6.keys
  imageNumbers d hd k i w hk hw := by
    change delivered attrs c!"image" = .dict d at hd
    rcases hf.image with h | ⟨d', h, -, h6⟩
    · rw [h] at hd; cases hd
    · rw [h] at hd
      cases hd
      obtain ⟨k', h1, h2⟩ := h6.values _ hw
      cases h1
      rcases h2 with ⟨-, h2⟩ | ⟨h2, -⟩
      · exact h2
      · refine absurd ?_ h2
        have : ∀ p ∈ transformation, p.1 ∈ transformationInfo.map Prod.fst := by decide
        exact this _ hk
  guidelines := by
    show ∀ e ∈ listItems (delivered attrs c!"guidelines"), DictKeys e
    rcases hf.guidelines with h | ⟨l, h, hl⟩
    · rw [h]; simp [listItems]
    · rw [h]; exact fineEntries_keys hl
  guidelineNumbers d hd k hk v hv := by
    change .dict d ∈ listItems (delivered attrs c!"guidelines") at hd
    rcases hf.guidelines with h | ⟨l, h, hl⟩
    · rw [h] at hd; simp [listItems] at hd
    · rw [h] at hd
      obtain ⟨d', h1, h2, -⟩ := hl _ hd
      cases h1
      obtain ⟨k', h1, h3⟩ := h2.values _ hv.1
      cases h1
      rcases h3 with ⟨-, h3⟩ | ⟨h3, -⟩
      · exact h3
      · exact absurd hk h3
  anchors := by
    show ∀ e ∈ listItems (delivered attrs c!"anchors"), DictKeys e
    rcases hf.anchors with h | ⟨l, h, hl⟩
    · rw [h]; simp [listItems]
    · rw [h]; exact fineEntries_keys hl
  anchorNumbers d hd k hk v hv := by
    change .dict d ∈ listItems (delivered attrs c!"anchors") at hd
    rcases hf.anchors with h | ⟨l, h, hl⟩
    · rw [h] at hd; simp [listItems] at hd
    · rw [h] at hd
      obtain ⟨d', h1, h2, -⟩ := hl _ hd
      cases h1
      obtain ⟨k', h1, h3⟩ := h2.values _ hv.1
      cases h1
      rcases h3 with ⟨-, h3⟩ | ⟨h3, -⟩
      · exact h3
      · exact absurd hk h3
  lib := by
    show Spec.Plist.WellFormed (delivered attrs c!"lib")
    rcases hf.lib with h | ⟨d, h, -, h6⟩
    · rw [h]; simp [Spec.Plist.WellFormed]
    · rw [h]; exact (Plist.wellFormed_of _ h6).1
  libBytes := .inl rfl

theorem fineItem_readable {it : Item} (h : FineItem it) : Readable it := by
  cases it with
  | contour i ps =>
    refine ⟨fun p hp => ?_, h.2.1⟩
    obtain ⟨x, y, h1, h2, h3⟩ := (h.2.2 p hp).pt
    exact ⟨x, y, [], .inr h1, h2, h3⟩
  | component g t i =>
    obtain ⟨-, ⟨l, rfl, h2⟩, -⟩ := h
    exact ⟨l, .inr rfl, h2⟩

theorem readBytes_fine {E : Env} {versions : List Int} {b : Bytes} {attrs : Dict Str PyVal} {calls : List Call} (h : GlifFile.readGlyphFromBytes E true true true versions b = .ok (attrs, calls)) :
    FineGlyph E.F attrs calls := by
  unfold GlifFile.readGlyphFromBytes at h
  split at h
  · cases h
  next t ht =>
  obtain ⟨h1, h2⟩ := glifTree_ok ht
  obtain ⟨s, -, ⟨-, h3⟩ | ⟨-, h3⟩⟩ := readGlyphTree_format h
  · exact fine_of_read (.inl rfl) h1 h2 h3
  · exact fine_of_read (.inr rfl) h1 h2 h3

end Verif.Glif
