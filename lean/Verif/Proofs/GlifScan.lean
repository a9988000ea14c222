import Verif.Model.GlifScan
import Verif.Proofs.GlifRoundTrip
/-! The rapid fetching parsers compared with the reader. -/
namespace Verif.Glif
open Verif Verif.Validators Verif.Spec.Validators Verif.Spec.Woff Verif.Spec.Glif

/-! ### Runs over trees -/

mutual
theorem run_quiet {σ : Type} (f : Fetcher σ) (stack : List Str) (s : σ) (rest : List Event) (e : Elem) (h : e.tag ≠ f.tag ∨ stack.head? ≠ some f.parent)
    (ht : ∀ t ∈ allTags e, t ≠ f.parent ∧ f.stopAt ≠ some t) : f.run stack s (events e ++ rest) = f.run stack s rest := by
  obtain ⟨tag, attrib, text, tail, children⟩ := e
  simp only [allTags, List.forall_mem_cons] at ht
  have hs : f.onStart stack s tag attrib = (s, false) := by
    unfold Fetcher.onStart
    rw [if_neg]
    rintro ⟨h1, h2⟩
    rcases h with h | h
    · exact h h1
    · exact h h2
  rw [events, List.append_assoc, List.cons_append, Fetcher.run, hs]
  dsimp only
  rw [runList_quiet f (tag :: stack) s _ children (by simpa using ht.1.1) ht.2, List.singleton_append, Fetcher.run, if_neg ht.1.2, if_pos rfl]
theorem runList_quiet {σ : Type} (f : Fetcher σ) (stack : List Str) (s : σ) (rest : List Event) (es : List Elem) (h : stack.head? ≠ some f.parent)
    (ht : ∀ t ∈ allTagsList es, t ≠ f.parent ∧ f.stopAt ≠ some t) : f.run stack s (eventsList es ++ rest) = f.run stack s rest := by
  match es with
  | [] => rfl
  | e :: es =>
    simp only [allTagsList, List.forall_mem_append] at ht
    rw [eventsList, List.append_assoc, run_quiet f stack s _ e (.inr h) ht.1]
    exact runList_quiet f stack s rest es h ht.2
end

/-- The effect of the hits. -/
def Fetcher.hits {σ : Type} (f : Fetcher σ) (s : σ) : List Elem → σ × Bool
  | [] => (s, false)
  | e :: es => match f.hit s e.attrib with
    | (s, true) => (s, true)
    | (s, false) => f.hits s es

theorem hits_true {σ : Type} {f : Fetcher σ} {s s' : σ} {e : Elem} {es : List Elem} (h : f.hit s e.attrib = (s', true)) : f.hits s (e :: es) = (s', true) := by
  rw [Fetcher.hits, h]

theorem hits_false {σ : Type} {f : Fetcher σ} {s s' : σ} {e : Elem} {es : List Elem} (h : f.hit s e.attrib = (s', false)) : f.hits s (e :: es) = f.hits s' es := by
  rw [Fetcher.hits, h]

theorem run_start {σ : Type} {f : Fetcher σ} {s s' : σ} {d : Bool} {attrs : Dict Str Str} {stack : List Str} {es : List Event} (h : f.hit s attrs = (s', d)) :
    f.run (f.parent :: stack) s (.start f.tag attrs :: es) = if d then .ok s' else f.run (f.tag :: f.parent :: stack) s' es := by
  have h1 : f.onStart (f.parent :: stack) s f.tag attrs = (s', d) := by
    unfold Fetcher.onStart
    rw [if_pos ⟨rfl, rfl⟩, h]
  rw [Fetcher.run, h1]
  cases d <;> rfl

/-- Elements inside an element with the tag of the parent. -/
theorem runList_hits {σ : Type} (f : Fetcher σ) (stack : List Str) (rest : List Event) {es : List Elem}
    (ht : ∀ t ∈ allTagsList es, t ≠ f.parent ∧ f.stopAt ≠ some t) : ∀ s, f.run (f.parent :: stack) s (eventsList es ++ rest) =
      (if (f.hits s (pick f.tag es)).2 then .ok (f.hits s (pick f.tag es)).1 else f.run (f.parent :: stack) (f.hits s (pick f.tag es)).1 rest) := by
  induction es with
  | nil => intro s; rfl
  | cons e es ih =>
    intro s
    simp only [allTagsList, List.forall_mem_append] at ht
    rw [eventsList, List.append_assoc]
    by_cases he : e.tag = f.tag
    · have hp : pick f.tag (e :: es) = e :: pick f.tag es := by rw [pick, List.filter_cons]; simp [he]; rfl
      rw [hp]
      obtain ⟨tag, attrib, text, tail, children⟩ := e
      simp only [Elem.tag] at he
      subst he
      simp only [allTags, List.forall_mem_cons] at ht
      rw [events, List.append_assoc, List.cons_append]
      obtain ⟨s', d, hh⟩ : ∃ s' d, f.hit s attrib = (s', d) := ⟨_, _, rfl⟩
      cases d with
      | true =>
        rw [hits_true (e := .mk f.tag attrib text tail children) hh, run_start hh]
        rfl
      | false =>
        rw [hits_false (e := .mk f.tag attrib text tail children) hh, run_start hh]
        simp only [Bool.false_eq_true, if_false]
        rw [runList_quiet f _ s' _ children (by simpa using ht.1.1.1) ht.1.2, List.singleton_append, Fetcher.run, if_neg ht.1.1.2, if_pos rfl]
        exact ih ht.2 s'
    · have hp : pick f.tag (e :: es) = pick f.tag es := by rw [pick, List.filter_cons]; simp [he]; rfl
      rw [hp, run_quiet f _ s _ e (.inl he) ht.1]
      exact ih ht.2 s

/-! ### Glyphs that are read -/

theorem readChildren_tags {E : Env} {fv : Nat} {es : List Elem} : ∀ {s s' : Collected}, readChildren E true true true fv s es = .ok s' →
    ∀ e ∈ es, e.tag ≠ c!"glyph" := by
  induction es with
  | nil => intro s s' _ e he; cases he
  | cons e es ih =>
    intro s s' h
    rw [readChildren] at h
    split at h
    · cases h
    next s1 h1 =>
    rw [List.forall_mem_cons]
    refine ⟨?_, ih h⟩
    cases readChild_did h1 with
    | outline1 ht => rw [ht]; decide
    | outline2 ht => rw [ht]; decide
    | advance ht => rw [ht]; decide
    | unicode ht => rw [ht]; decide
    | note ht => rw [ht]; decide
    | lib ht => rw [ht]; decide
    | guideline ht => rw [ht]; decide
    | anchor ht => rw [ht]; decide
    | image ht => rw [ht]; decide

/-- What an accepted glyph is. -/
structure Accepted (E : Env) (tree : Elem) (attrs : Dict Str PyVal) (calls : List Call) : Prop where
  tag : tree.tag = c!"glyph"
  tags : ∀ e ∈ tree.children, e.tag ≠ c!"glyph"
  result : ∃ fv, Nonempty (ReadResult E fv tree attrs calls)

theorem accepted {E : Env} {versions : List Int} {tree : Elem} {attrs : Dict Str PyVal} {calls : List Call}
    (h : readGlyphTree E true true true versions tree = .ok (attrs, calls)) : Accepted E tree attrs calls := by
  have ht : tree.tag = c!"glyph" := by
    unfold readGlyphTree at h
    by_contra hn
    rw [if_pos hn] at h
    cases h
  have key : ∀ fv, readFormat E true true true fv tree = .ok (attrs, calls) → Accepted E tree attrs calls := by
    intro fv h
    refine ⟨ht, ?_, fv, readFormat_result h⟩
    unfold readFormat at h
    split at h
    · cases h
    split at h
    · cases h
    next s h1 => exact readChildren_tags h1
  obtain ⟨_, _, ⟨_, h⟩ | ⟨_, h⟩⟩ := readGlyphTree_format h
  · exact key _ h
  · exact key _ h

theorem allTagsList_tags {P : Str → Prop} {es : List Elem} (h : ∀ e ∈ es, P e.tag) (h' : ∀ e ∈ es, ∀ t ∈ allTagsList e.children, P t) : ∀ t ∈ allTagsList es, P t := by
  induction es with
  | nil => intro t ht; cases ht
  | cons e es ih =>
    rw [List.forall_mem_cons] at h h'
    rw [allTagsList, List.forall_mem_append]
    refine ⟨?_, ih h.2 h'.2⟩
    obtain ⟨tag, _, _, _, children⟩ := e
    rw [allTags, List.forall_mem_cons]
    exact ⟨h.1, h'.1⟩

/-- The parsers that look below `glyph`. -/
theorem run_glyph {σ : Type} (f : Fetcher σ) (hp : f.parent = c!"glyph") (hstop : f.stopAt = none) (s : σ) {E : Env} {tree : Elem} {attrs : Dict Str PyVal} {calls : List Call}
    (h : Accepted E tree attrs calls) (hn : NoNestedGlyph tree) : f.run [] s (events tree) = .ok (f.hits s (pick f.tag tree.children)).1 := by
  have ht := h.tag
  have hc : ∀ t ∈ allTagsList tree.children, t ≠ f.parent ∧ f.stopAt ≠ some t :=
    allTagsList_tags (fun e he => ⟨by rw [hp]; exact h.tags e he, by rw [hstop]; simp⟩) (fun e he t ht => ⟨by rw [hp]; exact (hn e he t ht).1, by rw [hstop]; simp⟩)
  obtain ⟨tag, attrib, text, tail, children⟩ := tree
  simp only [Elem.tag, Elem.children] at ht hc ⊢
  subst ht
  rw [events, List.cons_append, Fetcher.run]
  simp only [Fetcher.onStart, List.head?_nil, reduceCtorEq, and_false, if_false]
  rw [← hp, runList_hits f [] _ hc s]
  split
  · rfl
  · rw [Fetcher.run, if_neg (by rw [hstop]; simp), if_pos rfl]
    rfl

theorem unicodes_hits {es : List Elem} {l : List Int} (h : List.Forall₂ (fun e i => readHex e = .ok i) es l) : ∀ s,
    unicodesFetcher.hits s es = (l.foldl (fun acc i => if i ∈ acc then acc else acc ++ [i]) s, false) := by
  induction h with
  | nil => intro s; rfl
  | @cons e i es l h _ ih =>
    intro s
    unfold readHex at h
    split at h
    · cases h
    next t h1 =>
    split at h
    · cases h
    next j h2 =>
    cases h
    rw [Fetcher.hits]
    simp only [unicodesFetcher, h1, h2]
    exact ih _

theorem fetchUnicodes_eq {E : Env} {tree : Elem} {attrs : Dict Str PyVal} {calls : List Call} (h : Accepted E tree attrs calls) (hn : NoNestedGlyph tree) :
    ∃ us, fetchUnicodes tree = .ok us ∧ listItems (delivered attrs c!"unicodes") = us.map fun i => PyVal.int i := by
  obtain ⟨fv, ⟨R⟩⟩ := h.result
  obtain ⟨l, hl, hu⟩ := R.result.unicodes
  refine ⟨R.s.unicodes, ?_, ?_⟩
  · rw [fetchUnicodes, run_glyph unicodesFetcher rfl rfl [] h hn]
    have := unicodes_hits hl []
    rw [show unicodesFetcher.tag = c!"unicode" from rfl, this, hu]
  · rw [delivered, R.final.unicodes]
    split
    · next h0 =>
      rw [R.result.other _ (by decide), h0]
      rfl
    · rfl

theorem fetchImage_eq {E : Env} {tree : Elem} {attrs : Dict Str PyVal} {calls : List Call} (h : Accepted E tree attrs calls) (hn : NoNestedGlyph tree)
    (hd : ∀ e ∈ tree.children, e.tag = c!"image" → (Dict.keys e.attrib).Nodup) :
    (fetchImageFileName tree = .ok none ∧ Dict.get? attrs c!"image" = none) ∨
      ∃ f d, fetchImageFileName tree = .ok (some f) ∧ Dict.get? attrs c!"image" = some (.dict d) ∧ Field d c!"fileName" (.str f) := by
  obtain ⟨fv, ⟨R⟩⟩ := h.result
  have hf := run_glyph imageFetcher rfl rfl none h hn
  have hi : Dict.get? attrs c!"image" = Dict.get? R.s.attrs c!"image" := R.final.other _ (by decide)
  rw [show imageFetcher.tag = c!"image" from rfl] at hf
  rcases R.result.image with ⟨h1, h2⟩ | ⟨e, h1, h2, v, h3, h4⟩
  · left
    rw [h1] at hf
    exact ⟨hf, by rw [hi]; exact h2⟩
  · right
    rw [h1] at hf
    have hmem := List.mem_filter.1 (show e ∈ pick c!"image" tree.children by rw [h1]; simp)
    have ha : (Dict.keys e.attrib).Nodup := hd e hmem.1 (by simpa using hmem.2)
    rw [readImage] at h3
    split at h3
    · cases h3
    next d h5 =>
    split at h3
    · cases h3
    next h6 =>
    cases h3
    have hinfo : (transformationInfo.map Prod.fst).Nodup := by decide
    have hok : ∀ {info : List (Str × PyVal)} {d0 d : List (PyVal × PyVal)}, imageNumbers E.F e.attrib d0 info = .ok d → ∀ p ∈ info, ∃ v, numberOr E.F p.2 (Dict.get? e.attrib p.1) = .ok v := by
      intro info
      induction info with
      | nil => intro _ _ _ p hp; cases hp
      | cons q info ih =>
        intro d0 d h
        obtain ⟨a, de⟩ := q
        rw [imageNumbers] at h
        split at h
        · cases h
        next v hv =>
        rw [List.forall_mem_cons]
        exact ⟨⟨v, hv⟩, ih h⟩
    obtain ⟨d', k1, k2, k3, k4⟩ := imageNumbers_ok (d := attribDict e.attrib) hinfo (hok h5)
    rw [h5] at k1
    cases k1
    have hnd : ((attribDict e.attrib).map Prod.fst).Nodup := by
      rw [attribDict, List.map_map]
      have : (Prod.fst ∘ fun p : Str × Str => (PyVal.str p.1, PyVal.str p.2)) = PyVal.str ∘ Prod.fst := rfl
      rw [this, ← List.map_map]
      exact List.Nodup.map (fun a b h => by injection h) ha
    have him : Image E.F (.dict d) := (image_iff (fun d' h => by injection h with h; rw [← h]; exact k2 hnd)).1 (by simpa using h6)
    obtain ⟨d', e1, e2, e3, e4⟩ := him
    cases e1
    obtain ⟨v, hv⟩ := e2.present _ (List.mem_singleton.2 rfl)
    obtain ⟨s, rfl⟩ : ∃ s, v = .str s := by
      rcases e2.typed _ hv with ⟨r, hr, _, hs⟩ | ⟨r, hr, h, _⟩
      · rw [List.mem_singleton.1 hr] at hs
        exact hs
      · simp only [PyVal.str.injEq] at h
        have := List.mem_map_of_mem (f := Prod.fst) hr
        rw [← h] at this
        exact absurd this (by decide)
    have hg : Dict.get? d (.str c!"fileName") = some (.str s) := Dict.get?_of_mem (k2 hnd) hv
    rw [k4 _ (by decide)] at hg
    have hg' := field_attribDict ha c!"fileName"
    rw [Validators.get, hg] at hg'
    cases hga : Dict.get? e.attrib c!"fileName" with
    | none => rw [hga] at hg'; cases hg'
    | some f =>
      rw [hga] at hg'
      cases hg'
      refine ⟨s, d, ?_, by rw [hi]; exact h4, hv, by simp⟩
      rw [fetchImageFileName, hf]
      simp only [Fetcher.hits, imageFetcher, hga]

/-! ### Components -/

theorem readPoints2_base {b : Bool} {ps : List MPoint} : ∀ {ids ids' : List Str} {cs : List Call}, readPoints2 b ids ps = .ok (cs, ids') → cs.flatMap callBase = [] := by
  induction ps with
  | nil => intro ids ids' cs h; rw [readPoints2] at h; cases h; rfl
  | cons p ps ih =>
    intro ids ids' cs h
    rw [readPoints2] at h
    split at h
    · cases h
    split at h
    · cases h
    next h1 =>
    cases h
    rw [List.flatMap_cons, ih h1]
    rfl

theorem readContour2_base {E : Env} {b : Bool} {ids ids' : List Str} {e : Elem} {cs : List Call} (h : readContour2 E b ids e = .ok (cs, ids')) : cs.flatMap callBase = [] := by
  unfold readContour2 at h
  split at h
  · cases h
  split at h
  · cases h
  split at h
  · cases h
  split at h
  · cases h
  next h1 =>
  cases h
  rw [List.flatMap_append, List.flatMap_cons, readPoints2_base h1]
  rfl

theorem readComponent_base {E : Env} {fv : Nat} {ids ids' : List Str} {e : Elem} {cs : List Call} (h : readComponent E true fv ids e = .ok (cs, ids')) :
    ∃ base, Dict.get? e.attrib c!"base" = some base ∧ cs.flatMap callBase = [.str base] := by
  unfold readComponent at h
  split at h
  · cases h
  split at h
  · cases h
  split at h
  · cases h
  next h3 =>
  cases hb : Dict.get? e.attrib c!"base" with
  | none => rw [hb] at h3; simp at h3
  | some base =>
    rw [hb] at h
    refine ⟨base, rfl, ?_⟩
    split at h
    · cases h
    split at h
    · cases h; rfl
    split at h
    · cases h
    cases h; rfl

theorem pick_cons {t : Str} {e : Elem} {es : List Elem} : pick t (e :: es) = if e.tag = t then e :: pick t es else pick t es := by
  rw [pick, List.filter_cons]
  by_cases h : e.tag = t <;> simp [h, pick]

theorem components_hit {s : List Str} {e : Elem} {base : Str} {es : List Elem} (h : Dict.get? e.attrib c!"base" = some base) :
    componentsFetcher.hits s (e :: es) = componentsFetcher.hits (s ++ [base]) es := by
  rw [Fetcher.hits]
  simp only [componentsFetcher, h]

theorem readOutline2_base {E : Env} {es : List Elem} : ∀ {ids ids' : List Str} {cs : List Call}, readOutline2 E true ids es = .ok (cs, ids') →
    ∃ bs, (∀ s, componentsFetcher.hits s (pick c!"component" es) = (s ++ bs, false)) ∧ cs.flatMap callBase = bs.map PyVal.str := by
  induction es with
  | nil => intro ids ids' cs h; rw [readOutline2] at h; cases h; exact ⟨[], fun s => by simp [pick, Fetcher.hits], rfl⟩
  | cons e es ih =>
    intro ids ids' cs h
    rw [readOutline2] at h
    split at h
    · cases h
    next cs1 ids1 h1 =>
    split at h
    · cases h
    next cs2 ids2 h2 =>
    cases h
    obtain ⟨bs, h3, h4⟩ := ih h2
    rw [List.flatMap_append, h4, pick_cons]
    split at h1
    · next ht =>
      rw [if_neg (by rw [ht]; decide), readContour2_base h1]
      exact ⟨bs, h3, rfl⟩
    split at h1
    · next ht =>
      rw [if_pos ht]
      obtain ⟨base, hb, hc⟩ := readComponent_base h1
      refine ⟨base :: bs, fun s => ?_, by rw [hc]; rfl⟩
      rw [components_hit hb, h3, List.append_assoc]
      rfl
    · cases h1

theorem pointCalls_base (l : List MPoint) : (l.map fun p => Call.addPoint (.tuple [p.x, p.y]) (orNone p.seg) (.bool p.smooth) (orNone p.name) .none).flatMap callBase = [] := by
  induction l with
  | nil => rfl
  | cons p l ih => rw [List.map_cons, List.flatMap_cons, ih]; rfl

theorem readContour1_base {E : Env} {b : Bool} {e : Elem} {cs : List Call} (h : readContour1 E b e = .ok cs) : cs.flatMap callBase = [] := by
  unfold readContour1 at h
  split at h
  · cases h
  split at h
  · cases h
  cases h
  rw [List.flatMap_append, List.flatMap_cons, pointCalls_base]
  rfl

theorem readOutline1_base {E : Env} {es : List Elem} : ∀ {as : List PyVal} {cs : List Call}, readOutline1 E true true es = .ok (as, cs) →
    ∃ bs, (∀ s, componentsFetcher.hits s (pick c!"component" es) = (s ++ bs, false)) ∧ cs.flatMap callBase = bs.map PyVal.str := by
  induction es with
  | nil => intro as cs h; rw [readOutline1] at h; cases h; exact ⟨[], fun s => by simp [pick, Fetcher.hits], rfl⟩
  | cons e es ih =>
    intro as cs h
    rw [readOutline1] at h
    split at h
    · cases h
    next as1 cs1 h1 =>
    split at h
    · cases h
    next as2 cs2 h2 =>
    cases h
    obtain ⟨bs, h3, h4⟩ := ih h2
    rw [List.flatMap_append, h4, pick_cons]
    unfold readItem1 at h1
    split at h1
    · next ht =>
      rw [if_neg (by rw [ht]; decide)]
      refine ⟨bs, h3, ?_⟩
      suffices cs1.flatMap callBase = [] by rw [this]; rfl
      split at h1
      · cases h1
      · cases h1; rfl
      · rw [if_pos rfl] at h1
        cases hc : readContour1 E true e with
        | error x => rw [hc] at h1; cases h1
        | ok cs => rw [hc] at h1; cases h1; exact readContour1_base hc
    split at h1
    · next ht =>
      rw [if_pos ht]
      rw [if_pos rfl] at h1
      cases hc : readComponent E true 1 [] e with
      | error x => rw [hc] at h1; cases h1
      | ok r =>
        obtain ⟨cs, ids⟩ := r
        rw [hc] at h1
        cases h1
        obtain ⟨base, hb, hc⟩ := readComponent_base hc
        refine ⟨base :: bs, fun s => ?_, by rw [hc]; rfl⟩
        rw [components_hit hb, h3, List.append_assoc]
        rfl
    · cases h1

/-- The components parser on the sections of a glyph: nothing, or the components of the only outline. -/
theorem run_components {es : List Elem} {rest : List Event} {stack : List Str} (hn : ∀ c ∈ es, ∀ t ∈ allTagsList c.children, t ≠ c!"glyph" ∧ t ≠ c!"outline")
    (hs : stack.head? ≠ some c!"outline") : (pick c!"outline" es = [] → ∀ s, componentsFetcher.run stack s (eventsList es ++ rest) = componentsFetcher.run stack s rest) ∧
      ∀ o os, pick c!"outline" es = o :: os → ∀ s bs, componentsFetcher.hits s (pick c!"component" o.children) = (bs, false) → componentsFetcher.run stack s (eventsList es ++ rest) = .ok bs := by
  induction es with
  | nil => exact ⟨fun _ _ => rfl, fun o os h => by simp [pick] at h⟩
  | cons e es ih =>
    rw [List.forall_mem_cons] at hn
    obtain ⟨ih1, ih2⟩ := ih hn.2
    rw [pick_cons]
    by_cases he : e.tag = c!"outline"
    · rw [if_pos he]
      refine ⟨fun h => by simp at h, ?_⟩
      intro o os h s bs hb
      injection h with h h'
      subst h
      obtain ⟨tag, attrib, text, tail, children⟩ := e
      simp only [Elem.tag, Elem.children] at he hn hb
      subst he
      rw [eventsList, List.append_assoc, events, List.append_assoc, List.cons_append, Fetcher.run]
      have h1 : componentsFetcher.onStart stack s c!"outline" attrib = (s, false) := by
        unfold Fetcher.onStart
        rw [if_neg]
        rintro ⟨h, _⟩
        exact absurd h (by decide)
      rw [h1]
      dsimp only
      have h2 := runList_hits componentsFetcher stack ([Event.stop c!"outline"] ++ (eventsList es ++ rest)) (es := children)
        (fun t ht => ⟨(hn.1 t ht).2, fun h => by cases h; exact (hn.1 _ ht).2 rfl⟩) s
      rw [show componentsFetcher.parent = c!"outline" from rfl, show componentsFetcher.tag = c!"component" from rfl] at h2
      rw [h2, hb]
      rfl
    · rw [if_neg he]
      have hq : ∀ s, componentsFetcher.run stack s (eventsList (e :: es) ++ rest) = componentsFetcher.run stack s (eventsList es ++ rest) := by
        intro s
        rw [eventsList, List.append_assoc]
        refine run_quiet _ _ _ _ _ (.inr hs) ?_
        obtain ⟨tag, attrib, text, tail, children⟩ := e
        simp only [Elem.tag, Elem.children] at he hn
        rw [allTags, List.forall_mem_cons]
        exact ⟨⟨he, fun h => he (by injection h with h; exact h.symm)⟩, fun t ht => ⟨(hn.1 t ht).2, fun h => by cases h; exact (hn.1 _ ht).2 rfl⟩⟩
      exact ⟨fun h s => by rw [hq]; exact ih1 h s, fun o os h s bs hb => by rw [hq]; exact ih2 o os h s bs hb⟩

theorem fetchComponents_eq {E : Env} {tree : Elem} {attrs : Dict Str PyVal} {calls : List Call} (h : Accepted E tree attrs calls) (hn : NoNestedGlyph tree) :
    ∃ bs, fetchComponentBases tree = .ok bs ∧ calls.flatMap callBase = bs.map PyVal.str := by
  obtain ⟨fv, ⟨R⟩⟩ := h.result
  have htag := h.tag
  rw [R.hcalls]
  have key : (∀ o os, pick c!"outline" tree.children = o :: os → ∀ bs, componentsFetcher.hits [] (pick c!"component" o.children) = (bs, false) → fetchComponentBases tree = .ok bs) ∧
      (pick c!"outline" tree.children = [] → fetchComponentBases tree = .ok []) := by
    obtain ⟨tag, attrib, text, tail, children⟩ := tree
    simp only [Elem.tag] at htag
    subst htag
    obtain ⟨r1, r2⟩ := run_components (es := children) (rest := [Event.stop c!"glyph"]) (stack := [c!"glyph"]) hn (by decide)
    have hstart : fetchComponentBases (.mk c!"glyph" attrib text tail children) = componentsFetcher.run [c!"glyph"] [] (eventsList children ++ [Event.stop c!"glyph"]) := by
      rw [fetchComponentBases, events, List.cons_append, Fetcher.run]
      simp only [Fetcher.onStart, List.head?_nil, reduceCtorEq, and_false, if_false]
    rw [hstart]
    refine ⟨fun o os h bs hb => r2 o os h [] bs hb, fun h => ?_⟩
    rw [r1 h]
    rfl
  have hcase : (pick c!"outline" tree.children = [] ∧ R.s.calls = []) ∨ ∃ o bs, pick c!"outline" tree.children = [o] ∧
      (∀ s, componentsFetcher.hits s (pick c!"component" o.children) = (s ++ bs, false)) ∧ R.s.calls.flatMap callBase = bs.map PyVal.str := by
    by_cases hf : fv = 1
    · rcases R.result.outline1 hf with ⟨h1, h2⟩ | ⟨o, h1, _, as, h2, _⟩
      · exact .inl ⟨h1, h2.1⟩
      · obtain ⟨bs, hb⟩ := readOutline1_base h2
        exact .inr ⟨o, bs, h1, hb⟩
    · rcases R.result.outline2 hf with ⟨h1, h2⟩ | ⟨o, h1, _, h2⟩
      · exact .inl ⟨h1, h2.1⟩
      · obtain ⟨bs, hb⟩ := readOutline2_base h2
        exact .inr ⟨o, bs, h1, hb⟩
  rcases hcase with ⟨h1, h2⟩ | ⟨o, bs, h1, h2, h3⟩
  · exact ⟨[], key.2 h1, by rw [h2]; rfl⟩
  · exact ⟨bs, key.1 o [] h1 bs (h2 []), h3⟩

end Verif.Glif
