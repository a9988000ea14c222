import Verif.Proofs.GlifRead
import Mathlib.Data.List.Forall2
/-! The loop of the reader over the elements of a glyph, with a glyph object and a pen, with validation. -/
namespace Verif.Glif
open Verif Verif.Validators Verif.Spec.Validators Verif.Spec.Glif

/-- The state before an element that may occur once has been dealt with. -/
def Collected.mark (s : Collected) (tag : Str) : Collected := { s with seen := s.seen ++ [tag] }

theorem once_iff {s s' : Collected} {tag : Str} : s.once true tag = .ok s' ↔ tag ∉ s.seen ∧ s' = s.mark tag := by
  unfold Collected.once
  by_cases h : tag ∈ s.seen
  · simp [h]
  · simp only [h, decide_false, Bool.and_false, Bool.false_eq_true, if_false, Except.ok.injEq, not_false_eq_true, true_and]
    exact eq_comm

theorem once_of {s : Collected} {tag : Str} (h : tag ∉ s.seen) : s.once true tag = .ok (s.mark tag) := once_iff.2 ⟨h, rfl⟩

/-- What reading one element does. -/
inductive Did (E : Env) (fv : Nat) (s s' : Collected) (e : Elem) : Prop
  | outline1 (ht : e.tag = c!"outline") (hseen : c!"outline" ∉ s.seen) (hok : outlineOk e = true) (hfv : fv = 1) (as : List PyVal) (cs : List Call)
      (hr : readOutline1 E true true e.children = .ok (as, cs)) (hv : as ≠ [] → (anchorsValidator E.F [] (.list as)).1 = true)
      (hs : s' = { s.mark c!"outline" with calls := s.calls ++ cs, attrs := if as = [] then s.attrs else Dict.set s.attrs c!"anchors" (.list as) })
  | outline2 (ht : e.tag = c!"outline") (hseen : c!"outline" ∉ s.seen) (hok : outlineOk e = true) (hfv : fv ≠ 1) (cs : List Call) (ids : List Str)
      (hr : readOutline2 E true s.identifiers e.children = .ok (cs, ids))
      (hs : s' = { s.mark c!"outline" with calls := s.calls ++ cs, identifiers := ids })
  | advance (ht : e.tag = c!"advance") (hseen : c!"advance" ∉ s.seen) (w h : PyVal) (hr : readAdvance E.F e = .ok (w, h))
      (hs : s' = ((s.mark c!"advance").setAttr c!"width" w).setAttr c!"height" h)
  | unicode (ht : e.tag = c!"unicode") (i : Int) (hr : readHex e = .ok i) (hs : s' = if i ∈ s.unicodes then s else { s with unicodes := s.unicodes ++ [i] })
  | note (ht : e.tag = c!"note") (hseen : c!"note" ∉ s.seen) (t : Str) (hr : readNote e = .ok t) (hs : s' = (s.mark c!"note").setAttr c!"note" (.str t))
  | lib (ht : e.tag = c!"lib") (hseen : c!"lib" ∉ s.seen) (v : PyVal) (hr : readLib E true e = .ok v) (hs : s' = (s.mark c!"lib").setAttr c!"lib" v)
  | guideline (ht : e.tag = c!"guideline") (hfv : fv ≠ 1) (hc : e.children = []) (d : List (PyVal × PyVal)) (hr : readEntry E.F [c!"x", c!"y", c!"angle"] e.attrib = .ok d)
      (hs : s' = { s with guidelines := s.guidelines ++ [.dict d] })
  | anchor (ht : e.tag = c!"anchor") (hfv : fv ≠ 1) (hc : e.children = []) (d : List (PyVal × PyVal)) (hr : readEntry E.F [c!"x", c!"y"] e.attrib = .ok d)
      (hs : s' = { s with anchors := s.anchors ++ [.dict d] })
  | image (ht : e.tag = c!"image") (hfv : fv ≠ 1) (hseen : c!"image" ∉ s.seen) (hc : e.children = []) (v : PyVal) (hr : readImage E true e = .ok v)
      (hs : s' = (s.mark c!"image").setAttr c!"image" v)

theorem readChild_did {E : Env} {fv : Nat} {s s' : Collected} {e : Elem} (h : readChild E true true true fv s e = .ok s') : Did E fv s s' e := by
  unfold readChild at h
  split at h
  · next ht =>
    unfold Collected.outline at h
    split at h
    · cases h
    next s1 h1 =>
    obtain ⟨hseen, rfl⟩ := once_iff.1 h1
    split at h
    · cases h
    next hok =>
    simp only [Bool.true_and, Bool.not_eq_true', Bool.not_eq_false] at hok
    split at h
    · next hfv =>
      unfold Collected.outline1 at h
      split at h
      · cases h
      next as cs hr =>
      simp only [Bool.true_and] at h
      split at h
      · next hne =>
        have hne : as ≠ [] := by simpa using hne
        split at h
        · cases h
        next hv =>
        cases h
        refine .outline1 ht hseen hok hfv as cs hr (fun _ => by simpa using hv) ?_
        rw [if_neg hne]; rfl
      · next hne =>
        have hne : as = [] := by simpa using hne
        cases h
        refine .outline1 ht hseen hok hfv as cs hr (fun hn => absurd hne hn) ?_
        rw [if_pos hne]; rfl
    · next hfv =>
      unfold Collected.outline2 at h
      rw [if_pos rfl] at h
      split at h
      · cases h
      next cs ids hr =>
      cases h
      exact .outline2 ht hseen hok hfv cs ids hr rfl
  rw [if_neg (by decide)] at h
  split at h
  · next ht =>
    unfold Collected.advance at h
    split at h
    · cases h
    next s1 h1 =>
    obtain ⟨hseen, rfl⟩ := once_iff.1 h1
    split at h
    · cases h
    next w hh hr =>
    cases h
    exact .advance ht hseen w hh hr rfl
  split at h
  · next ht =>
    unfold Collected.unicode at h
    split at h
    · cases h
    next i hr =>
    cases h
    exact .unicode ht i hr rfl
  split at h
  · next ht =>
    unfold Collected.note at h
    split at h
    · cases h
    next s1 h1 =>
    obtain ⟨hseen, rfl⟩ := once_iff.1 h1
    split at h
    · cases h
    next t hr =>
    cases h
    exact .note ht hseen t hr rfl
  split at h
  · next ht =>
    unfold Collected.lib at h
    split at h
    · cases h
    next s1 h1 =>
    obtain ⟨hseen, rfl⟩ := once_iff.1 h1
    split at h
    · cases h
    next v hr =>
    cases h
    exact .lib ht hseen v hr rfl
  split at h
  · next ht =>
    unfold Collected.guideline at h
    split at h
    · cases h
    next hc =>
    split at h
    · cases h
    next d hr =>
    cases h
    exact .guideline ht.2 ht.1 (by simpa using hc) d hr rfl
  split at h
  · next ht =>
    unfold Collected.anchor at h
    split at h
    · cases h
    next hc =>
    split at h
    · cases h
    next d hr =>
    cases h
    exact .anchor ht.2 ht.1 (by simpa using hc) d hr rfl
  split at h
  · next ht =>
    unfold Collected.image at h
    split at h
    · cases h
    next s1 h1 =>
    obtain ⟨hseen, rfl⟩ := once_iff.1 h1
    split at h
    · cases h
    next hc =>
    split at h
    · cases h
    next v hr =>
    cases h
    exact .image ht.2 ht.1 hseen (by simpa using hc) v hr rfl
  · cases h

theorem did_readChild {E : Env} {fv : Nat} {s s' : Collected} {e : Elem} (h : Did E fv s s' e) : readChild E true true true fv s e = .ok s' := by
  unfold readChild
  cases h with
  | outline1 ht hseen hok hfv as cs hr hv hs =>
    rw [if_pos ht, Collected.outline, once_of hseen]
    simp only [hok, Bool.not_true, Bool.and_false, Bool.false_eq_true, if_false, hfv, if_true, Collected.outline1, hr, Bool.true_and]
    by_cases ha : as = []
    · subst ha hs; rfl
    · rw [if_pos (by simpa using ha), hv ha, hs, if_neg ha]
      rfl
  | outline2 ht hseen hok hfv cs ids hr hs =>
    rw [if_pos ht, Collected.outline, once_of hseen]
    simp only [hok, Bool.not_true, Bool.and_false, Bool.false_eq_true, if_false, hfv, Collected.outline2, if_true]
    rw [show (s.mark c!"outline").identifiers = s.identifiers from rfl, hr, hs]
    rfl
  | advance ht hseen w h hr hs =>
    rw [ht, if_neg (by decide), if_neg (by decide), if_pos rfl, Collected.advance, once_of hseen, hs]
    simp only [hr]
  | unicode ht i hr hs =>
    rw [ht, if_neg (by decide), if_neg (by decide), if_neg (by decide), if_pos rfl, Collected.unicode, hs]
    simp only [hr]
  | note ht hseen t hr hs =>
    rw [ht, if_neg (by decide), if_neg (by decide), if_neg (by decide), if_neg (by decide), if_pos rfl, Collected.note, once_of hseen, hs]
    simp only [hr]
  | lib ht hseen v hr hs =>
    rw [ht, if_neg (by decide), if_neg (by decide), if_neg (by decide), if_neg (by decide), if_neg (by decide), if_pos rfl, Collected.lib, once_of hseen, hs]
    simp only [hr]
  | guideline ht hfv hc d hr hs =>
    rw [ht, if_neg (by decide), if_neg (by decide), if_neg (by decide), if_neg (by decide), if_neg (by decide), if_neg (by decide), if_pos ⟨hfv, rfl⟩, Collected.guideline, hc, hs]
    simp [hr]
  | anchor ht hfv hc d hr hs =>
    rw [ht, if_neg (by decide), if_neg (by decide), if_neg (by decide), if_neg (by decide), if_neg (by decide), if_neg (by decide), if_neg (fun h => absurd h.2 (by decide)),
      if_pos ⟨hfv, rfl⟩, Collected.anchor, hc, hs]
    simp [hr]
  | image ht hfv hseen hc v hr hs =>
    rw [ht, if_neg (by decide), if_neg (by decide), if_neg (by decide), if_neg (by decide), if_neg (by decide), if_neg (by decide), if_neg (fun h => absurd h.2 (by decide)),
      if_neg (fun h => absurd h.2 (by decide)), if_pos ⟨hfv, rfl⟩, Collected.image, once_of hseen, hc, hs]
    simp [hr]

/-! ### All elements -/

theorem readChildren_append {E : Env} {b hasObj hasPen : Bool} {fv : Nat} {es es' : List Elem} : ∀ {s : Collected},
    readChildren E b hasObj hasPen fv s (es ++ es') = (match readChildren E b hasObj hasPen fv s es with
      | .error x => .error x
      | .ok s => readChildren E b hasObj hasPen fv s es') := by
  induction es with
  | nil => intro s; rfl
  | cons e es ih =>
    intro s
    rw [List.cons_append, readChildren, readChildren]
    split
    · rfl
    · exact ih

/-- The elements with a tag. -/
def pick (tag : Str) (es : List Elem) : List Elem := es.filter fun e => decide (e.tag = tag)

theorem pick_append (tag : Str) (a b : List Elem) : pick tag (a ++ b) = pick tag a ++ pick tag b := List.filter_append ..

theorem pick_single (tag : Str) (e : Elem) : pick tag [e] = if e.tag = tag then [e] else [] := by
  by_cases h : e.tag = tag <;> simp [pick, h]

/-- There is no element and `Q`, or one with `P`. -/
def AtMostOne (l : List Elem) (P : Elem → Prop) (Q : Prop) : Prop := (l = [] ∧ Q) ∨ ∃ e, l = [e] ∧ P e

/-- The result of the loop over the elements. -/
structure Result (E : Env) (fv : Nat) (attrs0 : Dict Str PyVal) (es : List Elem) (s : Collected) : Prop where
  seen : ∀ t, t ∈ s.seen ↔ t ∈ [c!"outline", c!"advance", c!"note", c!"lib", c!"image"] ∧ pick t es ≠ []
  unicodes : ∃ l, List.Forall₂ (fun e i => readHex e = .ok i) (pick c!"unicode" es) l ∧ s.unicodes = l.foldl (fun acc i => if i ∈ acc then acc else acc ++ [i]) []
  advance : AtMostOne (pick c!"advance" es) (fun e => ∃ w h, readAdvance E.F e = .ok (w, h) ∧ Dict.get? s.attrs c!"width" = some w ∧ Dict.get? s.attrs c!"height" = some h)
    (Dict.get? s.attrs c!"width" = none ∧ Dict.get? s.attrs c!"height" = none)
  note : AtMostOne (pick c!"note" es) (fun e => ∃ t, readNote e = .ok t ∧ Dict.get? s.attrs c!"note" = some (.str t)) (Dict.get? s.attrs c!"note" = none)
  lib : AtMostOne (pick c!"lib" es) (fun e => ∃ v, readLib E true e = .ok v ∧ Dict.get? s.attrs c!"lib" = some v) (Dict.get? s.attrs c!"lib" = none)
  image : AtMostOne (pick c!"image" es) (fun e => fv ≠ 1 ∧ ∃ v, readImage E true e = .ok v ∧ Dict.get? s.attrs c!"image" = some v) (Dict.get? s.attrs c!"image" = none)
  guidelines : List.Forall₂ (fun e v => ∃ d, readEntry E.F [c!"x", c!"y", c!"angle"] e.attrib = .ok d ∧ v = .dict d) (pick c!"guideline" es) s.guidelines
  anchors : List.Forall₂ (fun e v => ∃ d, readEntry E.F [c!"x", c!"y"] e.attrib = .ok d ∧ v = .dict d) (pick c!"anchor" es) s.anchors
  outline2 : fv ≠ 1 → AtMostOne (pick c!"outline" es) (fun e => outlineOk e = true ∧ readOutline2 E true [] e.children = .ok (s.calls, s.identifiers)) (s.calls = [] ∧ s.identifiers = [])
  outline1 : fv = 1 → AtMostOne (pick c!"outline" es)
    (fun e => outlineOk e = true ∧ ∃ as, readOutline1 E true true e.children = .ok (as, s.calls) ∧ Dict.get? s.attrs c!"anchors" = if as = [] then none else some (.list as))
    (s.calls = [] ∧ Dict.get? s.attrs c!"anchors" = none)
  noLists : fv = 1 → s.guidelines = [] ∧ s.anchors = [] ∧ pick c!"guideline" es = [] ∧ pick c!"anchor" es = [] ∧ pick c!"image" es = []
  other : ∀ k, k ∉ [c!"width", c!"height", c!"note", c!"lib", c!"image", c!"anchors"] → Dict.get? s.attrs k = Dict.get? attrs0 k
  anchors2 : fv ≠ 1 → Dict.get? s.attrs c!"anchors" = Dict.get? attrs0 c!"anchors"

theorem result_start {E : Env} {fv : Nat} {attrs0 : Dict Str PyVal}
    (h0 : ∀ k ∈ [c!"width", c!"height", c!"note", c!"lib", c!"image", c!"anchors"], Dict.get? attrs0 k = none) : Result E fv attrs0 [] ⟨attrs0, [], [], [], [], [], []⟩ where
  seen t := by simp [pick]
  unicodes := ⟨[], .nil, rfl⟩
  advance := .inl ⟨rfl, h0 _ (by decide), h0 _ (by decide)⟩
  note := .inl ⟨rfl, h0 _ (by decide)⟩
  lib := .inl ⟨rfl, h0 _ (by decide)⟩
  image := .inl ⟨rfl, h0 _ (by decide)⟩
  guidelines := .nil
  anchors := .nil
  outline2 _ := .inl ⟨rfl, rfl, rfl⟩
  outline1 _ := .inl ⟨rfl, rfl, h0 _ (by decide)⟩
  noLists _ := ⟨rfl, rfl, rfl, rfl, rfl⟩
  other _ _ := rfl
  anchors2 _ := rfl

theorem seen_mark {E : Env} {fv : Nat} {a : Dict Str PyVal} {es : List Elem} {s : Collected} (hR : Result E fv a es s) {e : Elem} {tag : Str} (ht : e.tag = tag)
    (hm : tag ∈ [c!"outline", c!"advance", c!"note", c!"lib", c!"image"]) (t : Str) :
    t ∈ s.seen ++ [tag] ↔ t ∈ [c!"outline", c!"advance", c!"note", c!"lib", c!"image"] ∧ pick t (es ++ [e]) ≠ [] := by
  rw [List.mem_append, hR.seen, List.mem_singleton, pick_append, pick_single, ht]
  by_cases h : t = tag
  · subst h; simp [hm]
  · rw [if_neg (Ne.symm h)]; simp [h]

theorem seen_skip {E : Env} {fv : Nat} {a : Dict Str PyVal} {es : List Elem} {s : Collected} (hR : Result E fv a es s) {e : Elem}
    (hm : e.tag ∉ [c!"outline", c!"advance", c!"note", c!"lib", c!"image"]) (t : Str) :
    t ∈ s.seen ↔ t ∈ [c!"outline", c!"advance", c!"note", c!"lib", c!"image"] ∧ pick t (es ++ [e]) ≠ [] := by
  rw [hR.seen, pick_append, pick_single]
  by_cases h : e.tag = t
  · rw [← h]; simp only [hm, false_and]
  · rw [if_neg h, List.append_nil]

theorem pick_skip {tag : Str} {es : List Elem} {e : Elem} (h : e.tag ≠ tag) : pick tag (es ++ [e]) = pick tag es := by
  rw [pick_append, pick_single, if_neg h, List.append_nil]

theorem pick_take {tag : Str} {es : List Elem} {e : Elem} (h : e.tag = tag) : pick tag (es ++ [e]) = pick tag es ++ [e] := by
  rw [pick_append, pick_single, if_pos h]

theorem pick_nil_of_seen {E : Env} {fv : Nat} {a : Dict Str PyVal} {es : List Elem} {s : Collected} (hR : Result E fv a es s) {tag : Str}
    (hm : tag ∈ [c!"outline", c!"advance", c!"note", c!"lib", c!"image"]) (h : tag ∉ s.seen) : pick tag es = [] := by
  rw [hR.seen] at h
  by_contra hn
  exact h ⟨hm, hn⟩

/-- A step keeps what is said about elements with other tags. -/
theorem Result.frame {E : Env} {fv : Nat} {a : Dict Str PyVal} {es : List Elem} {s s' : Collected} {e : Elem} (hR : Result E fv a es s) (hD : Did E fv s s' e) :
    Result E fv a (es ++ [e]) s' := by
  cases hD with
  | outline1 ht hseen hok hfv as cs hr hv hs =>
    have hp : ∀ t, t ≠ c!"outline" → pick t (es ++ [e]) = pick t es := fun t h => pick_skip (by rw [ht]; exact Ne.symm h)
    have hn := pick_nil_of_seen hR (by decide) hseen
    have hg : ∀ k, k ≠ c!"anchors" → Dict.get? s'.attrs k = Dict.get? s.attrs k := by
      intro k hk
      rw [hs]
      dsimp only
      split
      · rfl
      · exact Dict.get?_set_ne _ _ (Ne.symm hk)
    have h1 := (hR.outline1 hfv).resolve_right (by rw [hn]; rintro ⟨_, h, _⟩; cases h)
    have hu : s'.unicodes = s.unicodes := by rw [hs]; rfl
    have hgl : s'.guidelines = s.guidelines := by rw [hs]; rfl
    have han : s'.anchors = s.anchors := by rw [hs]; rfl
    have hse : s'.seen = s.seen ++ [c!"outline"] := by rw [hs]; rfl
    exact {
      seen := by rw [hse]; exact seen_mark hR ht (by decide)
      unicodes := by rw [hp _ (by decide), hu]; exact hR.unicodes
      advance := by rw [hp _ (by decide), hg _ (by decide), hg _ (by decide)]; exact hR.advance
      note := by rw [hp _ (by decide), hg _ (by decide)]; exact hR.note
      lib := by rw [hp _ (by decide), hg _ (by decide)]; exact hR.lib
      image := by rw [hp _ (by decide), hg _ (by decide)]; exact hR.image
      guidelines := by rw [hp _ (by decide), hgl]; exact hR.guidelines
      anchors := by rw [hp _ (by decide), han]; exact hR.anchors
      outline2 := fun h => absurd hfv h
      outline1 := fun _ => .inr ⟨e, by rw [pick_take ht, hn]; rfl, hok, as, by rw [hs]; simp only [h1.2.1, List.nil_append]; exact hr, by
        rw [hs]
        dsimp only
        split
        · exact h1.2.2
        · exact Dict.get?_set_self ..⟩
      noLists := fun h => by rw [hp _ (by decide), hp _ (by decide), hp _ (by decide), hgl, han]; exact hR.noLists h
      other := fun k hk => by rw [hg k (fun h => hk (by rw [h]; decide))]; exact hR.other k hk
      anchors2 := fun h => absurd hfv h }
  | outline2 ht hseen hok hfv cs ids hr hs =>
    have hp : ∀ t, t ≠ c!"outline" → pick t (es ++ [e]) = pick t es := fun t h => pick_skip (by rw [ht]; exact Ne.symm h)
    have hn := pick_nil_of_seen hR (by decide) hseen
    have hg : s'.attrs = s.attrs := by rw [hs]; rfl
    have h1 := (hR.outline2 hfv).resolve_right (by rw [hn]; rintro ⟨_, h, _⟩; cases h)
    have hu : s'.unicodes = s.unicodes := by rw [hs]; rfl
    have hgl : s'.guidelines = s.guidelines := by rw [hs]; rfl
    have han : s'.anchors = s.anchors := by rw [hs]; rfl
    have hse : s'.seen = s.seen ++ [c!"outline"] := by rw [hs]; rfl
    exact {
      seen := by rw [hse]; exact seen_mark hR ht (by decide)
      unicodes := by rw [hp _ (by decide), hu]; exact hR.unicodes
      advance := by rw [hp _ (by decide), hg]; exact hR.advance
      note := by rw [hp _ (by decide), hg]; exact hR.note
      lib := by rw [hp _ (by decide), hg]; exact hR.lib
      image := by rw [hp _ (by decide), hg]; exact hR.image
      guidelines := by rw [hp _ (by decide), hgl]; exact hR.guidelines
      anchors := by rw [hp _ (by decide), han]; exact hR.anchors
      outline2 := fun _ => .inr ⟨e, by rw [pick_take ht, hn]; rfl, hok, by rw [h1.2.2] at hr; rw [hs]; simp only [h1.2.1, List.nil_append]; exact hr⟩
      outline1 := fun h => absurd h hfv
      noLists := fun h => absurd h hfv
      other := fun k hk => by rw [hg]; exact hR.other k hk
      anchors2 := fun h => by rw [hg]; exact hR.anchors2 h }
  | advance ht hseen w h hr hs =>
    have hp : ∀ t, t ≠ c!"advance" → pick t (es ++ [e]) = pick t es := fun t h => pick_skip (by rw [ht]; exact Ne.symm h)
    have hn := pick_nil_of_seen hR (by decide) hseen
    have hg : ∀ k, k ≠ c!"width" → k ≠ c!"height" → Dict.get? s'.attrs k = Dict.get? s.attrs k := by
      intro k hk hk'
      rw [hs]
      exact (Dict.get?_set_ne _ _ (Ne.symm hk')).trans (Dict.get?_set_ne _ _ (Ne.symm hk))
    have hu : s'.unicodes = s.unicodes := by rw [hs]; rfl
    have hgl : s'.guidelines = s.guidelines := by rw [hs]; rfl
    have han : s'.anchors = s.anchors := by rw [hs]; rfl
    have hse : s'.seen = s.seen ++ [c!"advance"] := by rw [hs]; rfl
    have hca : s'.calls = s.calls := by rw [hs]; rfl
    have hid : s'.identifiers = s.identifiers := by rw [hs]; rfl
    exact {
      seen := by rw [hse]; exact seen_mark hR ht (by decide)
      unicodes := by rw [hp _ (by decide), hu]; exact hR.unicodes
      advance := .inr ⟨e, by rw [pick_take ht, hn]; rfl, w, h, hr, by
        rw [hs]; exact (Dict.get?_set_ne _ _ (by decide)).trans (Dict.get?_set_self ..), by rw [hs]; exact Dict.get?_set_self ..⟩
      note := by rw [hp _ (by decide), hg _ (by decide) (by decide)]; exact hR.note
      lib := by rw [hp _ (by decide), hg _ (by decide) (by decide)]; exact hR.lib
      image := by rw [hp _ (by decide), hg _ (by decide) (by decide)]; exact hR.image
      guidelines := by rw [hp _ (by decide), hgl]; exact hR.guidelines
      anchors := by rw [hp _ (by decide), han]; exact hR.anchors
      outline2 := fun h => by rw [hp _ (by decide), hca, hid]; exact hR.outline2 h
      outline1 := fun h => by rw [hp _ (by decide), hca, hg _ (by decide) (by decide)]; exact hR.outline1 h
      noLists := fun h => by rw [hp _ (by decide), hp _ (by decide), hp _ (by decide), hgl, han]; exact hR.noLists h
      other := fun k hk => by rw [hg k (fun h => hk (by rw [h]; decide)) (fun h => hk (by rw [h]; decide))]; exact hR.other k hk
      anchors2 := fun h => by rw [hg _ (by decide) (by decide)]; exact hR.anchors2 h }
  | unicode ht i hr hs =>
    have hp : ∀ t, t ≠ c!"unicode" → pick t (es ++ [e]) = pick t es := fun t h => pick_skip (by rw [ht]; exact Ne.symm h)
    have hg : s'.attrs = s.attrs := by rw [hs]; split <;> rfl
    have hgl : s'.guidelines = s.guidelines := by rw [hs]; split <;> rfl
    have han : s'.anchors = s.anchors := by rw [hs]; split <;> rfl
    have hse : s'.seen = s.seen := by rw [hs]; split <;> rfl
    have hca : s'.calls = s.calls := by rw [hs]; split <;> rfl
    have hid : s'.identifiers = s.identifiers := by rw [hs]; split <;> rfl
    exact {
      seen := by rw [hse]; exact seen_skip hR (by rw [ht]; decide)
      unicodes := by
        obtain ⟨l, hl, hu⟩ := hR.unicodes
        refine ⟨l ++ [i], by rw [pick_take ht]; exact List.rel_append hl (.cons hr .nil), ?_⟩
        rw [List.foldl_append, ← hu, hs]
        simp only [List.foldl_cons, List.foldl_nil]
        split <;> rfl
      advance := by rw [hp _ (by decide), hg]; exact hR.advance
      note := by rw [hp _ (by decide), hg]; exact hR.note
      lib := by rw [hp _ (by decide), hg]; exact hR.lib
      image := by rw [hp _ (by decide), hg]; exact hR.image
      guidelines := by rw [hp _ (by decide), hgl]; exact hR.guidelines
      anchors := by rw [hp _ (by decide), han]; exact hR.anchors
      outline2 := fun h => by rw [hp _ (by decide), hca, hid]; exact hR.outline2 h
      outline1 := fun h => by rw [hp _ (by decide), hca, hg]; exact hR.outline1 h
      noLists := fun h => by rw [hp _ (by decide), hp _ (by decide), hp _ (by decide), hgl, han]; exact hR.noLists h
      other := fun k hk => by rw [hg]; exact hR.other k hk
      anchors2 := fun h => by rw [hg]; exact hR.anchors2 h }
  | note ht hseen t hr hs =>
    have hp : ∀ t, t ≠ c!"note" → pick t (es ++ [e]) = pick t es := fun t h => pick_skip (by rw [ht]; exact Ne.symm h)
    have hn := pick_nil_of_seen hR (by decide) hseen
    have hg : ∀ k, k ≠ c!"note" → Dict.get? s'.attrs k = Dict.get? s.attrs k := by
      intro k hk
      rw [hs]
      exact Dict.get?_set_ne _ _ (Ne.symm hk)
    have hu : s'.unicodes = s.unicodes := by rw [hs]; rfl
    have hgl : s'.guidelines = s.guidelines := by rw [hs]; rfl
    have han : s'.anchors = s.anchors := by rw [hs]; rfl
    have hse : s'.seen = s.seen ++ [c!"note"] := by rw [hs]; rfl
    have hca : s'.calls = s.calls := by rw [hs]; rfl
    have hid : s'.identifiers = s.identifiers := by rw [hs]; rfl
    exact {
      seen := by rw [hse]; exact seen_mark hR ht (by decide)
      unicodes := by rw [hp _ (by decide), hu]; exact hR.unicodes
      advance := by rw [hp _ (by decide), hg _ (by decide), hg _ (by decide)]; exact hR.advance
      note := .inr ⟨e, by rw [pick_take ht, hn]; rfl, t, hr, by rw [hs]; exact Dict.get?_set_self ..⟩
      lib := by rw [hp _ (by decide), hg _ (by decide)]; exact hR.lib
      image := by rw [hp _ (by decide), hg _ (by decide)]; exact hR.image
      guidelines := by rw [hp _ (by decide), hgl]; exact hR.guidelines
      anchors := by rw [hp _ (by decide), han]; exact hR.anchors
      outline2 := fun h => by rw [hp _ (by decide), hca, hid]; exact hR.outline2 h
      outline1 := fun h => by rw [hp _ (by decide), hca, hg _ (by decide)]; exact hR.outline1 h
      noLists := fun h => by rw [hp _ (by decide), hp _ (by decide), hp _ (by decide), hgl, han]; exact hR.noLists h
      other := fun k hk => by rw [hg k (fun h => hk (by rw [h]; decide))]; exact hR.other k hk
      anchors2 := fun h => by rw [hg _ (by decide)]; exact hR.anchors2 h }
  | lib ht hseen v hr hs =>
    have hp : ∀ t, t ≠ c!"lib" → pick t (es ++ [e]) = pick t es := fun t h => pick_skip (by rw [ht]; exact Ne.symm h)
    have hn := pick_nil_of_seen hR (by decide) hseen
    have hg : ∀ k, k ≠ c!"lib" → Dict.get? s'.attrs k = Dict.get? s.attrs k := by
      intro k hk
      rw [hs]
      exact Dict.get?_set_ne _ _ (Ne.symm hk)
    have hu : s'.unicodes = s.unicodes := by rw [hs]; rfl
    have hgl : s'.guidelines = s.guidelines := by rw [hs]; rfl
    have han : s'.anchors = s.anchors := by rw [hs]; rfl
    have hse : s'.seen = s.seen ++ [c!"lib"] := by rw [hs]; rfl
    have hca : s'.calls = s.calls := by rw [hs]; rfl
    have hid : s'.identifiers = s.identifiers := by rw [hs]; rfl
    exact {
      seen := by rw [hse]; exact seen_mark hR ht (by decide)
      unicodes := by rw [hp _ (by decide), hu]; exact hR.unicodes
      advance := by rw [hp _ (by decide), hg _ (by decide), hg _ (by decide)]; exact hR.advance
      note := by rw [hp _ (by decide), hg _ (by decide)]; exact hR.note
      lib := .inr ⟨e, by rw [pick_take ht, hn]; rfl, v, hr, by rw [hs]; exact Dict.get?_set_self ..⟩
      image := by rw [hp _ (by decide), hg _ (by decide)]; exact hR.image
      guidelines := by rw [hp _ (by decide), hgl]; exact hR.guidelines
      anchors := by rw [hp _ (by decide), han]; exact hR.anchors
      outline2 := fun h => by rw [hp _ (by decide), hca, hid]; exact hR.outline2 h
      outline1 := fun h => by rw [hp _ (by decide), hca, hg _ (by decide)]; exact hR.outline1 h
      noLists := fun h => by rw [hp _ (by decide), hp _ (by decide), hp _ (by decide), hgl, han]; exact hR.noLists h
      other := fun k hk => by rw [hg k (fun h => hk (by rw [h]; decide))]; exact hR.other k hk
      anchors2 := fun h => by rw [hg _ (by decide)]; exact hR.anchors2 h }
  | guideline ht hfv hc d hr hs =>
    have hp : ∀ t, t ≠ c!"guideline" → pick t (es ++ [e]) = pick t es := fun t h => pick_skip (by rw [ht]; exact Ne.symm h)
    have hg : s'.attrs = s.attrs := by rw [hs]
    have hu : s'.unicodes = s.unicodes := by rw [hs]
    have han : s'.anchors = s.anchors := by rw [hs]
    have hse : s'.seen = s.seen := by rw [hs]
    have hca : s'.calls = s.calls := by rw [hs]
    have hid : s'.identifiers = s.identifiers := by rw [hs]
    exact {
      seen := by rw [hse]; exact seen_skip hR (by rw [ht]; decide)
      unicodes := by rw [hp _ (by decide), hu]; exact hR.unicodes
      advance := by rw [hp _ (by decide), hg]; exact hR.advance
      note := by rw [hp _ (by decide), hg]; exact hR.note
      lib := by rw [hp _ (by decide), hg]; exact hR.lib
      image := by rw [hp _ (by decide), hg]; exact hR.image
      guidelines := by rw [pick_take ht, hs]; exact List.rel_append hR.guidelines (.cons ⟨d, hr, rfl⟩ .nil)
      anchors := by rw [hp _ (by decide), han]; exact hR.anchors
      outline2 := fun h => by rw [hp _ (by decide), hca, hid]; exact hR.outline2 h
      outline1 := fun h => absurd h hfv
      noLists := fun h => absurd h hfv
      other := fun k hk => by rw [hg]; exact hR.other k hk
      anchors2 := fun h => by rw [hg]; exact hR.anchors2 h }
  | anchor ht hfv hc d hr hs =>
    have hp : ∀ t, t ≠ c!"anchor" → pick t (es ++ [e]) = pick t es := fun t h => pick_skip (by rw [ht]; exact Ne.symm h)
    have hg : s'.attrs = s.attrs := by rw [hs]
    have hu : s'.unicodes = s.unicodes := by rw [hs]
    have hgl : s'.guidelines = s.guidelines := by rw [hs]
    have hse : s'.seen = s.seen := by rw [hs]
    have hca : s'.calls = s.calls := by rw [hs]
    have hid : s'.identifiers = s.identifiers := by rw [hs]
    exact {
      seen := by rw [hse]; exact seen_skip hR (by rw [ht]; decide)
      unicodes := by rw [hp _ (by decide), hu]; exact hR.unicodes
      advance := by rw [hp _ (by decide), hg]; exact hR.advance
      note := by rw [hp _ (by decide), hg]; exact hR.note
      lib := by rw [hp _ (by decide), hg]; exact hR.lib
      image := by rw [hp _ (by decide), hg]; exact hR.image
      guidelines := by rw [hp _ (by decide), hgl]; exact hR.guidelines
      anchors := by rw [pick_take ht, hs]; exact List.rel_append hR.anchors (.cons ⟨d, hr, rfl⟩ .nil)
      outline2 := fun h => by rw [hp _ (by decide), hca, hid]; exact hR.outline2 h
      outline1 := fun h => absurd h hfv
      noLists := fun h => absurd h hfv
      other := fun k hk => by rw [hg]; exact hR.other k hk
      anchors2 := fun h => by rw [hg]; exact hR.anchors2 h }
  | image ht hfv hseen hc v hr hs =>
    have hp : ∀ t, t ≠ c!"image" → pick t (es ++ [e]) = pick t es := fun t h => pick_skip (by rw [ht]; exact Ne.symm h)
    have hn := pick_nil_of_seen hR (by decide) hseen
    have hg : ∀ k, k ≠ c!"image" → Dict.get? s'.attrs k = Dict.get? s.attrs k := by
      intro k hk
      rw [hs]
      exact Dict.get?_set_ne _ _ (Ne.symm hk)
    have hu : s'.unicodes = s.unicodes := by rw [hs]; rfl
    have hgl : s'.guidelines = s.guidelines := by rw [hs]; rfl
    have han : s'.anchors = s.anchors := by rw [hs]; rfl
    have hse : s'.seen = s.seen ++ [c!"image"] := by rw [hs]; rfl
    have hca : s'.calls = s.calls := by rw [hs]; rfl
    have hid : s'.identifiers = s.identifiers := by rw [hs]; rfl
    exact {
      seen := by rw [hse]; exact seen_mark hR ht (by decide)
      unicodes := by rw [hp _ (by decide), hu]; exact hR.unicodes
      advance := by rw [hp _ (by decide), hg _ (by decide), hg _ (by decide)]; exact hR.advance
      note := by rw [hp _ (by decide), hg _ (by decide)]; exact hR.note
      lib := by rw [hp _ (by decide), hg _ (by decide)]; exact hR.lib
      image := .inr ⟨e, by rw [pick_take ht, hn]; rfl, hfv, v, hr, by rw [hs]; exact Dict.get?_set_self ..⟩
      guidelines := by rw [hp _ (by decide), hgl]; exact hR.guidelines
      anchors := by rw [hp _ (by decide), han]; exact hR.anchors
      outline2 := fun h => by rw [hp _ (by decide), hca, hid]; exact hR.outline2 h
      outline1 := fun h => by rw [hp _ (by decide), hca, hg _ (by decide)]; exact hR.outline1 h
      noLists := fun h => absurd h hfv
      other := fun k hk => by rw [hg k (fun h => hk (by rw [h]; decide))]; exact hR.other k hk
      anchors2 := fun h => by rw [hg _ (by decide)]; exact hR.anchors2 h }

/-- The loop over the elements, when it succeeds. -/
theorem readChildren_result {E : Env} {fv : Nat} {a : Dict Str PyVal} : ∀ {es es0 : List Elem} {s s' : Collected}, Result E fv a es0 s →
    readChildren E true true true fv s es = .ok s' → Result E fv a (es0 ++ es) s' := by
  intro es
  induction es with
  | nil => intro es0 s s' hR h; cases h; rw [List.append_nil]; exact hR
  | cons e es ih =>
    intro es0 s s' hR h
    rw [readChildren] at h
    split at h
    · cases h
    next s1 h1 =>
    have := ih (hR.frame (readChild_did h1)) h
    rwa [List.append_assoc, List.singleton_append] at this

/-! ### The end -/

theorem setList_values {s s' : Collected} {name : Str} {l : List PyVal} {verdict : Bool × List Str} (h : s.setList true name l verdict = .ok s') :
    Dict.get? s'.attrs name = (if l = [] then Dict.get? s.attrs name else some (.list l)) ∧ (∀ k, k ≠ name → Dict.get? s'.attrs k = Dict.get? s.attrs k) ∧ s'.calls = s.calls ∧
      s'.anchors = s.anchors ∧ s'.identifiers = if l = [] then s.identifiers else verdict.2 := by
  unfold Collected.setList at h
  split at h
  · next he =>
    have he : l = [] := by simpa using he
    cases h
    simp [he]
  · next he =>
    have he : l ≠ [] := by simpa using he
    split at h
    · cases h
    cases h
    refine ⟨?_, fun k hk => Dict.get?_set_ne _ _ (Ne.symm hk), rfl, rfl, by rw [if_neg he]⟩
    rw [if_neg he]
    exact Dict.get?_set_self ..

/-- What the attributes are at the end. -/
structure Final (s : Collected) (attrs : Dict Str PyVal) : Prop where
  unicodes : Dict.get? attrs c!"unicodes" = if s.unicodes = [] then Dict.get? s.attrs c!"unicodes" else some (.list (s.unicodes.map fun i => .int i))
  guidelines : Dict.get? attrs c!"guidelines" = if s.guidelines = [] then Dict.get? s.attrs c!"guidelines" else some (.list s.guidelines)
  anchors : Dict.get? attrs c!"anchors" = if s.anchors = [] then Dict.get? s.attrs c!"anchors" else some (.list s.anchors)
  other : ∀ k, k ∉ [c!"unicodes", c!"guidelines", c!"anchors"] → Dict.get? attrs k = Dict.get? s.attrs k

theorem finish_values {E : Env} {s s' : Collected} (h : s.finish E true = .ok s') : Final s s'.attrs ∧ s'.calls = s.calls := by
  unfold Collected.finish at h
  simp only at h
  obtain ⟨s1, hs1⟩ : ∃ s1, s1 = (if s.unicodes.isEmpty then s else s.setAttr c!"unicodes" (.list (s.unicodes.map fun i => .int i))) := ⟨_, rfl⟩
  rw [← hs1] at h
  have hu : Dict.get? s1.attrs c!"unicodes" = if s.unicodes = [] then Dict.get? s.attrs c!"unicodes" else some (.list (s.unicodes.map fun i => .int i)) := by
    rw [hs1]
    by_cases hn : s.unicodes = []
    · simp [hn]
    · rw [if_neg (by simpa using hn), if_neg hn]
      exact Dict.get?_set_self ..
  have ho : ∀ k, k ≠ c!"unicodes" → Dict.get? s1.attrs k = Dict.get? s.attrs k := by
    intro k hk
    rw [hs1]
    split
    · rfl
    · exact Dict.get?_set_ne _ _ (Ne.symm hk)
  have hg : s1.guidelines = s.guidelines := by rw [hs1]; split <;> rfl
  have ha : s1.anchors = s.anchors := by rw [hs1]; split <;> rfl
  have hc : s1.calls = s.calls := by rw [hs1]; split <;> rfl
  split at h
  · cases h
  next s2 h2 =>
  obtain ⟨g1, g2, g3, g4, -⟩ := setList_values h2
  obtain ⟨a1, a2, a3, -, -⟩ := setList_values h
  rw [hg] at g1
  rw [g4, ha] at a1
  refine ⟨⟨?_, ?_, ?_, fun k hk => ?_⟩, by rw [a3, g3, hc]⟩
  · rw [a2 _ (by decide), g2 _ (by decide), hu]
  · rw [a2 _ (by decide), g1, ho _ (by decide)]
  · rw [a1, g2 _ (by decide), ho _ (by decide)]
  · simp only [List.mem_cons, List.not_mem_nil, or_false, not_or] at hk
    rw [a2 _ hk.2.2, g2 _ hk.2.1, ho _ hk.1]

/-- A glyph that is read. -/
structure ReadResult (E : Env) (fv : Nat) (tree : Elem) (attrs : Dict Str PyVal) (calls : List Call) where
  name : Str
  s : Collected
  hname : name ≠ [] ∧ Dict.get? tree.attrib c!"name" = some name
  result : Result E fv [(c!"name", .str name)] tree.children s
  final : Final s attrs
  hcalls : calls = s.calls

theorem readFormat_result {E : Env} {fv : Nat} {tree : Elem} {attrs : Dict Str PyVal} {calls : List Call} (h : readFormat E true true true fv tree = .ok (attrs, calls)) :
    Nonempty (ReadResult E fv tree attrs calls) := by
  unfold readFormat at h
  split at h
  · cases h
  next attrs0 h0 =>
  split at h
  · cases h
  next s hs =>
  split at h
  · cases h
  next s' hs' =>
  cases h
  unfold readName at h0
  split at h0
  · next c cs hn =>
    cases h0
    obtain ⟨h1, h2⟩ := finish_values hs'
    refine ⟨⟨c :: cs, s, ⟨by simp, hn⟩, ?_, h1, h2⟩⟩
    refine readChildren_result (result_start ?_) hs
    intro k hk
    simp only [List.mem_cons, List.not_mem_nil, or_false] at hk
    rcases hk with rfl | rfl | rfl | rfl | rfl | rfl <;> rfl
  · cases h0

theorem Result.delivered_unicodes {E : Env} {fv : Nat} {name : Str} {es : List Elem} {s : Collected} (hR : Result E fv [(c!"name", .str name)] es s) :
    Dict.get? s.attrs c!"unicodes" = none ∧ Dict.get? s.attrs c!"guidelines" = none ∧ Dict.get? s.attrs c!"name" = some (.str name) :=
  ⟨by rw [hR.other _ (by decide)]; rfl, by rw [hR.other _ (by decide)]; rfl, by rw [hR.other _ (by decide)]; rfl⟩

/-! ### Success -/

/-- An element the format 2 reader takes. -/
inductive Fine (E : Env) (e : Elem) : Prop
  | outline (ht : e.tag = c!"outline") (hok : outlineOk e = true) (cs : List Call) (ids : List Str) (hr : readOutline2 E true [] e.children = .ok (cs, ids))
  | advance (ht : e.tag = c!"advance") (w h : PyVal) (hr : readAdvance E.F e = .ok (w, h))
  | unicode (ht : e.tag = c!"unicode") (i : Int) (hr : readHex e = .ok i)
  | note (ht : e.tag = c!"note") (t : Str) (hr : readNote e = .ok t)
  | lib (ht : e.tag = c!"lib") (v : PyVal) (hr : readLib E true e = .ok v)
  | guideline (ht : e.tag = c!"guideline") (hc : e.children = []) (d : List (PyVal × PyVal)) (hr : readEntry E.F [c!"x", c!"y", c!"angle"] e.attrib = .ok d)
  | anchor (ht : e.tag = c!"anchor") (hc : e.children = []) (d : List (PyVal × PyVal)) (hr : readEntry E.F [c!"x", c!"y"] e.attrib = .ok d)
  | image (ht : e.tag = c!"image") (hc : e.children = []) (v : PyVal) (hr : readImage E true e = .ok v)

theorem readChildren_fine {E : Env} {a : Dict Str PyVal} : ∀ {es es0 : List Elem} {s : Collected}, Result E 2 a es0 s → (∀ e ∈ es, Fine E e) →
    (∀ t ∈ [c!"outline", c!"advance", c!"note", c!"lib", c!"image"], (pick t (es0 ++ es)).length ≤ 1) → ∃ s', readChildren E true true true 2 s es = .ok s' := by
  intro es
  induction es with
  | nil => intro es0 s _ _ _; exact ⟨s, rfl⟩
  | cons e es ih =>
    intro es0 s hR hf hl
    have key : ∀ t ∈ [c!"outline", c!"advance", c!"note", c!"lib", c!"image"], e.tag = t → t ∉ s.seen := by
      intro t ht he hs
      have h1 := ((hR.seen t).1 hs).2
      have h2 := hl t ht
      rw [show es0 ++ e :: es = (es0 ++ [e]) ++ es by simp, pick_append, pick_take he] at h2
      have : 0 < (pick t es0).length := List.length_pos_iff.2 h1
      simp at h2
      omega
    have hstep : ∃ s', Did E 2 s s' e := by
      rcases hf e List.mem_cons_self with ⟨ht, hok, cs, ids, hr⟩ | ⟨ht, w, h, hr⟩ | ⟨ht, i, hr⟩ | ⟨ht, t, hr⟩ | ⟨ht, v, hr⟩ | ⟨ht, hc, d, hr⟩ | ⟨ht, hc, d, hr⟩ | ⟨ht, hc, v, hr⟩
      · have hs := key _ (by decide) ht
        have hid := ((hR.outline2 (by decide)).resolve_right (by rw [pick_nil_of_seen hR (by decide) hs]; rintro ⟨_, h, _⟩; cases h)).2.2
        exact ⟨_, .outline2 ht hs hok (by decide) cs ids (by rw [hid]; exact hr) rfl⟩
      · exact ⟨_, .advance ht (key _ (by decide) ht) w h hr rfl⟩
      · exact ⟨_, .unicode ht i hr rfl⟩
      · exact ⟨_, .note ht (key _ (by decide) ht) t hr rfl⟩
      · exact ⟨_, .lib ht (key _ (by decide) ht) v hr rfl⟩
      · exact ⟨_, .guideline ht (by decide) hc d hr rfl⟩
      · exact ⟨_, .anchor ht (by decide) hc d hr rfl⟩
      · exact ⟨_, .image ht (by decide) (key _ (by decide) ht) hc v hr rfl⟩
    obtain ⟨s', hs'⟩ := hstep
    rw [readChildren, did_readChild hs']
    exact ih (hR.frame hs') (fun e he => hf e (List.mem_cons_of_mem _ he)) (by simpa [List.append_assoc] using hl)

end Verif.Glif
