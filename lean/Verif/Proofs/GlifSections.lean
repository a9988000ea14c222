import Verif.Proofs.GlifTree
import Verif.Proofs.GlifWrite
import Verif.Proofs.Hex
import Verif.Proofs.Note
import Verif.Proofs.Num
import Verif.Proofs.Woff
import Verif.Proofs.InfoValues
import Verif.Proofs.Plist
import Mathlib.Tactic.Tauto
/-! What the reader makes of each element the writer makes. -/
namespace Verif.Glif
open Verif Verif.Validators Verif.Spec.Validators Verif.Spec.Glif

theorem number_repr {E : Env} (hF : E.F.Lawful) {v : PyVal} (h : Printable v) : number E.F (pyRepr E v) = .ok v := by
  rcases h with ⟨i, rfl⟩ | ⟨f, rfl⟩
  · simp only [pyRepr, number, pyInt_intRepr]
  · simp only [pyRepr, number, hF.pyInt_repr, hF.parse_repr]

theorem newElement_get? {E : Env} {tag : Str} {attrs : List (Str × PyVal)} {e : Elem} (h : newElement E tag attrs = .ok e) (k : Str) :
    (Dict.get? e.attrib k).map PyVal.str = Dict.get? attrs k := by
  obtain ⟨a, rfl, rfl⟩ := newElement_eq h
  rw [get?_strs, Elem.attrib]

theorem newElement_get?_eq {E : Env} {tag : Str} {attrs : List (Str × PyVal)} {e : Elem} (h : newElement E tag attrs = .ok e) {k : Str} {o : Option Str}
    (hk : Dict.get? attrs k = o.map PyVal.str) : Dict.get? e.attrib k = o := by
  have := (newElement_get? h k).trans hk
  cases h1 : Dict.get? e.attrib k <;> cases o <;> rw [h1] at this <;> simp_all

/-! ### Advance -/

theorem advanceValue_ok {v w : PyVal} (h : advanceValue true v = .ok w) : (w = .none ∧ (v = .none ∨ PyVal.pyEq v (.int 0) = true)) ∨ (w = v ∧ v ≠ .none) := by
  unfold advanceValue at h
  split at h
  · cases h; exact .inl ⟨rfl, .inl rfl⟩
  next hv =>
  split at h
  · cases h
  split at h
  · next h0 => cases h; exact .inl ⟨rfl, .inr h0⟩
  · cases h; exact .inr ⟨rfl, hv⟩

/-- One value of the advance element. -/
theorem advance_number {E : Env} (hF : E.F.Lawful) {v w : PyVal} (hv : PrintableOrNone v) (h : advanceValue true v = .ok w) {e : Elem} {k : Str}
    (he : (Dict.get? e.attrib k).map PyVal.str = Dict.get? (optionalRepr E k w) k) :
    ∃ x, numberOr E.F (.int 0) (Dict.get? e.attrib k) = .ok x ∧ SameNumber (.int 0) (orZero v) x := by
  rw [get?_optionalRepr] at he
  rcases advanceValue_ok h with ⟨rfl, h0⟩ | ⟨rfl, hn⟩
  · simp only [ne_eq, not_true_eq_false, and_false, if_false, Option.map_eq_none_iff] at he
    rw [he]
    refine ⟨_, rfl, ?_⟩
    unfold orZero
    rcases h0 with rfl | h0
    · exact .inl rfl
    · split
      · exact .inl rfl
      · exact .inr ⟨rfl, h0⟩
  · simp only [true_and, ne_eq, hn, not_false_eq_true, if_true, Option.map_eq_some_iff] at he
    obtain ⟨s, hs, hs'⟩ := he
    cases hs'
    rw [hs]
    refine ⟨w, number_repr hF (hv.resolve_left hn), ?_⟩
    rw [orZero, if_neg hn]
    exact .inl rfl

theorem writeAdvance_read {E : Env} (hF : E.F.Lawful) {o : Obj} {es : List Elem} (hw : PrintableOrNone (o.attr c!"width")) (hh : PrintableOrNone (o.attr c!"height"))
    (h : writeAdvance E true o = .ok es) :
    (es = [] ∧ SameNumber (.int 0) (orZero (o.attr c!"width")) (.int 0) ∧ SameNumber (.int 0) (orZero (o.attr c!"height")) (.int 0)) ∨
      ∃ e, es = [e] ∧ ∃ x y, readAdvance E.F e = .ok (x, y) ∧ SameNumber (.int 0) (orZero (o.attr c!"width")) x ∧ SameNumber (.int 0) (orZero (o.attr c!"height")) y := by
  have zero : ∀ {v w : PyVal} {k : Str}, advanceValue true v = .ok w → optionalRepr E k w = [] → SameNumber (.int 0) (orZero v) (.int 0) := by
    intro v w k hv hn
    rcases advanceValue_ok hv with ⟨-, h0⟩ | ⟨rfl, h0⟩
    · unfold orZero
      rcases h0 with rfl | h0
      · exact .inl rfl
      · split
        · exact .inl rfl
        · exact .inr ⟨rfl, h0⟩
    · cases w <;> simp_all [optionalRepr]
  unfold writeAdvance at h
  split at h
  · cases h
  next w h1 =>
  split at h
  · cases h
  next hgt h2 =>
  split at h
  · next hnil =>
    cases h
    obtain ⟨hn1, hn2⟩ := List.append_eq_nil_iff.1 hnil
    exact .inl ⟨rfl, zero h1 hn2, zero h2 hn1⟩
  · cases he : newElement E c!"advance" (optionalRepr E c!"height" hgt ++ optionalRepr E c!"width" w) with
    | error x => rw [he] at h; cases h
    | ok e =>
      rw [he] at h
      cases h
      have hg := newElement_get? he
      obtain ⟨x, hx, sx⟩ := advance_number hF hw h1 (e := e) (k := c!"width") (by
        rw [hg, Dict.get?_append, get?_optionalRepr E c!"height"]; simp)
      obtain ⟨y, hy, sy⟩ := advance_number hF hh h2 (e := e) (k := c!"height") (by
        rw [hg, Dict.get?_append, get?_optionalRepr E c!"width"]; simp)
      refine .inr ⟨e, rfl, x, y, ?_, sx, sy⟩
      rw [readAdvance, hx, hy]

/-! ### Unicodes -/

theorem isInt_intOf {v : PyVal} {i : Int} (h : IsInt v i) : isInt v = true ∧ intOf v = i := by
  rcases h with rfl | ⟨rfl, rfl⟩ | ⟨rfl, rfl⟩ <;> exact ⟨rfl, rfl⟩

theorem unicodeElements_read {E : Env} {l : List PyVal} {is : List Int} (hl : List.Forall₂ IsInt l is) : ∀ {seen : List Int} {es : List Elem},
    unicodeElements E true seen l = .ok es → List.Forall₂ (fun e i => readHex e = .ok i) es ((firsts is).filter fun i => decide (i ∉ seen)) := by
  induction hl with
  | nil => intro seen es h; cases h; exact .nil
  | @cons v i l is hv hl ih =>
    intro seen es h
    obtain ⟨h1, h2⟩ := isInt_intOf hv
    unfold unicodeElements at h
    rw [h1, h2] at h
    simp only [Bool.not_true, Bool.false_eq_true, if_false] at h
    rw [firsts]
    split at h
    · next hs =>
      have := ih h
      rw [List.filter_cons, if_neg (by simpa using hs), List.filter_filter]
      rw [show (firsts is).filter (fun a => decide (a ∉ seen) && decide (a ≠ i)) = (firsts is).filter fun j => decide (j ∉ seen) from ?_]
      · exact this
      · apply List.filter_congr
        intro j _
        by_cases hj : j = i
        · subst hj; simp [hs]
        · simp [hj]
    · next hs =>
      split at h
      · cases h
      next e he =>
      split at h
      · cases h
      next es' hes =>
      cases h
      rw [List.filter_cons, if_pos (by simpa using hs)]
      refine .cons ?_ ?_
      · unfold readHex
        rw [newElement_get?_eq he (o := some (hex4 i)) rfl]
        simp only [pyInt16_hex4]
      · have := ih hes
        rw [List.filter_filter]
        rwa [show (firsts is).filter (fun j => decide (j ∉ seen ++ [i])) = (firsts is).filter fun a => decide (a ∉ seen) && decide (a ≠ i) from ?_] at this
        apply List.filter_congr
        intro j _
        simp

theorem writeUnicodes_read {E : Env} {v : PyVal} {is : List Int} (hv : Integers v is) {es : List Elem}
    (h : (if truthy v then writeUnicodes E true v else .ok []) = .ok es): List.Forall₂ (fun e i => readHex e = .ok i) es (firsts is) := by
  have key : ∀ {l is}, List.Forall₂ IsInt l is → unicodeElements E true [] l = .ok es → List.Forall₂ (fun e i => readHex e = .ok i) es (firsts is) := by
    intro l is hl h
    have := unicodeElements_read hl h
    simpa using this
  cases hv with
  | none => cases h; exact .nil
  | one _ i hi this =>
    have ht : truthy v = true := by
      rcases hi with rfl | ⟨rfl, rfl⟩ | ⟨rfl, rfl⟩
      · simpa [truthy] using this
      · rfl
      · simp at this
    rw [ht, if_pos rfl, writeUnicodes, (isInt_intOf hi).1] at h
    exact key (.cons hi .nil) h
  | list _ l is hs hl =>
    have hni : isInt v = false := by rcases hs with rfl | rfl <;> rfl
    have hit : iter v = .ok l := by rcases hs with rfl | rfl <;> rfl
    split at h
    · rw [writeUnicodes, hni] at h
      simp only [Bool.and_false, Bool.false_eq_true, if_false, hit] at h
      exact key hl h
    · next ht =>
      have : l = [] := by rcases hs with rfl | rfl <;> simpa [truthy] using ht
      subst this
      cases hl
      cases h
      exact .nil

theorem dedup_nodup {l : List Int} : ∀ {acc : List Int}, (acc ++ l).Nodup → l.foldl (fun acc i => if i ∈ acc then acc else acc ++ [i]) acc = acc ++ l := by
  induction l with
  | nil => intro acc _; simp
  | cons i l ih =>
    intro acc h
    have hi : i ∉ acc := fun hi => by
      rw [List.nodup_append] at h
      exact h.2.2 i hi i List.mem_cons_self rfl
    rw [List.foldl_cons, if_neg hi, ih (by simpa using h), List.append_assoc, List.singleton_append]

theorem firsts_nodup (l : List Int) : (firsts l).Nodup := by
  induction l with
  | nil => exact .nil
  | cons i l ih =>
    rw [firsts, List.nodup_cons]
    exact ⟨by simp, ih.filter _⟩

theorem mem_firsts {l : List Int} {i : Int} : i ∈ firsts l ↔ i ∈ l := by
  induction l with
  | nil => simp [firsts]
  | cons j l ih =>
    rw [firsts, List.mem_cons, List.mem_filter, ih, List.mem_cons]
    by_cases h : i = j <;> simp [h]

/-! ### Note -/

theorem readNote_eq {e : Elem} {s : Str} (h : e.text = some (.str s)) : readNote e = .ok (join ['\n'] (noteLines s)) := by
  rw [readNote, h]
  simp only [noteLines, Except.ok.injEq]
  congr 1
  rw [List.filter_map]
  rfl

theorem writeNote_read {E : Env} {v : PyVal} {e : Elem} (h : writeNote E true v = .ok e) : ∃ s, v = .str s ∧ readNote e = .ok (join ['\n'] (noteLines s)) := by
  unfold writeNote at h
  split at h
  · next s =>
    refine ⟨s, rfl, ?_⟩
    have ht : e.text = some (.str ('\n' :: strip s ++ ['\n'])) := by
      unfold Plist.setText at h
      simp only at h
      split at h
      · cases h
      · cases h; rfl
    rw [readNote_eq ht, noteLines_snoc _ _ (by decide), noteLines_cons _ _ (by decide), noteLines_strip]
  · cases h

/-- The lines of the specification. -/
theorem noteLines_spec {s : Str} {ls : List Str} : NoteLines s ls ↔ ls = noteLines s := by
  have hf : ∀ l : List Str, (l.filter fun l => decide (l ≠ [])) = l.filter fun l => !l.isEmpty := fun l => by
    apply List.filter_congr; intro x _; cases x <;> rfl
  constructor
  · rintro ⟨raw, rfl, h1, rfl⟩
    by_cases hr : raw = []
    · subst hr; rfl
    · rw [noteLines, splitOn_join _ _ hr h1, hf]
  · rintro rfl
    exact ⟨splitOn '\n' s, (join_splitOn _ _).symm, splitOn_not_mem _ _, by rw [noteLines, hf]⟩

/-! ### Guidelines and anchors -/

/-- The fields of an entry with the given keys. -/
def fieldsOf (d : List (PyVal × PyVal)) (ks : List Str) : List (Str × PyVal) := ks.flatMap fun k => (getVal d k).toList.map (Prod.mk k)

/-- A field as an attribute. -/
def encode (E : Env) (numbers : List Str) (p : Str × PyVal) : Str × PyVal := if p.1 ∈ numbers then (p.1, .str (pyRepr E p.2)) else p

theorem optional_fields (E : Env) (numbers : List Str) (d : List (PyVal × PyVal)) (k : Str) (hk : k ∉ numbers) :
    optional k ((get d k).getD .none) = (fieldsOf d [k]).map (encode E numbers) := by
  simp only [fieldsOf, List.flatMap_cons, List.flatMap_nil, List.append_nil, getVal]
  cases get d k with
  | none => rfl
  | some v => cases v <;> simp [optional, encode, hk]

theorem optionalRepr_fields (E : Env) (numbers : List Str) (d : List (PyVal × PyVal)) (k : Str) (hk : k ∈ numbers) :
    optionalRepr E k ((get d k).getD .none) = (fieldsOf d [k]).map (encode E numbers) := by
  simp only [fieldsOf, List.flatMap_cons, List.flatMap_nil, List.append_nil, getVal]
  cases get d k with
  | none => rfl
  | some v => cases v <;> simp [optionalRepr, encode, hk]

theorem guidelineAttrs_fields (E : Env) (d : List (PyVal × PyVal)) :
    guidelineAttrs E d = (fieldsOf d [c!"x", c!"y", c!"angle", c!"name", c!"color", c!"identifier"]).map (encode E [c!"x", c!"y", c!"angle"]) := by
  unfold guidelineAttrs
  rw [optionalRepr_fields E [c!"x", c!"y", c!"angle"] d c!"x" (by decide), optionalRepr_fields E [c!"x", c!"y", c!"angle"] d c!"y" (by decide),
    optionalRepr_fields E [c!"x", c!"y", c!"angle"] d c!"angle" (by decide), optional_fields E [c!"x", c!"y", c!"angle"] d c!"name" (by decide),
    optional_fields E [c!"x", c!"y", c!"angle"] d c!"color" (by decide), optional_fields E [c!"x", c!"y", c!"angle"] d c!"identifier" (by decide)]
  simp only [fieldsOf, List.flatMap_cons, List.flatMap_nil, List.append_nil, List.map_append, List.append_assoc]

theorem anchorAttrs_fields {E : Env} {d : List (PyVal × PyVal)} {a : List (Str × PyVal)} (hx : ∃ v, getVal d c!"x" = some v) (hy : ∃ v, getVal d c!"y" = some v)
    (h : anchorAttrs E d = .ok a) : a = (fieldsOf d [c!"x", c!"y", c!"name", c!"color", c!"identifier"]).map (encode E [c!"x", c!"y"]) := by
  obtain ⟨x, hx⟩ := hx
  obtain ⟨y, hy⟩ := hy
  obtain ⟨gx, hx0⟩ := getVal_eq_some.1 hx
  obtain ⟨gy, hy0⟩ := getVal_eq_some.1 hy
  unfold anchorAttrs at h
  rw [gx, gy] at h
  cases h
  rw [optional_fields E [c!"x", c!"y"] d c!"name" (by decide), optional_fields E [c!"x", c!"y"] d c!"color" (by decide), optional_fields E [c!"x", c!"y"] d c!"identifier" (by decide)]
  simp only [fieldsOf, List.flatMap_cons, List.flatMap_nil, List.append_nil, List.map_append, List.append_assoc, hx, hy]
  rfl

theorem readEntry_encoded {E : Env} (hF : E.F.Lawful) {numbers : List Str} {a : Dict Str Str} : ∀ {l : List (Str × PyVal)}, (∀ p ∈ l, p.1 ∈ numbers → Printable p.2) →
    l.map (encode E numbers) = (a.map fun p => (p.1, .str p.2)) → readEntry E.F numbers a = .ok (l.map fun p => (.str p.1, p.2)) := by
  induction a with
  | nil => intro l _ h; simp at h; subst h; rfl
  | cons p a ih =>
    intro l hl h
    obtain ⟨k, s⟩ := p
    cases l with
    | nil => simp at h
    | cons q l =>
      obtain ⟨k', v⟩ := q
      simp only [List.map_cons, List.cons.injEq] at h
      obtain ⟨h1, h2⟩ := h
      rw [readEntry, ih (fun p hp => hl p (List.mem_cons_of_mem _ hp)) h2]
      unfold encode at h1
      simp only at h1
      by_cases hk : k' ∈ numbers
      · rw [if_pos hk] at h1
        cases h1
        rw [if_pos hk, number_repr hF (hl _ List.mem_cons_self hk)]
        rfl
      · rw [if_neg hk] at h1
        cases h1
        rw [if_neg hk]
        rfl

theorem mem_fieldsOf {d : List (PyVal × PyVal)} {ks : List Str} {k : Str} {v : PyVal} : (k, v) ∈ fieldsOf d ks ↔ k ∈ ks ∧ getVal d k = some v := by
  simp only [fieldsOf, List.mem_flatMap, List.mem_map, Option.mem_toList, Prod.mk.injEq]
  constructor
  · rintro ⟨k', hk', v', hv', rfl, rfl⟩; exact ⟨hk', hv'⟩
  · rintro ⟨hk, hv⟩; exact ⟨k, hk, v, hv, rfl, rfl⟩

theorem fieldsOf_keys (d : List (PyVal × PyVal)) {ks : List Str} (hk : ks.Nodup) : ((fieldsOf d ks).map Prod.fst).Nodup := by
  induction ks with
  | nil => exact .nil
  | cons k ks ih =>
    rw [List.nodup_cons] at hk
    rw [fieldsOf, List.flatMap_cons, List.map_append]
    refine List.Nodup.append ?_ (ih hk.2) ?_
    · cases getVal d k <;> simp
    · intro x hx hx'
      have : x = k := by
        cases hg : getVal d k <;> rw [hg] at hx <;> simp at hx
        exact hx
      subst this
      obtain ⟨⟨k', v⟩, hp, rfl⟩ := List.mem_map.1 hx'
      exact hk.1 (mem_fieldsOf.1 hp).1

/-- What is read for a guideline or anchor that was written. -/
structure EntryRead (d d' : List (PyVal × PyVal)) : Prop where
  same : SameFields d d'
  sub : ∀ p ∈ d', p ∈ d ∧ p.2 ≠ .none
  keys : (d'.map Prod.fst).Nodup
  identifier : getVal d' c!"identifier" = getVal d c!"identifier"

theorem entryRead_fields {d : List (PyVal × PyVal)} (hd : (d.map Prod.fst).Nodup) {ks : List Str} (hk : ks.Nodup) (hall : ∀ k v, Field d k v → k ∈ ks) :
    EntryRead d ((fieldsOf d ks).map fun p => (.str p.1, p.2)) := by
  have hmem : ∀ k v, (PyVal.str k, v) ∈ (fieldsOf d ks).map (fun p => (PyVal.str p.1, p.2)) ↔ k ∈ ks ∧ getVal d k = some v := by
    intro k v
    rw [← mem_fieldsOf]
    simp
  have hkeys : (((fieldsOf d ks).map fun p => (PyVal.str p.1, p.2)).map Prod.fst).Nodup := by
    rw [List.map_map, show (Prod.fst ∘ fun p : Str × PyVal => (PyVal.str p.1, p.2)) = PyVal.str ∘ Prod.fst from rfl, ← List.map_map]
    exact (fieldsOf_keys d hk).map fun a b h => by injection h
  have hsame : SameFields d ((fieldsOf d ks).map fun p => (.str p.1, p.2)) := by
    intro k v
    constructor
    · intro h
      exact ⟨(hmem k v).2 ⟨hall k v h, (getVal_iff hd).2 h⟩, h.2⟩
    · intro h
      exact (getVal_iff hd).1 ((hmem k v).1 h.1).2
  refine ⟨hsame, fun p hp => ?_, hkeys, ?_⟩
  · obtain ⟨⟨k, v⟩, hq, rfl⟩ := List.mem_map.1 hp
    exact getVal_field (mem_fieldsOf.1 hq).2
  · apply Option.ext
    intro v
    rw [getVal_iff hkeys, getVal_iff hd, hsame]

theorem entryElements_read {E : Env} {tag : Str} {attrs : List (PyVal × PyVal) → Except Exc (List (Str × PyVal))} {ks numbers : List Str} (hF : E.F.Lawful) (hk : ks.Nodup)
    {l : List PyVal} : ∀ {ids ids' : List Str} {es : List Elem}, (∀ v ∈ l, DictKeys v) →
    (∀ d, .dict d ∈ l → (∀ a, attrs d = .ok a → a = (fieldsOf d ks).map (encode E numbers)) ∧ (∀ k v, Field d k v → k ∈ ks) ∧ PrintableFields numbers d) →
    entryElements E true tag attrs ids l = .ok (es, ids') →
    List.Forall₂ (fun e v => e.children = [] ∧ ∃ d d', v = .dict d ∧ readEntry E.F numbers e.attrib = .ok d' ∧ EntryRead d d') es l := by
  induction l with
  | nil => intro ids ids' es _ _ h; cases h; exact .nil
  | cons v l ih =>
    intro ids ids' es hkeys hl h
    cases v <;> try (cases h)
    case dict d =>
      unfold entryElements at h
      split at h
      · cases h
      next a hattr =>
      split at h
      · cases h
      next ids1 h1 =>
      split at h
      · cases h
      next e he =>
      split at h
      · cases h
      next l' ids2 h2 =>
      cases h
      obtain ⟨g1, g2, g3⟩ := hl d List.mem_cons_self
      refine .cons ?_ (ih (fun v hv => hkeys v (List.mem_cons_of_mem _ hv)) (fun d hd => hl d (List.mem_cons_of_mem _ hd)) h2)
      obtain ⟨at', rfl, ha'⟩ := newElement_eq he
      have hd := hkeys _ List.mem_cons_self d rfl
      refine ⟨rfl, d, _, rfl, readEntry_encoded hF ?_ (by rw [← g1 a hattr]; exact ha'), entryRead_fields hd hk g2⟩
      rintro ⟨k, v⟩ hp hkn
      exact g3 k hkn v (getVal_field (mem_fieldsOf.1 hp).2)

theorem hasFields_mem {opts : List (Str × (PyVal → Prop))} {d : List (PyVal × PyVal)} (h : HasFields [] opts d) {k : Str} {v : PyVal} (hf : Field d k v) : k ∈ opts.map Prod.fst := by
  rcases h.typed _ hf.1 with ⟨r, hr, -⟩ | ⟨r, hr, he, -⟩
  · cases hr
  · injection he with he
    exact List.mem_map.2 ⟨r, hr, he.symm⟩

theorem writeGuidelines_read {E : Env} (hF : E.F.Lawful) {ids ids' : List Str} {v : PyVal} {es : List Elem} (hk : ∀ e ∈ listItems v, DictKeys e)
    (hp : ∀ d, .dict d ∈ listItems v → PrintableFields [c!"x", c!"y", c!"angle"] d) (h : writeGuidelines E true ids v = .ok (es, ids')) :
    v = .list (listItems v) ∧ (∀ d, .dict d ∈ listItems v → Guideline E.F d) ∧
      List.Forall₂ (fun e v => e.children = [] ∧ ∃ d d', v = .dict d ∧ readEntry E.F [c!"x", c!"y", c!"angle"] e.attrib = .ok d' ∧ EntryRead d d') es (listItems v) := by
  unfold writeGuidelines at h
  split at h
  · cases h
  next hv =>
  cases v <;> simp only [guidelinesValidator, Bool.true_and, Bool.not_false, not_true_eq_false, iter] at hv h
  next l =>
  rcases hr : entriesValidator (guidelineValidator E.F) [] l with ⟨b, out⟩
  rw [hr] at hv
  simp only [Bool.not_eq_true', Bool.not_eq_false] at hv
  subst hv
  have hall := entriesValidator_all hr
  simp only [listItems] at hk hp ⊢
  have hg : ∀ d, .dict d ∈ l → Guideline E.F d := by
    intro d hd
    obtain ⟨d', he, hG⟩ := (guideline_iff (hk _ hd)).1 (hall _ hd).1
    cases he
    exact hG
  exact ⟨trivial, hg, entryElements_read hF (ks := [c!"x", c!"y", c!"angle", c!"name", c!"color", c!"identifier"]) (by decide) hk
    (fun d hd => ⟨fun a ha => by cases ha; exact guidelineAttrs_fields E d, fun k v hf => hasFields_mem (hg d hd).fields hf, hp d hd⟩) h⟩

theorem writeAnchors_read {E : Env} (hF : E.F.Lawful) {ids ids' : List Str} {v : PyVal} {es : List Elem} (hk : ∀ e ∈ listItems v, DictKeys e)
    (hp : ∀ d, .dict d ∈ listItems v → PrintableFields [c!"x", c!"y"] d) (h : writeAnchors E true ids v = .ok (es, ids')) :
    v = .list (listItems v) ∧ (∀ d, .dict d ∈ listItems v → Anchor E.F d) ∧
      List.Forall₂ (fun e v => e.children = [] ∧ ∃ d d', v = .dict d ∧ readEntry E.F [c!"x", c!"y"] e.attrib = .ok d' ∧ EntryRead d d') es (listItems v) := by
  unfold writeAnchors at h
  split at h
  · cases h
  next hv =>
  cases v <;> simp only [anchorsValidator, Bool.true_and, Bool.not_false, not_true_eq_false, iter] at hv h
  next l =>
  rcases hr : entriesValidator (anchorValidator E.F) [] l with ⟨b, out⟩
  rw [hr] at hv
  simp only [Bool.not_eq_true', Bool.not_eq_false] at hv
  subst hv
  have hall := entriesValidator_all hr
  simp only [listItems] at hk hp ⊢
  have hg : ∀ d, .dict d ∈ l → Anchor E.F d := by
    intro d hd
    obtain ⟨d', he, hG⟩ := (anchor_iff (hk _ hd)).1 (hall _ hd).1
    cases he
    exact hG
  exact ⟨trivial, hg, entryElements_read hF (ks := [c!"x", c!"y", c!"name", c!"color", c!"identifier"]) (by decide) hk
    (fun d hd => ⟨fun a ha => anchorAttrs_fields (by obtain ⟨x, hx⟩ := (hg d hd).x; exact ⟨x, (getVal_iff (hk _ hd d rfl)).2 hx⟩)
      (by obtain ⟨x, hx⟩ := (hg d hd).y; exact ⟨x, (getVal_iff (hk _ hd d rfl)).2 hx⟩) ha, fun k v hf => hasFields_mem (hg d hd).fields hf, hp d hd⟩) h⟩

theorem EntryRead.hasFields {opts : List (Str × (PyVal → Prop))} {d d' : List (PyVal × PyVal)} (h : EntryRead d d') (hf : HasFields [] opts d) : HasFields [] opts d' :=
  ⟨by simp, fun p hp => hf.typed p (h.sub p hp).1⟩

theorem EntryRead.guideline {F : FloatCodec} {d d' : List (PyVal × PyVal)} (h : EntryRead d d') (hg : Guideline F d) : Guideline F d' where
  identifier v hv := hg.identifier v ((h.same _ _).2 hv)
  color v hv := hg.color v ((h.same _ _).2 hv)
  fields := h.hasFields hg.fields
  position := by simpa only [← h.same _ _] using hg.position
  angle := by simpa only [← h.same _ _] using hg.angle
  angleRange v hv := hg.angleRange v ((h.same _ _).2 hv)

theorem EntryRead.anchor {F : FloatCodec} {d d' : List (PyVal × PyVal)} (h : EntryRead d d') (hg : Anchor F d) : Anchor F d' where
  identifier v hv := hg.identifier v ((h.same _ _).2 hv)
  color v hv := hg.color v ((h.same _ _).2 hv)
  fields := h.hasFields hg.fields
  x := by simpa only [← h.same _ _] using hg.x
  y := by simpa only [← h.same _ _] using hg.y

/-! ### Lib -/

theorem sameItems_mem {a b : List (PyVal × PyVal)} (h : Spec.Plist.SameItems a b) : ∀ p ∈ b, ∃ q ∈ a, q.1 = p.1 ∧ ∀ s, q.2 = .str s → p.2 = .str s := by
  match h with
  | .nil => simp
  | .cons k v w a b h h' =>
    intro p hp
    rcases List.mem_cons.1 hp with rfl | hp
    · refine ⟨(k, v), List.mem_cons_self, rfl, fun s hs => ?_⟩
      simp only at hs
      subst hs
      cases h
      rfl
    · obtain ⟨q, hq, h1⟩ := sameItems_mem h' p hp
      exact ⟨q, List.mem_cons_of_mem _ hq, h1⟩
  | .swap x y a =>
    intro p hp
    exact ⟨p, by simp only [List.mem_cons] at hp ⊢; tauto, rfl, fun _ h => h⟩
  | .trans a b c h h' =>
    intro p hp
    obtain ⟨q, hq, h1, h2⟩ := sameItems_mem h' p hp
    obtain ⟨r, hr, h3, h4⟩ := sameItems_mem h q hq
    exact ⟨r, hr, h3.trans h1, fun s hs => h2 s (h4 s hs)⟩

theorem untupleItems_mem {d : List (PyVal × PyVal)} {p : PyVal × PyVal} (h : p ∈ Spec.Plist.untupleItems d) : ∃ q ∈ d, q.1 = p.1 ∧ p.2 = Spec.Plist.untuple q.2 := by
  induction d with
  | nil => simp [Spec.Plist.untupleItems] at h
  | cons x d ih =>
    obtain ⟨k, v⟩ := x
    rw [Spec.Plist.untupleItems] at h
    rcases List.mem_cons.1 h with rfl | h
    · exact ⟨_, List.mem_cons_self, rfl, rfl⟩
    · obtain ⟨q, hq, h1⟩ := ih h
      exact ⟨q, List.mem_cons_of_mem _ hq, h1⟩

theorem glyphLib_same {F : FloatCodec} {v w : PyVal} (h : Spec.Plist.Same (Spec.Plist.untuple v) w) (hv : glyphLibValidator F v = .ok true) : glyphLibValidator F w = .ok true := by
  obtain ⟨d, rfl, hd⟩ := glyphLib_iff.1 hv
  rw [Spec.Plist.untuple] at h
  have key : ∀ p ∈ Spec.Plist.untupleItems d, IsString p.1 ∧ (p.1 = .str c!"public.markColor" → ∃ s, p.2 = .str s ∧ FourNumbers F (Within 0 1) s) := by
    intro p hp
    obtain ⟨q, hq, h1, h2⟩ := untupleItems_mem hp
    obtain ⟨h3, h4⟩ := hd q hq
    rw [← h1]
    refine ⟨h3, fun hm => ?_⟩
    obtain ⟨s, hs, hs'⟩ := h4 hm
    exact ⟨s, by rw [h2, hs]; rfl, hs'⟩
  cases h with
  | refl => exact glyphLib_iff.2 ⟨_, rfl, key⟩
  | dict _ b h =>
    refine glyphLib_iff.2 ⟨_, rfl, fun p hp => ?_⟩
    obtain ⟨q, hq, h1, h2⟩ := sameItems_mem h p hp
    obtain ⟨h3, h4⟩ := key q hq
    rw [← h1]
    refine ⟨h3, fun hm => ?_⟩
    obtain ⟨s, hs, hs'⟩ := h4 hm
    exact ⟨s, h2 s hs, hs'⟩

theorem writeLib_read {E : Env} (hF : E.F.Lawful) {v : PyVal} {e : Elem} (hw : Spec.Plist.WellFormed v) (hb : E.lxml = true ∨ Spec.Plist.NoBytes v)
    (h : writeLib E true v = .ok e) : ∃ w, readLib E true e = .ok w ∧ Spec.Plist.Same (Spec.Plist.untuple v) w := by
  unfold writeLib at h
  split at h
  · cases h
  · cases h
  next hv =>
  simp only [if_true] at hv
  split at h
  · next d =>
    split at h
    · cases h
    next c hc =>
    cases h
    have hr := (Plist.makeElement_ok E.F hF E.lxml true 2 (.dict d)).1 ⟨c, hc⟩
    obtain ⟨c', w, h1, h2, h3⟩ := Plist.fromtree_totree E.F hF E.lxml true 2 (.dict d) hr hw hb
    rw [hc] at h1
    cases h1
    refine ⟨w, ?_, h3⟩
    rw [readLib]
    simp only [Elem.children, h2, if_true, glyphLib_same h3 hv]
  · cases h

/-! ### Image -/

theorem imageTransformation_get? (E : Env) (d : List (PyVal × PyVal)) {info : List (Str × PyVal)} (hi : (info.map Prod.fst).Nodup) (k : Str) :
    Dict.get? (imageTransformation E d info) k =
      (Dict.get? info k).bind fun default => if PyVal.pyEq ((get d k).getD default) default then none else some (.str (pyRepr E ((get d k).getD default))) := by
  induction info with
  | nil => rfl
  | cons p info ih =>
    obtain ⟨a, default⟩ := p
    rw [List.map_cons, List.nodup_cons] at hi
    have ih := ih hi.2
    rw [imageTransformation, Dict.get?_cons]
    by_cases hk : a = k
    · subst hk
      have hn : Dict.get? info a = none := Dict.get?_eq_none_iff.2 hi.1
      simp only [if_true, Option.bind_some]
      split
      · rw [ih, hn]; rfl
      · rw [Dict.get?_cons, if_pos rfl]
    · simp only [hk, if_false]
      split
      · exact ih
      · rw [Dict.get?_cons, if_neg hk]; exact ih

theorem imageTransformation_keys (E : Env) (d : List (PyVal × PyVal)) (info : List (Str × PyVal)) : ((imageTransformation E d info).map Prod.fst).Sublist (info.map Prod.fst) := by
  induction info with
  | nil => exact .slnil
  | cons p info ih =>
    obtain ⟨a, default⟩ := p
    rw [imageTransformation]
    split
    · exact ih.cons _
    · exact ih.cons_cons _

theorem imageNumbers_ok {F : FloatCodec} {attrib : Dict Str Str} {info : List (Str × PyVal)} : ∀ {d : List (PyVal × PyVal)}, (info.map Prod.fst).Nodup →
    (∀ p ∈ info, ∃ v, numberOr F p.2 (Dict.get? attrib p.1) = .ok v) → ∃ d', imageNumbers F attrib d info = .ok d' ∧ ((d.map Prod.fst).Nodup → (d'.map Prod.fst).Nodup) ∧
      (∀ p ∈ info, ∀ v, numberOr F p.2 (Dict.get? attrib p.1) = .ok v → Dict.get? d' (.str p.1) = some v) ∧
      ∀ x, (∀ p ∈ info, x ≠ .str p.1) → Dict.get? d' x = Dict.get? d x := by
  induction info with
  | nil => intro d _ _; exact ⟨d, rfl, id, by simp, fun _ _ => rfl⟩
  | cons p info ih =>
    intro d hi hn
    obtain ⟨a, default⟩ := p
    rw [List.map_cons, List.nodup_cons] at hi
    rw [List.forall_mem_cons] at hn
    obtain ⟨⟨v, hv⟩, hn⟩ := hn
    obtain ⟨d', h1, h2, h3, h4⟩ := ih (d := Dict.set d (.str a) v) hi.2 hn
    refine ⟨d', ?_, fun hd => h2 (Dict.wf_set hd _ _), ?_, ?_⟩
    · rw [imageNumbers]
      simp only at hv
      rw [hv]
      exact h1
    · rw [List.forall_mem_cons]
      refine ⟨fun w hw => ?_, h3⟩
      simp only at hv hw
      rw [hv] at hw
      cases hw
      rw [h4 _ fun p hp h => hi.1 (by injection h with h; rw [h]; exact List.mem_map_of_mem hp), Dict.get?_set_self]
    · intro x hx
      rw [List.forall_mem_cons] at hx
      rw [h4 x hx.2, Dict.get?_set_ne _ _ (Ne.symm hx.1)]

theorem transformationInfo_eq : transformationInfo = transformation.map fun p => (p.1, PyVal.int p.2) := rfl

theorem field_attribDict {a : Dict Str Str} (ha : (Dict.keys a).Nodup) (k : Str) : get (attribDict a) k = (Dict.get? a k).map PyVal.str := by
  rw [Validators.get, attribDict]
  induction a with
  | nil => rfl
  | cons p a ih =>
    rw [Dict.keys, List.map_cons, List.nodup_cons] at ha
    rw [List.map_cons, Dict.get?_cons, Dict.get?_cons]
    simp only [PyVal.str.injEq]
    split
    · rfl
    · exact ih ha.2

theorem writeImage_read {E : Env} (hF : E.F.Lawful) {v : PyVal} {e : Elem} (hk : DictKeys v)
    (hp : ∀ d, v = .dict d → ∀ k i w, (k, i) ∈ transformation → (.str k, w) ∈ d → Printable w) (h : writeImage E true v = .ok e) :
    e.children = [] ∧ ∃ d d', v = .dict d ∧ readImage E true e = .ok (.dict d') ∧ SameImage d d' := by
  unfold writeImage at h
  split at h
  · cases h
  next hval =>
  simp only [Bool.true_and, Bool.not_eq_true', Bool.not_eq_false] at hval
  split at h
  next d =>
    have hd := hk d rfl
    obtain ⟨d0, hd0, hfields, hne, hcol⟩ := (image_iff hk).1 hval
    cases hd0
    split at h
    · cases h
    next fn hfn =>
    have hpr := hp d rfl
    obtain ⟨a, rfl, ha⟩ := newElement_eq h
    refine ⟨rfl, d, ?_⟩
    -- the attributes
    have hinfo : (transformationInfo.map Prod.fst).Nodup := by decide
    have hT : ∀ k, Dict.get? (imageTransformation E d transformationInfo) k = _ := imageTransformation_get? E d hinfo
    have hsub := imageTransformation_keys E d transformationInfo
    have hcolor : Dict.get? (optional c!"color" ((get d c!"color").getD .none)) c!"color" = getVal d c!"color" := by
      rw [get?_optional]
      unfold getVal
      cases get d c!"color" with
      | none => rfl
      | some v => cases v <;> rfl
    have hkeys : (Dict.keys a).Nodup := by
      have h1 : (Dict.keys a) = ((c!"fileName", fn) :: imageTransformation E d transformationInfo ++ optional c!"color" ((get d c!"color").getD .none)).map Prod.fst := by
        rw [ha, List.map_map]; rfl
      rw [h1, List.map_append, List.map_cons]
      have hc : (optional c!"color" ((get d c!"color").getD .none)).map Prod.fst = [] ∨ (optional c!"color" ((get d c!"color").getD .none)).map Prod.fst = [c!"color"] := by
        cases (get d c!"color").getD .none <;> simp [optional]
      have hs1 : (c!"fileName" :: (imageTransformation E d transformationInfo).map Prod.fst ++ (optional c!"color" ((get d c!"color").getD .none)).map Prod.fst).Sublist
          (c!"fileName" :: transformationInfo.map Prod.fst ++ [c!"color"]) := by
        refine List.Sublist.append (hsub.cons_cons _) ?_
        rcases hc with hc | hc <;> rw [hc] <;> simp
      exact hs1.nodup (by decide)
    have hget : ∀ k, (Dict.get? a k).map PyVal.str =
        Dict.get? ((c!"fileName", fn) :: imageTransformation E d transformationInfo ++ optional c!"color" ((get d c!"color").getD .none)) k := by
      intro k; rw [ha, get?_strs]
    have hfnA : (Dict.get? a c!"fileName").map PyVal.str = some fn := by rw [hget]; rfl
    have hnone : ∀ k, k ∉ transformationInfo.map Prod.fst → Dict.get? (imageTransformation E d transformationInfo) k = none :=
      fun k hk => Dict.get?_eq_none_iff.2 fun h => hk (hsub.subset h)
    have hcolA : (Dict.get? a c!"color").map PyVal.str = getVal d c!"color" := by
      rw [hget, List.cons_append, Dict.get?_cons, if_neg (show ¬ c!"fileName" = c!"color" by decide), Dict.get?_append, hnone _ (by decide), hcolor]
      rfl
    have hnumA : ∀ k i, (k, i) ∈ transformation → (Dict.get? a k).map PyVal.str =
        if PyVal.pyEq ((get d k).getD (.int i)) (.int i) then none else some (.str (pyRepr E ((get d k).getD (.int i)))) := by
      intro k i hki
      have h1 : Dict.get? transformationInfo k = some (.int i) := Dict.get?_of_mem hinfo (by rw [transformationInfo_eq]; exact List.mem_map.2 ⟨_, hki, rfl⟩)
      have hc : k ≠ c!"color" ∧ c!"fileName" ≠ k := by
        simp only [transformation, List.mem_cons, Prod.mk.injEq, List.not_mem_nil, or_false] at hki
        rcases hki with ⟨rfl, -⟩ | ⟨rfl, -⟩ | ⟨rfl, -⟩ | ⟨rfl, -⟩ | ⟨rfl, -⟩ | ⟨rfl, -⟩ <;> decide
      rw [hget, List.cons_append, Dict.get?_cons, if_neg hc.2, Dict.get?_append, hT, h1, get?_optional, if_neg fun h => hc.1 h.1.symm]
      simp
    -- the numbers
    have hnum : ∀ k i, (k, i) ∈ transformation → ∃ v, numberOr E.F (.int i) (Dict.get? a k) = .ok v ∧ v ≠ .none ∧ IsNum v ∧
        ((∃ w, Field d k w ∧ SameNumber (.int i) w v) ∨ (Absent d k ∧ v = .int i)) := by
      intro k i hki
      have h1 := hnumA k i hki
      rcases hg : get d k with _ | w
      · rw [hg] at h1
        simp only [Option.getD_none] at h1
        have hab : Absent d k := fun v hv => by
          have := get_of_mem hd hv.1
          rw [hg] at this
          cases this
        have : PyVal.pyEq (.int i) (.int i) = true := by simp [PyVal.pyEq, PyVal.num?, Flt.eq]
        rw [this, if_pos rfl, Option.map_eq_none_iff] at h1
        rw [h1]
        exact ⟨.int i, rfl, by simp, .inl ⟨i, .inl rfl⟩, .inr ⟨hab, rfl⟩⟩
      · have hm := mem_of_get hg
        have hw := hpr k i w hki hm
        have hwn : w ≠ .none := by rintro rfl; rcases hw with ⟨_, h⟩ | ⟨_, h⟩ <;> cases h
        rw [hg] at h1
        simp only [Option.getD_some] at h1
        split at h1
        · next heq =>
          rw [Option.map_eq_none_iff] at h1
          rw [h1]
          exact ⟨.int i, rfl, by simp, .inl ⟨i, .inl rfl⟩, .inl ⟨w, ⟨hm, hwn⟩, .inr ⟨rfl, heq⟩⟩⟩
        · rw [Option.map_eq_some_iff] at h1
          obtain ⟨s, hs, hs'⟩ := h1
          cases hs'
          rw [hs]
          refine ⟨w, number_repr hF hw, hwn, ?_, .inl ⟨w, ⟨hm, hwn⟩, .inl rfl⟩⟩
          rcases hw with ⟨j, rfl⟩ | ⟨f, rfl⟩
          · exact .inl ⟨j, .inl rfl⟩
          · exact .inr ⟨f, rfl⟩
    obtain ⟨d', h1, h2, h3, h4⟩ := imageNumbers_ok (F := E.F) (attrib := a) (d := attribDict a) hinfo (by
      intro p hp
      rw [transformationInfo_eq] at hp
      obtain ⟨⟨k, i⟩, hki, rfl⟩ := List.mem_map.1 hp
      obtain ⟨v, hv, -⟩ := hnum k i hki
      exact ⟨v, hv⟩)
    have hd' := h2 (by
      rw [attribDict, List.map_map, show (Prod.fst ∘ fun p : Str × Str => (PyVal.str p.1, PyVal.str p.2)) = PyVal.str ∘ Prod.fst from rfl, ← List.map_map]
      exact hkeys.map fun a b h => by injection h)
    have hnum' : ∀ k i, (k, i) ∈ transformation → ∃ v, get d' k = some v ∧ v ≠ .none ∧ IsNum v ∧ ((∃ w, Field d k w ∧ SameNumber (.int i) w v) ∨ (Absent d k ∧ v = .int i)) := by
      intro k i hki
      obtain ⟨v, hv, hv'⟩ := hnum k i hki
      exact ⟨v, h3 (k, .int i) (by rw [transformationInfo_eq]; exact List.mem_map.2 ⟨_, hki, rfl⟩) v hv, hv'⟩
    have htext : ∀ k, k ∉ transformation.map Prod.fst → get d' k = (Dict.get? a k).map PyVal.str := by
      intro k hk
      rw [← field_attribDict hkeys, Validators.get, Validators.get]
      refine h4 _ fun p hp he => hk ?_
      rw [transformationInfo_eq] at hp
      obtain ⟨q, hq, rfl⟩ := List.mem_map.1 hp
      injection he with he
      exact List.mem_map.2 ⟨q, hq, he.symm⟩
    have hstr : ∀ p ∈ d', ∃ k, p.1 = .str k ∧ (k = c!"fileName" ∨ k = c!"color" ∨ ∃ i, (k, i) ∈ transformation) := by
      intro p hp
      have hg : Dict.get? d' p.1 = some p.2 := Dict.get?_of_mem hd' hp
      by_cases hx : ∃ q ∈ transformationInfo, p.1 = .str q.1
      · obtain ⟨q, hq, hx⟩ := hx
        rw [transformationInfo_eq] at hq
        obtain ⟨⟨k, i⟩, hki, rfl⟩ := List.mem_map.1 hq
        exact ⟨k, hx, .inr (.inr ⟨i, hki⟩)⟩
      · rw [h4 p.1 fun q hq he => hx ⟨q, hq, he⟩] at hg
        obtain ⟨⟨k, s⟩, hks, he⟩ := List.mem_map.1 (Dict.mem_of_get? hg)
        simp only [Prod.mk.injEq] at he
        refine ⟨k, he.1.symm, ?_⟩
        have hmem : (k, PyVal.str s) ∈ (c!"fileName", fn) :: imageTransformation E d transformationInfo ++ optional c!"color" ((get d c!"color").getD .none) := by
          rw [ha]; exact List.mem_map.2 ⟨_, hks, rfl⟩
        rw [List.cons_append, List.mem_cons, List.mem_append] at hmem
        rcases hmem with hmem | hmem | hmem
        · cases hmem; exact .inl rfl
        · exfalso
          obtain ⟨q, hq, hqe⟩ := List.mem_map.1 (hsub.subset (List.mem_map_of_mem hmem))
          exact hx ⟨q, hq, by rw [← he.1, hqe]⟩
        · refine .inr (.inl ?_)
          have : optional c!"color" ((get d c!"color").getD .none) = [] ∨ optional c!"color" ((get d c!"color").getD .none) = [(c!"color", (get d c!"color").getD .none)] := by
            cases (get d c!"color").getD .none <;> simp [optional]
          rcases this with h0 | h0 <;> rw [h0] at hmem <;> simp at hmem
          exact hmem.1
    have hfn' : get d' c!"fileName" = some fn := by rw [htext _ (by decide), hfnA]
    have hcol' : getVal d' c!"color" = getVal d c!"color" := by
      have h5 := htext c!"color" (by decide)
      rw [hcolA] at h5
      rw [getVal, h5]
      cases hgv : getVal d c!"color" with
      | none => rfl
      | some v =>
        have := (getVal_eq_some.1 hgv).2
        cases v <;> simp_all
    have hfnm := mem_of_get hfn
    have hfnstr : IsString fn := by
      rcases hfields.typed _ hfnm with ⟨r, hr, he, hr'⟩ | ⟨r, hr, he, -⟩
      · rw [List.mem_singleton] at hr; subst hr; exact hr'
      · injection he with he
        simp only [List.mem_cons, List.not_mem_nil, or_false] at hr
        rcases hr with rfl | rfl | rfl | rfl | rfl | rfl | rfl <;> simp at he
    have hsame : SameImage d d' := by
      refine ⟨?_, ?_, ?_⟩
      · rintro k v (rfl | rfl)
        · rw [← getVal_iff hd, ← getVal_iff hd', getVal_eq_some, getVal_eq_some, hfn, hfn']
        · rw [← getVal_iff hd, ← getVal_iff hd', hcol']
      · intro k i hki
        obtain ⟨v, hv, hvn, -, hv'⟩ := hnum' k i hki
        exact ⟨v, ⟨mem_of_get hv, hvn⟩, hv'⟩
      · intro k v hf
        obtain ⟨k', hk', h⟩ := hstr _ hf.1
        simp only at hk'
        injection hk' with hk'
        subst hk'
        exact h
    refine ⟨d', rfl, ?_, hsame⟩
    rw [readImage]
    simp only [Elem.attrib, h1]
    have hImg : Spec.Woff.Image E.F (.dict d') := by
      refine ⟨d', rfl, ⟨?_, ?_⟩, ?_, ?_⟩
      · intro r hr
        rw [List.mem_singleton] at hr
        subst hr
        exact ⟨fn, mem_of_get hfn'⟩
      · intro p hp
        obtain ⟨k, hk', hcase⟩ := hstr p hp
        obtain ⟨p1, p2⟩ := p
        simp only at hk'
        subst hk'
        have hg := get_of_mem hd' hp
        rcases hcase with rfl | rfl | ⟨i, hki⟩
        · rw [hfn'] at hg
          cases hg
          exact .inl ⟨_, List.mem_singleton_self _, rfl, hfnstr⟩
        · refine .inr ⟨(c!"color", IsString), by simp, rfl, ?_⟩
          by_cases hn : p2 = .none
          · exact .inl hn
          · obtain ⟨s, hs, -⟩ := hcol p2 ((hsame.text c!"color" p2 (.inr rfl)).2 ⟨hp, hn⟩)
            exact .inr ⟨s, hs⟩
        · obtain ⟨v, hv, hvn, hvi, -⟩ := hnum' k i hki
          rw [hg] at hv
          cases hv
          have hmem : (k, IsNum) ∈ [(c!"xScale", IsNum), (c!"xyScale", IsNum), (c!"yxScale", IsNum), (c!"yScale", IsNum), (c!"xOffset", IsNum), (c!"yOffset", IsNum), (c!"color", IsString)] := by
            simp only [transformation, List.mem_cons, Prod.mk.injEq, List.not_mem_nil, or_false] at hki
            rcases hki with ⟨rfl, -⟩ | ⟨rfl, -⟩ | ⟨rfl, -⟩ | ⟨rfl, -⟩ | ⟨rfl, -⟩ | ⟨rfl, -⟩ <;> simp
          exact .inr ⟨_, hmem, rfl, .inr hvi⟩
      · intro hm
        have := get_of_mem hd' hm
        rw [hfn'] at this
        cases this
        exact hne hfnm
      · intro c hc
        exact hcol c ((hsame.text c!"color" c (.inr rfl)).2 hc)
    rw [(image_iff (fun d'' h => by cases h; exact hd')).2 hImg]
    rfl
  next => cases h

end Verif.Glif
