import Verif.Spec.Glif
import Verif.Proofs.Dict
import Verif.Proofs.Validators
import Mathlib.Data.List.Perm.Basic
/-! The writing pen: identifiers. -/
namespace Verif.Glif
open Verif Verif.Validators Verif.Spec.Validators Verif.Spec.Glif

/-! ### Elements -/

theorem attrTexts_eq {E : Env} {attrs : List (Str × PyVal)} {a : Dict Str Str} (h : attrTexts E attrs = .ok a) :
    attrs = a.map fun p => (p.1, .str p.2) := by
  induction attrs generalizing a with
  | nil => simp only [attrTexts, Except.ok.injEq] at h; subst h; rfl
  | cons p rest ih =>
    obtain ⟨k, v⟩ := p
    unfold attrTexts at h
    split at h
    · cases h
    next s hs =>
    split at h
    · cases h
    next d hd =>
    simp only [Except.ok.injEq] at h
    subst h
    rw [ih hd, List.map_cons]
    congr 2
    cases v <;> simp only [attrText] at hs <;> try cases hs
    split at hs <;> cases hs
    rfl

theorem newElement_eq {E : Env} {tag : Str} {attrs : List (Str × PyVal)} {e : Elem} (h : newElement E tag attrs = .ok e) :
    ∃ a, e = .mk tag a none none [] ∧ attrs = a.map fun p => (p.1, .str p.2) := by
  unfold newElement at h
  cases ha : attrTexts E attrs with
  | error x => rw [ha] at h; cases h
  | ok a => rw [ha] at h; cases h; exact ⟨a, rfl, attrTexts_eq ha⟩

theorem get?_strs (a : Dict Str Str) (k : Str) : Dict.get? (a.map fun p => (p.1, PyVal.str p.2)) k = (Dict.get? a k).map PyVal.str := by
  induction a with
  | nil => rfl
  | cons p a ih =>
    rw [List.map_cons, Dict.get?_cons, Dict.get?_cons, ih]
    split <;> rfl

/-- The identifier of a new element is the one given. -/
theorem newElement_identifier {E : Env} {tag : Str} {attrs : List (Str × PyVal)} {e : Elem} (h : newElement E tag attrs = .ok e) :
    ownIdentifier e = (match Dict.get? attrs c!"identifier" with | some v => argument v | none => []) ∧ e.children = [] ∧ e.tag = tag := by
  obtain ⟨a, rfl, rfl⟩ := newElement_eq h
  refine ⟨?_, rfl, rfl⟩
  rw [get?_strs, ownIdentifier, Elem.attrib]
  cases Dict.get? a c!"identifier" <;> rfl

theorem get?_optional (k k' : Str) (v : PyVal) : Dict.get? (optional k v) k' = if k = k' ∧ v ≠ .none then some v else none := by
  cases v <;> simp [optional, Dict.get?]

theorem get?_optionalRepr (E : Env) (k k' : Str) (v : PyVal) : Dict.get? (optionalRepr E k v) k' = if k = k' ∧ v ≠ .none then some (.str (pyRepr E v)) else none := by
  cases v <;> simp [optionalRepr, Dict.get?]

/-! ### Adding identifiers -/

/-- What an accepted identifier argument is. -/
theorem addIdentifier_ok {ids ids' : List Str} {v : PyVal} (h : addIdentifier true ids v = .ok ids') :
    ids' = ids ++ argument v ∧ ∀ i ∈ argument v, i ∉ ids := by
  cases v <;> simp only [addIdentifier] at h
  case str i =>
    split at h
    · cases h
    · next hn =>
      cases h
      simpa [argument] using hn
  all_goals first
    | (cases h; simp [argument])
    | (split at h; · cases h
       · cases h; simp [argument])

theorem penIdentifier_ok {ids ids' : List Str} {v : PyVal} {attrs : List (Str × PyVal)} (h : penIdentifier 2 true ids v = .ok (attrs, ids')) :
    ids' = ids ++ argument v ∧ (∀ i ∈ argument v, i ∉ ids ∧ LegalIdentifier i) ∧ attrs = optional c!"identifier" v ∧ (v = .none ∨ ∃ i, v = .str i) := by
  unfold penIdentifier at h
  split at h
  · next hn =>
    cases h
    rcases hn with rfl | hn
    · simp [argument, optional]
    · omega
  next hn =>
  split at h
  · cases h
  next ids1 h1 =>
  split at h
  · cases h
  next hv =>
  cases h
  simp only [Bool.true_and, Bool.not_eq_true', Bool.not_eq_false] at hv
  obtain ⟨h2, h3⟩ := addIdentifier_ok h1
  cases v <;> simp only [identifierValidator] at hv <;> try cases hv
  case str i =>
    refine ⟨h2, fun j hj => ⟨h3 j hj, ?_⟩, rfl, .inr ⟨i, rfl⟩⟩
    simp only [argument, List.mem_singleton] at hj
    subst hj
    obtain ⟨s, hs, hl⟩ := (identifier_iff (v := .str j)).1 hv
    cases hs
    exact hl

/-! ### The identifiers in the tree under construction -/

theorem outlineIdentifiers_append (a b : List Elem) : outlineIdentifiers (a ++ b) = outlineIdentifiers a ++ outlineIdentifiers b := List.flatMap_append

theorem outlineIdentifiers_single (e : Elem) (h : e.children = []) : outlineIdentifiers [e] = ownIdentifier e := by
  simp [outlineIdentifiers, h]

theorem modify_split {α : Type} (l : List α) (i : Nat) (h : i < l.length) (f : α → α) : ∃ a x b, l = a ++ x :: b ∧ l.modify i f = a ++ f x :: b := by
  induction l generalizing i with
  | nil => simp at h
  | cons y l ih =>
    cases i with
    | zero => exact ⟨[], y, l, rfl, rfl⟩
    | succ i =>
      obtain ⟨a, x, b, h1, h2⟩ := ih i (by simpa using h)
      exact ⟨y :: a, x, b, by rw [h1]; rfl, by rw [List.modify_succ_cons, h2]; rfl⟩

theorem fillEmpty_identifiers (l : List Elem) (i : Nat) : outlineIdentifiers (l.modify i fillEmpty) = outlineIdentifiers l := by
  by_cases h : i < l.length
  · obtain ⟨a, x, b, rfl, h2⟩ := modify_split l i h fillEmpty
    rw [h2]
    cases x
    simp [outlineIdentifiers, fillEmpty, ownIdentifier, Elem.attrib, Elem.children]
  · rw [List.modify_eq_self (by omega)]

theorem appendChild_identifiers (l : List Elem) (i : Nat) (hi : i < l.length) (e : Elem) :
    (outlineIdentifiers (l.modify i (appendChild e))).Perm (outlineIdentifiers l ++ ownIdentifier e) := by
  obtain ⟨a, x, b, rfl, h2⟩ := modify_split l i hi (appendChild e)
  rw [h2]
  cases x
  simp only [outlineIdentifiers, appendChild, ownIdentifier, Elem.attrib, Elem.children, List.flatMap_append, List.flatMap_cons, List.append_assoc, List.flatMap_nil,
    List.append_nil]
  refine .append_left _ (.append_left _ (.append_left _ ?_))
  exact List.perm_append_comm

/-- The pen is in a sensible state: the current contour exists. -/
def Pen.Valid (s : Pen) : Prop := ∀ i, s.contour = some i → i < s.children.length

/-- What a call does to the identifiers of the outline. -/
def Outcome (s s' : Pen) (l : List Str) : Option Exc → Prop
  | some _ => outlineIdentifiers s'.children = outlineIdentifiers s.children
  | none => s'.identifiers = s.identifiers ++ l ∧ (∀ i ∈ l, i ∉ s.identifiers ∧ LegalIdentifier i) ∧
      (outlineIdentifiers s'.children).Perm (outlineIdentifiers s.children ++ l)

theorem beginPath_spec {E : Env} {s s' : Pen} {v : PyVal} {r : Option Exc} (hv : s.Valid) (h : s.beginPath E 2 true v = (s', r)) :
    s'.Valid ∧ (∃ l, s'.identifiers = s.identifiers ++ l) ∧ Outcome s s' (argument v) r := by
  unfold Pen.beginPath at h
  split at h
  · cases h; exact ⟨hv, ⟨[], by simp⟩, rfl⟩
  next attrs ids hp =>
  obtain ⟨h1, h2, h3, h4⟩ := penIdentifier_ok hp
  split at h
  · cases h; exact ⟨hv, ⟨_, h1⟩, rfl⟩
  next e he =>
  cases h
  refine ⟨fun i hi => ?_, ⟨_, h1⟩, h1, h2, ?_⟩
  · simp only [Option.some.injEq] at hi
    subst hi
    simp
  · obtain ⟨e1, e2, -⟩ := newElement_identifier he
    rw [outlineIdentifiers_append, outlineIdentifiers_single e e2, e1, h3, get?_optional]
    rcases h4 with rfl | ⟨i, rfl⟩
    · simp [argument]
    · simp

theorem placePoint_spec {E : Env} {s s' : Pen} {attrs : List (Str × PyVal)} {v : PyVal} {r : Option Exc} (ha : Dict.get? attrs c!"identifier" = none) (hv : s.Valid)
    (h : s.placePoint E 2 true attrs v = (s', r)) :
    s'.Valid ∧ (∃ l, s'.identifiers = s.identifiers ++ l) ∧ Outcome s s' (argument v) r := by
  unfold Pen.placePoint at h
  split at h
  · cases h; exact ⟨hv, ⟨[], by simp⟩, rfl⟩
  next idAttrs ids hp =>
  obtain ⟨h1, h2, h3, h4⟩ := penIdentifier_ok hp
  simp only at h
  split at h
  · cases h; exact ⟨hv, ⟨_, h1⟩, rfl⟩
  · cases h; exact ⟨hv, ⟨_, h1⟩, rfl⟩
  next e i he hc =>
  cases h
  have hi := hv i hc
  refine ⟨fun j hj => ?_, ⟨_, h1⟩, h1, h2, ?_⟩
  · simp only at hj ⊢
    rw [List.length_modify]
    exact hv j hj
  · refine (appendChild_identifiers _ _ hi e).trans ?_
    obtain ⟨e1, e2, -⟩ := newElement_identifier he
    rw [e1, Dict.get?_append, ha, h3, get?_optional]
    rcases h4 with rfl | ⟨i, rfl⟩
    · simp [argument]
    · simp

theorem coordinates_attrs {E : Env} {b : Bool} {pt : PyVal} {l : List (Str × PyVal)} (h : coordinates E b pt = .ok l) :
    l = [] ∧ pt = .none ∨ ∃ x y rest, seq? pt = some (x :: y :: rest) ∧ l = [(c!"x", .str (pyRepr E x)), (c!"y", .str (pyRepr E y))] ∧ (b = true → (x :: y :: rest).all isNumber = true) := by
  unfold coordinates at h
  split at h
  · next hn => cases h; exact .inl ⟨rfl, hn⟩
  split at h
  · cases h
  next l' hl =>
  split at h
  · cases h
  next hnum =>
  split at h
  · next x y rest =>
    cases h
    refine .inr ⟨x, y, rest, hl, rfl, fun hb => ?_⟩
    subst hb
    simpa using hnum
  · cases h

theorem addPoint_spec {E : Env} {s s' : Pen} {pt t smooth name v : PyVal} {r : Option Exc} (hv : s.Valid) (h : s.addPoint E 2 true pt t smooth name v = (s', r)) :
    s'.Valid ∧ (∃ l, s'.identifiers = s.identifiers ++ l) ∧ Outcome s s' (argument v) r := by
  unfold Pen.addPoint at h
  split at h
  · cases h; exact ⟨hv, ⟨[], by simp⟩, rfl⟩
  next coords hc =>
  simp only at h
  generalize (if t = .str c!"offcurve" then PyVal.none else t) = t' at h
  split at h
  · cases h; exact ⟨hv, ⟨[], by simp⟩, rfl⟩
  split at h
  · cases h; exact ⟨hv, ⟨[], by simp⟩, rfl⟩
  have hco : Dict.get? coords c!"identifier" = none := by
    rcases coordinates_attrs hc with ⟨rfl, -⟩ | ⟨x, y, rest, -, rfl, -⟩
    · rfl
    · rfl
  have key := fun ha => placePoint_spec ha (by exact hv) h
  refine key ?_
  rw [Dict.get?_append, Dict.get?_append, Dict.get?_append, hco, get?_optional, get?_optional]
  cases truthy smooth <;> rfl

theorem componentTransformation_keys {E : Env} {b : Bool} {info : List (Str × PyVal)} {vs : List PyVal} {l : List (Str × PyVal)}
    (h : componentTransformation E b info vs = .ok l) : ∀ p ∈ l, p.1 ∈ info.map Prod.fst := by
  induction info generalizing vs l with
  | nil => simp only [componentTransformation, Except.ok.injEq] at h; subst h; simp
  | cons p info ih =>
    obtain ⟨k, d⟩ := p
    cases vs with
    | nil => simp only [componentTransformation, Except.ok.injEq] at h; subst h; simp
    | cons v vs =>
      unfold componentTransformation at h
      split at h
      · cases h
      split at h
      · cases h
      next rest hr =>
      cases h
      intro q hq
      split at hq
      · exact List.mem_cons_of_mem _ (ih hr q hq)
      · rcases List.mem_cons.1 hq with rfl | hq
        · exact List.mem_cons_self
        · exact List.mem_cons_of_mem _ (ih hr q hq)

theorem addComponent_spec {E : Env} {s s' : Pen} {g t v : PyVal} {r : Option Exc} (hv : s.Valid) (h : s.addComponent E 2 true g t v = (s', r)) :
    s'.Valid ∧ (∃ l, s'.identifiers = s.identifiers ++ l) ∧ Outcome s s' (argument v) r := by
  unfold Pen.addComponent at h
  split at h
  · cases h; exact ⟨hv, ⟨[], by simp⟩, rfl⟩
  split at h
  · cases h; exact ⟨hv, ⟨[], by simp⟩, rfl⟩
  next attrs hattrs =>
  split at h
  · cases h; exact ⟨hv, ⟨[], by simp⟩, rfl⟩
  next idAttrs ids hp =>
  obtain ⟨h1, h2, h3, h4⟩ := penIdentifier_ok hp
  split at h
  · cases h; exact ⟨hv, ⟨_, h1⟩, rfl⟩
  next e he =>
  cases h
  refine ⟨fun i hi => ?_, ⟨_, h1⟩, h1, h2, ?_⟩
  · simp only [List.length_append, List.length_singleton]
    exact Nat.lt_succ_of_lt (hv i hi)
  · obtain ⟨e1, e2, -⟩ := newElement_identifier he
    have hk : Dict.get? attrs c!"identifier" = none := by
      rw [Dict.get?_eq_none_iff]
      intro hm
      obtain ⟨p, hp, hpk⟩ := List.mem_map.1 hm
      have := componentTransformation_keys hattrs p hp
      rw [hpk] at this
      exact absurd this (by decide)
    rw [outlineIdentifiers_append, outlineIdentifiers_single e e2, e1, List.cons_append, Dict.get?_cons, if_neg (show ¬ c!"base" = c!"identifier" by decide), Dict.get?_append, hk, h3, get?_optional]
    rcases h4 with rfl | ⟨i, rfl⟩
    · simp [argument]
    · simp

theorem endPath_spec {s s' : Pen} {r : Option Exc} (hv : s.Valid) (h : s.endPath true = (s', r)) :
    s'.Valid ∧ s'.identifiers = s.identifiers ∧ outlineIdentifiers s'.children = outlineIdentifiers s.children := by
  unfold Pen.endPath at h
  split at h
  · cases h; exact ⟨hv, rfl, rfl⟩
  split at h
  · cases h; exact ⟨hv, rfl, rfl⟩
  next i hi =>
  cases h
  exact ⟨by simp [Pen.Valid], rfl, fillEmpty_identifiers _ _⟩

/-- One call on the pen. -/
theorem step_spec {E : Env} {s s' : Pen} {c : Call} {r : Option Exc} (hv : s.Valid) (h : s.step E 2 true c = (s', r)) :
    s'.Valid ∧ (∃ l, s'.identifiers = s.identifiers ++ l) ∧ Outcome s s' (callIdentifier c) r := by
  cases c with
  | beginPath i => exact beginPath_spec hv h
  | addPoint => exact addPoint_spec hv h
  | addComponent => exact addComponent_spec hv h
  | endPath =>
    obtain ⟨h1, h2, h3⟩ := endPath_spec hv h
    refine ⟨h1, ⟨[], by simp [h2]⟩, ?_⟩
    cases r
    · simp [Outcome, callIdentifier, h2, h3]
    · exact h3

theorem argument_nodup (v : PyVal) : (argument v).Nodup := by cases v <;> simp [argument]

theorem callIdentifier_nodup (c : Call) : (callIdentifier c).Nodup := by
  cases c <;> simp [callIdentifier, argument_nodup]

/-- All calls of a drawing that is accepted. -/
theorem draw_spec {E : Env} {cs : List Call} : ∀ {s s' : Pen}, s.Valid → s.draw E 2 true cs = .ok s' →
    s'.Valid ∧ s'.identifiers = s.identifiers ++ cs.flatMap callIdentifier ∧ (outlineIdentifiers s'.children).Perm (outlineIdentifiers s.children ++ cs.flatMap callIdentifier) ∧
      (s.identifiers.Nodup → s'.identifiers.Nodup) ∧ ∀ i ∈ cs.flatMap callIdentifier, LegalIdentifier i := by
  induction cs with
  | nil => rintro s s' hv h; cases h; simp [hv]
  | cons c cs ih =>
    intro s s' hv h
    unfold Pen.draw at h
    split at h
    · cases h
    next s1 hs =>
    obtain ⟨h1, -, h2, h3, h4⟩ := step_spec hv hs
    obtain ⟨g1, g2, g3, g4, g5⟩ := ih h1 h
    refine ⟨g1, ?_, ?_, fun hn => g4 ?_, ?_⟩
    · rw [g2, h2, List.flatMap_cons, List.append_assoc]
    · rw [List.flatMap_cons, ← List.append_assoc]
      exact g3.trans (h4.append_right _)
    · rw [h2]
      exact List.Nodup.append hn (callIdentifier_nodup c) fun i hi hc => (h3 i hc).1 hi
    · intro i hi
      rw [List.flatMap_cons, List.mem_append] at hi
      rcases hi with hi | hi
      · exact (h3 i hi).2
      · exact g5 i hi

/-- All calls of a drawing function that goes on after exceptions; `base` are identifiers used elsewhere. -/
theorem drawOn_spec {E : Env} {base : List Str} {cs : List Call} : ∀ {s : Pen}, s.Valid → (base ++ outlineIdentifiers s.children).Nodup →
    (∀ i ∈ base ++ outlineIdentifiers s.children, i ∈ s.identifiers) → (∀ i ∈ outlineIdentifiers s.children, LegalIdentifier i) →
    (base ++ outlineIdentifiers (s.drawOn E 2 true cs).children).Nodup ∧ (∀ i ∈ outlineIdentifiers (s.drawOn E 2 true cs).children, LegalIdentifier i) := by
  induction cs with
  | nil => intro s _ hn _ h; exact ⟨hn, h⟩
  | cons c cs ih =>
    intro s hv hn hi hleg
    rcases hs : s.step E 2 true c with ⟨s', r⟩
    unfold Pen.drawOn
    rw [hs]
    obtain ⟨h1, ⟨l, hl⟩, h2⟩ := step_spec hv hs
    cases r with
    | some x =>
      rw [Outcome] at h2
      refine ih h1 (by rw [h2]; exact hn) (fun i hi' => ?_) (by rw [h2]; exact hleg)
      rw [h2] at hi'
      rw [hl]
      exact List.mem_append_left _ (hi i hi')
    | none =>
      obtain ⟨h3, h4, h5⟩ := h2
      have hp : (base ++ outlineIdentifiers s'.children).Perm ((base ++ outlineIdentifiers s.children) ++ callIdentifier c) := by
        rw [List.append_assoc]
        exact .append_left _ h5
      refine ih h1 (hp.nodup_iff.2 (List.Nodup.append hn (callIdentifier_nodup c) fun i hi' hc => (h4 i hc).1 (hi i hi'))) (fun i hi' => ?_) (fun i hi' => ?_)
      · rw [h3]
        rcases List.mem_append.1 (hp.mem_iff.1 hi') with hi' | hi'
        · exact List.mem_append_left _ (hi i hi')
        · exact List.mem_append_right _ hi'
      · rcases List.mem_append.1 (h5.mem_iff.1 hi') with hi' | hi'
        · exact hleg i hi'
        · exact (h4 i hi').2

end Verif.Glif
