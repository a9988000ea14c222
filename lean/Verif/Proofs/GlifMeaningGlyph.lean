import Verif.Proofs.GlifMeaning
import Verif.Proofs.GlifTree
import Verif.Proofs.GlifFormat1
import Verif.Proofs.GlifSections
import Verif.Proofs.InfoValues
import Verif.Proofs.Woff
/-! The glyph reader does exactly what glyph elements say. -/
namespace Verif.Glif
open Verif Verif.Validators Verif.Spec.Validators Verif.Spec.Glif Verif.Spec.GlifMeaning Verif.Spec.Numerals

/-! ### The simple elements -/

theorem readHex_iff {e : Elem} {i : Int} : readHex e = .ok i ↔ ∃ s, attr e c!"hex" = some s ∧ Says 16 s i := by
  unfold readHex attr
  cases Dict.get? e.attrib c!"hex" with
  | none => simp
  | some s =>
    simp only [Option.some.injEq, exists_eq_left', ← pyInt16_iff]
    cases pyInt16 s <;> simp

theorem readAdvance_iff {F : FloatCodec} {e : Elem} {w h : PyVal} : readAdvance F e = .ok (w, h) ↔
    NumberOr F 0 (attr e c!"width") w ∧ NumberOr F 0 (attr e c!"height") h := by
  unfold readAdvance attr
  rw [← numberOr_iff, ← numberOr_iff]
  cases numberOr F (.int 0) (Dict.get? e.attrib c!"width") with
  | error x => simp
  | ok w' => cases numberOr F (.int 0) (Dict.get? e.attrib c!"height") <;> simp

theorem readNote_iff {e : Elem} {t : Str} : readNote e = .ok t ↔ ∃ s lines, e.text = some (.str s) ∧ NoteLines s lines ∧ t = join ['\n'] lines := by
  constructor
  · intro h
    match ht : e.text with
    | none => rw [readNote, ht] at h; cases h
    | some (.bytes b) => rw [readNote, ht] at h; cases h
    | some (.str s) =>
      rw [readNote_eq ht] at h
      cases h
      exact ⟨s, _, rfl, noteLines_spec.2 rfl, rfl⟩
  · rintro ⟨s, lines, ht, hl, rfl⟩
    rw [noteLines_spec.1 hl]
    exact readNote_eq ht

theorem readLib_iff {E : Env} {e : Elem} {v : PyVal} : readLib E true e = .ok v ↔ LibSays E.F e v := by
  unfold LibSays
  constructor
  · intro h
    unfold readLib at h
    split at h
    · next p hp =>
      split at h
      · cases h
      next w hw =>
      simp only [if_true] at h
      split at h
      · cases h
      · cases h
      next hv =>
      cases h
      obtain ⟨d, rfl, hd⟩ := glyphLib_iff.1 hv
      exact ⟨p, d, hp, hw, rfl, hd⟩
    · cases h
  · rintro ⟨p, d, hp, hw, rfl, hd⟩
    unfold readLib
    rw [hp]
    simp only [hw, if_true]
    rw [glyphLib_iff.2 ⟨d, rfl, hd⟩]

theorem readEntry_iff {F : FloatCodec} {numbers : List Str} : ∀ {a : Dict Str Str} {d : List (PyVal × PyVal)},
    readEntry F numbers a = .ok d ↔ List.Forall₂ (EntrySays F numbers) a d := by
  intro a
  induction a with
  | nil => intro d; simp [readEntry, eq_comm]
  | cons p a ih =>
    obtain ⟨k, s⟩ := p
    intro d
    have key : ∀ {v : PyVal}, (if k ∈ numbers then number F s else .ok (.str s)) = .ok v ↔ EntrySays F numbers (k, s) (.str k, v) := by
      intro v
      unfold EntrySays
      by_cases hk : k ∈ numbers
      · simp [hk, number_iff]
      · simp [hk, eq_comm]
    unfold readEntry
    constructor
    · intro h
      split at h
      · cases h
      next v hv =>
      split at h
      · cases h
      next d' hd' =>
      cases h
      exact .cons (key.1 hv) (ih.1 hd')
    · intro h
      cases h with
      | @cons _ q _ d' h t =>
        obtain ⟨q1, q2⟩ := q
        have h1 := h.1
        simp only at h1
        subst h1
        rw [key.2 h]
        simp only
        rw [ih.2 t]

/-! ### The image -/

theorem set_append_mem {d r : Dict PyVal PyVal} {k v : PyVal} (h : k ∈ Dict.keys d) : Dict.set (d ++ r) k v = Dict.set d k v ++ r := by
  induction d with
  | nil => cases h
  | cons p d ih =>
    obtain ⟨a, b⟩ := p
    rw [List.cons_append, Dict.set, Dict.set]
    by_cases e : a = k
    · rw [if_pos e, if_pos e]; rfl
    · rw [if_neg e, if_neg e, ih]
      · rfl
      · rcases List.mem_cons.1 h with h | h
        · exact absurd h.symm e
        · exact h

theorem entries_keys {F : FloatCodec} {numbers : List Str} {a : Dict Str Str} {d : List (PyVal × PyVal)} (h : List.Forall₂ (EntrySays F numbers) a d) :
    Dict.keys d = (Dict.keys a).map .str := by
  induction h with
  | nil => rfl
  | cons h _ ih =>
    show _ :: Dict.keys _ = _ :: (Dict.keys _).map _
    rw [ih, h.1]

theorem entries_more {F : FloatCodec} {numbers : List Str} {k : Str} {a : Dict Str Str} {d : List (PyVal × PyVal)} (h : List.Forall₂ (EntrySays F numbers) a d)
    (hk : k ∉ Dict.keys a) : List.Forall₂ (EntrySays F (numbers ++ [k])) a d := by
  induction h with
  | nil => exact .nil
  | @cons p q a d h _ ih =>
    have hne : p.1 ≠ k := fun e => hk (by rw [← e]; exact List.mem_cons_self)
    refine .cons ⟨h.1, ?_⟩ (ih fun hm => hk (List.mem_cons_of_mem _ hm))
    rcases h.2 with ⟨h1, h2⟩ | ⟨h1, h2⟩
    · exact .inl ⟨List.mem_append_left _ h1, h2⟩
    · exact .inr ⟨by simp [h1, hne], h2⟩

theorem entries_set {F : FloatCodec} {numbers : List Str} {k s : Str} {v : PyVal} {a : Dict Str Str} {d : List (PyVal × PyVal)} (h : List.Forall₂ (EntrySays F numbers) a d)
    (hn : (Dict.keys a).Nodup) (hs : Dict.get? a k = some s) (hv : Number F s v) : List.Forall₂ (EntrySays F (numbers ++ [k])) a (Dict.set d (.str k) v) := by
  induction h with
  | nil => cases hs
  | @cons p q a d h t ih =>
    obtain ⟨p1, p2⟩ := p
    obtain ⟨q1, q2⟩ := q
    have h1 := h.1
    simp only at h1
    subst h1
    have hn' := List.nodup_cons.1 (show (p1 :: Dict.keys a).Nodup from hn)
    rw [Dict.get?_cons] at hs
    rw [Dict.set]
    by_cases e : p1 = k
    · subst e
      rw [if_pos rfl] at hs ⊢
      cases hs
      exact .cons ⟨rfl, .inl ⟨by simp, hv⟩⟩ (entries_more t hn'.1)
    · rw [if_neg e] at hs
      rw [if_neg (by simpa using e)]
      refine .cons ⟨rfl, ?_⟩ (ih hn'.2 hs)
      rcases h.2 with ⟨h1, h2⟩ | ⟨h1, h2⟩
      · exact .inl ⟨List.mem_append_left _ h1, h2⟩
      · exact .inr ⟨by simp only [List.mem_append, List.mem_singleton, not_or]; exact ⟨h1, e⟩, h2⟩

/-- The values that are missing. -/
def missing (a : Dict Str Str) (info : List (Str × Int)) : List (PyVal × PyVal) :=
  (info.filter fun p => decide (Dict.get? a p.1 = none)).map fun p => (.str p.1, .int p.2)

theorem imageNumbers_says {F : FloatCodec} {a : Dict Str Str} (hn : (Dict.keys a).Nodup) : ∀ {info done : List (Str × Int)} {d r : List (PyVal × PyVal)},
    List.Forall₂ (EntrySays F (done.map Prod.fst)) a d → ((done ++ info).map Prod.fst).Nodup →
    imageNumbers F a (d ++ missing a done) (info.map fun p => (p.1, .int p.2)) = .ok r →
    ∃ d', r = d' ++ missing a (done ++ info) ∧ List.Forall₂ (EntrySays F ((done ++ info).map Prod.fst)) a d' := by
  intro info
  induction info with
  | nil =>
    intro done d r hd _ h
    cases h
    exact ⟨d, by rw [List.append_nil], by rw [List.append_nil]; exact hd⟩
  | cons p info ih =>
    obtain ⟨k, z⟩ := p
    intro done d r hd hnd h
    rw [List.map_cons, imageNumbers] at h
    split at h
    · cases h
    next v hv =>
    have hsplit : done ++ (k, z) :: info = (done ++ [(k, z)]) ++ info := by simp
    rw [hsplit] at hnd ⊢
    have hk : k ∉ done.map Prod.fst := by
      rw [List.append_assoc, List.map_append, List.nodup_append] at hnd
      exact fun hm => hnd.2.2 k hm k (by simp) rfl
    cases hg : Dict.get? a k with
    | none =>
      rw [hg] at hv
      cases hv
      have hka : k ∉ Dict.keys a := Dict.get?_eq_none_iff.1 hg
      have hnot : PyVal.str k ∉ Dict.keys (d ++ missing a done) := by
        unfold Dict.keys
        rw [List.map_append, List.mem_append]
        rintro (hm | hm)
        · have := entries_keys hd
          unfold Dict.keys at this
          rw [this] at hm
          obtain ⟨x, hx, e⟩ := List.mem_map.1 hm
          cases e
          exact hka hx
        · obtain ⟨q, hq, e⟩ := List.mem_map.1 hm
          obtain ⟨y, hy, rfl⟩ := List.mem_map.1 hq
          cases e
          exact hk (List.mem_map_of_mem (List.mem_filter.1 hy).1)
      rw [Dict.keys_set_of_not_mem hnot, List.append_assoc] at h
      refine ih (done := done ++ [(k, z)]) (d := d) ?_ hnd ?_
      · rw [List.map_append]; exact entries_more hd hka
      · rw [← h]
        congr 2
        unfold missing
        rw [List.filter_append, List.map_append]
        simp [hg]
    | some s =>
      rw [hg] at hv
      have hN : Number F s v := number_iff.1 hv
      have hmem : PyVal.str k ∈ Dict.keys d := by
        rw [entries_keys hd]
        exact List.mem_map_of_mem (by
          by_contra hc
          rw [Dict.get?_eq_none_iff.2 hc] at hg
          cases hg)
      rw [set_append_mem hmem] at h
      refine ih (done := done ++ [(k, z)]) (d := Dict.set d (.str k) v) ?_ hnd ?_
      · rw [List.map_append]; exact entries_set hd hn hg hN
      · rw [← h]
        congr 2
        unfold missing
        rw [List.filter_append, List.map_append]
        simp [hg]

theorem imageNumbers_succeeds {F : FloatCodec} {a : Dict Str Str} : ∀ {info : List (Str × PyVal)} {d : List (PyVal × PyVal)},
    (∀ p ∈ info, ∃ v, numberOr F p.2 (Dict.get? a p.1) = .ok v) → ∃ r, imageNumbers F a d info = .ok r := by
  intro info
  induction info with
  | nil => intro d _; exact ⟨d, rfl⟩
  | cons p info ih =>
    intro d h
    obtain ⟨v, hv⟩ := h p List.mem_cons_self
    rw [imageNumbers, hv]
    exact ih fun q hq => h q (List.mem_cons_of_mem _ hq)

theorem number_unique {F : FloatCodec} {s : Str} {v w : PyVal} (h : Number F s v) (h' : Number F s w) : v = w := by
  have h1 := number_iff.2 h
  rw [number_iff.2 h'] at h1
  cases h1; rfl

theorem entries_unique {F : FloatCodec} {numbers : List Str} {a : Dict Str Str} {d d' : List (PyVal × PyVal)} (h : List.Forall₂ (EntrySays F numbers) a d)
    (h' : List.Forall₂ (EntrySays F numbers) a d') : d = d' := by
  have h1 := readEntry_iff.2 h
  rw [readEntry_iff.2 h'] at h1
  cases h1; rfl

theorem entries_text {F : FloatCodec} : ∀ (a : Dict Str Str), List.Forall₂ (EntrySays F []) a (attribDict a)
  | [] => .nil
  | (_, _) :: a => .cons ⟨rfl, .inr ⟨by simp, rfl⟩⟩ (entries_text a)

theorem forall₂_get {F : FloatCodec} {numbers : List Str} {a : Dict Str Str} {d : List (PyVal × PyVal)} (h : List.Forall₂ (EntrySays F numbers) a d) {k s : Str}
    (hk : k ∈ numbers) (hs : Dict.get? a k = some s) : ∃ v, Number F s v := by
  induction h with
  | nil => cases hs
  | @cons p q a d h _ ih =>
    obtain ⟨p1, p2⟩ := p
    rw [Dict.get?_cons] at hs
    by_cases e : p1 = k
    · subst e
      rw [if_pos rfl] at hs
      cases hs
      rcases h.2 with ⟨-, h2⟩ | ⟨h1, -⟩
      · exact ⟨_, h2⟩
      · exact absurd hk h1
    · rw [if_neg e] at hs
      exact ih hs

theorem readImage_iff {E : Env} {e : Elem} {v : PyVal} (hc : e.children = []) (hn : (Dict.keys e.attrib).Nodup) :
    readImage E true e = .ok v ↔ ImageSays E.F e v ∧ Spec.Woff.Image E.F v := by
  have hinfo : transformationInfo = transformation.map fun p => (p.1, .int p.2) := rfl
  have sound : ∀ {r}, imageNumbers E.F e.attrib (attribDict e.attrib) transformationInfo = .ok r → ImageSays E.F e (.dict r) := by
    intro r hr
    rw [hinfo] at hr
    obtain ⟨d', rfl, hd'⟩ := imageNumbers_says (done := []) (info := transformation) hn (entries_text e.attrib) (by decide) (by simpa [missing] using hr)
    exact ⟨d', ⟨hc, hd'⟩, rfl⟩
  have keyed : ∀ {v}, ImageSays E.F e v → DictKeys v := by
    rintro v ⟨d, ⟨-, hd⟩, rfl⟩ d' hd'
    cases hd'
    rw [List.map_append, List.nodup_append]
    have hkeys : d.map Prod.fst = (Dict.keys e.attrib).map PyVal.str := entries_keys hd
    refine ⟨?_, ?_, ?_⟩
    · rw [hkeys]
      exact hn.map fun a b h => by cases h; rfl
    · rw [List.map_map]
      have : (transformation.map fun p => PyVal.str p.1).Nodup := by decide
      exact (List.Sublist.map _ List.filter_sublist).nodup this
    · intro x hx y hy e'
      subst e'
      rw [hkeys] at hx
      obtain ⟨k, hk, rfl⟩ := List.mem_map.1 hx
      obtain ⟨q, hq, e1⟩ := List.mem_map.1 hy
      obtain ⟨p, hp, rfl⟩ := List.mem_map.1 hq
      cases e1
      have := (List.mem_filter.1 hp).2
      simp only [decide_eq_true_eq] at this
      exact Dict.get?_eq_none_iff.1 this hk
  constructor
  · intro h
    unfold readImage at h
    split at h
    · cases h
    next r hr =>
    split at h
    · cases h
    next hv =>
    cases h
    have hS := sound hr
    exact ⟨hS, (image_iff (keyed hS)).1 (by simpa using hv)⟩
  · rintro ⟨hS, hI⟩
    obtain ⟨r, hr⟩ : ∃ r, imageNumbers E.F e.attrib (attribDict e.attrib) transformationInfo = .ok r := by
      apply imageNumbers_succeeds
      obtain ⟨d, ⟨-, hd⟩, -⟩ := hS
      rw [hinfo]
      intro p hp
      obtain ⟨q, hq, rfl⟩ := List.mem_map.1 hp
      cases hg : Dict.get? e.attrib q.1 with
      | none => exact ⟨_, rfl⟩
      | some s =>
        obtain ⟨v, hv⟩ := forall₂_get hd (List.mem_map_of_mem hq) hg
        exact ⟨v, number_iff.2 hv⟩
    have hS' := sound hr
    have : v = .dict r := by
      obtain ⟨d, ⟨-, hd⟩, rfl⟩ := hS
      obtain ⟨d', ⟨-, hd'⟩, h⟩ := hS'
      rw [h, entries_unique hd hd']
    subst this
    unfold readImage
    rw [hr]
    simp only [(image_iff (keyed hS')).2 hI, Bool.not_true, Bool.and_false, Bool.false_eq_true, if_false]

/-! ### Lists -/

theorem dedup_firsts : ∀ (l acc : List Int), l.foldl (fun acc i => if i ∈ acc then acc else acc ++ [i]) acc = acc ++ (firsts l).filter fun i => decide (i ∉ acc) := by
  intro l
  induction l with
  | nil => intro acc; simp [firsts]
  | cons i l ih =>
    intro acc
    rw [List.foldl_cons, ih, firsts, List.filter_cons]
    by_cases h : i ∈ acc
    · rw [if_pos h, if_neg (by simpa using h), List.filter_filter]
      congr 1
      apply List.filter_congr
      intro j _
      by_cases hj : j = i
      · subst hj; simp [h]
      · simp [hj]
    · rw [if_neg h, if_pos (by simpa using h), List.append_assoc, List.singleton_append, List.filter_filter]
      congr 2
      apply List.filter_congr
      intro j _
      by_cases hj : j ∈ acc <;> simp [hj]

theorem entries_identifier {F : FloatCodec} {numbers : List Str} {a : Dict Str Str} {d : List (PyVal × PyVal)} (h : List.Forall₂ (EntrySays F numbers) a d)
    (hn : (Dict.keys a).Nodup) (hi : c!"identifier" ∉ numbers) : d.filterMap itemIdentifier = (Dict.get? a c!"identifier").toList := by
  induction h with
  | nil => rfl
  | @cons p q a d h t ih =>
    obtain ⟨k, s⟩ := p
    obtain ⟨q1, q2⟩ := q
    obtain ⟨h1, h2⟩ := h
    simp only at h1 h2
    subst h1
    have hn' := List.nodup_cons.1 (show (k :: Dict.keys a).Nodup from hn)
    rw [List.filterMap_cons, ih hn'.2, Dict.get?_cons]
    by_cases e : k = c!"identifier"
    · subst e
      rw [Dict.get?_eq_none_iff.2 hn'.1]
      rcases h2 with ⟨h2, -⟩ | ⟨-, rfl⟩
      · exact absurd h2 hi
      · rfl
    · rw [if_neg e]
      have : itemIdentifier (.str k, q2) = none := by
        cases q2 <;> first | rfl | (rw [itemIdentifier, if_neg e])
      rw [this]

/-- Entries of a list. -/
def EntriesSay (F : FloatCodec) (numbers : List Str) (es : List Elem) (l : List PyVal) : Prop := List.Forall₂ (fun e v => ∃ d, v = .dict d ∧ DictSays F numbers e d) es l

theorem entries_identifiers {F : FloatCodec} {numbers : List Str} {es : List Elem} {l : List PyVal} (h : EntriesSay F numbers es l)
    (hn : ∀ e ∈ es, (Dict.keys e.attrib).Nodup) (hi : c!"identifier" ∉ numbers) : identifiers l = es.flatMap ownIdentifier := by
  induction h with
  | nil => rfl
  | @cons e v es l h _ ih =>
    obtain ⟨d, rfl, hd⟩ := h
    rw [identifiers, List.flatMap_cons, ih fun e he => hn e (List.mem_cons_of_mem _ he), entries_identifier hd.2 (hn e List.mem_cons_self) hi]
    rfl

theorem entries_dictKeys {F : FloatCodec} {numbers : List Str} {es : List Elem} {l : List PyVal} (h : EntriesSay F numbers es l)
    (hn : ∀ e ∈ es, (Dict.keys e.attrib).Nodup) : ∀ v ∈ l, DictKeys v := by
  induction h with
  | nil => nofun
  | @cons e v es l h _ ih =>
    obtain ⟨d, rfl, hd⟩ := h
    intro v hv
    rcases List.mem_cons.1 hv with rfl | hv
    · intro d' hd'
      cases hd'
      have : d.map Prod.fst = (Dict.keys e.attrib).map PyVal.str := entries_keys hd.2
      rw [this]
      exact (hn e List.mem_cons_self).map fun a b h => by cases h; rfl
    · exact ih (fun e he => hn e (List.mem_cons_of_mem _ he)) v hv

/-! ### The end -/

theorem setList_iff {s s' : Collected} {name : Str} {l : List PyVal} {verdict : Bool × List Str} (h : s.setList true name l verdict = .ok s') : l = [] ∨ verdict.1 = true := by
  unfold Collected.setList at h
  split at h
  · next he => exact .inl (by simpa using he)
  split at h
  · cases h
  · next hv => exact .inr (by simpa using hv)

/-- When the lists are accepted. -/
theorem finish_iff {E : Env} {s : Collected} (hg : ∀ v ∈ s.guidelines, DictKeys v) (ha : ∀ v ∈ s.anchors, DictKeys v) :
    (∃ s', s.finish E true = .ok s') ↔ (∀ v ∈ s.guidelines, ∃ d, v = .dict d ∧ Guideline E.F d) ∧ (∀ v ∈ s.anchors, ∃ d, v = .dict d ∧ Anchor E.F d) ∧
      (identifiers s.guidelines ++ identifiers s.anchors).Nodup ∧ ∀ i ∈ identifiers s.guidelines ++ identifiers s.anchors, i ∉ s.identifiers := by
  have giff := fun out => entries_iff (fun v hv => guideline_iff (F := E.F) hv) (fun d hd w hw => by obtain ⟨s, h, -⟩ := hd.identifier w hw; exact ⟨s, h⟩) s.guidelines hg s.identifiers out
  have aiff := fun out => entries_iff (fun v hv => anchor_iff (F := E.F) hv) (fun d hd w hw => by obtain ⟨s, h, -⟩ := hd.identifier w hw; exact ⟨s, h⟩) s.anchors ha
    (s.identifiers ++ identifiers s.guidelines) out
  obtain ⟨s1, hs1⟩ : ∃ s1, s1 = (if s.unicodes.isEmpty then s else s.setAttr c!"unicodes" (.list (s.unicodes.map fun i => .int i))) := ⟨_, rfl⟩
  have h1 : s1.guidelines = s.guidelines := by rw [hs1]; split <;> rfl
  have h2 : s1.anchors = s.anchors := by rw [hs1]; split <;> rfl
  have h3 : s1.identifiers = s.identifiers := by rw [hs1]; split <;> rfl
  unfold Collected.finish
  simp only
  rw [← hs1, h1, h3]
  have nd : (identifiers s.guidelines ++ identifiers s.anchors).Nodup ∧ (∀ i ∈ identifiers s.guidelines ++ identifiers s.anchors, i ∉ s.identifiers) ↔
      ((identifiers s.guidelines).Nodup ∧ ∀ i ∈ identifiers s.guidelines, i ∉ s.identifiers) ∧
      ((identifiers s.anchors).Nodup ∧ ∀ i ∈ identifiers s.anchors, i ∉ s.identifiers ++ identifiers s.guidelines) := by
    rw [List.nodup_append]
    simp only [List.mem_append]
    constructor
    · rintro ⟨⟨a, b, c⟩, d⟩
      exact ⟨⟨a, fun i hi => d i (.inl hi)⟩, b, fun i hi hc => hc.elim (d i (.inr hi)) fun hc => c i hc i hi rfl⟩
    · rintro ⟨⟨a, b⟩, c, d⟩
      exact ⟨⟨a, c, fun i hi j hj e => d j hj (.inr (e ▸ hi))⟩, fun i hi hc => hi.elim (fun hi => b i hi hc) fun hi => d i hi (.inl hc)⟩
  rw [nd]
  constructor
  · rintro ⟨s', h⟩
    split at h
    · cases h
    next s2 hs2 =>
    have hG : (∀ v ∈ s.guidelines, ∃ d, v = .dict d ∧ Guideline E.F d) ∧ (identifiers s.guidelines).Nodup ∧ (∀ i ∈ identifiers s.guidelines, i ∉ s.identifiers) ∧
        s2.identifiers = s.identifiers ++ identifiers s.guidelines := by
      obtain ⟨-, -, -, -, g5⟩ := setList_values hs2
      rcases setList_iff hs2 with hn | hv
      · rw [hn, if_pos rfl, h3] at g5
        rw [hn]
        refine ⟨nofun, .nil, nofun, by rw [g5]; simp [identifiers]⟩
      · have h4 := (giff _).1 (show guidelinesValidator E.F s.identifiers (.list s.guidelines) = (true, _) from Prod.ext hv rfl)
        refine ⟨h4.1, h4.2.1, h4.2.2.1, ?_⟩
        rw [g5]
        split
        · next hn => rw [h3, hn]; simp [identifiers]
        · exact h4.2.2.2
    obtain ⟨g1, g2, g3, g4⟩ := hG
    obtain ⟨-, -, -, g6, -⟩ := setList_values hs2
    rw [g6, h2, g4] at h
    have hA : (∀ v ∈ s.anchors, ∃ d, v = .dict d ∧ Anchor E.F d) ∧ (identifiers s.anchors).Nodup ∧ ∀ i ∈ identifiers s.anchors, i ∉ s.identifiers ++ identifiers s.guidelines := by
      rcases setList_iff h with hn | hv
      · rw [hn]; exact ⟨nofun, .nil, nofun⟩
      · have h4 := (aiff _).1 (show anchorsValidator E.F _ (.list s.anchors) = (true, _) from Prod.ext hv rfl)
        exact ⟨h4.1, h4.2.1, h4.2.2.1⟩
    exact ⟨g1, hA.1, ⟨g2, g3⟩, hA.2⟩
  · rintro ⟨g1, a1, ⟨g2, g3⟩, a2, a3⟩
    have hgv : guidelinesValidator E.F s.identifiers (.list s.guidelines) = (true, s.identifiers ++ identifiers s.guidelines) := (giff _).2 ⟨g1, g2, g3, rfl⟩
    have hav : anchorsValidator E.F (s.identifiers ++ identifiers s.guidelines) (.list s.anchors) = (true, _) := (aiff _).2 ⟨a1, a2, a3, rfl⟩
    rw [hgv]
    obtain ⟨s2, hs2⟩ := setList_succeeds (s := s1) (name := c!"guidelines") (l := s.guidelines) (verdict := (true, s.identifiers ++ identifiers s.guidelines)) rfl
    rw [hs2]
    obtain ⟨-, -, -, g4, g5⟩ := setList_values hs2
    have h4 : s2.identifiers = s.identifiers ++ identifiers s.guidelines := by
      rw [g5, h3]
      split
      · next hn => rw [hn]; simp [identifiers]
      · rfl
    simp only [g4, h2, h4, hav]
    exact setList_succeeds rfl

/-! ### Identifiers -/

theorem glyphIdentifiers_perm (es : List Elem) :
    (es.flatMap fun e => if e.tag = c!"guideline" ∨ e.tag = c!"anchor" then ownIdentifier e else if e.tag = c!"outline" then outlineIdentifiers e.children else []).Perm
      ((pick c!"outline" es).flatMap (fun e => outlineIdentifiers e.children) ++ ((pick c!"guideline" es).flatMap ownIdentifier ++ (pick c!"anchor" es).flatMap ownIdentifier)) := by
  induction es with
  | nil => exact .nil
  | cons e es ih =>
    have hp : ∀ t, pick t (e :: es) = if e.tag = t then e :: pick t es else pick t es := by
      intro t
      by_cases h : e.tag = t <;> simp [pick, h]
    rw [List.flatMap_cons, hp, hp, hp]
    refine (List.Perm.append_left _ ih).trans ?_
    by_cases h1 : e.tag = c!"guideline"
    · rw [if_pos (.inl h1), if_neg (by rw [h1]; decide), if_pos h1, if_neg (by rw [h1]; decide), List.flatMap_cons]
      rw [List.append_assoc]
      exact (List.perm_append_comm_assoc _ _ _)
    by_cases h2 : e.tag = c!"anchor"
    · rw [if_pos (.inr h2), if_neg (by rw [h2]; decide), if_neg h1, if_pos h2, List.flatMap_cons]
      refine (List.perm_append_comm_assoc _ _ _).trans (List.Perm.append_left _ ?_)
      exact List.perm_append_comm_assoc _ _ _
    rw [if_neg (not_or.2 ⟨h1, h2⟩), if_neg h1, if_neg h2]
    by_cases h3 : e.tag = c!"outline"
    · rw [if_pos h3, if_pos h3, List.flatMap_cons, List.append_assoc]
    · rw [if_neg h3, if_neg h3, List.nil_append]

end Verif.Glif
