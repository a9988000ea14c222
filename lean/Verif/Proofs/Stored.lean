import Verif.Proofs.FontInfo1
import Verif.Proofs.PlistFile
import Mathlib.Data.List.Perm.Basic
/-! Validity of font info values does not depend on storing them in a property list. -/
namespace Verif.FontInfo
open Verif Verif.Validators Verif.Spec.Validators Verif.Spec.Woff Verif.Spec.FontInfo Verif.Spec.Plist

/-! ### What a stored value looks like -/

mutual
theorem same_trans {u v w : PyVal} (h : Same u v) (h' : Same v w) : Same u w := by
  match h with
  | .refl _ => exact h'
  | .list a b h =>
    match h' with
    | .refl _ => exact .list a b h
    | .list _ c h' => exact .list a c (sameList_trans h h')
  | .tuple a b h =>
    match h' with
    | .refl _ => exact .tuple a b h
    | .tuple _ c h' => exact .tuple a c (sameList_trans h h')
  | .dict a b h =>
    match h' with
    | .refl _ => exact .dict a b h
    | .dict _ c h' => exact .dict a c (.trans _ _ _ h h')
theorem sameList_trans {u v w : List PyVal} (h : SameList u v) (h' : SameList v w) : SameList u w := by
  match h with
  | .nil => exact h'
  | .cons x y a b h1 h2 =>
    match h' with
    | .cons _ z _ c h1' h2' => exact .cons x z a c (same_trans h1 h1') (sameList_trans h2 h2')
end

theorem sameItems_keys {a b : List (PyVal × PyVal)} (h : SameItems a b) : (a.map Prod.fst).Perm (b.map Prod.fst) := by
  match h with
  | .nil => exact .nil
  | .cons k v w a b _ h' => exact (sameItems_keys h').cons k
  | .swap x y a => exact .swap _ _ _
  | .trans a b c h h' => exact (sameItems_keys h).trans (sameItems_keys h')

theorem sameItems_left {a b : List (PyVal × PyVal)} (h : SameItems a b) : ∀ p ∈ a, ∃ q ∈ b, q.1 = p.1 ∧ Same p.2 q.2 := by
  match h with
  | .nil => intro p hp; cases hp
  | .cons k v w a b h h' =>
    intro p hp
    rcases List.mem_cons.1 hp with rfl | hp
    · exact ⟨_, List.mem_cons_self, rfl, h⟩
    · obtain ⟨q, hq, hpq⟩ := sameItems_left h' p hp
      exact ⟨q, List.mem_cons_of_mem _ hq, hpq⟩
  | .swap x y a =>
    intro p hp
    refine ⟨p, ?_, rfl, .refl _⟩
    simp only [List.mem_cons] at hp ⊢
    tauto
  | .trans a b c h h' =>
    intro p hp
    obtain ⟨q, hq, hk, hs⟩ := sameItems_left h p hp
    obtain ⟨r, hr, hk', hs'⟩ := sameItems_left h' q hq
    exact ⟨r, hr, hk'.trans hk, same_trans hs hs'⟩

theorem sameItems_right {a b : List (PyVal × PyVal)} (h : SameItems a b) : ∀ q ∈ b, ∃ p ∈ a, q.1 = p.1 ∧ Same p.2 q.2 := by
  match h with
  | .nil => intro p hp; cases hp
  | .cons k v w a b h h' =>
    intro p hp
    rcases List.mem_cons.1 hp with rfl | hp
    · exact ⟨_, List.mem_cons_self, rfl, h⟩
    · obtain ⟨q, hq, hpq⟩ := sameItems_right h' p hp
      exact ⟨q, List.mem_cons_of_mem _ hq, hpq⟩
  | .swap x y a =>
    intro p hp
    refine ⟨p, ?_, rfl, .refl _⟩
    simp only [List.mem_cons] at hp ⊢
    tauto
  | .trans a b c h h' =>
    intro p hp
    obtain ⟨q, hq, hk, hs⟩ := sameItems_right h' p hp
    obtain ⟨r, hr, hk', hs'⟩ := sameItems_right h q hq
    exact ⟨r, hr, hk.trans hk', same_trans hs' hs⟩

theorem sameItems_perm {a b : List (PyVal × PyVal)} (h : SameItems a b) {α : Type} {f : PyVal × PyVal → Option α} (hf : ∀ k v w, Same v w → f (k, v) = f (k, w)) :
    (a.filterMap f).Perm (b.filterMap f) := by
  match h with
  | .nil => exact .nil
  | .cons k v w a b h h' =>
    simp only [List.filterMap_cons, hf k v w h]
    split
    · exact sameItems_perm h' hf
    · exact (sameItems_perm h' hf).cons _
  | .swap x y a => exact (List.Perm.swap y x a).filterMap f
  | .trans a b c h h' => exact (sameItems_perm h hf).trans (sameItems_perm h' hf)

/-- The value read back for a value written. -/
def Stored (v w : PyVal) : Prop := Same (untuple v) w

theorem sameList_forall₂ {a b : List PyVal} (h : SameList a b) : List.Forall₂ Same a b := by
  match h with
  | .nil => exact .nil
  | .cons _ _ _ _ h h' => exact .cons h (sameList_forall₂ h')

theorem untupleList_eq (l : List PyVal) : untupleList l = l.map untuple := by
  induction l with
  | nil => rfl
  | cons v l ih => rw [untupleList, ih]; rfl

theorem untupleItems_eq (l : List (PyVal × PyVal)) : untupleItems l = l.map fun p => (p.1, untuple p.2) := by
  induction l with
  | nil => rfl
  | cons v l ih => obtain ⟨k, v⟩ := v; rw [untupleItems, ih]; rfl

theorem stored_atomic {v w : PyVal} (hv : Atomic v) (h : Stored v w) : w = v := by
  have hu : untuple v = v := by cases v <;> first | rfl | exact hv.elim
  rw [Stored, hu] at h
  cases h <;> first | rfl | exact hv.elim

theorem forall₂_stored {l m : List PyVal} (h : List.Forall₂ Same (l.map untuple) m) : List.Forall₂ Stored l m := by
  rw [List.forall₂_map_left_iff] at h; exact h

theorem same_list_inv {l : List PyVal} {w : PyVal} (h : Same (.list l) w) : ∃ m, w = .list m ∧ List.Forall₂ Same l m := by
  cases h with
  | refl => exact ⟨l, rfl, List.forall₂_same.2 fun x _ => .refl x⟩
  | list _ b h => exact ⟨b, rfl, sameList_forall₂ h⟩

theorem stored_seq {v w : PyVal} {l : List PyVal} (hv : IsSeq v l) (h : Stored v w) : ∃ m, w = .list m ∧ List.Forall₂ Stored l m := by
  have hu : untuple v = .list (l.map untuple) := by
    rcases hv with rfl | rfl <;> rw [untuple, untupleList_eq]
  rw [Stored, hu] at h
  obtain ⟨m, rfl, hm⟩ := same_list_inv h
  exact ⟨m, rfl, forall₂_stored hm⟩

theorem stored_atoms {v w : PyVal} {l : List PyVal} (hv : IsSeq v l) (ha : ∀ x ∈ l, Atomic x) (h : Stored v w) : w = .list l := by
  obtain ⟨m, rfl, hm⟩ := stored_seq hv h
  congr 1
  clear h hv
  induction hm with
  | nil => rfl
  | cons h _ ih =>
    rw [List.forall_mem_cons] at ha
    rw [stored_atomic ha.1 h, ih ha.2]

/-- The stored items of a dictionary. -/
structure StoredItems (d e : List (PyVal × PyVal)) : Prop where
  left : ∀ p ∈ d, ∃ q ∈ e, q.1 = p.1 ∧ Stored p.2 q.2
  right : ∀ q ∈ e, ∃ p ∈ d, q.1 = p.1 ∧ Stored p.2 q.2
  keys : (d.map Prod.fst).Perm (e.map Prod.fst)
  identifiers : (d.filterMap itemIdentifier).Perm (e.filterMap itemIdentifier)

theorem itemIdentifier_same (k v w : PyVal) (h : Same v w) : itemIdentifier (k, v) = itemIdentifier (k, w) := by
  cases h <;> cases k <;> rfl

theorem itemIdentifier_untuple (k v : PyVal) : itemIdentifier (k, untuple v) = itemIdentifier (k, v) := by
  cases v <;> cases k <;> simp [itemIdentifier, untuple]

theorem storedItems_of {d e : List (PyVal × PyVal)} (h : SameItems (untupleItems d) e) : StoredItems d e := by
  have hu := untupleItems_eq d
  refine ⟨fun p hp => ?_, fun q hq => ?_, ?_, ?_⟩
  · obtain ⟨q, hq, hk, hs⟩ := sameItems_left h (p.1, untuple p.2) (by rw [hu]; exact List.mem_map.2 ⟨p, hp, rfl⟩)
    exact ⟨q, hq, hk, hs⟩
  · obtain ⟨p, hp, hk, hs⟩ := sameItems_right h q hq
    rw [hu] at hp
    obtain ⟨p', hp', rfl⟩ := List.mem_map.1 hp
    exact ⟨p', hp', hk, hs⟩
  · have := sameItems_keys h
    rwa [hu, List.map_map] at this
  · refine List.Perm.trans ?_ (sameItems_perm h itemIdentifier_same)
    rw [hu, List.filterMap_map]
    have : itemIdentifier ∘ (fun p : PyVal × PyVal => (p.1, untuple p.2)) = itemIdentifier := by
      funext p; exact itemIdentifier_untuple p.1 p.2
    rw [this]

theorem storedItems_self (d : List (PyVal × PyVal)) : SameItems d d := by
  induction d with
  | nil => exact .nil
  | cons p d ih => exact .cons p.1 p.2 p.2 d d (.refl _) ih

theorem stored_dict {d : List (PyVal × PyVal)} {w : PyVal} (h : Stored (.dict d) w) : ∃ e, w = .dict e ∧ StoredItems d e := by
  rw [Stored, untuple] at h
  cases h with
  | refl => exact ⟨_, rfl, storedItems_of (storedItems_self _)⟩
  | dict _ e h => exact ⟨e, rfl, storedItems_of h⟩

mutual
theorem keyed_same {v w : PyVal} (h : Same v w) (hk : Keyed v) : Keyed w := by
  match h with
  | .refl _ => exact hk
  | .list a b h => cases hk with
    | list _ hk => exact .list _ (keyed_sameList h hk)
    | atom _ h => exact h.elim
  | .tuple a b h => cases hk with
    | tuple _ hk => exact .tuple _ (keyed_sameList h hk)
    | atom _ h => exact h.elim
  | .dict a b h => cases hk with
    | dict _ h1 h2 => exact .dict _ ((sameItems_keys h).nodup_iff.1 h1) (keyed_sameItems h h2)
    | atom _ h => exact h.elim
theorem keyed_sameList {a b : List PyVal} (h : SameList a b) (hk : ∀ x ∈ a, Keyed x) : ∀ x ∈ b, Keyed x := by
  match h with
  | .nil => exact hk
  | .cons v w a b h h' =>
    rw [List.forall_mem_cons] at hk ⊢
    exact ⟨keyed_same h hk.1, keyed_sameList h' hk.2⟩
theorem keyed_sameItems {a b : List (PyVal × PyVal)} (h : SameItems a b) (hk : ∀ p ∈ a, Keyed p.2) : ∀ p ∈ b, Keyed p.2 := by
  match h with
  | .nil => exact hk
  | .cons k v w a b h h' =>
    rw [List.forall_mem_cons] at hk ⊢
    exact ⟨keyed_same h hk.1, keyed_sameItems h' hk.2⟩
  | .swap x y a =>
    intro p hp
    refine hk p ?_
    simp only [List.mem_cons] at hp ⊢
    tauto
  | .trans a b c h h' => exact keyed_sameItems h' (keyed_sameItems h hk)
end

theorem keyed_untuple {v : PyVal} (h : Keyed v) : Keyed (untuple v) := by
  induction h with
  | dict d h _ ih =>
    rw [untuple, untupleItems_eq]
    refine .dict _ (by rw [List.map_map]; exact h) fun p hp => ?_
    obtain ⟨q, hq, rfl⟩ := List.mem_map.1 hp
    exact ih q hq
  | list l _ ih =>
    rw [untuple, untupleList_eq]
    refine .list _ fun p hp => ?_
    obtain ⟨q, hq, rfl⟩ := List.mem_map.1 hp
    exact ih q hq
  | tuple l _ ih =>
    rw [untuple, untupleList_eq]
    refine .list _ fun p hp => ?_
    obtain ⟨q, hq, rfl⟩ := List.mem_map.1 hp
    exact ih q hq
  | atom v h =>
    have hu : untuple v = v := by cases v <;> first | rfl | exact h.elim
    rw [hu]; exact .atom v h

theorem keyed_stored {v w : PyVal} (hk : Keyed v) (h : Stored v w) : Keyed w := keyed_same h (keyed_untuple hk)

/-! ### Validity -/

/-- The property is not affected by storing. -/
def Lasting (P : PyVal → Prop) : Prop := ∀ v w, Stored v w → P v → P w

theorem atomic_int {v : PyVal} {i : Int} (h : IsInt v i) : Atomic v := by
  rcases h with rfl | ⟨rfl, -⟩ | ⟨rfl, -⟩ <;> trivial

theorem atomic_num {v : PyVal} (h : IsNum v) : Atomic v := by
  rcases h with ⟨i, hi⟩ | ⟨f, rfl⟩
  exacts [atomic_int hi, trivial]

theorem lasting_atomic {P : PyVal → Prop} (h : ∀ v, P v → Atomic v) : Lasting P := by
  intro v w hs hv
  rwa [stored_atomic (h v hv) hs]

theorem lasting_string : Lasting IsString := lasting_atomic (by rintro v ⟨s, rfl⟩; trivial)
theorem lasting_int : Lasting IsIntVal := lasting_atomic (by rintro v ⟨s, h⟩; exact atomic_int h)
theorem lasting_num : Lasting IsNum := lasting_atomic fun _ h => atomic_num h
theorem lasting_list : Lasting IsListVal := by
  rintro v w hs ⟨l, rfl⟩
  obtain ⟨m, rfl, -⟩ := stored_seq (.inl rfl) hs
  exact ⟨m, rfl⟩

theorem stored_none {v : PyVal} (h : Stored v .none) : v = .none := by
  rw [Stored] at h
  cases v <;> first | rfl | (simp only [untuple] at h; cases h)

theorem lasting_fields {required optional : List (Str × (PyVal → Prop))} (hr : ∀ r ∈ required, Lasting r.2) (ho : ∀ r ∈ optional, Lasting r.2)
    {d e : List (PyVal × PyVal)} (hs : StoredItems d e) (h : HasFields required optional d) : HasFields required optional e := by
  refine ⟨fun r hr => ?_, fun q hq => ?_⟩
  · obtain ⟨v, hv⟩ := h.present r hr
    obtain ⟨⟨k, w⟩, hq, hk, -⟩ := hs.left _ hv
    simp only at hk
    subst hk
    exact ⟨w, hq⟩
  · obtain ⟨p, hp, hk, hst⟩ := hs.right q hq
    rcases h.typed p hp with ⟨r, hm, hrk, hrv⟩ | ⟨r, hm, hrk, hrv⟩
    · exact .inl ⟨r, hm, hk.trans hrk, hr r hm _ _ hst hrv⟩
    · refine .inr ⟨r, hm, hk.trans hrk, ?_⟩
      rcases hrv with hn | hrv
      · left; rw [hn] at hst; exact stored_atomic trivial hst
      · exact .inr (ho r hm _ _ hst hrv)

theorem lasting_directed {d e : List (PyVal × PyVal)} (hs : StoredItems d e) (h : Directed d) : Directed e := by
  intro w hw
  obtain ⟨⟨k, v⟩, hp, hk, hst⟩ := hs.right _ hw
  simp only at hk hst
  subst hk
  rcases h v hp with rfl | rfl
  · left; exact stored_atomic trivial hst
  · right; exact stored_atomic trivial hst

theorem lasting_listOf {P : PyVal → Prop} (hP : Lasting P) {d e : List (PyVal × PyVal)} (hs : StoredItems d e) {k : Str} (h : ListOf P d k) : ListOf P e k := by
  intro w hw
  obtain ⟨⟨k', v⟩, hp, hk, hst⟩ := hs.right _ hw
  simp only at hk hst
  subst hk
  obtain ⟨l, rfl, hl⟩ := h v hp
  obtain ⟨m, rfl, hm⟩ := stored_seq (.inl rfl) hst
  refine ⟨m, rfl, fun x hx => ?_⟩
  obtain ⟨y, hy, hyx⟩ := forall₂_right hm hx
  exact hP y x hyx (hl y hy)

theorem lasting_all {P : PyVal → Prop} (hP : Lasting P) {l m : List PyVal} (hm : List.Forall₂ Stored l m) (hl : ∀ x ∈ l, P x) : ∀ x ∈ m, P x := by
  intro x hx
  obtain ⟨y, hy, hyx⟩ := forall₂_right hm hx
  exact hP y x hyx (hl y hy)

/-- Solves the field conditions. -/
macro "fields" : tactic => `(tactic| (simp only [List.forall_mem_cons, List.not_mem_nil, false_implies, implies_true, and_true, lasting_string, lasting_int, lasting_num, lasting_list]))

theorem lasting_text : Lasting TextRecord := by
  rintro v w hs ⟨d, rfl, h1, h2⟩
  obtain ⟨e, rfl, he⟩ := stored_dict hs
  exact ⟨e, rfl, lasting_fields (by fields) (by fields) he h1, lasting_directed he h2⟩

theorem lasting_nameRecord : Lasting NameRecord := by
  rintro v w hs ⟨d, rfl, h1⟩
  obtain ⟨e, rfl, he⟩ := stored_dict hs
  exact ⟨e, rfl, lasting_fields (by fields) (by fields) he h1⟩

theorem lasting_uniqueID : Lasting UniqueID := by
  rintro v w hs ⟨d, rfl, h1⟩
  obtain ⟨e, rfl, he⟩ := stored_dict hs
  exact ⟨e, rfl, lasting_fields (by fields) (by fields) he h1⟩

theorem lasting_vendor : Lasting Vendor := by
  rintro v w hs ⟨d, rfl, h1, h2⟩
  obtain ⟨e, rfl, he⟩ := stored_dict hs
  exact ⟨e, rfl, lasting_fields (by fields) (by fields) he h1, lasting_directed he h2⟩

theorem lasting_credit : Lasting Credit := by
  rintro v w hs ⟨d, rfl, h1, h2⟩
  obtain ⟨e, rfl, he⟩ := stored_dict hs
  exact ⟨e, rfl, lasting_fields (by fields) (by fields) he h1, lasting_directed he h2⟩

theorem lasting_licensee : Lasting Licensee := by
  rintro v w hs ⟨d, rfl, h1, h2⟩
  obtain ⟨e, rfl, he⟩ := stored_dict hs
  exact ⟨e, rfl, lasting_fields (by fields) (by fields) he h1, lasting_directed he h2⟩

theorem stored_nil {v : PyVal} (h : Stored v (.list [])) : v = .list [] ∨ v = .tuple [] := by
  rw [Stored] at h
  cases v with
  | list l =>
    rw [untuple, untupleList_eq] at h
    obtain ⟨m, hm, hf⟩ := same_list_inv h
    cases hm
    cases hf' : l with
    | nil => exact .inl rfl
    | cons a b => rw [hf'] at hf; cases hf
  | tuple l =>
    rw [untuple, untupleList_eq] at h
    obtain ⟨m, hm, hf⟩ := same_list_inv h
    cases hm
    cases hf' : l with
    | nil => exact .inr rfl
    | cons a b => rw [hf'] at hf; cases hf
  | dict d => rw [untuple] at h; cases h
  | none => rw [untuple] at h <;> cases h
  | bool => rw [untuple] at h <;> cases h
  | int => rw [untuple] at h <;> cases h
  | float => rw [untuple] at h <;> cases h
  | str => rw [untuple] at h <;> cases h
  | bytes => rw [untuple] at h <;> cases h
  | date => rw [untuple] at h <;> cases h
  | other => rw [untuple] at h <;> cases h

theorem lasting_credits : Lasting Credits := by
  rintro v w hs ⟨d, rfl, h1, h2, h3⟩
  obtain ⟨e, rfl, he⟩ := stored_dict hs
  refine ⟨e, rfl, lasting_fields (by fields) (by fields) he h1, lasting_listOf lasting_credit he h2, fun hmem => ?_⟩
  obtain ⟨⟨k, v⟩, hp, hk, hst⟩ := he.right _ hmem
  simp only at hk hst
  subst hk
  obtain ⟨l, rfl, -⟩ := h2 v hp
  rcases stored_nil hst with h | h <;> cases h
  exact h3 hp

theorem lasting_description : Lasting Description := by
  rintro v w hs ⟨d, rfl, h1, h2⟩
  obtain ⟨e, rfl, he⟩ := stored_dict hs
  exact ⟨e, rfl, lasting_fields (by fields) (by fields) he h1, lasting_listOf lasting_text he h2⟩

theorem lasting_license : Lasting License := by
  rintro v w hs ⟨d, rfl, h1, h2⟩
  obtain ⟨e, rfl, he⟩ := stored_dict hs
  exact ⟨e, rfl, lasting_fields (by fields) (by fields) he h1, lasting_listOf lasting_text he h2⟩

theorem lasting_texts : Lasting Texts := by
  rintro v w hs ⟨d, rfl, h1, h2⟩
  obtain ⟨e, rfl, he⟩ := stored_dict hs
  exact ⟨e, rfl, lasting_fields (by fields) (by fields) he h1, lasting_listOf lasting_text he h2⟩

theorem lasting_extensionItem : Lasting ExtensionItem := by
  rintro v w hs ⟨d, rfl, h1, h2, h3⟩
  obtain ⟨e, rfl, he⟩ := stored_dict hs
  exact ⟨e, rfl, lasting_fields (by fields) (by fields) he h1, lasting_listOf lasting_text he h2, lasting_listOf lasting_text he h3⟩

theorem lasting_extension : Lasting Extension := by
  rintro v w hs ⟨d, rfl, h1, h2, h3⟩
  obtain ⟨e, rfl, he⟩ := stored_dict hs
  exact ⟨e, rfl, lasting_fields (by fields) (by fields) he h1, lasting_listOf lasting_text he h2, lasting_listOf lasting_extensionItem he h3⟩

theorem lasting_extensions : Lasting Extensions := by
  rintro v w hs ⟨l, rfl, h1, h2⟩
  obtain ⟨m, rfl, hm⟩ := stored_seq (.inl rfl) hs
  refine ⟨m, rfl, ?_, lasting_all lasting_extension hm h2⟩
  rintro rfl
  cases hm
  exact h1 rfl

theorem field_stored {d e : List (PyVal × PyVal)} (hs : StoredItems d e) {k : Str} {w : PyVal} (h : Field e k w) : ∃ v, Field d k v ∧ Stored v w := by
  obtain ⟨⟨k', v⟩, hp, hk, hst⟩ := hs.right _ h.1
  simp only at hk hst
  subst hk
  refine ⟨v, ⟨hp, ?_⟩, hst⟩
  rintro rfl
  exact h.2 (stored_atomic trivial hst)

theorem field_stored' {d e : List (PyVal × PyVal)} (hs : StoredItems d e) {k : Str} {v : PyVal} (h : Field d k v) : ∃ w, Field e k w ∧ Stored v w := by
  obtain ⟨⟨k', w⟩, hp, hk, hst⟩ := hs.left _ h.1
  simp only at hk hst
  subst hk
  refine ⟨w, ⟨hp, ?_⟩, hst⟩
  rintro rfl
  exact h.2 (stored_none hst)

theorem field_iff_stored {d e : List (PyVal × PyVal)} (hs : StoredItems d e) {k : Str} : (∃ v, Field d k v) ↔ ∃ w, Field e k w := by
  constructor
  · rintro ⟨v, h⟩; obtain ⟨w, hw, -⟩ := field_stored' hs h; exact ⟨w, hw⟩
  · rintro ⟨v, h⟩; obtain ⟨w, hw, -⟩ := field_stored hs h; exact ⟨w, hw⟩

theorem lasting_tagged {F : FloatCodec} {d e : List (PyVal × PyVal)} (hs : StoredItems d e) (h : Tagged F d) : Tagged F e := by
  refine ⟨fun w hw => ?_, fun w hw => ?_⟩
  · obtain ⟨v, hv, hst⟩ := field_stored hs hw
    obtain ⟨s, rfl, hl⟩ := h.identifier v hv
    exact ⟨s, stored_atomic trivial hst, hl⟩
  · obtain ⟨v, hv, hst⟩ := field_stored hs hw
    obtain ⟨s, rfl, hl⟩ := h.color v hv
    exact ⟨s, stored_atomic trivial hst, hl⟩

theorem lasting_guideline {F : FloatCodec} {d e : List (PyVal × PyVal)} (hs : StoredItems d e) (h : Guideline F d) : Guideline F e := by
  refine ⟨lasting_tagged hs h.toTagged, lasting_fields (by fields) (by fields) hs h.fields, ?_, ?_, fun w hw => ?_⟩
  · rw [← field_iff_stored hs, ← field_iff_stored hs]; exact h.position
  · rw [← field_iff_stored hs, ← field_iff_stored hs, ← field_iff_stored hs]; exact h.angle
  · obtain ⟨v, hv, hst⟩ := field_stored hs hw
    obtain ⟨f, hf, hr⟩ := h.angleRange v hv
    have ha : Atomic v := by
      rcases hf with ⟨i, hi, -⟩ | rfl
      exacts [atomic_int hi, trivial]
    rw [stored_atomic ha hst]
    exact ⟨f, hf, hr⟩

theorem lasting_identifiers {l m : List PyVal} (h : List.Forall₂ Stored l m) (hl : ∀ x ∈ l, ∃ d, x = .dict d) : (identifiers l).Perm (identifiers m) := by
  induction h with
  | nil => exact .nil
  | cons h _ ih =>
    rw [List.forall_mem_cons] at hl
    obtain ⟨d, rfl⟩ := hl.1
    obtain ⟨e, rfl, he⟩ := stored_dict h
    exact he.identifiers.append (ih hl.2)

theorem lasting_gasp (ppem : Int) : Lasting fun v => GaspRecord v ppem := by
  rintro v w hs ⟨d, p, b, rfl, h1, h2, h3, h4, h5, h6⟩
  obtain ⟨e, rfl, he⟩ := stored_dict hs
  obtain ⟨⟨k, p'⟩, hq, hk, hst⟩ := he.left _ h2
  simp only at hk hst
  subst hk
  obtain ⟨⟨k, b'⟩, hq', hk', hst'⟩ := he.left _ h5
  simp only at hk' hst'
  subst hk'
  have hb := stored_atoms (.inl rfl) (fun x hx => by obtain ⟨i, hi, -⟩ := h6 x hx; exact atomic_int hi) hst'
  have hp := stored_atomic (atomic_int h3) hst
  subst hb hp
  refine ⟨e, p', b, rfl, lasting_fields ?_ (by fields) he h1, hq, h3, h4, hq', h6⟩
  simp only [List.forall_mem_cons, List.not_mem_nil, false_implies, implies_true, and_true]
  exact ⟨lasting_int, lasting_list⟩

theorem lasting_records {l m : List PyVal} {ps : List Int} (h : List.Forall₂ Stored l m) (hl : List.Forall₂ GaspRecord l ps) : List.Forall₂ GaspRecord m ps := by
  induction h generalizing ps with
  | nil => exact hl
  | cons h _ ih =>
    cases hl with
    | cons h1 h2 => exact .cons (lasting_gasp _ _ _ h h1) (ih h2)

theorem check_atomic {E : Env} {k : Kind} {v w : PyVal} (ha : Atomic v) (hs : Stored v w) (hc : k.check E v = .ok true) : k.check E w = .ok true := by
  rw [stored_atomic ha hs]; exact hc

theorem keyed_dictKeys {v : PyVal} (h : Keyed v) : DictKeys v := by
  rintro d rfl
  cases h with
  | dict _ h _ => exact h
  | atom _ h => exact h.elim

theorem keyed_items {l : List PyVal} (h : Keyed (.list l)) : ∀ e ∈ l, DictKeys e := by
  cases h with
  | list _ h => exact fun e he => keyed_dictKeys (h e he)
  | atom _ h => exact h.elim

theorem intList_stored {v w : PyVal} {valid : List Int} (hs : Stored v w) (h : genericIntListValidator v valid = .ok true) : genericIntListValidator w valid = .ok true := by
  obtain ⟨l, hl, hi⟩ := intList_iff.1 h
  have := stored_atoms hl (fun x hx => by obtain ⟨i, -, hi⟩ := hi x hx; exact atomic_int hi) hs
  exact intList_iff.2 ⟨l, .inl this, hi⟩

theorem check_stored {E : Env} {k : Kind} {v w : PyVal} (hk : Keyed v) (hs : Stored v w) (hc : k.check E v = .ok true) : k.check E w = .ok true := by
  have hkw := keyed_stored hk hs
  have inj : ∀ {b : Bool}, (.ok b : Except Exc Bool) = .ok true → b = true := Except.ok.inj
  cases k with
  | str => obtain ⟨s, rfl⟩ := isStr_iff.1 (inj hc); exact check_atomic (by exact trivial) hs hc
  | int => obtain ⟨s, h⟩ := isInt_iff.1 (inj hc); exact check_atomic (atomic_int h) hs hc
  | num => exact check_atomic (atomic_num (isNumber_iff.1 (inj hc))) hs hc
  | bool => obtain ⟨s, rfl⟩ := isBool_iff.1 (inj hc); exact check_atomic (by exact trivial) hs hc
  | headFlags => exact intList_stored hs hc
  | selection => exact intList_stored hs hc
  | unicodeRanges => exact intList_stored hs hc
  | codePageRanges => exact intList_stored hs hc
  | os2Type => exact intList_stored hs hc
  | styleMap => obtain ⟨s, -, rfl⟩ := styleMap_iff.1 (inj hc); exact check_atomic (by exact trivial) hs hc
  | headCreated =>
    cases v with
    | str s => exact check_atomic (by exact trivial) hs hc
    | _ => cases hc
  | widthClass => obtain ⟨i, h, -⟩ := width_iff.1 (inj hc); exact check_atomic (atomic_int h) hs hc
  | weightClass => obtain ⟨i, h, -⟩ := weight_iff.1 (inj hc); exact check_atomic (atomic_int h) hs hc
  | panose2 =>
    obtain ⟨l, hl, h⟩ := panose2_iff.1 (inj hc)
    have := stored_atoms hl (fun x hx => by obtain ⟨i, hi⟩ := h.2 x hx; exact atomic_int hi) hs
    exact congrArg _ (panose2_iff.2 ⟨l, .inl this, h⟩)
  | panose3 =>
    obtain ⟨l, hl, h⟩ := panose3_iff.1 (inj hc)
    have := stored_atoms hl (fun x hx => by obtain ⟨i, hi, -⟩ := h.2 x hx; exact atomic_int hi) hs
    exact congrArg _ (panose3_iff.2 ⟨l, .inl this, h⟩)
  | familyClass =>
    obtain ⟨a, b, i, j, hl, ha, hb, h⟩ := family_iff.1 (inj hc)
    have := stored_atoms hl (by simp [atomic_int ha, atomic_int hb]) hs
    exact congrArg _ (family_iff.2 ⟨a, b, i, j, .inl this, ha, hb, h⟩)
  | blues =>
    obtain ⟨l, hl, h⟩ := blues_iff.1 (inj hc)
    have := stored_atoms hl (fun x hx => atomic_num (h.2.2 x hx)) hs
    exact congrArg _ (blues_iff.2 ⟨l, .inl this, h⟩)
  | otherBlues =>
    obtain ⟨l, hl, h⟩ := blues_iff.1 (inj hc)
    have := stored_atoms hl (fun x hx => atomic_num (h.2.2 x hx)) hs
    exact congrArg _ (blues_iff.2 ⟨l, .inl this, h⟩)
  | stems =>
    obtain ⟨l, hl, h⟩ := stems_iff.1 (inj hc)
    have := stored_atoms hl (fun x hx => atomic_num (h.2 x hx)) hs
    exact congrArg _ (stems_iff.2 ⟨l, .inl this, h⟩)
  | characterSet =>
    obtain ⟨i, -, -, h⟩ := characterSet_iff.1 (inj hc)
    rcases h with h | rfl
    · exact check_atomic (atomic_int h) hs hc
    · exact check_atomic (by exact trivial) hs hc
  | nonNegInt => obtain ⟨i, h, -⟩ := nonNegInt_iff.1 (inj hc); exact check_atomic (atomic_int h) hs hc
  | nonNegNum => exact check_atomic (atomic_num (nonNegNumber_iff.1 (inj hc)).1) hs hc
  | gasp =>
    have hdk : ∀ {v : PyVal}, Keyed v → ∀ l, v = .list l → ∀ e ∈ l, DictKeys e := by rintro v hk l rfl; exact keyed_items hk
    obtain ⟨l, ps, rfl, h1, h2⟩ := (gasp_iff (hdk hk)).1 hc
    obtain ⟨m, rfl, hm⟩ := stored_seq (.inl rfl) hs
    exact (gasp_iff (hdk hkw)).2 ⟨m, ps, rfl, lasting_records hm h1, h2⟩
  | nameRecords =>
    obtain ⟨l, rfl, h⟩ := nameRecords_iff.1 (inj hc)
    obtain ⟨m, rfl, hm⟩ := stored_seq (.inl rfl) hs
    exact congrArg _ (nameRecords_iff.2 ⟨m, rfl, lasting_all lasting_nameRecord hm h⟩)
  | woffUniqueID => exact congrArg _ (uniqueID_iff.2 (lasting_uniqueID _ _ hs (uniqueID_iff.1 (inj hc))))
  | woffVendor => exact congrArg _ ((vendor_iff hkw).2 (lasting_vendor _ _ hs ((vendor_iff hk).1 (inj hc))))
  | woffCredits => exact (credits_iff hkw).2 (lasting_credits _ _ hs ((credits_iff hk).1 hc))
  | woffDescription => exact (description_iff hkw).2 (lasting_description _ _ hs ((description_iff hk).1 hc))
  | woffLicense => exact (license_iff hkw).2 (lasting_license _ _ hs ((license_iff hk).1 hc))
  | woffTexts => exact (texts_iff hkw).2 (lasting_texts _ _ hs ((texts_iff hk).1 hc))
  | woffLicensee => exact congrArg _ ((licensee_iff hkw).2 (lasting_licensee _ _ hs ((licensee_iff hk).1 (inj hc))))
  | woffExtensions => exact (extensions_iff hkw).2 (lasting_extensions _ _ hs ((extensions_iff hk).1 hc))
  | guidelines =>
    have hg := inj hc
    cases v with
    | list l =>
      obtain ⟨m, rfl, hm⟩ := stored_seq (.inl rfl) hs
      have hiff := fun (l : List PyVal) (hl : ∀ e ∈ l, DictKeys e) (out : List Str) => entries_iff (P := Guideline E.F) (fun v hv => guideline_iff hv) (fun d hd w hw => by
        obtain ⟨s, h, -⟩ := hd.identifier w hw
        exact ⟨s, h⟩) l hl [] out
      have hfst : ∃ out, entriesValidator (guidelineValidator E.F) [] l = (true, out) := ⟨_, Prod.ext hg rfl⟩
      obtain ⟨out, ho⟩ := hfst
      obtain ⟨h1, h2, -, -⟩ := (hiff l (keyed_items hk) out).1 ho
      have hm1 : ∀ e ∈ m, ∃ d, e = .dict d ∧ Guideline E.F d := by
        refine lasting_all (P := fun e => ∃ d, e = .dict d ∧ Guideline E.F d) ?_ hm h1
        rintro v w hs ⟨d, rfl, hd⟩
        obtain ⟨e, rfl, he⟩ := stored_dict hs
        exact ⟨e, rfl, lasting_guideline he hd⟩
      have hperm := lasting_identifiers hm fun x hx => by obtain ⟨d, h, -⟩ := h1 x hx; exact ⟨d, h⟩
      have := (hiff m (keyed_items hkw) (identifiers m)).2 ⟨hm1, hperm.nodup_iff.1 h2, by simp, rfl⟩
      show Except.ok (guidelinesValidator E.F [] (.list m)).1 = .ok true
      rw [guidelinesValidator, this]
    | _ => cases hg

mutual
theorem keyed_wellFormed (v : PyVal) (h : WellFormed v) : Keyed v := by
  match v with
  | .list l => exact .list l (keyed_wellFormedList l h)
  | .tuple l => exact .tuple l (keyed_wellFormedList l h)
  | .dict d => exact .dict d h.1 (keyed_wellFormedItems d h.2)
  | .none => exact .atom _ trivial
  | .bool _ => exact .atom _ trivial
  | .int _ => exact .atom _ trivial
  | .float _ => exact .atom _ trivial
  | .str _ => exact .atom _ trivial
  | .bytes _ => exact .atom _ trivial
  | .date _ => exact .atom _ trivial
  | .other _ => exact .atom _ trivial
theorem keyed_wellFormedList (l : List PyVal) (h : WellFormedList l) : ∀ x ∈ l, Keyed x := by
  match l with
  | [] => simp
  | v :: l => rw [List.forall_mem_cons]; exact ⟨keyed_wellFormed v h.1, keyed_wellFormedList l h.2⟩
theorem keyed_wellFormedItems (l : List (PyVal × PyVal)) (h : WellFormedItems l) : ∀ x ∈ l, Keyed x.2 := by
  match l with
  | [] => simp
  | (k, v) :: l => rw [List.forall_mem_cons]; exact ⟨keyed_wellFormed v h.1, keyed_wellFormedItems l h.2⟩
end

/-! ### Files -/

/-- The string a value is. -/
def _root_.Verif.PyVal.str? : PyVal → Option Str
  | .str s => some s
  | _ => none

/-- What is read back of a dictionary with string keys. -/
theorem stored_asDict {d : Dict Str PyVal} (hwf : Dict.WF d) {w : PyVal} (h : Stored (asDict d) w) :
    ∃ e : Dict Str PyVal, w = asDict e ∧ Dict.WF e ∧ (∀ a v, Dict.get? d a = some v → ∃ w, Dict.get? e a = some w ∧ Stored v w) ∧ ∀ a, Dict.get? d a = none → Dict.get? e a = none := by
  obtain ⟨items, rfl, hs⟩ := stored_dict h
  have hstr : ∀ q ∈ items, ∃ k, q.1 = .str k := by
    intro q hq
    obtain ⟨p, hp, hk, -⟩ := hs.right q hq
    obtain ⟨p', -, rfl⟩ := List.mem_map.1 hp
    exact ⟨p'.1, hk⟩
  have hex : ∀ l : List (PyVal × PyVal), (∀ q ∈ l, ∃ k, q.1 = .str k) → ∃ e : Dict Str PyVal, l = e.map fun p => (.str p.1, p.2) := by
    intro l
    induction l with
    | nil => intro _; exact ⟨[], rfl⟩
    | cons q l ih =>
      intro h
      rw [List.forall_mem_cons] at h
      obtain ⟨k, hk⟩ := h.1
      obtain ⟨e, rfl⟩ := ih h.2
      obtain ⟨q1, q2⟩ := q
      simp only at hk
      subst hk
      exact ⟨(k, q2) :: e, rfl⟩
  obtain ⟨e, rfl⟩ := hex items hstr
  have hkeys : (Dict.keys d).Perm (Dict.keys e) := by
    have h1 := hs.keys
    rw [List.map_map, List.map_map] at h1
    have h2 := h1.filterMap PyVal.str?
    simp only [List.filterMap_map, Function.comp_def, PyVal.str?, List.filterMap_eq_map'] at h2
    exact h2
  have hwfe : Dict.WF e := hkeys.nodup_iff.1 hwf
  refine ⟨e, rfl, hwfe, fun a v hv => ?_, fun a ha => ?_⟩
  · obtain ⟨q, hq, hk, hst⟩ := hs.left (.str a, v) (List.mem_map.2 ⟨_, Dict.mem_of_get? hv, rfl⟩)
    obtain ⟨⟨b, x⟩, hq', rfl⟩ := List.mem_map.1 hq
    simp only [PyVal.str.injEq] at hk hst
    subst hk
    exact ⟨x, Dict.get?_of_mem hwfe hq', hst⟩
  · rw [Dict.get?_eq_none_iff] at ha ⊢
    exact fun h => ha (hkeys.mem_iff.2 h)

theorem present_stored {v w : PyVal} (hv : v ≠ .none) (hs : Stored v w) : w ≠ .none := by
  cases v with
  | list l => obtain ⟨m, rfl, -⟩ := stored_seq (.inl rfl) hs; exact nofun
  | tuple l => obtain ⟨m, rfl, -⟩ := stored_seq (.inr rfl) hs; exact nofun
  | dict d => obtain ⟨m, rfl, -⟩ := stored_dict hs; exact nofun
  | _ => rw [stored_atomic (by exact trivial) hs]; exact hv

theorem present_some {o : Option PyVal} {v : PyVal} : present o = some v ↔ o = some v ∧ v ≠ .none := by
  rcases o with _ | u
  · simp [present]
  · cases u <;> simp only [present, Option.some.injEq, reduceCtorEq, false_iff, not_and, not_not] <;>
      first
      | exact fun h => h ▸ rfl
      | exact ⟨fun h => ⟨h, h ▸ nofun⟩, fun h => h.1⟩

theorem asDict_representable {d : Dict Str PyVal} (h : ∀ p ∈ d, FileText p.1 ∧ Representable FileText p.2 ∧ WellFormed p.2) (hwf : Dict.WF d) :
    Representable FileText (asDict d) ∧ WellFormed (asDict d) := by
  refine ⟨.dict _ ?_, ?_, ?_⟩
  · clear hwf
    induction d with
    | nil => exact .nil
    | cons p d ih => rw [List.forall_mem_cons] at h; exact .cons _ _ _ h.1.1 h.1.2.1 (ih h.2)
  · rw [List.map_map]
    exact (List.pairwise_map.1 hwf).map _ (fun a b hab h => hab (PyVal.str.inj h))
  · clear hwf
    induction d with
    | nil => trivial
    | cons p d ih => rw [List.forall_mem_cons] at h; exact ⟨h.1.2.2, ih h.2⟩

theorem names_fileText : ∀ a ∈ Dict.keys table3, FileText a := by
  have : (Dict.keys table3).all (fun a => a.all isXmlChar && !a.contains '\r') = true := by decide +kernel
  intro a ha
  have := List.all_eq_true.1 this a ha
  simp only [Bool.and_eq_true, Bool.not_eq_true', List.contains_eq_mem, decide_eq_false_iff_not] at this
  exact ⟨(Plist.xmlText_iff a).2 this.1, this.2⟩

/-- Writing a dictionary whose names are attributes and reading it back. -/
theorem file_dict (F : FloatCodec) (hF : F.Lawful) (pretty : Bool) {d : Dict Str PyVal} (hwf : Dict.WF d) (hk : ∀ p ∈ d, p.1 ∈ Dict.keys table3)
    (h : ∀ p ∈ d, Representable FileText p.2 ∧ WellFormed p.2) :
    ∃ s e, Plist.dumps F pretty (asDict d) = .ok s ∧ Plist.loads F s = .ok (asDict e) ∧
      (∀ a v, Dict.get? d a = some v → ∃ w, Dict.get? e a = some w ∧ Stored v w) ∧ ∀ a, Dict.get? d a = none → Dict.get? e a = none := by
  obtain ⟨h1, h2⟩ := asDict_representable (fun p hp => ⟨names_fileText _ (hk p hp), h p hp⟩) hwf
  obtain ⟨s, w, hs, hw, hsame⟩ := Plist.loads_dumps F hF pretty _ h1 h2
  obtain ⟨e, rfl, -, h3, h4⟩ := stored_asDict hwf hsame
  exact ⟨s, e, hs, hw, h3, h4⟩

/-- Looking up what was stored. -/
theorem stored_present {d e : Dict Str PyVal} (h1 : ∀ a v, Dict.get? d a = some v → ∃ w, Dict.get? e a = some w ∧ Stored v w)
    (h2 : ∀ a, Dict.get? d a = none → Dict.get? e a = none) {a : Str} {w : PyVal} (h : present (Dict.get? e a) = some w) :
    ∃ v, Dict.get? d a = some v ∧ Stored v w := by
  obtain ⟨he, -⟩ := present_some.1 h
  rcases hda : Dict.get? d a with _ | v
  · rw [h2 a hda] at he; cases he
  · obtain ⟨w', hw, hs⟩ := h1 a v hda
    cases he.symm.trans hw
    exact ⟨v, rfl, hs⟩

theorem file_info3 {E : Env} {info : Str → Option PyVal} {d e : Dict Str PyVal} (h : writeInfo E 3 true info = .ok d)
    (hval : ∀ p ∈ d, WellFormed p.2) (h1 : ∀ a v, Dict.get? d a = some v → ∃ w, Dict.get? e a = some w ∧ Stored v w)
    (h2 : ∀ a, Dict.get? d a = none → Dict.get? e a = none) :
    ∃ r, readInfo E 3 true e = .ok r ∧ ∀ a, Option.Rel Stored (if a ∈ Dict.keys table3 then present (info a) else none) (Dict.get? r a) := by
  obtain ⟨rfl, hv⟩ := writeInfo3_ok.1 h
  have hne : ∀ a v, Dict.get? (gather info (Dict.keys table3)) a = some v → v ≠ .none := by
    intro a v hv
    exact (present_some.1 (mem_gather.1 (Dict.mem_of_get? hv)).2).2
  refine ⟨_, readInfo3_ok.2 ⟨rfl, ?_⟩, fun a => ?_⟩
  · rintro ⟨a, w⟩ hp
    obtain ⟨ha, hp⟩ := mem_gather.1 hp
    obtain ⟨v, hv', hs⟩ := stored_present h1 h2 hp
    have hmem := Dict.mem_of_get? hv'
    obtain ⟨k, hk, hc⟩ := validateValue_ok (hv _ hmem)
    simp only at hk ⊢
    rw [validateValue_of hk]
    exact check_stored (keyed_wellFormed _ (hval _ hmem)) hs hc
  · have hg := get?_gather (f := info) wf_table3 a
    rw [get?_gather wf_table3]
    split
    · next ha =>
      rw [if_pos ha] at hg
      rw [← hg]
      rcases hv' : Dict.get? (gather info (Dict.keys table3)) a with _ | v
      · rw [h2 a hv']; exact .none
      · obtain ⟨w, hw, hs⟩ := h1 a v hv'
        rw [hw, present_some.2 ⟨rfl, present_stored (hne a v hv') hs⟩]
        exact .some hs
    · exact .none

theorem file_info2 {E : Env} {info : Str → Option PyVal} {d e : Dict Str PyVal} (h : writeInfo E 2 true info = .ok d)
    (h3 : ∀ p ∈ d, validateValue E table3 p.1 p.2 = .ok true) (hint : ∀ p ∈ d, p.1 ∈ nonNegativeIntegerSince3 → ∃ i, IsInt p.2 i)
    (hval : ∀ p ∈ d, WellFormed p.2) (h1 : ∀ a v, Dict.get? d a = some v → ∃ w, Dict.get? e a = some w ∧ Stored v w)
    (h2 : ∀ a, Dict.get? d a = none → Dict.get? e a = none) :
    ∃ r, readInfo E 2 true e = .ok r ∧ ∀ a, Option.Rel Stored (if a ∈ Dict.keys table2 then present (info a) else none) (Dict.get? r a) := by
  obtain ⟨rfl, hv⟩ := writeInfo2_ok.1 h
  have hget := get?_written2 info
  have hne : ∀ a v, Dict.get? (convertData32 (gather info (Dict.keys table3))) a = some v → v ≠ .none := by
    intro a v hv
    rw [hget] at hv
    split at hv
    · exact (present_some.1 hv).2
    · cases hv
  refine ⟨gather (Dict.get? e) (Dict.keys table2), readInfo2_ok.2 ?_, fun a => ?_⟩
  · rw [List.forall₂_same]
    rintro ⟨a, w⟩ hp
    obtain ⟨ha, hp⟩ := mem_gather.1 hp
    obtain ⟨v, hv', hs⟩ := stored_present h1 h2 hp
    have hmem := Dict.mem_of_get? hv'
    obtain ⟨k, hk, hc⟩ := validateValue_ok (h3 _ hmem)
    have hw : validateValue E table3 a w = .ok true := by
      simp only at hk ⊢
      rw [validateValue_of hk]
      exact check_stored (keyed_wellFormed _ (hval _ hmem)) hs hc
    refine ⟨rfl, convert23_stable hw fun ha => ?_, hw⟩
    obtain ⟨i, hi⟩ := hint _ hmem ha
    have := stored_atomic (atomic_int hi) hs
    exact ⟨i, this ▸ hi⟩
  · rw [get?_gather wf_table2]
    have hg := hget a
    split
    · next ha =>
      rw [if_pos ha] at hg
      rw [← hg]
      rcases hv' : Dict.get? (convertData32 (gather info (Dict.keys table3))) a with _ | v
      · rw [h2 a hv']; exact .none
      · obtain ⟨w, hw, hs⟩ := h1 a v hv'
        rw [hw, present_some.2 ⟨rfl, present_stored (hne a v hv') hs⟩]
        exact .some hs
    · exact .none

end Verif.FontInfo
