import Verif.Spec.Order
import Verif.Proofs.UfoSettled
import Verif.Proofs.Stored
/-! The order of dictionaries does not matter: values and validators. -/
namespace Verif.Order
open Verif Verif.Spec.Plist Verif.Spec.Order Verif.Spec.Validators Verif.Validators

theorem alike_wf {v w : PyVal} (h : Alike v w) : WellFormed w := (Plist.same_tree ⟨fun _ => [], fun _ => none⟩ false true h.2 h.1).1

theorem wfList_mem : ∀ {l : List PyVal}, WellFormedList l → ∀ x ∈ l, WellFormed x
  | _ :: _, h, x, hx => by
    rcases List.mem_cons.1 hx with rfl | hx
    · exact h.1
    · exact wfList_mem h.2 x hx

theorem wfItems_mem : ∀ {l : List (PyVal × PyVal)}, WellFormedItems l → ∀ p ∈ l, WellFormed p.2
  | _ :: _, h, x, hx => by
    rcases List.mem_cons.1 hx with rfl | hx
    · exact h.1
    · exact wfItems_mem h.2 x hx

theorem alike_list {a b : List PyVal} (hw : WellFormedList a) (h : List.Forall₂ Same a b) : List.Forall₂ Alike a b := by
  induction h with
  | nil => exact .nil
  | cons h _ ih => exact .cons ⟨hw.1, h⟩ (ih hw.2)

/-- Items that are alike, in some order. -/
structure Items (d e : List (PyVal × PyVal)) : Prop where
  left : ∀ p ∈ d, ∃ q ∈ e, q.1 = p.1 ∧ Alike p.2 q.2
  right : ∀ q ∈ e, ∃ p ∈ d, q.1 = p.1 ∧ Alike p.2 q.2
  keys : (d.map Prod.fst).Perm (e.map Prod.fst)
  nodup : (d.map Prod.fst).Nodup

theorem items_of {d e : List (PyVal × PyVal)} (hw : WellFormed (.dict d)) (h : SameItems d e) : Items d e := by
  refine ⟨fun p hp => ?_, fun q hq => ?_, FontInfo.sameItems_keys h, hw.1⟩
  · obtain ⟨q, hq, hk, hs⟩ := FontInfo.sameItems_left h p hp
    exact ⟨q, hq, hk, wfItems_mem hw.2 p hp, hs⟩
  · obtain ⟨p, hp, hk, hs⟩ := FontInfo.sameItems_right h q hq
    exact ⟨p, hp, hk, wfItems_mem hw.2 p hp, hs⟩

/-- What values that are alike look like. -/
inductive View : PyVal → PyVal → Prop
  | atom (v : PyVal) (h : Atomic v) : View v v
  | list (a b : List PyVal) (h : List.Forall₂ Alike a b) : View (.list a) (.list b)
  | tuple (a b : List PyVal) (h : List.Forall₂ Alike a b) : View (.tuple a) (.tuple b)
  | dict (a b : List (PyVal × PyVal)) (h : Items a b) : View (.dict a) (.dict b)

theorem view {v w : PyVal} (h : Alike v w) : View v w := by
  obtain ⟨hw, hs⟩ := h
  cases hs with
  | refl =>
    cases v with
    | list l => exact .list _ _ (List.forall₂_same.2 fun x hx => ⟨wfList_mem hw x hx, .refl x⟩)
    | tuple l => exact .tuple _ _ (List.forall₂_same.2 fun x hx => ⟨wfList_mem hw x hx, .refl x⟩)
    | dict d => exact .dict _ _ (items_of hw (FontInfo.storedItems_self d))
    | _ => exact .atom _ trivial
  | list a b h => exact .list _ _ (alike_list hw (FontInfo.sameList_forall₂ h))
  | tuple a b h => exact .tuple _ _ (alike_list hw (FontInfo.sameList_forall₂ h))
  | dict a b h => exact .dict _ _ (items_of hw h)

theorem alike_atomic {v w : PyVal} (h : Alike v w) (ha : Atomic v) : w = v := by
  cases view h <;> first | rfl | exact ha.elim

theorem alike_atomic' {v w : PyVal} (h : Alike v w) (ha : Atomic w) : w = v := by
  cases view h <;> first | rfl | exact ha.elim

theorem items_get? {d e : List (PyVal × PyVal)} (h : Items d e) (k : PyVal) : Option.Rel Alike (Dict.get? d k) (Dict.get? e k) := by
  have he : (e.map Prod.fst).Nodup := h.keys.nodup_iff.1 h.nodup
  cases hd : Dict.get? d k with
  | none =>
    cases hq : Dict.get? e k with
    | none => exact .none
    | some w =>
      obtain ⟨p, hp, hk, -⟩ := h.right _ (Dict.mem_of_get? hq)
      simp only at hk
      have : Dict.get? d k = some p.2 := by
        have := Dict.get?_of_mem (d := d) h.nodup (show (p.1, p.2) ∈ d from hp)
        rwa [← hk] at this
      rw [hd] at this; cases this
  | some v =>
    obtain ⟨q, hq, hk, ha⟩ := h.left _ (Dict.mem_of_get? hd)
    simp only at hk ha
    have : Dict.get? e k = some q.2 := by
      have := Dict.get?_of_mem (d := e) he (show (q.1, q.2) ∈ e from hq)
      rwa [hk] at this
    rw [this]
    exact .some ha

theorem items_any {d e : List (PyVal × PyVal)} (h : Items d e) {f : PyVal × PyVal → Bool} (hf : ∀ k v w, Alike v w → f (k, v) = f (k, w)) : d.any f = e.any f := by
  rw [Bool.eq_iff_iff, List.any_eq_true, List.any_eq_true]
  constructor
  · rintro ⟨⟨k, v⟩, hp, hpf⟩
    obtain ⟨⟨k', w⟩, hq, hk, ha⟩ := h.left _ hp
    simp only at hk ha
    subst hk
    exact ⟨_, hq, by rw [← hf _ _ _ ha]; exact hpf⟩
  · rintro ⟨⟨k, w⟩, hq, hqf⟩
    obtain ⟨⟨k', v⟩, hp, hk, ha⟩ := h.right _ hq
    simp only at hk ha
    subst hk
    exact ⟨_, hp, by rw [hf _ _ _ ha]; exact hqf⟩

theorem items_all {d e : List (PyVal × PyVal)} (h : Items d e) {f : PyVal × PyVal → Bool} (hf : ∀ k v w, Alike v w → f (k, v) = f (k, w)) : d.all f = e.all f := by
  rw [List.all_eq_not_any_not, List.all_eq_not_any_not, items_any h (f := fun x => !f x)]
  intro k v w ha
  rw [hf k v w ha]

theorem items_length {d e : List (PyVal × PyVal)} (h : Items d e) : d.length = e.length := by
  have := h.keys.length_eq
  simpa using this

theorem items_empty {d e : List (PyVal × PyVal)} (h : Items d e) : d.isEmpty = e.isEmpty := by
  have := items_length h
  cases d <;> cases e <;> simp_all

/-- Only the kind of value, or the value itself when it is atomic, matters. -/
def Respects {α : Type} (f : PyVal → α) : Prop := ∀ v w, Alike v w → f v = f w

theorem forall₂_all {a b : List PyVal} (h : List.Forall₂ Alike a b) {f : PyVal → Bool} (hf : Respects f) : a.all f = b.all f := by
  induction h with
  | nil => rfl
  | cons h _ ih => rw [List.all_cons, List.all_cons, hf _ _ h, ih]

theorem forall₂_any {a b : List PyVal} (h : List.Forall₂ Alike a b) {f : PyVal → Bool} (hf : Respects f) : a.any f = b.any f := by
  induction h with
  | nil => rfl
  | cons h _ ih => rw [List.any_cons, List.any_cons, hf _ _ h, ih]

theorem forall₂_empty {a b : List PyVal} (h : List.Forall₂ Alike a b) : a.isEmpty = b.isEmpty := by cases h <;> rfl

theorem respects_isInt : Respects isInt := by intro v w h; cases view h <;> rfl
theorem respects_isNumber : Respects isNumber := by intro v w h; cases view h <;> rfl
theorem respects_isStr : Respects isStr := by intro v w h; cases view h <;> rfl
theorem respects_isList : Respects isList := by intro v w h; cases view h <;> rfl
theorem respects_isBool : Respects isBool := by intro v w h; cases view h <;> rfl
theorem respects_num : Respects PyVal.num? := by intro v w h; cases view h <;> rfl
theorem respects_lt (i : Int) : Respects fun v => ltInt v i := by intro v w h; simp only [ltInt, respects_num v w h]
theorem respects_gt (i : Int) : Respects fun v => gtInt v i := by intro v w h; simp only [gtInt, respects_num v w h]
theorem respects_eqInt (i : Int) : Respects fun v => PyVal.pyEq v (.int i) := by intro v w h; cases view h <;> simp [PyVal.pyEq]
theorem respects_eqStr (s : Str) : Respects fun v => PyVal.pyEq v (.str s) := by intro v w h; cases view h <;> simp [PyVal.pyEq]
theorem respects_inInts (l : List Int) : Respects fun v => inInts v l := by
  intro v w h
  simp only [inInts]
  congr 1
  funext i
  exact respects_eqInt i v w h
theorem respects_none : Respects fun v => decide (v = PyVal.none) := by intro v w h; cases view h <;> simp
theorem respects_beqNone : Respects fun v => v == PyVal.none := by
  intro v w h
  have := respects_none v w h
  simpa [beq_eq_decide] using this

mutual
theorem same_hashable {v w : PyVal} (h : Same v w) : hashable v = hashable w := by
  match h with
  | .refl _ => rfl
  | .list _ _ _ => rfl
  | .dict _ _ _ => rfl
  | .tuple a b h => rw [hashable, hashable]; exact same_hashableList h
theorem same_hashableList {a b : List PyVal} (h : SameList a b) : hashableList a = hashableList b := by
  match h with
  | .nil => rfl
  | .cons v w a b h h' => rw [hashableList, hashableList, same_hashable h, same_hashableList h']
end

theorem hashableList_all (l : List PyVal) : hashableList l = l.all hashable := by
  induction l with
  | nil => rfl
  | cons v l ih => rw [hashableList, ih]; rfl

theorem respects_hashable : Respects hashable := fun _ _ h => same_hashable h.2

theorem alike_seq {v w : PyVal} (h : Alike v w) : Option.Rel (List.Forall₂ Alike) (seq? v) (seq? w) := by
  have hv := view h
  clear h
  cases hv with
  | atom _ ha =>
    have : seq? v = none := by cases v <;> first | rfl | exact ha.elim
    rw [this]; exact .none
  | list a b h => exact .some h
  | tuple a b h => exact .some h
  | dict => exact .none

/-- A check of a sequence that respects its items. -/
theorem respects_seq {α : Type} (x : α) (f : List PyVal → α) (hf : ∀ a b, List.Forall₂ Alike a b → f a = f b) :
    Respects fun v => match seq? v with | none => x | some l => f l := by
  intro v w h
  have := alike_seq h
  simp only
  generalize seq? v = s, seq? w = t at this
  cases this with
  | none => rfl
  | some h => exact hf _ _ h

theorem respects_intList (valid : List Int) : Respects fun v => genericIntListValidator v valid := by
  refine respects_seq _ _ fun a b h => ?_
  rw [hashableList_all, hashableList_all, forall₂_all h respects_hashable, forall₂_all h respects_isInt, forall₂_any h (f := fun v => !inInts v valid)]
  intro v w h
  simp only [respects_inInts valid v w h]

theorem respects_nonNegInt : Respects genericNonNegativeIntValidator := by
  intro v w h; simp only [genericNonNegativeIntValidator, respects_isInt v w h, respects_lt 0 v w h]
theorem respects_nonNegNumber : Respects genericNonNegativeNumberValidator := by
  intro v w h; simp only [genericNonNegativeNumberValidator, respects_isNumber v w h, respects_lt 0 v w h]
theorem respects_weight : Respects weightClassValidator := by
  intro v w h; simp only [weightClassValidator, respects_isInt v w h, respects_lt 0 v w h]
theorem respects_width : Respects widthClassValidator := by
  intro v w h; simp only [widthClassValidator, respects_isInt v w h, respects_lt 1 v w h, respects_gt 9 v w h]
theorem respects_styleMap : Respects styleMapStyleNameValidator := by
  intro v w h
  simp only [styleMapStyleNameValidator]
  congr 1
  funext s
  exact respects_eqStr s v w h
theorem respects_headCreated (py38 : Bool) : Respects (headCreatedValidator py38) := by intro v w h; cases view h <;> rfl
theorem respects_identifier : Respects identifierValidator := by intro v w h; cases view h <;> rfl
theorem respects_color (F : FloatCodec) : Respects (colorValidator F) := by intro v w h; cases view h <;> rfl

theorem respects_panose2 : Respects panose2Validator :=
  respects_seq _ _ fun a b h => by rw [h.length_eq, forall₂_all h respects_isInt]
theorem respects_panose3 : Respects panose3Validator :=
  respects_seq _ _ fun a b h => by
    rw [h.length_eq, forall₂_all h (f := fun x => isInt x && !ltInt x 0)]
    intro v w h
    simp only [respects_isInt v w h, respects_lt 0 v w h]
theorem respects_family : Respects familyClassValidator :=
  respects_seq _ _ fun a b h => by
    rw [h.length_eq, forall₂_all h respects_isInt]
    cases h with
    | nil => rfl
    | cons h h' => cases h' with
      | nil => rfl
      | cons h1 h2 => cases h2 with
        | nil => simp only [respects_lt 0 _ _ h, respects_gt 14 _ _ h, respects_lt 0 _ _ h1, respects_gt 15 _ _ h1]
        | cons => rfl
theorem respects_blues (n : Nat) : Respects (bluesValidator n) :=
  respects_seq _ _ fun a b h => by rw [h.length_eq, forall₂_all h respects_isNumber]
theorem respects_stems : Respects stemsValidator :=
  respects_seq _ _ fun a b h => by rw [h.length_eq, forall₂_all h respects_isNumber]

/-! ### dictionaries -/

theorem generic_respects (p : Prototype) (hp : ∀ x ∈ p, Respects x.2.1) : Respects fun v => genericDictValidator v p := by
  intro v w h
  have hv := view h
  clear h
  cases hv with
  | atom => rfl
  | list => rfl
  | tuple => rfl
  | dict a b h =>
    have h1 : ∀ k, (get a k).isNone = (get b k).isNone := fun k => by
      have := items_get? h (.str k)
      simp only [Validators.get]
      generalize Dict.get? a (.str k) = s, Dict.get? b (.str k) = t at this
      cases this <;> rfl
    have h2 := items_any h (f := fun i => (p.find i.1).isNone) (fun _ _ _ _ => rfl)
    simp only [genericDictValidator, h1, h2]
    split
    · rfl
    · split
      · rfl
      · refine items_all h fun k v w ha => ?_
        dsimp only
        cases hf : p.find k with
        | none => rfl
        | some x =>
          have : Respects x.1 := by
            cases k with
            | str s => exact hp (s, x) (Dict.mem_of_get? (d := p) hf)
            | _ => cases hf
          simp only [this v w ha, respects_beqNone v w ha]

theorem generic_alike {v w : PyVal} (h : Alike v w) {p : Prototype} (hp : ∀ x ∈ p, Respects x.2.1) : genericDictValidator v p = genericDictValidator w p :=
  generic_respects p hp v w h

/-- Closes the side conditions on prototypes. -/
macro "proto" : tactic => `(tactic| (simp only [List.forall_mem_cons, List.not_mem_nil, false_implies, implies_true, and_true, respects_isStr, respects_isInt, respects_isNumber, respects_isList]))

theorem alike_get {v w : PyVal} (h : Alike v w) : (∃ a b, v = .dict a ∧ w = .dict b ∧ Items a b) ∨ ((∀ a, v ≠ .dict a) ∧ ∀ b, w ≠ .dict b) := by
  have hv := view h
  clear h
  cases hv with
  | atom _ h => exact .inr ⟨by rintro a rfl; exact h, by rintro a rfl; exact h⟩
  | list => exact .inr ⟨nofun, nofun⟩
  | tuple => exact .inr ⟨nofun, nofun⟩
  | dict a b h => exact .inl ⟨a, b, rfl, rfl, h⟩

theorem respects_dir : Respects dirOk := by
  intro v w h
  have hv := view h
  clear h
  cases hv with
  | atom => rfl
  | list => rfl
  | tuple => rfl
  | dict a b h =>
    have := items_get? h (.str c!"dir")
    simp only [dirOk, Validators.get]
    generalize Dict.get? a (.str c!"dir") = s, Dict.get? b (.str c!"dir") = t at this
    cases this with
    | none => rfl
    | some h => simp only [respects_eqStr _ _ _ h]

/-- The same exception or lists that are alike. -/
inductive Lists : Except Exc (List PyVal) → Except Exc (List PyVal) → Prop
  | error (e : Exc) : Lists (.error e) (.error e)
  | ok (a b : List PyVal) (h : List.Forall₂ Alike a b) : Lists (.ok a) (.ok b)

theorem items_lists (k : Str) {v w : PyVal} (h : Alike v w) : Lists (items v k) (items w k) := by
  have hv := view h
  clear h
  cases hv with
  | atom v ha => cases v <;> first | exact .error _ | exact ha.elim
  | list => exact .error _
  | tuple => exact .error _
  | dict a b h =>
    have := items_get? h (.str k)
    simp only [items, Validators.get]
    generalize Dict.get? a (.str k) = s, Dict.get? b (.str k) = t at this
    cases this with
    | none => exact .error _
    | some h =>
      have hv := view h
      clear h
      cases hv with
      | atom x ha => rename_i x; cases x <;> first | exact .error _ | exact ha.elim
      | list a b h => exact .ok _ _ h
      | tuple => exact .error _
      | dict => exact .error _

theorem itemsIf_lists (k : Str) {v w : PyVal} (h : Alike v w) : Lists (itemsIf v k) (itemsIf w k) := by
  have hv := view h
  clear h
  cases hv with
  | atom v ha => cases v <;> first | exact .error _ | exact ha.elim
  | list => exact .error _
  | tuple => exact .error _
  | dict a b h =>
    have := items_get? h (.str k)
    simp only [itemsIf, Validators.get]
    generalize Dict.get? a (.str k) = s, Dict.get? b (.str k) = t at this
    cases this with
    | none => exact .ok _ _ .nil
    | some h =>
      have hv := view h
      clear h
      cases hv with
      | atom x ha => rename_i x; cases x <;> first | exact .error _ | exact ha.elim
      | list a b h => exact .ok _ _ h
      | tuple => exact .error _
      | dict => exact .error _

theorem lists_map {x y : Except Exc (List PyVal)} (h : Lists x y) {f : PyVal → Bool} (hf : Respects f) : (x.map fun l => l.all f) = y.map fun l => l.all f := by
  cases h with
  | error => rfl
  | ok a b h => simp only [Except.map, forall₂_all h hf]

theorem respects_text : Respects woffText := by
  intro v w h
  unfold woffText
  rw [generic_alike h, respects_dir v w h]
  proto
theorem respects_nameRecords : Respects nameRecordsValidator := by
  intro v w h
  have hv := view h
  clear h
  cases hv with
  | list a b h => exact forall₂_all h (generic_respects _ (by unfold nameRecordPrototype; proto))
  | _ => rfl
theorem respects_uniqueID : Respects woffUniqueID := generic_respects _ (by proto)
theorem respects_vendor : Respects woffVendor := by
  intro v w h
  unfold woffVendor
  rw [generic_alike h, respects_dir v w h]
  proto
theorem respects_licensee : Respects woffLicensee := by
  intro v w h
  unfold woffLicensee
  rw [generic_alike h, respects_dir v w h]
  proto
theorem respects_credits : Respects woffCredits := by
  intro v w h
  have hi := items_lists c!"credits" h
  unfold woffCredits
  rw [generic_alike h]
  swap
  · proto
  generalize items v c!"credits" = x, items w c!"credits" = y at hi
  cases hi with
  | error => rfl
  | ok a b hab =>
    simp only [forall₂_empty hab]
    rw [forall₂_all hab]
    intro v w h
    show (genericDictValidator v _ && dirOk v) = (genericDictValidator w _ && dirOk w)
    rw [generic_alike h, respects_dir v w h]
    proto
theorem respects_description : Respects woffDescription := by
  intro v w h
  unfold woffDescription
  rw [generic_alike h, lists_map (items_lists c!"text" h) respects_text]
  proto
theorem respects_license : Respects woffLicense := by
  intro v w h
  unfold woffLicense
  rw [generic_alike h, lists_map (itemsIf_lists c!"text" h) respects_text]
  proto
theorem respects_texts : Respects woffTexts := by
  intro v w h
  unfold woffTexts
  rw [generic_alike h, lists_map (items_lists c!"text" h) respects_text]
  proto
theorem respects_extensionItem : Respects woffExtensionItem := by
  intro v w h
  have hi := items_lists c!"names" h
  unfold woffExtensionItem
  rw [generic_alike h, lists_map (items_lists c!"values" h) respects_text]
  swap
  · proto
  generalize items v c!"names" = x, items w c!"names" = y at hi
  cases hi with
  | error => rfl
  | ok a b hab => simp only [forall₂_all hab respects_text]
theorem allM_respects {f : PyVal → Except Exc Bool} (hf : Respects f) {a b : List PyVal} (h : List.Forall₂ Alike a b) : allM f a = allM f b := by
  induction h with
  | nil => rfl
  | cons h _ ih => rw [allM, allM, hf _ _ h, ih]
theorem respects_extension : Respects woffExtension := by
  intro v w h
  have hi := itemsIf_lists c!"names" h
  have hj := items_lists c!"items" h
  unfold woffExtension
  rw [generic_alike h]
  swap
  · proto
  generalize itemsIf v c!"names" = x, itemsIf w c!"names" = y at hi
  generalize items v c!"items" = s, items w c!"items" = t at hj
  cases hi with
  | error => rfl
  | ok a b hab =>
    simp only [forall₂_all hab respects_text]
    cases hj with
    | error => rfl
    | ok c d hcd => simp only [allM_respects respects_extensionItem hcd]
theorem respects_extensions : Respects woffExtensions := by
  intro v w h
  have hv := view h
  clear h
  cases hv with
  | list a b h =>
    cases h with
    | nil => rfl
    | cons h h' => exact allM_respects respects_extension (.cons h h')
  | _ => rfl

theorem items_str {d e : List (PyVal × PyVal)} (h : Items d e) (k : Str) : Option.Rel Alike (get d k) (get e k) := items_get? h _

theorem respects_gasp : Respects gaspRangeRecordsValidator := by
  have key : ∀ (a b : List PyVal), List.Forall₂ Alike a b → ∀ o, gaspRecords o a = gaspRecords o b := by
    intro a b h
    induction h with
    | nil => intro o; rfl
    | @cons v w _ _ h _ ih =>
      intro o
      rw [gaspRecords.eq_def, gaspRecords.eq_def o (w :: _)]
      dsimp only
      rw [show genericDictValidator v gaspPrototype = genericDictValidator w gaspPrototype from generic_respects _ (by unfold gaspPrototype; proto) v w h]
      split
      · rfl
      · have hv := view h
        clear h
        cases hv with
        | dict a b h =>
          have h1 := items_str h c!"rangeMaxPPEM"
          have h2 := items_str h c!"rangeGaspBehavior"
          dsimp only
          generalize get a c!"rangeMaxPPEM" = x, get b c!"rangeMaxPPEM" = y at h1
          generalize get a c!"rangeGaspBehavior" = s, get b c!"rangeGaspBehavior" = t at h2
          cases h1 with
          | none => cases h2 <;> rfl
          | some h1 =>
            cases h2 with
            | none => rfl
            | some h2 =>
              have h3 : ∀ v w : PyVal, Alike v w → intOf v = intOf w := fun v w h => by cases view h <;> rfl
              simp only [respects_nonNegInt _ _ h1, respects_intList [0, 1, 2, 3] _ _ h2, h3 _ _ h1, ih]
        | _ => simp only [ih]
  intro v w h
  have hv := view h
  clear h
  cases hv with
  | list a b h =>
    cases h with
    | nil => rfl
    | cons h h' => exact key _ _ (.cons h h') []
  | _ => rfl

theorem getVal_rel {d e : List (PyVal × PyVal)} (h : Items d e) (k : Str) : Option.Rel Alike (getVal d k) (getVal e k) := by
  have := items_str h k
  simp only [getVal]
  generalize get d k = x, get e k = y at this
  cases this with
  | none => exact .none
  | some h =>
    cases view h with
    | atom x ha => rename_i x; cases x <;> first | exact .none | exact .some h
    | list => exact .some h
    | tuple => exact .some h
    | dict => exact .some h

theorem noneOr_rel {x y : Option PyVal} (h : Option.Rel Alike x y) {f : PyVal → Bool} (hf : Respects f) : noneOr x f = noneOr y f := by
  cases h with
  | none => rfl
  | some h => exact hf _ _ h

theorem isNone_rel {x y : Option PyVal} (h : Option.Rel Alike x y) : x.isNone = y.isNone := by cases h <;> rfl
theorem isSome_rel {x y : Option PyVal} (h : Option.Rel Alike x y) : x.isSome = y.isSome := by cases h <;> rfl

theorem identifierColor_items (F : FloatCodec) {d e : List (PyVal × PyVal)} (h : Items d e) : identifierColorOk F d = identifierColorOk F e := by
  simp only [identifierColorOk, noneOr_rel (getVal_rel h _) respects_identifier, noneOr_rel (getVal_rel h _) (respects_color F)]

theorem respects_guideline (F : FloatCodec) : Respects (guidelineValidator F) := by
  intro v w h
  unfold guidelineValidator
  rw [generic_alike h]
  swap
  · unfold guidelinePrototype; proto
  have hv := view h
  clear h
  cases hv with
  | dict a b h =>
    dsimp only
    rw [isNone_rel (getVal_rel h c!"x"), isNone_rel (getVal_rel h c!"y"), isNone_rel (getVal_rel h c!"angle"), isSome_rel (getVal_rel h c!"x"),
      isSome_rel (getVal_rel h c!"y"), isSome_rel (getVal_rel h c!"angle"), identifierColor_items F h, noneOr_rel (getVal_rel h c!"angle")]
    intro v w h
    simp only [respects_lt 0 v w h, respects_gt 360 v w h]
  | _ => rfl

theorem respects_anchor (F : FloatCodec) : Respects (anchorValidator F) := by
  intro v w h
  unfold anchorValidator
  rw [generic_alike h]
  swap
  · unfold anchorPrototype; proto
  have hv := view h
  clear h
  cases hv with
  | dict a b h =>
    dsimp only
    rw [isNone_rel (getVal_rel h c!"x"), isNone_rel (getVal_rel h c!"y"), identifierColor_items F h]
  | _ => rfl

theorem respects_image (F : FloatCodec) : Respects (imageValidator F) := by
  intro v w h
  unfold imageValidator
  rw [generic_alike h]
  swap
  · unfold imagePrototype; proto
  have hv := view h
  clear h
  cases hv with
  | dict a b h =>
    dsimp only
    rw [noneOr_rel (getVal_rel h c!"color") (respects_color F)]
    have : get a c!"fileName" = some (.str []) ↔ get b c!"fileName" = some (.str []) := by
      have := items_str h c!"fileName"
      generalize get a c!"fileName" = x, get b c!"fileName" = y at this
      cases this with
      | none => rfl
      | some h =>
        constructor <;> intro e <;> cases e
        · rw [alike_atomic h trivial]
        · rw [← alike_atomic' h trivial]
    simp only [this]
  | _ => rfl

theorem entries_respects {check : PyVal → Bool} (hc : Respects check) {a b : List PyVal} (h : List.Forall₂ Alike a b) :
    ∀ ids, entriesValidator check ids a = entriesValidator check ids b := by
  induction h with
  | nil => intro ids; rfl
  | @cons v w _ _ h _ ih =>
    intro ids
    rw [entriesValidator.eq_def, entriesValidator.eq_def check ids (w :: _)]
    dsimp only
    rw [hc v w h]
    split
    · rfl
    · have hv := view h
      clear h
      cases hv with
      | dict a b h =>
        have := getVal_rel h c!"identifier"
        dsimp only
        generalize getVal a c!"identifier" = x, getVal b c!"identifier" = y at this
        cases this with
        | none => exact ih ids
        | some h => cases view h <;> simp only [ih]
      | _ => simp only [ih]

theorem respects_guidelines (F : FloatCodec) (ids : List Str) : Respects (guidelinesValidator F ids) := by
  intro v w h
  have hv := view h
  clear h
  cases hv with
  | list a b h => exact entries_respects (respects_guideline F) h ids
  | _ => rfl

theorem respects_anchors (F : FloatCodec) (ids : List Str) : Respects (anchorsValidator F ids) := by
  intro v w h
  have hv := view h
  clear h
  cases hv with
  | list a b h => exact entries_respects (respects_anchor F) h ids
  | _ => rfl

theorem respects_kind (E : FontInfo.Env) (k : FontInfo.Kind) : Respects fun v => k.check E v := by
  intro v w h
  cases k <;> simp only [FontInfo.Kind.check]
  case str => rw [respects_isStr v w h]
  case int => rw [respects_isInt v w h]
  case num => rw [respects_isNumber v w h]
  case bool => rw [respects_isBool v w h]
  case headFlags => exact respects_intList _ v w h
  case selection => exact respects_intList _ v w h
  case unicodeRanges => exact respects_intList _ v w h
  case codePageRanges => exact respects_intList _ v w h
  case os2Type => exact respects_intList _ v w h
  case styleMap => rw [respects_styleMap v w h]
  case headCreated => exact respects_headCreated _ v w h
  case widthClass => rw [respects_width v w h]
  case weightClass => rw [respects_weight v w h]
  case panose2 => rw [respects_panose2 v w h]
  case panose3 => rw [respects_panose3 v w h]
  case familyClass => rw [respects_family v w h]
  case blues => rw [respects_blues 14 v w h]
  case otherBlues => rw [respects_blues 10 v w h]
  case stems => rw [respects_stems v w h]
  case characterSet => exact congrArg Except.ok (respects_inInts _ v w h)
  case nonNegInt => rw [respects_nonNegInt v w h]
  case nonNegNum => rw [respects_nonNegNumber v w h]
  case gasp => exact respects_gasp v w h
  case nameRecords => rw [respects_nameRecords v w h]
  case woffUniqueID => rw [respects_uniqueID v w h]
  case woffVendor => rw [respects_vendor v w h]
  case woffCredits => exact respects_credits v w h
  case woffDescription => exact respects_description v w h
  case woffLicense => exact respects_license v w h
  case woffTexts => exact respects_texts v w h
  case woffLicensee => rw [respects_licensee v w h]
  case woffExtensions => exact respects_extensions v w h
  case guidelines => rw [respects_guidelines E.F [] v w h]

end Verif.Order
