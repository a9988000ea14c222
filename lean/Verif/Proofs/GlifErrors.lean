import Verif.Spec.Errors
import Verif.Model.GlyphTable
import Verif.Proofs.PlistRead
/-! The exceptions of the GLIF reader. -/
namespace Verif.Glif
open Verif Verif.Validators Verif.Spec.Errors

/-- `GlifLibError` only. -/
def Glib (e : Exc) : Prop := e = .glifLibError

theorem only_ok {α : Type} {S : Exc → Prop} {a : α} : Only S (.ok a) := nofun
theorem only_error {α : Type} {S : Exc → Prop} {e : Exc} (h : S e) : Only S (.error e : Except Exc α) := by intro e' he; cases he; exact h
theorem only_of {α β : Type} {S : Exc → Prop} {x : Except Exc α} {e : Exc} (h : Only S x) (hx : x = .error e) : Only S (.error e : Except Exc β) := only_error (h e hx)
theorem only_map {α β : Type} {S : Exc → Prop} {x : Except Exc α} {f : α → β} (h : Only S x) : Only S (x.map f) := by
  cases x with
  | error e => exact only_error (h e rfl)
  | ok a => exact only_ok
theorem only_mono {α : Type} {S T : Exc → Prop} {x : Except Exc α} (h : Only S x) (hs : ∀ e, S e → T e) : Only T x := fun e he => hs e (h e he)

/-- Split everything; an exception is `GlifLibError` or that of one of the given parts. -/
local macro "errors" "[" ts:term,* "]" : tactic => do
  let ts := ts.getElems
  `(tactic| (repeat' split) <;> first
      | exact only_ok
      | exact only_error rfl
      | contradiction
      $[| exact $ts]*
      $[| exact only_map $ts]*
      $[| exact only_of $ts (by first | assumption | rfl)]*)

theorem number_only {F : FloatCodec} {s : Str} : Only Glib (number F s) := by unfold number; errors []

theorem numberOr_only {F : FloatCodec} {d : PyVal} {s : Option Str} : Only Glib (numberOr F d s) := by unfold numberOr; errors [number_only]

theorem coordinate_only {F : FloatCodec} {s : Option Str} : Only Glib (coordinate F true s) := by unfold coordinate; errors [number_only]

theorem massagePoint_only {E : Env} {fv i : Nat} {e : Elem} : Only Glib (massagePoint E true fv i e) := by unfold massagePoint; dsimp only; errors [coordinate_only]

theorem massagePoints_only {E : Env} {fv : Nat} {l : List Elem} : ∀ {i : Nat}, Only Glib (massagePoints E true fv i l) := by
  induction l with
  | nil => exact only_ok
  | cons e l ih => intro i; unfold massagePoints; errors [ih, massagePoint_only]

theorem massage_only {E : Env} {fv : Nat} {l : List Elem} : Only Glib (massage E true fv l) := by unfold massage; errors [massagePoints_only]

theorem readIdentifier_only {v : Bool} {ids : List Str} {i : Option Str} : Only Glib (readIdentifier v ids i) := by unfold readIdentifier; errors []

theorem readPoints2_only {v : Bool} {l : List MPoint} : ∀ {ids : List Str}, Only Glib (readPoints2 v ids l) := by
  induction l with
  | nil => exact only_ok
  | cons e l ih => intro ids; unfold readPoints2; errors [ih, readIdentifier_only]

theorem readContour2_only {E : Env} {ids : List Str} {e : Elem} : Only Glib (readContour2 E true ids e) := by
  unfold readContour2; errors [readIdentifier_only, massage_only, readPoints2_only]

theorem readTransformation_only {F : FloatCodec} {a : Dict Str Str} {l : List (Str × PyVal)} : Only Glib (readTransformation F a l) := by
  induction l with
  | nil => exact only_ok
  | cons e l ih => unfold readTransformation; errors [ih, numberOr_only]

theorem readComponent_only {E : Env} {v : Bool} {fv : Nat} {ids : List Str} {e : Elem} : Only Glib (readComponent E v fv ids e) := by
  unfold readComponent; errors [readTransformation_only, readIdentifier_only]

theorem readOutline2_only {E : Env} {l : List Elem} : ∀ {ids : List Str}, Only Glib (readOutline2 E true ids l) := by
  induction l with
  | nil => exact only_ok
  | cons e l ih =>
    intro ids; unfold readOutline2
    have h : Only Glib (if e.tag = c!"contour" then readContour2 E true ids e else if e.tag = c!"component" then readComponent E true 2 ids e else .error .glifLibError) := by
      errors [readContour2_only, readComponent_only]
    revert h
    generalize (if e.tag = c!"contour" then readContour2 E true ids e else if e.tag = c!"component" then readComponent E true 2 ids e else .error .glifLibError) = x
    intro h
    errors [ih, h]

theorem readAnchor1_only {E : Env} {e : Elem} : Only Glib (readAnchor1 E true e) := by unfold readAnchor1; errors [coordinate_only]

theorem readContour1_only {E : Env} {e : Elem} : Only Glib (readContour1 E true e) := by unfold readContour1; errors [massage_only]

theorem contourAnchor1_only {E : Env} {e : Elem} : Only Glib (contourAnchor1 E true e) := by unfold contourAnchor1; errors [readAnchor1_only]

theorem readItem1_only {E : Env} {p : Bool} {e : Elem} : Only Glib (readItem1 E true p e) := by
  unfold readItem1; errors [contourAnchor1_only, readContour1_only, readComponent_only]

theorem readOutline1_only {E : Env} {p : Bool} {l : List Elem} : Only Glib (readOutline1 E true p l) := by
  induction l with
  | nil => exact only_ok
  | cons e l ih => unfold readOutline1; errors [ih, readItem1_only]

theorem readAdvance_only {F : FloatCodec} {e : Elem} : Only Glib (readAdvance F e) := by unfold readAdvance; errors [numberOr_only]

theorem imageNumbers_only {F : FloatCodec} {a : Dict Str Str} {l : List (Str × PyVal)} : ∀ {d : List (PyVal × PyVal)}, Only Glib (imageNumbers F a d l) := by
  induction l with
  | nil => exact only_ok
  | cons e l ih => intro d; unfold imageNumbers; errors [ih, numberOr_only]

theorem readImage_only {E : Env} {v : Bool} {e : Elem} : Only Glib (readImage E v e) := by unfold readImage; errors [imageNumbers_only]

theorem readEntry_only {F : FloatCodec} {ns : List Str} {l : Dict Str Str} : Only Glib (readEntry F ns l) := by
  induction l with
  | nil => exact only_ok
  | cons e l ih =>
    obtain ⟨k, s⟩ := e
    unfold readEntry
    have h : Only Glib (if k ∈ ns then number F s else .ok (.str s)) := by errors [number_only]
    revert h
    generalize (if k ∈ ns then number F s else .ok (.str s)) = x
    intro h
    errors [ih, h]

theorem once_only {s : Collected} {v : Bool} {tag : Str} : Only Glib (s.once v tag) := by unfold Collected.once; errors []

theorem outline1_only {E : Env} {o p : Bool} {s : Collected} {e : Elem} : Only Glib (s.outline1 E true o p e) := by
  unfold Collected.outline1; errors [readOutline1_only]

theorem outline2_only {E : Env} {p : Bool} {s : Collected} {e : Elem} : Only Glib (s.outline2 E true p e) := by
  unfold Collected.outline2; errors [readOutline2_only]

theorem outline_only {E : Env} {o p : Bool} {fv : Nat} {s : Collected} {e : Elem} : Only Glib (s.outline E true o p fv e) := by
  unfold Collected.outline; errors [once_only, outline1_only, outline2_only]

theorem advance_only {E : Env} {v : Bool} {s : Collected} {e : Elem} : Only Glib (s.advance E v e) := by
  unfold Collected.advance; errors [once_only, readAdvance_only]

theorem image_only {E : Env} {v : Bool} {s : Collected} {e : Elem} : Only Glib (s.image E v e) := by
  unfold Collected.image; errors [once_only, readImage_only]

theorem guideline_only {E : Env} {v : Bool} {s : Collected} {e : Elem} : Only Glib (s.guideline E v e) := by
  unfold Collected.guideline; errors [readEntry_only]

theorem anchor_only {E : Env} {v : Bool} {s : Collected} {e : Elem} : Only Glib (s.anchor E v e) := by
  unfold Collected.anchor; errors [readEntry_only]

theorem setList_only {s : Collected} {v : Bool} {n : Str} {l : List PyVal} {r : Bool × List Str} : Only Glib (s.setList v n l r) := by
  unfold Collected.setList; errors []

theorem finish_only {E : Env} {v : Bool} {s : Collected} : Only Glib (s.finish E v) := by
  unfold Collected.finish; dsimp only; errors [setList_only]

theorem readName_only {v o : Bool} {t : Elem} : Only Glib (readName v o t) := by unfold readName; errors []

/-! ### The lib -/

/-- The exceptions of `plistlib.fromtree`. -/
def Tree (e : Exc) : Prop := e = .indexError ∨ e = .valueError ∨ e = .typeError ∨ e = .attributeError

theorem slot_only {t : Plist.Target} : Only Tree t.slot := by
  unfold Plist.Target.slot; (repeat' split) <;> first | exact only_ok | exact only_error (by unfold Tree; simp)

theorem add_only {t : Plist.Target} {v : PyVal} : Only Tree (t.add v) := by
  unfold Plist.Target.add; errors [slot_only]

theorem open_only {t : Plist.Target} {c : Plist.Cont} : Only Tree (t.open c) := by
  unfold Plist.Target.open; errors [slot_only]

theorem pop_only {t : Plist.Target} : Only Tree t.pop := by
  unfold Plist.Target.pop; split
  · exact only_error (Or.inl rfl)
  · exact only_ok

theorem joinData_only {l : List Text} : Only Tree (Plist.joinData l) := by
  induction l with
  | nil => exact only_ok
  | cons x l ih =>
    cases x with
    | str s => exact only_map ih
    | bytes b => exact only_error (by simp [Tree])

theorem addData_only {t : Plist.Target} {f : Str → Except Exc PyVal} (hf : ∀ s, Only Tree (f s)) : Only Tree (t.addData f) := by
  unfold Plist.Target.addData; errors [joinData_only, add_only, hf _]

theorem a2b_only {s : Str} : ∀ {q a p : Nat}, Only Tree (Plist.a2b q a p s) := by
  induction s with
  | nil => intro q a p; unfold Plist.a2b; split
           · exact only_ok
           · exact only_error (by simp [Tree])
  | cons c s ih =>
    intro q a p; unfold Plist.a2b; errors [ih]

theorem b64decode_only {s : Str} : Only Tree (Plist.b64decode s) := by
  unfold Plist.b64decode; split
  · exact a2b_only
  · exact only_error (by simp [Tree])

theorem dateFromString_only {s : Str} : Only Tree (Plist.dateFromString s) := by
  unfold Plist.dateFromString Plist.mkDate; dsimp only
  (repeat' split) <;> first | exact only_ok | exact only_error (by simp [Tree])

theorem endTag_only {F : FloatCodec} {t : Plist.Target} {tag : Str} : Only Tree (t.endTag F tag) := by
  unfold Plist.Target.endTag
  split
  · split
    · exact only_error (by simp [Tree])
    · exact pop_only
  split
  · exact pop_only
  split
  · split
    · exact only_error (by simp [Tree])
    · split
      · exact only_error (by simp [Tree])
      · exact only_error (by simp [Tree])
      · errors [joinData_only]
  split
  · exact add_only
  split
  · exact add_only
  split
  · exact addData_only fun s => by split <;> first | exact only_ok | exact only_error (by simp [Tree])
  split
  · exact addData_only fun s => by split <;> first | exact only_ok | exact only_error (by simp [Tree])
  split
  · exact addData_only fun s => only_ok
  split
  · exact addData_only fun s => only_map b64decode_only
  split
  · exact addData_only fun s => only_map dateFromString_only
  · exact only_ok

theorem startTag_only {t : Plist.Target} {tag : Str} : Only Tree (t.startTag tag) := by
  unfold Plist.Target.startTag; dsimp only; errors [open_only]

mutual
theorem walk_only {F : FloatCodec} : ∀ (e : Elem) {t : Plist.Target}, Only Tree (Plist.walk F t e)
  | .mk tag _ text _ children, t => by
    have := fun t => walkList_only (F := F) children (t := t)
    unfold Plist.walk; errors [startTag_only, this _, endTag_only]
theorem walkList_only {F : FloatCodec} : ∀ (l : List Elem) {t : Plist.Target}, Only Tree (Plist.walkList F t l)
  | [], _ => only_ok
  | e :: es, t => by
    have h1 := fun t => walk_only (F := F) e (t := t)
    have h2 := fun t => walkList_only (F := F) es (t := t)
    unfold Plist.walkList; errors [h1 _, h2 _]
end

theorem fromtree_only {F : FloatCodec} {e : Elem} : Only Tree (Plist.fromtree F e) := by
  unfold Plist.fromtree; errors [walk_only _]

/-! ### The keys of what is read -/

/-- A dictionary has string keys. -/
def StrKeys (v : PyVal) : Prop := ∀ d, v = .dict d → ∀ e ∈ d, ∃ s, e.1 = .str s

theorem keys_of {v : PyVal} (h : ∀ d, v ≠ .dict d) : StrKeys v := fun d hd => absurd hd (h d)

/-- The root has string keys. -/
def RootOk (t : Plist.Target) : Prop := ∀ v, t.root = some v → StrKeys v

theorem put_root {t : Plist.Target} {s : Plist.Slot} {v : PyVal} (ht : RootOk t) (hv : StrKeys v) : RootOk (t.put s v) := by
  unfold Plist.Target.put
  cases s with
  | root => intro w hw; cases hw; exact hv
  | key k => dsimp only; split <;> exact ht
  | item => dsimp only; split <;> exact ht

theorem add_root {t t' : Plist.Target} {v : PyVal} (ht : RootOk t) (hv : StrKeys v) (h : t.add v = .ok t') : RootOk t' := by
  unfold Plist.Target.add at h
  split at h
  · cases h
  · cases h; exact put_root (s := _) ht hv

theorem open_root {t t' : Plist.Target} {c : Plist.Cont} (ht : RootOk t) (h : t.open c = .ok t') : RootOk t' := by
  unfold Plist.Target.open at h
  split at h
  · cases h
  · cases h; exact ht

theorem value_keys {c : Plist.Cont} : StrKeys c.value := by
  intro d hd e he
  cases c with
  | dict d' =>
    cases hd
    rw [List.mem_map] at he
    obtain ⟨p, -, rfl⟩ := he
    exact ⟨p.1, rfl⟩
  | list l => cases hd

theorem pop_root {t t' : Plist.Target} (ht : RootOk t) (h : t.pop = .ok t') : RootOk t' := by
  unfold Plist.Target.pop at h
  split at h
  · cases h
  · cases h; exact put_root ht value_keys

theorem addData_root {t t' : Plist.Target} {f : Str → Except Exc PyVal} (ht : RootOk t) (hf : ∀ s v, f s = .ok v → StrKeys v) (h : t.addData f = .ok t') : RootOk t' := by
  unfold Plist.Target.addData at h
  split at h
  · cases h
  · split at h
    · cases h
    · rename_i v hv
      exact add_root (t := { t with data := [] }) ht (hf _ _ hv) h

theorem map_keys {α : Type} {x : Except Exc α} {g : α → PyVal} (hg : ∀ a, StrKeys (g a)) {v : PyVal} (h : x.map g = .ok v) : StrKeys v := by
  cases x with
  | error e => cases h
  | ok a => cases h; exact hg a

theorem endTag_root {F : FloatCodec} {t t' : Plist.Target} {tag : Str} (ht : RootOk t) (h : t.endTag F tag = .ok t') : RootOk t' := by
  unfold Plist.Target.endTag at h
  split at h
  · split at h
    · cases h
    · exact pop_root ht h
  split at h
  · exact pop_root ht h
  split at h
  · split at h
    · cases h
    · split at h
      · cases h
      · cases h
      · split at h
        · cases h
        · cases h; exact ht
  split at h
  · exact add_root ht (keys_of (by intro d hd; cases hd)) h
  split at h
  · exact add_root ht (keys_of (by intro d hd; cases hd)) h
  split at h
  · exact addData_root ht (fun s v hv => by split at hv <;> cases hv; exact keys_of nofun) h
  split at h
  · exact addData_root ht (fun s v hv => by split at hv <;> cases hv; exact keys_of nofun) h
  split at h
  · exact addData_root ht (fun s v hv => by cases hv; exact keys_of nofun) h
  split at h
  · exact addData_root ht (fun s v hv => map_keys (fun _ => keys_of (by intro d hd; cases hd)) hv) h
  split at h
  · exact addData_root ht (fun s v hv => map_keys (fun _ => keys_of (by intro d hd; cases hd)) hv) h
  · cases h; exact ht

theorem startTag_root {t t' : Plist.Target} {tag : Str} (ht : RootOk t) (h : t.startTag tag = .ok t') : RootOk t' := by
  unfold Plist.Target.startTag at h
  dsimp only at h
  split at h
  · exact open_root (t := { t with data := [] }) ht h
  split at h
  · exact open_root (t := { t with data := [] }) ht h
  · cases h; exact ht

mutual
theorem walk_root {F : FloatCodec} : ∀ (e : Elem) {t t' : Plist.Target}, RootOk t → Plist.walk F t e = .ok t' → RootOk t'
  | .mk tag _ text _ children, t, t', ht, h => by
    unfold Plist.walk at h
    split at h
    · cases h
    · rename_i t1 h1
      split at h
      · cases h
      · rename_i t2 h2
        have h2' := walkList_root (F := F) children (startTag_root ht h1) h2
        refine endTag_root ?_ h
        split
        · exact h2'
        · exact h2'
theorem walkList_root {F : FloatCodec} : ∀ (l : List Elem) {t t' : Plist.Target}, RootOk t → Plist.walkList F t l = .ok t' → RootOk t'
  | [], t, t', ht, h => by unfold Plist.walkList at h; cases h; exact ht
  | e :: es, t, t', ht, h => by
    unfold Plist.walkList at h
    split at h
    · cases h
    · rename_i t1 h1
      exact walkList_root (F := F) es (walk_root (F := F) e ht h1) h
end

theorem fromtree_keys {F : FloatCodec} {e : Elem} {v : PyVal} (h : Plist.fromtree F e = .ok v) : StrKeys v := by
  unfold Plist.fromtree at h
  split at h
  · cases h
  · rename_i t ht
    cases h
    have := walk_root e (t := .new) (fun v hv => by cases hv) ht
    cases hr : t.root with
    | none => exact keys_of nofun
    | some v => exact this v hr

theorem glyphLibItems_ok {F : FloatCodec} {d : List (PyVal × PyVal)} (h : ∀ e ∈ d, ∃ s, e.1 = .str s) : ∃ b, glyphLibItems F d = .ok b := by
  induction d with
  | nil => exact ⟨_, rfl⟩
  | cons e d ih =>
    obtain ⟨k, v⟩ := e
    rw [List.forall_mem_cons] at h
    obtain ⟨⟨s, rfl⟩, hd⟩ := h
    unfold glyphLibItems
    split
    · split
      · exact ⟨_, rfl⟩
      · exact ih hd
    · exact ih hd

theorem glyphLibValidator_ok {F : FloatCodec} {v : PyVal} (h : StrKeys v) : ∃ b, glyphLibValidator F v = .ok b := by
  unfold glyphLibValidator
  split
  · exact glyphLibItems_ok (h _ rfl)
  · exact ⟨_, rfl⟩

theorem readLib_of {E : Env} {e child : Elem} {v : PyVal} (he : e.children = [child]) (hv : Plist.fromtree E.F child = .ok v) : Only Glib (readLib E true e) := by
  unfold readLib
  rw [he]
  dsimp only
  rw [hv]
  dsimp only
  obtain ⟨b, hb⟩ := glyphLibValidator_ok (F := E.F) (fromtree_keys hv)
  rw [if_pos rfl, hb]
  cases b
  · exact only_error rfl
  · exact only_ok

/-! ### The glyph -/

/-- The exceptions of the GLIF reader after the text has been parsed. -/
def Any (e : Exc) : Prop := e = .glifLibError ∨ e = .assertionError ∨ Tree e

theorem glib_any {α : Type} {x : Except Exc α} (h : Only Glib x) : Only Any x := only_mono h fun _ he => Or.inl he
theorem tree_any {α : Type} {x : Except Exc α} (h : Only Tree x) : Only Any x := only_mono h fun _ he => Or.inr (Or.inr he)

theorem readLib_any {E : Env} {e : Elem} : Only Any (readLib E true e) := by
  cases hc : e.children with
  | nil => unfold readLib; rw [hc]; exact only_error (by simp [Any])
  | cons c l =>
    cases l with
    | cons d l => unfold readLib; rw [hc]; exact only_error (by simp [Any])
    | nil =>
      cases hv : Plist.fromtree E.F c with
      | ok v => exact glib_any (readLib_of hc hv)
      | error x => unfold readLib; rw [hc]; dsimp only; rw [hv]; exact tree_any (only_of fromtree_only hv)

theorem readHex_any {e : Elem} : Only Any (readHex e) := by
  unfold readHex; (repeat' split) <;> first | exact only_ok | exact only_error (by simp [Any, Tree])

theorem readNote_any {e : Elem} : Only Any (readNote e) := by
  unfold readNote; (repeat' split) <;> first | exact only_ok | exact only_error (by simp [Any, Tree])

theorem child_any {E : Env} {o p : Bool} {fv : Nat} {s : Collected} {e : Elem} : Only Any (readChild E true o p fv s e) := by
  have h1 := fun v t => glib_any (once_only (s := s) (v := v) (tag := t))
  have hu : Only Any (s.unicode e) := by unfold Collected.unicode; errors [readHex_any]
  have hn : Only Any (s.note true e) := by unfold Collected.note; errors [h1 _ _, readNote_any]
  have hl : Only Any (s.lib E true e) := by unfold Collected.lib; errors [h1 _ _, readLib_any]
  unfold readChild
  (repeat' split) <;> first
    | exact only_ok
    | exact only_error (Or.inl rfl)
    | exact hu
    | exact hn
    | exact hl
    | exact glib_any outline_only
    | exact glib_any advance_only
    | exact glib_any guideline_only
    | exact glib_any anchor_only
    | exact glib_any image_only

theorem child_only {E : Env} {o p : Bool} {fv : Nat} {s : Collected} {e : Elem} (hh : e.tag = c!"unicode" → ∃ s, Dict.get? e.attrib c!"hex" = some s)
    (hn : e.tag = c!"note" → ∃ s, e.text = some (.str s)) (hl : e.tag = c!"lib" → ∃ child v, e.children = [child] ∧ Plist.fromtree E.F child = .ok v) :
    Only Glib (readChild E true o p fv s e) := by
  unfold readChild
  split
  · exact outline_only
  split
  · exact only_ok
  split
  · exact advance_only
  split
  · rename_i ht
    obtain ⟨x, hx⟩ := hh ht
    have : Only Glib (readHex e) := by
      unfold readHex; rw [hx]; dsimp only; errors []
    unfold Collected.unicode; errors [this]
  split
  · rename_i ht
    obtain ⟨x, hx⟩ := hn ht
    have : Only Glib (readNote e) := by
      unfold readNote; rw [hx]; exact only_ok
    unfold Collected.note; errors [once_only, this]
  split
  · rename_i ht
    obtain ⟨c, v, hc, hv⟩ := hl ht
    have := readLib_of hc hv
    unfold Collected.lib; errors [once_only, this]
  errors [guideline_only, anchor_only, image_only]

theorem children_any {E : Env} {o p : Bool} {fv : Nat} {l : List Elem} : ∀ {s : Collected}, Only Any (readChildren E true o p fv s l) := by
  induction l with
  | nil => exact only_ok
  | cons e l ih => intro s; unfold readChildren; errors [ih, child_any]

theorem children_only {E : Env} {o p : Bool} {fv : Nat} {l : List Elem} (hh : ∀ e ∈ l, e.tag = c!"unicode" → ∃ s, Dict.get? e.attrib c!"hex" = some s)
    (hn : ∀ e ∈ l, e.tag = c!"note" → ∃ s, e.text = some (.str s)) (hl : ∀ e ∈ l, e.tag = c!"lib" → ∃ child v, e.children = [child] ∧ Plist.fromtree E.F child = .ok v) :
    ∀ {s : Collected}, Only Glib (readChildren E true o p fv s l) := by
  induction l with
  | nil => exact only_ok
  | cons e l ih =>
    rw [List.forall_mem_cons] at hh hn hl
    intro s; unfold readChildren
    have := fun s => child_only (o := o) (p := p) (fv := fv) (s := s) hh.1 hn.1 hl.1
    have ih := fun s => ih hh.2 hn.2 hl.2 (s := s)
    errors [ih _, this _]

theorem readFormat_any {E : Env} {o p : Bool} {fv : Nat} {t : Elem} : Only Any (readFormat E true o p fv t) := by
  unfold readFormat; errors [glib_any readName_only, children_any, glib_any finish_only]

theorem readFormat_only {E : Env} {o p : Bool} {fv : Nat} {t : Elem} (h : Guarded E.F t) : Only Glib (readFormat E true o p fv t) := by
  have := fun s => children_only (o := o) (p := p) (fv := fv) h.hex h.note h.lib (s := s)
  unfold readFormat; errors [readName_only, this _, finish_only]

theorem readGlyphTree_any {E : Env} {o p : Bool} {vs : List Int} {t : Elem} : Only Any (readGlyphTree E true o p vs t) := by
  unfold readGlyphTree
  (repeat' split) <;> first | exact only_error (Or.inl rfl) | exact readFormat_any | contradiction

theorem readGlyphTree_only {E : Env} {o p : Bool} {vs : List Int} {t : Elem} (h : Guarded E.F t) : Only Glib (readGlyphTree E true o p vs t) := by
  unfold readGlyphTree; errors [readFormat_only h]

end Verif.Glif
