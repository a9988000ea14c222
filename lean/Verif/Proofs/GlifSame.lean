import Verif.Model.GlifReader
import Verif.Proofs.PlistFile
/-! Reading a glyph does not depend on the white space between elements. -/
namespace Verif.Glif
open Verif Verif.Validators Verif.Spec.Xml Verif.Xml
open Verif.Plist (StrTree StrTrees)

/-- No bytes object among the texts. -/
def StrText (t : Option Text) : Prop := ∀ b, t ≠ some (.bytes b)

theorem textBlank_iff {t : Option Text} (h : StrText t) : textBlank t = true ↔ Blank (textStr t) := by
  match t with
  | none => simp [textBlank, textStr, Blank]
  | some (.bytes b) => exact absurd rfl (h b)
  | some (.str s) =>
    rw [textBlank, textStr]
    refine ⟨blank_of_strip, fun hs => ?_⟩
    rw [List.isEmpty_iff, strip, lstrip, List.dropWhile_eq_nil_iff.2 hs]
    rfl

theorem same_textBlank {x x' : Option Text} {c : List Elem} (h : StrText x) (h' : StrText x')
    (hx : textStr x = textStr x' ∨ (c ≠ [] ∧ Blank (textStr x) ∧ Blank (textStr x'))) : textBlank x = textBlank x' := by
  rw [Bool.eq_iff_iff, textBlank_iff h, textBlank_iff h']
  rcases hx with hx | ⟨-, h1, h2⟩
  · rw [hx]
  · exact ⟨fun _ => h2, fun _ => h1⟩

theorem same_orEmpty {x x' : Option Text} (h : StrText x) (h' : StrText x') (hx : textStr x = textStr x') : Plist.orEmpty x = Plist.orEmpty x' := by
  match x, x' with
  | some (.bytes b), _ => exact absurd rfl (h b)
  | _, some (.bytes b) => exact absurd rfl (h' b)
  | none, none => rfl
  | none, some (.str s) => simp only [textStr] at hx; subst hx; rfl
  | some (.str s), none => simp only [textStr] at hx; subst hx; rfl
  | some (.str s), some (.str t) => simp only [textStr] at hx; subst hx; rfl

theorem sameTrees_isEmpty {c c' : List Elem} (h : SameTrees c c') : c.isEmpty = c'.isEmpty := by cases h <;> rfl

mutual
theorem walk_same (F : FloatCodec) (t : Plist.Target) {e e' : Elem} (h : SameTree e e') (hs : StrTree e) (hs' : StrTree e') :
    Plist.walk F t e = Plist.walk F t e' := by
  match h with
  | .mk tag attrib x x' y y' c c' hx hy hc =>
    obtain ⟨h1, -, h2⟩ := hs
    obtain ⟨h1', -, h2'⟩ := hs'
    rw [Plist.walk, Plist.walk, ← sameTrees_isEmpty hc]
    have := fun t => walkList_same F t hc h2 h2'
    cases c with
    | nil =>
      cases hc
      rcases hx with hx | ⟨h, -⟩
      · rw [same_orEmpty h1 h1' hx]
      · exact absurd rfl h
    | cons a c =>
      simp only [this, List.isEmpty_cons, Bool.false_eq_true, if_false]
theorem walkList_same (F : FloatCodec) (t : Plist.Target) {es es' : List Elem} (h : SameTrees es es') (hs : StrTrees es) (hs' : StrTrees es') :
    Plist.walkList F t es = Plist.walkList F t es' := by
  match h with
  | .nil => rfl
  | .cons e e' es es' h h' =>
    rw [Plist.walkList, Plist.walkList, walk_same F t h hs.1 hs'.1]
    have := fun t => walkList_same F t h' hs.2 hs'.2
    simp only [this]
end

theorem fromtree_same (F : FloatCodec) {e e' : Elem} (h : SameTree e e') (hs : StrTree e) (hs' : StrTree e') :
    Plist.fromtree F e = Plist.fromtree F e' := by
  rw [Plist.fromtree, Plist.fromtree, walk_same F _ h hs hs']

/-! ### the glyph reader -/

theorem SameTree.tag {e e' : Elem} (h : SameTree e e') : e'.tag = e.tag := by cases h; rfl
theorem SameTree.attrib {e e' : Elem} (h : SameTree e e') : e'.attrib = e.attrib := by cases h; rfl
theorem SameTree.children {e e' : Elem} (h : SameTree e e') : SameTrees e.children e'.children := by cases h; assumption
theorem SameTree.isEmpty {e e' : Elem} (h : SameTree e e') : e'.children.isEmpty = e.children.isEmpty := by
  cases h with
  | mk _ _ _ _ _ _ _ _ _ _ hc => exact (sameTrees_isEmpty hc).symm

theorem massagePoint_same (E : Env) (validate : Bool) (fv index : Nat) {e e' : Elem} (h : SameTree e e') :
    massagePoint E validate fv index e = massagePoint E validate fv index e' := by
  unfold massagePoint
  rw [SameTree.tag h, SameTree.attrib h, SameTree.isEmpty h]

theorem massagePoints_same (E : Env) (validate : Bool) (fv : Nat) : ∀ {es es' : List Elem} (index : Nat), SameTrees es es' →
    massagePoints E validate fv index es = massagePoints E validate fv index es'
  | _, _, _, .nil => rfl
  | _, _, i, .cons e e' es es' h h' => by
    rw [massagePoints, massagePoints, massagePoint_same E validate fv i h, massagePoints_same E validate fv (i + 1) h']

theorem massage_same (E : Env) (validate : Bool) (fv : Nat) {es es' : List Elem} (h : SameTrees es es') : massage E validate fv es = massage E validate fv es' := by
  unfold massage
  rw [massagePoints_same E validate fv 0 h]

theorem readContour2_same (E : Env) (validate : Bool) (ids : List Str) {e e' : Elem} (h : SameTree e e') : readContour2 E validate ids e = readContour2 E validate ids e' := by
  unfold readContour2
  rw [SameTree.attrib h, massage_same E validate 2 (SameTree.children h)]

theorem readComponent_same (E : Env) (validate : Bool) (fv : Nat) (ids : List Str) {e e' : Elem} (h : SameTree e e') :
    readComponent E validate fv ids e = readComponent E validate fv ids e' := by
  unfold readComponent
  rw [SameTree.attrib h, SameTree.isEmpty h]

theorem readOutline2_same (E : Env) (validate : Bool) : ∀ {es es' : List Elem} (ids : List Str), SameTrees es es' →
    readOutline2 E validate ids es = readOutline2 E validate ids es'
  | _, _, _, .nil => rfl
  | _, _, ids, .cons e e' es es' h h' => by
    rw [readOutline2, readOutline2, readContour2_same E validate ids h, readComponent_same E validate 2 ids h, SameTree.tag h]
    have := fun ids => readOutline2_same E validate ids h'
    simp only [this]

theorem readAnchor1_same (E : Env) (validate : Bool) {e e' : Elem} (h : SameTree e e') : readAnchor1 E validate e = readAnchor1 E validate e' := by
  unfold readAnchor1
  rw [SameTree.attrib h]

theorem readContour1_same (E : Env) (validate : Bool) {e e' : Elem} (h : SameTree e e') : readContour1 E validate e = readContour1 E validate e' := by
  unfold readContour1
  rw [SameTree.attrib h, massage_same E validate 1 (SameTree.children h)]

theorem contourAnchor1_same (E : Env) (validate : Bool) {e e' : Elem} (h : SameTree e e') : contourAnchor1 E validate e = contourAnchor1 E validate e' := by
  unfold contourAnchor1
  have hc := SameTree.children h
  generalize e.children = c, e'.children = c' at hc
  match hc with
  | .nil => rfl
  | .cons p p' _ _ h .nil => dsimp only; rw [SameTree.tag h, readAnchor1_same E validate h]
  | .cons _ _ _ _ _ (.cons _ _ _ _ _ _) => rfl

theorem readItem1_same (E : Env) (validate hasPen : Bool) {e e' : Elem} (h : SameTree e e') : readItem1 E validate hasPen e = readItem1 E validate hasPen e' := by
  unfold readItem1
  rw [SameTree.tag h, contourAnchor1_same E validate h, readContour1_same E validate h, readComponent_same E validate 1 [] h]

theorem readOutline1_same (E : Env) (validate hasPen : Bool) : ∀ {es es' : List Elem}, SameTrees es es' →
    readOutline1 E validate hasPen es = readOutline1 E validate hasPen es'
  | _, _, .nil => rfl
  | _, _, .cons e e' es es' h h' => by
    rw [readOutline1, readOutline1, readItem1_same E validate hasPen h, readOutline1_same E validate hasPen h']

/-- Notes have a text and no elements inside. -/
def NoteFine (e : Elem) : Prop := e.tag = c!"note" → e.children = [] ∧ textStr e.text ≠ []

theorem readNote_same {e e' : Elem} (h : SameTree e e') (hs : StrTree e) (hs' : StrTree e') (hc : e.children = []) (ht : textStr e.text ≠ []) : readNote e = readNote e' := by
  match h with
  | .mk tag attrib x x' y y' c c' hx hy hcc =>
    obtain ⟨h1, -⟩ := hs
    obtain ⟨h1', -⟩ := hs'
    simp only [Elem.children] at hc
    subst hc
    rcases hx with hx | ⟨h, -⟩
    · simp only [Elem.text] at ht
      match x, x', hx, ht with
      | some (.bytes b), _, _, _ => exact absurd rfl (h1 b)
      | _, some (.bytes b), _, _ => exact absurd rfl (h1' b)
      | none, _, _, ht => exact absurd rfl ht
      | some (.str s), none, hx, ht => exact absurd hx ht
      | some (.str s), some (.str t), hx, _ => simp only [textStr] at hx; subst hx; rfl
    · exact absurd rfl h

theorem StrTree.children {e : Elem} (h : StrTree e) : StrTrees e.children := by cases e; exact h.2.2
theorem StrTree.text {e : Elem} (h : StrTree e) : StrText e.text := by cases e; exact h.1

theorem SameTree.blank {e e' : Elem} (h : SameTree e e') (hs : StrTree e) (hs' : StrTree e') : textBlank e'.text = textBlank e.text := by
  cases h with
  | mk _ _ _ _ _ _ _ _ hx => exact (same_textBlank (StrTree.text hs) (StrTree.text hs') hx).symm

theorem readLib_same (E : Env) (validate : Bool) {e e' : Elem} (h : SameTree e e') (hs : StrTree e) (hs' : StrTree e') : readLib E validate e = readLib E validate e' := by
  unfold readLib
  have hc := SameTree.children h
  have h1 := StrTree.children hs
  have h2 := StrTree.children hs'
  generalize e.children = c, e'.children = c' at hc h1 h2
  match hc with
  | .nil => rfl
  | .cons p p' _ _ h .nil => dsimp only; rw [fromtree_same E.F h h1.1 h2.1]
  | .cons _ _ _ _ _ (.cons _ _ _ _ _ _) => rfl

theorem readChild_same (E : Env) (validate hasObj hasPen : Bool) (fv : Nat) (s : Collected) {e e' : Elem} (h : SameTree e e') (hs : StrTree e) (hs' : StrTree e')
    (hn : NoteFine e) : readChild E validate hasObj hasPen fv s e = readChild E validate hasObj hasPen fv s e' := by
  unfold readChild
  rw [SameTree.tag h]
  have h1 : s.outline E validate hasObj hasPen fv e = s.outline E validate hasObj hasPen fv e' := by
    unfold Collected.outline Collected.outline1 Collected.outline2 outlineOk
    rw [SameTree.attrib h, SameTree.blank h hs hs', readOutline1_same E validate hasPen (SameTree.children h)]
    simp only [readOutline2_same E validate _ (SameTree.children h)]
  have h2 : s.advance E validate e = s.advance E validate e' := by
    unfold Collected.advance readAdvance
    rw [SameTree.attrib h]
  have h3 : s.unicode e = s.unicode e' := by
    unfold Collected.unicode readHex
    rw [SameTree.attrib h]
  have h5 : s.lib E validate e = s.lib E validate e' := by
    unfold Collected.lib
    rw [readLib_same E validate h hs hs']
  have h6 : s.guideline E validate e = s.guideline E validate e' := by
    unfold Collected.guideline
    rw [SameTree.attrib h, SameTree.isEmpty h]
  have h7 : s.anchor E validate e = s.anchor E validate e' := by
    unfold Collected.anchor
    rw [SameTree.attrib h, SameTree.isEmpty h]
  have h8 : s.image E validate e = s.image E validate e' := by
    unfold Collected.image readImage
    rw [SameTree.attrib h, SameTree.isEmpty h]
  rw [h1, h2, h3, h5, h6, h7, h8]
  by_cases ht : e.tag = c!"note"
  · obtain ⟨hc, hx⟩ := hn ht
    have h4 : s.note validate e = s.note validate e' := by
      unfold Collected.note
      rw [readNote_same h hs hs' hc hx]
    rw [h4]
  · simp only [ht, if_false]

theorem readChildren_same (E : Env) (validate hasObj hasPen : Bool) (fv : Nat) : ∀ {es es' : List Elem} (s : Collected), SameTrees es es' → StrTrees es → StrTrees es' →
    (∀ e ∈ es, NoteFine e) → readChildren E validate hasObj hasPen fv s es = readChildren E validate hasObj hasPen fv s es'
  | _, _, _, .nil, _, _, _ => rfl
  | _, _, s, .cons e e' es es' h h', hs, hs', hn => by
    rw [readChildren, readChildren, readChild_same E validate hasObj hasPen fv s h hs.1 hs'.1 (hn e (by simp))]
    have := fun s => readChildren_same E validate hasObj hasPen fv s h' hs.2 hs'.2 fun e he => hn e (by simp [he])
    simp only [this]

/-- Trees that differ in white space between elements only are read alike. -/
theorem readGlyphTree_same (E : Env) (validate hasObj hasPen : Bool) (versions : List Int) {e e' : Elem} (h : SameTree e e') (hs : StrTree e) (hs' : StrTree e')
    (hn : ∀ c ∈ e.children, NoteFine c) : readGlyphTree E validate hasObj hasPen versions e = readGlyphTree E validate hasObj hasPen versions e' := by
  unfold readGlyphTree readFormat readName
  rw [SameTree.tag h, SameTree.attrib h, SameTree.blank h hs hs']
  simp only [readChildren_same E validate hasObj hasPen _ _ (SameTree.children h) (StrTree.children hs) (StrTree.children hs') hn]

end Verif.Glif
