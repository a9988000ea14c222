import Verif.Proofs.OrderWrite
/-! The order of dictionaries does not matter: glyph files. -/
namespace Verif.Order
open Verif Verif.Spec.Plist Verif.Spec.Order Verif.Spec.Validators Verif.Validators Verif.Glif

theorem respects_truthy : Respects Glif.truthy := by
  intro v w h
  have hv := view h
  clear h
  cases hv with
  | atom => rfl
  | list a b h => cases h <;> rfl
  | tuple a b h => cases h <;> rfl
  | dict a b h =>
    have := items_length h
    cases a <;> cases b <;> simp_all [Glif.truthy]

theorem attr_alike {o p : Obj} (h : AlikeObj o p) (a : Str) : Alike (o.attr a) (p.attr a) := by
  have := h a
  unfold Obj.attr
  generalize o a = x, p a = y at this
  cases this with
  | none => exact ⟨trivial, .refl _⟩
  | some h => exact h

/-! ### the simple elements -/

theorem atomic_number {v : PyVal} (h : isNumber v = true) : Atomic v := by cases v <;> trivial
theorem atomic_int {v : PyVal} (h : isInt v = true) : Atomic v := by cases v <;> trivial
theorem atomic_str {v : PyVal} (h : isStr v = true) : Atomic v := by cases v <;> trivial

theorem advance_respects : Respects (advanceValue true) := by
  intro v w h
  cases hn : isNumber v with
  | true => rw [alike_atomic h (atomic_number hn)]
  | false =>
    have hv := view h
    clear h
    cases hv <;> rfl

theorem unicodes_alike (E : Env) {a b : List PyVal} (h : List.Forall₂ Alike a b) : ∀ seen, unicodeElements E true seen a = unicodeElements E true seen b := by
  induction h with
  | nil => intro seen; rfl
  | @cons v w _ _ h _ ih =>
    intro seen
    rw [unicodeElements, unicodeElements, respects_isInt v w h]
    cases hi : isInt w with
    | false => rfl
    | true =>
      rw [alike_atomic' h (atomic_int hi)]
      simp only [ih]

theorem writeUnicodes_alike (E : Env) {v w : PyVal} (h : Alike v w) (hd : ∀ d, v ≠ .dict d) : writeUnicodes E true v = writeUnicodes E true w := by
  have hv := view h
  clear h
  cases hv with
  | atom => rfl
  | list a b h => simp only [writeUnicodes, isInt, Bool.and_false, Bool.false_eq_true, if_false, iter, unicodes_alike E h]
  | tuple a b h => simp only [writeUnicodes, isInt, Bool.and_false, Bool.false_eq_true, if_false, iter, unicodes_alike E h]
  | dict a b h => exact absurd rfl (hd a)

theorem note_respects (E : Env) : Respects (writeNote E true) := by
  intro v w h
  cases view h <;> rfl

/-! ### flat dictionaries -/

/-- Only atomic values are accepted. -/
def Flat (p : Prototype) : Prop := ∀ x ∈ p, ∀ v, x.2.1 v = true → Atomic v

theorem flat_get {p : Prototype} (hp : Flat p) {a b : List (PyVal × PyVal)} (h : Items a b) (hv : genericDictValidator (.dict a) p = true) :
    Validators.get b = Validators.get a := by
  have hall : ∀ i ∈ a, Atomic i.2 := by
    intro i hi
    rw [genericDictValidator] at hv
    split at hv
    · cases hv
    · split at hv
      · cases hv
      · have := List.all_eq_true.1 hv i hi
        split at this
        · cases this
        · rename_i typ required hf
          rw [Bool.or_eq_true, Bool.and_eq_true, beq_iff_eq] at this
          rcases this with ⟨h1, -⟩ | h1
          · rw [h1]; trivial
          · cases hk : i.1 with
            | str s =>
              rw [hk] at hf
              exact hp (s, typ, required) (Dict.mem_of_get? (d := p) hf) _ h1
            | _ => rw [hk] at hf; cases hf
  funext k
  have := items_str h k
  cases ha : Validators.get a k with
  | none =>
    rw [ha] at this
    generalize Validators.get b k = y at this
    cases this; rfl
  | some v =>
    rw [ha] at this
    have hat : Atomic v := hall _ (Dict.mem_of_get? ha)
    generalize Validators.get b k = y at this
    cases this with
    | some h => rw [alike_atomic h hat]

theorem flat_nil : Flat [] := fun _ h => nomatch h
theorem flat_cons {k : Str} {t : PyVal → Bool} {r : Bool} {p : Prototype} (ht : ∀ v, t v = true → Atomic v) (hp : Flat p) : Flat ((k, t, r) :: p) := by
  intro x hx v hv
  rcases List.mem_cons.1 hx with rfl | hx
  · exact ht v hv
  · exact hp x hx v hv

/-- Closes the side conditions on flat prototypes. -/
macro "flat" : tactic => `(tactic| repeat (first | exact flat_nil | refine flat_cons (fun _ h => atomic_str h) ?_ | refine flat_cons (fun _ h => atomic_number h) ?_))

theorem flat_guideline : Flat guidelinePrototype := by unfold guidelinePrototype; flat
theorem flat_anchor : Flat anchorPrototype := by unfold anchorPrototype; flat
theorem flat_image : Flat imagePrototype := by unfold imagePrototype; flat

theorem image_respects (E : Env) : Respects (writeImage E true) := by
  intro v w h
  unfold writeImage
  rw [respects_image E.F v w h]
  cases hi : imageValidator E.F w with
  | false => rfl
  | true =>
    rw [← respects_image E.F v w h] at hi
    have hv := view h
    clear h
    cases hv with
    | dict a b h =>
      have : genericDictValidator (.dict a) imagePrototype = true := by
        unfold imageValidator at hi
        split at hi
        · cases hi
        · rename_i hg; simpa using hg
      have hget := flat_get flat_image h this
      have ht : ∀ l, imageTransformation E b l = imageTransformation E a l := by
        intro l
        induction l with
        | nil => rfl
        | cons x l ih => rw [imageTransformation, imageTransformation, hget, ih]
      simp only [hget, ht]
    | _ => rfl

theorem entries_alike (E : Env) {check : PyVal → Bool} {tag : Str} {attrs : List (PyVal × PyVal) → Except Exc (List (Str × PyVal))}
    (hc : ∀ a b, check (.dict a) = true → Items a b → Validators.get b = Validators.get a ∧ attrs b = attrs a)
    {l m : List PyVal} (h : List.Forall₂ Alike l m) : ∀ (ids : List Str) (seen : List Str), (entriesValidator check seen l).1 = true →
      entryElements E true tag attrs ids l = entryElements E true tag attrs ids m := by
  induction h with
  | nil => intro ids seen _; rfl
  | @cons v w l m h _ ih =>
    intro ids seen hv
    have hh := view h
    clear h
    cases hh with
    | dict a b h =>
      rw [entriesValidator] at hv
      split at hv
      · cases hv
      · rename_i hck
        simp only [Bool.not_eq_true, Bool.not_eq_false'] at hck
        obtain ⟨h1, h2⟩ := hc a b hck h
        have hrest : ∃ seen, (entriesValidator check seen l).1 = true := by
          split at hv
          · exact ⟨_, hv⟩
          · split at hv
            · cases hv
            · exact ⟨_, hv⟩
          · cases hv
        obtain ⟨s, hs⟩ := hrest
        rw [entryElements, entryElements, h1, h2]
        simp only [ih _ s hs]
    | atom v ha => cases v <;> first | rfl | exact ha.elim
    | list => rfl
    | tuple => rfl

theorem guidelines_alike (E : Env) (ids : List Str) {v w : PyVal} (h : Alike v w) : writeGuidelines E true ids v = writeGuidelines E true ids w := by
  unfold writeGuidelines
  rw [respects_guidelines E.F [] v w h]
  cases hg : (guidelinesValidator E.F [] w).1 with
  | false => rfl
  | true =>
    rw [← respects_guidelines E.F [] v w h] at hg
    have hv := view h
    clear h
    cases hv with
    | list a b h =>
      dsimp only [iter]
      refine entries_alike E (check := guidelineValidator E.F) (fun a b hc hi => ?_) h ids [] hg
      have : genericDictValidator (.dict a) guidelinePrototype = true := by
        unfold guidelineValidator at hc
        split at hc
        · cases hc
        · rename_i hg; simpa using hg
      have hget := flat_get flat_guideline hi this
      exact ⟨hget, by simp only [guidelineAttrs, hget]⟩
    | atom v ha => cases v <;> first | cases hg | exact ha.elim
    | tuple => cases hg
    | dict => cases hg

theorem anchor_get {F : FloatCodec} {a b : List (PyVal × PyVal)} (hc : anchorValidator F (.dict a) = true) (hi : Items a b) : Validators.get b = Validators.get a := by
  have : genericDictValidator (.dict a) anchorPrototype = true := by
    unfold anchorValidator at hc
    split at hc
    · cases hc
    · rename_i hg; simpa using hg
  exact flat_get flat_anchor hi this

theorem anchors_alike (E : Env) (ids : List Str) {v w : PyVal} (h : Alike v w) : writeAnchors E true ids v = writeAnchors E true ids w := by
  unfold writeAnchors
  rw [respects_anchors E.F [] v w h]
  cases hg : (anchorsValidator E.F [] w).1 with
  | false => rfl
  | true =>
    rw [← respects_anchors E.F [] v w h] at hg
    have hv := view h
    clear h
    cases hv with
    | list a b h =>
      dsimp only [iter]
      refine entries_alike E (check := anchorValidator E.F) (fun a b hc hi => ?_) h ids [] hg
      have hget := anchor_get hc hi
      exact ⟨hget, by simp only [anchorAttrs, hget]⟩
    | atom v ha => cases v <;> first | cases hg | exact ha.elim
    | tuple => cases hg
    | dict => cases hg

theorem anchorCalls_alike (F : FloatCodec) {l m : List PyVal} (h : List.Forall₂ Alike l m) : ∀ seen, (entriesValidator (anchorValidator F) seen l).1 = true →
    anchorCalls l = anchorCalls m := by
  induction h with
  | nil => intro seen _; rfl
  | @cons v w l m h _ ih =>
    intro seen hv
    have hh := view h
    clear h
    cases hh with
    | dict a b h =>
      rw [entriesValidator] at hv
      split at hv
      · cases hv
      · rename_i hck
        simp only [Bool.not_eq_true, Bool.not_eq_false'] at hck
        have h1 := anchor_get hck h
        have hrest : ∃ seen, (entriesValidator (anchorValidator F) seen l).1 = true := by
          split at hv
          · exact ⟨_, hv⟩
          · split at hv
            · cases hv
            · exact ⟨_, hv⟩
          · cases hv
        obtain ⟨s, hs⟩ := hrest
        rw [anchorCalls, anchorCalls, h1]
        simp only [ih s hs]
    | atom v ha => cases v <;> first | rfl | exact ha.elim
    | list => rfl
    | tuple => rfl

theorem anchors1_alike (E : Env) (s : Pen) {v w : PyVal} (h : Alike v w) : writeAnchorsFormat1 E true s v = writeAnchorsFormat1 E true s w := by
  unfold writeAnchorsFormat1
  rw [respects_anchors E.F [] v w h]
  cases hg : (anchorsValidator E.F [] w).1 with
  | false => rfl
  | true =>
    rw [← respects_anchors E.F [] v w h] at hg
    have hv := view h
    clear h
    cases hv with
    | list a b h =>
      dsimp only [iter]
      rw [anchorCalls_alike E.F h [] hg]
    | atom v ha => cases v <;> first | cases hg | exact ha.elim
    | tuple => cases hg
    | dict => cases hg

theorem drawn_alike (E : Env) (fv : Nat) (ids : List Str) {v w : PyVal} (h : Alike v w) (draw : Option (List Call)) :
    drawn E true fv ids v draw = drawn E true fv ids w draw := by
  cases draw with
  | none => rfl
  | some cs => simp only [drawn, writeOutline, respects_truthy v w h, anchors1_alike E _ h]

theorem head_alike (E : Env) (fv : Nat) {o p : Obj} (h : AlikeObj o p) (hu : ∀ d, o c!"unicodes" ≠ some (.dict d)) : writeHead E true fv o = writeHead E true fv p := by
  have hud : ∀ d, o.attr c!"unicodes" ≠ .dict d := by
    intro d he
    unfold Obj.attr at he
    cases ho : o c!"unicodes" with
    | none => rw [ho] at he; cases he
    | some v => rw [ho] at he; exact hu d (by rw [ho]; exact congrArg some he)
  unfold writeHead writeAdvance
  rw [advance_respects _ _ (attr_alike h c!"width"), advance_respects _ _ (attr_alike h c!"height"), respects_truthy _ _ (attr_alike h c!"unicodes"),
    writeUnicodes_alike E (attr_alike h c!"unicodes") hud, respects_truthy _ _ (attr_alike h c!"note"), note_respects E _ _ (attr_alike h c!"note"),
    respects_truthy _ _ (attr_alike h c!"image"), image_respects E _ _ (attr_alike h c!"image"),
    respects_truthy _ _ (attr_alike h c!"guidelines"), guidelines_alike E _ (attr_alike h c!"guidelines"), respects_truthy _ _ (attr_alike h c!"anchors")]
  simp only [anchors_alike E _ (attr_alike h c!"anchors")]

/-! ### lib -/

theorem glyphLib_ok (F : FloatCodec) : ∀ d : List (PyVal × PyVal), glyphLibItems F d = .ok true ↔
    d.all (fun i => isStr i.1 && (if i.1 = .str c!"public.markColor" then colorValidator F i.2 else true)) = true
  | [] => by simp [glyphLibItems]
  | (k, v) :: d => by
    have ih := glyphLib_ok F d
    cases k with
    | str s =>
      rw [glyphLibItems, List.all_cons]
      by_cases hs : s = c!"public.markColor"
      · rw [if_pos hs, hs]
        cases hc : colorValidator F v with
        | false => simp [isStr]
        | true => simpa [isStr, hc] using ih
      · rw [if_neg hs]
        simpa [isStr, hs] using ih
    | tuple l =>
      rw [glyphLibItems]
      split <;> simp [isStr]
    | _ => simp [glyphLibItems, isStr]

theorem lib_result (E : Env) (validate : Bool) {v w : PyVal} (h : Alike v w) : SameResult (writeLib E validate v) (writeLib E validate w) := by
  have hs := h
  have hv := view h
  clear h
  cases hv with
  | atom v => rfl
  | list => cases validate <;> rfl
  | tuple => cases validate <;> rfl
  | dict a b h =>
    have ht : Plist.totree E.F E.lxml true 2 (.dict a) = Plist.totree E.F E.lxml true 2 (.dict b) := (Plist.same_tree E.F E.lxml true hs.2 hs.1).2 2
    have hg : glyphLibValidator E.F (.dict a) = .ok true ↔ glyphLibValidator E.F (.dict b) = .ok true := by
      rw [glyphLibValidator, glyphLibValidator, glyphLib_ok, glyphLib_ok, items_all h]
      intro k v w ha
      simp only [respects_color E.F v w ha]
    unfold writeLib SameResult
    cases validate with
    | false =>
      simp only [Bool.false_eq_true, if_false, ht]
    | true =>
      simp only [if_true, ht]
      rcases h1 : glyphLibValidator E.F (.dict a) with e | (_ | _) <;> rcases h2 : glyphLibValidator E.F (.dict b) with e' | (_ | _) <;>
        first
          | rfl
          | (have := hg.1 h1; rw [h2] at this; cases this)
          | (have := hg.2 h2; rw [h1] at this; cases this)

/-- Same results, in both cases. -/
theorem sameResult_cases {α : Type} {x y : Except Exc α} (h : SameResult x y) : (∃ a, x = .ok a ∧ y = .ok a) ∨ ∃ e e', x = .error e ∧ y = .error e' := by
  unfold SameResult at h
  rcases x with e | a <;> rcases y with e' | b
  · exact .inr ⟨e, e', rfl, rfl⟩
  · cases h
  · cases h
  · exact .inl ⟨a, rfl, by cases h; rfl⟩

theorem oneIf_result (b : Bool) {x y : Except Exc Elem} (h : SameResult x y) : SameResult (oneIf b x) (oneIf b y) := by
  cases b with
  | false => rfl
  | true =>
    rcases sameResult_cases h with ⟨a, rfl, rfl⟩ | ⟨e, e', rfl, rfl⟩ <;> rfl

theorem tree_result {E : Env} {validate : Bool} {fv : Nat} {name : PyVal} {o p : Obj} {draw : Option (List Call)}
    (h1 : writeHead E validate fv o = writeHead E validate fv p) (h2 : ∀ ids, drawn E validate fv ids (o.attr c!"anchors") draw = drawn E validate fv ids (p.attr c!"anchors") draw)
    (h3 : Alike (o.attr c!"lib") (p.attr c!"lib")) : SameResult (writeGlyphTree E validate fv name o draw) (writeGlyphTree E validate fv name p draw) := by
  unfold writeGlyphTree
  rw [h1, respects_truthy _ _ h3]
  split
  · rfl
  · rcases attrTexts E [(c!"name", name), (c!"format", .str (natRepr fv))] with e | attrs
    · rfl
    · rcases writeHead E validate fv p with e | ⟨head, ids⟩
      · rfl
      · dsimp only
        rw [h2]
        rcases drawn E validate fv ids (p.attr c!"anchors") draw with e | outline
        · rfl
        · dsimp only
          rcases sameResult_cases (oneIf_result (Glif.truthy (p.attr c!"lib")) (lib_result E validate h3)) with ⟨a, ha, hb⟩ | ⟨e, e', ha, hb⟩
          · rw [ha, hb]; rfl
          · rw [ha, hb]; rfl

theorem bytes_result {E : Env} {validate : Bool} {fv : Nat} {name : PyVal} {o p : Obj} {draw : Option (List Call)}
    (h : SameResult (writeGlyphTree E validate fv name o draw) (writeGlyphTree E validate fv name p draw)) :
    SameResult (GlifFile.writeGlyphToBytes E validate fv name o draw) (GlifFile.writeGlyphToBytes E validate fv name p draw) := by
  unfold GlifFile.writeGlyphToBytes
  rcases sameResult_cases h with ⟨a, ha, hb⟩ | ⟨e, e', ha, hb⟩
  · rw [ha, hb]; rfl
  · rw [ha, hb]; rfl

end Verif.Order
