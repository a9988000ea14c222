import Verif.Proofs.GlifRewriteHead
/-! Writing what was read from a written glyph gives the same tree. -/
namespace Verif.Glif
open Verif Verif.Validators Verif.Spec.Validators Verif.Spec.Glif

/-! ### Tuples and lists are written alike -/

mutual
theorem makeElement_untuple (F : FloatCodec) (lxml pretty : Bool) (indent : Nat) : ∀ v : PyVal,
    Plist.makeElement F lxml pretty indent (Spec.Plist.untuple v) = Plist.makeElement F lxml pretty indent v
  | .list l => by rw [Spec.Plist.untuple, Plist.makeElement, Plist.makeElement, makeList_untuple F lxml pretty _ l]
  | .tuple l => by rw [Spec.Plist.untuple, Plist.makeElement, Plist.makeElement, makeList_untuple F lxml pretty _ l]
  | .dict d => by rw [Spec.Plist.untuple, Plist.makeElement, Plist.makeElement, makeValues_untuple F lxml pretty _ d]
  | .str _ => rfl
  | .bool _ => rfl
  | .int _ => rfl
  | .float _ => rfl
  | .date _ => rfl
  | .bytes _ => rfl
  | .none => rfl
  | .other _ => rfl
theorem makeList_untuple (F : FloatCodec) (lxml pretty : Bool) (indent : Nat) : ∀ l : List PyVal,
    Plist.makeList F lxml pretty indent (Spec.Plist.untupleList l) = Plist.makeList F lxml pretty indent l
  | [] => rfl
  | v :: l => by rw [Spec.Plist.untupleList, Plist.makeList, Plist.makeList, makeElement_untuple F lxml pretty indent v, makeList_untuple F lxml pretty indent l]
theorem makeValues_untuple (F : FloatCodec) (lxml pretty : Bool) (indent : Nat) : ∀ d : List (PyVal × PyVal),
    Plist.makeValues F lxml pretty indent (Spec.Plist.untupleItems d) = Plist.makeValues F lxml pretty indent d
  | [] => rfl
  | (k, v) :: l => by rw [Spec.Plist.untupleItems, Plist.makeValues, Plist.makeValues, makeElement_untuple F lxml pretty indent v, makeValues_untuple F lxml pretty indent l]
end

mutual
theorem wellFormed_untuple : ∀ {v : PyVal}, Spec.Plist.WellFormed v → Spec.Plist.WellFormed (Spec.Plist.untuple v)
  | .list _, h => wellFormedList_untuple h
  | .tuple _, h => wellFormedList_untuple h
  | .dict d, h => by
    rw [Spec.Plist.untuple, Spec.Plist.WellFormed]
    refine ⟨?_, wellFormedItems_untuple h.2⟩
    have h1 := h.1
    rw [show (Spec.Plist.untupleItems d).map Prod.fst = d.map Prod.fst from untupleItems_keys d]
    exact h1
  | .str _, h => h
  | .bool _, h => h
  | .int _, h => h
  | .float _, h => h
  | .date _, h => h
  | .bytes _, h => h
  | .none, h => h
  | .other _, h => h
theorem wellFormedList_untuple : ∀ {l : List PyVal}, Spec.Plist.WellFormedList l → Spec.Plist.WellFormedList (Spec.Plist.untupleList l)
  | [], h => h
  | _ :: _, h => ⟨wellFormed_untuple h.1, wellFormedList_untuple h.2⟩
theorem wellFormedItems_untuple : ∀ {d : List (PyVal × PyVal)}, Spec.Plist.WellFormedItems d → Spec.Plist.WellFormedItems (Spec.Plist.untupleItems d)
  | [], h => h
  | (_, _) :: _, h => ⟨wellFormed_untuple h.1, wellFormedItems_untuple h.2⟩
theorem untupleItems_keys : ∀ (d : List (PyVal × PyVal)), (Spec.Plist.untupleItems d).map Prod.fst = d.map Prod.fst
  | [] => rfl
  | (k, v) :: d => by rw [Spec.Plist.untupleItems, List.map_cons, List.map_cons, untupleItems_keys d]
end

theorem totree_same {F : FloatCodec} {lxml pretty : Bool} {indent : Nat} {v w : PyVal} (hv : Spec.Plist.WellFormed v) (h : Spec.Plist.Same (Spec.Plist.untuple v) w) :
    Plist.totree F lxml pretty indent w = Plist.totree F lxml pretty indent v := by
  rw [Plist.totree, Plist.totree, ← (Plist.same_tree F lxml pretty h (wellFormed_untuple hv)).2, makeElement_untuple]

theorem sameList_length : ∀ {a b : List PyVal}, Spec.Plist.SameList a b → b.length = a.length
  | _, _, .nil => rfl
  | _, _, .cons _ _ _ _ _ h => by rw [List.length_cons, List.length_cons, sameList_length h]

theorem sameItems_length : ∀ {a b : List (PyVal × PyVal)}, Spec.Plist.SameItems a b → b.length = a.length
  | _, _, .nil => rfl
  | _, _, .cons _ _ _ _ _ _ h => by rw [List.length_cons, List.length_cons, sameItems_length h]
  | _, _, .swap _ _ _ => rfl
  | _, _, .trans _ _ _ h h' => by rw [sameItems_length h', sameItems_length h]

theorem isEmpty_length {α β : Type} {a : List α} {b : List β} (h : b.length = a.length) : b.isEmpty = a.isEmpty := by
  cases a <;> cases b <;> simp_all

theorem truthy_same {v w : PyVal} (h : Spec.Plist.Same (Spec.Plist.untuple v) w) : truthy w = truthy v := by
  generalize hu : Spec.Plist.untuple v = u at h
  have h1 : truthy u = truthy v := by
    rw [← hu]
    cases v with
    | list l => cases l <;> rfl
    | tuple l => cases l <;> rfl
    | dict l => cases l <;> rfl
    | _ => rfl
  rw [← h1]
  cases h with
  | refl => rfl
  | list a b h => rw [truthy, truthy, isEmpty_length (sameList_length h)]
  | tuple a b h => rw [truthy, truthy, isEmpty_length (sameList_length h)]
  | dict a b h => rw [truthy, truthy, isEmpty_length (sameItems_length h)]

/-! ### Advance and unicodes -/

theorem advanceValue_same {v w : PyVal} (hv : PrintableOrNone v) (hw : PrintableOrNone w) (h : SameNumber (.int 0) (orZero v) (orZero w)) : advanceValue true w = advanceValue true v := by
  have key : ∀ {v}, PrintableOrNone v → advanceValue true v = .ok (if PyVal.pyEq (orZero v) (.int 0) = true then .none else v) := by
    intro v hv
    rcases hv with rfl | ⟨i, rfl⟩ | ⟨f, rfl⟩
    · rfl
    · rw [advanceValue, show orZero (.int i) = .int i from rfl]
      · simp only [isNumber, Bool.not_true, Bool.and_false, Bool.false_eq_true, if_false]
        split <;> rfl
      · nofun
    · rw [advanceValue, show orZero (.float f) = .float f from rfl]
      · simp only [isNumber, Bool.not_true, Bool.and_false, Bool.false_eq_true, if_false]
        split <;> rfl
      · nofun
  rw [key hv, key hw]
  rcases h with h | ⟨h1, h2⟩
  · rw [h]
    split
    · rfl
    next hne =>
    congr 1
    rw [orZero, orZero] at h
    split at h
    · split at h
      next h1 h2 => rw [h1, h2]
      next h1 h2 =>
      exfalso; apply hne; rw [orZero, if_neg h2, ← h]; rfl
    · split at h
      next h1 h2 =>
        exfalso; apply hne; rw [orZero, if_pos h2]; rfl
      next h1 h2 => exact h.symm
  · rw [h1, h2]
    rfl

theorem unicodeElements_filter (E : Env) {i : Int} : ∀ {l : List Int} {seen : List Int}, i ∈ seen →
    unicodeElements E true seen ((l.filter fun j => decide (j ≠ i)).map fun j => .int j) = unicodeElements E true seen (l.map fun j => .int j)
  | [], _, _ => rfl
  | j :: l, seen, h => by
    by_cases hj : j = i
    · rw [List.filter_cons_of_neg (by simp [hj]), unicodeElements_filter E h, List.map_cons, unicodeElements]
      rw [if_neg (by simp [isInt]), if_pos (by rw [intOf, hj]; exact h)]
    · rw [List.filter_cons_of_pos (by simp [hj]), List.map_cons, List.map_cons, unicodeElements, unicodeElements]
      rw [unicodeElements_filter E h, unicodeElements_filter E (List.mem_append_left _ h)]

theorem unicodeElements_firsts (E : Env) : ∀ {l : List Int} {seen : List Int},
    unicodeElements E true seen ((firsts l).map fun j => .int j) = unicodeElements E true seen (l.map fun j => .int j)
  | [], _ => rfl
  | i :: l, seen => by
    rw [firsts, List.map_cons, List.map_cons, unicodeElements, unicodeElements]
    rw [show intOf (.int i) = i from rfl]
    by_cases hi : i ∈ seen
    · rw [if_pos hi, if_pos hi, unicodeElements_filter E hi, unicodeElements_firsts E]
    · rw [if_neg hi, if_neg hi, unicodeElements_filter E (by simp), unicodeElements_firsts E]

theorem unicodeElements_ints (E : Env) {l : List PyVal} {is : List Int} (h : List.Forall₂ IsInt l is) : ∀ {seen : List Int},
    unicodeElements E true seen (is.map fun j => .int j) = unicodeElements E true seen l := by
  induction h with
  | nil => intro _; rfl
  | @cons v i l is hv hl ih =>
    intro seen
    have h1 : isInt v = true ∧ intOf v = i := by rcases hv with rfl | ⟨rfl, rfl⟩ | ⟨rfl, rfl⟩ <;> exact ⟨rfl, rfl⟩
    rw [List.map_cons, unicodeElements, unicodeElements, h1.1, h1.2, ih, ih]
    rfl

theorem firsts_nil {is : List Int} : firsts is = [] ↔ is = [] := by cases is <;> simp [firsts]

theorem unicodes_same {E : Env} {v w : PyVal} {is : List Int} (h : Integers v is) (hw : w = if is = [] then .none else .list ((firsts is).map fun i => .int i)) :
    (if truthy w then writeUnicodes E true w else .ok []) = (if truthy v then writeUnicodes E true v else .ok []) := by
  subst hw
  have h2 : ∀ is : List Int, is ≠ [] → (if truthy (.list ((firsts is).map fun i => .int i)) then writeUnicodes E true (.list ((firsts is).map fun i => .int i)) else .ok []) =
      unicodeElements E true [] (is.map fun i => .int i) := by
    intro is hne
    have ht : truthy (.list ((firsts is).map fun i => .int i)) = true := by
      cases is with
      | nil => exact absurd rfl hne
      | cons i is => rfl
    rw [if_pos ht, writeUnicodes, if_neg (by simp [isInt])]
    exact unicodeElements_firsts E
  cases h with
  | none => rfl
  | one _ i hi h0 =>
    rw [if_neg (show ¬([i] = []) by simp), h2 _ (by simp)]
    have hv : truthy v = true ∧ isInt v = true := by
      rcases hi with rfl | ⟨rfl, rfl⟩ | ⟨rfl, rfl⟩
      · exact ⟨by simp [truthy, h0], rfl⟩
      · exact ⟨rfl, rfl⟩
      · exact absurd rfl h0
    rw [if_pos hv.1, writeUnicodes, if_pos (by rw [hv.2]; rfl)]
    exact unicodeElements_ints E (.cons hi .nil)
  | list _ l _ hs hi =>
    have hv : truthy v = !l.isEmpty ∧ isInt v = false ∧ iter v = .ok l := by rcases hs with rfl | rfl <;> exact ⟨rfl, rfl, rfl⟩
    by_cases hne : is = []
    · subst hne
      cases hi
      rw [if_pos rfl, hv.1]
      rfl
    · rw [if_neg hne, h2 _ hne]
      have : l ≠ [] := by rintro rfl; cases hi; exact hne rfl
      rw [if_pos (by rw [hv.1]; simpa using this), writeUnicodes, if_neg (by rw [hv.2.1]; simp), hv.2.2]
      exact unicodeElements_ints E hi

/-! ### Note and image -/

theorem note_same {E : Env} {v w : PyVal} {l : List Elem} (h : oneIf (truthy v) (writeNote E true v) = .ok l) (hn : noteText w = noteText v) (hw : w = .none ∨ ∃ s, w = .str s) :
    oneIf (truthy w) (writeNote E true w) = .ok l := by
  have hw' : truthy w = !(noteText w).isEmpty := by rcases hw with rfl | ⟨s, rfl⟩ <;> rfl
  cases hv : truthy v with
  | false =>
    have : noteText v = [] := by
      cases v with
      | str s => rw [truthy, Bool.not_eq_false'] at hv; exact List.isEmpty_iff.1 hv
      | _ => rfl
    rw [hw', hn, this]
    rw [hv] at h
    exact h
  | true =>
    rw [hv] at h
    cases v with
    | str s =>
      have hs : s ≠ [] := by rintro rfl; cases hv
      have : w = .str s := by
        rcases hw with rfl | ⟨t, rfl⟩
        · exact absurd hn.symm hs
        · exact congrArg PyVal.str hn
      rw [this, hv]
      exact h
    | _ => cases h

theorem getVal_same {d d' : List (PyVal × PyVal)} (hd : (d.map Prod.fst).Nodup) (hd' : (d'.map Prod.fst).Nodup) {k : Str} (h : ∀ v, Field d k v ↔ Field d' k v) :
    getVal d' k = getVal d k := by
  apply Option.ext
  intro v
  rw [getVal_iff hd, getVal_iff hd', h]

theorem getD_getVal (d : List (PyVal × PyVal)) (k : Str) : (get d k).getD .none = (getVal d k).getD .none := by
  rw [getVal]
  rcases get d k with _ | v
  · rfl
  · cases v <;> rfl

theorem getD_same {d d' : List (PyVal × PyVal)} (hd : (d.map Prod.fst).Nodup) (hd' : (d'.map Prod.fst).Nodup) {k : Str} (h : ∀ v, Field d k v ↔ Field d' k v) :
    (get d' k).getD .none = (get d k).getD .none := by
  rw [getD_getVal, getD_getVal, getVal_same hd hd' h]

theorem pyEq_int (i : Int) : PyVal.pyEq (.int i) (.int i) = true := by simp [PyVal.pyEq, PyVal.num?, Flt.eq]

theorem imageTransformation_same {E : Env} {d d' : List (PyVal × PyVal)} (hd : (d.map Prod.fst).Nodup) (hd' : (d'.map Prod.fst).Nodup) : ∀ {info : List (Str × Int)},
    (∀ k i, (k, i) ∈ info → ∀ w, (PyVal.str k, w) ∈ d → w ≠ .none) →
    (∀ k i, (k, i) ∈ info → ∃ v, Field d' k v ∧ ((∃ w, Field d k w ∧ SameNumber (.int i) w v) ∨ (Absent d k ∧ v = .int i))) →
    imageTransformation E d' (info.map fun p => (p.1, .int p.2)) = imageTransformation E d (info.map fun p => (p.1, .int p.2))
  | [], _, _ => rfl
  | (k, i) :: info, h1, h2 => by
    have ih := imageTransformation_same (E := E) hd hd' (info := info) (fun k i h => h1 k i (List.mem_cons_of_mem _ h)) (fun k i h => h2 k i (List.mem_cons_of_mem _ h))
    rw [List.map_cons, imageTransformation, imageTransformation, ih]
    obtain ⟨v, hv, h3⟩ := h2 k i (by simp)
    have hg : (get d' k).getD (.int i) = v := by rw [get_of_mem hd' hv.1]; rfl
    have hs : SameNumber (.int i) ((get d k).getD (.int i)) v := by
      rcases h3 with ⟨w, hw, h3⟩ | ⟨h3, rfl⟩
      · rw [get_of_mem hd hw.1]; exact h3
      · refine .inl ?_
        rcases hk : get d k with _ | w
        · rfl
        · exact absurd ⟨mem_of_get hk, h1 k i (by simp) w (mem_of_get hk)⟩ (h3 w)
    dsimp only
    rw [hg]
    rcases hs with hs | ⟨rfl, hs⟩
    · rw [hs]
    · rw [if_pos hs, if_pos (pyEq_int i)]

theorem attrTexts_strs {E : Env} : ∀ {l : List (Str × PyVal)} {a : Dict Str Str}, attrTexts E l = .ok a → ∀ p ∈ l, ∃ s, p.2 = .str s
  | [], _, _ => by simp
  | (k, v) :: l, a, h => by
    rw [attrTexts] at h
    split at h
    · cases h
    next s hs =>
    split at h
    · cases h
    next d hd =>
    rw [List.forall_mem_cons]
    refine ⟨?_, attrTexts_strs hd⟩
    cases v with
    | str s => exact ⟨s, rfl⟩
    | _ => cases hs

theorem writeImage_same {E : Env} {d d' : List (PyVal × PyVal)} {e : Elem} (hd : (d.map Prod.fst).Nodup) (hd' : (d'.map Prod.fst).Nodup)
    (hn : ∀ k i w, (k, i) ∈ transformation → (PyVal.str k, w) ∈ d → Printable w) (hv : imageValidator E.F (.dict d') = true) (hs : SameImage d d')
    (h : writeImage E true (.dict d) = .ok e) : writeImage E true (.dict d') = .ok e := by
  rw [writeImage] at h ⊢
  rw [if_neg (by simp [hv])]
  split at h
  · cases h
  split at h
  · cases h
  next fn hfn =>
  have hstr : ∃ s, fn = .str s := by
    rw [newElement] at h
    cases ha : attrTexts E ((c!"fileName", fn) :: imageTransformation E d transformationInfo ++ optional c!"color" ((get d c!"color").getD .none)) with
    | error e => rw [ha] at h; cases h
    | ok a => exact attrTexts_strs ha (c!"fileName", fn) (by simp)
  have hf : Field d' c!"fileName" fn := (hs.text _ _ (.inl rfl)).1 ⟨mem_of_get hfn, by obtain ⟨s, rfl⟩ := hstr; nofun⟩
  rw [get_of_mem hd' hf.1]
  dsimp only
  rw [getD_same hd hd' (fun v => hs.text c!"color" v (.inr rfl))]
  have ht : transformationInfo = transformation.map fun p => (p.1, .int p.2) := rfl
  rw [ht] at h ⊢
  rw [imageTransformation_same hd hd' (fun k i hk w hw => by rcases hn k i w hk hw with ⟨j, rfl⟩ | ⟨f, rfl⟩ <;> nofun) (fun k i hk => hs.numbers k i hk)]
  exact h

theorem image_same {E : Env} {v w : PyVal} {l : List Elem} (hd : DictKeys v) (hn : ∀ d, v = .dict d → ∀ k i w, (k, i) ∈ transformation → (PyVal.str k, w) ∈ d → Printable w)
    (hw : w = .none ∨ ∃ d, w = .dict d ∧ imageValidator E.F (.dict d) = true ∧ FineEntry (transformationInfo.map Prod.fst) d)
    (hs : (truthy v = false ∧ w = .none) ∨ ∃ d d', v = .dict d ∧ w = .dict d' ∧ SameImage d d')
    (h : oneIf (decide (2 ≤ 2) && truthy v) (writeImage E true v) = .ok l) : oneIf (decide (2 ≤ 2) && truthy w) (writeImage E true w) = .ok l := by
  rcases hs with ⟨h1, rfl⟩ | ⟨d, d', rfl, rfl, hs⟩
  · rw [h1] at h
    exact h
  · rcases hw with hw | ⟨e, he, h2, h3⟩
    · cases hw
    cases he
    obtain ⟨v, hv, -⟩ := hs.numbers c!"xScale" 1 (by decide)
    have ht : truthy (.dict d') = true := by
      cases d' with
      | nil => exact absurd hv.1 (by simp)
      | cons => rfl
    have ht' : truthy (.dict d) = true := by
      cases d with
      | cons => rfl
      | nil =>
        obtain ⟨f, hf⟩ : ∃ f, Field d' c!"fileName" f := by
          obtain ⟨d'', hd'', hfields, -⟩ := (image_iff (v := .dict d') (fun d hd => by cases hd; exact h3.keys)).1 h2
          cases hd''
          obtain ⟨f, hf⟩ := hfields.present (c!"fileName", IsString) (by simp)
          refine ⟨f, hf, ?_⟩
          obtain ⟨k, -, ⟨-, h⟩ | ⟨-, t, h, -⟩⟩ := h3.values _ hf
          · rcases h with ⟨j, h⟩ | ⟨g, h⟩ <;> (dsimp only at h; rw [h]; nofun)
          · dsimp only at h; rw [h]; nofun
        exact absurd ((hs.text _ _ (.inl rfl)).2 hf).1 (by simp)
    rw [ht'] at h
    rw [ht]
    rw [oneIf, if_pos (by rfl)] at h ⊢
    cases hx : writeImage E true (.dict d) with
    | error e => rw [hx] at h; cases h
    | ok e =>
      rw [writeImage_same (hd _ rfl) h3.keys (hn _ rfl) h2 hs hx, ← hx]
      exact h

/-! ### Guidelines and anchors -/

theorem entryElements_same {E : Env} {tag : Str} {f : List (PyVal × PyVal) → Except Exc (List (Str × PyVal))} {l l' : List PyVal} (hs : SameDicts l l') :
    ∀ {ids : List Str} {r : List Elem × List Str}, (∀ v ∈ l, DictKeys v) → (∀ v ∈ l', DictKeys v) →
    (∀ d d', PyVal.dict d ∈ l → PyVal.dict d' ∈ l' → (d.map Prod.fst).Nodup → (d'.map Prod.fst).Nodup → SameFields d d' → f d' = f d) →
    entryElements E true tag f ids l = .ok r → entryElements E true tag f ids l' = .ok r := by
  induction hs with
  | nil => intro ids r _ _ _ h; exact h
  | @cons v w l l' hvw _ ih =>
    intro ids r hk hk' hf h
    obtain ⟨d, d', rfl, rfl, hsame⟩ := hvw
    rw [List.forall_mem_cons] at hk hk'
    have hd := hk.1 d rfl
    have hd' := hk'.1 d' rfl
    rw [entryElements] at h ⊢
    rw [hf d d' (by simp) (by simp) hd hd' hsame, getD_same hd hd' (hsame c!"identifier")]
    split at h
    · cases h
    split at h
    · cases h
    split at h
    · cases h
    split at h
    · cases h
    next h1 =>
    rw [ih hk.2 hk'.2 (fun d d' h h' => hf d d' (List.mem_cons_of_mem _ h) (List.mem_cons_of_mem _ h')) h1]
    exact h

theorem guidelineAttrs_same {E : Env} {d d' : List (PyVal × PyVal)} (hd : (d.map Prod.fst).Nodup) (hd' : (d'.map Prod.fst).Nodup) (h : SameFields d d') :
    guidelineAttrs E d' = guidelineAttrs E d := by
  simp only [guidelineAttrs, getD_same hd hd' (h _)]

theorem anchorAttrs_same {E : Env} {d d' : List (PyVal × PyVal)} (hd : (d.map Prod.fst).Nodup) (hd' : (d'.map Prod.fst).Nodup) (ha : Anchor E.F d') (h : SameFields d d') :
    anchorAttrs E d' = anchorAttrs E d := by
  obtain ⟨x, hx⟩ := ha.x
  obtain ⟨y, hy⟩ := ha.y
  simp only [anchorAttrs, getD_same hd hd' (h _)]
  rw [get_of_mem hd' hx.1, get_of_mem hd' hy.1, get_of_mem hd ((h _ _).2 hx).1, get_of_mem hd ((h _ _).2 hy).1]

theorem truthy_items {v : PyVal} (hv : v = .none ∨ ∃ l, v = .list l) : truthy v = !(listItems v).isEmpty := by rcases hv with rfl | ⟨l, rfl⟩ <;> rfl

theorem sameDicts_isEmpty {l l' : List PyVal} (h : SameDicts l l') : l'.isEmpty = l.isEmpty := by cases h <;> rfl

/-- Lists that are written are lists. -/
theorem isList_of_items {v : PyVal} (h : v = .none ∨ ∃ l, v = .list l) (ht : truthy v = true) : v = .list (listItems v) := by
  rcases h with rfl | ⟨l, rfl⟩
  · cases ht
  · rfl

theorem guidelines_valid {F : FloatCodec} {l : List PyVal} (hl : ∀ v ∈ l, ∃ d, v = .dict d ∧ FineEntry [c!"x", c!"y", c!"angle"] d ∧ Guideline F d) (hn : (identifiers l).Nodup) :
    (guidelinesValidator F [] (.list l)).1 = true := by
  have hv : guidelinesValidator F [] (.list l) = (true, [] ++ identifiers l) :=
    (entries_iff (fun v hv => guideline_iff (F := F) hv) (fun d hd w hw => by obtain ⟨s, h, -⟩ := hd.identifier w hw; exact ⟨s, h⟩) l (fineEntries_keys hl) [] _).2
      ⟨fun v hv => by obtain ⟨d, rfl, -, h⟩ := hl v hv; exact ⟨d, rfl, h⟩, hn, by simp, rfl⟩
  rw [hv]

theorem anchors_valid {F : FloatCodec} {l : List PyVal} (hl : ∀ v ∈ l, ∃ d, v = .dict d ∧ FineEntry [c!"x", c!"y"] d ∧ Anchor F d) (hn : (identifiers l).Nodup) :
    (anchorsValidator F [] (.list l)).1 = true := by
  have hv : anchorsValidator F [] (.list l) = (true, [] ++ identifiers l) :=
    (entries_iff (fun v hv => anchor_iff (F := F) hv) (fun d hd w hw => by obtain ⟨s, h, -⟩ := hd.identifier w hw; exact ⟨s, h⟩) l (fineEntries_keys hl) [] _).2
      ⟨fun v hv => by obtain ⟨d, rfl, -, h⟩ := hl v hv; exact ⟨d, rfl, h⟩, hn, by simp, rfl⟩
  rw [hv]

theorem guidelines_same {E : Env} {v w : PyVal} {r : List Elem × List Str} (hk : ∀ e ∈ listItems v, DictKeys e)
    (hw : w = .none ∨ ∃ l, w = .list l ∧ ∀ e ∈ l, ∃ d, e = .dict d ∧ FineEntry [c!"x", c!"y", c!"angle"] d ∧ Guideline E.F d) (hn : (identifiers (listItems w)).Nodup)
    (hs : SameDicts (listItems v) (listItems w)) (h : (if decide (2 ≤ 2) && truthy v then writeGuidelines E true [] v else .ok ([], [])) = .ok r) :
    (if decide (2 ≤ 2) && truthy w then writeGuidelines E true [] w else .ok ([], [])) = .ok r := by
  have hw' : truthy w = !(listItems w).isEmpty := truthy_items (hw.imp id fun ⟨l, h, _⟩ => ⟨l, h⟩)
  have he := sameDicts_isEmpty hs
  cases hv : truthy v with
  | false =>
    rw [listItems_falsy hv] at he
    rw [hw', he]
    rw [hv] at h
    exact h
  | true =>
    rw [hv, if_pos (by rfl), writeGuidelines] at h
    split at h
    · cases h
    next hval =>
    rw [Bool.true_and, Bool.not_eq_true, Bool.not_eq_false'] at hval
    have hlist : v = .list (listItems v) := by cases v <;> simp [guidelinesValidator] at hval; rfl
    rw [hlist] at h hv
    rw [truthy] at hv
    rw [he, hv] at hw'
    rw [hw', if_pos (by rfl)]
    rcases hw with rfl | ⟨l, rfl, hl⟩
    · cases hw'
    rw [writeGuidelines, if_neg (by rw [guidelines_valid hl hn]; simp)]
    exact entryElements_same hs hk (fineEntries_keys hl) (fun d d' _ _ hd hd' hsame => by rw [guidelineAttrs_same hd hd' hsame]) h

theorem anchors_same {E : Env} {ids : List Str} {v w : PyVal} {r : List Elem × List Str} (hk : ∀ e ∈ listItems v, DictKeys e)
    (hw : w = .none ∨ ∃ l, w = .list l ∧ ∀ e ∈ l, ∃ d, e = .dict d ∧ FineEntry [c!"x", c!"y"] d ∧ Anchor E.F d) (hn : (identifiers (listItems w)).Nodup)
    (hs : SameDicts (listItems v) (listItems w)) (h : (if decide (2 ≤ 2) && truthy v then writeAnchors E true ids v else .ok ([], ids)) = .ok r) :
    (if decide (2 ≤ 2) && truthy w then writeAnchors E true ids w else .ok ([], ids)) = .ok r := by
  have hw' : truthy w = !(listItems w).isEmpty := truthy_items (hw.imp id fun ⟨l, h, _⟩ => ⟨l, h⟩)
  have he := sameDicts_isEmpty hs
  cases hv : truthy v with
  | false =>
    rw [listItems_falsy hv] at he
    rw [hw', he]
    rw [hv] at h
    exact h
  | true =>
    rw [hv, if_pos (by rfl), writeAnchors] at h
    split at h
    · cases h
    next hval =>
    rw [Bool.true_and, Bool.not_eq_true, Bool.not_eq_false'] at hval
    have hlist : v = .list (listItems v) := anchors_list hval
    rw [hlist] at h hv
    rw [truthy] at hv
    rw [he, hv] at hw'
    rw [hw', if_pos (by rfl)]
    rcases hw with rfl | ⟨l, rfl, hl⟩
    · cases hw'
    rw [writeAnchors, if_neg (by rw [anchors_valid hl hn]; simp)]
    exact entryElements_same hs hk (fineEntries_keys hl) (fun d d' _ hm hd hd' hsame => anchorAttrs_same hd hd' (by obtain ⟨d'', h1, -, h2⟩ := hl _ hm; cases h1; exact h2) hsame) h

/-! ### Drawing -/

theorem componentTransformation_same {E : Env} : ∀ {info : List (Str × Int)} {l l' : List PyVal} {r : List (Str × PyVal)},
    List.Forall₂ (fun p w => SameNumber p.1 p.2 w) (((info.map fun p => (p.1, PyVal.int p.2)).map Prod.snd).zip (padInfo (info.map fun p => (p.1, .int p.2)) l)) l' →
    componentTransformation E true (info.map fun p => (p.1, .int p.2)) l = .ok r → componentTransformation E true (info.map fun p => (p.1, .int p.2)) l' = .ok r
  | [], l, l', r, _, h => by
    rw [List.map_nil, componentTransformation] at h ⊢
    · exact h
    · nofun
    · nofun
  | (k, i) :: info, [], l', r, hs, h => by
    rw [List.map_cons, componentTransformation] at h
    · cases h
      simp only [padInfo, List.take_nil, List.length_nil, List.drop_zero, List.nil_append, List.map_cons, List.zip_cons_cons] at hs
      cases hs with
      | @cons _ w _ l' hw hs =>
      have ih := componentTransformation_same (E := E) (info := info) (l := []) (l' := l') (r := []) (by
        simp only [padInfo, List.take_nil, List.length_nil, List.drop_zero, List.nil_append]; exact hs) (by cases info <;> rfl)
      have hw' : w = .int i := by rcases hw with h | ⟨h, -⟩ <;> [exact h.symm; exact h]
      subst hw'
      rw [List.map_cons, componentTransformation, if_neg (by simp [isNumber]), ih]
      dsimp only
      rw [if_pos (pyEq_int i)]
    · nofun
  | (k, i) :: info, v :: l, l', r, hs, h => by
    simp only [padInfo, List.map_cons, List.length_cons, List.take_succ_cons, List.drop_succ_cons, List.cons_append, List.zip_cons_cons] at hs
    cases hs with
    | @cons _ w _ l' hw hs =>
    rw [List.map_cons, componentTransformation] at h ⊢
    split at h
    · cases h
    next hv =>
    split at h
    · cases h
    next rest hrest =>
    cases h
    have ih := componentTransformation_same (E := E) hs hrest
    have hnum : isNumber w = true := by
      rcases hw with h | ⟨h, -⟩
      · dsimp only at h
        rw [← h]
        simpa using hv
      · dsimp only at h
        rw [h]; rfl
    rw [if_neg (by rw [hnum]; simp), ih]
    dsimp only at hw ⊢
    rcases hw with hw | ⟨rfl, hw⟩
    · rw [hw]
    · rw [if_pos hw, if_pos (pyEq_int i)]

theorem coordinates_same {E : Env} {pt x y : PyVal} {rest : List PyVal} (hs : IsSeq pt (x :: y :: rest)) {l : List (Str × PyVal)} (h : coordinates E true pt = .ok l) :
    coordinates E true (.tuple [x, y]) = .ok l := by
  have h1 : pt ≠ .none ∧ seq? pt = some (x :: y :: rest) := by rcases hs with rfl | rfl <;> exact ⟨nofun, rfl⟩
  unfold coordinates at h ⊢
  rw [if_neg h1.1, h1.2] at h
  rw [if_neg (by nofun)]
  simp only [seq?] at h ⊢
  split at h
  · cases h
  next hn =>
  rw [if_neg ?_]
  · exact h
  · simp only [Bool.true_and, List.all_cons, Bool.not_eq_true, Bool.not_eq_false', Bool.and_eq_true, List.all_nil] at hn ⊢
    exact ⟨hn.1, hn.2.1, trivial⟩

theorem addPoint_same {E : Env} {s s' : Pen} {pt x y t t' smooth name i : PyVal} {rest : List PyVal} (hs : IsSeq pt (x :: y :: rest))
    (ht : (if t' = .str c!"offcurve" then .none else t') = (if t = .str c!"offcurve" then .none else t))
    (h : s.addPoint E 2 true pt t smooth name i = (s', none)) : s.addPoint E 2 true (.tuple [x, y]) t' (.bool (truthy smooth)) name i = (s', none) := by
  unfold Pen.addPoint at h ⊢
  cases hc : coordinates E true pt with
  | error e => rw [hc] at h; cases h
  | ok l =>
    rw [hc] at h
    rw [coordinates_same hs hc, ht]
    exact h

theorem step_same {E : Env} {s s' : Pen} {c c' : Call} (hs : SameCall c c') (h : s.step E 2 true c = (s', none)) : s.step E 2 true c' = (s', none) := by
  cases hs with
  | beginPath => exact h
  | endPath => exact h
  | offcurve pt x y rest t smooth name i hp ht =>
    refine addPoint_same hp ?_ h
    rcases ht with rfl | rfl <;> rfl
  | oncurve pt x y rest t smooth name i hp ht => exact addPoint_same hp rfl h
  | addComponent g t i l l' hq hn =>
    have hq' : seq? t = some l := by rcases hq with rfl | rfl <;> rfl
    unfold Pen.step Pen.addComponent at h ⊢
    simp only [hq'] at h
    simp only [seq?]
    cases hc : componentTransformation E true transformationInfo l with
    | error e => rw [hc] at h; cases h
    | ok r =>
      rw [hc] at h
      have hc' : componentTransformation E true transformationInfo l' = .ok r := componentTransformation_same (info := transformation) hn hc
      rw [hc']
      exact h

theorem draw_same {E : Env} {cs cs' : List Call} (hs : List.Forall₂ SameCall cs cs') : ∀ {s s' : Pen}, s.draw E 2 true cs = .ok s' → s.draw E 2 true cs' = .ok s' := by
  induction hs with
  | nil => intro s s' h; exact h
  | @cons c c' cs cs' hc _ ih =>
    intro s s' h
    rw [Pen.draw] at h ⊢
    split at h
    · cases h
    next t ht =>
    rw [step_same hc ht]
    exact ih h

/-! ### Everything -/

theorem lib_same {E : Env} {v w : PyVal} {l : List Elem} (hv : Spec.Plist.WellFormed v) (hs : (truthy v = false ∧ w = .none) ∨ Spec.Plist.Same (Spec.Plist.untuple v) w)
    (h : oneIf (truthy v) (writeLib E true v) = .ok l) : oneIf (truthy w) (writeLib E true w) = .ok l := by
  rcases hs with ⟨h1, rfl⟩ | hs
  · rw [h1] at h
    exact h
  rw [truthy_same hs]
  cases ht : truthy v with
  | false => rw [ht] at h; exact h
  | true =>
    rw [ht, oneIf, if_pos rfl] at h
    rw [oneIf, if_pos rfl]
    cases hw : writeLib E true v with
    | error e => rw [hw] at h; cases h
    | ok e =>
      rw [hw] at h
      rw [← h]
      congr 1
      unfold writeLib at hw ⊢
      rw [if_pos rfl] at hw ⊢
      split at hw
      · cases hw
      · cases hw
      next hval =>
      rw [glyphLib_same hs hval]
      cases v with
      | dict d =>
        obtain ⟨d', rfl⟩ : ∃ d', w = .dict d' := by
          rw [Spec.Plist.untuple] at hs
          cases hs with
          | refl => exact ⟨_, rfl⟩
          | dict a b h => exact ⟨_, rfl⟩
        dsimp only at hw ⊢
        rw [totree_same hv hs]
        exact hw
      | _ => cases hw

/-- Writing what was read for a glyph that was written gives the same tree. -/
theorem write_same {E : Env} {name : PyVal} {o : Obj} {attrs : Dict Str PyVal} {calls calls' : List Call} {tree : Elem} (ho : Plain true o) (hn : TidyNote (o.attr c!"note"))
    (hf : FineGlyph E.F attrs calls') (hc : List.Forall₂ SameCall calls calls') (hg : SameGlyph name o attrs)
    (h : writeGlyphTree E true 2 name o (some calls) = .ok tree) : writeGlyphTree E true 2 (delivered attrs c!"name") (asObj attrs) (some calls') = .ok tree := by
  have hattr : ∀ k, (asObj attrs).attr k = delivered attrs k := fun _ => rfl
  have hids := hf.ids.nodup
  rw [List.nil_append, List.nodup_append, List.nodup_append] at hids
  unfold writeGlyphTree at h ⊢
  rw [hg.name]
  split at h
  · cases h
  next hname =>
  rw [if_neg hname]
  split at h
  · cases h
  next a ha =>
  split at h
  · cases h
  next head ids hhead =>
  split at h
  · cases h
  next outline hout =>
  split at h
  · cases h
  next lib hlib =>
  have e1 : writeHead E true 2 (asObj attrs) = .ok (head, ids) := by
    unfold writeHead at hhead ⊢
    rw [show writeAdvance E true (asObj attrs) = writeAdvance E true o from by
      rw [writeAdvance, writeAdvance, hattr, hattr, advanceValue_same ho.width hf.width hg.width, advanceValue_same ho.height hf.height hg.height]]
    split at hhead
    · cases hhead
    next adv hadv =>
    obtain ⟨is, his⟩ := ho.unicodes
    rw [hattr, unicodes_same his (hg.unicodes is his)]
    split at hhead
    · cases hhead
    next uni huni =>
    split at hhead
    · cases hhead
    next note hnote =>
    obtain ⟨lines, hl1, hl2⟩ := hn
    rw [hattr, note_same hnote (by rw [hl2]; exact hg.note lines hl1) (hf.note.imp id fun ⟨s, h, _⟩ => ⟨s, h⟩)]
    dsimp only at hhead ⊢
    split at hhead
    · cases hhead
    next image himage =>
    rw [hattr, image_same ho.image ho.imageNumbers hf.image hg.image himage]
    dsimp only at hhead ⊢
    split at hhead
    · cases hhead
    next guides ids1 hguides =>
    rw [hattr, guidelines_same ho.guidelines hf.guidelines hids.1.1 hg.guidelines hguides]
    dsimp only at hhead ⊢
    split at hhead
    · cases hhead
    next anchors ids2 hanchors =>
    rw [hattr, anchors_same ho.anchors hf.anchors hids.1.2.1 hg.anchors hanchors]
    exact hhead
  rw [e1]
  dsimp only
  have e2 : drawn E true 2 ids ((asObj attrs).attr c!"anchors") (some calls') = .ok outline := by
    unfold drawn writeOutline at hout ⊢
    dsimp only at hout ⊢
    cases hd : (Pen.new ids).draw E 2 true calls with
    | error e => rw [hd] at hout; cases hout
    | ok s =>
      rw [hd] at hout
      rw [draw_same hc hd]
      exact hout
  rw [e2]
  dsimp only
  rw [hattr, lib_same ho.lib hg.lib hlib]
  exact h

end Verif.Glif
