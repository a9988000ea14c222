import Verif.Proofs.GlifSame
import Verif.Proofs.GlifScanWrite
import Verif.Proofs.Hex
import Verif.Model.GlifFile
/-! The text of a written glyph is parsed to the tree that was written. -/
namespace Verif.Glif
open Verif Verif.Validators Verif.Spec.Validators Verif.Spec.Glif Verif.Spec.Xml Verif.Xml Verif.Spec.Plist
open Verif.Plist (StrTree StrTrees)

/-- The environment with the lxml backend. -/
def Env.asLxml (E : Env) : Env := { E with lxml := true }

theorem attrText_graph {s : Str} (h : ∀ c ∈ s, isGraph c = true) : AttrText s :=
  ⟨Plist.fileText_graph h, fun hc => absurd (h _ hc) (by decide)⟩

theorem pyRepr_text {E : Env} (h : ReprLaws E) (v : PyVal) : AttrText (pyRepr E v) := by
  unfold pyRepr
  split
  · exact attrText_graph (by decide)
  · exact attrText_graph (by decide)
  · exact attrText_graph (intRepr_graph _)
  · exact attrText_graph (h.lawful.repr_graph _)
  · exact h.other _

theorem goodAttr_of {s : Str} (h : AttrText s) : GoodAttr s := fun c hc =>
  ⟨((Plist.goodText_of h.1).1 c hc).1, ((Plist.goodText_of h.1).1 c hc).2, fun h' => h.2 (h' ▸ hc)⟩

theorem xmlChars_of {s : Str} (h : FileText s) : s.all isXmlChar = true := by
  rw [List.all_eq_true]
  intro c hc
  rw [isXmlChar_eq]
  exact ((Plist.goodText_of h).1 c hc).1

/-- Attribute values that survive. -/
def Vals (attrs : List (Str × PyVal)) : Prop := ∀ p ∈ attrs, ∀ s, p.2 = .str s → AttrText s

theorem vals_nil : Vals [] := by intro p hp; cases hp
theorem vals_cons {k : Str} {v : PyVal} {l : List (Str × PyVal)} (h : ∀ s, v = .str s → AttrText s) (hl : Vals l) : Vals ((k, v) :: l) := by
  intro p hp
  rw [List.mem_cons] at hp
  rcases hp with rfl | hp
  · exact h
  · exact hl p hp
theorem vals_append {a b : List (Str × PyVal)} (h : Vals a) (h' : Vals b) : Vals (a ++ b) := by
  intro p hp
  rcases List.mem_append.1 hp with hp | hp
  · exact h p hp
  · exact h' p hp
theorem vals_optional {k : Str} {v : PyVal} (h : ∀ s, v = .str s → AttrText s) : Vals (optional k v) := by
  unfold optional
  split
  · exact vals_nil
  · exact vals_cons h vals_nil
theorem vals_repr {E : Env} (hE : ReprLaws E) {k : Str} {v : PyVal} {l : List (Str × PyVal)} (hl : Vals l) : Vals ((k, .str (pyRepr E v)) :: l) :=
  vals_cons (fun s hs => by cases hs; exact pyRepr_text hE v) hl
theorem vals_optionalRepr {E : Env} (hE : ReprLaws E) {k : Str} {v : PyVal} : Vals (optionalRepr E k v) := by
  unfold optionalRepr
  split
  · exact vals_nil
  · exact vals_repr hE vals_nil

theorem sub_optional (k : Str) (v : PyVal) : ((optional k v).map Prod.fst).Sublist [k] := by
  unfold optional
  split
  · exact List.nil_sublist _
  · exact List.Sublist.refl _
theorem sub_optionalRepr (E : Env) (k : Str) (v : PyVal) : ((optionalRepr E k v).map Prod.fst).Sublist [k] := by
  unfold optionalRepr
  split
  · exact List.nil_sublist _
  · exact List.Sublist.refl _
theorem sub_append {a b : List (Str × PyVal)} {m n : List Str} (h : (a.map Prod.fst).Sublist m) (h' : (b.map Prod.fst).Sublist n) : ((a ++ b).map Prod.fst).Sublist (m ++ n) := by
  rw [List.map_append]
  exact h.append h'
theorem sub_cons {k : Str} {v : PyVal} {b : List (Str × PyVal)} {n : List Str} (h' : (b.map Prod.fst).Sublist n) : (((k, v) :: b).map Prod.fst).Sublist (k :: n) := by
  rw [List.map_cons]
  exact h'.cons_cons k

/-! ### elements -/

/-- An element that survives in a file, and is the same with both backends. -/
def Good (e : Elem) : Prop := Writable e ∧ StrTree e ∧ NoteFine e

/-- Names that may be used for attributes. -/
def Names (l : List Str) : Prop := l.Nodup ∧ ∀ n ∈ l, isName n = true

theorem attrTexts_spec {E : Env} : ∀ {attrs : List (Str × PyVal)} {d : Dict Str Str}, attrTexts E attrs = .ok d →
    d.map Prod.fst = attrs.map Prod.fst ∧ ∀ p ∈ d, (p.1, PyVal.str p.2) ∈ attrs
  | [], d, h => by rw [attrTexts] at h; cases h; simp
  | (k, v) :: rest, d, h => by
    rw [attrTexts] at h
    split at h
    · cases h
    next s hs =>
    split at h
    · cases h
    next d' hd =>
    cases h
    obtain ⟨h1, h2⟩ := attrTexts_spec hd
    have hv : v = .str s := by
      unfold attrText at hs
      split at hs
      · split at hs
        · cases hs
        · cases hs; rfl
      · cases hs
    refine ⟨by simp [h1], fun p hp => ?_⟩
    rw [List.mem_cons] at hp
    rcases hp with rfl | hp
    · simp [hv]
    · exact List.mem_cons_of_mem _ (h2 p hp)

theorem newElement_good {E : Env} {tag : Str} {attrs : List (Str × PyVal)} {e : Elem} (names : List Str) (h : newElement E tag attrs = .ok e) (ht : isName tag = true ∧ tag ≠ c!"note")
    (hs : (attrs.map Prod.fst).Sublist names) (hn : Names names) (hv : Vals attrs) : Good e := by
  unfold newElement at h
  cases h1 : attrTexts E attrs with
  | error x => rw [h1] at h; cases h
  | ok a =>
    rw [h1] at h
    cases h
    obtain ⟨h2, h3⟩ := attrTexts_spec h1
    refine ⟨⟨ht.1, ?_, fun p hp => ⟨?_, ?_⟩, Plist.goodText_none, Plist.goodText_none, trivial⟩, ⟨by simp, by simp, trivial⟩, fun h => absurd h ht.2⟩
    · rw [h2]; exact hs.nodup hn.1
    · exact hn.2 _ (hs.subset (List.mem_map_of_mem (h3 p hp)))
    · exact goodAttr_of (hv _ (h3 p hp) _ rfl)

theorem attrText_lxml {E : Env} {v : PyVal} (h : ∀ s, v = .str s → AttrText s) : attrText E.asLxml v = attrText E v := by
  unfold attrText
  split
  next s => rw [xmlChars_of (h s rfl).1]; simp
  · rfl

theorem attrTexts_lxml {E : Env} : ∀ {attrs : List (Str × PyVal)}, Vals attrs → attrTexts E.asLxml attrs = attrTexts E attrs
  | [], _ => rfl
  | (k, v) :: rest, h => by
    rw [attrTexts, attrTexts, attrText_lxml (h _ List.mem_cons_self), attrTexts_lxml fun p hp => h p (List.mem_cons_of_mem _ hp)]

theorem newElement_lxml {E : Env} {tag : Str} {attrs : List (Str × PyVal)} (h : Vals attrs) : newElement E.asLxml tag attrs = newElement E tag attrs := by
  unfold newElement
  rw [attrTexts_lxml h]

/-! ### strings in values -/

/-- All strings in a value survive. -/
def Clean (v : PyVal) : Prop := ∀ s ∈ strings v, AttrText s

theorem Clean.str {v : PyVal} (h : Clean v) : ∀ s, v = .str s → AttrText s := by
  rintro s rfl
  exact h s (by simp [strings])

theorem clean_of_mem {l : List PyVal} (h : ∀ s ∈ stringsList l, AttrText s) : ∀ v ∈ l, Clean v := by
  induction l with
  | nil => simp
  | cons x l ih =>
    rw [stringsList, List.forall_mem_append] at h
    rw [List.forall_mem_cons]
    exact ⟨h.1, ih h.2⟩

theorem clean_of_item {d : List (PyVal × PyVal)} (h : ∀ s ∈ stringsItems d, AttrText s) : ∀ p ∈ d, Clean p.1 ∧ Clean p.2 := by
  induction d with
  | nil => simp
  | cons x d ih =>
    obtain ⟨k, v⟩ := x
    rw [stringsItems, List.forall_mem_append, List.forall_mem_append] at h
    rw [List.forall_mem_cons]
    exact ⟨h.1, ih h.2⟩

theorem clean_get {d : List (PyVal × PyVal)} (h : Clean (.dict d)) {k : Str} {v : PyVal} (hg : get d k = some v) : Clean v := by
  have h : ∀ s ∈ stringsItems d, AttrText s := by unfold Clean at h; rw [strings] at h; exact h
  exact (clean_of_item h _ (Dict.mem_of_get? hg)).2

theorem clean_getD {d : List (PyVal × PyVal)} (h : Clean (.dict d)) (k : Str) : Clean ((get d k).getD .none) := by
  cases hg : get d k with
  | none => intro s hs; simp [strings] at hs
  | some v => exact clean_get h hg

theorem clean_iter {v : PyVal} {l : List PyVal} (h : Clean v) (hi : iter v = .ok l) : ∀ d, .dict d ∈ l → Clean (.dict d) := by
  unfold Clean at h
  intro d hd
  unfold iter at hi
  split at hi
  · cases hi; rw [strings] at h; exact clean_of_mem h _ hd
  · cases hi; rw [strings] at h; exact clean_of_mem h _ hd
  · cases hi
    rw [strings] at h
    obtain ⟨p, hp, he⟩ := List.mem_map.1 hd
    rw [← he]
    exact (clean_of_item h p hp).1
  · cases hi; simp at hd
  · cases hi; simp at hd
  · cases hi

/-! ### the head -/

theorem writeAdvance_lxml {E : Env} (hE : ReprLaws E) (b : Bool) (o : Obj) : writeAdvance E.asLxml b o = writeAdvance E b o := by
  unfold writeAdvance
  have h1 : ∀ k v, optionalRepr E.asLxml k v = optionalRepr E k v := fun k v => rfl
  simp only [h1]
  split
  · rfl
  next w _ =>
  split
  · rfl
  next h _ =>
  split
  · rfl
  next attrs _ _ => rw [newElement_lxml]; exact vals_append (vals_optionalRepr hE) (vals_optionalRepr hE)

theorem writeAdvance_good {E : Env} (hE : ReprLaws E) {b : Bool} {o : Obj} {es : List Elem} (h : writeAdvance E b o = .ok es) : ∀ e ∈ es, Good e := by
  unfold writeAdvance at h
  split at h
  · cases h
  split at h
  · cases h
  split at h
  · cases h; simp
  next attrs _ =>
  obtain ⟨e, he, rfl⟩ := map_single h
  rw [List.forall_mem_singleton]
  exact newElement_good ([c!"height"] ++ [c!"width"]) he (by decide) (sub_append (sub_optionalRepr _ _ _) (sub_optionalRepr _ _ _)) ⟨by decide, by decide⟩
    (vals_append (vals_optionalRepr hE) (vals_optionalRepr hE))

theorem vals_hex (i : Int) : Vals [(c!"hex", .str (hex4 i))] := vals_cons (fun s hs => by cases hs; exact attrText_graph (hex4_graph i)) vals_nil

theorem unicodeElements_lxml {E : Env} (b : Bool) : ∀ (l : List PyVal) (seen : List Int), unicodeElements E.asLxml b seen l = unicodeElements E b seen l
  | [], _ => rfl
  | c :: l, seen => by
    rw [unicodeElements, unicodeElements, newElement_lxml (vals_hex _), unicodeElements_lxml b l, unicodeElements_lxml b l]

theorem unicodeElements_good {E : Env} {b : Bool} : ∀ {l : List PyVal} {seen : List Int} {es : List Elem}, unicodeElements E b seen l = .ok es → ∀ e ∈ es, Good e
  | [], _, es, h => by rw [unicodeElements] at h; cases h; simp
  | c :: l, seen, es, h => by
    rw [unicodeElements] at h
    split at h
    · cases h
    split at h
    · exact unicodeElements_good h
    split at h
    · cases h
    next e he =>
    split at h
    · cases h
    next es' h' =>
    cases h
    rw [List.forall_mem_cons]
    exact ⟨newElement_good [c!"hex"] he (by decide) (sub_cons (List.nil_sublist _)) ⟨by decide, by decide⟩ (vals_hex _), unicodeElements_good h'⟩

theorem writeUnicodes_lxml {E : Env} (b : Bool) (u : PyVal) : writeUnicodes E.asLxml b u = writeUnicodes E b u := by
  unfold writeUnicodes
  simp only [unicodeElements_lxml]

theorem writeUnicodes_good {E : Env} {b : Bool} {u : PyVal} {es : List Elem} (h : writeUnicodes E b u = .ok es) : ∀ e ∈ es, Good e := by
  unfold writeUnicodes at h
  split at h
  · cases h
  · exact unicodeElements_good h

theorem fileText_strip {s : Str} (h : FileText s) : FileText ('\n' :: strip s ++ ['\n']) := by
  have hm : ∀ c ∈ strip s, c ∈ s := by
    intro c hc
    rw [strip, rstrip, List.mem_reverse] at hc
    have := (List.dropWhile_sublist (l := (lstrip s).reverse) isSpace).subset hc
    rw [List.mem_reverse, lstrip] at this
    exact (List.dropWhile_sublist _).subset this
  refine ⟨fun c hc => ?_, fun hc => ?_⟩
  · simp only [List.cons_append, List.mem_cons, List.mem_append, List.not_mem_nil, or_false] at hc
    rcases hc with rfl | hc | rfl
    · exact .inr (.inl rfl)
    · exact h.1 c (hm c hc)
    · exact .inr (.inl rfl)
  · simp only [List.cons_append, List.mem_cons, List.mem_append, List.not_mem_nil, or_false] at hc
    rcases hc with hc | hc | hc
    · exact absurd hc (by decide)
    · exact h.2 (hm _ hc)
    · exact absurd hc (by decide)

theorem writeNote_lxml {E : Env} (b : Bool) {v : PyVal} (h : ∀ s ∈ strings v, FileText s) : writeNote E.asLxml b v = writeNote E b v := by
  cases v with
  | str s =>
    have hs := fileText_strip (h s (by simp [strings]))
    rw [writeNote, writeNote, Plist.setText, Plist.setText, xmlChars_of hs]
    simp
  | _ => rfl

theorem writeNote_good {E : Env} {b : Bool} {v : PyVal} (h : ∀ s ∈ strings v, FileText s) {e : Elem} (hw : writeNote E b v = .ok e) : Good e := by
  cases v with
  | str s =>
    have hs := fileText_strip (h s (by simp [strings]))
    rw [writeNote, Plist.setText, xmlChars_of hs] at hw
    simp only [Bool.not_true, Bool.and_false, Bool.false_eq_true, if_false] at hw
    cases hw
    refine ⟨⟨by decide, by simp, by simp, Plist.goodText_of hs, Plist.goodText_none, trivial⟩, ⟨by simp, by simp, trivial⟩, fun _ => ⟨rfl, by simp [Elem.text, textStr]⟩⟩
  | _ => rw [writeNote] at hw <;> first | cases hw | simp

theorem vals_imageTransformation {E : Env} (hE : ReprLaws E) (d : List (PyVal × PyVal)) : ∀ info, Vals (imageTransformation E d info)
  | [] => vals_nil
  | (k, v) :: info => by
    rw [imageTransformation]
    split
    · exact vals_imageTransformation hE d info
    · exact vals_repr hE (vals_imageTransformation hE d info)

theorem sub_imageTransformation {E : Env} (d : List (PyVal × PyVal)) : ∀ info : List (Str × PyVal), ((imageTransformation E d info).map Prod.fst).Sublist (info.map Prod.fst)
  | [] => List.nil_sublist _
  | (k, v) :: info => by
    rw [imageTransformation]
    split
    · exact (sub_imageTransformation d info).cons _
    · exact sub_cons (sub_imageTransformation d info)

theorem imageTransformation_lxml (E : Env) (d : List (PyVal × PyVal)) : ∀ info, imageTransformation E.asLxml d info = imageTransformation E d info
  | [] => rfl
  | (k, v) :: info => by rw [imageTransformation, imageTransformation, imageTransformation_lxml E d info]; rfl

theorem vals_image {E : Env} (hE : ReprLaws E) {d : List (PyVal × PyVal)} (h : Clean (.dict d)) {f : PyVal} (hf : get d c!"fileName" = some f) :
    Vals ((c!"fileName", f) :: imageTransformation E d transformationInfo ++ optional c!"color" ((get d c!"color").getD .none)) :=
  vals_append (vals_cons (clean_get h hf).str (vals_imageTransformation hE d _)) (vals_optional (clean_getD h _).str)

theorem writeImage_lxml {E : Env} (hE : ReprLaws E) (b : Bool) {v : PyVal} (h : Clean v) : writeImage E.asLxml b v = writeImage E b v := by
  unfold writeImage
  rw [show E.asLxml.F = E.F from rfl]
  split
  · rfl
  split
  next d =>
    split
    · rfl
    next f hf => rw [imageTransformation_lxml, newElement_lxml (vals_image hE h hf)]
  · rfl

theorem writeImage_good {E : Env} (hE : ReprLaws E) {b : Bool} {v : PyVal} (h : Clean v) {e : Elem} (hw : writeImage E b v = .ok e) : Good e := by
  unfold writeImage at hw
  split at hw
  · cases hw
  split at hw
  next d =>
    split at hw
    · cases hw
    next f hf =>
    exact newElement_good (c!"fileName" :: transformationInfo.map Prod.fst ++ [c!"color"]) hw (by decide)
      (sub_append (sub_cons (sub_imageTransformation _ _)) (sub_optional _ _)) ⟨by decide, by decide⟩ (vals_image hE h hf)
  · cases hw

theorem entryElements_lxml {E : Env} (b : Bool) (tag : Str) (attrs : List (PyVal × PyVal) → Except Exc (List (Str × PyVal)))
    (hv : ∀ d a, Clean (.dict d) → attrs d = .ok a → Vals a) : ∀ (l : List PyVal) (ids : List Str), (∀ d, .dict d ∈ l → Clean (.dict d)) →
      entryElements E.asLxml b tag attrs ids l = entryElements E b tag attrs ids l
  | [], _, _ => rfl
  | v :: l, ids, h => by
    cases v with
    | dict d =>
      rw [entryElements, entryElements]
      split
      · rfl
      next a ha =>
      split
      · rfl
      rw [newElement_lxml (hv d a (h d (by simp)) ha)]
      split
      · rfl
      rw [entryElements_lxml b tag attrs hv l _ fun d hd => h d (by simp [hd])]
    | _ => rfl

theorem entryElements_good {E : Env} {b : Bool} {tag : Str} (ht : isName tag = true ∧ tag ≠ c!"note") {attrs : List (PyVal × PyVal) → Except Exc (List (Str × PyVal))} {names : List Str}
    (hn : Names names) (hs : ∀ d a, attrs d = .ok a → (a.map Prod.fst).Sublist names)
    (hv : ∀ d a, Clean (.dict d) → attrs d = .ok a → Vals a) : ∀ {l : List PyVal} {ids : List Str} {r : List Elem × List Str}, (∀ d, .dict d ∈ l → Clean (.dict d)) →
      entryElements E b tag attrs ids l = .ok r → ∀ e ∈ r.1, Good e
  | [], _, r, _, h => by rw [entryElements] at h; cases h; simp
  | v :: l, ids, r, hl, h => by
    cases v with
    | dict d =>
      rw [entryElements] at h
      split at h
      · cases h
      next a ha =>
      split at h
      · cases h
      split at h
      · cases h
      next e he =>
      split at h
      · cases h
      next l' ids' h' =>
      cases h
      rw [List.forall_mem_cons]
      exact ⟨newElement_good names he ht (hs d a ha) hn (hv d a (hl d (by simp)) ha), entryElements_good ht hn hs hv (fun d hd => hl d (by simp [hd])) h'⟩
    | _ => rw [entryElements] at h <;> cases h

theorem vals_guideline {E : Env} (hE : ReprLaws E) {d : List (PyVal × PyVal)} (h : Clean (.dict d)) : Vals (guidelineAttrs E d) :=
  vals_append (vals_append (vals_append (vals_append (vals_append (vals_optionalRepr hE) (vals_optionalRepr hE)) (vals_optionalRepr hE)) (vals_optional (clean_getD h _).str))
    (vals_optional (clean_getD h _).str)) (vals_optional (clean_getD h _).str)

theorem writeGuidelines_lxml {E : Env} (hE : ReprLaws E) (b : Bool) (ids : List Str) {v : PyVal} (h : Clean v) : writeGuidelines E.asLxml b ids v = writeGuidelines E b ids v := by
  unfold writeGuidelines
  rw [show E.asLxml.F = E.F from rfl]
  split
  · rfl
  split
  · rfl
  next l hl =>
  rw [show (fun d => Except.ok (guidelineAttrs E.asLxml d)) = fun d => (Except.ok (guidelineAttrs E d) : Except Exc _) from rfl]
  exact entryElements_lxml b _ _ (fun d a hd ha => by cases ha; exact vals_guideline hE hd) l ids (clean_iter h hl)

theorem writeGuidelines_good {E : Env} (hE : ReprLaws E) {b : Bool} {ids : List Str} {v : PyVal} (h : Clean v) {r : List Elem × List Str} (hw : writeGuidelines E b ids v = .ok r) :
    ∀ e ∈ r.1, Good e := by
  unfold writeGuidelines at hw
  split at hw
  · cases hw
  split at hw
  · cases hw
  next l hl =>
  refine entryElements_good (by decide) (names := [c!"x"] ++ [c!"y"] ++ [c!"angle"] ++ [c!"name"] ++ [c!"color"] ++ [c!"identifier"]) ⟨by decide, by decide⟩ ?_
    (fun d a hd ha => by cases ha; exact vals_guideline hE hd) (clean_iter h hl) hw
  intro d a ha
  cases ha
  exact sub_append (sub_append (sub_append (sub_append (sub_append (sub_optionalRepr _ _ _) (sub_optionalRepr _ _ _)) (sub_optionalRepr _ _ _)) (sub_optional _ _)) (sub_optional _ _)) (sub_optional _ _)

theorem vals_anchor {E : Env} (hE : ReprLaws E) {d : List (PyVal × PyVal)} (h : Clean (.dict d)) {a : List (Str × PyVal)} (ha : anchorAttrs E d = .ok a) : Vals a := by
  unfold anchorAttrs at ha
  split at ha
  · cases ha
    exact vals_append (vals_append (vals_append (vals_repr hE (vals_repr hE vals_nil)) (vals_optional (clean_getD h _).str)) (vals_optional (clean_getD h _).str)) (vals_optional (clean_getD h _).str)
  · cases ha

theorem writeAnchors_lxml {E : Env} (hE : ReprLaws E) (b : Bool) (ids : List Str) {v : PyVal} (h : Clean v) : writeAnchors E.asLxml b ids v = writeAnchors E b ids v := by
  unfold writeAnchors
  rw [show E.asLxml.F = E.F from rfl]
  split
  · rfl
  split
  · rfl
  next l hl =>
  rw [show anchorAttrs E.asLxml = anchorAttrs E from rfl]
  exact entryElements_lxml b _ _ (fun d a hd ha => vals_anchor hE hd ha) l ids (clean_iter h hl)

theorem writeAnchors_good {E : Env} (hE : ReprLaws E) {b : Bool} {ids : List Str} {v : PyVal} (h : Clean v) {r : List Elem × List Str} (hw : writeAnchors E b ids v = .ok r) :
    ∀ e ∈ r.1, Good e := by
  unfold writeAnchors at hw
  split at hw
  · cases hw
  split at hw
  · cases hw
  next l hl =>
  refine entryElements_good (by decide) (names := [c!"x", c!"y"] ++ [c!"name"] ++ [c!"color"] ++ [c!"identifier"]) ⟨by decide, by decide⟩ ?_
    (fun d a hd ha => vals_anchor hE hd ha) (clean_iter h hl) hw
  intro d a ha
  unfold anchorAttrs at ha
  split at ha
  · cases ha
    exact sub_append (sub_append (sub_append (List.Sublist.refl _) (sub_optional _ _)) (sub_optional _ _)) (sub_optional _ _)
  · cases ha

/-! ### the pen -/

theorem forall_modify {α : Type} {P : α → Prop} {f : α → α} (hf : ∀ a, P a → P (f a)) : ∀ {l : List α} (i : Nat), (∀ a ∈ l, P a) → ∀ a ∈ l.modify i f, P a
  | [], i, h => by cases i <;> simp
  | a :: l, 0, h => by
    rw [List.forall_mem_cons] at h
    rw [List.modify_zero_cons, List.forall_mem_cons]
    exact ⟨hf a h.1, h.2⟩
  | a :: l, i + 1, h => by
    rw [List.forall_mem_cons] at h
    rw [List.modify_succ_cons, List.forall_mem_cons]
    exact ⟨h.1, forall_modify hf i h.2⟩

theorem writableList_iff {es : List Elem} : WritableList es ↔ ∀ e ∈ es, Writable e := by
  induction es with
  | nil => simp [WritableList]
  | cons e es ih => rw [WritableList, ih, List.forall_mem_cons]

theorem strTrees_iff {es : List Elem} : StrTrees es ↔ ∀ e ∈ es, StrTree e := by
  induction es with
  | nil => simp [StrTrees]
  | cons e es ih => rw [StrTrees, ih, List.forall_mem_cons]

/-- An element that survives and may get children. -/
def Good' (e : Elem) : Prop := Writable e ∧ StrTree e ∧ e.tag ≠ c!"note"

theorem Good'.good {e : Elem} (h : Good' e) : Good e := ⟨h.1, h.2.1, fun ht => absurd ht h.2.2⟩

theorem appendChild_good {c : Elem} (hc : Good c) (e : Elem) (h : Good' e) : Good' (appendChild c e) := by
  obtain ⟨tag, a, text, tail, children⟩ := e
  obtain ⟨⟨h1, h2, h3, h4, h5, h6⟩, ⟨h7, h8, h9⟩, h10⟩ := h
  refine ⟨⟨h1, h2, h3, h4, h5, ?_⟩, ⟨h7, h8, ?_⟩, h10⟩
  · rw [writableList_iff, List.forall_mem_append, List.forall_mem_singleton]
    exact ⟨writableList_iff.1 h6, hc.1⟩
  · rw [strTrees_iff, List.forall_mem_append, List.forall_mem_singleton]
    exact ⟨strTrees_iff.1 h9, hc.2.1⟩

theorem fillEmpty_good (e : Elem) (h : Good' e) : Good' (fillEmpty e) := by
  obtain ⟨tag, a, text, tail, children⟩ := e
  obtain ⟨⟨h1, h2, h3, h4, h5, h6⟩, ⟨h7, h8, h9⟩, h10⟩ := h
  rw [fillEmpty]
  refine ⟨⟨h1, h2, h3, ?_, h5, h6⟩, ⟨?_, h8, h9⟩, h10⟩
  · split
    · exact goodText_ws (by decide)
    · exact h4
  · split
    · simp
    · exact h7

theorem newElement_good' {E : Env} {tag : Str} {attrs : List (Str × PyVal)} {e : Elem} (names : List Str) (h : newElement E tag attrs = .ok e) (ht : isName tag = true ∧ tag ≠ c!"note")
    (hs : (attrs.map Prod.fst).Sublist names) (hn : Names names) (hv : Vals attrs) : Good' e := by
  obtain ⟨h1, h2, -⟩ := newElement_good names h ht hs hn hv
  exact ⟨h1, h2, by rw [(newElement_leaf h).2]; exact ht.2⟩

theorem vals_penIdentifier {fv : Nat} {b : Bool} {ids : List Str} {i : PyVal} (h : Clean i) {a : List (Str × PyVal)} {ids' : List Str} (hp : penIdentifier fv b ids i = .ok (a, ids')) : Vals a := by
  unfold penIdentifier at hp
  split at hp
  · cases hp; exact vals_nil
  split at hp
  · cases hp
  split at hp
  · cases hp
  · cases hp; exact vals_cons h.str vals_nil

theorem sub_penIdentifier {fv : Nat} {b : Bool} {ids : List Str} {i : PyVal} {a : List (Str × PyVal)} {ids' : List Str} (hp : penIdentifier fv b ids i = .ok (a, ids')) :
    (a.map Prod.fst).Sublist [c!"identifier"] := by
  unfold penIdentifier at hp
  split at hp
  · cases hp; exact List.nil_sublist _
  split at hp
  · cases hp
  split at hp
  · cases hp
  · cases hp; exact List.Sublist.refl _

theorem vals_coordinates {E : Env} (hE : ReprLaws E) {b : Bool} {pt : PyVal} {a : List (Str × PyVal)} (h : coordinates E b pt = .ok a) : Vals a := by
  unfold coordinates at h
  split at h
  · cases h; exact vals_nil
  split at h
  · cases h
  split at h
  · cases h
  split at h
  · cases h; exact vals_repr hE (vals_repr hE vals_nil)
  · cases h

theorem sub_coordinates {E : Env} {b : Bool} {pt : PyVal} {a : List (Str × PyVal)} (h : coordinates E b pt = .ok a) : (a.map Prod.fst).Sublist [c!"x", c!"y"] := by
  unfold coordinates at h
  split at h
  · cases h; exact List.nil_sublist _
  split at h
  · cases h
  split at h
  · cases h
  split at h
  · cases h; exact List.Sublist.refl _
  · cases h

theorem vals_component {E : Env} (hE : ReprLaws E) {b : Bool} : ∀ {info : List (Str × PyVal)} {l : List PyVal} {a : List (Str × PyVal)}, componentTransformation E b info l = .ok a → Vals a
  | [], _, a, h => by rw [componentTransformation] at h; · cases h; exact vals_nil
                      · simp
  | (k, v) :: info, [], a, h => by rw [componentTransformation] at h; · cases h; exact vals_nil
                                   · simp
  | (k, v) :: info, x :: l, a, h => by
    rw [componentTransformation] at h
    split at h
    · cases h
    split at h
    · cases h
    next r hr =>
    cases h
    split
    · exact vals_component hE hr
    · exact vals_repr hE (vals_component hE hr)

theorem sub_component {E : Env} {b : Bool} : ∀ {info : List (Str × PyVal)} {l : List PyVal} {a : List (Str × PyVal)}, componentTransformation E b info l = .ok a →
    (a.map Prod.fst).Sublist (info.map Prod.fst)
  | [], _, a, h => by rw [componentTransformation] at h; · cases h; exact List.nil_sublist _
                      · simp
  | (k, v) :: info, [], a, h => by rw [componentTransformation] at h; · cases h; exact List.nil_sublist _
                                   · simp
  | (k, v) :: info, x :: l, a, h => by
    rw [componentTransformation] at h
    split at h
    · cases h
    split at h
    · cases h
    next r hr =>
    cases h
    split
    · exact (sub_component hr).cons _
    · exact sub_cons (sub_component hr)

theorem componentTransformation_lxml (E : Env) (b : Bool) : ∀ (info : List (Str × PyVal)) (l : List PyVal), componentTransformation E.asLxml b info l = componentTransformation E b info l
  | [], _ => by rw [componentTransformation, componentTransformation] <;> simp
  | _ :: _, [] => by rw [componentTransformation, componentTransformation] <;> simp
  | (k, v) :: info, x :: l => by
    rw [componentTransformation, componentTransformation, componentTransformation_lxml E b info l]
    rfl

/-- Attributes of a point before the identifier. -/
theorem vals_point {E : Env} (hE : ReprLaws E) {b : Bool} {pt t smooth name : PyVal} (ht : Clean t) (hn : Clean name) {a : List (Str × PyVal)} (h : coordinates E b pt = .ok a) :
    Vals (a ++ optional c!"type" t ++ (if truthy smooth then [(c!"smooth", PyVal.str c!"yes")] else []) ++ optional c!"name" name) := by
  refine vals_append (vals_append (vals_append (vals_coordinates hE h) (vals_optional ht.str)) ?_) (vals_optional hn.str)
  split
  · exact vals_cons (fun s hs => by cases hs; exact attrText_graph (by decide)) vals_nil
  · exact vals_nil

theorem sub_point {E : Env} {b : Bool} {pt t smooth name : PyVal} {a : List (Str × PyVal)} (h : coordinates E b pt = .ok a) :
    ((a ++ optional c!"type" t ++ (if truthy smooth then [(c!"smooth", PyVal.str c!"yes")] else []) ++ optional c!"name" name).map Prod.fst).Sublist
      ([c!"x", c!"y"] ++ [c!"type"] ++ [c!"smooth"] ++ [c!"name"]) := by
  refine sub_append (sub_append (sub_append (sub_coordinates h) (sub_optional _ _)) ?_) (sub_optional _ _)
  split
  · exact List.Sublist.refl _
  · exact List.nil_sublist _

theorem placePoint_lxml {E : Env} (fv : Nat) (b : Bool) (s : Pen) {attrs : List (Str × PyVal)} (ha : Vals attrs) {i : PyVal} (hi : Clean i) :
    s.placePoint E.asLxml fv b attrs i = s.placePoint E fv b attrs i := by
  unfold Pen.placePoint
  split
  · rfl
  next a ids h =>
  dsimp only
  rw [newElement_lxml (vals_append ha (vals_penIdentifier hi h))]

theorem placePoint_good {E : Env} {fv : Nat} {b : Bool} {s : Pen} (hs : ∀ e ∈ s.children, Good' e) {attrs : List (Str × PyVal)} (ha : Vals attrs)
    (hk : (attrs.map Prod.fst).Sublist ([c!"x", c!"y"] ++ [c!"type"] ++ [c!"smooth"] ++ [c!"name"])) {i : PyVal} (hi : Clean i) :
    ∀ e ∈ (s.placePoint E fv b attrs i).1.children, Good' e := by
  unfold Pen.placePoint
  split
  · exact hs
  next a ids h =>
  dsimp only
  cases he : newElement E c!"point" (attrs ++ a) with
  | error x => exact hs
  | ok e =>
    cases s.contour with
    | none => exact hs
    | some j =>
      exact forall_modify (appendChild_good (newElement_good ([c!"x", c!"y"] ++ [c!"type"] ++ [c!"smooth"] ++ [c!"name"] ++ [c!"identifier"]) he (by decide)
        (sub_append hk (sub_penIdentifier h)) ⟨by decide, by decide⟩ (vals_append ha (vals_penIdentifier hi h)))) _ hs

/-- The strings in the arguments of a call survive. -/
def CleanCall (c : Call) : Prop := ∀ s ∈ callStrings c, AttrText s

theorem clean_none : Clean .none := by intro s hs; simp [strings] at hs

theorem clean_type {t : PyVal} (h : Clean t) : Clean (if t = .str c!"offcurve" then .none else t) := by
  split
  · exact clean_none
  · exact h

theorem step_lxml {E : Env} (hE : ReprLaws E) (fv : Nat) (b : Bool) (s : Pen) {c : Call} (hc : CleanCall c) : s.step E.asLxml fv b c = s.step E fv b c := by
  cases c with
  | beginPath i =>
    unfold Pen.step Pen.beginPath
    dsimp only
    split
    · rfl
    next a ids h => rw [newElement_lxml (vals_penIdentifier hc h)]
  | endPath => rfl
  | addComponent g t i =>
    unfold CleanCall callStrings at hc
    simp only [List.forall_mem_append] at hc
    unfold Pen.step Pen.addComponent
    dsimp only
    split
    · rfl
    rw [componentTransformation_lxml]
    split
    · rfl
    next a ha =>
    split
    · rfl
    next a' ids h => rw [newElement_lxml (vals_append (vals_cons (Clean.str hc.1.1) (vals_component hE ha)) (vals_penIdentifier hc.2 h))]
  | addPoint pt t smooth name i =>
    unfold CleanCall callStrings at hc
    simp only [List.forall_mem_append] at hc
    rw [Pen.step, Pen.step, Pen.addPoint, Pen.addPoint, show coordinates E.asLxml b pt = coordinates E b pt from rfl]
    split
    · rfl
    next a ha =>
    dsimp only
    have ht := clean_type hc.1.1.1.2
    generalize (if t = .str c!"offcurve" then PyVal.none else t) = t' at ht ⊢
    split
    · rfl
    split
    · rfl
    exact placePoint_lxml fv b _ (vals_point hE ht hc.1.2 ha) hc.2

theorem step_good {E : Env} (hE : ReprLaws E) {fv : Nat} {b : Bool} {s : Pen} {c : Call} (hc : CleanCall c) (hs : ∀ e ∈ s.children, Good' e) :
    ∀ e ∈ (s.step E fv b c).1.children, Good' e := by
  cases c with
  | beginPath i =>
    unfold Pen.step Pen.beginPath
    dsimp only
    split
    · exact hs
    next a ids h =>
    split
    · exact hs
    next e he =>
    dsimp only
    rw [List.forall_mem_append, List.forall_mem_singleton]
    exact ⟨hs, newElement_good' [c!"identifier"] he (by decide) (sub_penIdentifier h) ⟨by decide, by decide⟩ (vals_penIdentifier hc h)⟩
  | endPath =>
    unfold Pen.step Pen.endPath
    dsimp only
    split
    · exact hs
    split
    · exact hs
    · exact forall_modify fillEmpty_good _ hs
  | addComponent g t i =>
    unfold CleanCall callStrings at hc
    simp only [List.forall_mem_append] at hc
    unfold Pen.step Pen.addComponent
    dsimp only
    split
    · exact hs
    split
    · exact hs
    next a ha =>
    split
    · exact hs
    next a' ids h =>
    split
    · exact hs
    next e he =>
    dsimp only
    rw [List.forall_mem_append, List.forall_mem_singleton]
    exact ⟨hs, newElement_good' (c!"base" :: transformationInfo.map Prod.fst ++ [c!"identifier"]) he (by decide) (sub_append (sub_cons (sub_component ha)) (sub_penIdentifier h)) ⟨by decide, by decide⟩
      (vals_append (vals_cons (Clean.str hc.1.1) (vals_component hE ha)) (vals_penIdentifier hc.2 h))⟩
  | addPoint pt t smooth name i =>
    unfold CleanCall callStrings at hc
    simp only [List.forall_mem_append] at hc
    rw [Pen.step, Pen.addPoint]
    split
    · exact hs
    next a ha =>
    dsimp only
    have ht := clean_type hc.1.1.1.2
    generalize (if t = .str c!"offcurve" then PyVal.none else t) = t' at ht ⊢
    split
    · exact hs
    split
    · exact hs
    refine placePoint_good ?_ (vals_point hE ht hc.1.2 ha) (sub_point ha) hc.2
    exact hs

theorem draw_lxml {E : Env} (hE : ReprLaws E) (fv : Nat) (b : Bool) : ∀ (cs : List Call) (s : Pen), (∀ c ∈ cs, CleanCall c) → s.draw E.asLxml fv b cs = s.draw E fv b cs
  | [], _, _ => rfl
  | c :: cs, s, h => by
    rw [List.forall_mem_cons] at h
    rw [Pen.draw, Pen.draw, step_lxml hE fv b s h.1]
    split
    · rfl
    · exact draw_lxml hE fv b cs _ h.2

theorem draw_good {E : Env} (hE : ReprLaws E) {fv : Nat} {b : Bool} : ∀ {cs : List Call} {s s' : Pen}, (∀ c ∈ cs, CleanCall c) → (∀ e ∈ s.children, Good' e) →
    s.draw E fv b cs = .ok s' → ∀ e ∈ s'.children, Good' e
  | [], s, s', _, hs, h => by rw [Pen.draw] at h; cases h; exact hs
  | c :: cs, s, s', hc, hs, h => by
    rw [List.forall_mem_cons] at hc
    rw [Pen.draw] at h
    have := step_good hE (fv := fv) (b := b) hc.1 hs
    split at h
    · cases h
    next s1 h1 =>
    rw [h1] at this
    exact draw_good hE hc.2 this h

theorem anchorCalls_clean : ∀ {l : List PyVal} {cs : List Call}, (∀ d, .dict d ∈ l → Clean (.dict d)) → anchorCalls l = .ok cs → ∀ c ∈ cs, CleanCall c
  | [], cs, _, h => by rw [anchorCalls] at h; cases h; simp
  | v :: l, cs, hl, h => by
    cases v with
    | dict d =>
      rw [anchorCalls] at h
      split at h
      next x y hx hy =>
        split at h
        · cases h
        next cs' h' =>
        cases h
        have hd := hl d (by simp)
        simp only [List.forall_mem_cons]
        refine ⟨fun s hs => ?_, fun s hs => ?_, fun s hs => ?_, anchorCalls_clean (fun d hd => hl d (by simp [hd])) h'⟩
        · simp [callStrings, strings] at hs
        · simp only [callStrings, strings, stringsList, List.append_nil, List.mem_append] at hs
          rcases hs with ((hs | hs) | hs)
          · rcases hs with hs | hs
            · exact clean_get hd hx s hs
            · exact clean_get hd hy s hs
          · rw [List.mem_singleton] at hs
            rw [hs]
            exact attrText_graph (by decide)
          · exact clean_getD hd _ s hs
        · simp [callStrings] at hs
      · cases h
    | _ => rw [anchorCalls] at h <;> cases h

theorem writeAnchorsFormat1_lxml {E : Env} (hE : ReprLaws E) (b : Bool) (s : Pen) {v : PyVal} (h : Clean v) : writeAnchorsFormat1 E.asLxml b s v = writeAnchorsFormat1 E b s v := by
  unfold writeAnchorsFormat1
  rw [show E.asLxml.F = E.F from rfl]
  split
  · rfl
  split
  · rfl
  next l hl =>
  split
  · rfl
  next cs hcs => rw [draw_lxml hE 2 b cs s (anchorCalls_clean (clean_iter h hl) hcs)]

theorem writeOutline_lxml {E : Env} (hE : ReprLaws E) (b : Bool) (fv : Nat) (ids : List Str) {v : PyVal} (h : Clean v) {cs : List Call} (hc : ∀ c ∈ cs, CleanCall c) :
    writeOutline E.asLxml b fv ids v cs = writeOutline E b fv ids v cs := by
  unfold writeOutline
  rw [draw_lxml hE 2 b cs _ hc]
  split
  · rfl
  next s _ => rw [writeAnchorsFormat1_lxml hE b s h]

theorem writeOutline_good {E : Env} (hE : ReprLaws E) {b : Bool} {fv : Nat} {ids : List Str} {v : PyVal} (h : Clean v) {cs : List Call} (hc : ∀ c ∈ cs, CleanCall c) {e : Elem}
    (hw : writeOutline E b fv ids v cs = .ok e) : Good e := by
  unfold writeOutline at hw
  split at hw
  · cases hw
  next s hs =>
  have h1 := draw_good hE hc (by intro e he; cases he) hs
  split at hw
  · cases hw
  next s' hs' =>
  cases hw
  have h2 : ∀ e ∈ s'.children, Good' e := by
    split at hs'
    · unfold writeAnchorsFormat1 at hs'
      split at hs'
      · cases hs'
      split at hs'
      · cases hs'
      next l hl =>
      split at hs'
      · cases hs'
      next cs' hcs => exact draw_good hE (anchorCalls_clean (clean_iter h hl) hcs) h1 hs'
    · cases hs'; exact h1
  have h3 : Writable (.mk c!"outline" [] none none s'.children) :=
    ⟨by decide, by simp, by simp, Plist.goodText_none, Plist.goodText_none, writableList_iff.2 fun e he => (h2 e he).1⟩
  have h4 : StrTree (.mk c!"outline" [] none none s'.children) := ⟨by simp, by simp, strTrees_iff.2 fun e he => (h2 e he).2.1⟩
  exact (fillEmpty_good _ ⟨h3, h4, by simp [Elem.tag]⟩).good

/-! ### the lib -/

theorem goodText_eq {x y : Option Text} (hx : GoodText x) (hy : ∀ b, y ≠ some (.bytes b)) (h : textStr x = textStr y) : GoodText y :=
  ⟨by rw [← h]; exact hx.1, fun b hb => absurd hb (hy b)⟩

mutual
theorem shape_writable' {e e' : Elem} (h : Plist.Shape e e') : Writable e' := by
  match h with
  | .leaf tag x y htag hx hy ht => exact ⟨htag, List.nodup_nil, by simp, goodText_eq hx hy ht, Plist.goodText_none, trivial⟩
  | .node tag c c' htag hc =>
    refine ⟨?_, List.nodup_nil, by simp, Plist.goodText_none, Plist.goodText_none, shapeList_writable' hc⟩
    rcases htag with rfl | rfl | rfl | rfl <;> decide
theorem shapeList_writable' {es es' : List Elem} (h : Plist.ShapeList es es') : WritableList es' := by
  match h with
  | .nil => exact trivial
  | .cons _ _ _ _ h h' => exact ⟨shape_writable' h, shapeList_writable' h'⟩
end

mutual
theorem shape_str {e e' : Elem} (h : Plist.Shape e e') : StrTree e' := by
  match h with
  | .leaf tag x y htag hx hy ht => exact ⟨hy, by simp, trivial⟩
  | .node tag c c' htag hc => exact ⟨by simp, by simp, shapeList_str hc⟩
theorem shapeList_str {es es' : List Elem} (h : Plist.ShapeList es es') : StrTrees es' := by
  match h with
  | .nil => exact trivial
  | .cons _ _ _ _ h h' => exact ⟨shape_str h, shapeList_str h'⟩
end

mutual
theorem shape_same {e e' : Elem} (h : Plist.Shape e e') : SameTree e' e := by
  match h with
  | .leaf tag x y htag hx hy ht => exact .mk _ _ _ _ _ _ _ _ (.inl ht.symm) (.inl rfl) .nil
  | .node tag c c' htag hc => exact .mk _ _ _ _ _ _ _ _ (.inl rfl) (.inl rfl) (shapeList_same hc)
theorem shapeList_same {es es' : List Elem} (h : Plist.ShapeList es es') : SameTrees es' es := by
  match h with
  | .nil => exact .nil
  | .cons _ _ _ _ h h' => exact .cons _ _ _ _ (shape_same h) (shapeList_same h')
end

theorem sameTrees_ne {c c' : List Elem} (h : SameTrees c c') (hc : c' ≠ []) : c ≠ [] := by
  cases h
  · exact hc
  · simp

mutual
theorem sameTree_trans {e e' e'' : Elem} (h : SameTree e e') (h' : SameTree e' e'') : SameTree e e'' := by
  match h, h' with
  | .mk tag attrib x x' y y' c c' hx hy hc, .mk _ _ _ x'' _ y'' _ c'' hx' hy' hc' =>
    refine .mk tag attrib x x'' y y'' c c'' ?_ ?_ (sameTrees_trans hc hc')
    · rcases hx with hx | ⟨h1, h2, h3⟩
      · rcases hx' with hx' | ⟨h4, h5, h6⟩
        · exact .inl (hx.trans hx')
        · exact .inr ⟨sameTrees_ne hc h4, by rw [hx]; exact h5, h6⟩
      · rcases hx' with hx' | ⟨h4, h5, h6⟩
        · exact .inr ⟨h1, h2, by rw [← hx']; exact h3⟩
        · exact .inr ⟨h1, h2, h6⟩
    · rcases hy with hx | ⟨h2, h3⟩
      · rcases hy' with hx' | ⟨h5, h6⟩
        · exact .inl (hx.trans hx')
        · exact .inr ⟨by rw [hx]; exact h5, h6⟩
      · rcases hy' with hx' | ⟨h5, h6⟩
        · exact .inr ⟨h2, by rw [← hx']; exact h3⟩
        · exact .inr ⟨h2, h6⟩
theorem sameTrees_trans {e e' e'' : List Elem} (h : SameTrees e e') (h' : SameTrees e' e'') : SameTrees e e'' := by
  match h, h' with
  | .nil, .nil => exact .nil
  | .cons _ _ _ _ h1 h2, .cons _ _ _ _ h3 h4 => exact .cons _ _ _ _ (sameTree_trans h1 h3) (sameTrees_trans h2 h4)
end

theorem sameTrees_append {a a' b b' : List Elem} (h : SameTrees a a') (h' : SameTrees b b') : SameTrees (a ++ b) (a' ++ b') := by
  match h with
  | .nil => exact h'
  | .cons _ _ _ _ h1 h2 => exact .cons _ _ _ _ h1 (sameTrees_append h2 h')

mutual
theorem representable_texts {T U : Str → Prop} {v : PyVal} (hv : Representable T v) (h : ∀ s ∈ strings v, U s) : Representable U v := by
  match hv with
  | .bool b => exact .bool b
  | .int i h' => exact .int i h'
  | .float f => exact .float f
  | .str s h' => exact .str s (h s (by simp [strings]))
  | .bytes b => exact .bytes b
  | .date d => exact .date d
  | .list l h' => rw [strings] at h; exact .list l (representableList_texts h' h)
  | .tuple l h' => rw [strings] at h; exact .tuple l (representableList_texts h' h)
  | .dict d h' => rw [strings] at h; exact .dict d (representableItems_texts h' h)
theorem representableList_texts {T U : Str → Prop} {l : List PyVal} (hv : RepresentableList T l) (h : ∀ s ∈ stringsList l, U s) : RepresentableList U l := by
  match hv with
  | .nil => exact .nil
  | .cons v l h1 h2 =>
    rw [stringsList, List.forall_mem_append] at h
    exact .cons v l (representable_texts h1 h.1) (representableList_texts h2 h.2)
theorem representableItems_texts {T U : Str → Prop} {d : List (PyVal × PyVal)} (hv : RepresentableItems T d) (h : ∀ s ∈ stringsItems d, U s) : RepresentableItems U d := by
  match hv with
  | .nil => exact .nil
  | .cons k v l h1 h2 h3 =>
    rw [stringsItems, List.forall_mem_append, List.forall_mem_append] at h
    exact .cons k v l (h.1.1 k (by simp [strings])) (representable_texts h2 h.1.2) (representableItems_texts h3 h.2)
end

theorem writeLib_lxml {E : Env} (hE : ReprLaws E) {b : Bool} {v : PyVal} (h : ∀ s ∈ strings v, FileText s) {e : Elem} (hw : writeLib E b v = .ok e) :
    ∃ e', writeLib E.asLxml b v = .ok e' ∧ SameTree e' e ∧ Writable e ∧ Good e' ∧ e.tag = c!"lib" := by
  unfold writeLib at hw
  split at hw
  · cases hw
  · cases hw
  next hval =>
  split at hw
  next d =>
    split at hw
    · cases hw
    next x hx =>
    cases hw
    rw [Plist.totree] at hx
    have hr := representable_texts ((Plist.makeElement_ok E.F hE.lawful E.lxml true 2 (.dict d)).1 ⟨x, hx⟩) h
    obtain ⟨x0, x1, h0, h1, hs⟩ := Plist.makeElement_shape E.F hE.lawful true 2 (.dict d) hr
    have hl : writeLib E.asLxml b (.dict d) = .ok (.mk c!"lib" [] none none [x1]) := by
      unfold writeLib
      rw [show E.asLxml.F = E.F from rfl, hval]
      dsimp only
      rw [Plist.totree, show E.asLxml.lxml = true from rfl, h1]
    have hwr : ∀ x, Writable x → Writable (.mk c!"lib" [] none none [x]) := fun x hx =>
      ⟨by decide, by simp, by simp, Plist.goodText_none, Plist.goodText_none, hx, trivial⟩
    have hg : Good (.mk c!"lib" [] none none [x1]) := ⟨hwr _ (shape_writable' hs), ⟨by simp, by simp, shape_str hs, trivial⟩, fun h => absurd h (by simp [Elem.tag])⟩
    refine ⟨_, hl, ?_, ?_, hg, rfl⟩
    · refine .mk _ _ _ _ _ _ _ _ (.inl rfl) (.inl rfl) (.cons _ _ _ _ ?_ .nil)
      cases hx' : E.lxml
      · rw [hx', h0] at hx; cases hx; exact shape_same hs
      · rw [hx', h1] at hx; cases hx; exact sameTree_refl _
    · cases hx' : E.lxml
      · rw [hx', h0] at hx; cases hx; exact hwr _ (Plist.shape_writable hs)
      · rw [hx', h1] at hx; cases hx; exact hg.1
  · cases hw

/-! ### the glyph -/

theorem oneIf_good {P : Elem → Prop} {c : Bool} {r : Except Exc Elem} {es : List Elem} (h : oneIf c r = .ok es) (hr : ∀ e, r = .ok e → P e) : ∀ e ∈ es, P e := by
  unfold oneIf at h
  split at h
  · obtain ⟨e, he, rfl⟩ := map_single h
    rw [List.forall_mem_singleton]
    exact hr e he
  · cases h; simp

theorem writeHead_lxml {E : Env} (hE : ReprLaws E) (b : Bool) (fv : Nat) {o : Obj} {name : PyVal} {draw : Option (List Call)} (h : Legible name o draw) :
    writeHead E.asLxml b fv o = writeHead E b fv o := by
  unfold writeHead
  simp only [writeAdvance_lxml hE, writeUnicodes_lxml, writeNote_lxml b h.note, writeImage_lxml hE b h.image, writeGuidelines_lxml hE b _ h.guidelines, writeAnchors_lxml hE b _ h.anchors]

theorem writeHead_good {E : Env} (hE : ReprLaws E) {b : Bool} {fv : Nat} {o : Obj} {name : PyVal} {draw : Option (List Call)} (h : Legible name o draw) {r : List Elem × List Str}
    (hw : writeHead E b fv o = .ok r) : ∀ e ∈ r.1, Good e := by
  unfold writeHead at hw
  split at hw
  · cases hw
  next advance h1 =>
  split at hw
  · cases hw
  next unicodes h2 =>
  split at hw
  · cases hw
  next note h3 =>
  split at hw
  · cases hw
  next image h4 =>
  split at hw
  · cases hw
  next guidelines ids h5 =>
  split at hw
  · cases hw
  next anchors ids' h6 =>
  cases hw
  simp only [List.forall_mem_append]
  refine ⟨⟨⟨⟨⟨writeAdvance_good hE h1, ?_⟩, oneIf_good h3 fun e he => writeNote_good h.note he⟩, oneIf_good h4 fun e he => writeImage_good hE h.image he⟩, ?_⟩, ?_⟩
  · split at h2
    · exact writeUnicodes_good h2
    · cases h2; simp
  · split at h5
    · exact writeGuidelines_good hE h.guidelines h5
    · cases h5; simp
  · split at h6
    · exact writeAnchors_good hE h.anchors h6
    · cases h6; simp

theorem drawn_lxml {E : Env} (hE : ReprLaws E) (b : Bool) (fv : Nat) (ids : List Str) {o : Obj} {name : PyVal} {draw : Option (List Call)} (h : Legible name o draw) :
    drawn E.asLxml b fv ids (o.attr c!"anchors") draw = drawn E b fv ids (o.attr c!"anchors") draw := by
  cases draw with
  | none => rfl
  | some cs => rw [drawn, drawn, writeOutline_lxml hE b fv ids h.anchors (h.draw cs rfl)]

theorem drawn_good {E : Env} (hE : ReprLaws E) {b : Bool} {fv : Nat} {ids : List Str} {o : Obj} {name : PyVal} {draw : Option (List Call)} (h : Legible name o draw) {es : List Elem}
    (hw : drawn E b fv ids (o.attr c!"anchors") draw = .ok es) : ∀ e ∈ es, Good e := by
  cases draw with
  | none => cases hw; simp
  | some cs =>
    obtain ⟨e, he, rfl⟩ := map_single hw
    rw [List.forall_mem_singleton]
    exact writeOutline_good hE h.anchors (h.draw cs rfl) he

/-- The tree of a legible glyph can be written to a file; the lxml backend makes the same tree, with strings for bytes. -/
theorem writeGlyphTree_lxml {E : Env} (hE : ReprLaws E) {b : Bool} {fv : Nat} {name : PyVal} {o : Obj} {draw : Option (List Call)} (h : Legible name o draw) {tree : Elem}
    (hw : writeGlyphTree E b fv name o draw = .ok tree) :
    ∃ tree', writeGlyphTree E.asLxml b fv name o draw = .ok tree' ∧ SameTree tree' tree ∧ Writable tree ∧ StrTree tree' ∧ (∀ c ∈ tree'.children, NoteFine c) ∧ tree.tail = none := by
  unfold writeGlyphTree at hw
  split at hw
  · cases hw
  next hn =>
  split at hw
  · cases hw
  next attrs ha =>
  split at hw
  · cases hw
  next head ids hh =>
  split at hw
  · cases hw
  next outline ho =>
  split at hw
  · cases hw
  next lib hl =>
  cases hw
  have hv : Vals [(c!"name", name), (c!"format", .str (natRepr fv))] :=
    vals_cons (Clean.str h.name) (vals_cons (fun s hs => by cases hs; exact attrText_graph (intRepr_graph (Int.ofNat fv))) vals_nil)
  have g1 := writeHead_good hE h hh
  have g2 := drawn_good hE h ho
  have hlib : ∃ lib', oneIf (truthy (o.attr c!"lib")) (writeLib E.asLxml b (o.attr c!"lib")) = .ok lib' ∧ SameTrees lib' lib ∧ (∀ e ∈ lib, Writable e) ∧ ∀ e ∈ lib', Good e := by
    unfold oneIf at hl ⊢
    split at hl
    · obtain ⟨e, he, rfl⟩ := map_single hl
      obtain ⟨e', h1, h2, h3, h4, -⟩ := writeLib_lxml hE h.lib he
      rw [if_pos ‹_›, h1]
      refine ⟨[e'], rfl, .cons _ _ _ _ h2 .nil, ?_, ?_⟩
      · rw [List.forall_mem_singleton]; exact h3
      · rw [List.forall_mem_singleton]; exact h4
    · cases hl
      rw [if_neg ‹_›]
      exact ⟨[], rfl, .nil, by simp, by simp⟩
  obtain ⟨lib', l1, l2, l3, l4⟩ := hlib
  obtain ⟨a1, a2⟩ := attrTexts_spec ha
  have hwr : ∀ es : List Elem, (∀ e ∈ es, Writable e) → Writable (.mk c!"glyph" attrs none none es) := by
    intro es hes
    refine ⟨by decide, ?_, fun p hp => ⟨?_, ?_⟩, Plist.goodText_none, Plist.goodText_none, writableList_iff.2 hes⟩
    · rw [a1]
      show [c!"name", c!"format"].Nodup
      decide
    · have := a2 p hp
      simp only [List.mem_cons, Prod.mk.injEq, List.not_mem_nil, or_false] at this
      rcases this with ⟨h, -⟩ | ⟨h, -⟩ <;> rw [h] <;> decide
    · exact goodAttr_of (hv _ (a2 p hp) _ rfl)
  refine ⟨.mk c!"glyph" attrs none none (head ++ outline ++ lib'), ?_, ?_, ?_, ?_, ?_, rfl⟩
  · unfold writeGlyphTree
    rw [if_neg hn, attrTexts_lxml hv, ha]
    dsimp only
    rw [writeHead_lxml hE b fv h, hh]
    dsimp only
    rw [drawn_lxml hE b fv ids h, ho]
    dsimp only
    rw [l1]
  · exact .mk _ _ _ _ _ _ _ _ (.inl rfl) (.inl rfl) (sameTrees_append (sameTrees_refl _) l2)
  · refine hwr _ ?_
    simp only [List.forall_mem_append]
    exact ⟨⟨fun e he => (g1 e he).1, fun e he => (g2 e he).1⟩, l3⟩
  · refine ⟨by simp, by simp, strTrees_iff.2 ?_⟩
    simp only [List.forall_mem_append]
    exact ⟨⟨fun e he => (g1 e he).2.1, fun e he => (g2 e he).2.1⟩, fun e he => (l4 e he).2.1⟩
  · simp only [Elem.children, List.forall_mem_append]
    exact ⟨⟨fun e he => (g1 e he).2.2, fun e he => (g2 e he).2.2⟩, fun e he => (l4 e he).2.2⟩

/-- The text is read like the tree. -/
theorem tree_text {E : Env} (hE : ReprLaws E) {b : Bool} {fv : Nat} {name : PyVal} {o : Obj} {draw : Option (List Call)} (h : Legible name o draw) {tree : Elem}
    (hw : writeGlyphTree E b fv name o draw = .ok tree) :
    ∃ tree' s e, writeGlyphTree E.asLxml b fv name o draw = .ok tree' ∧ GlifFile.treeText tree = .ok s ∧ parse s = some e ∧
      ∀ R validate hasObj hasPen versions, readGlyphTree R validate hasObj hasPen versions e = readGlyphTree R validate hasObj hasPen versions tree' := by
  obtain ⟨tree', h1, h2, h3, h4, h5, h6⟩ := writeGlyphTree_lxml hE h hw
  refine ⟨tree', _, withTail none (plain (indent 0 tree)), h1, by rw [GlifFile.treeText, tostring, if_pos rfl, serialize_good (writable_indent 0 h3)], ?_, ?_⟩
  · rw [show (if false = true then xmlDeclaration ++ (if true = true then ['\n'] else []) else []) = ([] : Str) from rfl, List.nil_append]
    exact parse_serialized (writable_indent 0 h3) (indent_tail_ws tree h6) _ (.inr (.inr rfl))
  · intro R validate hasObj hasPen versions
    exact (readGlyphTree_same R validate hasObj hasPen versions (sameTree_trans h2 (sameTree_withTail (sameTree_plain (sameTree_indent 0 tree)) h6)) h4
      (Plist.strTree_withTail (Plist.strTree_plain _)) h5).symm

/-! ### the reader does not depend on the backend -/

theorem massagePoints_lxml (E : Env) (b : Bool) (fv : Nat) : ∀ (es : List Elem) (i : Nat), massagePoints E.asLxml b fv i es = massagePoints E b fv i es
  | [], _ => rfl
  | e :: es, i => by
    rw [massagePoints, massagePoints, massagePoints_lxml E b fv es]
    rfl

theorem massage_lxml (E : Env) (b : Bool) (fv : Nat) (es : List Elem) : massage E.asLxml b fv es = massage E b fv es := by
  unfold massage
  rw [massagePoints_lxml]

theorem readContour2_lxml (E : Env) (b : Bool) (ids : List Str) (e : Elem) : readContour2 E.asLxml b ids e = readContour2 E b ids e := by
  unfold readContour2
  rw [massage_lxml]

theorem readComponent_lxml (E : Env) (b : Bool) (fv : Nat) (ids : List Str) (e : Elem) : readComponent E.asLxml b fv ids e = readComponent E b fv ids e := rfl

theorem readOutline2_lxml (E : Env) (b : Bool) : ∀ (es : List Elem) (ids : List Str), readOutline2 E.asLxml b ids es = readOutline2 E b ids es
  | [], _ => rfl
  | e :: es, ids => by
    rw [readOutline2, readOutline2, readContour2_lxml, readComponent_lxml]
    simp only [readOutline2_lxml E b es]

theorem readItem1_lxml (E : Env) (b p : Bool) (e : Elem) : readItem1 E.asLxml b p e = readItem1 E b p e := by
  unfold readItem1 readContour1
  rw [massage_lxml, readComponent_lxml]
  rfl

theorem readOutline1_lxml (E : Env) (b p : Bool) : ∀ es : List Elem, readOutline1 E.asLxml b p es = readOutline1 E b p es
  | [] => rfl
  | e :: es => by rw [readOutline1, readOutline1, readItem1_lxml, readOutline1_lxml E b p es]

theorem readChild_lxml (E : Env) (b o p : Bool) (fv : Nat) (s : Collected) (e : Elem) : readChild E.asLxml b o p fv s e = readChild E b o p fv s e := by
  unfold readChild
  have h : s.outline E.asLxml b o p fv e = s.outline E b o p fv e := by
    unfold Collected.outline Collected.outline1 Collected.outline2
    rw [readOutline1_lxml]
    simp only [readOutline2_lxml]
    rfl
  rw [h]
  rfl

theorem readChildren_lxml (E : Env) (b o p : Bool) (fv : Nat) : ∀ (es : List Elem) (s : Collected), readChildren E.asLxml b o p fv s es = readChildren E b o p fv s es
  | [], _ => rfl
  | e :: es, s => by
    rw [readChildren, readChildren, readChild_lxml]
    simp only [readChildren_lxml E b o p fv es]

theorem readGlyphTree_lxml (E : Env) (b o p : Bool) (vs : List Int) (e : Elem) : readGlyphTree E.asLxml b o p vs e = readGlyphTree E b o p vs e := by
  unfold readGlyphTree readFormat
  simp only [readChildren_lxml]
  rfl

end Verif.Glif
