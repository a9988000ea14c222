import Verif.Model.PlistFile
import Verif.Proofs.Plist
import Verif.Proofs.Xml
/-! Lemmas about property list files. -/
namespace Verif.Plist
open Verif Verif.Xml Verif.Spec.Plist Verif.Spec.Xml

mutual
theorem representable_mono {T U : Str → Prop} (h : ∀ s, T s → U s) {v : PyVal} (hv : Representable T v) : Representable U v := by
  match hv with
  | .bool b => exact .bool b
  | .int i h' => exact .int i h'
  | .float f => exact .float f
  | .str s h' => exact .str s (h s h')
  | .bytes b => exact .bytes b
  | .date d => exact .date d
  | .list l h' => exact .list l (representableList_mono h h')
  | .tuple l h' => exact .tuple l (representableList_mono h h')
  | .dict d h' => exact .dict d (representableItems_mono h h')
theorem representableList_mono {T U : Str → Prop} (h : ∀ s, T s → U s) {l : List PyVal} (hv : RepresentableList T l) : RepresentableList U l := by
  match hv with
  | .nil => exact .nil
  | .cons v l h1 h2 => exact .cons v l (representable_mono h h1) (representableList_mono h h2)
theorem representableItems_mono {T U : Str → Prop} (h : ∀ s, T s → U s) {d : List (PyVal × PyVal)} (hv : RepresentableItems T d) : RepresentableItems U d := by
  match hv with
  | .nil => exact .nil
  | .cons k v l h1 h2 h3 => exact .cons k v l (h k h1) (representable_mono h h2) (representableItems_mono h h3)
end

/-! ### shape of the trees of property lists -/

mutual
/-- The trees `totree` makes: no attributes, no tails, text only in leaves, only containers have children. -/
inductive Shape : Elem → Elem → Prop
  | leaf (tag : Str) (x y : Option Text) (htag : isName tag = true) (hx : GoodText x) (hy : ∀ b, y ≠ some (.bytes b)) (h : textStr x = textStr y) :
      Shape (.mk tag [] x none []) (.mk tag [] y none [])
  | node (tag : Str) (c c' : List Elem) (htag : tag = c!"dict" ∨ tag = c!"array" ∨ tag = c!"true" ∨ tag = c!"false") (h : ShapeList c c') :
      Shape (.mk tag [] none none c) (.mk tag [] none none c')
inductive ShapeList : List Elem → List Elem → Prop
  | nil : ShapeList [] []
  | cons (e e' : Elem) (es es' : List Elem) (h : Shape e e') (h' : ShapeList es es') : ShapeList (e :: es) (e' :: es')
end

/-- One element with the built-in backend, one with lxml. -/
def ShapeR (a b : Except Exc Elem) : Prop := ∃ e e', a = .ok e ∧ b = .ok e' ∧ Shape e e'

theorem goodText_of {s : Str} (h : FileText s) : GoodText (some (.str s)) := by
  refine ⟨fun c hc => ⟨?_, ?_⟩, fun b hb => by cases hb⟩
  · rw [← isXmlChar_eq]; exact (isXmlChar_iff c).2 (h.1 c hc)
  · rintro rfl; exact h.2 hc

theorem fileText_graph {s : Str} (h : ∀ c ∈ s, isGraph c = true) : FileText s :=
  ⟨treeText_graph true h rfl, fun hc => by have := h _ hc; exact absurd this (by decide)⟩

theorem shape_text {tag s : Str} (htag : isName tag = true) (h : FileText s) : ShapeR (textLeaf false tag (.str s)) (textLeaf true tag (.str s)) :=
  ⟨_, _, textLeaf_str tag (fun h => by cases h), textLeaf_str tag (fun _ => h.1), .leaf tag _ _ htag (goodText_of h) (by intro b hb; cases hb) rfl⟩

theorem textStr_ascii (s : Str) (h : ∀ c ∈ s, c.toNat < 128) : textStr (some (.bytes (asciiBytes s))) = s := by
  rw [textStr, asciiBytes, List.map_map]
  conv_rhs => rw [← List.map_id s]
  exact List.map_congr_left fun c hc => ofNat_toNat (h c hc)

theorem base64_no_cr (data : List UInt8) (m : Option Nat) (i : Nat) : '\r' ∉ encodeBase64 data m i := by
  intro hc
  rcases encodeBase64_chars data m i _ hc with h | h | h
  · exact absurd h (by decide)
  · exact absurd h (by decide)
  · exact absurd h (by decide)

theorem shape_data (b : List UInt8) (m : Option Nat) (i : Nat) :
    ShapeR (textLeaf false c!"data" (.bytes (asciiBytes (encodeBase64 b m i)))) (textLeaf true c!"data" (.bytes (asciiBytes (encodeBase64 b m i)))) := by
  have hb := base64_text b m i
  have hs := textStr_ascii (encodeBase64 b m i) fun c hc => (hb c hc).1
  refine ⟨_, _, rfl, textLeaf_data_lxml _ _ hb, .leaf _ _ _ (by decide) ⟨?_, ?_⟩ (by intro b hb; cases hb) hs⟩
  · rw [hs]
    intro c hc
    rw [← isXmlChar_eq]
    exact ⟨(hb c hc).2, fun h => base64_no_cr b m i (h ▸ hc)⟩
  · intro l hl x hx
    cases hl
    obtain ⟨c, hc, rfl⟩ := List.mem_map.1 hx
    rw [UInt8.lt_iff_toNat_lt, UInt8.toNat_ofNat']
    have := (hb c hc).1
    show c.toNat % 2 ^ 8 < 128
    omega

theorem shape_dictChildren (l : List (Str × Except Exc Elem × Except Exc Elem)) (h : ∀ x ∈ l, FileText x.1 ∧ ShapeR x.2.1 x.2.2) :
    ∃ es es', dictChildren false (l.map fun x => (x.1, x.2.1)) = .ok es ∧ dictChildren true (l.map fun x => (x.1, x.2.2)) = .ok es' ∧ ShapeList es es' := by
  induction l with
  | nil => exact ⟨[], [], rfl, rfl, .nil⟩
  | cons x l ih =>
    rw [List.forall_mem_cons] at h
    obtain ⟨es, es', h1, h2, h3⟩ := ih h.2
    obtain ⟨k, k', hk1, hk2, hk⟩ := shape_text (tag := c!"key") (by decide) h.1.1
    obtain ⟨e, e', he1, he2, he⟩ := h.1.2
    refine ⟨k :: e :: es, k' :: e' :: es', ?_, ?_, .cons _ _ _ _ hk (.cons _ _ _ _ he h3)⟩
    · rw [List.map_cons, dictChildren, hk1, he1]; simp only; rw [h1]
    · rw [List.map_cons, dictChildren, hk2, he2]; simp only; rw [h2]

mutual
theorem makeElement_shape (F : FloatCodec) (hF : F.Lawful) (pretty : Bool) (indent : Nat) (v : PyVal) (hv : Representable FileText v) :
    ShapeR (makeElement F false pretty indent v) (makeElement F true pretty indent v) := by
  match v with
  | .str s => cases hv with | str _ h => exact shape_text (by decide) h
  | .bool b =>
    refine ⟨_, _, rfl, rfl, ?_⟩
    cases b
    · exact .node _ _ _ (by simp) .nil
    · exact .node _ _ _ (by simp) .nil
  | .int i =>
    cases hv with
    | int _ h =>
      rw [makeElement, makeElement, integerElement, integerElement, if_pos h, if_pos h]
      exact shape_text (by decide) (fileText_graph (intRepr_graph i))
  | .float f => exact shape_text (by decide) (fileText_graph (hF.repr_graph f))
  | .date d => exact shape_text (by decide) (fileText_graph (dateToString_graph d))
  | .bytes b => exact shape_data b _ _
  | .list l =>
    cases hv with
    | list _ hv =>
      obtain ⟨es, es', h1, h2, h3⟩ := makeList_shape F hF pretty (indent + 1) l hv
      rw [makeElement, makeElement, h1, h2]
      exact ⟨_, _, rfl, rfl, .node _ _ _ (by simp) h3⟩
  | .tuple l =>
    cases hv with
    | tuple _ hv =>
      obtain ⟨es, es', h1, h2, h3⟩ := makeList_shape F hF pretty (indent + 1) l hv
      rw [makeElement, makeElement, h1, h2]
      exact ⟨_, _, rfl, rfl, .node _ _ _ (by simp) h3⟩
  | .dict d =>
    cases hv with
    | dict _ hv =>
      obtain ⟨l, h1, h2, h3⟩ := makeItems_shape F hF pretty (indent + 1) d hv
      have hs : ∀ (f : Except Exc Elem × Except Exc Elem → Except Exc Elem),
          (strKeys (l.map fun x => (PyVal.str x.1, f x.2))).map sortItems = some ((sortItems l).map fun x => (x.1, f x.2)) := by
        intro f
        have := strKeys_map (l.map fun x => (x.1, f x.2))
        rw [List.map_map] at this
        simp only [Function.comp_def] at this
        rw [this, Option.map_some, sortItems_map f l]
      obtain ⟨es, es', h4, h5, h6⟩ := shape_dictChildren (sortItems l) fun x hx => h3 x ((sortItems_perm l).mem_iff.1 hx)
      rw [makeElement_dict, makeElement_dict, sortedElements, sortedElements, h1, h2, hs Prod.fst, hs Prod.snd]
      simp only
      rw [h4, h5]
      exact ⟨_, _, rfl, rfl, .node _ _ _ (by simp) h6⟩
  | .none => cases hv
  | .other n => cases hv
theorem makeList_shape (F : FloatCodec) (hF : F.Lawful) (pretty : Bool) (indent : Nat) (l : List PyVal) (hv : RepresentableList FileText l) :
    ∃ es es', makeList F false pretty indent l = .ok es ∧ makeList F true pretty indent l = .ok es' ∧ ShapeList es es' := by
  match l with
  | [] => exact ⟨[], [], rfl, rfl, .nil⟩
  | v :: l =>
    cases hv with
    | cons _ _ h h' =>
      obtain ⟨e, e', h1, h2, h3⟩ := makeElement_shape F hF pretty indent v h
      obtain ⟨es, es', h4, h5, h6⟩ := makeList_shape F hF pretty indent l h'
      exact ⟨e :: es, e' :: es', by rw [makeList, h1, h4], by rw [makeList, h2, h5], .cons _ _ _ _ h3 h6⟩
theorem makeItems_shape (F : FloatCodec) (hF : F.Lawful) (pretty : Bool) (indent : Nat) (d : List (PyVal × PyVal)) (hv : RepresentableItems FileText d) :
    ∃ l : List (Str × Except Exc Elem × Except Exc Elem), makeValues F false pretty indent d = l.map (fun x => (.str x.1, x.2.1)) ∧
      makeValues F true pretty indent d = l.map (fun x => (.str x.1, x.2.2)) ∧ ∀ x ∈ l, FileText x.1 ∧ ShapeR x.2.1 x.2.2 := by
  match d with
  | [] => exact ⟨[], rfl, rfl, by simp⟩
  | (k, v) :: d =>
    cases hv with
    | cons s _ _ hk hv h =>
      obtain ⟨l, h1, h2, h3⟩ := makeItems_shape F hF pretty indent d h
      refine ⟨(s, makeElement F false pretty indent v, makeElement F true pretty indent v) :: l, by rw [makeValues, h1]; rfl, by rw [makeValues, h2]; rfl, ?_⟩
      rw [List.forall_mem_cons]
      exact ⟨⟨hk, makeElement_shape F hF pretty indent v hv⟩, h3⟩
end

/-! ### writing -/

theorem goodText_none : GoodText none := ⟨fun c hc => by simp [textStr] at hc, fun b hb => by cases hb⟩

mutual
theorem shape_writable {e e' : Elem} (h : Shape e e') : Writable e := by
  match h with
  | .leaf tag x y htag hx hy ht => exact ⟨htag, List.nodup_nil, by simp, hx, goodText_none, trivial⟩
  | .node tag c c' htag hc =>
    refine ⟨?_, List.nodup_nil, by simp, goodText_none, goodText_none, shapeList_writable hc⟩
    rcases htag with rfl | rfl | rfl | rfl <;> decide
theorem shapeList_writable {es es' : List Elem} (h : ShapeList es es') : WritableList es := by
  match h with
  | .nil => exact trivial
  | .cons _ _ _ _ h h' => exact ⟨shape_writable h, shapeList_writable h'⟩
end

theorem writable_plist {e : Elem} (h : Writable e) : Writable (plistElement e) := by
  refine ⟨by decide, by decide, ?_, goodText_none, goodText_none, h, trivial⟩
  intro p hp
  rw [List.mem_singleton] at hp
  subst hp
  exact ⟨by decide, fun c hc => by revert c hc; decide⟩

/-! ### reading: the events of the parser against the walk over the tree -/

/-- Equal up to collected text. -/
def Sim (t u : Target) : Prop := t.stack = u.stack ∧ t.key = u.key ∧ t.root = u.root

theorem Sim.data {t u : Target} (h : Sim t u) (d : List Text) : ({ t with data := d } : Target) = { u with data := d } := by
  obtain ⟨h1, h2, h3⟩ := h
  rw [h1, h2, h3]

theorem Sim.eq {t u : Target} (h : Sim t u) : t = { u with data := t.data } := by
  obtain ⟨h1, h2, h3⟩ := h
  obtain ⟨a, b, c, d⟩ := t
  simp only at h1 h2 h3
  subst h1 h2 h3
  rfl

theorem sim_feedText {t u : Target} (h : Sim t u) (x : Option Text) : Sim (t.feedText x) u := by
  cases x <;> exact h

theorem sim_startTag {t u : Target} (h : Sim t u) (tag : Str) : t.startTag tag = u.startTag tag := by
  rw [Target.startTag, Target.startTag, h.data []]

theorem add_data {t : Target} (d : List Text) (v : PyVal) {u : Target} (h : t.add v = .ok u) : ∃ u', ({ t with data := d } : Target).add v = .ok u' ∧ Sim u' u := by
  rw [Target.add] at h ⊢
  rw [slot_data]
  rcases hs : t.slot with x | s
  · rw [hs] at h; cases h
  · rw [hs] at h
    cases h
    exact ⟨_, rfl, by rw [put_with]; exact ⟨rfl, rfl, rfl⟩⟩

theorem pop_data {t : Target} (d : List Text) {u : Target} (h : t.pop = .ok u) : ∃ u', ({ t with data := d } : Target).pop = .ok u' ∧ Sim u' u := by
  rw [Target.pop] at h ⊢
  rcases hs : t.stack with _ | ⟨⟨s, c⟩, rest⟩
  · rw [hs] at h; cases h
  · rw [hs] at h
    cases h
    refine ⟨_, rfl, ?_⟩
    simp only
    have h1 := put_with ⟨rest, t.key, t.root, t.data⟩ t.key d s c.value
    have h2 := put_with ⟨rest, t.key, t.root, t.data⟩ t.key t.data s c.value
    simp only at h1 h2
    rw [h1, h2]
    exact ⟨rfl, rfl, rfl⟩

/-- End tags that do not use the collected text. -/
theorem sim_endTag (F : FloatCodec) {t u : Target} (h : Sim t u) {tag : Str} (htag : tag = c!"dict" ∨ tag = c!"array" ∨ tag = c!"true" ∨ tag = c!"false")
    {u' : Target} (hu : u.endTag F tag = .ok u') : ∃ t', t.endTag F tag = .ok t' ∧ Sim t' u' := by
  rw [h.eq]
  rcases htag with rfl | rfl | rfl | rfl
  · rw [Target.endTag] at hu ⊢
    rw [if_pos rfl] at hu ⊢
    rcases hk : u.key with _ | _ | ⟨c, k⟩
    · simp only [hk] at hu ⊢
      have := pop_data t.data hu
      rwa [hk] at this
    · simp only [hk] at hu ⊢
      have := pop_data t.data hu
      rwa [hk] at this
    · simp only [hk] at hu; cases hu
  · have he : ∀ w : Target, w.endTag F c!"array" = w.pop := fun w => by simp [Target.endTag]
    rw [he] at hu ⊢; exact pop_data _ hu
  · have he : ∀ w : Target, w.endTag F c!"true" = w.add (.bool true) := fun w => by simp [Target.endTag]
    rw [he] at hu ⊢; exact add_data _ _ hu
  · have he : ∀ w : Target, w.endTag F c!"false" = w.add (.bool false) := fun w => by simp [Target.endTag]
    rw [he] at hu ⊢; exact add_data _ _ hu

mutual
/-- All texts and tails are strings (as in every parsed tree). -/
def StrTree : Elem → Prop
  | .mk _ _ text tail children => (∀ b, text ≠ some (.bytes b)) ∧ (∀ b, tail ≠ some (.bytes b)) ∧ StrTrees children
def StrTrees : List Elem → Prop
  | [] => True
  | e :: es => StrTree e ∧ StrTrees es
end

theorem asText_not_bytes (s : Str) (b : List UInt8) : asText s ≠ some (.bytes b) := by cases s <;> simp [asText]

mutual
theorem strTree_plain (e : Elem) : StrTree (plain e) := by
  match e with
  | .mk tag attrib text tail children => rw [plain]; exact ⟨asText_not_bytes _, asText_not_bytes _, strTrees_plain children⟩
theorem strTrees_plain (es : List Elem) : StrTrees (plainList es) := by
  match es with
  | [] => exact trivial
  | e :: es => rw [plainList]; exact ⟨strTree_plain e, strTrees_plain es⟩
end

theorem joinData_leaf {x y : Option Text} (hx : ∀ b, x ≠ some (.bytes b)) (hy : ∀ b, y ≠ some (.bytes b)) (h : textStr x = textStr y) (t : Target) :
    joinData ((({ t with data := [] } : Target).feedText x).data) = joinData [orEmpty y] := by
  have h1 : joinData ((({ t with data := [] } : Target).feedText x).data) = .ok (textStr x) := by
    rcases x with _ | s | b
    · rfl
    · simp [Target.feedText, joinData, textStr, Except.map]
    · exact absurd rfl (hx b)
  have h2 : joinData [orEmpty y] = .ok (textStr y) := by
    rcases y with _ | s | b
    · rfl
    · simp [orEmpty, joinData, textStr, Except.map]
    · exact absurd rfl (hy b)
  rw [h1, h2, h]

/-- Tags of leaves whose end handler uses the collected text. -/
theorem endTag_join (F : FloatCodec) (t : Target) (d d' : List Text) (hd : joinData d = joinData d') (tag : Str)
    {u' : Target} (hu : ({ t with data := d' } : Target).endTag F tag = .ok u') : ∃ t', ({ t with data := d } : Target).endTag F tag = .ok t' ∧ Sim t' u' := by
  by_cases htag : tag = c!"dict" ∨ tag = c!"array" ∨ tag = c!"true" ∨ tag = c!"false"
  · exact sim_endTag F (t := { t with data := d }) (u := { t with data := d' }) ⟨rfl, rfl, rfl⟩ htag hu
  · simp only [not_or] at htag
    obtain ⟨h1, h2, h3, h4⟩ := htag
    have hadd : ∀ f, ({ t with data := d' } : Target).addData f = .ok u' → ∃ t', ({ t with data := d } : Target).addData f = .ok t' ∧ Sim t' u' := by
      intro f hf
      refine ⟨u', ?_, rfl, rfl, rfl⟩
      rw [← hf, Target.addData, Target.addData]
      simp only [hd]
    simp only [Target.endTag, if_neg h1, if_neg h2, if_neg h3, if_neg h4] at hu ⊢
    by_cases hk : tag = c!"key"
    · rw [if_pos hk] at hu ⊢
      refine ⟨u', ?_, rfl, rfl, rfl⟩
      rw [← hu, hd]
    · rw [if_neg hk] at hu ⊢
      by_cases g1 : tag = c!"integer"
      · rw [if_pos g1] at hu ⊢; exact hadd _ hu
      · rw [if_neg g1] at hu ⊢
        by_cases g2 : tag = c!"real"
        · rw [if_pos g2] at hu ⊢; exact hadd _ hu
        · rw [if_neg g2] at hu ⊢
          by_cases g3 : tag = c!"string"
          · rw [if_pos g3] at hu ⊢; exact hadd _ hu
          · rw [if_neg g3] at hu ⊢
            by_cases g4 : tag = c!"data"
            · rw [if_pos g4] at hu ⊢; exact hadd _ hu
            · rw [if_neg g4] at hu ⊢
              by_cases g5 : tag = c!"date"
              · rw [if_pos g5] at hu ⊢; exact hadd _ hu
              · rw [if_neg g5] at hu ⊢
                cases hu
                exact ⟨_, rfl, rfl, rfl, rfl⟩

theorem sameTrees_length {c d : List Elem} (h : SameTrees c d) : c = [] ↔ d = [] := by
  cases h <;> simp

mutual
theorem feed_sim (F : FloatCodec) {e e' p : Elem} (h : Shape e e') (hs : SameTree e p) (hp : StrTree p) {t u u' : Target} (htu : Sim t u)
    (hw : walk F u e' = .ok u') : ∃ t', feed F t p = .ok t' ∧ Sim t' u' := by
  match h with
  | .leaf tag x y htag hx hy hxy =>
    cases hs with
    | mk _ _ _ x' _ y' _ c' hx' hy' hc' =>
      have : c' = [] := (sameTrees_length hc').1 rfl
      subst this
      have hx' : textStr x = textStr x' := hx'.resolve_right (by simp)
      rw [walk] at hw
      rw [feed, sim_startTag htu]
      rcases hst : u.startTag tag with z | v
      · rw [hst] at hw; cases hw
      · rw [hst] at hw
        simp only [walkList, List.isEmpty_nil, if_true] at hw
        simp only [feedList]
        have hv : v.data = [] := by
          rw [Target.startTag] at hst
          split at hst
          · rw [Target.open] at hst
            split at hst
            · cases hst
            · cases hst; rfl
          · split at hst
            · rw [Target.open] at hst
              split at hst
              · cases hst
              · cases hst; rfl
            · cases hst; rfl
        have hv' : v = { v with data := [] } := by rw [← hv]
        rw [hv, List.nil_append] at hw
        have hj := joinData_leaf (x := x') (y := y) (fun b => hp.1 b) hy (hx'.symm.trans hxy) v
        obtain ⟨t', ht', hsim⟩ := endTag_join F v _ _ hj tag hw
        refine ⟨t', ?_, hsim⟩
        rw [← ht']
        conv_lhs => rw [hv']
        rcases x' with _ | s <;> rfl
  | .node tag c c' htag hc =>
    cases hs with
    | mk _ _ _ x' _ y' _ d hx' hy' hd =>
      rw [walk] at hw
      rw [feed, sim_startTag htu]
      rcases hst : u.startTag tag with z | v
      · rw [hst] at hw; cases hw
      · rw [hst] at hw
        simp only at hw ⊢
        rcases hwl : walkList F v c' with z | v'
        · rw [hwl] at hw; cases hw
        · rw [hwl] at hw
          obtain ⟨t2, ht2, hs2⟩ := feedList_sim F hc hd hp.2.2 (t := v.feedText x') (u := v) (sim_feedText ⟨rfl, rfl, rfl⟩ x') hwl
          rw [ht2]
          simp only at hw ⊢
          refine sim_endTag F ?_ htag hw
          split
          · exact hs2
          · exact hs2
theorem feedList_sim (F : FloatCodec) {es es' ps : List Elem} (h : ShapeList es es') (hs : SameTrees es ps) (hp : StrTrees ps) {t u u' : Target} (htu : Sim t u)
    (hw : walkList F u es' = .ok u') : ∃ t', feedList F t ps = .ok t' ∧ Sim t' u' := by
  match h with
  | .nil =>
    cases hs
    cases hw
    exact ⟨t, rfl, htu⟩
  | .cons e e' es es' h1 h2 =>
    cases hs with
    | cons _ p _ ps hs1 hs2 =>
      rw [walkList] at hw
      rcases hwe : walk F u e' with z | v
      · rw [hwe] at hw; cases hw
      · rw [hwe] at hw
        obtain ⟨t1, ht1, hsim1⟩ := feed_sim F h1 hs1 hp.1 htu hwe
        rw [feedList, ht1]
        exact feedList_sim F h2 hs2 hp.2 (sim_feedText hsim1 p.tail) hw
end

/-- The text before the root element. -/
def plistHeader (pretty : Bool) : Str := if pretty then xmlDeclaration ++ ['\n'] ++ plistDoctype ++ ['\n'] else xmlDeclaration ++ plistDoctype

theorem parse_plist (pretty : Bool) {e : Elem} (h : Writable e) (ht : ∀ c ∈ textStr e.tail, ws c = true) :
    parse (plistHeader pretty ++ (serCore e ++ cdata e.tail)) = some (withTail none (plain e)) := by
  have hcr : ∀ c ∈ plistHeader pretty ++ (serCore e ++ cdata e.tail), c ≠ '\r' := by
    intro c hc
    rcases List.mem_append.1 hc with hc | hc
    · have hh : ∀ p : Bool, ∀ c ∈ plistHeader p, c ≠ '\r' := by decide +kernel
      exact hh pretty c hc
    · rcases List.mem_append.1 hc with hc | hc
      · exact serCore_no_cr h c hc
      · exact cdata_no_cr (writable_tail h) c hc
  have hmark : ∀ p : Bool, ∀ c ∈ (plistHeader p).head?, c.toNat ≠ 0xFEFF := by decide
  have hws : (serCore e ++ cdata e.tail).dropWhile ws = serCore e ++ cdata e.tail := by
    obtain ⟨c, r, hc, _⟩ := serCore_head e h
    rw [hc]; rfl
  have hd : ∀ x s, s.dropWhile ws = serCore e ++ cdata e.tail → x = plistDoctype ++ s →
      ((dropMisc x.length x).bind fun s => (dropDoctype s).bind fun s => (dropMisc s.length s).bind parseRoot) = some (withTail none (plain e)) := by
    rintro x s hs rfl
    obtain ⟨c, r, hcr, hc⟩ := serCore_head e h
    have h1 : dropMisc (plistDoctype ++ s).length (plistDoctype ++ s) = some (plistDoctype ++ s) := rfl
    have h2 : dropDoctype (plistDoctype ++ s) = some s := rfl
    have h3 : s.dropWhile ws = '<' :: c :: (r ++ cdata e.tail) := by rw [hs, hcr]; rfl
    rw [h1, Option.bind_some, h2, Option.bind_some, dropMisc_tag h3 hc, ← h3, hs, Option.bind_some]
    exact parseBody h ht
  rw [parse, normNl_no_cr hcr, dropMark_tag _ e h _ (hmark pretty)]
  cases pretty
  · rw [plistHeader, if_neg (by simp), List.append_assoc, dropDecl_declaration, Option.bind_some]
    exact hd _ _ hws rfl
  · rw [plistHeader, if_pos rfl, List.append_assoc, List.append_assoc, List.append_assoc, dropDecl_declaration, Option.bind_some]
    have hnl : dropMisc (['\n'] ++ (plistDoctype ++ (['\n'] ++ (serCore e ++ cdata e.tail)))).length (['\n'] ++ (plistDoctype ++ (['\n'] ++ (serCore e ++ cdata e.tail)))) =
        dropMisc (plistDoctype ++ (['\n'] ++ (serCore e ++ cdata e.tail))).length (plistDoctype ++ (['\n'] ++ (serCore e ++ cdata e.tail))) := rfl
    rw [hnl]
    exact hd _ _ (by rw [List.singleton_append, List.dropWhile_cons_of_pos (by decide)]; exact hws) rfl

theorem strTree_withTail {e : Elem} (h : StrTree e) : StrTree (withTail none e) := by
  obtain ⟨tag, attrib, text, tail, children⟩ := e
  exact ⟨h.1, by simp, h.2.2⟩

theorem loads_dumps (F : FloatCodec) (hF : F.Lawful) (pretty : Bool) (v : PyVal) (hv : Representable FileText v) (hw : WellFormed v) :
    ∃ s w, dumps F pretty v = .ok s ∧ loads F s = .ok w ∧ Same (untuple v) w := by
  have hv' : Representable (TreeText true) v := representable_mono (fun s h _ => h.1) hv
  obtain ⟨e, e', he, he', hsh⟩ := makeElement_shape F hF pretty 1 v hv
  obtain ⟨e2, he2, hr⟩ := totree_reads F hF true pretty 1 v hv' hw (.inl rfl)
  rw [he'] at he2
  cases he2
  obtain ⟨d, hd⟩ := hr { Target.new with data := [] } .root rfl
  have hwr := writable_plist (shape_writable hsh)
  have key : ∃ s p, tostring false pretty (plistElement e) = .ok s ∧
      parse ((if pretty then xmlDeclaration ++ ['\n'] ++ plistDoctype ++ ['\n'] else xmlDeclaration ++ plistDoctype) ++ s) = some p ∧
      SameTree (plistElement e) p ∧ StrTree p := by
    cases pretty
    · refine ⟨_, withTail none (plain (plistElement e)), by rw [tostring, if_neg (by simp), serialize_good hwr], ?_, ?_, ?_⟩
      · exact parse_plist false hwr (by intro c hc; simp [plistElement, Elem.tail, textStr] at hc)
      · exact sameTree_withTail (sameTree_plain (sameTree_refl _)) rfl
      · exact strTree_withTail (strTree_plain _)
    · refine ⟨_, withTail none (plain (indent 0 (plistElement e))), by rw [tostring, if_pos rfl, serialize_good (writable_indent 0 hwr)], ?_, ?_, ?_⟩
      · exact parse_plist true (writable_indent 0 hwr) (indent_tail_ws _ rfl)
      · exact sameTree_withTail (sameTree_plain (sameTree_indent 0 _)) rfl
      · exact strTree_withTail (strTree_plain _)
  obtain ⟨s, p, hs, hp, hsame, hstr⟩ := key
  refine ⟨_, canon v, by rw [dumps, totree, he]; simp only; rw [hs], ?_, same_canon _ v hv⟩
  rw [loads, hp]
  simp only
  cases hsame with
  | mk _ _ _ x' _ y' _ c' hx hy hc =>
    cases hc with
    | cons _ q _ qs h1 h2 =>
      cases h2
      obtain ⟨_, _, hq, _⟩ := hstr
      rw [feed]
      have hst : Target.new.startTag c!"plist" = .ok { Target.new with data := [] } := by rfl
      rw [hst]
      simp only
      obtain ⟨t', ht', hsim⟩ := feed_sim F hsh h1 hq (t := ({ Target.new with data := [] } : Target).feedText x') (sim_feedText ⟨rfl, rfl, rfl⟩ x') hd
      rw [feedList, ht']
      simp only [feedList]
      have hend : ∀ t : Target, t.endTag F c!"plist" = .ok t := fun t => by simp [Target.endTag]
      rw [hend]
      simp only
      have := (sim_feedText hsim q.tail).2.2
      rw [this]
      rfl

end Verif.Plist
