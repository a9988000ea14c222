import Verif.Model.PlistOptions
import Verif.Spec.PlistOptions
import Verif.Proofs.PlistFile
/-! Lemmas about the options of the property list functions. -/
namespace Verif.PlistOptions
open Verif Verif.Xml Verif.Spec.Xml Verif.Spec.PlistOptions
open Verif.Spec.Plist hiding WellFormed WellFormedList WellFormedItems
open Verif.Plist (Slot Shape ShapeList ShapeR Reads shape_text shape_data shape_writable writable_plist feed_sim Sim sim_feedText kvElems
  parse_plist strTree_withTail strTree_plain StrTree reads_list reads_dict reads_string reads_integer reads_real reads_date reads_data reads_bool
  textLeaf textLeaf_str textLeaf_data_lxml base64_text fileText_graph dateToString_graph integerElement plistElement plistDoctype sortItems sortItems_perm
  sortItems_map dictChildren dictChildren_kv sameItems_of_perm ofNat_toNat orEmpty joinData b64decode dateFromString)

/-! ### reading: `Data` objects instead of bytes and otherwise the same -/

/-- The same open container with values handed out as `builtin` says. -/
def contAs (b : Bool) : Plist.Cont → Cont
  | .dict d => .dict (d.map fun p => (p.1, readAs b p.2))
  | .list l => .list (l.map (readAs b))

/-- The same state. -/
def targetAs (b : Bool) (t : Plist.Target) : Target := ⟨t.stack.map fun x => (x.1, contAs b x.2), t.key, t.root.map (readAs b), t.data⟩

theorem readAsList_eq (b : Bool) : ∀ l, readAsList b l = l.map (readAs b)
  | [] => rfl
  | v :: l => by rw [readAsList, readAsList_eq b l, List.map_cons]

theorem readAsItems_eq (b : Bool) : ∀ l, readAsItems b l = l.map fun p => (readAs b p.1, readAs b p.2)
  | [] => rfl
  | (k, v) :: l => by rw [readAsItems, readAsItems_eq b l, List.map_cons]

theorem value_as (b : Bool) (c : Plist.Cont) : (contAs b c).value = readAs b c.value := by
  cases c with
  | dict d => simp [contAs, Cont.value, Plist.Cont.value, readAs, readAsItems_eq]
  | list l => simp [contAs, Cont.value, Plist.Cont.value, readAs, readAsList_eq]

theorem slot_as (b : Bool) (t : Plist.Target) : (targetAs b t).slot = t.slot := by
  obtain ⟨st, k, r, d⟩ := t
  rcases k with _ | k <;> rcases st with _ | ⟨⟨_, _ | _⟩, _⟩ <;> rfl

theorem set_map (b : Bool) (k : Str) (v : PyVal) : ∀ d : Dict Str PyVal, Dict.set (d.map fun p => (p.1, readAs b p.2)) k (readAs b v) = (Dict.set d k v).map fun p => (p.1, readAs b p.2)
  | [] => rfl
  | (k', v') :: d => by
    rw [List.map_cons, Dict.set, Dict.set]
    by_cases h : k' = k
    · rw [if_pos h, if_pos h, List.map_cons]
    · rw [if_neg h, if_neg h, List.map_cons, set_map b k v d]

theorem put_as (b : Bool) (t : Plist.Target) (s : Slot) (v : PyVal) : (targetAs b t).put s (readAs b v) = targetAs b (t.put s v) := by
  obtain ⟨st, k, r, d⟩ := t
  rcases s with _ | x | _
  · rfl
  · rcases st with _ | ⟨⟨_, _ | _⟩, _⟩
    · rfl
    · simp [targetAs, Target.put, Plist.Target.put, contAs, set_map]
    · rfl
  · rcases st with _ | ⟨⟨_, _ | _⟩, _⟩
    · rfl
    · rfl
    · simp [targetAs, Target.put, Plist.Target.put, contAs]

theorem add_as (b : Bool) (t : Plist.Target) (v : PyVal) : (targetAs b t).add (readAs b v) = (t.add v).map (targetAs b) := by
  rw [Target.add, Plist.Target.add, slot_as]
  rcases t.slot with x | s
  · rfl
  · simp only [put_as]; rfl

theorem open_as (b : Bool) (t : Plist.Target) (c : Plist.Cont) : (targetAs b t).open (contAs b c) = (t.open c).map (targetAs b) := by
  rw [Target.open, Plist.Target.open, slot_as]
  rcases t.slot with x | s <;> rfl

theorem pop_as (b : Bool) (t : Plist.Target) : (targetAs b t).pop = t.pop.map (targetAs b) := by
  obtain ⟨st, k, r, d⟩ := t
  rcases st with _ | ⟨⟨s, c⟩, rest⟩
  · rfl
  · rw [Target.pop, Plist.Target.pop]
    simp only [targetAs, List.map_cons, Except.map]
    have := put_as b ⟨rest, k, r, d⟩ s c.value
    rw [← value_as] at this
    exact congrArg Except.ok this

theorem addData_as (b : Bool) (t : Plist.Target) {f : Str → Except Exc PlVal} {g : Str → Except Exc PyVal} (h : ∀ s, f s = (g s).map (readAs b)) :
    (targetAs b t).addData f = (t.addData g).map (targetAs b) := by
  rw [Target.addData, Plist.Target.addData]
  have : (targetAs b t).data = t.data := rfl
  rw [this]
  rcases joinData t.data with x | s
  · rfl
  · simp only [h]
    rcases g s with x | v
    · rfl
    · exact add_as b { t with data := [] } v

theorem ite_as {α β : Type} {c : Prop} [Decidable c] {f : α → β} {a b : Except Exc β} {a' b' : Except Exc α} (h1 : a = a'.map f) (h2 : b = b'.map f) :
    (if c then a else b) = (if c then a' else b').map f := by
  by_cases h : c
  · rw [if_pos h, if_pos h, h1]
  · rw [if_neg h, if_neg h, h2]

theorem endTag_as (F : FloatCodec) (b : Bool) (t : Plist.Target) (tag : Str) : (targetAs b t).endTag F b tag = (t.endTag F tag).map (targetAs b) := by
  rw [Target.endTag, Plist.Target.endTag]
  refine ite_as ?_ (ite_as ?_ (ite_as ?_ (ite_as ?_ (ite_as ?_ (ite_as ?_ (ite_as ?_ (ite_as ?_ (ite_as ?_ (ite_as ?_ ?_)))))))))
  · have : (targetAs b t).key = t.key := rfl
    rw [this]
    rcases t.key with _ | _ | ⟨c, k⟩
    · exact pop_as b t
    · exact pop_as b t
    · rfl
  · exact pop_as b t
  · obtain ⟨st, k, r, d⟩ := t
    rcases k with _ | _ | ⟨c, k⟩
    · rcases st with _ | ⟨⟨_, _ | _⟩, _⟩
      · rfl
      · simp only [targetAs, contAs, List.map_cons]
        rcases joinData d with x | s <;> rfl
      · rfl
    · rcases st with _ | ⟨⟨_, _ | _⟩, _⟩
      · rfl
      · simp only [targetAs, contAs, List.map_cons]
        rcases joinData d with x | s <;> rfl
      · rfl
    · rfl
  · exact add_as b t (.bool true)
  · exact add_as b t (.bool false)
  · refine addData_as b t fun s => ?_
    rcases pyInt s with _ | i <;> rfl
  · refine addData_as b t fun s => ?_
    rcases F.parse s with _ | i <;> rfl
  · exact addData_as b t fun s => rfl
  · refine addData_as b t fun s => ?_
    rw [dataFromBase64]
    rcases b64decode s with x | l
    · cases b <;> rfl
    · cases b <;> rfl
  · refine addData_as b t fun s => ?_
    rcases dateFromString s with x | l <;> rfl
  · rfl

theorem startTag_as (b : Bool) (t : Plist.Target) (tag : Str) : (targetAs b t).startTag tag = (t.startTag tag).map (targetAs b) := by
  rw [Target.startTag, Plist.Target.startTag]
  refine ite_as ?_ (ite_as ?_ ?_)
  · exact open_as b { t with data := [] } (.dict [])
  · exact open_as b { t with data := [] } (.list [])
  · rfl

mutual
theorem walk_as (F : FloatCodec) (b : Bool) (t : Plist.Target) (e : Elem) : walk F b (targetAs b t) e = (Plist.walk F t e).map (targetAs b) := by
  match e with
  | .mk tag _ text _ children =>
    rw [walk, Plist.walk, startTag_as]
    rcases t.startTag tag with x | t
    · rfl
    · simp only [Except.map]
      rw [walkList_as F b t children]
      rcases Plist.walkList F t children with x | t
      · rfl
      · simp only [Except.map]
        split_ifs
        · exact endTag_as F b { t with data := t.data ++ [orEmpty text] } tag
        · exact endTag_as F b t tag
theorem walkList_as (F : FloatCodec) (b : Bool) (t : Plist.Target) (es : List Elem) : walkList F b (targetAs b t) es = (Plist.walkList F t es).map (targetAs b) := by
  match es with
  | [] => rfl
  | e :: es =>
    rw [walkList, Plist.walkList, walk_as F b t e]
    rcases Plist.walk F t e with x | t
    · rfl
    · exact walkList_as F b t es
end

theorem feedText_as (b : Bool) (t : Plist.Target) (x : Option Text) : (targetAs b t).feedText x = targetAs b (t.feedText x) := by
  cases x <;> rfl

mutual
theorem feed_as (F : FloatCodec) (b : Bool) (t : Plist.Target) (e : Elem) : feed F b (targetAs b t) e = (Plist.feed F t e).map (targetAs b) := by
  match e with
  | .mk tag _ text _ children =>
    rw [feed, Plist.feed, startTag_as]
    rcases t.startTag tag with x | t
    · rfl
    · simp only [Except.map]
      rw [feedText_as, feedList_as F b _ children]
      rcases Plist.feedList F (t.feedText text) children with x | t
      · rfl
      · exact endTag_as F b t tag
theorem feedList_as (F : FloatCodec) (b : Bool) (t : Plist.Target) (es : List Elem) : feedList F b (targetAs b t) es = (Plist.feedList F t es).map (targetAs b) := by
  match es with
  | [] => rfl
  | e :: es =>
    rw [feedList, Plist.feedList, feed_as F b t e]
    rcases Plist.feed F t e with x | t
    · rfl
    · simp only [Except.map]
      rw [feedText_as]
      exact feedList_as F b _ es
end

theorem root_as (b : Bool) (t : Plist.Target) : (targetAs b t).root.getD .none = readAs b (t.root.getD .none) := by
  obtain ⟨st, k, r, d⟩ := t
  cases r <;> rfl

theorem fromtree_as (F : FloatCodec) (b : Bool) (e : Elem) : fromtree F b e = (Plist.fromtree F e).map (readAs b) := by
  rw [fromtree, Plist.fromtree]
  have := walk_as F b .new e
  have hn : targetAs b .new = .new := rfl
  rw [hn] at this
  rw [this]
  rcases Plist.walk F .new e with x | t
  · rfl
  · exact congrArg Except.ok (root_as b t)

theorem loads_as (F : FloatCodec) (b : Bool) (s : Str) : loads F b s = (Plist.loads F s).map (readAs b) := by
  rw [loads, Plist.loads]
  rcases parse s with _ | e
  · rfl
  · simp only
    have := feed_as F b .new e
    have hn : targetAs b .new = .new := rfl
    rw [hn] at this
    rw [this]
    rcases Plist.feed F .new e with x | t
    · rfl
    · exact congrArg Except.ok (root_as b t)

/-! ### writing -/

/-- What is known of one value written with both backends: it is read back as the stored value, dictionaries perhaps reordered. -/
def Good (F : FloatCodec) (o : Options) (a b : Except Exc Elem) (w : PyVal) : Prop :=
  ∃ e e' w', a = .ok e ∧ b = .ok e' ∧ Shape e e' ∧ Reads F e' w' ∧ Same w w' ∧ (o.sortKeys = false → w' = w)

theorem good_text (F : FloatCodec) (o : Options) {tag s : Str} {w : PyVal} (htag : isName tag = true) (h : FileText s) (hr : Reads F (Elem.leaf tag (some (.str s))) w) :
    Good F o (textLeaf false tag (.str s)) (textLeaf true tag (.str s)) w := by
  obtain ⟨e, e', h1, h2, h3⟩ := shape_text htag h
  rw [textLeaf_str tag (fun _ => h.1)] at h2
  cases h2
  exact ⟨e, _, w, h1, textLeaf_str tag (fun _ => h.1), h3, hr, .refl _, fun _ => rfl⟩

theorem good_data (F : FloatCodec) (o : Options) (indent : Nat) (b : List UInt8) : Good F o (dataElement false o indent b) (dataElement true o indent b) (.bytes b) := by
  obtain ⟨e, e', h1, h2, h3⟩ := shape_data b (if o.pretty then some 76 else none) indent
  rw [textLeaf_data_lxml _ _ (base64_text b _ _)] at h2
  cases h2
  exact ⟨e, _, .bytes b, h1, textLeaf_data_lxml _ _ (base64_text b _ _), h3, reads_data F b _ _, .refl _, fun _ => rfl⟩

theorem decodeAscii_iff {b : List UInt8} {s : Str} : decodeAscii b = some s ↔ (∀ c ∈ s, c.toNat < 128) ∧ s.map Char.toNat = b.map UInt8.toNat := by
  have hc : ∀ x : UInt8, x < 128 → (Char.ofNat x.toNat).toNat = x.toNat := by
    intro x hx
    have hx : x.toNat < 128 := hx
    have hv : x.toNat.isValidChar := .inl (by omega)
    rw [Char.ofNat, dif_pos hv]
    rfl
  rw [decodeAscii]
  constructor
  · intro h
    split at h
    · rename_i hb
      cases h
      rw [List.all_eq_true] at hb
      constructor
      · intro c hm
        obtain ⟨x, hx, rfl⟩ := List.mem_map.1 hm
        have := of_decide_eq_true (hb x hx)
        rw [hc x this]
        exact this
      · rw [List.map_map]
        exact List.map_congr_left fun x hx => hc x (of_decide_eq_true (hb x hx))
    · cases h
  · rintro ⟨ha, hs⟩
    have hb : ∀ x ∈ b, x < 128 := by
      intro x hx
      have : x.toNat ∈ s.map Char.toNat := by rw [hs]; exact List.mem_map_of_mem hx
      obtain ⟨c, hc, he⟩ := List.mem_map.1 this
      have := ha c hc
      show x.toNat < 128
      omega
    rw [if_pos (by rw [List.all_eq_true]; exact fun x hx => decide_eq_true (hb x hx))]
    congr 1
    have h2 : (b.map fun x => Char.ofNat x.toNat) = (b.map UInt8.toNat).map Char.ofNat := by rw [List.map_map]; rfl
    rw [h2, ← hs, List.map_map]
    conv_rhs => rw [← List.map_id s]
    exact List.map_congr_left fun c _ => Char.ofNat_toNat c

theorem shape_kv : ∀ l : List (Str × Elem × Elem), (∀ x ∈ l, FileText x.1 ∧ Shape x.2.1 x.2.2) →
    ShapeList (kvElems (l.map fun x => (x.1, x.2.1))) (kvElems (l.map fun x => (x.1, x.2.2)))
  | [], _ => .nil
  | (k, e, e') :: l, h => by
    rw [List.forall_mem_cons] at h
    exact .cons _ _ _ _ (.leaf _ _ _ (by decide) (Plist.goodText_of h.1.1) (by intro b hb; cases hb) rfl) (.cons _ _ _ _ h.1.2 (shape_kv l h.2))

theorem stringKeys_map {α : Type} : ∀ l : List (Str × α), stringKeys (l.map fun x => (PlVal.str x.1, x.2)) = some l
  | [] => rfl
  | (k, a) :: l => by rw [List.map_cons, stringKeys, stringKeys_map l]; rfl

/-- One item of a dictionary: key, elements of both backends, the value read and the value stored. -/
structure Item where
  key : Str
  built : Elem
  lxml : Elem
  read : PyVal
  stored : PyVal

/-- What is known of an item. -/
def ItemOk (F : FloatCodec) (o : Options) (x : Item) : Prop :=
  FileText x.key ∧ Shape x.built x.lxml ∧ Reads F x.lxml x.read ∧ Same x.stored x.read ∧ (o.sortKeys = false → x.read = x.stored)

theorem sameItems_map : ∀ l : List Item, (∀ x ∈ l, Same x.stored x.read) → SameItems (l.map fun x => (PyVal.str x.key, x.stored)) (l.map fun x => (PyVal.str x.key, x.read))
  | [], _ => .nil
  | x :: l, h => by
    rw [List.forall_mem_cons] at h
    exact .cons _ _ _ _ _ h.1 (sameItems_map l h.2)

theorem good_dict (F : FloatCodec) (o : Options) (l : List Item) (h : ∀ x ∈ l, ItemOk F o x) (hn : (l.map Item.key).Nodup) (m : List Item) (hm : m.Perm l)
    (hs : o.sortKeys = false → m = l) :
    Good F o (.ok (Elem.node c!"dict" (kvElems (m.map fun x => (x.key, x.built))))) (.ok (Elem.node c!"dict" (kvElems (m.map fun x => (x.key, x.lxml)))))
      (.dict (l.map fun x => (PyVal.str x.key, x.stored))) := by
  have hm' : ∀ x ∈ m, ItemOk F o x := fun x hx => h x (hm.mem_iff.1 hx)
  refine ⟨_, _, .dict (m.map fun x => (PyVal.str x.key, x.read)), rfl, rfl, ?_, ?_, ?_, ?_⟩
  · have := shape_kv (m.map fun x => (x.key, x.built, x.lxml)) (by
      intro y hy
      obtain ⟨x, hx, rfl⟩ := List.mem_map.1 hy
      exact ⟨(hm' x hx).1, (hm' x hx).2.1⟩)
    rw [List.map_map, List.map_map] at this
    exact .node _ _ _ (by simp) this
  · have := reads_dict F (m.map fun x => (x.key, x.lxml, x.read)) (by
      intro y hy
      obtain ⟨x, hx, rfl⟩ := List.mem_map.1 hy
      exact (hm' x hx).2.2.1) (by
      rw [List.map_map]
      exact (hm.map Item.key).nodup_iff.2 hn)
    rw [List.map_map, List.map_map] at this
    exact this
  · refine .dict _ _ (.trans _ _ _ (sameItems_map l fun x hx => (h x hx).2.2.2.1) (sameItems_of_perm ?_))
    exact (hm.map fun x => (PyVal.str x.key, x.read)).symm
  · intro ho
    rw [hs ho]
    congr 1
    exact List.map_congr_left fun x hx => by rw [(h x hx).2.2.2.2 ho]

/-- Sorting items by key. -/
def sortList (l : List Item) : List Item := (sortItems (l.map fun x => (x.key, x))).map Prod.snd

theorem sortItems_mem {α : Type} {l : List (Str × α)} {x : Str × α} : x ∈ sortItems l ↔ x ∈ l := (sortItems_perm l).mem_iff

theorem sortList_perm (l : List Item) : (sortList l).Perm l := by
  have := (sortItems_perm (l.map fun x => (x.key, x))).map Prod.snd
  rw [List.map_map] at this
  conv_rhs => rw [← List.map_id l]
  exact this

theorem sortList_map {α : Type} (f : Item → α) (l : List Item) : sortItems (l.map fun x => (x.key, f x)) = (sortList l).map fun x => (x.key, f x) := by
  have h := sortItems_map f (l.map fun x => (x.key, x))
  rw [List.map_map] at h
  rw [sortList, List.map_map]
  refine (Eq.trans ?_ h).trans ?_
  · rfl
  · refine List.map_congr_left fun x hx => ?_
    have hx := sortItems_mem.1 hx
    obtain ⟨y, _, rfl⟩ := List.mem_map.1 hx
    rfl

mutual
theorem makeElement_good (F : FloatCodec) (hF : F.Lawful) (o : Options) (indent : Nat) (v : PlVal) (w : PyVal)
    (hv : Stored (o.skipKeys && !o.sortKeys) o.builtin FileText v w) (hw : WellFormed v) : Good F o (makeElement F false o indent v) (makeElement F true o indent v) w := by
  match v, w, hv with
  | _, _, .bool b =>
    rw [makeElement, makeElement]
    refine ⟨_, _, .bool b, rfl, rfl, ?_, reads_bool F b, .refl _, fun _ => rfl⟩
    cases b
    · exact .node _ _ _ (by simp) .nil
    · exact .node _ _ _ (by simp) .nil
  | _, _, .int i h =>
    rw [makeElement, makeElement, integerElement, integerElement, if_pos h, if_pos h]
    exact good_text F o (by decide) (fileText_graph (intRepr_graph i)) (reads_integer F i)
  | _, _, .float f => rw [makeElement, makeElement]; exact good_text F o (by decide) (fileText_graph (hF.repr_graph f)) (reads_real F hF f)
  | _, _, .str s h => rw [makeElement, makeElement]; exact good_text F o (by decide) h (reads_string F s)
  | _, _, .bytes b h => rw [makeElement, makeElement, stringOrDataElement, stringOrDataElement, if_pos h, if_pos h]; exact good_data F o indent b
  | _, _, .ascii b s h ha hs ht =>
    rw [makeElement, makeElement, stringOrDataElement, stringOrDataElement, if_neg (by simp [h]), if_neg (by simp [h]), decodeAscii_iff.2 ⟨ha, hs⟩]
    exact good_text F o (by decide) ht (reads_string F s)
  | _, _, .bytearray b => rw [makeElement, makeElement]; exact good_data F o indent b
  | _, _, .data b => rw [makeElement, makeElement]; exact good_data F o indent b
  | _, _, .date d => rw [makeElement, makeElement]; exact good_text F o (by decide) (fileText_graph (dateToString_graph d)) (reads_date F d (by rw [WellFormed] at hw; exact hw))
  | _, _, .list l m h =>
    rw [WellFormed] at hw
    obtain ⟨es, es', ws, h1, h2, h3, h4, h5, h6⟩ := makeList_good F hF o (indent + 1) l m h hw
    rw [makeElement, makeElement, h1, h2]
    exact ⟨_, _, .list ws, rfl, rfl, .node _ _ _ (by simp) h3, reads_list F h4, .list _ _ h5, fun ho => by rw [h6 ho]⟩
  | _, _, .tuple l m h =>
    rw [WellFormed] at hw
    obtain ⟨es, es', ws, h1, h2, h3, h4, h5, h6⟩ := makeList_good F hF o (indent + 1) l m h hw
    rw [makeElement, makeElement, h1, h2]
    exact ⟨_, _, .list ws, rfl, rfl, .node _ _ _ (by simp) h3, reads_list F h4, .list _ _ h5, fun ho => by rw [h6 ho]⟩
  | _, _, .dict d m h =>
    rw [WellFormed] at hw
    obtain ⟨l, h1, h2, h3, h4, h5, h6⟩ := makeItems_good F hF o (indent + 1) d m h hw.2
    have hn : (l.map Item.key).Nodup := List.Nodup.of_map _ (h6.nodup hw.1)
    rw [makeElement, makeElement, dictElement, dictElement, h5]
    by_cases hs : o.sortKeys = true
    · have := good_dict F o l h4 hn (sortList l) (sortList_perm l) (fun ho => by rw [hs] at ho; cases ho)
      obtain ⟨g1, g2⟩ := h3 hs
      have k1 := stringKeys_map (l.map fun x => (x.key, (Except.ok x.built : Except Exc Elem)))
      have k2 := stringKeys_map (l.map fun x => (x.key, (Except.ok x.lxml : Except Exc Elem)))
      rw [List.map_map] at k1 k2
      simp only [Function.comp_def] at k1 k2
      rw [if_pos hs, if_pos hs, g1, g2, k1, k2]
      simp only
      rw [sortList_map (fun x => (Except.ok x.built : Except Exc Elem)), sortList_map (fun x => (Except.ok x.lxml : Except Exc Elem))]
      have hp : ∀ x ∈ sortList l, FileText x.key := fun x hx => (h4 x ((sortList_perm l).mem_iff.1 hx)).1
      have c1 := dictChildren_kv false ((sortList l).map fun x => (x.key, x.built)) (by simp only [List.forall_mem_map]; exact fun x hx _ => (hp x hx).1)
      have c2 := dictChildren_kv true ((sortList l).map fun x => (x.key, x.lxml)) (by simp only [List.forall_mem_map]; exact fun x hx _ => (hp x hx).1)
      rw [List.map_map] at c1 c2
      simp only [Function.comp_def] at c1 c2
      rw [c1, c2]
      exact this
    · have hs : o.sortKeys = false := by simpa using hs
      have := good_dict F o l h4 hn l (.refl _) (fun _ => rfl)
      rw [if_neg (by simp [hs]), if_neg (by simp [hs]), (h1 hs).1, (h1 hs).2]
      exact this
theorem makeList_good (F : FloatCodec) (hF : F.Lawful) (o : Options) (indent : Nat) (l : List PlVal) (m : List PyVal)
    (hv : StoredList (o.skipKeys && !o.sortKeys) o.builtin FileText l m) (hw : WellFormedList l) :
    ∃ es es' ws, makeList F false o indent l = .ok es ∧ makeList F true o indent l = .ok es' ∧ ShapeList es es' ∧ List.Forall₂ (Reads F) es' ws ∧ SameList m ws ∧
      (o.sortKeys = false → ws = m) := by
  match l, m, hv with
  | _, _, .nil => exact ⟨[], [], [], rfl, rfl, .nil, .nil, .nil, fun _ => rfl⟩
  | _, _, .cons v w l m h h' =>
    rw [WellFormedList] at hw
    obtain ⟨e, e', w', h1, h2, h3, h4, h5, h6⟩ := makeElement_good F hF o indent v w h hw.1
    obtain ⟨es, es', ws, g1, g2, g3, g4, g5, g6⟩ := makeList_good F hF o indent l m h' hw.2
    exact ⟨e :: es, e' :: es', w' :: ws, by rw [makeList, h1, g1], by rw [makeList, h2, g2], .cons _ _ _ _ h3 g3, .cons h4 g4, .cons _ _ _ _ h5 g5,
      fun ho => by rw [h6 ho, g6 ho]⟩
theorem makeItems_good (F : FloatCodec) (hF : F.Lawful) (o : Options) (indent : Nat) (d : List (PlVal × PlVal)) (m : List (PyVal × PyVal))
    (hv : StoredItems (o.skipKeys && !o.sortKeys) o.builtin FileText d m) (hw : WellFormedItems d) :
    ∃ l : List Item, (o.sortKeys = false → itemChildren false o.skipKeys (makeValues F false o indent d) = .ok (kvElems (l.map fun x => (x.key, x.built))) ∧
        itemChildren true o.skipKeys (makeValues F true o indent d) = .ok (kvElems (l.map fun x => (x.key, x.lxml)))) ∧ True ∧
      (o.sortKeys = true → makeValues F false o indent d = l.map (fun x => (PlVal.str x.key, .ok x.built)) ∧ makeValues F true o indent d = l.map (fun x => (PlVal.str x.key, .ok x.lxml))) ∧
      (∀ x ∈ l, ItemOk F o x) ∧ m = l.map (fun x => (PyVal.str x.key, x.stored)) ∧ ((l.map Item.key).map PlVal.str).Sublist (d.map Prod.fst) := by
  match d, m, hv with
  | _, _, .nil => exact ⟨[], fun _ => ⟨rfl, rfl⟩, trivial, fun _ => ⟨rfl, rfl⟩, by simp, rfl, .slnil⟩
  | _, _, .cons k v w d m hk h h' =>
    rw [WellFormedItems] at hw
    obtain ⟨e, e', w', h1, h2, h3, h4, h5, h6⟩ := makeElement_good F hF o indent v w h hw.1
    obtain ⟨l, g1, -, g2, g3, g4, g5⟩ := makeItems_good F hF o indent d m h' hw.2
    refine ⟨⟨k, e, e', w', w⟩ :: l, fun ho => ?_, trivial, fun ho => ?_, ?_, by rw [List.map_cons, g4], ?_⟩
    · obtain ⟨q1, q2⟩ := g1 ho
      have t1 := textLeaf_str (lxml := false) (s := k) c!"key" (fun _ => hk.1)
      have t2 := textLeaf_str (lxml := true) (s := k) c!"key" (fun _ => hk.1)
      constructor
      · rw [makeValues, itemChildren, t1, h1]; simp only; rw [q1]; rfl
      · rw [makeValues, itemChildren, t2, h2]; simp only; rw [q2]; rfl
    · obtain ⟨q1, q2⟩ := g2 ho
      exact ⟨by rw [makeValues, h1, q1]; rfl, by rw [makeValues, h2, q2]; rfl⟩
    · rw [List.forall_mem_cons]
      exact ⟨⟨hk, h3, h4, h5, h6⟩, g3⟩
    · exact g5.cons_cons _
  | _, _, .skip k v d m hs hk h' =>
    rw [WellFormedItems] at hw
    rw [Bool.and_eq_true] at hs
    obtain ⟨l, g1, -, g2, g3, g4, g5⟩ := makeItems_good F hF o indent d m h' hw.2
    have hc : ∀ (lx : Bool) r rest, itemChildren lx o.skipKeys ((k, r) :: rest) = itemChildren lx o.skipKeys rest := by
      intro lx r rest
      cases k with
      | str s => exact absurd rfl (hk s)
      | _ => rw [itemChildren, if_pos hs.1]; simp
    refine ⟨l, fun ho => ?_, trivial, fun ho => ?_, g3, g4, g5.cons _⟩
    · obtain ⟨q1, q2⟩ := g1 ho
      exact ⟨by rw [makeValues, hc, q1], by rw [makeValues, hc, q2]⟩
    · rw [ho] at hs; cases hs.2
end

theorem loads_written (F : FloatCodec) (pretty : Bool) {e e' : Elem} {w : PyVal} (hsh : Shape e e') (hr : Reads F e' w) :
    ∃ s, tostring false pretty (plistElement e) = .ok s ∧
      Plist.loads F ((if pretty then xmlDeclaration ++ ['\n'] ++ plistDoctype ++ ['\n'] else xmlDeclaration ++ plistDoctype) ++ s) = .ok w := by
  obtain ⟨d, hd⟩ := hr { Plist.Target.new with data := [] } .root rfl
  have hwr := writable_plist (shape_writable hsh)
  have key : ∃ s p, tostring false pretty (plistElement e) = .ok s ∧
      parse ((if pretty then xmlDeclaration ++ ['\n'] ++ plistDoctype ++ ['\n'] else xmlDeclaration ++ plistDoctype) ++ s) = some p ∧
      SameTree (plistElement e) p ∧ StrTree p := by
    cases pretty
    · refine ⟨_, withTail none (plain (plistElement e)), by rw [tostring, if_neg (by simp), serialize_good hwr], ?_, ?_, ?_⟩
      · exact parse_plist false hwr (by intro c hc; simp [plistElement, Elem.tail, textStr] at hc)
      · exact sameTree_withTail (sameTree_plain (sameTree_refl _)) rfl
      · exact strTree_withTail (strTree_plain _)
    · refine ⟨_, withTail none (plain (indent 0 (plistElement e))), by rw [tostring, if_pos rfl, serialize_good (writable_indent 0 hwr)], ?_, ?_, ?_⟩
      · exact parse_plist true (writable_indent 0 hwr) (indent_tail_ws _ rfl)
      · exact sameTree_withTail (sameTree_plain (sameTree_indent 0 _)) rfl
      · exact strTree_withTail (strTree_plain _)
  obtain ⟨s, p, hs, hp, hsame, hstr⟩ := key
  refine ⟨s, hs, ?_⟩
  rw [Plist.loads, hp]
  simp only
  cases hsame with
  | mk _ _ _ x' _ y' _ c' hx hy hc =>
    cases hc with
    | cons _ q _ qs h1 h2 =>
      cases h2
      obtain ⟨_, _, hq, _⟩ := hstr
      rw [Plist.feed]
      have hst : Plist.Target.new.startTag c!"plist" = .ok { Plist.Target.new with data := [] } := by rfl
      rw [hst]
      simp only
      obtain ⟨t', ht', hsim⟩ := feed_sim F hsh h1 hq (t := ({ Plist.Target.new with data := [] } : Plist.Target).feedText x') (sim_feedText ⟨rfl, rfl, rfl⟩ x') hd
      rw [Plist.feedList, ht']
      simp only [Plist.feedList]
      have hend : ∀ t : Plist.Target, t.endTag F c!"plist" = .ok t := fun t => by simp [Plist.Target.endTag]
      rw [hend]
      simp only
      have := (sim_feedText hsim q.tail).2.2
      rw [this]
      rfl

theorem loads_dumps (F : FloatCodec) (hF : F.Lawful) (o : Options) (builtin : Bool) (v : PlVal) (w : PyVal)
    (hv : Stored (o.skipKeys && !o.sortKeys) o.builtin FileText v w) (hw : WellFormed v) :
    ∃ s w', dumps F o v = .ok s ∧ loads F builtin s = .ok (readAs builtin w') ∧ Same w w' ∧ (o.sortKeys = false → w' = w) := by
  obtain ⟨e, e', w', h1, _, h3, h4, h5, h6⟩ := makeElement_good F hF o 1 v w hv hw
  obtain ⟨s, hs, hl⟩ := loads_written F o.pretty h3 h4
  refine ⟨_, w', by rw [dumps, totree, h1]; simp only; rw [hs], ?_, h5, h6⟩
  rw [loads_as, hl]
  rfl

theorem fromtree_totree (F : FloatCodec) (hF : F.Lawful) (o : Options) (indent : Nat) (builtin : Bool) (v : PlVal) (w : PyVal)
    (hv : Stored (o.skipKeys && !o.sortKeys) o.builtin FileText v w) (hw : WellFormed v) :
    ∃ e w', totree F true o indent v = .ok e ∧ fromtree F builtin e = .ok (readAs builtin w') ∧ Same w w' ∧ (o.sortKeys = false → w' = w) := by
  obtain ⟨e, e', w', _, h2, _, h4, h5, h6⟩ := makeElement_good F hF o indent v w hv hw
  obtain ⟨d, hd⟩ := h4 .new .root rfl
  refine ⟨e', w', h2, ?_, h5, h6⟩
  rw [fromtree_as, Plist.fromtree, hd]
  rfl

/-! ### what is written at all -/

theorem textLeaf_ok {lxml : Bool} {tag s : Str} {e : Elem} (h : textLeaf lxml tag (.str s) = .ok e) : TreeText lxml s := by
  by_contra hc
  rw [Plist.textLeaf_str_bad tag hc] at h
  cases h

theorem dictChildren_ok_item (lxml : Bool) : ∀ (l : List (Str × Except Exc Elem)) {es : List Elem}, dictChildren lxml l = .ok es → ∀ x ∈ l, TreeText lxml x.1 ∧ ∃ e, x.2 = .ok e := by
  intro l
  induction l with
  | nil => simp
  | cons x l ih =>
    intro es h
    obtain ⟨k, r⟩ := x
    rw [dictChildren] at h
    split at h
    · cases h
    · rename_i ke hk
      split at h
      · cases h
      · rename_i ve
        split at h
        · cases h
        · rename_i more hm
          rw [List.forall_mem_cons]
          exact ⟨⟨textLeaf_ok hk, ve, rfl⟩, ih hm⟩

theorem stringKeys_some {α : Type} : ∀ {d : List (PlVal × α)} {l : List (Str × α)}, stringKeys d = some l → d = l.map fun x => (PlVal.str x.1, x.2)
  | [], l, h => by cases h; rfl
  | (k, a) :: d, l, h => by
    cases k with
    | str k =>
      rw [stringKeys] at h
      rcases hd : stringKeys d with _ | l'
      · rw [hd] at h; cases h
      · rw [hd] at h
        cases h
        rw [List.map_cons, stringKeys_some hd]
    | _ => simp [stringKeys] at h

theorem makeValues_keys (F : FloatCodec) (lxml : Bool) (o : Options) (indent : Nat) : ∀ d, (makeValues F lxml o indent d).map Prod.fst = d.map Prod.fst
  | [] => rfl
  | (k, v) :: d => by rw [makeValues, List.map_cons, List.map_cons, makeValues_keys F lxml o indent d]

/-- What a dictionary that was written had: string keys with text and values that were written, or keys left out. -/
def ItemsOk (lxml skip : Bool) (l : List (PlVal × Except Exc Elem)) : Prop :=
  ∀ x ∈ l, (∃ k e, x = (.str k, .ok e) ∧ TreeText lxml k) ∨ (skip = true ∧ ∀ s, x.1 ≠ .str s)

theorem str_or_not (k : PlVal) : (∃ s, k = .str s) ∨ ∀ s, k ≠ .str s := by
  cases k <;> simp

theorem itemChildren_ok (lxml skip : Bool) : ∀ (l : List (PlVal × Except Exc Elem)) {es : List Elem}, itemChildren lxml skip l = .ok es → ItemsOk lxml skip l := by
  intro l
  induction l with
  | nil => intro es _; simp [ItemsOk]
  | cons x l ih =>
    intro es h
    obtain ⟨k, r⟩ := x
    rw [ItemsOk, List.forall_mem_cons]
    rcases str_or_not k with ⟨s, rfl⟩ | hk
    · rw [itemChildren] at h
      split at h
      · cases h
      · rename_i ke hke
        split at h
        · cases h
        · rename_i ve
          split at h
          · cases h
          · rename_i more hm
            exact ⟨.inl ⟨s, ve, rfl, textLeaf_ok hke⟩, ih hm⟩
    · have hc : itemChildren lxml skip ((k, r) :: l) = if skip then itemChildren lxml skip l else .error .typeError := by
        cases k with
        | str s => exact absurd rfl (hk s)
        | _ => rw [itemChildren]; simp
      rw [hc] at h
      cases hs : skip with
      | false => rw [hs] at h; cases h
      | true => rw [hs] at h ih; exact ⟨.inr ⟨rfl, hk⟩, ih h⟩

theorem dictElement_ok {lxml : Bool} {o : Options} {l : List (PlVal × Except Exc Elem)} {e : Elem} (h : dictElement lxml o l = .ok e) : ItemsOk lxml o.skipKeys l := by
  rw [dictElement] at h
  split at h
  · split at h
    · rename_i m hm
      rcases hd : dictChildren lxml (sortItems m) with x | es
      · rw [hd] at h; cases h
      · intro x hx
        rw [stringKeys_some hm] at hx
        obtain ⟨y, hy, rfl⟩ := List.mem_map.1 hx
        obtain ⟨h1, e, h2⟩ := dictChildren_ok_item lxml _ hd y (sortItems_mem.2 hy)
        exact .inl ⟨y.1, e, by rw [h2], h1⟩
    · split at h
      · cases h
      · rename_i hc
        rw [Bool.not_eq_true, Bool.or_eq_false_iff, Bool.or_eq_false_iff] at hc
        obtain ⟨⟨h1, _⟩, h3⟩ := hc
        intro x hx
        refine .inr ⟨by simpa using h3, fun s hs => ?_⟩
        rw [List.any_eq_false] at h1
        exact h1 x.1 (List.mem_map_of_mem hx) (by rw [hs]; rfl)
  · rcases hd : itemChildren lxml o.skipKeys l with x | es
    · rw [hd] at h; cases h
    · exact itemChildren_ok _ _ _ hd

mutual
theorem makeElement_stored (F : FloatCodec) (lxml : Bool) (o : Options) (indent : Nat) (v : PlVal) {e : Elem} (h : makeElement F lxml o indent v = .ok e) :
    ∃ w, Stored o.skipKeys o.builtin (TreeText lxml) v w := by
  match v with
  | .str s => rw [makeElement] at h; exact ⟨_, .str s (textLeaf_ok h)⟩
  | .bool b => exact ⟨_, .bool b⟩
  | .int i =>
    rw [makeElement, integerElement] at h
    split at h
    · rename_i hi; exact ⟨_, .int i hi⟩
    · cases h
  | .float f => exact ⟨_, .float f⟩
  | .date d => exact ⟨_, .date d⟩
  | .bytes b =>
    rw [makeElement, stringOrDataElement] at h
    split at h
    · rename_i hb; exact ⟨_, .bytes b hb⟩
    · rename_i hb
      split at h
      · cases h
      · rename_i s hs
        have := decodeAscii_iff.1 hs
        exact ⟨_, .ascii b s (by simpa using hb) this.1 this.2 (textLeaf_ok h)⟩
  | .bytearray b => exact ⟨_, .bytearray b⟩
  | .data b => exact ⟨_, .data b⟩
  | .list l =>
    rw [makeElement] at h
    rcases hl : makeList F lxml o (indent + 1) l with x | es
    · rw [hl] at h; cases h
    · obtain ⟨m, hm⟩ := makeList_stored F lxml o (indent + 1) l hl
      exact ⟨_, .list l m hm⟩
  | .tuple l =>
    rw [makeElement] at h
    rcases hl : makeList F lxml o (indent + 1) l with x | es
    · rw [hl] at h; cases h
    · obtain ⟨m, hm⟩ := makeList_stored F lxml o (indent + 1) l hl
      exact ⟨_, .tuple l m hm⟩
  | .dict d =>
    rw [makeElement] at h
    obtain ⟨m, hm⟩ := makeItems_stored F lxml o (indent + 1) d (dictElement_ok h)
    exact ⟨_, .dict d m hm⟩
  | .none => rw [makeElement] at h; cases h
  | .other n => rw [makeElement] at h; cases h
theorem makeList_stored (F : FloatCodec) (lxml : Bool) (o : Options) (indent : Nat) (l : List PlVal) {es : List Elem} (h : makeList F lxml o indent l = .ok es) :
    ∃ m, StoredList o.skipKeys o.builtin (TreeText lxml) l m := by
  match l with
  | [] => exact ⟨_, .nil⟩
  | v :: l =>
    rw [makeList] at h
    rcases hv : makeElement F lxml o indent v with x | e
    · rw [hv] at h; cases h
    · rw [hv] at h
      rcases hl : makeList F lxml o indent l with x | es
      · rw [hl] at h; cases h
      · obtain ⟨w, hw⟩ := makeElement_stored F lxml o indent v hv
        obtain ⟨m, hm⟩ := makeList_stored F lxml o indent l hl
        exact ⟨_, .cons v w l m hw hm⟩
theorem makeItems_stored (F : FloatCodec) (lxml : Bool) (o : Options) (indent : Nat) (d : List (PlVal × PlVal)) (h : ItemsOk lxml o.skipKeys (makeValues F lxml o indent d)) :
    ∃ m, StoredItems o.skipKeys o.builtin (TreeText lxml) d m := by
  match d with
  | [] => exact ⟨_, .nil⟩
  | (k, v) :: d =>
    rw [makeValues, ItemsOk, List.forall_mem_cons] at h
    obtain ⟨m, hm⟩ := makeItems_stored F lxml o indent d h.2
    rcases h.1 with ⟨s, e, he, hs⟩ | ⟨hs, hk⟩
    · rw [Prod.mk.injEq] at he
      obtain ⟨w, hw⟩ := makeElement_stored F lxml o indent v he.2
      rw [he.1]
      exact ⟨_, .cons s v w d m hs hw hm⟩
    · exact ⟨_, .skip k v d m hs hk hm⟩
end

end Verif.PlistOptions
