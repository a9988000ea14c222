import Verif.Proofs.PlistFile
import Verif.Spec.PlistRead
import Verif.Proofs.Dict
/-! Lemmas about what reading a property list delivers. -/
namespace Verif.Plist
open Verif Verif.Xml Verif.Spec.Plist

/-! ### The parser delivers XML text -/

theorem xmlText_chars {s : Str} : XmlText s ↔ ∀ c ∈ s, Spec.Xml.xmlChar c = true := by
  simp [XmlText, Spec.Xml.xmlChar, or_assoc, and_assoc]

theorem resolve_xmlChar {s : Str} {c : Char} (h : Spec.Xml.resolve s = some c) : Spec.Xml.xmlChar c = true := by
  unfold Spec.Xml.resolve at h
  repeat' split at h
  all_goals first
    | (cases h; decide)
    | cases h
    | (obtain ⟨n, -, hn⟩ := Option.bind_eq_some_iff.1 h
       split at hn
       · rename_i hc; cases hn; exact hc.2
       · cases hn)

theorem unescape_xmlText : ∀ (s : Str) (st : Option Str) (r : Str), Spec.Xml.unescape id st s = some r → XmlText r
  | [], st, r, h => by
    unfold Spec.Xml.unescape at h
    split at h
    · cases h; simp [XmlText]
    · cases h
  | c :: s, st, r, h => by
    unfold Spec.Xml.unescape at h
    split at h
    · split at h
      · exact unescape_xmlText s _ r h
      · split at h
        · rename_i hc
          obtain ⟨r', h', rfl⟩ := Option.map_eq_some_iff.1 h
          have := unescape_xmlText s _ r' h'
          rw [xmlText_chars] at this ⊢
          simpa [hc] using this
        · cases h
    · split at h
      · obtain ⟨x, hx, h⟩ := Option.bind_eq_some_iff.1 h
        obtain ⟨r', h', rfl⟩ := Option.map_eq_some_iff.1 h
        have := unescape_xmlText s _ r' h'
        rw [xmlText_chars] at this ⊢
        simpa [resolve_xmlChar hx] using this
      · exact unescape_xmlText s _ r h

/-- Text that is absent or a string of XML text. -/
def TextOk : Option Text → Prop
  | none => True
  | some (.str s) => XmlText s
  | some (.bytes _) => False

mutual
/-- All texts are absent or XML text. -/
def TreeOk : Elem → Prop
  | .mk _ _ text tail children => TextOk text ∧ TextOk tail ∧ TreesOk children
def TreesOk : List Elem → Prop
  | [] => True
  | e :: es => TreeOk e ∧ TreesOk es
end

theorem textOk_asText {s : Str} (h : XmlText s) : TextOk (Spec.Xml.asText s) := by
  cases s with
  | nil => trivial
  | cons c r => exact h

theorem treeOk_withTail {t : Option Text} {e : Elem} (ht : TextOk t) (he : TreeOk e) : TreeOk (Spec.Xml.withTail t e) := by
  cases e
  exact ⟨he.1, ht, he.2.2⟩

theorem parseText_ok {s r : Str} (h : Spec.Xml.parseText s = some r) : XmlText r := by
  unfold Spec.Xml.parseText at h
  split at h
  · cases h
  · exact unescape_xmlText _ _ _ h

theorem xmlText_append {a b : Str} (ha : XmlText a) (hb : XmlText b) : XmlText (a ++ b) := by
  rw [xmlText_chars] at *
  intro c hc
  rcases List.mem_append.1 hc with hc | hc
  · exact ha c hc
  · exact hb c hc

theorem textOk_textStr {t : Option Text} (h : TextOk t) : XmlText (Spec.Xml.textStr t) := by
  match t with
  | none => rw [xmlText_chars]; simp [Spec.Xml.textStr]
  | some (.str s) => exact h
  | some (.bytes _) => exact h.elim

theorem parseMarkup_ok {s d rest : Str} (h : Spec.Xml.parseMarkup s = some (d, rest)) : XmlText d := by
  unfold Spec.Xml.parseMarkup at h
  split at h
  · obtain ⟨r, -, h2⟩ := Option.map_eq_some_iff.1 h
    cases h2; rw [xmlText_chars]; simp
  split at h
  · obtain ⟨r, -, h2⟩ := Option.map_eq_some_iff.1 h
    cases h2; rw [xmlText_chars]; simp
  split at h
  · unfold Spec.Xml.takeCdata at h
    split at h
    · split at h
      · next hx =>
        cases h
        rw [xmlText_chars]
        simpa using hx
      · cases h
    · cases h
  · cases h

mutual
theorem parseElem_ok : ∀ (n : Nat) (s : Str) (e : Elem) (rest : Str), Spec.Xml.parseElem n s = some (e, rest) → TreeOk e
  | 0, s, e, rest, h => by simp [Spec.Xml.parseElem] at h
  | n + 1, s, e, rest, h => by
    unfold Spec.Xml.parseElem at h
    split at h
    · cases h
    · split at h
      · cases h
      · split at h
        · cases h
        · split at h
          · cases h
          · cases h; exact ⟨trivial, trivial, trivial⟩
          · split at h
            · cases h
            · rename_i t es rest' hc
              cases h
              obtain ⟨h1, h2⟩ := parseContent_ok n _ _ _ _ _ hc
              exact ⟨h1, trivial, h2⟩
theorem parseContent_ok : ∀ (n : Nat) (name s : Str) (t : Option Text) (es : List Elem) (rest : Str),
    Spec.Xml.parseContent n name s = some (t, es, rest) → TextOk t ∧ TreesOk es
  | 0, name, s, t, es, rest, h => by simp [Spec.Xml.parseContent] at h
  | n + 1, name, s, t, es, rest, h => by
    unfold Spec.Xml.parseContent at h
    split at h
    · cases h
    · rename_i tx htx
      have hx := textOk_asText (parseText_ok htx)
      split at h
      · dsimp only at h
        split at h
        · cases h
        · split at h
          · cases h
          · split at h
            · cases h; exact ⟨hx, trivial⟩
            · cases h
      split at h
      · split at h
        · cases h
        · rename_i d rest' hd
          split at h
          · cases h
          · rename_i x es' rest'' hc
            cases h
            obtain ⟨h1, h2⟩ := parseContent_ok n _ _ _ _ _ hc
            exact ⟨textOk_asText (xmlText_append (xmlText_append (parseText_ok htx) (parseMarkup_ok hd)) (textOk_textStr h1)), h2⟩
      · split at h
        · cases h
        · rename_i e rest' he
          split at h
          · cases h
          · rename_i tail es' rest'' hc
            cases h
            obtain ⟨h1, h2⟩ := parseContent_ok n _ _ _ _ _ hc
            exact ⟨hx, treeOk_withTail h1 (parseElem_ok n _ _ _ he), h2⟩
end

theorem parse_ok {s : Str} {e : Elem} (h : Spec.Xml.parse s = some e) : TreeOk e := by
  unfold Spec.Xml.parse at h
  obtain ⟨s1, -, h⟩ := Option.bind_eq_some_iff.1 h
  obtain ⟨s2, -, h⟩ := Option.bind_eq_some_iff.1 h
  obtain ⟨s3, -, h⟩ := Option.bind_eq_some_iff.1 h
  obtain ⟨s4, -, h⟩ := Option.bind_eq_some_iff.1 h
  unfold Spec.Xml.parseRoot at h
  split at h
  · cases h
  · split at h
    · rename_i e' rest he _
      cases h
      exact parseElem_ok _ _ _ _ he
    · cases h

/-! ### The target builds readable values -/

/-- A container holding readable values. -/
def ContOk : Cont → Prop
  | .dict d => Dict.WF d ∧ ∀ e ∈ d, XmlText e.1 ∧ Readable e.2
  | .list l => ∀ v ∈ l, Readable v

/-- A slot whose key is XML text. -/
def SlotOk : Slot → Prop
  | .key k => XmlText k
  | _ => True

/-- The target holds readable values and XML text only. -/
structure TargetOk (t : Target) : Prop where
  stack : ∀ e ∈ t.stack, SlotOk e.1 ∧ ContOk e.2
  key : ∀ k, t.key = some k → XmlText k
  root : ∀ v, t.root = some v → Readable v
  data : ∀ x ∈ t.data, TextOk (some x)

theorem readableList_iff {l : List PyVal} : ReadableList l ↔ ∀ v ∈ l, Readable v := by
  induction l with
  | nil => simp [ReadableList]
  | cons v l ih => simp [ReadableList, ih]

theorem readableItems_iff {l : List (PyVal × PyVal)} : ReadableItems l ↔ ∀ e ∈ l, (∃ s, e.1 = .str s ∧ XmlText s) ∧ Readable e.2 := by
  induction l with
  | nil => simp [ReadableItems]
  | cons v l ih => obtain ⟨k, v⟩ := v; simp [ReadableItems, ih, and_assoc]

theorem contOk_value {c : Cont} (h : ContOk c) : Readable c.value := by
  cases c with
  | dict d =>
    obtain ⟨h1, h2⟩ := h
    refine ⟨?_, readableItems_iff.2 ?_⟩
    · rw [List.map_map]
      have : (Prod.fst ∘ fun p : Str × PyVal => (PyVal.str p.1, p.2)) = PyVal.str ∘ Prod.fst := rfl
      rw [this, ← List.map_map]
      exact h1.map fun a b => by simp
    · intro e he
      obtain ⟨p, hp, rfl⟩ := List.mem_map.1 he
      exact ⟨⟨p.1, rfl, (h2 p hp).1⟩, (h2 p hp).2⟩
  | list l => exact readableList_iff.2 h

theorem slot_ok {t : Target} (ht : TargetOk t) {s : Slot} (h : t.slot = .ok s) : SlotOk s := by
  unfold Target.slot at h
  repeat' split at h
  all_goals try cases h
  · exact ht.key _ (by assumption)
  · trivial
  · trivial

theorem put_ok {t : Target} (ht : TargetOk t) {s : Slot} (hs : SlotOk s) {v : PyVal} (hv : Readable v) : TargetOk (t.put s v) := by
  unfold Target.put
  split
  · exact ⟨ht.stack, ht.key, fun w h => by cases h; exact hv, ht.data⟩
  · split
    · rename_i k _ s' d rest hst
      have hd := ht.stack (s', .dict d) (by rw [hst]; simp)
      refine ⟨?_, ht.key, ht.root, ht.data⟩
      intro e he
      rcases List.mem_cons.1 he with rfl | he
      · refine ⟨hd.1, Dict.wf_set hd.2.1 _ _, ?_⟩
        intro e he
        by_cases hk : e.1 = k
        · have h1 := Dict.get?_of_mem (Dict.wf_set hd.2.1 k v) he
          rw [hk, Dict.get?_set_self] at h1
          cases h1
          exact ⟨hk ▸ hs, hv⟩
        · have h1 := Dict.get?_of_mem (Dict.wf_set hd.2.1 k v) he
          rw [Dict.get?_set_ne _ _ (Ne.symm hk)] at h1
          exact hd.2.2 e (Dict.mem_of_get? h1)
      · exact ht.stack e (by rw [hst]; exact List.mem_cons_of_mem _ he)
    · exact ht
  · split
    · rename_i s' l rest hst
      have hd := ht.stack (s', .list l) (by rw [hst]; simp)
      refine ⟨?_, ht.key, ht.root, ht.data⟩
      intro e he
      rcases List.mem_cons.1 he with rfl | he
      · refine ⟨hd.1, ?_⟩
        intro w hw
        rcases List.mem_append.1 hw with hw | hw
        · exact hd.2 w hw
        · rw [List.mem_singleton.1 hw]; exact hv
      · exact ht.stack e (by rw [hst]; exact List.mem_cons_of_mem _ he)
    · exact ht

theorem add_ok {t t' : Target} (ht : TargetOk t) {v : PyVal} (hv : Readable v) (h : t.add v = .ok t') : TargetOk t' := by
  unfold Target.add at h
  split at h
  · cases h
  · rename_i s hs
    cases h
    have := put_ok ht (slot_ok ht hs) hv
    exact ⟨this.stack, fun k hk => by simp at hk, this.root, this.data⟩

theorem open_ok {t t' : Target} (ht : TargetOk t) {c : Cont} (hc : ContOk c) (h : t.open c = .ok t') : TargetOk t' := by
  unfold Target.open at h
  split at h
  · cases h
  · rename_i s hs
    cases h
    refine ⟨?_, fun k hk => by simp at hk, ht.root, ht.data⟩
    intro e he
    rcases List.mem_cons.1 he with rfl | he
    · exact ⟨slot_ok ht hs, hc⟩
    · exact ht.stack e he

theorem pop_ok {t t' : Target} (ht : TargetOk t) (h : t.pop = .ok t') : TargetOk t' := by
  unfold Target.pop at h
  split at h
  · cases h
  · rename_i s c rest hst
    cases h
    have hd := ht.stack (s, c) (by rw [hst]; simp)
    exact put_ok (t := { t with stack := rest }) ⟨fun e he => ht.stack e (by rw [hst]; exact List.mem_cons_of_mem _ he), ht.key, ht.root, ht.data⟩ hd.1 (contOk_value hd.2)

theorem joinData_ok : ∀ {l : List Text} {s : Str}, (∀ x ∈ l, TextOk (some x)) → joinData l = .ok s → XmlText s
  | [], s, _, h => by cases h; simp [XmlText]
  | .str x :: rest, s, hl, h => by
    unfold joinData at h
    rcases hr : joinData rest with e | r
    · rw [hr] at h; cases h
    · rw [hr] at h
      cases h
      have h1 : XmlText x := hl (.str x) (by simp)
      have h2 := joinData_ok (fun y hy => hl y (List.mem_cons_of_mem _ hy)) hr
      rw [xmlText_chars] at *
      simp only [List.mem_append]
      rintro c (hc | hc)
      · exact h1 c hc
      · exact h2 c hc
  | .bytes b :: rest, s, _, h => by cases h

theorem addData_ok {t t' : Target} (ht : TargetOk t) {f : Str → Except Exc PyVal} (hf : ∀ s v, XmlText s → f s = .ok v → Readable v) (h : t.addData f = .ok t') : TargetOk t' := by
  unfold Target.addData at h
  split at h
  · cases h
  · rename_i s hs
    split at h
    · cases h
    · rename_i v hv
      exact add_ok (t := { t with data := [] }) ⟨ht.stack, ht.key, ht.root, by simp⟩ (hf s v (joinData_ok ht.data hs) hv) h

theorem daysIn_le (y m : Nat) : daysIn y m ≤ 31 := by
  unfold daysIn
  split
  · split <;> omega
  · split <;> omega

theorem realDate_of_dateOk {d : PyDate} (h : dateOk d = true) : RealDate d := by
  unfold dateOk at h
  simp only [Bool.and_eq_true, decide_eq_true_eq] at h
  obtain ⟨⟨⟨⟨⟨⟨⟨⟨h1, h2⟩, h3⟩, h4⟩, h5⟩, h6⟩, h7⟩, h8⟩, h9⟩ := h
  refine ⟨⟨h1, h2⟩, ⟨h3, h4⟩, h5, ?_, ?_, h6.trans (daysIn_le _ _), by omega, by omega, by omega⟩
  · intro hm
    unfold daysIn at h6
    rw [if_neg (by rintro e; rw [e] at hm; simp at hm), if_pos (by simpa using hm)] at h6
    exact h6
  · intro hm
    unfold daysIn at h6
    rw [if_pos hm] at h6
    constructor
    · split at h6 <;> omega
    · intro hd
      split at h6
      · rename_i hl
        unfold isLeap at hl
        simp only [Bool.or_eq_true, Bool.and_eq_true, beq_iff_eq, bne_iff_ne] at hl
        constructor <;> omega
      · omega

theorem dateFromString_ok {s : Str} {d : PyDate} (h : dateFromString s = .ok d) : RealDate d := by
  unfold dateFromString at h
  split at h
  · cases h
  · unfold mkDate at h
    split at h
    · dsimp only at h
      split at h
      · rename_i hd; cases h; exact realDate_of_dateOk hd
      · cases h
    · cases h

theorem endTag_ok (F : FloatCodec) {t t' : Target} (ht : TargetOk t) {tag : Str} (h : t.endTag F tag = .ok t') : TargetOk t' := by
  unfold Target.endTag at h
  split at h
  · split at h
    · cases h
    · exact pop_ok ht h
  split at h
  · exact pop_ok ht h
  split at h
  · split at h
    · cases h
    · split at h
      · cases h
      · cases h
      · split at h
        · cases h
        · rename_i s hs
          cases h
          exact ⟨ht.stack, fun k hk => by cases hk; exact joinData_ok ht.data hs, ht.root, by simp⟩
  split at h
  · exact add_ok ht (v := .bool _) trivial h
  split at h
  · exact add_ok ht (v := .bool _) trivial h
  split at h
  · refine addData_ok ht (fun s v _ hv => ?_) h
    split at hv
    · cases hv; trivial
    · cases hv
  split at h
  · refine addData_ok ht (fun s v _ hv => ?_) h
    split at hv
    · cases hv; trivial
    · cases hv
  split at h
  · exact addData_ok ht (fun s v hs hv => by cases hv; exact hs) h
  split at h
  · refine addData_ok ht (fun s v _ hv => ?_) h
    rcases hb : b64decode s with e | b
    · rw [hb] at hv; cases hv
    · rw [hb] at hv; cases hv; trivial
  split at h
  · refine addData_ok ht (fun s v _ hv => ?_) h
    rcases hb : dateFromString s with e | b
    · rw [hb] at hv; cases hv
    · rw [hb] at hv; cases hv; exact dateFromString_ok hb
  · cases h; exact ht

theorem startTag_ok {t t' : Target} (ht : TargetOk t) {tag : Str} (h : t.startTag tag = .ok t') : TargetOk t' := by
  unfold Target.startTag at h
  dsimp only at h
  have ht' : TargetOk { t with data := [] } := ⟨ht.stack, ht.key, ht.root, by simp⟩
  split at h
  · exact open_ok ht' (c := .dict []) ⟨Dict.wf_nil, by simp⟩ h
  split at h
  · exact open_ok ht' (c := .list []) (by simp [ContOk]) h
  · cases h; exact ht'

theorem feedText_ok {t : Target} (ht : TargetOk t) {x : Option Text} (hx : TextOk x) : TargetOk (t.feedText x) := by
  unfold Target.feedText
  split
  · exact ht
  · refine ⟨ht.stack, ht.key, ht.root, ?_⟩
    intro y hy
    rcases List.mem_append.1 hy with hy | hy
    · exact ht.data y hy
    · rw [List.mem_singleton.1 hy]; exact hx

mutual
theorem feed_ok (F : FloatCodec) : ∀ (e : Elem) (t t' : Target), TreeOk e → TargetOk t → feed F t e = .ok t' → TargetOk t'
  | .mk tag a text tail children, t, t', he, ht, h => by
    unfold feed at h
    split at h
    · cases h
    · rename_i t1 h1
      split at h
      · cases h
      · rename_i t2 h2
        exact endTag_ok F (feedList_ok F children _ t2 he.2.2 (feedText_ok (startTag_ok ht h1) he.1) h2) h
theorem feedList_ok (F : FloatCodec) : ∀ (es : List Elem) (t t' : Target), TreesOk es → TargetOk t → feedList F t es = .ok t' → TargetOk t'
  | [], t, t', _, ht, h => by cases h; exact ht
  | e :: es, t, t', he, ht, h => by
    unfold feedList at h
    split at h
    · cases h
    · rename_i t1 h1
      have htail : TextOk e.tail := by
        cases e
        exact he.1.2.1
      exact feedList_ok F es _ t' he.2 (feedText_ok (feed_ok F e t t1 he.1 ht h1) htail) h
end

/-- Everything a property list file delivers is readable, or it is the absence of a value. -/
theorem loads_readable {F : FloatCodec} {s : Str} {v : PyVal} (h : loads F s = .ok v) : v = .none ∨ Readable v := by
  unfold loads at h
  split at h
  · cases h
  · rename_i e he
    split at h
    · cases h
    · rename_i t ht
      cases h
      have := feed_ok F e _ t (parse_ok he) ⟨by simp [Target.new], by simp [Target.new], by simp [Target.new], by simp [Target.new]⟩ ht
      rcases hr : t.root with _ | v
      · exact .inl rfl
      · exact .inr (this.root v hr)

/-! ### Readable values can be written -/

mutual
theorem representable_of : ∀ v : PyVal, Readable v → Fits v → Representable FileText v
  | .none, h, _ => by cases h
  | .bool b, _, _ => .bool b
  | .int i, _, h => .int i h
  | .float f, _, _ => .float f
  | .str s, h, h' => .str s ⟨h, h'⟩
  | .bytes b, _, _ => .bytes b
  | .date d, _, _ => .date d
  | .list l, h, h' => .list l (representableList_of l h h')
  | .tuple l, h, _ => by cases h
  | .dict d, h, h' => .dict d (representableItems_of d h.2 h')
  | .other _, h, _ => by cases h
theorem representableList_of : ∀ l : List PyVal, ReadableList l → FitsList l → RepresentableList FileText l
  | [], _, _ => .nil
  | v :: l, h, h' => .cons v l (representable_of v h.1 h'.1) (representableList_of l h.2 h'.2)
theorem representableItems_of : ∀ l : List (PyVal × PyVal), ReadableItems l → FitsItems l → RepresentableItems FileText l
  | [], _, _ => .nil
  | (k, v) :: l, h, h' => by
    obtain ⟨⟨s, rfl, hs⟩, hv, hl⟩ := h
    exact .cons s v l ⟨hs, h'.1⟩ (representable_of v hv h'.2.1) (representableItems_of l hl h'.2.2)
end

mutual
theorem wellFormed_of : ∀ v : PyVal, Readable v → WellFormed v ∧ NoTuple v
  | .none, h => by cases h
  | .bool _, _ => ⟨trivial, trivial⟩
  | .int _, _ => ⟨trivial, trivial⟩
  | .float _, _ => ⟨trivial, trivial⟩
  | .str _, _ => ⟨trivial, trivial⟩
  | .bytes _, _ => ⟨trivial, trivial⟩
  | .date _, h => ⟨h, trivial⟩
  | .list l, h => wellFormedList_of l h
  | .tuple _, h => by cases h
  | .dict d, h => ⟨⟨h.1, (wellFormedItems_of d h.2).1⟩, (wellFormedItems_of d h.2).2⟩
  | .other _, h => by cases h
theorem wellFormedList_of : ∀ l : List PyVal, ReadableList l → WellFormedList l ∧ NoTupleList l
  | [], _ => ⟨trivial, trivial⟩
  | v :: l, h => ⟨⟨(wellFormed_of v h.1).1, (wellFormedList_of l h.2).1⟩, (wellFormed_of v h.1).2, (wellFormedList_of l h.2).2⟩
theorem wellFormedItems_of : ∀ l : List (PyVal × PyVal), ReadableItems l → WellFormedItems l ∧ NoTupleItems l
  | [], _ => ⟨trivial, trivial⟩
  | (_, v) :: l, h => ⟨⟨(wellFormed_of v h.2.1).1, (wellFormedItems_of l h.2.2).1⟩, (wellFormed_of v h.2.1).2, (wellFormedItems_of l h.2.2).2⟩
end

end Verif.Plist
