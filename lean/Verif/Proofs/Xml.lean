import Verif.Model.Xml
import Verif.Spec.Xml
import Verif.Proofs.Num
import Mathlib.Data.List.TakeWhile
/-! Lemmas about the XML serializer. -/
namespace Verif.Xml
open Verif Verif.Spec.Xml

/-! ### escaping character by character -/

/-- Escape of one character of text. -/
def escC (c : Char) : Str := if c = '&' then c!"&amp;" else if c = '<' then c!"&lt;" else if c = '>' then c!"&gt;" else [c]

/-- Escape of one character of an attribute value. -/
def escA (c : Char) : Str :=
  if c = '&' then c!"&amp;" else if c = '<' then c!"&lt;" else if c = '>' then c!"&gt;" else if c = '"' then c!"&quot;" else if c = '\n' then c!"&#10;" else [c]

theorem replaceC_flatMap (c : Char) (r : Str) (s : Str) (f : Char → Str) :
    replaceC c r (s.flatMap f) = s.flatMap fun x => replaceC c r (f x) := by
  rw [replaceC, List.flatMap_assoc]; rfl

theorem escapeCdata_eq (s : Str) : escapeCdata s = s.flatMap escC := by
  show replaceC _ _ (replaceC _ _ (s.flatMap _)) = _
  rw [replaceC_flatMap, replaceC_flatMap]
  congr 1
  funext x
  by_cases h1 : x = '&'
  · subst h1; decide
  · by_cases h2 : x = '<'
    · subst h2; decide
    · by_cases h3 : x = '>'
      · subst h3; decide
      · simp [escC, replaceC, h1, h2, h3]

theorem escapeAttrib_eq (s : Str) : escapeAttrib s = s.flatMap escA := by
  show replaceC _ _ (replaceC _ _ (replaceC _ _ (replaceC _ _ (s.flatMap _)))) = _
  rw [replaceC_flatMap, replaceC_flatMap, replaceC_flatMap, replaceC_flatMap]
  congr 1
  funext x
  by_cases h1 : x = '&'
  · subst h1; decide
  · by_cases h2 : x = '<'
    · subst h2; decide
    · by_cases h3 : x = '>'
      · subst h3; decide
      · by_cases h4 : x = '"'
        · subst h4; decide
        · by_cases h5 : x = '\n'
          · subst h5; decide
          · simp [escA, replaceC, h1, h2, h3, h4, h5]

theorem isXmlChar_eq (c : Char) : isXmlChar c = xmlChar c := by
  have h9 : c.toNat = 9 ↔ c = '\t' := by rw [← Char.toNat_inj]; rfl
  have h10 : c.toNat = 10 ↔ c = '\n' := by rw [← Char.toNat_inj]; rfl
  have h13 : c.toNat = 13 ↔ c = '\r' := by rw [← Char.toNat_inj]; rfl
  have h32 : 32 ≤ c.toNat ↔ ' ' ≤ c := by rw [Char.le_def, UInt32.le_iff_toNat_le]; rfl
  rw [Bool.eq_iff_iff]
  simp only [isXmlChar, xmlChar, Bool.or_eq_true, Bool.and_eq_true, beq_iff_eq, decide_eq_true_eq, ne_eq, h9, h10, h13, h32]

theorem resolve_amp : resolve c!"amp" = some '&' := by decide
theorem resolve_lt : resolve c!"lt" = some '<' := by decide
theorem resolve_gt : resolve c!"gt" = some '>' := by decide
theorem resolve_quot : resolve c!"quot" = some '"' := by decide
theorem resolve_nl : resolve c!"#10" = some '\n' := by decide

theorem unescape_escC (c : Char) (hc : xmlChar c = true) (r : Str) : unescape id none (escC c ++ r) = (unescape id none r).map (c :: ·) := by
  unfold escC
  split
  · next h => subst h; simp [unescape, resolve_amp]
  · split
    · next h => subst h; simp [unescape, resolve_lt]
    · split
      · next h => subst h; simp [unescape, resolve_gt]
      · next h1 h2 h3 => simp [unescape, h1, hc]

theorem unescape_cdata (s : Str) (h : ∀ c ∈ s, xmlChar c = true) : unescape id none (s.flatMap escC) = some s := by
  induction s with
  | nil => rfl
  | cons c s ih =>
    rw [List.forall_mem_cons] at h
    rw [List.flatMap_cons, unescape_escC c h.1, ih h.2]; rfl

theorem mem_escC {c x : Char} (h : x ∈ escC c) : x ≠ '<' ∧ x ≠ '>' ∧ (x = '\r' → c = '\r') := by
  unfold escC at h
  split at h
  · simp only [List.mem_cons, List.not_mem_nil, or_false] at h
    rcases h with rfl | rfl | rfl | rfl | rfl <;> exact ⟨by decide, by decide, fun h => absurd h (by decide)⟩
  · split at h
    · simp only [List.mem_cons, List.not_mem_nil, or_false] at h
      rcases h with rfl | rfl | rfl | rfl <;> exact ⟨by decide, by decide, fun h => absurd h (by decide)⟩
    · split at h
      · simp only [List.mem_cons, List.not_mem_nil, or_false] at h
        rcases h with rfl | rfl | rfl | rfl <;> exact ⟨by decide, by decide, fun h => absurd h (by decide)⟩
      · simp only [List.mem_cons, List.not_mem_nil, or_false] at h
        subst h
        exact ⟨by assumption, by assumption, id⟩

theorem mem_escA {c x : Char} (h : x ∈ escA c) : x ≠ '<' ∧ x ≠ '"' ∧ (x = '\r' → c = '\r') := by
  unfold escA at h
  split at h
  · simp only [List.mem_cons, List.not_mem_nil, or_false] at h
    rcases h with rfl | rfl | rfl | rfl | rfl <;> exact ⟨by decide, by decide, fun h => absurd h (by decide)⟩
  · split at h
    · simp only [List.mem_cons, List.not_mem_nil, or_false] at h
      rcases h with rfl | rfl | rfl | rfl <;> exact ⟨by decide, by decide, fun h => absurd h (by decide)⟩
    · split at h
      · simp only [List.mem_cons, List.not_mem_nil, or_false] at h
        rcases h with rfl | rfl | rfl | rfl <;> exact ⟨by decide, by decide, fun h => absurd h (by decide)⟩
      · split at h
        · simp only [List.mem_cons, List.not_mem_nil, or_false] at h
          rcases h with rfl | rfl | rfl | rfl | rfl | rfl <;> exact ⟨by decide, by decide, fun h => absurd h (by decide)⟩
        · split at h
          · simp only [List.mem_cons, List.not_mem_nil, or_false] at h
            rcases h with rfl | rfl | rfl | rfl | rfl <;> exact ⟨by decide, by decide, fun h => absurd h (by decide)⟩
          · simp only [List.mem_cons, List.not_mem_nil, or_false] at h
            subst h
            exact ⟨by assumption, by assumption, id⟩

theorem hasCdataEnd_eq_false {s : Str} (h : '>' ∉ s) : hasCdataEnd s = false := by
  induction s with
  | nil => rfl
  | cons c r ih =>
    rw [List.mem_cons, not_or] at h
    rw [hasCdataEnd, ih h.2, Bool.or_false, decide_eq_false_iff_not]
    intro he
    have : '>' ∈ (c :: r).take 3 := by rw [he]; simp
    have := List.mem_of_mem_take this
    rw [List.mem_cons] at this
    exact this.elim h.1 h.2

theorem parseText_cdata (s : Str) (h : ∀ c ∈ s, xmlChar c = true) : parseText (s.flatMap escC) = some s := by
  rw [parseText, if_neg, unescape_cdata s h]
  rw [hasCdataEnd_eq_false]
  · simp
  · intro hm
    obtain ⟨c, _, hx⟩ := List.mem_flatMap.1 hm
    exact (mem_escC hx).2.1 rfl

/-- What the parser makes of a literal character of an attribute value. -/
def attrChar (c : Char) : Char := if c = '\r' ∨ c = '\t' then ' ' else c

/-- Escape of one character of an attribute value, after the normalisation of line ends. -/
def escA' (c : Char) : Str := if c = '\r' then ['\n'] else escA c

theorem unescape_escA' (c : Char) (hc : xmlChar c = true) (r : Str) :
    unescape (fun c => if ws c then ' ' else c) none (escA' c ++ r) = (unescape (fun c => if ws c then ' ' else c) none r).map (attrChar c :: ·) := by
  unfold escA'
  split
  · next h => subst h; simp only [unescape, List.cons_append, List.nil_append]; rfl
  · next h0 =>
    unfold escA
    split
    · next h => subst h; simp [unescape, resolve_amp, attrChar]
    · split
      · next h => subst h; simp [unescape, resolve_lt, attrChar]
      · split
        · next h => subst h; simp [unescape, resolve_gt, attrChar]
        · split
          · next h => subst h; simp [unescape, resolve_quot, attrChar]
          · split
            · next h => subst h; simp [unescape, resolve_nl, attrChar]
            · next h1 _ _ _ h5 =>
              have : (if ws c = true then ' ' else c) = attrChar c := by
                unfold ws attrChar
                by_cases ht : c = '\t'
                · subst ht; decide
                · by_cases hs : c = ' '
                  · subst hs; decide
                  · simp [ht, hs, h0, h5]
              simp [unescape, h1, hc, this]

theorem unescape_attr (s : Str) (h : ∀ c ∈ s, xmlChar c = true) :
    unescape (fun c => if ws c then ' ' else c) none (s.flatMap escA') = some (s.map attrChar) := by
  induction s with
  | nil => rfl
  | cons c s ih =>
    rw [List.forall_mem_cons] at h
    rw [List.flatMap_cons, unescape_escA' c h.1, ih h.2]; rfl

theorem parseAttr_attr (s : Str) (h : ∀ c ∈ s, xmlChar c = true) : parseAttr (s.flatMap escA') = some (s.map attrChar) := by
  rw [parseAttr, if_neg, unescape_attr s h]
  intro hm
  obtain ⟨c, _, hx⟩ := List.mem_flatMap.1 hm
  unfold escA' at hx
  split at hx
  · simp at hx
  · exact (mem_escA hx).1 rfl

/-! ### line ends -/

theorem normNl_cons_ne {c : Char} (h1 : c ≠ '\r') (h2 : c ≠ '\n') (b : Bool) (r : Str) : normNl b (c :: r) = c :: normNl false r := by
  simp [normNl, h1, h2]

theorem normNl_append {a : Str} (h : ∀ c ∈ a, c ≠ '\r' ∧ c ≠ '\n') (hne : a ≠ []) (b : Bool) (r : Str) : normNl b (a ++ r) = a ++ normNl false r := by
  induction a generalizing b with
  | nil => exact absurd rfl hne
  | cons c a ih =>
    rw [List.forall_mem_cons] at h
    rw [List.cons_append, normNl_cons_ne h.1.1 h.1.2]
    rcases a with _ | ⟨x, a⟩
    · rfl
    · rw [ih h.2 (by simp)]; rfl

theorem normNl_cdata (s : Str) : ∀ b, normNl b (s.flatMap escC) = (normNl b s).flatMap escC := by
  induction s with
  | nil => intro b; rfl
  | cons c s ih =>
    intro b
    rw [List.flatMap_cons]
    by_cases hr : c = '\r'
    · subst hr
      show '\n' :: normNl true (s.flatMap escC) = _
      rw [ih]; rfl
    · by_cases hn : c = '\n'
      · subst hn
        cases b
        · show '\n' :: normNl false (s.flatMap escC) = _
          rw [ih]; rfl
        · show normNl false (s.flatMap escC) = _
          rw [ih]; rfl
      · rw [normNl_cons_ne hr hn, List.flatMap_cons, normNl_append, ih]
        · intro x hx
          refine ⟨fun h => hr ((mem_escC hx).2.2 h), ?_⟩
          rintro rfl
          unfold escC at hx
          split at hx
          · exact absurd hx (by decide)
          · split at hx
            · exact absurd hx (by decide)
            · split at hx
              · exact absurd hx (by decide)
              · simp only [List.mem_cons, List.not_mem_nil, or_false] at hx
                exact hn hx.symm
        · unfold escC; split <;> (try split) <;> (try split) <;> simp

theorem normNl_attr (s : Str) : ∀ b, normNl b (s.flatMap escA) = s.flatMap escA' := by
  induction s with
  | nil => intro b; rfl
  | cons c s ih =>
    intro b
    rw [List.flatMap_cons, List.flatMap_cons]
    by_cases hr : c = '\r'
    · subst hr
      show '\n' :: normNl true (s.flatMap escA) = _
      rw [ih]; rfl
    · rw [normNl_append, ih, escA', if_neg hr]
      · intro x hx
        refine ⟨fun h => hr ((mem_escA hx).2.2 h), ?_⟩
        rintro rfl
        unfold escA at hx
        split at hx
        · exact absurd hx (by decide)
        · split at hx
          · exact absurd hx (by decide)
          · split at hx
            · exact absurd hx (by decide)
            · split at hx
              · exact absurd hx (by decide)
              · split at hx
                · exact absurd hx (by decide)
                · next hn =>
                  simp only [List.mem_cons, List.not_mem_nil, or_false] at hx
                  exact hn hx.symm
      · unfold escA; split <;> (try split) <;> (try split) <;> (try split) <;> (try split) <;> simp

theorem normNl_xmlChar (s : Str) : ∀ b, (∀ c ∈ s, xmlChar c = true) → ∀ c ∈ normNl b s, xmlChar c = true := by
  induction s with
  | nil => intro b _ c hc; simp [normNl] at hc
  | cons x s ih =>
    intro b h c hc
    rw [List.forall_mem_cons] at h
    rw [normNl] at hc
    split at hc
    · rcases List.mem_cons.1 hc with rfl | hc
      · decide
      · exact ih _ h.2 c hc
    · split at hc
      · exact ih _ h.2 c hc
      · rcases List.mem_cons.1 hc with rfl | hc
        · exact h.1
        · exact ih _ h.2 c hc

theorem normNl_no_cr {s : Str} (h : ∀ c ∈ s, c ≠ '\r') : normNl false s = s := by
  induction s with
  | nil => rfl
  | cons c s ih =>
    rw [List.forall_mem_cons] at h
    simp [normNl, h.1, ih h.2]

theorem no_cr_normNl (s : Str) : ∀ b, ∀ c ∈ normNl b s, c ≠ '\r' := by
  induction s with
  | nil => intro b c hc; simp [normNl] at hc
  | cons x s ih =>
    intro b c hc
    rw [normNl] at hc
    split at hc
    · rcases List.mem_cons.1 hc with rfl | hc
      · decide
      · exact ih _ c hc
    · split at hc
      · exact ih _ c hc
      · rcases List.mem_cons.1 hc with rfl | hc
        · assumption
        · exact ih _ c hc

/-! ### trees -/

/-- Text as written. -/
def cdata (t : Option Text) : Str := (textStr t).flatMap escC

/-- Attributes as written. -/
def attrStr : Dict Str Str → Str
  | [] => []
  | p :: rest => ' ' :: (p.1 ++ ('=' :: '"' :: (p.2.flatMap escA ++ ('"' :: attrStr rest))))

mutual
/-- An element as written, without its tail. -/
def serCore : Elem → Str
  | .mk tag attrib text _ children => '<' :: (tag ++ (attrStr attrib ++
      (if text.isSome || !children.isEmpty then '>' :: (cdata text ++ (serTails children ++ ('<' :: '/' :: (tag ++ ['>'])))) else ['/', '>'])))
/-- Elements with their tails. -/
def serTails : List Elem → Str
  | [] => []
  | e :: es => serCore e ++ (cdata e.tail ++ serTails es)
end

theorem toUnicode_str {s : Str} (h : ∀ c ∈ s, xmlChar c = true) : toUnicode (.str s) = .ok s := by
  rw [toUnicode, if_pos]
  rw [List.all_eq_true]
  intro c hc; rw [isXmlChar_eq]; exact h c hc

theorem writeText_good {t : Option Text} (h : GoodText t) : writeText t = .ok (cdata t) := by
  obtain ⟨h1, h2⟩ := h
  rcases t with _ | x
  · rfl
  · rcases x with s | b
    · rcases s with _ | ⟨c, s⟩
      · rfl
      · simp only [writeText, truthy, if_true]
        rw [toUnicode_str (s := c :: s) fun c hc => (h1 c hc).1, Except.map, escapeCdata_eq]; rfl
    · rcases b with _ | ⟨x, b⟩
      · rfl
      · simp only [writeText, truthy, if_true, toUnicode]
        have hb : (x :: b).all (fun x => x < 128) = true := by
          rw [List.all_eq_true]; intro y hy; exact decide_eq_true (h2 _ rfl y hy)
        rw [if_pos hb, if_pos]
        · simp only [Except.map, escapeCdata_eq]; rfl
        · rw [List.all_eq_true]
          intro c hc; rw [isXmlChar_eq]; exact (h1 c hc).1

theorem xmlChar_of_nameChar {c : Char} (h : nameChar c = true) : xmlChar c = true ∧ c ≠ '\r' := by
  rw [← isXmlChar_eq]
  have h2 : ∀ a b : Char, (a ≤ b) = (a.toNat ≤ b.toNat) := fun a b => by rw [Char.le_def, UInt32.le_iff_toNat_le]; rfl
  have h3 : ∀ b : Char, (c = b) = (c.toNat = b.toNat) := fun b => by rw [Char.toNat_inj]
  simp only [nameChar, nameStart, Bool.or_eq_true, Bool.and_eq_true, decide_eq_true_eq, h2, h3] at h
  simp only [isXmlChar, Bool.or_eq_true, Bool.and_eq_true, beq_iff_eq, decide_eq_true_eq, ne_eq, h3]
  simp only [show 'a'.toNat = 97 from rfl, show 'z'.toNat = 122 from rfl, show 'A'.toNat = 65 from rfl, show 'Z'.toNat = 90 from rfl, show '_'.toNat = 95 from rfl,
    show '0'.toNat = 48 from rfl, show '9'.toNat = 57 from rfl, show '-'.toNat = 45 from rfl, show '.'.toNat = 46 from rfl, show '\r'.toNat = 13 from rfl] at *
  omega

theorem isName_chars {s : Str} (h : isName s = true) : ∀ c ∈ s, nameChar c = true := by
  rcases s with _ | ⟨c, s⟩
  · simp [isName] at h
  · simp only [isName, Bool.and_eq_true, List.all_eq_true] at h
    intro x hx
    rcases List.mem_cons.1 hx with rfl | hx
    · simp [nameChar, h.1]
    · exact h.2 x hx

theorem isName_ne_nil {s : Str} (h : isName s = true) : s ≠ [] := by rintro rfl; simp [isName] at h

theorem writeAttribs_good : ∀ {l : Dict Str Str}, (∀ p ∈ l, isName p.1 = true ∧ GoodAttr p.2) → writeAttribs l = .ok (attrStr l)
  | [], _ => rfl
  | (k, v) :: l, h => by
    rw [List.forall_mem_cons] at h
    rw [writeAttribs, toUnicode_str fun c hc => (xmlChar_of_nameChar (isName_chars h.1.1 c hc)).1]
    simp only
    rw [toUnicode_str fun c hc => (h.1.2 c hc).1]
    simp only
    rw [writeAttribs_good h.2]
    simp only [attrStr, escapeAttrib_eq]
    simp

mutual
theorem serialize_good {e : Elem} (h : Writable e) : serialize e = .ok (serCore e ++ cdata e.tail) := by
  match e with
  | .mk tag attrib text tail children =>
    obtain ⟨h1, _, h3, h4, h5, h6⟩ := h
    rw [serialize, toUnicode_str fun c hc => (xmlChar_of_nameChar (isName_chars h1 c hc)).1]
    simp only
    rw [writeAttribs_good h3]
    simp only
    rw [writeText_good h4]
    simp only
    rw [serializeList_good h6]
    simp only
    rw [writeText_good h5]
    simp only [serCore, Elem.tail]
    split <;> simp
theorem serializeList_good {es : List Elem} (h : WritableList es) : serializeList es = .ok (serTails es) := by
  match es with
  | [] => rfl
  | e :: es => rw [serializeList, serialize_good h.1]; simp only; rw [serializeList_good h.2]; simp [serTails]
end

theorem takeWhile_append_stop {α : Type} {p : α → Bool} {a : List α} {x : α} {r : List α} (h : ∀ y ∈ a, p y = true) (hx : p x = false) :
    (a ++ x :: r).takeWhile p = a ∧ (a ++ x :: r).dropWhile p = x :: r := by
  induction a with
  | nil => simp [hx]
  | cons y a ih =>
    rw [List.forall_mem_cons] at h
    simp [h.1, ih h.2]

theorem escA'_eq {s : Str} (h : GoodAttr s) : s.flatMap escA = s.flatMap escA' ∧ s.map attrChar = s := by
  induction s with
  | nil => exact ⟨rfl, rfl⟩
  | cons c s ih =>
    have hc := h c (by simp)
    obtain ⟨h1, h2⟩ := ih fun x hx => h x (by simp [hx])
    rw [List.flatMap_cons, List.flatMap_cons, List.map_cons, h1, h2, escA', if_neg hc.2.1, attrChar, if_neg (by simp [hc.2])]
    exact ⟨rfl, rfl⟩

theorem parseAttr_good {s : Str} (h : GoodAttr s) : parseAttr (s.flatMap escA) = some s := by
  obtain ⟨h1, h2⟩ := escA'_eq h
  rw [h1, parseAttr_attr s fun c hc => (h c hc).1, h2]

theorem nameStart_not_ws {c : Char} (h : nameStart c = true) : ws c = false ∧ c ≠ '>' ∧ c ≠ '/' ∧ c ≠ ' ' := by
  have h2 : ∀ a b : Char, (a ≤ b) = (a.toNat ≤ b.toNat) := fun a b => by rw [Char.le_def, UInt32.le_iff_toNat_le]; rfl
  have h3 : ∀ b : Char, (c = b) = (c.toNat = b.toNat) := fun b => by rw [Char.toNat_inj]
  simp only [nameStart, Bool.or_eq_true, Bool.and_eq_true, decide_eq_true_eq, h2, h3] at h
  have h4 : ws c = false := by
    rw [← Bool.not_eq_true]
    simp only [ws, Bool.or_eq_true, decide_eq_true_eq, h3]
    simp only [show 'a'.toNat = 97 from rfl, show 'z'.toNat = 122 from rfl, show 'A'.toNat = 65 from rfl, show 'Z'.toNat = 90 from rfl, show '_'.toNat = 95 from rfl,
      show ' '.toNat = 32 from rfl, show '\t'.toNat = 9 from rfl, show '\n'.toNat = 10 from rfl, show '\r'.toNat = 13 from rfl] at *
    omega
  refine ⟨h4, ?_⟩
  simp only [ne_eq, h3]
  simp only [show 'a'.toNat = 97 from rfl, show 'z'.toNat = 122 from rfl, show 'A'.toNat = 65 from rfl, show 'Z'.toNat = 90 from rfl, show '_'.toNat = 95 from rfl,
      show ' '.toNat = 32 from rfl, show '>'.toNat = 62 from rfl, show '/'.toNat = 47 from rfl] at *
  omega

theorem nameStart_not_markup {c : Char} (h : nameStart c = true) : c ≠ '!' ∧ c ≠ '?' :=
  ⟨by rintro rfl; exact absurd h (by decide), by rintro rfl; exact absurd h (by decide)⟩

/-- The two ways a start tag ends. -/
def closeStr (b : Bool) : Str := if b then ['/', '>'] else ['>']

theorem parseAttrs_close (n : Nat) (b : Bool) (rest : Str) : parseAttrs (n + 1) (closeStr b ++ rest) = some ([], b, rest) := by
  cases b
  · rw [parseAttrs]; rfl
  · rw [parseAttrs]; rfl

theorem parseAttrs_good : ∀ (l : Dict Str Str) (b : Bool) (n : Nat) (rest : Str), (l.map Prod.fst).Nodup →
    (∀ p ∈ l, isName p.1 = true ∧ GoodAttr p.2) → (attrStr l ++ closeStr b).length ≤ n →
    parseAttrs n (attrStr l ++ (closeStr b ++ rest)) = some (l, b, rest)
  | [], b, n, rest, _, _, hlen => by
    rcases n with _ | n
    · cases b <;> simp [attrStr, closeStr] at hlen
    · exact parseAttrs_close n b rest
  | (k, v) :: l, b, n, rest, hn, h, hlen => by
    rcases n with _ | n
    · simp [attrStr] at hlen
    · rw [List.forall_mem_cons] at h
      rw [List.map_cons, List.nodup_cons] at hn
      obtain ⟨⟨hk, hv⟩, hl⟩ := h
      simp only at hk hv
      obtain ⟨c, k', hkk⟩ : ∃ c k', k = c :: k' := List.exists_cons_of_ne_nil (isName_ne_nil hk)
      · have hst : nameStart c = true := by rw [hkk] at hk; simp only [isName, Bool.and_eq_true] at hk; exact hk.1
        obtain ⟨hws, hgt, hsl, hsp⟩ := nameStart_not_ws hst
        have hlen' : (attrStr l ++ closeStr b).length ≤ n := by
          simp only [attrStr, List.length_append, List.length_cons] at hlen ⊢
          omega
        have ih := parseAttrs_good l b n rest hn.2 hl hlen'
        have htw : (k ++ '=' :: ('"' :: (v.flatMap escA ++ ('"' :: (attrStr l ++ (closeStr b ++ rest)))))).takeWhile nameChar = k ∧
            (k ++ '=' :: ('"' :: (v.flatMap escA ++ ('"' :: (attrStr l ++ (closeStr b ++ rest)))))).dropWhile nameChar =
              '=' :: ('"' :: (v.flatMap escA ++ ('"' :: (attrStr l ++ (closeStr b ++ rest))))) :=
          takeWhile_append_stop (isName_chars hk) (by decide)
        have hq : (v.flatMap escA ++ '"' :: (attrStr l ++ (closeStr b ++ rest))).takeWhile (fun x => decide (x ≠ '"')) = v.flatMap escA ∧
            (v.flatMap escA ++ '"' :: (attrStr l ++ (closeStr b ++ rest))).dropWhile (fun x => decide (x ≠ '"')) = '"' :: (attrStr l ++ (closeStr b ++ rest)) := by
          apply takeWhile_append_stop
          · intro y hy
            obtain ⟨x, _, hx⟩ := List.mem_flatMap.1 hy
            exact decide_eq_true (mem_escA hx).2.1
          · decide
        have hdrop : (attrStr ((k, v) :: l) ++ (closeStr b ++ rest)).dropWhile ws =
            c :: (k' ++ '=' :: ('"' :: (v.flatMap escA ++ ('"' :: (attrStr l ++ (closeStr b ++ rest)))))) := by
          rw [attrStr, hkk]
          simp only [List.cons_append, List.append_assoc]
          rw [List.dropWhile_cons_of_pos (by decide), List.dropWhile_cons_of_neg (by simp [hws])]
        rw [parseAttrs]
        rw [hdrop]
        simp only
        rw [if_neg hgt, if_neg hsl, if_neg (by rw [attrStr]; simp [Ne.symm hsp])]
        rw [hkk] at htw hk
        rw [List.cons_append] at htw
        rw [htw.1, htw.2, hk, List.dropWhile_cons_of_neg (show ¬ ws '=' = true by decide)]
        simp only [Bool.not_true, Bool.false_eq_true, if_false, List.head?_cons, ne_eq, not_true_eq_false, List.drop_succ_cons, List.drop_zero]
        rw [List.dropWhile_cons_of_neg (show ¬ ws '"' = true by decide)]
        simp only
        rw [if_neg (by simp)]
        have hq' := hq
        simp only [ne_eq, decide_not] at hq'
        simp only [decide_not]
        rw [hq'.1, hq'.2, parseAttr_good hv]
        simp only
        rw [ih]
        simp only
        rw [← hkk, if_neg hn.1]

theorem takeWhile_lt (t : Option Text) (r : Str) :
    (cdata t ++ '<' :: r).takeWhile (fun x => decide (x ≠ '<')) = cdata t ∧ (cdata t ++ '<' :: r).dropWhile (fun x => decide (x ≠ '<')) = '<' :: r := by
  apply takeWhile_append_stop
  · intro y hy
    obtain ⟨x, _, hx⟩ := List.mem_flatMap.1 hy
    exact decide_eq_true (mem_escC hx).1
  · decide

theorem parseText_good {t : Option Text} (h : GoodText t) : parseText (cdata t) = some (textStr t) :=
  parseText_cdata _ fun c hc => (h.1 c hc).1

theorem serCore_head (e : Elem) (h : Writable e) : ∃ c r, serCore e = '<' :: c :: r ∧ nameStart c = true := by
  obtain ⟨tag, attrib, text, tail, children⟩ := e
  obtain ⟨h1, _⟩ := h
  rcases tag with _ | ⟨c, tag⟩
  · simp [isName] at h1
  · simp only [isName, Bool.and_eq_true] at h1
    exact ⟨c, _, by rw [serCore]; rfl, h1.1⟩

theorem takeWhile_name {tag s : Str} (h : isName tag = true) (hs : ∃ c r, s = c :: r ∧ nameChar c = false) :
    (tag ++ s).takeWhile nameChar = tag ∧ (tag ++ s).dropWhile nameChar = s := by
  obtain ⟨c, r, rfl, hc⟩ := hs
  exact takeWhile_append_stop (isName_chars h) hc

mutual
theorem parseElem_good (e : Elem) (h : Writable e) : ∀ (n : Nat) (rest : Str), (serCore e).length ≤ n →
    parseElem n (serCore e ++ rest) = some (withTail none (plain e), rest) := by
  match e with
  | .mk tag attrib text tail children =>
    intro n rest hlen
    have h' := h
    obtain ⟨h1, h2, h3, h4, h5, h6⟩ := h'
    rcases n with _ | n
    · simp [serCore] at hlen
    · by_cases hb : (text.isSome || !children.isEmpty) = true
      · have hser : serCore (.mk tag attrib text tail children) ++ rest =
            '<' :: (tag ++ (attrStr attrib ++ (closeStr false ++ (cdata text ++ (serTails children ++ ('<' :: '/' :: (tag ++ '>' :: rest))))))) := by
          rw [serCore, if_pos hb]
          simp [closeStr]
        have hlen' : (attrStr attrib ++ closeStr false).length ≤ n ∧ (cdata text ++ (serTails children ++ ('<' :: '/' :: (tag ++ ['>'])))).length ≤ n := by
          rw [serCore, if_pos hb] at hlen
          simp only [List.length_cons, List.length_append, closeStr] at hlen ⊢
          constructor
          · simp only [Bool.false_eq_true, if_false, List.length_cons, List.length_nil]; omega
          · omega
        have hstop : ∃ c r, attrStr attrib ++ (closeStr false ++ (cdata text ++ (serTails children ++ ('<' :: '/' :: (tag ++ '>' :: rest))))) = c :: r ∧ nameChar c = false := by
          rcases attrib with _ | ⟨p, attrib⟩
          · exact ⟨'>', _, rfl, by decide⟩
          · exact ⟨' ', _, rfl, by decide⟩
        have htw := takeWhile_name h1 hstop
        rw [hser, parseElem]
        rw [if_neg (by simp), htw.1, htw.2, h1, if_neg (by simp), parseAttrs_good attrib false n _ h2 h3 hlen'.1]
        simp only
        rw [parseContent_good tag text children h1 h4 h6 n rest hlen'.2]
        rfl
      · have hser : serCore (.mk tag attrib text tail children) ++ rest = '<' :: (tag ++ (attrStr attrib ++ (closeStr true ++ rest))) := by
          rw [serCore, if_neg hb]
          simp [closeStr]
        have hlen' : (attrStr attrib ++ closeStr true).length ≤ n := by
          rw [serCore, if_neg hb] at hlen
          simp only [List.length_cons, List.length_append, closeStr, if_true] at hlen ⊢
          omega
        have hstop : ∃ c r, attrStr attrib ++ (closeStr true ++ rest) = c :: r ∧ nameChar c = false := by
          rcases attrib with _ | ⟨p, attrib⟩
          · exact ⟨'/', _, rfl, by decide⟩
          · exact ⟨' ', _, rfl, by decide⟩
        have htw := takeWhile_name h1 hstop
        rw [hser, parseElem]
        rw [if_neg (by simp), htw.1, htw.2, h1, if_neg (by simp), parseAttrs_good attrib true n _ h2 h3 hlen']
        simp only [Bool.or_eq_true, not_or, Bool.not_eq_true, Option.isSome_eq_false_iff, Option.isNone_iff_eq_none, Bool.not_eq_false', List.isEmpty_iff] at hb
        obtain ⟨rfl, rfl⟩ := hb
        rfl
theorem parseContent_good (tag : Str) (t : Option Text) (es : List Elem) (htag : isName tag = true) (ht : GoodText t) (h : WritableList es) :
    ∀ (n : Nat) (rest : Str), (cdata t ++ (serTails es ++ ('<' :: '/' :: (tag ++ ['>'])))).length ≤ n →
    parseContent n tag (cdata t ++ (serTails es ++ ('<' :: '/' :: (tag ++ '>' :: rest)))) = some (asText (textStr t), plainList es, rest) := by
  intro n rest hlen
  rcases n with _ | n
  · simp at hlen
  · match es with
    | [] =>
      have htw := takeWhile_lt t ('/' :: (tag ++ '>' :: rest))
      have hnm : (tag ++ '>' :: rest).takeWhile nameChar = tag ∧ (tag ++ '>' :: rest).dropWhile nameChar = '>' :: rest :=
        takeWhile_append_stop (isName_chars htag) (by decide)
      rw [serTails, List.nil_append, parseContent, htw.1, htw.2]
      rw [parseText_good ht]
      simp only [List.take_succ_cons, List.take_zero, if_true, List.drop_succ_cons, List.drop_zero]
      rw [hnm.1, hnm.2, if_neg (by simp), List.dropWhile_cons_of_neg (by decide)]
      simp only [if_true, plainList]
    | e :: es =>
      obtain ⟨c, r, hcr, hc⟩ := serCore_head e h.1
      have hser : serTails (e :: es) ++ ('<' :: '/' :: (tag ++ '>' :: rest)) =
          serCore e ++ (cdata e.tail ++ (serTails es ++ ('<' :: '/' :: (tag ++ '>' :: rest)))) := by
        rw [serTails]; simp
      have hser' : serCore e ++ (cdata e.tail ++ (serTails es ++ ('<' :: '/' :: (tag ++ '>' :: rest)))) =
          '<' :: c :: (r ++ (cdata e.tail ++ (serTails es ++ ('<' :: '/' :: (tag ++ '>' :: rest))))) := by
        rw [hcr]; rfl
      have hl1 : (serCore e).length ≤ n := by
        rw [serTails] at hlen
        simp only [List.length_append, List.length_cons] at hlen; omega
      have hl2 : (cdata e.tail ++ (serTails es ++ ('<' :: '/' :: (tag ++ ['>'])))).length ≤ n := by
        rw [serTails, hcr] at hlen
        simp only [List.length_append, List.length_cons] at hlen ⊢; omega
      have htw := takeWhile_lt t (c :: (r ++ (cdata e.tail ++ (serTails es ++ ('<' :: '/' :: (tag ++ '>' :: rest))))))
      have hne : ¬ (('<' :: c :: (r ++ (cdata e.tail ++ (serTails es ++ ('<' :: '/' :: (tag ++ '>' :: rest)))))).take 2 = ['<', '/']) := by
        simp only [List.take_succ_cons, List.take_zero, List.cons.injEq, true_and, and_true]
        exact (nameStart_not_ws hc).2.2.1
      have htail : GoodText e.tail := by
        have := h.1
        obtain ⟨tag', attrib', text', tail', children'⟩ := e
        exact this.2.2.2.2.1
      rw [hser, hser', parseContent, htw.1, htw.2, parseText_good ht]
      simp only
      rw [if_neg hne, if_neg (by
        have := nameStart_not_markup hc
        simp [isMarkup, this.1, this.2])]
      rw [← hser', parseElem_good e h.1 n _ hl1]
      simp only
      rw [parseContent_good tag e.tail es htag htail h.2 n rest hl2]
      simp only
      rw [plainList]
      have : withTail (asText (textStr e.tail)) (withTail none (plain e)) = plain e := by
        obtain ⟨tag', attrib', text', tail', children'⟩ := e
        rfl
      rw [this]
end

theorem cdata_no_cr {t : Option Text} (h : GoodText t) : ∀ c ∈ cdata t, c ≠ '\r' := by
  intro c hc
  obtain ⟨x, hx, hcx⟩ := List.mem_flatMap.1 hc
  exact fun hr => (h.1 x hx).2 ((mem_escC hcx).2.2 hr)

theorem attrStr_no_cr : ∀ {l : Dict Str Str}, (∀ p ∈ l, isName p.1 = true ∧ GoodAttr p.2) → ∀ c ∈ attrStr l, c ≠ '\r'
  | [], _, c, hc => by simp [attrStr] at hc
  | p :: l, h, c, hc => by
    rw [List.forall_mem_cons] at h
    rw [attrStr] at hc
    simp only [List.mem_cons, List.mem_append] at hc
    rcases hc with rfl | hc | rfl | rfl | hc | rfl | hc
    · decide
    · exact (xmlChar_of_nameChar (isName_chars h.1.1 c hc)).2
    · decide
    · decide
    · obtain ⟨x, hx, hcx⟩ := List.mem_flatMap.1 hc
      exact fun hr => (h.1.2 x hx).2.1 ((mem_escA hcx).2.2 hr)
    · decide
    · exact attrStr_no_cr h.2 c hc

mutual
theorem serCore_no_cr {e : Elem} (h : Writable e) : ∀ c ∈ serCore e, c ≠ '\r' := by
  match e with
  | .mk tag attrib text tail children =>
    obtain ⟨h1, _, h3, h4, h5, h6⟩ := h
    intro c hc
    have htag : c ∈ tag → c ≠ '\r' := fun h => (xmlChar_of_nameChar (isName_chars h1 c h)).2
    rw [serCore] at hc
    simp only [List.mem_cons, List.mem_append] at hc
    rcases hc with rfl | hc | hc | hc
    · decide
    · exact htag hc
    · exact attrStr_no_cr h3 c hc
    · split at hc
      · simp only [List.mem_cons, List.mem_append, List.not_mem_nil, or_false] at hc
        rcases hc with rfl | hc | hc | rfl | rfl | hc | rfl
        · decide
        · exact cdata_no_cr h4 c hc
        · exact serTails_no_cr h6 c hc
        · decide
        · decide
        · exact htag hc
        · decide
      · simp only [List.mem_cons, List.not_mem_nil, or_false] at hc
        rcases hc with rfl | rfl <;> decide
theorem serTails_no_cr {es : List Elem} (h : WritableList es) : ∀ c ∈ serTails es, c ≠ '\r' := by
  match es with
  | [] => intro c hc; simp [serTails] at hc
  | e :: es =>
    intro c hc
    have htail : GoodText e.tail := by
      have := h.1
      obtain ⟨tag', attrib', text', tail', children'⟩ := e
      exact this.2.2.2.2.1
    rw [serTails] at hc
    simp only [List.mem_append] at hc
    rcases hc with hc | hc | hc
    · exact serCore_no_cr h.1 c hc
    · exact cdata_no_cr htail c hc
    · exact serTails_no_cr h.2 c hc
end

theorem writable_tail {e : Elem} (h : Writable e) : GoodText e.tail := by
  obtain ⟨tag', attrib', text', tail', children'⟩ := e
  exact h.2.2.2.2.1

theorem cdata_ws {t : Option Text} (h : ∀ c ∈ textStr t, ws c = true) : ∀ c ∈ cdata t, ws c = true := by
  intro c hc
  obtain ⟨x, hx, hcx⟩ := List.mem_flatMap.1 hc
  have hw := h x hx
  have : escC x = [x] := by
    unfold escC
    rw [if_neg (by rintro rfl; exact absurd hw (by decide)), if_neg (by rintro rfl; exact absurd hw (by decide)), if_neg (by rintro rfl; exact absurd hw (by decide))]
  rw [this, List.mem_singleton] at hcx
  rw [hcx]; exact hw

theorem dropMisc_ws : ∀ {n : Nat} {s : Str}, (∀ c ∈ s, ws c = true) → dropMisc n s = some [] := by
  intro n s h
  have : s.dropWhile ws = [] := List.dropWhile_eq_nil_iff.2 h
  cases n <;> rw [dropMisc, this]
  rfl

theorem dropMisc_tag {n : Nat} {s : Str} {c : Char} {r : Str} (hs : s.dropWhile ws = '<' :: c :: r) (hc : nameStart c = true) : dropMisc n s = some ('<' :: c :: r) := by
  cases n <;> rw [dropMisc, hs]
  have := nameStart_not_markup hc
  rw [if_neg]
  simp [List.isPrefixOf, Ne.symm this.1, Ne.symm this.2]

/-- Everything after the header is parsed back. -/
theorem parseBody {e : Elem} (h : Writable e) (ht : ∀ c ∈ textStr e.tail, ws c = true) :
    parseRoot (serCore e ++ cdata e.tail) = some (withTail none (plain e)) := by
  rw [parseRoot, parseElem_good e h _ _ (by simp)]
  simp only
  rw [if_pos (dropMisc_ws (cdata_ws ht))]

/-- The part after the declaration. -/
theorem parseRest {e : Elem} (h : Writable e) (ht : ∀ c ∈ textStr e.tail, ws c = true) (s : Str) (hs : s.dropWhile ws = serCore e ++ cdata e.tail) :
    ((dropMisc s.length s).bind fun s => (dropDoctype s).bind fun s => (dropMisc s.length s).bind parseRoot) = some (withTail none (plain e)) := by
  obtain ⟨c, r, hcr, hc⟩ := serCore_head e h
  have hs' : s.dropWhile ws = '<' :: c :: (r ++ cdata e.tail) := by rw [hs, hcr]; rfl
  have hd : dropDoctype (serCore e ++ cdata e.tail) = some (serCore e ++ cdata e.tail) := by
    rw [dropDoctype, if_neg]
    rw [hcr]
    simp [List.isPrefixOf, Ne.symm (nameStart_not_markup hc).1]
  rw [dropMisc_tag hs' hc, ← hs', hs, Option.bind_some, hd, Option.bind_some, dropMisc_tag (c := c) (r := r ++ cdata e.tail) (by rw [hcr]; rfl) hc, ← hs', hs, Option.bind_some]
  exact parseBody h ht

theorem dropMark_tag (pre : Str) (e : Elem) (h : Writable e) (s : Str) (hpre : ∀ c ∈ pre.head?, c.toNat ≠ 0xFEFF) : dropMark (pre ++ (serCore e ++ s)) = pre ++ (serCore e ++ s) := by
  obtain ⟨c, r, hcr, -⟩ := serCore_head e h
  cases pre with
  | nil => rw [hcr]; rfl
  | cons d pre => rw [List.cons_append, dropMark, if_neg (hpre d (by simp))]

theorem notPrefix_header {e : Elem} (h : Writable e) (s : Str) : (c!"<?xml").isPrefixOf (serCore e ++ s) = false := by
  obtain ⟨c, r, hcr, hc⟩ := serCore_head e h
  rw [hcr]
  simp [List.isPrefixOf, Ne.symm (nameStart_not_markup hc).2]

theorem dropDecl_declaration (s : Str) : dropDecl (xmlDeclaration ++ s) = some s := by
  have h1 : splitAtFirst c!"?>" ((xmlDeclaration ++ s).drop 5) = some (c!" version=\"1.0\" encoding=\"UTF-8\"", s) := rfl
  have h2 : parseAttrs ((c!" version=\"1.0\" encoding=\"UTF-8\"" : Str).length + 1) (c!" version=\"1.0\" encoding=\"UTF-8\"" ++ ['>']) =
      some ([(c!"version", c!"1.0"), (c!"encoding", c!"UTF-8")], false, []) := by decide +kernel
  rw [dropDecl, if_pos (show ((c!"<?xml").isPrefixOf (xmlDeclaration ++ s) && ((xmlDeclaration ++ s).drop 5).head?.any ws) = true from rfl), h1]
  dsimp only
  rw [h2]
  dsimp only
  have h3 : declared [(c!"version", c!"1.0"), (c!"encoding", c!"UTF-8")] s = true := rfl
  rw [if_pos h3]

theorem parse_serialized {e : Elem} (h : Writable e) (ht : ∀ c ∈ textStr e.tail, ws c = true) (pre : Str)
    (hpre : pre = [] ∨ pre = xmlDeclaration ∨ pre = xmlDeclaration ++ ['\n']) :
    parse (pre ++ (serCore e ++ cdata e.tail)) = some (withTail none (plain e)) := by
  have hcr : ∀ c ∈ pre ++ (serCore e ++ cdata e.tail), c ≠ '\r' := by
    intro c hc
    rcases List.mem_append.1 hc with hc | hc
    · have hdec : ∀ c ∈ xmlDeclaration ++ ['\n'], c ≠ '\r' := by decide
      apply hdec
      rcases hpre with rfl | rfl | rfl
      · simp at hc
      · exact List.mem_append_left _ hc
      · exact hc
    · rcases List.mem_append.1 hc with hc | hc
      · exact serCore_no_cr h c hc
      · exact cdata_no_cr (writable_tail h) c hc
  have hws : (serCore e ++ cdata e.tail).dropWhile ws = serCore e ++ cdata e.tail := by
    obtain ⟨c, r, hc, _⟩ := serCore_head e h
    rw [hc]; rfl
  rw [parse, normNl_no_cr hcr, dropMark_tag _ e h _ (by rcases hpre with rfl | rfl | rfl <;> decide)]
  rcases hpre with rfl | rfl | rfl
  · rw [List.nil_append, dropDecl, notPrefix_header h]
    simp only [Bool.false_and, Bool.false_eq_true, if_false]
    exact parseRest h ht _ hws
  · rw [dropDecl_declaration, Option.bind_some]
    exact parseRest h ht _ hws
  · rw [List.append_assoc, dropDecl_declaration, Option.bind_some]
    refine parseRest h ht _ ?_
    rw [List.singleton_append, List.dropWhile_cons_of_pos (by decide)]
    exact hws

/-! ### pretty printing -/

theorem blank_of_strip {s : Str} (h : (strip s).isEmpty = true) : Blank s := by
  rw [List.isEmpty_iff] at h
  have h1 : (lstrip s).reverse.dropWhile isSpace = [] := by
    rw [strip, rstrip] at h
    exact List.reverse_eq_nil_iff.1 h
  have h2 : ∀ c ∈ lstrip s, isSpace c = true := by
    intro c hc
    rw [List.dropWhile_eq_nil_iff] at h1
    exact h1 c (List.mem_reverse.2 hc)
  have h3 : lstrip s = [] := by
    rcases hl : lstrip s with _ | ⟨c, r⟩
    · rfl
    · have hc := h2 c (by rw [hl]; simp)
      have := List.head?_dropWhile_not isSpace s
      rw [lstrip] at hl
      rw [hl] at this
      simp [hc] at this
  rw [lstrip, List.dropWhile_eq_nil_iff] at h3
  exact h3

theorem blank_text {t : Option Text} (h : blank t = true) : Blank (textStr t) := by
  rcases t with _ | s | b
  · intro c hc; simp [textStr] at hc
  · exact blank_of_strip h
  · intro c hc
    obtain ⟨x, hx, rfl⟩ := List.mem_map.1 hc
    rw [blank, List.all_eq_true] at h
    have := h x hx
    simp only [Bool.or_eq_true, Bool.and_eq_true, decide_eq_true_eq, beq_iff_eq, UInt8.le_iff_toNat_le] at this
    have hn : x.toNat = 9 ∨ x.toNat = 10 ∨ x.toNat = 11 ∨ x.toNat = 12 ∨ x.toNat = 13 ∨ x.toNat = 32 := by
      rcases this with ⟨h1, h2⟩ | h1
      · have h1 : 9 ≤ x.toNat := h1
        have h2 : x.toNat ≤ 13 := h2
        omega
      · subst h1; decide
    rcases hn with h | h | h | h | h | h <;> rw [h] <;> decide

theorem indentText_mem (l : Nat) : ∀ c ∈ indentText l, c = '\n' ∨ c = ' ' := by
  intro c hc
  rw [indentText, List.mem_cons] at hc
  exact hc.imp id fun h => List.eq_of_mem_replicate h

theorem goodText_ws {s : Str} (h : ∀ c ∈ s, c = '\n' ∨ c = ' ') : GoodText (some (.str s)) := by
  refine ⟨fun c hc => ?_, fun b hb => by cases hb⟩
  rcases h c hc with rfl | rfl <;> decide

theorem blank_ws {s : Str} (h : ∀ c ∈ s, c = '\n' ∨ c = ' ') : Blank s := by
  intro c hc
  rcases h c hc with rfl | rfl <;> decide

theorem writable_setTail {e : Elem} {t : Option Text} (h : Writable e) (ht : GoodText t) : Writable (setTail t e) := by
  obtain ⟨tag', attrib', text', tail', children'⟩ := e
  obtain ⟨h1, h2, h3, h4, h5, h6⟩ := h
  exact ⟨h1, h2, h3, h4, ht, h6⟩

theorem writable_fillTail {e : Elem} {i : Str} (h : Writable e) (hi : ∀ c ∈ i, c = '\n' ∨ c = ' ') : Writable (fillTail i e) := by
  unfold fillTail
  split
  · exact writable_setTail h (goodText_ws hi)
  · exact h

theorem writable_fillLast {i : Str} (hi : ∀ c ∈ i, c = '\n' ∨ c = ' ') : ∀ {es : List Elem}, WritableList es → WritableList (fillLast i es)
  | [], _ => trivial
  | [_], h => ⟨writable_fillTail h.1 hi, trivial⟩
  | _ :: f :: es, h => ⟨h.1, writable_fillLast hi (es := f :: es) h.2⟩

mutual
theorem writable_indent (l : Nat) {e : Elem} (h : Writable e) : Writable (indent l e) := by
  match e with
  | .mk tag attrib text tail [] =>
    rw [indent]
    split
    · exact writable_fillTail h (indentText_mem l)
    · exact h
  | .mk tag attrib text tail (c :: cs) =>
    rw [indent]
    apply writable_fillTail _ (indentText_mem l)
    obtain ⟨h1, h2, h3, h4, h5, h6⟩ := h
    refine ⟨h1, h2, h3, ?_, h5, writable_fillLast (indentText_mem l) (writable_indentList (l + 1) h6)⟩
    split
    · apply goodText_ws
      intro x hx
      rcases List.mem_append.1 hx with hx | hx
      · exact indentText_mem l x hx
      · simp at hx; exact .inr hx
    · exact h4
theorem writable_indentList (l : Nat) {es : List Elem} (h : WritableList es) : WritableList (indentList l es) := by
  match es with
  | [] => exact trivial
  | e :: es => rw [indentList]; exact ⟨writable_indent l h.1, writable_indentList l h.2⟩
end

theorem sameTree_fillTail {e e' : Elem} {i : Str} (h : SameTree e e') (hi : Blank i) : SameTree e (fillTail i e') := by
  cases h with
  | mk tag attrib x x' y y' c c' hx hy hc =>
    unfold fillTail
    split
    · next hb =>
      refine .mk tag attrib x x' y (some (.str i)) c c' hx (.inr ⟨?_, hi⟩) hc
      rcases hy with hy | ⟨hy, _⟩
      · rw [hy]; exact blank_text hb
      · exact hy
    · exact .mk tag attrib x x' y y' c c' hx hy hc

theorem sameTrees_fillLast {i : Str} (hi : Blank i) : ∀ {es es' : List Elem}, SameTrees es es' → SameTrees es (fillLast i es')
  | _, _, .nil => .nil
  | _, _, .cons _ _ _ _ h .nil => .cons _ _ _ _ (sameTree_fillTail h hi) .nil
  | _, _, .cons _ _ _ _ h (.cons e e' es es' h2 h3) => .cons _ _ _ _ h (sameTrees_fillLast hi (.cons e e' es es' h2 h3))

mutual
theorem sameTree_refl (e : Elem) : SameTree e e := by
  match e with
  | .mk tag attrib text tail children => exact .mk _ _ _ _ _ _ _ _ (.inl rfl) (.inl rfl) (sameTrees_refl children)
theorem sameTrees_refl (es : List Elem) : SameTrees es es := by
  match es with
  | [] => exact .nil
  | e :: es => exact .cons _ _ _ _ (sameTree_refl e) (sameTrees_refl es)
end

mutual
theorem sameTree_indent (l : Nat) (e : Elem) : SameTree e (indent l e) := by
  match e with
  | .mk tag attrib text tail [] =>
    rw [indent]
    split
    · exact sameTree_fillTail (sameTree_refl _) (blank_ws (indentText_mem l))
    · exact sameTree_refl _
  | .mk tag attrib text tail (c :: cs) =>
    rw [indent]
    apply sameTree_fillTail _ (blank_ws (indentText_mem l))
    refine .mk _ _ _ _ _ _ _ _ ?_ (.inl rfl) (sameTrees_fillLast (blank_ws (indentText_mem l)) (sameTrees_indent (l + 1) (c :: cs)))
    split
    · next hb =>
      refine .inr ⟨by simp, blank_text hb, ?_⟩
      apply blank_ws
      intro x hx
      rcases List.mem_append.1 hx with hx | hx
      · exact indentText_mem l x hx
      · simp at hx; exact .inr hx
    · exact .inl rfl
theorem sameTrees_indent (l : Nat) (es : List Elem) : SameTrees es (indentList l es) := by
  match es with
  | [] => exact .nil
  | e :: es => rw [indentList]; exact .cons _ _ _ _ (sameTree_indent l e) (sameTrees_indent l es)
end

theorem textStr_asText (s : Str) : textStr (asText s) = s := by cases s <;> rfl

mutual
theorem sameTree_plain {e e' : Elem} (h : SameTree e e') : SameTree e (plain e') := by
  match h with
  | .mk tag attrib x x' y y' c c' hx hy hc =>
    rw [plain]
    refine .mk _ _ _ _ _ _ _ _ ?_ ?_ (sameTrees_plain hc)
    · rw [textStr_asText]; exact hx
    · rw [textStr_asText]; exact hy
theorem sameTrees_plain {es es' : List Elem} (h : SameTrees es es') : SameTrees es (plainList es') := by
  match h with
  | .nil => exact .nil
  | .cons _ _ _ _ h h' => rw [plainList]; exact .cons _ _ _ _ (sameTree_plain h) (sameTrees_plain h')
end

theorem sameTree_withTail {e e' : Elem} (h : SameTree e e') (ht : e.tail = none) : SameTree e (withTail none e') := by
  cases h with
  | mk tag attrib x x' y y' c c' hx hy hc =>
    simp only [Elem.tail] at ht
    subst ht
    exact .mk tag attrib x x' none none c c' hx (.inl rfl) hc

theorem indent_tail_ws (e : Elem) (ht : e.tail = none) : ∀ c ∈ textStr (indent 0 e).tail, ws c = true := by
  match e with
  | .mk tag attrib text tail [] =>
    simp only [Elem.tail] at ht
    subst ht
    rw [indent]
    intro c hc
    simp [Elem.tail, textStr] at hc
  | .mk tag attrib text tail (c :: cs) =>
    simp only [Elem.tail] at ht
    subst ht
    rw [indent]
    simp only [fillTail, Elem.tail, blank, if_true, setTail, textStr]
    intro c hc
    rcases indentText_mem 0 c hc with rfl | rfl <;> decide

end Verif.Xml
