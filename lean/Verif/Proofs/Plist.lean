import Verif.Model.Plist
import Verif.Spec.Plist
import Verif.Proofs.Num
import Verif.Proofs.Dict
/-! Lemmas about property lists. -/
namespace Verif.Plist
open Verif Verif.Spec.Plist

/-! ### dates -/

theorem pad_digits (w n : Nat) : ∀ c ∈ pad w n, isDigit c = true := zfill_digits (natRepr_digits n)

theorem pad2 {n : Nat} (h : n < 100) : ∃ a b, pad 2 n = [a, b] ∧ isDigit a = true ∧ isDigit b = true ∧
    digitVal a * 10 + digitVal b = n := by
  have hl : (pad 2 n).length = 2 := zfill_length (natRepr_length_le (by omega) (by omega))
  have hv : digitsVal (pad 2 n) = n := by rw [pad, zfill, digitsVal_replicate_zero, digitsVal_natRepr]
  have hd := pad_digits 2 n
  rcases hp : pad 2 n with _ | ⟨a, _ | ⟨b, _ | ⟨c, l⟩⟩⟩
  · rw [hp] at hl; simp at hl
  · rw [hp] at hl; simp at hl
  · rw [hp] at hv hd
    refine ⟨a, b, rfl, hd a (by simp), hd b (by simp), ?_⟩
    simpa [digitsVal] using hv
  · rw [hp] at hl; simp at hl

theorem pad4 {n : Nat} (h : n < 10000) : ∃ a b c d, pad 4 n = [a, b, c, d] ∧
    (isDigit a = true ∧ isDigit b = true ∧ isDigit c = true ∧ isDigit d = true) ∧
    digitVal a * 1000 + digitVal b * 100 + digitVal c * 10 + digitVal d = n := by
  have hl : (pad 4 n).length = 4 := zfill_length (natRepr_length_le (by omega) (by omega))
  have hv : digitsVal (pad 4 n) = n := by rw [pad, zfill, digitsVal_replicate_zero, digitsVal_natRepr]
  have hd := pad_digits 4 n
  obtain ⟨a, b, c, d, hp⟩ : ∃ a b c d, pad 4 n = [a, b, c, d] := by
    rcases hp : pad 4 n with _ | ⟨a, _ | ⟨b, _ | ⟨c, _ | ⟨d, _ | ⟨e, l⟩⟩⟩⟩⟩
    · rw [hp] at hl; simp at hl
    · rw [hp] at hl; simp at hl
    · rw [hp] at hl; simp at hl
    · rw [hp] at hl; simp at hl
    · exact ⟨a, b, c, d, rfl⟩
    · rw [hp] at hl; simp at hl
  rw [hp] at hv hd
  refine ⟨a, b, c, d, hp, ⟨hd a (by simp), hd b (by simp), hd c (by simp), hd d (by simp)⟩, ?_⟩
  simp only [digitsVal, List.foldl_cons, List.foldl_nil] at hv
  omega

theorem isLeap_iff (y : Nat) : isLeap y = true ↔ 4 ∣ y ∧ (100 ∣ y → 400 ∣ y) := by
  simp only [isLeap, Bool.or_eq_true, Bool.and_eq_true, beq_iff_eq, bne_iff_ne]
  omega

theorem dateOk_iff (d : PyDate) : dateOk d = true ↔ RealDate d := by
  simp only [dateOk, Bool.and_eq_true, decide_eq_true_eq]
  rw [daysIn]
  constructor
  · rintro ⟨⟨⟨⟨⟨⟨⟨⟨h1, h2⟩, h3⟩, h4⟩, h5⟩, h6⟩, h7⟩, h8⟩, h9⟩
    have h31 : d.day ≤ 31 := by split at h6 <;> (try split at h6) <;> omega
    refine ⟨⟨h1, h2⟩, ⟨h3, h4⟩, h5, ?_, ?_, h31, by omega, by omega, by omega⟩
    · intro hm
      simp only [List.mem_cons, List.not_mem_nil, or_false] at hm
      rw [if_neg (by omega), if_pos hm] at h6; exact h6
    · intro hm
      rw [if_pos hm] at h6
      split at h6
      · next hl => exact ⟨h6, fun _ => (isLeap_iff _).1 hl⟩
      · exact ⟨by omega, fun h => by omega⟩
  · rintro ⟨⟨h1, h2⟩, ⟨h3, h4⟩, h5, hs, hf, hl, ht1, ht2, ht3⟩
    refine ⟨⟨⟨⟨⟨⟨⟨⟨h1, h2⟩, h3⟩, h4⟩, h5⟩, ?_⟩, by omega⟩, by omega⟩, by omega⟩
    split
    · next hm =>
      obtain ⟨a, b⟩ := hf hm
      split
      · exact a
      · next hle =>
        by_contra hc
        exact hle ((isLeap_iff _).2 (b (by omega)))
    · split
      · next hm => exact hs (by simpa using hm)
      · exact hl

theorem dateTail_step (sep : Char) (seps : List Char) (a b : Char) (rest : Str) (l : List Nat) (ha : isDigit a = true) (hb : isDigit b = true)
    (h : dateTail seps rest = some l) : dateTail (sep :: seps) (sep :: a :: b :: rest) = some ((digitVal a * 10 + digitVal b) :: l) := by
  rw [dateTail]
  simp only [ha, hb, and_self, if_true, h]

/-- Dates survive. -/
theorem dateFromString_toString (d : PyDate) (h : RealDate d) : dateFromString (dateToString d) = .ok d := by
  obtain ⟨y1, y2, y3, y4, hy, ⟨hy1, hy2, hy3, hy4⟩, hyv⟩ := pad4 (n := d.year) (by have := h.year; omega)
  obtain ⟨m1, m2, hm, hm1, hm2, hmv⟩ := pad2 (n := d.month) (by have := h.month; omega)
  obtain ⟨d1, d2, hd, hd1, hd2, hdv⟩ := pad2 (n := d.day) (by have := h.long; omega)
  obtain ⟨a1, a2, ha, ha1, ha2, hav⟩ := pad2 (n := d.hour) (by have := h.time; omega)
  obtain ⟨b1, b2, hb, hb1, hb2, hbv⟩ := pad2 (n := d.minute) (by have := h.time; omega)
  obtain ⟨s1, s2, hs, hs1, hs2, hsv⟩ := pad2 (n := d.second) (by have := h.time; omega)
  have hf : dateFields (dateToString d) = some [d.year, d.month, d.day, d.hour, d.minute, d.second] := by
    rw [dateToString, hy, hm, hd, ha, hb, hs]
    simp only [List.cons_append, List.nil_append, dateFields, hy1, hy2, hy3, hy4, Bool.and_self, if_true]
    rw [dateTail_step '-' _ m1 m2 _ _ hm1 hm2 (dateTail_step '-' _ d1 d2 _ _ hd1 hd2 (dateTail_step 'T' _ a1 a2 _ _ ha1 ha2
      (dateTail_step ':' _ b1 b2 _ _ hb1 hb2 (dateTail_step ':' _ s1 s2 _ _ hs1 hs2 (show dateTail [] ['Z'] = some [] from rfl)))))]
    simp [hyv, hmv, hdv, hav, hbv, hsv]
  rw [dateFromString, hf]
  show mkDate _ = _
  rw [mkDate]
  simp only [List.getElem?_cons_zero, List.getElem?_cons_succ, Option.getD_some]
  rw [if_pos]
  exact (dateOk_iff _).2 h

/-! ### base64 -/

theorem b64Val_b64Char {n : Nat} (h : n < 64) : b64Val (b64Char n) = some n ∧ b64Char n ≠ '=' ∧ (b64Char n).toNat < 128 ∧ isGraph (b64Char n) = true := by
  have : ∀ n : Fin 64, b64Val (b64Char n.val) = some n.val ∧ b64Char n.val ≠ '=' ∧ (b64Char n.val).toNat < 128 ∧ isGraph (b64Char n.val) = true := by decide
  exact this ⟨n, h⟩

theorem a2b_char (quad left pads n : Nat) (cs : Str) (h : n < 64) : a2b quad left pads (b64Char n :: cs) =
    if quad = 0 then a2b 1 n 0 cs
    else if quad = 1 then (a2b 2 (n % 16) 0 cs).map (UInt8.ofNat (left * 4 + n / 16) :: ·)
    else if quad = 2 then (a2b 3 (n % 4) 0 cs).map (UInt8.ofNat (left * 16 + n / 4) :: ·)
    else (a2b 0 0 0 cs).map (UInt8.ofNat (left * 64 + n) :: ·) := by
  obtain ⟨h1, h2, -⟩ := b64Val_b64Char h
  rw [a2b, if_neg h2, h1]

/-- A character that is skipped by the decoder. -/
def isSkipped (c : Char) : Bool := (b64Val c).isNone && c != '='

theorem a2b_filter (s : Str) : ∀ quad left pads, a2b quad left pads (s.filter fun c => !isSkipped c) = a2b quad left pads s := by
  induction s with
  | nil => intros; rfl
  | cons c s ih =>
    intro quad left pads
    by_cases hc : c = '='
    · subst hc
      rw [List.filter_cons_of_pos (by decide), a2b, a2b]
      simp only [if_true, ih]
    · rcases hv : b64Val c with _ | v
      · rw [List.filter_cons_of_neg (by simp [isSkipped, hv, hc]), ih]
        conv => rhs; rw [a2b, if_neg hc, hv]
      · rw [List.filter_cons_of_pos (by simp [isSkipped, hv]), a2b, a2b, if_neg hc, if_neg hc, hv]
        simp only [ih]

theorem toNat_lt (a : UInt8) : a.toNat < 256 := UInt8.toNat_lt a

theorem ofNat_eq (a : UInt8) (n : Nat) (h : n = a.toNat) : UInt8.ofNat n = a := by
  subst h; simp

theorem a2b_b64encode (data : List UInt8) : a2b 0 0 0 (b64encode data) = .ok data := by
  induction data using b64encode.induct with
  | case1 => rfl
  | case2 a =>
    have := toNat_lt a
    simp only [b64encode]
    rw [a2b_char _ _ _ _ _ (by omega), if_pos rfl, a2b_char _ _ _ _ _ (by omega), if_neg (by omega), if_pos rfl]
    rw [ofNat_eq a _ (by omega)]
    rfl
  | case3 a b =>
    have := toNat_lt a
    have := toNat_lt b
    simp only [b64encode]
    rw [a2b_char _ _ _ _ _ (by omega), if_pos rfl, a2b_char _ _ _ _ _ (by omega), if_neg (by omega), if_pos rfl,
      a2b_char _ _ _ _ _ (by omega), if_neg (by omega), if_neg (by omega), if_pos rfl]
    rw [ofNat_eq a _ (by omega), ofNat_eq b _ (by omega)]
    rfl
  | case4 a b c rest ih =>
    have := toNat_lt a
    have := toNat_lt b
    have := toNat_lt c
    simp only [b64encode]
    rw [a2b_char _ _ _ _ _ (by omega), if_pos rfl, a2b_char _ _ _ _ _ (by omega), if_neg (by omega), if_pos rfl,
      a2b_char _ _ _ _ _ (by omega), if_neg (by omega), if_neg (by omega), if_pos rfl,
      a2b_char _ _ _ _ _ (by omega), if_neg (by omega), if_neg (by omega), if_neg (by omega), ih]
    rw [ofNat_eq a _ (by omega), ofNat_eq b _ (by omega), ofNat_eq c _ (by omega)]
    rfl

/-- Characters of encoded data. -/
theorem b64encode_chars (data : List UInt8) : ∀ c ∈ b64encode data, isSkipped c = false ∧ c.toNat < 128 ∧ isGraph c = true := by
  have key : ∀ n, n < 64 → isSkipped (b64Char n) = false ∧ (b64Char n).toNat < 128 ∧ isGraph (b64Char n) = true := by
    intro n hn
    obtain ⟨h1, -, h3, h4⟩ := b64Val_b64Char hn
    exact ⟨by simp [isSkipped, h1], h3, h4⟩
  have eq : isSkipped '=' = false ∧ '='.toNat < 128 ∧ isGraph '=' = true := by decide
  induction data using b64encode.induct with
  | case1 => simp [b64encode]
  | case2 a =>
    have := toNat_lt a
    intro c hc
    simp only [b64encode, List.mem_cons, List.not_mem_nil, or_false] at hc
    rcases hc with rfl | rfl | rfl | rfl
    · exact key _ (by omega)
    · exact key _ (by omega)
    · exact eq
    · exact eq
  | case3 a b =>
    have := toNat_lt a
    have := toNat_lt b
    intro c hc
    simp only [b64encode, List.mem_cons, List.not_mem_nil, or_false] at hc
    rcases hc with rfl | rfl | rfl | rfl
    · exact key _ (by omega)
    · exact key _ (by omega)
    · exact key _ (by omega)
    · exact eq
  | case4 a b c rest ih =>
    have := toNat_lt a
    have := toNat_lt b
    have := toNat_lt c
    intro ch hc
    simp only [b64encode, List.mem_cons] at hc
    rcases hc with rfl | rfl | rfl | rfl | hc
    · exact key _ (by omega)
    · exact key _ (by omega)
    · exact key _ (by omega)
    · exact key _ (by omega)
    · exact ih ch hc

theorem chunks_flatten (n : Nat) (hn : 0 < n) : ∀ (fuel : Nat) (s : Str), s.length ≤ fuel → (chunks n fuel s).flatten = s
  | 0, s, h => by have := List.length_eq_zero_iff.1 (Nat.le_zero.1 h); subst this; rfl
  | fuel + 1, [], _ => rfl
  | fuel + 1, c :: cs, h => by
    rw [chunks, List.flatten_cons, chunks_flatten n hn fuel]
    · exact List.take_append_drop n (c :: cs)
    · simp only [List.length_drop, List.length_cons] at h ⊢; omega

theorem encodeBase64_filter (data : List UInt8) (m : Option Nat) (i : Nat) :
    (encodeBase64 data m i).filter (fun c => !isSkipped c) = b64encode data := by
  have hself : (b64encode data).filter (fun c => !isSkipped c) = b64encode data := by
    rw [List.filter_eq_self]; intro c hc; simp [(b64encode_chars data c hc).1]
  unfold encodeBase64
  split
  · next m =>
    simp only
    split
    · exact hself
    · have hind : ('\n' :: List.replicate (2 * i) ' ').filter (fun c => !isSkipped c) = [] := by
        rw [List.filter_eq_nil_iff]
        intro c hc
        rcases List.mem_cons.1 hc with rfl | hc
        · decide
        · rw [(List.mem_replicate.1 hc).2]; decide
      simp only [List.filter_append, hind, List.append_nil, List.filter_flatMap, List.nil_append]
      rw [← List.filter_flatMap (l := chunks _ _ _) (g := fun c => c)]
      rw [List.flatMap_id', chunks_flatten _ (by omega) _ _ (Nat.le_refl _), hself]
  · exact hself

theorem encodeBase64_chars (data : List UInt8) (m : Option Nat) (i : Nat) :
    ∀ c ∈ encodeBase64 data m i, c = '\n' ∨ c = ' ' ∨ isGraph c = true := by
  have hself : ∀ c ∈ b64encode data, c = '\n' ∨ c = ' ' ∨ isGraph c = true := fun c hc => .inr (.inr (b64encode_chars data c hc).2.2)
  unfold encodeBase64
  split
  · next m =>
    simp only
    split
    · exact hself
    · have hind : ∀ c ∈ ('\n' :: List.replicate (2 * i) ' '), c = '\n' ∨ c = ' ' ∨ isGraph c = true := by
        intro c hc
        rcases List.mem_cons.1 hc with rfl | hc
        · simp
        · simp [(List.mem_replicate.1 hc).2]
      intro c hc
      rcases List.mem_append.1 hc with hc | hc
      · obtain ⟨x, hx, hc⟩ := List.mem_flatMap.1 hc
        rcases List.mem_append.1 hc with hc | hc
        · exact hind c hc
        · apply hself
          rw [← chunks_flatten (max 16 (m + 1 - ('\n' :: List.replicate (2 * i) ' ').length)) (by omega) _ (b64encode data) (Nat.le_refl _)]
          exact List.mem_flatten.2 ⟨x, hx, hc⟩
      · exact hind c hc
  · exact hself

/-- base64 data survives wrapping. -/
theorem b64decode_encode (data : List UInt8) (m : Option Nat) (i : Nat) : b64decode (encodeBase64 data m i) = .ok data := by
  rw [b64decode, if_pos, ← a2b_filter, encodeBase64_filter, a2b_b64encode]
  rw [List.all_eq_true]
  intro c hc
  rcases encodeBase64_chars data m i c hc with rfl | rfl | h
  · decide
  · decide
  · simp only [isGraph, Bool.and_eq_true, decide_eq_true_eq] at h
    simp; omega

/-! ### sorting -/

theorem strLe_total : ∀ a b : Str, strLe a b = true ∨ strLe b a = true
  | [], _ => .inl (by simp [strLe])
  | _ :: _, [] => .inr (by simp [strLe])
  | a :: as, b :: bs => by
    have ih := strLe_total as bs
    simp only [strLe]
    split
    · exact .inl rfl
    · split
      · right
        rfl
      · exact ih

theorem strLe_antisymm : ∀ a b : Str, strLe a b = true → strLe b a = true → a = b
  | [], [], _, _ => rfl
  | [], _ :: _, _, h => by simp [strLe] at h
  | _ :: _, [], h, _ => by simp [strLe] at h
  | a :: as, b :: bs, h1, h2 => by
    simp only [strLe] at h1 h2
    have hab : a.toNat = b.toNat := by
      split at h1
      · split at h2
        · omega
        · cases h2
      · split at h1
        · cases h1
        · omega
    have hc : a = b := Char.toNat_inj.1 hab
    subst hc
    simp only [Nat.lt_irrefl, if_false] at h1 h2
    rw [strLe_antisymm as bs h1 h2]

theorem strLe_trans : ∀ a b c : Str, strLe a b = true → strLe b c = true → strLe a c = true
  | [], _, _, _, _ => by simp [strLe]
  | _ :: _, [], _, h, _ => by simp [strLe] at h
  | _ :: _, _ :: _, [], _, h => by simp [strLe] at h
  | a :: as, b :: bs, c :: cs, h1, h2 => by
    simp only [strLe] at h1 h2 ⊢
    have ih := strLe_trans as bs cs
    split at h1
    · split at h2
      · rw [if_pos (by omega)]
      · split at h2
        · cases h2
        · rw [if_pos (by omega)]
    · split at h1
      · cases h1
      · split at h2
        · rw [if_pos (by omega)]
        · split at h2
          · cases h2
          · rw [if_neg (by omega), if_neg (by omega)]; exact ih h1 h2

variable {α β : Type}

theorem insertItem_perm (x : Str × α) : ∀ l, (insertItem x l).Perm (x :: l)
  | [] => .refl _
  | y :: ys => by
    rw [insertItem]
    split
    · exact .refl _
    · exact ((insertItem_perm x ys).cons y).trans (.swap x y ys)

theorem sortItems_perm : ∀ l : List (Str × α), (sortItems l).Perm l
  | [] => .refl _
  | x :: l => (insertItem_perm x _).trans ((sortItems_perm l).cons x)

theorem insertItem_map (f : α → β) (x : Str × α) : ∀ l : List (Str × α),
    insertItem (x.1, f x.2) (l.map fun p => (p.1, f p.2)) = (insertItem x l).map fun p => (p.1, f p.2)
  | [] => rfl
  | y :: ys => by
    rw [List.map_cons, insertItem, insertItem]
    simp only
    split
    · rfl
    · rw [List.map_cons, insertItem_map f x ys]

theorem sortItems_map (f : α → β) : ∀ l : List (Str × α),
    sortItems (l.map fun p => (p.1, f p.2)) = (sortItems l).map fun p => (p.1, f p.2)
  | [] => rfl
  | x :: l => by rw [List.map_cons, sortItems, sortItems, sortItems_map f l, insertItem_map]

/-- Inserting two items with different keys: the order does not matter. -/
theorem insertItem_comm (x y : Str × α) (h : x.1 ≠ y.1) : ∀ l, insertItem x (insertItem y l) = insertItem y (insertItem x l)
  | [] => by
    simp only [insertItem]
    by_cases hxy : strLe x.1 y.1 = true
    · have hyx : ¬ strLe y.1 x.1 = true := fun h' => h (strLe_antisymm _ _ hxy h')
      rw [if_pos hxy, if_neg hyx]
    · have hyx : strLe y.1 x.1 = true := (strLe_total x.1 y.1).resolve_left hxy
      rw [if_neg hxy, if_pos hyx]
  | z :: zs => by
    have ih := insertItem_comm x y h zs
    have hanti : ¬ (strLe x.1 y.1 = true ∧ strLe y.1 x.1 = true) := fun h' => h (strLe_antisymm _ _ h'.1 h'.2)
    by_cases hxz : strLe x.1 z.1 = true <;> by_cases hyz : strLe y.1 z.1 = true
    · simp only [insertItem, if_pos hxz, if_pos hyz]
      by_cases hxy : strLe x.1 y.1 = true
      · have hyx : ¬ strLe y.1 x.1 = true := fun h' => hanti ⟨hxy, h'⟩
        rw [if_pos hxy, if_neg hyx]
      · have hyx : strLe y.1 x.1 = true := (strLe_total x.1 y.1).resolve_left hxy
        rw [if_neg hxy, if_pos hyx]
    · have hyx : ¬ strLe y.1 x.1 = true := fun h' => hyz (strLe_trans _ _ _ h' hxz)
      simp only [insertItem, if_pos hxz, if_neg hyz, if_neg hyx]
    · have hxy : ¬ strLe x.1 y.1 = true := fun h' => hxz (strLe_trans _ _ _ h' hyz)
      simp only [insertItem, if_neg hxz, if_pos hyz, if_neg hxy]
    · simp only [insertItem, if_neg hxz, if_neg hyz, ih]

/-! ### order independence -/

/-- Elements of the items of a dictionary in sorted order. -/
def sortedElements (F : FloatCodec) (lxml pretty : Bool) (indent : Nat) (d : List (PyVal × PyVal)) : Option (List (Str × Except Exc Elem)) :=
  (strKeys (makeValues F lxml pretty indent d)).map sortItems

theorem makeElement_dict (F : FloatCodec) (lxml pretty : Bool) (indent : Nat) (d : List (PyVal × PyVal)) :
    makeElement F lxml pretty indent (.dict d) = match sortedElements F lxml pretty (indent + 1) d with
      | none => .error .typeError
      | some l => (dictChildren lxml l).map (Elem.node c!"dict") := by
  rw [makeElement, sortedElements]
  rcases strKeys (makeValues F lxml pretty (indent + 1) d) with _ | l <;> rfl

theorem sortedElements_cons (F : FloatCodec) (lxml pretty : Bool) (indent : Nat) (k : Str) (v : PyVal) (d : List (PyVal × PyVal)) :
    sortedElements F lxml pretty indent ((.str k, v) :: d) =
      (sortedElements F lxml pretty indent d).map (insertItem (k, makeElement F lxml pretty indent v)) := by
  simp only [sortedElements, makeValues, strKeys]
  rcases strKeys (makeValues F lxml pretty indent d) with _ | l <;> rfl

theorem sortedElements_bad (F : FloatCodec) (lxml pretty : Bool) (indent : Nat) (k v : PyVal) (d : List (PyVal × PyVal))
    (hk : ∀ s, k ≠ .str s) : sortedElements F lxml pretty indent ((k, v) :: d) = none := by
  simp only [sortedElements, makeValues]
  cases k <;> first | rfl | (exact absurd rfl (hk _))

theorem str_or_not (k : PyVal) : (∃ s, k = .str s) ∨ ∀ s, k ≠ .str s := by
  cases k <;> simp

mutual
theorem same_tree (F : FloatCodec) (lxml pretty : Bool) {v w : PyVal} (h : Same v w) (hv : WellFormed v) :
    WellFormed w ∧ ∀ indent, makeElement F lxml pretty indent v = makeElement F lxml pretty indent w := by
  match h with
  | .refl _ => exact ⟨hv, fun _ => rfl⟩
  | .list a b h =>
    obtain ⟨h1, h2⟩ := same_list F lxml pretty h hv
    exact ⟨h1, fun i => by rw [makeElement, makeElement, h2]⟩
  | .tuple a b h =>
    obtain ⟨h1, h2⟩ := same_list F lxml pretty h hv
    exact ⟨h1, fun i => by rw [makeElement, makeElement, h2]⟩
  | .dict a b h =>
    obtain ⟨h1, h2, h3⟩ := same_items F lxml pretty h hv.2
    refine ⟨⟨(h1.nodup_iff).1 hv.1, h2⟩, fun i => ?_⟩
    rw [makeElement_dict, makeElement_dict, h3 hv.1]
theorem same_list (F : FloatCodec) (lxml pretty : Bool) {a b : List PyVal} (h : SameList a b) (hv : WellFormedList a) :
    WellFormedList b ∧ ∀ indent, makeList F lxml pretty indent a = makeList F lxml pretty indent b := by
  match h with
  | .nil => exact ⟨hv, fun _ => rfl⟩
  | .cons v w a b h h' =>
    obtain ⟨h1, h2⟩ := same_tree F lxml pretty h hv.1
    obtain ⟨h3, h4⟩ := same_list F lxml pretty h' hv.2
    exact ⟨⟨h1, h3⟩, fun i => by rw [makeList, makeList, h2, h4]⟩
theorem same_items (F : FloatCodec) (lxml pretty : Bool) {a b : List (PyVal × PyVal)} (h : SameItems a b) (hv : WellFormedItems a) :
    (a.map Prod.fst).Perm (b.map Prod.fst) ∧ WellFormedItems b ∧
      ((a.map Prod.fst).Nodup → ∀ indent, sortedElements F lxml pretty indent a = sortedElements F lxml pretty indent b) := by
  match h with
  | .nil => exact ⟨.refl _, hv, fun _ _ => rfl⟩
  | .cons k v w a b h h' =>
    obtain ⟨h1, h2⟩ := same_tree F lxml pretty h hv.1
    obtain ⟨h3, h4, h5⟩ := same_items F lxml pretty h' hv.2
    refine ⟨h3.cons k, ⟨h1, h4⟩, fun hn i => ?_⟩
    have hn' := (List.nodup_cons.1 hn).2
    rcases str_or_not k with ⟨s, rfl⟩ | hk
    · rw [sortedElements_cons, sortedElements_cons, h2, h5 hn']
    · rw [sortedElements_bad _ _ _ _ _ _ _ hk, sortedElements_bad _ _ _ _ _ _ _ hk]
  | .swap x y a =>
    obtain ⟨kx, vx⟩ := x
    obtain ⟨ky, vy⟩ := y
    refine ⟨.swap _ _ _, ⟨hv.2.1, hv.1, hv.2.2⟩, fun hn i => ?_⟩
    rcases str_or_not kx with ⟨s, rfl⟩ | hx
    · rcases str_or_not ky with ⟨s', rfl⟩ | hy
      · have hne : s ≠ s' := by
          rintro rfl
          simp at hn
        rw [sortedElements_cons, sortedElements_cons, sortedElements_cons, sortedElements_cons]
        rcases sortedElements F lxml pretty i a with _ | l
        · rfl
        · simp only [Option.map_some]
          rw [insertItem_comm _ _ (by exact hne)]
      · rw [sortedElements_cons, sortedElements_bad _ _ _ _ _ _ _ hy, sortedElements_bad _ _ _ _ _ _ _ hy]; rfl
    · rcases str_or_not ky with ⟨s', rfl⟩ | hy
      · rw [sortedElements_cons, sortedElements_bad _ _ _ _ _ _ _ hx, sortedElements_bad _ _ _ _ _ _ _ hx]; rfl
      · rw [sortedElements_bad _ _ _ _ _ _ _ hx, sortedElements_bad _ _ _ _ _ _ _ hy]
  | .trans a b c h h' =>
    obtain ⟨h1, h2, h3⟩ := same_items F lxml pretty h hv
    obtain ⟨h4, h5, h6⟩ := same_items F lxml pretty h' h2
    exact ⟨h1.trans h4, h5, fun hn i => (h3 hn i).trans (h6 ((h1.nodup_iff).1 hn) i)⟩
end

/-! ### texts the backend accepts -/

theorem isXmlChar_iff (c : Char) : isXmlChar c = true ↔ c = '\t' ∨ c = '\n' ∨ c = '\r' ∨ (' ' ≤ c ∧ c.toNat ≠ 0xFFFE ∧ c.toNat ≠ 0xFFFF) := by
  have h9 : c.toNat = 9 ↔ c = '\t' := by rw [← Char.toNat_inj]; rfl
  have h10 : c.toNat = 10 ↔ c = '\n' := by rw [← Char.toNat_inj]; rfl
  have h13 : c.toNat = 13 ↔ c = '\r' := by rw [← Char.toNat_inj]; rfl
  have h32 : 32 ≤ c.toNat ↔ ' ' ≤ c := by rw [Char.le_def, UInt32.le_iff_toNat_le]; rfl
  simp only [isXmlChar, Bool.or_eq_true, Bool.and_eq_true, beq_iff_eq, decide_eq_true_eq, ne_eq, h9, h10, h13, h32]
  tauto

theorem xmlText_iff (s : Str) : XmlText s ↔ s.all isXmlChar = true := by
  rw [List.all_eq_true]
  exact ⟨fun h c hc => (isXmlChar_iff c).2 (h c hc), fun h c hc => (isXmlChar_iff c).1 (h c hc)⟩

theorem isXmlChar_of_isGraph {c : Char} (h : isGraph c = true) : isXmlChar c = true := by
  simp only [isGraph, Bool.and_eq_true, decide_eq_true_eq] at h
  simp only [isXmlChar, Bool.or_eq_true, Bool.and_eq_true, beq_iff_eq, decide_eq_true_eq, ne_eq]
  omega

theorem treeText_graph (lxml : Bool) {s : Str} (h : ∀ c ∈ s, isGraph c = true) : TreeText lxml s :=
  fun _ => (xmlText_iff s).2 (List.all_eq_true.2 fun c hc => isXmlChar_of_isGraph (h c hc))

theorem setText_str (lxml : Bool) (s : Str) : setText lxml (.str s) = .ok (.str s) ∧ TreeText lxml s ∨ setText lxml (.str s) = .error .valueError ∧ ¬ TreeText lxml s := by
  cases lxml with
  | false => left; exact ⟨by simp [setText], by simp [TreeText]⟩
  | true =>
    by_cases h : s.all isXmlChar = true
    · left; exact ⟨by simp only [setText, h]; rfl, fun _ => (xmlText_iff s).2 h⟩
    · right
      refine ⟨?_, fun h' => h ((xmlText_iff s).1 (h' rfl))⟩
      simp only [Bool.not_eq_true] at h
      simp only [setText, h]; rfl

theorem textLeaf_str {lxml : Bool} {s : Str} (tag : Str) (h : TreeText lxml s) : textLeaf lxml tag (.str s) = .ok (Elem.leaf tag (some (.str s))) := by
  rcases setText_str lxml s with ⟨h1, _⟩ | ⟨_, h2⟩
  · rw [textLeaf, h1]; rfl
  · exact absurd h h2

theorem textLeaf_str_bad {lxml : Bool} {s : Str} (tag : Str) (h : ¬ TreeText lxml s) : textLeaf lxml tag (.str s) = .error .valueError := by
  rcases setText_str lxml s with ⟨_, h2⟩ | ⟨h1, _⟩
  · exact absurd h2 h
  · rw [textLeaf, h1]; rfl

theorem ofNat_toNat {c : Char} (h : c.toNat < 128) : Char.ofNat (UInt8.ofNat c.toNat).toNat = c := by
  have : (UInt8.ofNat c.toNat).toNat = c.toNat := by
    rw [UInt8.toNat_ofNat']
    omega
  rw [this, Char.ofNat_toNat]

theorem textLeaf_data_lxml (tag s : Str) (h : ∀ c ∈ s, c.toNat < 128 ∧ isXmlChar c = true) :
    textLeaf true tag (.bytes (asciiBytes s)) = .ok (Elem.leaf tag (some (.str s))) := by
  have hm : (asciiBytes s).map (fun x => Char.ofNat x.toNat) = s := by
    rw [asciiBytes, List.map_map]
    conv_rhs => rw [← List.map_id s]
    exact List.map_congr_left fun c hc => ofNat_toNat (h c hc).1
  have ha : (asciiBytes s).all (fun x => x < 128 && isXmlChar (Char.ofNat x.toNat)) = true := by
    rw [List.all_eq_true]
    intro x hx
    obtain ⟨c, hc, rfl⟩ := List.mem_map.1 hx
    have h' := h c hc
    rw [ofNat_toNat h'.1, h'.2, Bool.and_true, decide_eq_true_eq, UInt8.lt_iff_toNat_lt, UInt8.toNat_ofNat']
    show c.toNat % 2 ^ 8 < 128
    omega
  rw [textLeaf, setText, if_pos rfl, if_pos ha, hm]; rfl

theorem base64_text (data : List UInt8) (m : Option Nat) (i : Nat) : ∀ c ∈ encodeBase64 data m i, c.toNat < 128 ∧ isXmlChar c = true := by
  intro c hc
  rcases encodeBase64_chars data m i c hc with rfl | rfl | h
  · decide
  · decide
  · refine ⟨?_, isXmlChar_of_isGraph h⟩
    simp only [isGraph, Bool.and_eq_true, decide_eq_true_eq] at h
    omega

theorem dateToString_graph (d : PyDate) : ∀ c ∈ dateToString d, isGraph c = true := by
  have hp : ∀ w n, ∀ c ∈ pad w n, isGraph c = true := fun w n c hc => isGraph_of_isDigit (pad_digits w n c hc)
  intro c hc
  simp only [dateToString, List.mem_append, List.mem_cons, List.not_mem_nil, or_false] at hc
  have hsep : c = '-' ∨ c = 'T' ∨ c = ':' ∨ c = 'Z' → isGraph c = true := by rintro (rfl | rfl | rfl | rfl) <;> rfl
  by_cases h : c = '-' ∨ c = 'T' ∨ c = ':' ∨ c = 'Z'
  · exact hsep h
  · simp only [not_or] at h
    obtain ⟨h1, h2, h3, h4⟩ := h
    simp only [h1, h2, h3, h4, or_false] at hc
    rcases hc with ((((hc | hc) | hc) | hc) | hc) | hc <;> exact hp _ _ c hc

/-! ### when a tree is made -/

theorem dictChildren_ok (lxml : Bool) : ∀ l : List (Str × Except Exc Elem),
    (∃ es, dictChildren lxml l = .ok es) ↔ ∀ p ∈ l, TreeText lxml p.1 ∧ ∃ e, p.2 = .ok e
  | [] => by simp [dictChildren]
  | (k, r) :: rest => by
    have ih := dictChildren_ok lxml rest
    rw [List.forall_mem_cons, dictChildren]
    by_cases hk : TreeText lxml k
    · rw [textLeaf_str _ hk]
      rcases r with x | e
      · simp
      · rcases hr : dictChildren lxml rest with x | es
        · rw [hr] at ih
          simp only [hk, true_and]
          rw [← ih]; simp
        · rw [hr] at ih
          simp only [hk, true_and]
          rw [← ih]; simp
    · rw [textLeaf_str_bad _ hk]
      simp [hk]

theorem except_map_ok {ε α β : Type} (f : α → β) (r : Except ε α) : (∃ b, r.map f = .ok b) ↔ ∃ a, r = .ok a := by
  cases r <;> simp [Except.map]

theorem sortedElements_ok (F : FloatCodec) (lxml pretty : Bool) (indent : Nat) (d : List (PyVal × PyVal)) :
    (∃ l, sortedElements F lxml pretty indent d = some l ∧ ∀ p ∈ l, TreeText lxml p.1 ∧ ∃ e, p.2 = .ok e) ↔
      ∀ p ∈ d, ∃ k, p.1 = .str k ∧ TreeText lxml k ∧ ∃ e, makeElement F lxml pretty indent p.2 = .ok e := by
  induction d with
  | nil => simp [sortedElements, makeValues, strKeys, sortItems]
  | cons x d ih =>
    obtain ⟨k, v⟩ := x
    rw [List.forall_mem_cons, ← ih]
    rcases str_or_not k with ⟨s, rfl⟩ | hk
    · rw [sortedElements_cons]
      rcases sortedElements F lxml pretty indent d with _ | l
      · simp
      · simp only [Option.map_some, Option.some.injEq, exists_eq_left']
        have hp : (∀ p ∈ insertItem (s, makeElement F lxml pretty indent v) l, TreeText lxml p.1 ∧ ∃ e, p.2 = .ok e) ↔
            (∀ p ∈ (s, makeElement F lxml pretty indent v) :: l, TreeText lxml p.1 ∧ ∃ e, p.2 = .ok e) :=
          ⟨fun h p hp => h p ((insertItem_perm _ l).mem_iff.2 hp), fun h p hp => h p ((insertItem_perm _ l).mem_iff.1 hp)⟩
        rw [hp]
        rw [List.forall_mem_cons]
        simp
    · rw [sortedElements_bad _ _ _ _ _ _ _ hk]
      simp [hk]

mutual
theorem makeElement_ok (F : FloatCodec) (hF : F.Lawful) (lxml pretty : Bool) (indent : Nat) (v : PyVal) :
    (∃ e, makeElement F lxml pretty indent v = .ok e) ↔ Representable (TreeText lxml) v := by
  match v with
  | .str s =>
    rw [makeElement]
    by_cases h : TreeText lxml s
    · rw [textLeaf_str _ h]; exact ⟨fun _ => .str s h, fun _ => ⟨_, rfl⟩⟩
    · rw [textLeaf_str_bad _ h]
      constructor
      · rintro ⟨e, he⟩; cases he
      · intro hr; cases hr; contradiction
  | .bool b => exact ⟨fun _ => .bool b, fun _ => ⟨_, rfl⟩⟩
  | .int i =>
    rw [makeElement, integerElement]
    by_cases h : -(2 : Int) ^ 63 ≤ i ∧ i < (2 : Int) ^ 64
    · rw [if_pos h, textLeaf_str _ (treeText_graph _ (intRepr_graph i))]
      exact ⟨fun _ => .int i h, fun _ => ⟨_, rfl⟩⟩
    · rw [if_neg h]
      constructor
      · rintro ⟨e, he⟩; cases he
      · intro hr; cases hr; contradiction
  | .float f =>
    rw [makeElement, textLeaf_str _ (treeText_graph _ (hF.repr_graph f))]
    exact ⟨fun _ => .float f, fun _ => ⟨_, rfl⟩⟩
  | .dict d =>
    rw [makeElement_dict]
    have ih := makeItems_ok F hF lxml pretty (indent + 1) d
    rw [← sortedElements_ok] at ih
    constructor
    · rintro ⟨e, he⟩
      refine .dict d (ih.1 ?_)
      rcases hs : sortedElements F lxml pretty (indent + 1) d with _ | l
      · rw [hs] at he; cases he
      · rw [hs] at he
        exact ⟨l, rfl, (dictChildren_ok lxml l).1 ((except_map_ok _ _).1 ⟨e, he⟩)⟩
    · intro hr
      cases hr with
      | dict _ hr =>
        obtain ⟨l, hl, hp⟩ := ih.2 hr
        rw [hl]
        exact (except_map_ok _ _).2 ((dictChildren_ok lxml l).2 hp)
  | .list l =>
    rw [makeElement, except_map_ok, makeList_ok F hF lxml pretty (indent + 1) l]
    exact ⟨fun h => .list l h, fun h => by cases h; assumption⟩
  | .tuple l =>
    rw [makeElement, except_map_ok, makeList_ok F hF lxml pretty (indent + 1) l]
    exact ⟨fun h => .tuple l h, fun h => by cases h; assumption⟩
  | .date d =>
    rw [makeElement, textLeaf_str _ (treeText_graph _ (dateToString_graph d))]
    exact ⟨fun _ => .date d, fun _ => ⟨_, rfl⟩⟩
  | .bytes b =>
    refine ⟨fun _ => .bytes b, fun _ => ?_⟩
    rw [makeElement]
    cases lxml with
    | true => exact ⟨_, textLeaf_data_lxml _ _ (base64_text b _ _)⟩
    | false => exact ⟨_, rfl⟩
  | .none =>
    rw [makeElement]
    exact ⟨(fun h => by obtain ⟨e, he⟩ := h; cases he), (fun h => by cases h)⟩
  | .other n =>
    rw [makeElement]
    exact ⟨(fun h => by obtain ⟨e, he⟩ := h; cases he), (fun h => by cases h)⟩
theorem makeItems_ok (F : FloatCodec) (hF : F.Lawful) (lxml pretty : Bool) (indent : Nat) (d : List (PyVal × PyVal)) :
    (∀ p ∈ d, ∃ k, p.1 = .str k ∧ TreeText lxml k ∧ ∃ e, makeElement F lxml pretty indent p.2 = .ok e) ↔
      RepresentableItems (TreeText lxml) d := by
  match d with
  | [] => exact ⟨fun _ => .nil, fun _ => by simp⟩
  | (k, v) :: d =>
    rw [List.forall_mem_cons, makeItems_ok F hF lxml pretty indent d]
    constructor
    · rintro ⟨⟨s, hs, ht, he⟩, hd⟩
      simp only at hs
      subst hs
      exact .cons s v d ht ((makeElement_ok F hF lxml pretty indent v).1 he) hd
    · intro h
      cases h with
      | cons s _ _ hk hv h => exact ⟨⟨s, rfl, hk, (makeElement_ok F hF lxml pretty indent v).2 hv⟩, h⟩
theorem makeList_ok (F : FloatCodec) (hF : F.Lawful) (lxml pretty : Bool) (indent : Nat) (l : List PyVal) :
    (∃ es, makeList F lxml pretty indent l = .ok es) ↔ RepresentableList (TreeText lxml) l := by
  match l with
  | [] => exact ⟨fun _ => .nil, fun _ => ⟨_, rfl⟩⟩
  | v :: l =>
    have h1 := makeElement_ok F hF lxml pretty indent v
    have h2 := makeList_ok F hF lxml pretty indent l
    rw [makeList]
    constructor
    · rintro ⟨es, he⟩
      rcases hv : makeElement F lxml pretty indent v with x | e
      · rw [hv] at he; cases he
      · rcases hl : makeList F lxml pretty indent l with x | es'
        · rw [hv, hl] at he; cases he
        · exact .cons v l (h1.1 ⟨e, hv⟩) (h2.1 ⟨es', hl⟩)
    · intro h
      cases h with
      | cons _ _ hv hl =>
        obtain ⟨e, he⟩ := h1.2 hv
        obtain ⟨es, hes⟩ := h2.2 hl
        rw [he, hes]; exact ⟨_, rfl⟩
end

/-! ### reading a tree back -/

mutual
/-- What comes back from a tree: tuples as lists, dictionaries sorted by key. -/
def canon : PyVal → PyVal
  | .list l => .list (canonList l)
  | .tuple l => .list (canonList l)
  | .dict d => .dict ((sortItems ((strKeys (canonItems d)).getD [])).map fun p => (.str p.1, p.2))
  | v => v
def canonList : List PyVal → List PyVal
  | [] => []
  | v :: l => canon v :: canonList l
def canonItems : List (PyVal × PyVal) → List (PyVal × PyVal)
  | [] => []
  | (k, v) :: l => (k, canon v) :: canonItems l
end

/-- The element reads back as `w` wherever an object may be added. -/
def Reads (F : FloatCodec) (e : Elem) (w : PyVal) : Prop :=
  ∀ t s, Target.slot t = .ok s → ∃ d, walk F t e = .ok { t.put s w with key := none, data := d }

theorem put_key (t : Target) (s : Slot) (v : PyVal) : (t.put s v).key = t.key := by
  unfold Target.put
  split
  · rfl
  · split <;> rfl
  · split <;> rfl

theorem slot_data (t : Target) (d : List Text) : ({ t with data := d } : Target).slot = t.slot := rfl

theorem put_with (t : Target) (k : Option Str) (d : List Text) (s : Slot) (v : PyVal) :
    (⟨t.stack, k, t.root, d⟩ : Target).put s v = { t.put s v with key := k, data := d } := by
  obtain ⟨st, k', r, dt⟩ := t
  rcases s with _ | x | _
  · rfl
  · rcases st with _ | ⟨⟨_, _ | _⟩, _⟩ <;> rfl
  · rcases st with _ | ⟨⟨_, _ | _⟩, _⟩ <;> rfl

theorem add_slot {t : Target} {s : Slot} (h : t.slot = .ok s) (d : List Text) (v : PyVal) :
    ({ t with data := d } : Target).add v = .ok { t.put s v with key := none, data := d } := by
  rw [Target.add, slot_data, h]
  simp only [put_with]

theorem addData_slot {t : Target} {s : Slot} (h : t.slot = .ok s) (x : Str) (f : Str → Except Exc PyVal) (v : PyVal) (hv : f x = .ok v) :
    ({ t with data := [Text.str x] } : Target).addData f = .ok { t.put s v with key := none, data := [] } := by
  have := add_slot h [] v
  simp only [Target.addData, joinData, Except.map, List.append_nil, hv]
  exact this

theorem walk_leaf (F : FloatCodec) (t : Target) (tag : Str) (x : Option Text) (h1 : tag ≠ c!"dict") (h2 : tag ≠ c!"array") :
    walk F t (Elem.leaf tag x) = ({ t with data := [orEmpty x] } : Target).endTag F tag := by
  simp only [Elem.leaf, walk, Target.startTag, if_neg h1, if_neg h2, walkList, List.isEmpty_nil, if_true, List.nil_append]

theorem endTag_string (F : FloatCodec) (t : Target) : t.endTag F c!"string" = t.addData fun s => .ok (.str s) := by
  simp [Target.endTag]

theorem endTag_integer (F : FloatCodec) (t : Target) : t.endTag F c!"integer" = t.addData fun s => match pyInt s with | some i => .ok (.int i) | none => .error .valueError := by
  simp [Target.endTag]
  rfl

theorem endTag_real (F : FloatCodec) (t : Target) : t.endTag F c!"real" = t.addData fun s => match F.parse s with | some f => .ok (.float f) | none => .error .valueError := by
  simp [Target.endTag]
  rfl

theorem endTag_data (F : FloatCodec) (t : Target) : t.endTag F c!"data" = t.addData fun s => (b64decode s).map .bytes := by
  simp [Target.endTag]

theorem endTag_date (F : FloatCodec) (t : Target) : t.endTag F c!"date" = t.addData fun s => (dateFromString s).map .date := by
  simp [Target.endTag]

theorem reads_string (F : FloatCodec) (s : Str) : Reads F (Elem.leaf c!"string" (some (.str s))) (.str s) := by
  intro t sl h
  rw [walk_leaf _ _ _ _ (by decide) (by decide), endTag_string]
  exact ⟨[], addData_slot h s _ _ rfl⟩

theorem reads_integer (F : FloatCodec) (i : Int) : Reads F (Elem.leaf c!"integer" (some (.str (intRepr i)))) (.int i) := by
  intro t sl h
  rw [walk_leaf _ _ _ _ (by decide) (by decide), endTag_integer]
  exact ⟨[], addData_slot h (intRepr i) _ _ (by rw [pyInt_intRepr])⟩

theorem reads_real (F : FloatCodec) (hF : F.Lawful) (f : Flt) : Reads F (Elem.leaf c!"real" (some (.str (F.repr f)))) (.float f) := by
  intro t sl h
  rw [walk_leaf _ _ _ _ (by decide) (by decide), endTag_real]
  exact ⟨[], addData_slot h (F.repr f) _ _ (by rw [hF.parse_repr])⟩

theorem reads_date (F : FloatCodec) (d : PyDate) (hd : RealDate d) : Reads F (Elem.leaf c!"date" (some (.str (dateToString d)))) (.date d) := by
  intro t sl h
  rw [walk_leaf _ _ _ _ (by decide) (by decide), endTag_date]
  exact ⟨[], addData_slot h (dateToString d) _ _ (by rw [dateFromString_toString d hd]; rfl)⟩

theorem reads_data (F : FloatCodec) (b : List UInt8) (m : Option Nat) (i : Nat) :
    Reads F (Elem.leaf c!"data" (some (.str (encodeBase64 b m i)))) (.bytes b) := by
  intro t sl h
  rw [walk_leaf _ _ _ _ (by decide) (by decide), endTag_data]
  exact ⟨[], addData_slot h (encodeBase64 b m i) _ _ (by rw [b64decode_encode]; rfl)⟩

theorem encodeBase64_nil (m : Option Nat) (i : Nat) : encodeBase64 [] m i = [] := by
  unfold encodeBase64
  split <;> rfl

theorem reads_data_empty (F : FloatCodec) : Reads F (Elem.leaf c!"data" (some (.bytes []))) (.bytes []) := by
  intro t sl h
  rw [walk_leaf _ _ _ _ (by decide) (by decide), endTag_data]
  exact ⟨[], addData_slot h [] _ _ (by rfl)⟩

theorem reads_bool (F : FloatCodec) (b : Bool) : Reads F (Elem.node (if b then c!"true" else c!"false") []) (.bool b) := by
  intro t sl h
  cases b
  · exact ⟨[.str []], add_slot h [.str []] (.bool false)⟩
  · exact ⟨[.str []], add_slot h [.str []] (.bool true)⟩

/-- The elements read back, one after the other, as the items of the list on top of the stack. -/
theorem walk_items (F : FloatCodec) : ∀ (es : List Elem) (ws : List PyVal), List.Forall₂ (Reads F) es ws →
    ∀ (t : Target) s' L rest, t.stack = (s', .list L) :: rest → t.key = none →
      ∃ d, walkList F t es = .ok { t with stack := (s', .list (L ++ ws)) :: rest, data := d } := by
  intro es ws h
  induction h with
  | nil =>
    intro t s' L rest hs hk
    obtain ⟨st, k, r, dt⟩ := t
    simp only at hs hk
    subst hs hk
    exact ⟨dt, by simp [walkList]⟩
  | @cons e w es ws he _ ih =>
    intro t s' L rest hs hk
    have hsl : t.slot = .ok .item := by rw [Target.slot, hk, hs]
    obtain ⟨d, hd⟩ := he t .item hsl
    have hput : t.put .item w = { t with stack := (s', .list (L ++ [w])) :: rest } := by rw [Target.put, hs]
    rw [hput] at hd
    obtain ⟨d', hd'⟩ := ih { t with stack := (s', .list (L ++ [w])) :: rest, key := none, data := d } s' (L ++ [w]) rest rfl rfl
    refine ⟨d', ?_⟩
    rw [walkList, hd]
    simp only
    rw [hd', List.append_assoc, List.singleton_append]
    simp only [hk]

/-- Key and value elements of a dictionary, in order. -/
def kvElems : List (Str × Elem) → List Elem
  | [] => []
  | (k, e) :: rest => Elem.leaf c!"key" (some (.str k)) :: e :: kvElems rest

theorem walk_kv (F : FloatCodec) : ∀ (l : List (Str × Elem × PyVal)), (∀ x ∈ l, Reads F x.2.1 x.2.2) →
    ∀ (t : Target) s' D rest, t.stack = (s', .dict D) :: rest → t.key = none →
      ∃ d, walkList F t (kvElems (l.map fun x => (x.1, x.2.1))) =
        .ok { t with stack := (s', .dict ((l.foldl (fun D x => Dict.set D x.1 x.2.2) D))) :: rest, data := d }
  | [], _, t, s', D, rest, hs, hk => by
    obtain ⟨st, k, r, dt⟩ := t
    simp only at hs hk
    subst hs hk
    exact ⟨dt, by simp [kvElems, walkList]⟩
  | (k, e, w) :: l, h, t, s', D, rest, hs, hk => by
    rw [List.forall_mem_cons] at h
    have hkey : walk F t (Elem.leaf c!"key" (some (.str k))) = .ok { t with key := some k, data := [] } := by
      rw [walk_leaf _ _ _ _ (by decide) (by decide)]
      show (match t.key with
        | some (_ :: _) => _
        | _ => _) = _
      rw [hk]
      simp only [hs, orEmpty, joinData, Except.map, List.append_nil]
    have hsl : ({ t with key := some k, data := [] } : Target).slot = .ok (.key k) := by simp only [Target.slot, hs]
    obtain ⟨d, hd⟩ := h.1 _ _ hsl
    have hput : ({ t with key := some k, data := [] } : Target).put (.key k) w = { t with stack := (s', .dict (Dict.set D k w)) :: rest, key := some k, data := [] } := by
      simp only [Target.put, hs]
    simp only [hput] at hd
    obtain ⟨d', hd'⟩ := walk_kv F l h.2 { t with stack := (s', .dict (Dict.set D k w)) :: rest, key := none, data := d } s' _ rest rfl rfl
    refine ⟨d', ?_⟩
    rw [List.map_cons, kvElems, walkList, hkey]
    simp only
    rw [walkList, hd]
    simp only
    rw [hd']
    simp only [hk, List.foldl_cons]

theorem foldl_set (l : List (Str × PyVal)) : ∀ (D : Dict Str PyVal), (∀ x ∈ l, x.1 ∉ Dict.keys D) → (l.map Prod.fst).Nodup →
    l.foldl (fun D x => Dict.set D x.1 x.2) D = D ++ l := by
  induction l with
  | nil => intro D _ _; simp
  | cons x l ih =>
    intro D h hn
    rw [List.map_cons, List.nodup_cons] at hn
    rw [List.forall_mem_cons] at h
    have hset : Dict.set D x.1 x.2 = D ++ [x] := Dict.keys_set_of_not_mem h.1
    rw [List.foldl_cons, hset, ih _ _ hn.2, List.append_assoc]; rfl
    intro y hy
    rw [Dict.keys, List.map_append, List.mem_append, not_or]
    refine ⟨h.2 y hy, ?_⟩
    rintro hmem
    simp only [List.map_cons, List.map_nil, List.mem_singleton] at hmem
    exact hn.1 (hmem ▸ List.mem_map_of_mem hy)

theorem reads_list (F : FloatCodec) {es : List Elem} {ws : List PyVal} (h : List.Forall₂ (Reads F) es ws) :
    Reads F (Elem.node c!"array" es) (.list ws) := by
  intro t s hs
  have hst : t.startTag c!"array" = .ok { t with stack := (s, .list []) :: t.stack, key := none, data := [] } := by
    show Target.open _ _ = _
    rw [Target.open, slot_data, hs]
  obtain ⟨d, hd⟩ := walk_items F es ws h { t with stack := (s, .list []) :: t.stack, key := none, data := [] } s [] t.stack rfl rfl
  rw [Elem.node, walk, hst]
  simp only
  rw [hd]
  simp only
  have hend : ∀ d', Target.endTag F { stack := (s, Cont.list ([] ++ ws)) :: t.stack, key := none, root := t.root, data := d' } c!"array" =
      .ok { t.put s (.list ws) with key := none, data := d' } := by
    intro d'
    simp only [Target.endTag, Target.pop, Cont.value, List.nil_append]
    rw [if_neg (by decide), if_pos trivial]
    simp only [put_with]
  split
  · exact ⟨_, hend _⟩
  · exact ⟨_, hend _⟩

theorem reads_dict (F : FloatCodec) (l : List (Str × Elem × PyVal)) (h : ∀ x ∈ l, Reads F x.2.1 x.2.2) (hn : (l.map Prod.fst).Nodup) :
    Reads F (Elem.node c!"dict" (kvElems (l.map fun x => (x.1, x.2.1)))) (.dict (l.map fun x => (.str x.1, x.2.2))) := by
  intro t s hs
  have hst : t.startTag c!"dict" = .ok { t with stack := (s, .dict []) :: t.stack, key := none, data := [] } := by
    show Target.open _ _ = _
    rw [Target.open, slot_data, hs]
  obtain ⟨d, hd⟩ := walk_kv F l h { t with stack := (s, .dict []) :: t.stack, key := none, data := [] } s [] t.stack rfl rfl
  have hfold : l.foldl (fun (D : Dict Str PyVal) x => Dict.set D x.1 x.2.2) [] = l.map fun x => (x.1, x.2.2) := by
    have := foldl_set (l.map fun x => (x.1, x.2.2)) [] (by simp [Dict.keys]) (by rw [List.map_map]; exact hn)
    rw [List.foldl_map] at this
    exact this
  rw [hfold] at hd
  rw [Elem.node, walk, hst]
  simp only
  rw [hd]
  simp only
  have hend : ∀ d', Target.endTag F { stack := (s, Cont.dict (l.map fun x => (x.1, x.2.2))) :: t.stack, key := none, root := t.root, data := d' } c!"dict" =
      .ok { t.put s (.dict (l.map fun x => (.str x.1, x.2.2))) with key := none, data := d' } := by
    intro d'
    simp only [Target.endTag, if_true, Target.pop, Cont.value, List.map_map]
    simp only [put_with, Function.comp_def]
  split
  · exact ⟨_, hend _⟩
  · exact ⟨_, hend _⟩

theorem dictChildren_kv (lxml : Bool) : ∀ l : List (Str × Elem), (∀ x ∈ l, TreeText lxml x.1) →
    dictChildren lxml (l.map fun x => (x.1, .ok x.2)) = .ok (kvElems l)
  | [], _ => rfl
  | (k, e) :: l, h => by
    rw [List.forall_mem_cons] at h
    rw [List.map_cons, dictChildren, textLeaf_str _ h.1]
    simp only
    rw [dictChildren_kv lxml l h.2]
    rfl

theorem strKeys_map {α : Type} : ∀ l : List (Str × α), strKeys (l.map fun x => (PyVal.str x.1, x.2)) = some l
  | [] => rfl
  | (k, a) :: l => by rw [List.map_cons, strKeys, strKeys_map l]; rfl

mutual
theorem totree_reads (F : FloatCodec) (hF : F.Lawful) (lxml pretty : Bool) (indent : Nat) (v : PyVal) (hv : Representable (TreeText lxml) v)
    (hw : WellFormed v) (hb : lxml = true ∨ NoBytes v) :
    ∃ e, makeElement F lxml pretty indent v = .ok e ∧ Reads F e (canon v) := by
  match v with
  | .str s =>
    cases hv with
    | str _ h => exact ⟨_, textLeaf_str _ h, by rw [canon]; exact reads_string F s; all_goals simp⟩
  | .bool b => exact ⟨_, rfl, by rw [canon]; exact reads_bool F b; all_goals simp⟩
  | .int i =>
    cases hv with
    | int _ h =>
      rw [makeElement, integerElement, if_pos h]
      exact ⟨_, textLeaf_str _ (treeText_graph _ (intRepr_graph i)), by rw [canon]; exact reads_integer F i; all_goals simp⟩
  | .float f => exact ⟨_, textLeaf_str _ (treeText_graph _ (hF.repr_graph f)), by rw [canon]; exact reads_real F hF f; all_goals simp⟩
  | .date d => exact ⟨_, textLeaf_str _ (treeText_graph _ (dateToString_graph d)), by rw [canon]; exact reads_date F d hw; all_goals simp⟩
  | .bytes b =>
    rw [makeElement]
    cases lxml with
    | true => exact ⟨_, textLeaf_data_lxml _ _ (base64_text b _ _), by rw [canon]; exact reads_data F b _ _; all_goals simp⟩
    | false =>
      have hb : b = [] := hb.resolve_left (by simp)
      subst hb
      rw [encodeBase64_nil]
      exact ⟨_, rfl, by rw [canon]; exact reads_data_empty F; all_goals simp⟩
  | .list l =>
    cases hv with
    | list _ hv =>
      obtain ⟨es, he, hr⟩ := makeList_reads F hF lxml pretty (indent + 1) l hv hw hb
      rw [makeElement, he]
      exact ⟨_, rfl, by rw [canon]; exact reads_list F hr⟩
  | .tuple l =>
    cases hv with
    | tuple _ hv =>
      obtain ⟨es, he, hr⟩ := makeList_reads F hF lxml pretty (indent + 1) l hv hw hb
      rw [makeElement, he]
      exact ⟨_, rfl, by rw [canon]; exact reads_list F hr⟩
  | .dict d =>
    cases hv with
    | dict _ hv =>
      obtain ⟨l, h1, h2, h3, h4⟩ := makeItems_reads F hF lxml pretty (indent + 1) d hv hw.2 hb
      have hse : sortedElements F lxml pretty (indent + 1) d = some ((sortItems l).map fun x => (x.1, .ok x.2.1)) := by
        rw [sortedElements, h1]
        have := strKeys_map (l.map fun x => (x.1, (Except.ok x.2.1 : Except Exc Elem)))
        rw [List.map_map] at this
        simp only [Function.comp_def] at this
        rw [this, Option.map_some, sortItems_map (fun x : Elem × PyVal => (Except.ok x.1 : Except Exc Elem)) l]
      have hperm := sortItems_perm l
      have hdc : dictChildren lxml ((sortItems l).map fun x => (x.1, .ok x.2.1)) = .ok (kvElems ((sortItems l).map fun x => (x.1, x.2.1))) := by
        have := dictChildren_kv lxml ((sortItems l).map fun x => (x.1, x.2.1)) (by
          intro x hx
          obtain ⟨y, hy, rfl⟩ := List.mem_map.1 hx
          exact (h4 y (hperm.mem_iff.1 hy)).1)
        rw [List.map_map] at this
        exact this
      refine ⟨Elem.node c!"dict" (kvElems ((sortItems l).map fun x => (x.1, x.2.1))), by rw [makeElement_dict, hse]; simp only; rw [hdc]; rfl, ?_⟩
      have hcan : canon (.dict d) = .dict ((sortItems l).map fun x => (.str x.1, x.2.2)) := by
        rw [canon, h2]
        have := strKeys_map (l.map fun x => (x.1, x.2.2))
        rw [List.map_map] at this
        simp only [Function.comp_def] at this
        rw [this, Option.getD_some, sortItems_map (fun x : Elem × PyVal => x.2) l, List.map_map]
        rfl
      rw [hcan]
      apply reads_dict
      · intro x hx; exact (h4 x (hperm.mem_iff.1 hx)).2
      · rw [(hperm.map Prod.fst).nodup_iff]
        have hn := hw.1
        rw [h3] at hn
        exact List.Nodup.of_map _ hn
  | .none => cases hv
  | .other n => cases hv
theorem makeList_reads (F : FloatCodec) (hF : F.Lawful) (lxml pretty : Bool) (indent : Nat) (l : List PyVal) (hv : RepresentableList (TreeText lxml) l)
    (hw : WellFormedList l) (hb : lxml = true ∨ NoBytesList l) :
    ∃ es, makeList F lxml pretty indent l = .ok es ∧ List.Forall₂ (Reads F) es (canonList l) := by
  match l with
  | [] => exact ⟨[], rfl, by rw [canonList]; exact .nil⟩
  | v :: l =>
    cases hv with
    | cons _ _ h h' =>
      obtain ⟨e, he, hr⟩ := totree_reads F hF lxml pretty indent v h hw.1 (hb.imp id And.left)
      obtain ⟨es, hes, hrs⟩ := makeList_reads F hF lxml pretty indent l h' hw.2 (hb.imp id And.right)
      exact ⟨e :: es, by rw [makeList, he, hes], by rw [canonList]; exact .cons hr hrs⟩
theorem makeItems_reads (F : FloatCodec) (hF : F.Lawful) (lxml pretty : Bool) (indent : Nat) (d : List (PyVal × PyVal))
    (hv : RepresentableItems (TreeText lxml) d) (hw : WellFormedItems d) (hb : lxml = true ∨ NoBytesItems d) :
    ∃ l : List (Str × Elem × PyVal), makeValues F lxml pretty indent d = l.map (fun x => (.str x.1, .ok x.2.1)) ∧
      canonItems d = l.map (fun x => (.str x.1, x.2.2)) ∧ d.map Prod.fst = (l.map Prod.fst).map .str ∧
      ∀ x ∈ l, TreeText lxml x.1 ∧ Reads F x.2.1 x.2.2 := by
  match d with
  | [] => exact ⟨[], rfl, rfl, rfl, by simp⟩
  | (k, v) :: d =>
    cases hv with
    | cons s _ _ hk hv h =>
      obtain ⟨e, he, hr⟩ := totree_reads F hF lxml pretty indent v hv hw.1 (hb.imp id And.left)
      obtain ⟨l, h1, h2, h3, h4⟩ := makeItems_reads F hF lxml pretty indent d h hw.2 (hb.imp id And.right)
      refine ⟨(s, e, canon v) :: l, by rw [makeValues, he, h1]; rfl, by rw [canonItems, h2]; rfl, by rw [List.map_cons, h3]; rfl, ?_⟩
      rw [List.forall_mem_cons]
      exact ⟨⟨hk, hr⟩, h4⟩
end

theorem sameItems_of_perm {a b : List (PyVal × PyVal)} (h : a.Perm b) : SameItems a b := by
  induction h with
  | nil => exact .nil
  | cons x _ ih => exact .cons x.1 x.2 x.2 _ _ (.refl _) ih
  | swap x y l => exact .swap y x l
  | trans _ _ ih1 ih2 => exact .trans _ _ _ ih1 ih2

mutual
theorem same_canon (T : Str → Prop) (v : PyVal) (hv : Representable T v) : Same (untuple v) (canon v) := by
  match v with
  | .list l => cases hv with | list _ h => rw [untuple, canon]; exact .list _ _ (same_canonList T l h)
  | .tuple l => cases hv with | tuple _ h => rw [untuple, canon]; exact .list _ _ (same_canonList T l h)
  | .dict d =>
    cases hv with
    | dict _ h =>
      rw [untuple, canon]
      obtain ⟨hs, l, hl⟩ := same_canonItems T d h
      refine .dict _ _ (.trans _ _ _ hs (sameItems_of_perm ?_))
      rw [hl, strKeys_map, Option.getD_some]
      exact ((sortItems_perm l).map _).symm
  | .str _ => exact .refl _
  | .bool _ => exact .refl _
  | .int _ => exact .refl _
  | .float _ => exact .refl _
  | .date _ => exact .refl _
  | .bytes _ => exact .refl _
  | .none => exact .refl _
  | .other _ => exact .refl _
theorem same_canonList (T : Str → Prop) (l : List PyVal) (hv : RepresentableList T l) : SameList (untupleList l) (canonList l) := by
  match l with
  | [] => exact .nil
  | v :: l => cases hv with | cons _ _ h h' => rw [untupleList, canonList]; exact .cons _ _ _ _ (same_canon T v h) (same_canonList T l h')
theorem same_canonItems (T : Str → Prop) (d : List (PyVal × PyVal)) (hv : RepresentableItems T d) :
    SameItems (untupleItems d) (canonItems d) ∧ ∃ l : List (Str × PyVal), canonItems d = l.map fun x => (.str x.1, x.2) := by
  match d with
  | [] => exact ⟨.nil, [], rfl⟩
  | (k, v) :: d =>
    cases hv with
    | cons s _ _ hk hv h =>
      obtain ⟨h1, l, h2⟩ := same_canonItems T d h
      rw [untupleItems, canonItems]
      exact ⟨.cons _ _ _ _ _ (same_canon T v hv) h1, (s, canon v) :: l, by rw [h2]; rfl⟩
end

mutual
theorem untuple_noTuple (v : PyVal) (h : NoTuple v) : untuple v = v := by
  match v with
  | .list l => rw [untuple, untuple_noTupleList l h]
  | .tuple l => exact absurd h id
  | .dict d => rw [untuple, untuple_noTupleItems d h]
  | .str _ => rfl
  | .bool _ => rfl
  | .int _ => rfl
  | .float _ => rfl
  | .date _ => rfl
  | .bytes _ => rfl
  | .none => rfl
  | .other _ => rfl
theorem untuple_noTupleList (l : List PyVal) (h : NoTupleList l) : untupleList l = l := by
  match l with
  | [] => rfl
  | v :: l => rw [untupleList, untuple_noTuple v h.1, untuple_noTupleList l h.2]
theorem untuple_noTupleItems (d : List (PyVal × PyVal)) (h : NoTupleItems d) : untupleItems d = d := by
  match d with
  | [] => rfl
  | (k, v) :: d => rw [untupleItems, untuple_noTuple v h.1, untuple_noTupleItems d h.2]
end

theorem fromtree_totree (F : FloatCodec) (hF : F.Lawful) (lxml pretty : Bool) (indent : Nat) (v : PyVal) (hv : Representable (TreeText lxml) v)
    (hw : WellFormed v) (hb : lxml = true ∨ NoBytes v) :
    ∃ e w, totree F lxml pretty indent v = .ok e ∧ fromtree F e = .ok w ∧ Same (untuple v) w := by
  obtain ⟨e, he, hr⟩ := totree_reads F hF lxml pretty indent v hv hw hb
  obtain ⟨d, hd⟩ := hr .new .root rfl
  refine ⟨e, canon v, he, ?_, same_canon _ v hv⟩
  rw [fromtree, hd]
  rfl

theorem representableList_mem {T : Str → Prop} : ∀ {l : List PyVal}, RepresentableList T l → ∀ x ∈ l, Representable T x
  | _, .nil, x, hx => by simp at hx
  | _, .cons v l h h', x, hx => by
    rcases List.mem_cons.1 hx with rfl | hx
    · exact h
    · exact representableList_mem h' x hx

theorem representableItems_mem {T : Str → Prop} : ∀ {d : List (PyVal × PyVal)}, RepresentableItems T d → ∀ p ∈ d, (∃ s, p.1 = .str s) ∧ Representable T p.2
  | _, .nil, x, hx => by simp at hx
  | _, .cons k v l _ h h', x, hx => by
    rcases List.mem_cons.1 hx with rfl | hx
    · exact ⟨⟨k, rfl⟩, h⟩
    · exact representableItems_mem h' x hx

theorem representable_inside {T : Str → Prop} {w v : PyVal} (h : Inside w v) (hv : Representable T v) : Representable T w := by
  induction h with
  | here => exact hv
  | list l x hx _ ih => cases hv with | list _ hl => exact ih (representableList_mem hl x hx)
  | tuple l x hx _ ih => cases hv with | tuple _ hl => exact ih (representableList_mem hl x hx)
  | dict d p hp _ ih => cases hv with | dict _ hd => exact ih (representableItems_mem hd p hp).2

theorem not_representable_unsupported {T : Str → Prop} {v : PyVal} (h : Unsupported v) : ¬ Representable T v := by
  intro hv
  cases hv with
  | int i hi => rcases h with h | h <;> omega
  | dict d hd =>
    obtain ⟨p, hp, hs⟩ := h
    obtain ⟨⟨s, hs'⟩, _⟩ := representableItems_mem hd p hp
    exact hs s hs'
  | _ => exact h

end Verif.Plist
