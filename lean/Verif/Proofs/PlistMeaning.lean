import Verif.Spec.PlistMeaning
import Verif.Proofs.Numerals
import Verif.Proofs.Plist
import Verif.Proofs.PlistFile
/-! The property list reader does what the elements say. -/
namespace Verif.Plist
open Verif Verif.Spec.Numerals Verif.Spec.Plist Verif.Spec.PlistMeaning

/-! ### Dates -/

theorem digit_iff {c : Char} {d : Nat} : DigitOf 10 c d ↔ isDigit c = true ∧ digitVal c = d := by
  constructor
  · rintro ⟨h, h'⟩
    have : ∀ d < 10, (c!"0123456789abcdef"[d]? = some c ∨ c!"0123456789ABCDEF"[d]? = some c) → isDigit c = true ∧ digitVal c = d := by
      intro d hd
      match d, hd with
      | 0, _ => rintro (h | h) <;> (cases h; decide)
      | 1, _ => rintro (h | h) <;> (cases h; decide)
      | 2, _ => rintro (h | h) <;> (cases h; decide)
      | 3, _ => rintro (h | h) <;> (cases h; decide)
      | 4, _ => rintro (h | h) <;> (cases h; decide)
      | 5, _ => rintro (h | h) <;> (cases h; decide)
      | 6, _ => rintro (h | h) <;> (cases h; decide)
      | 7, _ => rintro (h | h) <;> (cases h; decide)
      | 8, _ => rintro (h | h) <;> (cases h; decide)
      | 9, _ => rintro (h | h) <;> (cases h; decide)
      | n + 10, h => exact absurd h (by omega)
    exact this d h h'
  · rintro ⟨h, rfl⟩
    simp only [isDigit, Bool.and_eq_true, decide_eq_true_eq] at h
    have h1 : 48 ≤ c.toNat := h.1
    have h2 : c.toNat ≤ 57 := h.2
    have hc : c = Char.ofNat c.toNat := (Char.ofNat_toNat c).symm
    have : ∀ n, 48 ≤ n → n ≤ 57 → DigitOf 10 (Char.ofNat n) (digitVal (Char.ofNat n)) := by
      intro n a b
      have : n = 48 ∨ n = 49 ∨ n = 50 ∨ n = 51 ∨ n = 52 ∨ n = 53 ∨ n = 54 ∨ n = 55 ∨ n = 56 ∨ n = 57 := by omega
      rcases this with rfl | rfl | rfl | rfl | rfl | rfl | rfl | rfl | rfl | rfl <;> exact ⟨by decide, .inl (by decide)⟩
    rw [hc]
    exact this _ h1 h2

theorem digits2 {s : Str} {n : Nat} (hs : s.length = 2) : Digits 10 s n ↔ ∃ a b, s = [a, b] ∧ isDigit a = true ∧ isDigit b = true ∧ n = digitVal a * 10 + digitVal b := by
  constructor
  · rintro ⟨-, ds, h, rfl⟩
    match s, hs, h with
    | [a, b], _, .cons h1 (.cons h2 .nil) =>
      obtain ⟨a1, a2⟩ := digit_iff.1 h1
      obtain ⟨b1, b2⟩ := digit_iff.1 h2
      exact ⟨a, b, rfl, a1, b1, by simp [a2, b2]⟩
  · rintro ⟨a, b, rfl, h1, h2, rfl⟩
    exact ⟨by simp, [digitVal a, digitVal b], .cons (digit_iff.2 ⟨h1, rfl⟩) (.cons (digit_iff.2 ⟨h2, rfl⟩) .nil), by simp⟩

theorem digits4 {s : Str} {n : Nat} (hs : s.length = 4) : Digits 10 s n ↔ ∃ a b c d, s = [a, b, c, d] ∧ isDigit a = true ∧ isDigit b = true ∧ isDigit c = true ∧ isDigit d = true ∧
    n = digitVal a * 1000 + digitVal b * 100 + digitVal c * 10 + digitVal d := by
  constructor
  · rintro ⟨-, ds, h, rfl⟩
    match s, hs, h with
    | [a, b, c, d], _, .cons h1 (.cons h2 (.cons h3 (.cons h4 .nil))) =>
      obtain ⟨a1, a2⟩ := digit_iff.1 h1
      obtain ⟨b1, b2⟩ := digit_iff.1 h2
      obtain ⟨c1, c2⟩ := digit_iff.1 h3
      obtain ⟨d1, d2⟩ := digit_iff.1 h4
      exact ⟨a, b, c, d, rfl, a1, b1, c1, d1, by simp [a2, b2, c2, d2]; omega⟩
  · rintro ⟨a, b, c, d, rfl, h1, h2, h3, h4, rfl⟩
    exact ⟨by simp, [digitVal a, digitVal b, digitVal c, digitVal d], .cons (digit_iff.2 ⟨h1, rfl⟩) (.cons (digit_iff.2 ⟨h2, rfl⟩) (.cons (digit_iff.2 ⟨h3, rfl⟩) (.cons (digit_iff.2 ⟨h4, rfl⟩) .nil))),
      by simp; omega⟩

theorem dateTail_iff : ∀ {seps : List Char} {s : Str} {l : List Nat}, 'Z' ∉ seps → (dateTail seps s = some l ↔
    ∃ ns rest, ns.length ≤ seps.length ∧ (∀ n ∈ ns, n.length = 2) ∧ List.Forall₂ (Digits 10) ns l ∧ s = (List.zipWith List.cons seps ns).flatten ++ 'Z' :: rest) := by
  intro seps
  induction seps with
  | nil =>
    intro s l _
    unfold dateTail
    constructor
    · intro h
      split at h
      · next hz =>
        cases h
        cases s with
        | nil => cases hz
        | cons c s => cases hz; exact ⟨[], s, by simp, by simp, .nil, rfl⟩
      · cases h
    · rintro ⟨ns, rest, h1, -, h3, rfl⟩
      cases ns with
      | nil => cases h3; rfl
      | cons => simp at h1
  | cons sep seps ih =>
    intro s l hz
    have hz' : 'Z' ∉ seps := fun h => hz (List.mem_cons_of_mem _ h)
    have hsep : sep ≠ 'Z' := fun h => hz (by rw [h]; exact List.mem_cons_self)
    constructor
    · intro h
      have base : ∀ {c r}, s = c :: r → (if c = 'Z' then some [] else none) = some l → ∃ ns rest, ns.length ≤ (sep :: seps).length ∧ (∀ n ∈ ns, n.length = 2) ∧
          List.Forall₂ (Digits 10) ns l ∧ s = (List.zipWith List.cons (sep :: seps) ns).flatten ++ 'Z' :: rest := by
        intro c r hs h
        split at h
        · next hc => subst hc; cases h; exact ⟨[], r, by simp, by simp, .nil, hs⟩
        · cases h
      unfold dateTail at h
      split at h
      · next c d1 d2 rest =>
        split at h
        · next hc =>
          obtain ⟨rfl, hd1, hd2⟩ := hc
          split at h
          · next l' hl' =>
            cases h
            obtain ⟨ns, r, a, b, c', d⟩ := (ih hz').1 hl'
            refine ⟨[d1, d2] :: ns, r, by simp; omega, ?_, .cons ((digits2 rfl).2 ⟨d1, d2, rfl, hd1, hd2, rfl⟩) c', by rw [d]; simp⟩
            intro n hn
            rcases List.mem_cons.1 hn with rfl | hn
            · rfl
            · exact b n hn
          · exact base rfl h
        · exact base rfl h
      · exact base rfl h
      · cases h
    · rintro ⟨ns, rest, h1, h2, h3, rfl⟩
      cases ns with
      | nil =>
        cases h3
        simp only [List.zipWith_nil_right, List.flatten_nil, List.nil_append]
        unfold dateTail
        split
        · next heq =>
          cases heq
          rw [if_neg (fun hh => hsep hh.1.symm), if_pos rfl]
        · next heq => cases heq; rw [if_pos rfl]
        · next heq => cases heq
      | cons n ns =>
        cases h3 with
        | @cons _ m _ l' h3 t =>
          obtain ⟨a, b, rfl, ha, hb, rfl⟩ := (digits2 (h2 n List.mem_cons_self)).1 h3
          have hrec := (ih hz' (s := (List.zipWith List.cons seps ns).flatten ++ 'Z' :: rest)).2
            ⟨ns, rest, by simpa using h1, fun n hn => h2 n (List.mem_cons_of_mem _ hn), t, rfl⟩
          simp only [List.zipWith_cons_cons, List.flatten_cons, List.cons_append, List.nil_append]
          unfold dateTail
          simp only [ha, hb, and_self, if_true]
          rw [hrec]

theorem dateFromString_iff {s : Str} {d : PyDate} : dateFromString s = .ok d ↔ DateSays s d := by
  have hz : 'Z' ∉ ['-', '-', 'T', ':', ':'] := by decide
  constructor
  · intro h
    unfold dateFromString at h
    split at h
    · cases h
    next l hl =>
    unfold dateFields at hl
    split at hl
    · next d1 d2 d3 d4 rest =>
      split at hl
      · next hd =>
        simp only [Bool.and_eq_true] at hd
        obtain ⟨⟨⟨k1, k2⟩, k3⟩, k4⟩ := hd
        rw [Option.map_eq_some_iff] at hl
        obtain ⟨l', hl', rfl⟩ := hl
        obtain ⟨ns, r, a, b, c, rfl⟩ := (dateTail_iff hz).1 hl'
        have hlen := c.length_eq
        unfold mkDate at h
        split at h
        · next y m da rest' heq =>
          cases heq
          simp only at h
          split at h
          · next hok =>
            cases h
            simp only [List.length_cons] at a hlen
            refine ⟨⟨[d1, d2, d3, d4], ns, r, rfl, b, by omega, by simpa using a, by simp, (digits4 rfl).2 ⟨d1, d2, d3, d4, rfl, k1, k2, k3, k4, rfl⟩, ?_, ?_⟩, (dateOk_iff _).1 hok⟩
            · rw [hlen]
              have hr : rest'.length ≤ 3 := by simp at a; omega
              match rest', hr with
              | [], _ => exact c
              | [x], _ => exact c
              | [x, y], _ => exact c
              | [x, y, z], _ => exact c
              | x :: y :: z :: w :: r, h => simp at h
            · rw [hlen]
              have hr : rest'.length ≤ 3 := by simp at a; omega
              match rest', hr with
              | [], _ => simp
              | [x], _ => simp
              | [x, y], _ => simp
              | [x, y, z], _ => simp
              | x :: y :: z :: w :: r, h => simp at h
          · cases h
        · cases h
      · cases hl
    · cases hl
  · rintro ⟨⟨y, ns, rest, hy, h2, h3, h4, rfl, hd, hf, h0⟩, hreal⟩
    obtain ⟨a, b, c, e, rfl, ka, kb, kc, ke, hyear⟩ := (digits4 hy).1 hd
    have htail := (dateTail_iff hz (s := (List.zipWith List.cons c!"--T::" ns).flatten ++ 'Z' :: rest)).2 ⟨ns, rest, h4, h2, hf, rfl⟩
    unfold dateFromString dateFields
    simp only [List.cons_append, List.nil_append, ka, kb, kc, ke, Bool.and_self, if_true, htail, Option.map_some]
    rw [← hyear]
    obtain ⟨year, month, day, hour, minute, second⟩ := d
    simp only at h0 hf ⊢
    have hcases : ns.length = 2 ∨ ns.length = 3 ∨ ns.length = 4 ∨ ns.length = 5 := by omega
    have hok := (dateOk_iff _).2 hreal
    rcases hcases with h | h | h | h <;> (rw [h] at h0 ⊢; simp at h0 ⊢; simp [mkDate, h0]; first | (simp [h0] at hok; exact hok) | exact hok)

/-! ### Data -/

theorem alphabet_val {c : Char} {v : Nat} (h : alphabet[v]? = some c) : v < 64 ∧ b64Val c = some v ∧ c ≠ '=' ∧ c.toNat < 128 := by
  have hv : v < 64 := by
    obtain ⟨hl, -⟩ := List.getElem?_eq_some_iff.1 h
    exact hl
  have : ∀ v : Fin 64, ∀ c, alphabet[v.val]? = some c → b64Val c = some v.val ∧ c ≠ '=' ∧ c.toNat < 128 := by
    have : ∀ v : Fin 64, ∃ c, alphabet[v.val]? = some c ∧ b64Val c = some v.val ∧ c ≠ '=' ∧ c.toNat < 128 := by
      have : ∀ v : Fin 64, alphabet[v.val]? = some (b64Char v.val) := by decide +kernel
      intro v
      obtain ⟨h1, h2, h3, -⟩ := b64Val_b64Char v.isLt
      exact ⟨_, this v, h1, h2, h3⟩
    intro v c h
    obtain ⟨c', h', r⟩ := this v
    rw [h'] at h
    cases h
    exact r
  exact ⟨hv, this ⟨v, hv⟩ c h⟩

theorem a2b_alphabet {c : Char} {n : Nat} (quad left pads : Nat) (cs : Str) (h : alphabet[n]? = some c) : a2b quad left pads (c :: cs) =
    if quad = 0 then a2b 1 n 0 cs
    else if quad = 1 then (a2b 2 (n % 16) 0 cs).map (UInt8.ofNat (left * 4 + n / 16) :: ·)
    else if quad = 2 then (a2b 3 (n % 4) 0 cs).map (UInt8.ofNat (left * 16 + n / 4) :: ·)
    else (a2b 0 0 0 cs).map (UInt8.ofNat (left * 64 + n) :: ·) := by
  obtain ⟨-, h1, h2, -⟩ := alphabet_val h
  rw [a2b, if_neg h2, h1]

theorem ofNat_iff {n : Nat} (h : n < 256) {x : UInt8} : UInt8.ofNat n = x ↔ n = x.toNat := by
  constructor
  · rintro rfl
    simp only [UInt8.toNat_ofNat']
    omega
  · intro h; exact ofNat_eq x n h

theorem a2b_sextets : ∀ (vs : List Nat) (cs : Str) (pads : Nat) (b : List UInt8), List.Forall₂ (fun c v => alphabet[v]? = some c) cs vs → pads ≤ 2 → (cs.length + pads) % 4 = 0 →
    (a2b 0 0 0 (cs ++ List.replicate pads '=') = .ok b ↔ Sextets vs b)
  | [], _, pads, b, .nil, hp, hl => by
    have : pads = 0 := by simp at hl; omega
    subst this
    simp only [List.replicate_zero, List.append_nil, Sextets, a2b, if_true]
    exact ⟨fun h => by cases h; rfl, fun h => by rw [h]⟩
  | [v], _, pads, b, .cons _ .nil, hp, hl => by simp at hl; omega
  | [v1, v2], _, pads, b, .cons (a := c1) h1 (.cons (a := c2) h2 .nil), hp, hl => by
    have : pads = 2 := by simp at hl; omega
    subst this
    have l1 := (alphabet_val h1).1
    have l2 := (alphabet_val h2).1
    simp only [List.cons_append, List.nil_append, Sextets]
    rw [a2b_alphabet _ _ _ _ h1, if_pos rfl, a2b_alphabet _ _ _ _ h2, if_neg (by omega), if_pos rfl]
    have he : a2b 2 (v2 % 16) 0 (List.replicate 2 '=') = .ok [] := rfl
    rw [he]
    simp only [Except.map, Except.ok.injEq]
    constructor
    · rintro rfl
      refine ⟨_, v2 % 16, rfl, by omega, ?_⟩
      simp only [UInt8.toNat_ofNat']
      omega
    · rintro ⟨x, r, rfl, hr, hh⟩
      rw [(ofNat_iff (by omega)).2 (show v1 * 4 + v2 / 16 = x.toNat by omega)]
  | [v1, v2, v3], _, pads, b, .cons (a := c1) h1 (.cons (a := c2) h2 (.cons (a := c3) h3 .nil)), hp, hl => by
    have : pads = 1 := by simp at hl; omega
    subst this
    have l1 := (alphabet_val h1).1
    have l2 := (alphabet_val h2).1
    have l3 := (alphabet_val h3).1
    simp only [List.cons_append, List.nil_append, Sextets]
    rw [a2b_alphabet _ _ _ _ h1, if_pos rfl, a2b_alphabet _ _ _ _ h2, if_neg (by omega), if_pos rfl, a2b_alphabet _ _ _ _ h3, if_neg (by omega), if_neg (by omega), if_pos rfl]
    have he : a2b 3 (v3 % 4) 0 (List.replicate 1 '=') = .ok [] := rfl
    rw [he]
    simp only [Except.map, Except.ok.injEq]
    constructor
    · rintro rfl
      refine ⟨_, _, v3 % 4, rfl, by omega, ?_⟩
      simp only [UInt8.toNat_ofNat']
      omega
    · rintro ⟨x, y, r, rfl, hr, hh⟩
      have := toNat_lt x
      have := toNat_lt y
      rw [(ofNat_iff (by omega)).2 (show v1 * 4 + v2 / 16 = x.toNat by omega), (ofNat_iff (by omega)).2 (show v2 % 16 * 16 + v3 / 4 = y.toNat by omega)]
  | v1 :: v2 :: v3 :: v4 :: vs, _, pads, b, .cons (a := c1) h1 (.cons (a := c2) h2 (.cons (a := c3) h3 (.cons (a := c4) (l₁ := cs) h4 ht))), hp, hl => by
    have l1 := (alphabet_val h1).1
    have l2 := (alphabet_val h2).1
    have l3 := (alphabet_val h3).1
    have l4 := (alphabet_val h4).1
    have ih := fun b => a2b_sextets vs cs pads b ht hp (by simp only [List.length_cons] at hl; omega)
    simp only [List.cons_append, Sextets]
    rw [a2b_alphabet _ _ _ _ h1, if_pos rfl, a2b_alphabet _ _ _ _ h2, if_neg (by omega), if_pos rfl, a2b_alphabet _ _ _ _ h3, if_neg (by omega), if_neg (by omega), if_pos rfl,
      a2b_alphabet _ _ _ _ h4, if_neg (by omega), if_neg (by omega), if_neg (by omega)]
    constructor
    · intro h
      cases hr : a2b 0 0 0 (cs ++ List.replicate pads '=') with
      | error x => rw [hr] at h; cases h
      | ok l' =>
        rw [hr] at h
        cases h
        refine ⟨_, _, _, l', rfl, ?_, (ih l').1 hr⟩
        simp only [UInt8.toNat_ofNat']
        omega
    · rintro ⟨x, y, z, l', rfl, hh, hl'⟩
      have := toNat_lt x
      have := toNat_lt y
      have := toNat_lt z
      rw [(ih l').2 hl']
      simp only [Except.map]
      rw [(ofNat_iff (by omega)).2 (show v1 * 4 + v2 / 16 = x.toNat by omega), (ofNat_iff (by omega)).2 (show v2 % 16 * 16 + v3 / 4 = y.toNat by omega),
        (ofNat_iff (by omega)).2 (show v3 % 4 * 64 + v4 = z.toNat by omega)]

theorem b64decode_filter {s cs : Str} {pads : Nat} (hs : s.filter (fun c => decide (c ∉ c!" \t\n\r")) = cs ++ List.replicate pads '=') (ha : ∀ c ∈ cs, c ∈ alphabet) :
    b64decode s = a2b 0 0 0 (cs ++ List.replicate pads '=') := by
  have hcs : ∀ c ∈ cs, (b64Val c).isSome = true ∧ c.toNat < 128 := by
    intro c hc
    obtain ⟨i, hi⟩ := List.getElem?_of_mem (ha c hc)
    have := alphabet_val hi
    exact ⟨by rw [this.2.1]; rfl, this.2.2.2⟩
  have hmem : ∀ c ∈ s, c ∉ c!" \t\n\r" → (isSkipped c = false ∧ c.toNat < 128) := by
    intro c hc hn
    have : c ∈ cs ++ List.replicate pads '=' := by
      rw [← hs]
      exact List.mem_filter.2 ⟨hc, by simpa using hn⟩
    rcases List.mem_append.1 this with h | h
    · obtain ⟨h1, h2⟩ := hcs c h
      refine ⟨?_, h2⟩
      unfold isSkipped
      cases hv : b64Val c with
      | none => rw [hv] at h1; cases h1
      | some => rfl
    · rw [(List.mem_replicate.1 h).2]; decide
  have hsp : ∀ c ∈ c!" \t\n\r", isSkipped c = true ∧ c.toNat < 128 := by decide
  have hall : s.all (fun c => decide (c.toNat < 128)) = true := by
    rw [List.all_eq_true]
    intro c hc
    by_cases hn : c ∈ c!" \t\n\r"
    · exact decide_eq_true (hsp c hn).2
    · exact decide_eq_true (hmem c hc hn).2
  have hfil : s.filter (fun c => !isSkipped c) = cs ++ List.replicate pads '=' := by
    rw [← hs]
    apply List.filter_congr
    intro c hc
    by_cases hn : c ∈ c!" \t\n\r"
    · rw [(hsp c hn).1]; simp [hn]
    · rw [(hmem c hc hn).1]; simp [hn]
  unfold b64decode
  rw [if_pos hall, ← a2b_filter, hfil]

theorem forall₂_alphabet : ∀ {cs : Str} {vs : List Nat}, List.Forall₂ (fun c v => alphabet[v]? = some c) cs vs → ∀ c ∈ cs, c ∈ alphabet
  | _, _, .cons h _, _, .head _ => List.mem_of_getElem? h
  | _, _, .cons _ t, c, .tail _ hc => forall₂_alphabet t c hc

theorem alphabet_forall₂ : ∀ (cs : Str), (∀ c ∈ cs, c ∈ alphabet) → ∃ vs : List Nat, List.Forall₂ (fun c v => alphabet[v]? = some c) cs vs
  | [], _ => ⟨[], .nil⟩
  | c :: cs, h => by
    obtain ⟨v, hv⟩ := List.getElem?_of_mem (h c (by simp))
    obtain ⟨vs, hvs⟩ := alphabet_forall₂ cs fun c hc => h c (by simp [hc])
    exact ⟨v :: vs, .cons hv hvs⟩

theorem b64decode_iff {s : Str} {vs : List Nat} {b : List UInt8} (h : Base64 s vs) : b64decode s = .ok b ↔ Sextets vs b := by
  obtain ⟨cs, pads, hs, hf, hp, hl⟩ := h
  rw [← a2b_sextets vs cs pads b hf hp hl, b64decode_filter hs (forall₂_alphabet hf)]

/-- Text cut off inside a group is refused. -/
theorem a2b_short : ∀ (vs : List Nat) (cs : Str) (pads : Nat), List.Forall₂ (fun c v => alphabet[v]? = some c) cs vs → cs.length % 4 ≠ 0 → cs.length % 4 + pads < 4 →
    a2b 0 0 0 (cs ++ List.replicate pads '=') = .error .valueError
  | [], _, pads, .nil, h0, _ => by simp at h0
  | [v], _, pads, .cons h1 .nil, _, hl => by
    simp only [List.cons_append, List.nil_append]
    rw [a2b_alphabet _ _ _ _ h1, if_pos rfl]
    have : pads ≤ 2 := by simp at hl; omega
    match pads, this with
    | 0, _ => rfl
    | 1, _ => rfl
    | 2, _ => rfl
  | [v1, v2], _, pads, .cons h1 (.cons h2 .nil), _, hl => by
    simp only [List.cons_append, List.nil_append]
    rw [a2b_alphabet _ _ _ _ h1, if_pos rfl, a2b_alphabet _ _ _ _ h2, if_neg (by omega), if_pos rfl]
    have : pads ≤ 1 := by simp at hl; omega
    match pads, this with
    | 0, _ => rfl
    | 1, _ => rfl
  | [v1, v2, v3], _, pads, .cons h1 (.cons h2 (.cons h3 .nil)), _, hl => by
    simp only [List.cons_append, List.nil_append]
    rw [a2b_alphabet _ _ _ _ h1, if_pos rfl, a2b_alphabet _ _ _ _ h2, if_neg (by omega), if_pos rfl, a2b_alphabet _ _ _ _ h3, if_neg (by omega), if_neg (by omega), if_pos rfl]
    have : pads = 0 := by simp at hl; omega
    subst this
    rfl
  | v1 :: v2 :: v3 :: v4 :: vs, _, pads, .cons h1 (.cons h2 (.cons h3 (.cons (l₁ := cs) h4 ht))), h0, hl => by
    have ih := a2b_short vs cs pads ht (by simp only [List.length_cons] at h0; omega) (by simp only [List.length_cons] at hl; omega)
    simp only [List.cons_append]
    rw [a2b_alphabet _ _ _ _ h1, if_pos rfl, a2b_alphabet _ _ _ _ h2, if_neg (by omega), if_pos rfl, a2b_alphabet _ _ _ _ h3, if_neg (by omega), if_neg (by omega), if_pos rfl,
      a2b_alphabet _ _ _ _ h4, if_neg (by omega), if_neg (by omega), if_neg (by omega), ih]
    rfl

theorem b64decode_whole {s : Str} {b : List UInt8} (h : DataText s) (hb : b64decode s = .ok b) : ∃ vs, Base64 s vs := by
  obtain ⟨cs, pads, hs, ha, hp, hl⟩ := h
  obtain ⟨vs, hf⟩ := alphabet_forall₂ cs ha
  by_cases hw : (cs.length + pads) % 4 = 0
  · exact ⟨vs, cs, pads, hs, hf, hp, hw⟩
  · rw [b64decode_filter hs ha, a2b_short vs cs pads hf (by omega) (by omega)] at hb
    cases hb

theorem dataText_of {s : Str} {vs : List Nat} (h : Base64 s vs) : DataText s := by
  obtain ⟨cs, pads, hs, hf, hp, hl⟩ := h
  exact ⟨cs, pads, hs, forall₂_alphabet hf, hp, by omega⟩

/-! ### Dictionaries -/

theorem keys_foldl : ∀ (items : List (Str × PyVal)) (D : Dict Str PyVal),
    Dict.keys (items.foldl (fun D x => Dict.set D x.1 x.2) D) = Dict.keys D ++ (firstKeys (items.map Prod.fst)).filter fun k => decide (k ∉ Dict.keys D)
  | [], D => by simp [firstKeys]
  | (k, v) :: items, D => by
    rw [List.foldl_cons, keys_foldl items]
    simp only [List.map_cons, firstKeys]
    by_cases hk : k ∈ Dict.keys D
    · rw [Dict.keys_set_of_mem hk, List.filter_cons_of_neg (by simpa using hk), List.filter_filter]
      congr 1
      apply List.filter_congr
      intro j _
      by_cases hj : j = k
      · subst hj; simp [hk]
      · simp [hj]
    · have : Dict.keys (Dict.set D k v) = Dict.keys D ++ [k] := by rw [Dict.keys_set_of_not_mem hk]; simp [Dict.keys]
      rw [this, List.filter_cons_of_pos (by simpa using hk), List.filter_filter, List.append_assoc, List.singleton_append]
      congr 2
      apply List.filter_congr
      intro j _
      simp [not_or]

theorem get?_foldl : ∀ (items : List (Str × PyVal)) (D : Dict Str PyVal) (k : Str) (v : PyVal), Dict.get? (items.foldl (fun D x => Dict.set D x.1 x.2) D) k = some v →
    (Dict.get? D k = some v ∧ ∀ q ∈ items, q.1 ≠ k) ∨ ∃ a b, items = a ++ (k, v) :: b ∧ ∀ q ∈ b, q.1 ≠ k
  | [], D, k, v, h => .inl ⟨h, by simp⟩
  | (j, w) :: items, D, k, v, h => by
    rcases get?_foldl items (Dict.set D j w) k v h with ⟨h1, h2⟩ | ⟨a, b, h1, h2⟩
    · by_cases hj : j = k
      · subst hj
        rw [Dict.get?_set_self] at h1
        cases h1
        exact .inr ⟨[], items, rfl, h2⟩
      · rw [Dict.get?_set_ne _ _ hj] at h1
        exact .inl ⟨h1, by
          intro q hq
          rcases List.mem_cons.1 hq with rfl | hq
          · exact hj
          · exact h2 q hq⟩
    · exact .inr ⟨(j, w) :: a, b, by rw [h1]; rfl, h2⟩

theorem wf_foldl : ∀ (items : List (Str × PyVal)) (D : Dict Str PyVal), Dict.WF D → Dict.WF (items.foldl (fun D x => Dict.set D x.1 x.2) D)
  | [], _, h => h
  | _ :: items, _, h => wf_foldl items _ (Dict.wf_set h _ _)

theorem last_unique {items a b a' b' : List (Str × PyVal)} {p q : Str × PyVal} (h : items = a ++ p :: b) (h' : items = a' ++ q :: b') (hb : ∀ r ∈ b, r.1 ≠ p.1) (hb' : ∀ r ∈ b', r.1 ≠ q.1)
    (hk : p.1 = q.1) : p = q := by
  rw [h] at h'
  rcases List.append_eq_append_iff.1 h' with ⟨c, -, h2⟩ | ⟨c, -, h2⟩
  · cases c with
    | nil => exact (List.cons.inj h2).1
    | cons x c =>
      have := (List.cons.inj h2).2
      exact absurd hk.symm (hb q (by rw [this]; simp))
  · cases c with
    | nil => exact (List.cons.inj h2).1.symm
    | cons x c =>
      have := (List.cons.inj h2).2
      exact absurd hk (hb' p (by rw [this]; simp))

theorem ext_keys : ∀ {l l' : List (Str × PyVal)}, l.map Prod.fst = l'.map Prod.fst → (∀ p ∈ l, ∀ q ∈ l', p.1 = q.1 → p = q) → l = l'
  | [], [], _, _ => rfl
  | [], _ :: _, h, _ => by cases h
  | _ :: _, [], h, _ => by cases h
  | p :: l, q :: l', h, hh => by
    simp only [List.map_cons, List.cons.injEq] at h
    rw [hh p List.mem_cons_self q List.mem_cons_self h.1, ext_keys h.2 fun p hp q hq => hh p (List.mem_cons_of_mem _ hp) q (List.mem_cons_of_mem _ hq)]

theorem dictIs_iff {items : List (Str × PyVal)} {d : List (PyVal × PyVal)} : DictIs items d ↔
    d = (items.foldl (fun (D : Dict Str PyVal) x => Dict.set D x.1 x.2) []).map fun p => (.str p.1, p.2) := by
  have hkeys : List.map Prod.fst (items.foldl (fun (D : Dict Str PyVal) x => Dict.set D x.1 x.2) []) = firstKeys (items.map Prod.fst) := by
    have := keys_foldl items []
    rw [Dict.keys] at this
    rw [this]
    simp [Dict.keys]
  have hlast : ∀ p ∈ (items.foldl (fun (D : Dict Str PyVal) x => Dict.set D x.1 x.2) []), ∃ a b, items = a ++ p :: b ∧ ∀ q ∈ b, q.1 ≠ p.1 := by
    intro p hp
    have hg := Dict.get?_of_mem (wf_foldl items [] (by unfold Dict.WF; simp [Dict.keys])) hp
    rcases get?_foldl items [] _ _ hg with ⟨h, -⟩ | h
    · cases h
    · exact h
  constructor
  · rintro ⟨d0, rfl, hk, hl⟩
    congr 1
    apply ext_keys (by rw [hk, hkeys])
    intro p hp q hq hpq
    obtain ⟨a, b, h1, h2⟩ := hl p hp
    obtain ⟨a', b', h1', h2'⟩ := hlast q hq
    exact last_unique h1 h1' h2 h2' hpq
  · rintro rfl
    exact ⟨_, rfl, hkeys, hlast⟩

/-! ### The reader -/

/-- What the two ways of reading, over a tree and over the events of the parser, have in common. -/
structure Walker (F : FloatCodec) where
  one : Target → Elem → Except Exc Target
  many : Target → List Elem → Except Exc Target
  leaf : ∀ (e : Elem) (s : Str) (t : Target), e.tag ≠ c!"dict" → e.tag ≠ c!"array" → TextIs e s → ∃ d, joinData d = .ok s ∧ one t e = ({ t with data := d } : Target).endTag F e.tag
  node_ok : ∀ (e : Elem) (t t1 : Target), t.startTag e.tag = .ok t1 → ∃ d, ∀ t2, many { t1 with data := d } e.children = .ok t2 → ∃ d2, one t e = ({ t2 with data := d2 } : Target).endTag F e.tag
  node_inv : ∀ (e : Elem) (t t1 t' : Target), t.startTag e.tag = .ok t1 → one t e = .ok t' → ∃ d t2, many { t1 with data := d } e.children = .ok t2
  nil : ∀ t, many t [] = .ok t
  cons_ok : ∀ (e : Elem) (es : List Elem) (t t1 : Target), one t e = .ok t1 → ∃ d, many t (e :: es) = many { t1 with data := d } es
  cons_inv : ∀ (e : Elem) (es : List Elem) (t t' : Target), many t (e :: es) = .ok t' → ∃ t1, one t e = .ok t1

/-- Reading a tree. -/
def walker (F : FloatCodec) : Walker F where
  one := walk F
  many := walkList F
  leaf := by
    rintro ⟨tag, at', text, tail, ch⟩ s t h1 h2 ⟨hc, hx⟩
    simp only [Elem.children, Elem.text, Elem.tag] at *
    subst hc
    refine ⟨[orEmpty text], ?_, ?_⟩
    · rcases hx with rfl | ⟨rfl, rfl⟩ <;> simp [orEmpty, joinData, Except.map]
    · simp only [walk, Target.startTag, if_neg h1, if_neg h2, walkList, List.isEmpty_nil, if_true, List.nil_append]
  node_ok := by
    rintro ⟨tag, at', text, tail, ch⟩ t t1 h
    refine ⟨t1.data, fun t2 h2 => ?_⟩
    simp only [Elem.tag, Elem.children] at h h2 ⊢
    simp only [walk, h]
    have h2' : walkList F t1 ch = .ok t2 := h2
    rw [h2']
    simp only
    split
    · exact ⟨_, rfl⟩
    · exact ⟨t2.data, rfl⟩
  node_inv := by
    rintro ⟨tag, at', text, tail, ch⟩ t t1 t' h h'
    simp only [Elem.tag, Elem.children] at h ⊢
    simp only [walk, h] at h'
    split at h'
    · cases h'
    · next t2 h2 => exact ⟨t1.data, t2, h2⟩
  nil := fun _ => rfl
  cons_ok := by
    intro e es t t1 h
    exact ⟨t1.data, by simp only [walkList, h]⟩
  cons_inv := by
    intro e es t t' h
    simp only [walkList] at h
    split at h
    · cases h
    · next t1 h1 => exact ⟨t1, h1⟩

theorem feedText_eq (t : Target) (x : Option Text) : ∃ d, t.feedText x = { t with data := d } := by
  cases x
  · exact ⟨t.data, rfl⟩
  · exact ⟨_, rfl⟩

/-- Reading a file. -/
def feeder (F : FloatCodec) : Walker F where
  one := feed F
  many := feedList F
  leaf := by
    rintro ⟨tag, at', text, tail, ch⟩ s t h1 h2 ⟨hc, hx⟩
    simp only [Elem.children, Elem.text, Elem.tag] at *
    subst hc
    rcases hx with rfl | ⟨rfl, rfl⟩
    · exact ⟨[.str s], by simp [joinData, Except.map], by simp only [feed, Target.startTag, if_neg h1, if_neg h2, feedList, Target.feedText, List.nil_append]⟩
    · exact ⟨[], rfl, by simp only [feed, Target.startTag, if_neg h1, if_neg h2, feedList, Target.feedText]⟩
  node_ok := by
    rintro ⟨tag, at', text, tail, ch⟩ t t1 h
    obtain ⟨d, hd⟩ := feedText_eq t1 text
    refine ⟨d, fun t2 h2 => ⟨t2.data, ?_⟩⟩
    simp only [Elem.tag, Elem.children] at h h2 ⊢
    simp only [feed, h, hd, h2]
  node_inv := by
    rintro ⟨tag, at', text, tail, ch⟩ t t1 t' h h'
    obtain ⟨d, hd⟩ := feedText_eq t1 text
    simp only [Elem.tag, Elem.children] at h ⊢
    simp only [feed, h, hd] at h'
    split at h'
    · cases h'
    · next t2 h2 => exact ⟨d, t2, h2⟩
  nil := fun _ => rfl
  cons_ok := by
    intro e es t t1 h
    obtain ⟨d, hd⟩ := feedText_eq t1 e.tail
    exact ⟨d, by simp only [feedList, h, hd]⟩
  cons_inv := by
    intro e es t t' h
    simp only [feedList] at h
    split at h
    · cases h
    · next t1 h1 => exact ⟨t1, h1⟩

/-- Text turned into a value. -/
theorem addData_join {t : Target} {s : Slot} (h : t.slot = .ok s) {d : List Text} {x : Str} (hx : joinData d = .ok x) (f : Str → Except Exc PyVal) :
    (∀ v, f x = .ok v → ({ t with data := d } : Target).addData f = .ok { t.put s v with key := none, data := [] }) ∧
      (∀ t', ({ t with data := d } : Target).addData f = .ok t' → ∃ v, f x = .ok v) := by
  constructor
  · intro v hv
    have := add_slot h [] v
    simp only [Target.addData, hx, hv]
    exact this
  · intro t' ht
    simp only [Target.addData, hx] at ht
    split at ht
    · cases ht
    · next v hv => exact ⟨v, hv⟩

variable {F : FloatCodec} (W : Walker F)

/-- Reading the element is successful for what it says and only then. -/
def OneOk (e : Elem) : Prop := ∀ t s, Target.slot t = .ok s →
  (∀ v, Means F e v → ∃ d, W.one t e = .ok { t.put s v with key := none, data := d }) ∧ (∀ t', W.one t e = .ok t' → ∃ v, Means F e v)

/-- The same of a list. -/
def ManyOk (es : List Elem) : Prop := ∀ (t : Target) s' L rest, t.stack = (s', .list L) :: rest → t.key = none →
  (∀ vs, MeansList F es vs → ∃ d, W.many t es = .ok { t with stack := (s', .list (L ++ vs)) :: rest, data := d }) ∧ (∀ t', W.many t es = .ok t' → ∃ vs, MeansList F es vs)

/-- The same of the content of a dictionary. -/
def ItemsOk (es : List Elem) : Prop := ∀ (t : Target) s' D rest, t.stack = (s', .dict D) :: rest → t.key = none →
  (∀ items, MeansItems F es items → ∃ d, W.many t es = .ok { t with stack := (s', .dict (items.foldl (fun D x => Dict.set D x.1 x.2) D)) :: rest, data := d }) ∧
    (∀ t', W.many t es = .ok t' → ∃ items, MeansItems F es items)

theorem leaf_ok {e : Elem} {x : Str} (hx : TextIs e x) (h1 : e.tag ≠ c!"dict") (h2 : e.tag ≠ c!"array") (f : Str → Except Exc PyVal)
    (he : ∀ t : Target, t.endTag F e.tag = t.addData f) (hm : ∀ v, Means F e v ↔ f x = .ok v) : OneOk W e := by
  intro t s hs
  obtain ⟨d, hd, hone⟩ := W.leaf e x t h1 h2 hx
  rw [he] at hone
  obtain ⟨a, b⟩ := addData_join hs hd f
  constructor
  · intro v hv
    exact ⟨[], by rw [hone, a v ((hm v).1 hv)]⟩
  · intro t' ht
    rw [hone] at ht
    obtain ⟨v, hv⟩ := b t' ht
    exact ⟨v, (hm v).2 hv⟩

theorem bool_ok {e : Elem} {x : Str} (hx : TextIs e x) (h1 : e.tag ≠ c!"dict") (h2 : e.tag ≠ c!"array") (b : Bool) (he : ∀ t : Target, t.endTag F e.tag = t.add (.bool b))
    (hm : ∀ v, Means F e v ↔ v = .bool b) : OneOk W e := by
  intro t s hs
  obtain ⟨d, hd, hone⟩ := W.leaf e x t h1 h2 hx
  rw [he, add_slot hs] at hone
  exact ⟨fun v hv => ⟨d, by rw [hone, (hm v).1 hv]⟩, fun t' _ => ⟨_, (hm _).2 rfl⟩⟩

theorem textIs_unique {e : Elem} {s s' : Str} (h : TextIs e s) (h' : TextIs e s') : s = s' := by
  obtain ⟨-, h⟩ := h
  obtain ⟨-, h'⟩ := h'
  rcases h with h | ⟨h, rfl⟩ <;> rcases h' with h' | ⟨h', rfl⟩ <;> rw [h] at h' <;> cases h'; all_goals rfl

theorem means_tag {e : Elem} {v : PyVal} (h : Means F e v) : (e.tag = c!"true" ∧ v = .bool true) ∨ (e.tag = c!"false" ∧ v = .bool false) ∨
    (e.tag = c!"integer" ∧ ∃ s i, TextIs e s ∧ Says 10 s i ∧ v = .int i) ∨ (e.tag = c!"real" ∧ ∃ s f, TextIs e s ∧ F.parse s = some f ∧ v = .float f) ∨
    (e.tag = c!"string" ∧ ∃ s, TextIs e s ∧ v = .str s) ∨ (e.tag = c!"data" ∧ ∃ s vs b, TextIs e s ∧ Base64 s vs ∧ Sextets vs b ∧ v = .bytes b) ∨
    (e.tag = c!"date" ∧ ∃ s d, TextIs e s ∧ DateSays s d ∧ v = .date d) ∨ (e.tag = c!"array" ∧ ∃ l, MeansList F e.children l ∧ v = .list l) ∨
    (e.tag = c!"dict" ∧ ∃ items d, MeansItems F e.children items ∧ DictIs items d ∧ v = .dict d) := by
  cases h with
  | true _ ht => exact .inl ⟨ht, rfl⟩
  | false _ ht => exact .inr (.inl ⟨ht, rfl⟩)
  | integer _ s i ht hx h => exact .inr (.inr (.inl ⟨ht, s, i, hx, h, rfl⟩))
  | real _ s f ht hx h => exact .inr (.inr (.inr (.inl ⟨ht, s, f, hx, h, rfl⟩)))
  | string _ s ht hx => exact .inr (.inr (.inr (.inr (.inl ⟨ht, s, hx, rfl⟩))))
  | data _ s vs b ht hx h hb => exact .inr (.inr (.inr (.inr (.inr (.inl ⟨ht, s, vs, b, hx, h, hb, rfl⟩)))))
  | date _ s d ht hx h => exact .inr (.inr (.inr (.inr (.inr (.inr (.inl ⟨ht, s, d, hx, h, rfl⟩))))))
  | array _ l ht h => exact .inr (.inr (.inr (.inr (.inr (.inr (.inr (.inl ⟨ht, l, h, rfl⟩)))))))
  | dict _ items d ht h hd => exact .inr (.inr (.inr (.inr (.inr (.inr (.inr (.inr ⟨ht, items, d, h, hd, rfl⟩)))))))

theorem leaf_one {e : Elem} {s : Str} (ht : e.tag ∈ [c!"true", c!"false", c!"integer", c!"real", c!"string", c!"data", c!"date"]) (hx : TextIs e s)
    (hd : e.tag = c!"data" → DataText s) : OneOk W e := by
  simp only [List.mem_cons, List.not_mem_nil, or_false] at ht
  rcases ht with ht | ht | ht | ht | ht | ht | ht
  · refine bool_ok W hx (by rw [ht]; decide) (by rw [ht]; decide) true (by intro t; rw [ht]; rfl) fun v => ⟨fun h => ?_, fun h => h ▸ .true e ht⟩
    rcases means_tag h with h | h | h | h | h | h | h | h | h <;> first | exact h.2 | (exact absurd (ht.symm.trans h.1) (by decide))
  · refine bool_ok W hx (by rw [ht]; decide) (by rw [ht]; decide) false (by intro t; rw [ht]; rfl) fun v => ⟨fun h => ?_, fun h => h ▸ .false e ht⟩
    rcases means_tag h with h | h | h | h | h | h | h | h | h <;> first | exact h.2 | (exact absurd (ht.symm.trans h.1) (by decide))
  · refine leaf_ok W hx (by rw [ht]; decide) (by rw [ht]; decide) _ (by intro t; rw [ht]; exact endTag_integer F t) fun v => ⟨fun h => ?_, fun h => ?_⟩
    · rcases means_tag h with h | h | h | h | h | h | h | h | h
      case inr.inr.inl =>
        obtain ⟨-, s', i, hx', hs, rfl⟩ := h
        rw [← textIs_unique hx hx'] at hs
        simp only [pyInt_iff.2 hs]
      all_goals exact absurd (ht.symm.trans h.1) (by decide)
    · split at h
      · next i hi => cases h; exact .integer e s i ht hx (pyInt_iff.1 hi)
      · cases h
  · refine leaf_ok W hx (by rw [ht]; decide) (by rw [ht]; decide) _ (by intro t; rw [ht]; exact endTag_real F t) fun v => ⟨fun h => ?_, fun h => ?_⟩
    · rcases means_tag h with h | h | h | h | h | h | h | h | h
      case inr.inr.inr.inl =>
        obtain ⟨-, s', f, hx', hs, rfl⟩ := h
        rw [← textIs_unique hx hx'] at hs
        simp only [hs]
      all_goals exact absurd (ht.symm.trans h.1) (by decide)
    · split at h
      · next i hi => cases h; exact .real e s i ht hx hi
      · cases h
  · refine leaf_ok W hx (by rw [ht]; decide) (by rw [ht]; decide) _ (by intro t; rw [ht]; exact endTag_string F t) fun v => ⟨fun h => ?_, fun h => ?_⟩
    · rcases means_tag h with h | h | h | h | h | h | h | h | h
      case inr.inr.inr.inr.inl =>
        obtain ⟨-, s', hx', rfl⟩ := h
        rw [← textIs_unique hx hx']
      all_goals exact absurd (ht.symm.trans h.1) (by decide)
    · cases h
      exact .string e s ht hx
  · refine leaf_ok W hx (by rw [ht]; decide) (by rw [ht]; decide) _ (by intro t; rw [ht]; exact endTag_data F t) fun v => ⟨fun h => ?_, fun h => ?_⟩
    · rcases means_tag h with h | h | h | h | h | h | h | h | h
      case inr.inr.inr.inr.inr.inl =>
        obtain ⟨-, s', vs', b, hx', hb, hs, rfl⟩ := h
        rw [← textIs_unique hx hx'] at hb
        rw [(b64decode_iff hb).2 hs]
        rfl
      all_goals exact absurd (ht.symm.trans h.1) (by decide)
    · cases hb : b64decode s with
      | error x => rw [hb] at h; cases h
      | ok b => rw [hb] at h; cases h; obtain ⟨vs, hvs⟩ := b64decode_whole (hd ht) hb; exact .data e s vs b ht hx hvs ((b64decode_iff hvs).1 hb)
  · refine leaf_ok W hx (by rw [ht]; decide) (by rw [ht]; decide) _ (by intro t; rw [ht]; exact endTag_date F t) fun v => ⟨fun h => ?_, fun h => ?_⟩
    · rcases means_tag h with h | h | h | h | h | h | h | h | h
      case inr.inr.inr.inr.inr.inr.inl =>
        obtain ⟨-, s', d, hx', hs, rfl⟩ := h
        rw [← textIs_unique hx hx'] at hs
        rw [dateFromString_iff.2 hs]
        rfl
      all_goals exact absurd (ht.symm.trans h.1) (by decide)
    · cases hb : dateFromString s with
      | error x => rw [hb] at h; cases h
      | ok b => rw [hb] at h; cases h; exact .date e s b ht hx (dateFromString_iff.1 hb)

theorem array_one {e : Elem} (ht : e.tag = c!"array") (h : ManyOk W e.children) : OneOk W e := by
  intro t s hs
  have hst : t.startTag e.tag = .ok { t with stack := (s, .list []) :: t.stack, key := none, data := [] } := by
    rw [ht]
    show Target.open _ _ = _
    rw [Target.open, slot_data, hs]
  constructor
  · intro v hv
    rcases means_tag hv with h' | h' | h' | h' | h' | h' | h' | h' | h'
    case inr.inr.inr.inr.inr.inr.inr.inl =>
      obtain ⟨-, l, hl, rfl⟩ := h'
      obtain ⟨d, hd⟩ := W.node_ok e t _ hst
      obtain ⟨d1, h1⟩ := (h { t with stack := (s, .list []) :: t.stack, key := none, data := d } s [] t.stack rfl rfl).1 l hl
      obtain ⟨d2, h2⟩ := hd _ h1
      refine ⟨d2, ?_⟩
      rw [h2, ht]
      simp only [Target.endTag, Target.pop, Cont.value, List.nil_append]
      rw [if_neg (by decide), if_pos trivial]
      simp only [put_with]
    all_goals exact absurd (ht.symm.trans h'.1) (by decide)
  · intro t' ht'
    obtain ⟨d, t2, h2⟩ := W.node_inv e t _ t' hst ht'
    obtain ⟨vs, hvs⟩ := (h { t with stack := (s, .list []) :: t.stack, key := none, data := d } s [] t.stack rfl rfl).2 t2 h2
    exact ⟨_, .array e vs ht hvs⟩

theorem dict_one {e : Elem} (ht : e.tag = c!"dict") (h : ItemsOk W e.children) : OneOk W e := by
  intro t s hs
  have hst : t.startTag e.tag = .ok { t with stack := (s, .dict []) :: t.stack, key := none, data := [] } := by
    rw [ht]
    show Target.open _ _ = _
    rw [Target.open, slot_data, hs]
  constructor
  · intro v hv
    rcases means_tag hv with h' | h' | h' | h' | h' | h' | h' | h' | h'
    case inr.inr.inr.inr.inr.inr.inr.inr =>
      obtain ⟨-, items, dd, hl, hdd, rfl⟩ := h'
      obtain ⟨d, hd⟩ := W.node_ok e t _ hst
      obtain ⟨d1, h1⟩ := (h { t with stack := (s, .dict []) :: t.stack, key := none, data := d } s [] t.stack rfl rfl).1 items hl
      obtain ⟨d2, h2⟩ := hd _ h1
      refine ⟨d2, ?_⟩
      rw [h2, ht, dictIs_iff.1 hdd]
      simp only [Target.endTag, if_true, Target.pop, Cont.value]
      simp only [put_with]
    all_goals exact absurd (ht.symm.trans h'.1) (by decide)
  · intro t' ht'
    obtain ⟨d, t2, h2⟩ := W.node_inv e t _ t' hst ht'
    obtain ⟨vs, hvs⟩ := (h { t with stack := (s, .dict []) :: t.stack, key := none, data := d } s [] t.stack rfl rfl).2 t2 h2
    exact ⟨_, .dict e vs _ ht hvs (dictIs_iff.2 rfl)⟩

theorem key_one {k : Elem} {x : Str} (hk : k.tag = c!"key") (hx : TextIs k x) {t : Target} {s' : Slot} {D : List (Str × PyVal)} {rest : List (Slot × Cont)}
    (hs : t.stack = (s', .dict D) :: rest) (hn : t.key = none) : W.one t k = .ok { t with key := some x, data := [] } := by
  obtain ⟨d, hd, hone⟩ := W.leaf k x t (by rw [hk]; decide) (by rw [hk]; decide) hx
  rw [hone, hk]
  show (match t.key with
    | some (_ :: _) => _
    | _ => _) = _
  rw [hn]
  simp only [hs, hd]

mutual
theorem one_ok : ∀ (e : Elem), Shaped e → OneOk W e
  | _, .leaf _ _ ht hx hd => leaf_one W ht hx hd
  | e, .array _ ht h => array_one W ht (many_ok e.children h)
  | e, .dict _ ht h => dict_one W ht (items_ok e.children h)
theorem many_ok : ∀ (es : List Elem), ShapedList es → ManyOk W es
  | _, .nil => by
    intro t s' L rest hs hk
    constructor
    · intro vs hvs
      cases hvs
      obtain ⟨st, k, r, dt⟩ := t
      simp only at hs hk
      subst hs hk
      exact ⟨dt, by rw [W.nil, List.append_nil]⟩
    · intro t' _
      exact ⟨[], .nil⟩
  | _, .cons e es h ht => by
    intro t s' L rest hs hk
    have hsl : t.slot = .ok .item := by rw [Target.slot, hk, hs]
    have hone := one_ok e h t .item hsl
    have hrest := many_ok es ht
    have hput : ∀ w, t.put .item w = { t with stack := (s', .list (L ++ [w])) :: rest } := by intro w; rw [Target.put, hs]
    constructor
    · intro vs hvs
      cases hvs with
      | cons _ _ v l hv hl =>
        obtain ⟨d, hd⟩ := hone.1 v hv
        rw [hput] at hd
        obtain ⟨d1, h1⟩ := W.cons_ok e es t _ hd
        obtain ⟨d2, h2⟩ := (hrest { t with stack := (s', .list (L ++ [v])) :: rest, key := none, data := d1 } s' (L ++ [v]) rest rfl rfl).1 l hl
        refine ⟨d2, ?_⟩
        rw [h1]
        simp only at h2 ⊢
        rw [h2, List.append_assoc, List.singleton_append]
        simp only [hk]
    · intro t' ht'
      obtain ⟨t1, h1⟩ := W.cons_inv e es t t' ht'
      obtain ⟨v, hv⟩ := hone.2 t1 h1
      obtain ⟨d, hd⟩ := hone.1 v hv
      rw [hput] at hd
      obtain ⟨d1, h1⟩ := W.cons_ok e es t _ hd
      rw [h1] at ht'
      obtain ⟨l, hl⟩ := (hrest { t with stack := (s', .list (L ++ [v])) :: rest, key := none, data := d1 } s' (L ++ [v]) rest rfl rfl).2 t' ht'
      exact ⟨v :: l, .cons e es v l hv hl⟩
theorem items_ok : ∀ (es : List Elem), ShapedItems es → ItemsOk W es
  | _, .nil => by
    intro t s' D rest hs hk
    constructor
    · intro vs hvs
      cases hvs
      obtain ⟨st, k, r, dt⟩ := t
      simp only at hs hk
      subst hs hk
      exact ⟨dt, by rw [W.nil]; rfl⟩
    · intro t' _
      exact ⟨[], .nil⟩
  | _, .cons k e es x hkey hx h ht => by
    intro t s' D rest hs hk
    obtain ⟨d0, h0⟩ := W.cons_ok k (e :: es) t _ (key_one W hkey hx hs hk)
    simp only at h0
    have hsl : ({ t with key := some x, data := d0 } : Target).slot = .ok (.key x) := by simp only [Target.slot, hs]
    have hone := one_ok e h _ _ hsl
    have hrest := items_ok es ht
    have hput : ∀ w, ({ t with key := some x, data := d0 } : Target).put (.key x) w = { t with stack := (s', .dict (Dict.set D x w)) :: rest, key := some x, data := d0 } := by
      intro w; simp only [Target.put, hs]
    constructor
    · intro items hi
      cases hi with
      | cons _ _ _ x' v l _ hx' hv hl =>
        rw [← textIs_unique hx hx']
        obtain ⟨d, hd⟩ := hone.1 v hv
        simp only [hput] at hd
        obtain ⟨d1, h1⟩ := W.cons_ok e es _ _ hd
        obtain ⟨d2, h2⟩ := (hrest { t with stack := (s', .dict (Dict.set D x v)) :: rest, key := none, data := d1 } s' _ rest rfl rfl).1 l hl
        refine ⟨d2, ?_⟩
        rw [h0, h1]
        simp only at h2 ⊢
        rw [h2]
        simp only [hk, List.foldl_cons]
    · intro t' ht'
      rw [h0] at ht'
      obtain ⟨t1, h1⟩ := W.cons_inv e es _ t' ht'
      obtain ⟨v, hv⟩ := hone.2 t1 h1
      obtain ⟨d, hd⟩ := hone.1 v hv
      simp only [hput] at hd
      obtain ⟨d1, h1⟩ := W.cons_ok e es _ _ hd
      rw [h1] at ht'
      obtain ⟨l, hl⟩ := (hrest { t with stack := (s', .dict (Dict.set D x v)) :: rest, key := none, data := d1 } s' _ rest rfl rfl).2 t' ht'
      exact ⟨(x, v) :: l, .cons k e es x v l hkey hx hv hl⟩
end

theorem fromtree_iff {e : Elem} (h : Shaped e) {v : PyVal} : fromtree F e = .ok v ↔ Means F e v := by
  obtain ⟨h1, h2⟩ := one_ok (walker F) e h .new .root rfl
  have key : ∀ v, Means F e v → fromtree F e = .ok v := by
    intro v hv
    obtain ⟨d, hd⟩ := h1 v hv
    have hd' : walk F .new e = _ := hd
    rw [fromtree, hd']
    rfl
  refine ⟨fun hv => ?_, key v⟩
  cases hw : walk F .new e with
  | error x => rw [fromtree, hw] at hv; cases hv
  | ok t' =>
    obtain ⟨w, hm⟩ := h2 t' hw
    rw [key w hm] at hv
    cases hv
    exact hm

theorem loads_iff {x : Str} {at' : List (Str × Str)} {text tail : Option Text} {e : Elem} (hx : Spec.Xml.parse x = some (.mk c!"plist" at' text tail [e])) (h : Shaped e) {v : PyVal} :
    loads F x = .ok v ↔ Means F e v := by
  have hfeed : feed F .new (.mk c!"plist" at' text tail [e]) =
      match feedList F (({ Target.new with data := [] } : Target).feedText text) [e] with
      | .error x => .error x
      | .ok t => t.endTag F c!"plist" := rfl
  have hend : ∀ t : Target, t.endTag F c!"plist" = .ok t := by intro t; rfl
  obtain ⟨d, hd⟩ := feedText_eq ({ Target.new with data := [] } : Target) text
  rw [hd] at hfeed
  obtain ⟨h1, h2⟩ := one_ok (feeder F) e h (⟨[], none, none, d⟩ : Target) .root rfl
  have key : ∀ v, Means F e v → loads F x = .ok v := by
    intro v hv
    obtain ⟨d1, hd1⟩ := h1 v hv
    obtain ⟨d2, hd2⟩ := (feeder F).cons_ok e [] _ _ hd1
    rw [(feeder F).nil] at hd2
    have hd2' : feedList F (⟨[], none, none, d⟩ : Target) [e] = _ := hd2
    simp only [loads, hx]
    rw [hfeed]
    simp only [Target.new]
    rw [hd2']
    simp only [hend]
    rfl
  refine ⟨fun hv => ?_, key v⟩
  simp only [loads, hx] at hv
  rw [hfeed] at hv
  cases hl : feedList F (⟨[], none, none, d⟩ : Target) [e] with
  | error y => simp only [Target.new, hl] at hv; cases hv
  | ok t' =>
    obtain ⟨t1, ht1⟩ := (feeder F).cons_inv e [] _ t' hl
    obtain ⟨w, hm⟩ := h2 t1 ht1
    have hk := key w hm
    simp only [loads, hx] at hk
    rw [hfeed] at hk
    rw [hk] at hv
    cases hv
    exact hm

theorem means_unique {e : Elem} (h : Shaped e) {v w : PyVal} (hv : Means F e v) (hw : Means F e w) : v = w := by
  have := (fromtree_iff h).2 hv
  rw [(fromtree_iff h).2 hw] at this
  cases this
  rfl

end Verif.Plist
