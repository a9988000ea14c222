import Verif.Spec.Numerals
import Verif.Proofs.Hex
import Verif.Proofs.Note
import Mathlib.Tactic.ByContra
import Mathlib.Tactic.Tauto
/-! `int(s)` and `int(s, 16)` read exactly the literals. -/
namespace Verif
open Verif.Spec.Numerals

/-- The loop of both readers. -/
def under (f : Char → Option Nat) (b : Nat) (prev : Bool) (acc : Nat) : Str → Option Nat
  | [] => if prev then some acc else none
  | c :: cs => match f c with
    | some d => under f b true (acc * b + d) cs
    | none => if c = '_' && prev then under f b false acc cs else none

theorem hexUnderscore_under : ∀ (s : Str) (prev : Bool) (acc : Nat), hexUnderscore prev acc s = under hexVal 16 prev acc s
  | [], _, _ => rfl
  | c :: cs, prev, acc => by
    unfold hexUnderscore under
    cases hexVal c with
    | some d => exact hexUnderscore_under cs _ _
    | none => simp only [hexUnderscore_under cs]

def decVal (c : Char) : Option Nat := if isDigit c then some (digitVal c) else none

theorem digitsUnderscore_under : ∀ (s : Str) (prev : Bool) (acc : Nat), digitsUnderscore prev acc s = under decVal 10 prev acc s
  | [], _, _ => rfl
  | c :: cs, prev, acc => by
    unfold digitsUnderscore under decVal
    by_cases h : isDigit c = true
    · simp only [h, if_true]; exact digitsUnderscore_under cs _ _
    · simp only [h, Bool.false_eq_true, if_false, digitsUnderscore_under cs]
      rfl

theorem under_iff {f : Char → Option Nat} {b : Nat} (hf : f '_' = none) : ∀ (s : Str) (prev : Bool) (acc n : Nat), under f b prev acc s = some n ↔
    (∃ ds, List.Forall₂ (fun c d => f c = some d) (s.filter (· ≠ '_')) ds ∧ n = ds.foldl (fun a d => a * b + d) acc) ∧
      (s = [] → prev = true) ∧ (s.head? = some '_' → prev = true) ∧ s.getLast? ≠ some '_' ∧ ¬ ['_', '_'] <:+: s
  | [], prev, acc, n => by
    unfold under
    cases prev
    · simp only [Bool.false_eq_true, if_false, reduceCtorEq, false_iff]
      exact fun h => absurd (h.2.1 trivial) nofun
    · simp only [if_true, Option.some.injEq]
      constructor
      · rintro rfl
        exact ⟨⟨[], .nil, rfl⟩, fun _ => trivial, fun _ => trivial, nofun, fun h => by simp at h⟩
      · rintro ⟨⟨ds, h, rfl⟩, -⟩
        cases h
        rfl
  | c :: cs, prev, acc, n => by
    by_cases hc : c = '_'
    · subst hc
      unfold under
      simp only [hf, decide_true, Bool.true_and, List.infix_cons_iff, List.filter_cons, ne_eq, not_true, decide_false, Bool.false_eq_true, if_false]
      cases prev with
      | false => simp
      | true =>
        simp only [if_true, under_iff hf cs]
        refine and_congr_right fun _ => ?_
        cases cs with
        | nil => simp
        | cons x cs =>
          simp only [List.getLast?_cons_cons, List.cons_prefix_cons, List.head?_cons, reduceCtorEq, Option.some.injEq]
          constructor
          · rintro ⟨-, h1, h2, h3⟩
            exact ⟨fun _ => trivial, fun _ => trivial, h2, fun h => h.elim (fun h => h1 h.2.1.symm) h3⟩
          · rintro ⟨-, -, h2, h3⟩
            exact ⟨nofun, fun e => h3 (.inl ⟨trivial, e.symm, by simp⟩), h2, fun h => h3 (.inr h)⟩
    · unfold under
      have hfil : (c :: cs).filter (· ≠ '_') = c :: cs.filter (· ≠ '_') := by simp [hc]
      have hinf : (['_', '_'] <:+: c :: cs) ↔ ['_', '_'] <:+: cs := by
        rw [List.infix_cons_iff, List.cons_prefix_cons]
        constructor
        · rintro (⟨h, -⟩ | h)
          · exact absurd h.symm hc
          · exact h
        · exact .inr
      have hlast : (c :: cs).getLast? ≠ some '_' ↔ cs.getLast? ≠ some '_' := by
        cases cs with
        | nil => simp [hc]
        | cons x cs => rw [List.getLast?_cons_cons]
      rw [hfil, hinf, hlast]
      cases hv : f c with
      | none =>
        simp only [hc, decide_false, Bool.false_and, Bool.false_eq_true, if_false, reduceCtorEq, false_iff]
        rintro ⟨⟨ds, h, -⟩, -⟩
        cases h with
        | cons h _ => rw [hv] at h; cases h
      | some d =>
        simp only [under_iff hf cs]
        constructor
        · rintro ⟨⟨ds, h1, h2⟩, -, -, h3, h4⟩
          exact ⟨⟨d :: ds, .cons hv h1, h2⟩, nofun, fun h => absurd (by simpa using h) hc, h3, h4⟩
        · rintro ⟨⟨ds, h1, h2⟩, -, -, h3, h4⟩
          cases h1 with
          | @cons _ d' _ ds h h1 =>
            rw [hv] at h
            cases h
            exact ⟨⟨ds, h1, h2⟩, fun _ => trivial, fun _ => trivial, h3, h4⟩

theorem char_ascii {P : Char → Prop} (h : ∀ k : Fin 128, P (Char.ofNat k)) (c : Char) (hc : c.toNat < 128) : P c := by
  have := h ⟨c.toNat, hc⟩
  simpa using this

theorem digitOf_ascii {b : Nat} {c : Char} {d : Nat} (h : DigitOf b c d) : c.toNat < 128 := by
  have h1 : ∀ x ∈ c!"0123456789abcdef", x.toNat < 128 := by decide
  have h2 : ∀ x ∈ c!"0123456789ABCDEF", x.toNat < 128 := by decide
  rcases h.2 with h | h
  · exact h1 c (List.mem_of_getElem? h)
  · exact h2 c (List.mem_of_getElem? h)

theorem hexVal_high {c : Char} (hc : ¬ c.toNat < 128) : hexVal c = none := by
  have hh : ∀ x : Char, x.toNat < 128 → ¬ c ≤ x := fun x hx (h : c.toNat ≤ x.toNat) => by omega
  unfold hexVal isDigit
  simp [hh '9' (by decide), hh 'F' (by decide), hh 'f' (by decide)]

theorem hexVal_lt {c : Char} {d : Nat} (h : hexVal c = some d) : d < 16 := by
  by_cases hc : c.toNat < 128
  · exact char_ascii (P := fun c => ∀ d, hexVal c = some d → d < 16) (by
      intro k
      have : ∀ k : Fin 128, (hexVal (Char.ofNat k)).all (· < 16) = true := by decide +kernel
      intro d hd
      have := this k
      rw [hd] at this
      simpa using this) c hc d h
  · rw [hexVal_high hc] at h; cases h

theorem hexVal_iff {c : Char} {d : Nat} : hexVal c = some d ↔ DigitOf 16 c d := by
  constructor
  · intro h
    have hd := hexVal_lt h
    have hc : c.toNat < 128 := by
      by_contra hc
      rw [hexVal_high hc] at h; cases h
    refine ⟨hd, ?_⟩
    have key : ∀ k : Fin 128, ∀ d : Fin 16, hexVal (Char.ofNat k) = some d.1 → (c!"0123456789abcdef"[d.1]? = some (Char.ofNat k) ∨ c!"0123456789ABCDEF"[d.1]? = some (Char.ofNat k)) := by decide +kernel
    exact char_ascii (P := fun c => ∀ d : Fin 16, hexVal c = some d.1 → (c!"0123456789abcdef"[d.1]? = some c ∨ c!"0123456789ABCDEF"[d.1]? = some c)) key c hc ⟨d, hd⟩ h
  · intro h
    have hc := digitOf_ascii h
    have key : ∀ k : Fin 128, ∀ d : Fin 16, (c!"0123456789abcdef"[d.1]? = some (Char.ofNat k) ∨ c!"0123456789ABCDEF"[d.1]? = some (Char.ofNat k)) → hexVal (Char.ofNat k) = some d.1 := by decide +kernel
    exact char_ascii (P := fun c => ∀ d : Fin 16, (c!"0123456789abcdef"[d.1]? = some c ∨ c!"0123456789ABCDEF"[d.1]? = some c) → hexVal c = some d.1) key c hc ⟨d, h.1⟩ h.2

theorem decVal_iff {c : Char} {d : Nat} : decVal c = some d ↔ DigitOf 10 c d := by
  constructor
  · intro h
    have hx : hexVal c = some d := by
      unfold decVal at h
      unfold hexVal
      split at h
      · next hd => rw [if_pos hd]; exact h
      · cases h
    have hD := hexVal_iff.1 hx
    have hc := digitOf_ascii hD
    have key : ∀ k : Fin 128, ∀ d : Fin 16, decVal (Char.ofNat k) = some d.1 → d.1 < 10 := by decide +kernel
    exact ⟨char_ascii (P := fun c => ∀ d : Fin 16, decVal c = some d.1 → d.1 < 10) key c hc ⟨d, hD.1⟩ h, hD.2⟩
  · intro h
    have hc := digitOf_ascii h
    have key : ∀ k : Fin 128, ∀ d : Fin 10, (c!"0123456789abcdef"[d.1]? = some (Char.ofNat k) ∨ c!"0123456789ABCDEF"[d.1]? = some (Char.ofNat k)) → decVal (Char.ofNat k) = some d.1 := by decide +kernel
    exact char_ascii (P := fun c => ∀ d : Fin 10, (c!"0123456789abcdef"[d.1]? = some c ∨ c!"0123456789ABCDEF"[d.1]? = some c) → decVal c = some d.1) key c hc ⟨d, h.1⟩ h.2

theorem under_grouped {f : Char → Option Nat} {b : Nat} (hf : f '_' = none) (hd : ∀ c d, f c = some d ↔ DigitOf b c d) (s : Str) (n : Nat) :
    under f b false 0 s = some n ↔ Grouped b s n := by
  rw [under_iff hf]
  have hR : (fun c d => f c = some d) = DigitOf b := by
    funext c d
    exact propext (hd c d)
  rw [hR]
  unfold Grouped Digits
  constructor
  · rintro ⟨h1, h2, h3, h4, h5⟩
    have hh : s.head? ≠ some '_' := fun h => absurd (h3 h) nofun
    refine ⟨⟨?_, h1⟩, hh, h4, h5⟩
    cases s with
    | nil => exact absurd (h2 rfl) nofun
    | cons c s =>
      have hc : c ≠ '_' := by simpa using hh
      simp [hc]
  · rintro ⟨⟨h0, h1⟩, h3, h4, h5⟩
    refine ⟨h1, fun e => ?_, fun h => absurd h h3, h4, h5⟩
    subst e
    exact absurd rfl h0

theorem hexUnderscore_iff {s : Str} {n : Nat} : hexUnderscore false 0 s = some n ↔ Grouped 16 s n := by
  rw [hexUnderscore_under]
  exact under_grouped (by decide) (fun _ _ => hexVal_iff) s n

theorem digitsUnderscore_iff {s : Str} {n : Nat} : digitsUnderscore false 0 s = some n ↔ Grouped 10 s n := by
  rw [digitsUnderscore_under]
  exact under_grouped (by decide) (fun _ _ => decVal_iff) s n

theorem not_grouped_x {s : Str} {n : Nat} {x : Char} (hx : x = 'x' ∨ x = 'X') (hs : x ∈ s) : ¬ Grouped 16 s n := by
  rintro ⟨⟨-, ds, h, -⟩, -⟩
  have hm : x ∈ s.filter (· ≠ '_') := List.mem_filter.2 ⟨hs, by rcases hx with rfl | rfl <;> decide⟩
  have hall : ∀ (l : Str) (ds : List Nat), List.Forall₂ (DigitOf 16) l ds → ∀ c ∈ l, ∃ d, DigitOf 16 c d := by
    intro l ds h
    induction h with
    | nil => exact nofun
    | cons h _ ih =>
      intro c hc
      rcases List.mem_cons.1 hc with rfl | hc
      · exact ⟨_, h⟩
      · exact ih c hc
  obtain ⟨d, hd⟩ := hall _ _ h x hm
  have := hexVal_iff.2 hd
  rcases hx with rfl | rfl
  · exact absurd this (by simp [show hexVal 'x' = none by decide])
  · exact absurd this (by simp [show hexVal 'X' = none by decide])

theorem not_grouped_under {s : Str} {b n : Nat} : ¬ Grouped b ('_' :: s) n := fun h => h.2.1 rfl

theorem hexBody_iff {s : Str} {n : Nat} : hexBody s = some n ↔ Unsigned 16 s n := by
  have mem : ∀ {P : Str → Prop}, (∃ x ∈ [c!"0x", c!"0X", c!"0x_", c!"0X_"], P x) ↔ (P c!"0x" ∨ P c!"0X" ∨ P c!"0x_" ∨ P c!"0X_") := by
    intro P
    simp only [List.mem_cons, List.not_mem_nil, or_false, exists_eq_or_imp, exists_eq_left]
  unfold Unsigned
  rw [mem]
  unfold hexBody
  split
  all_goals rw [hexUnderscore_iff]
  · next ds =>
    constructor
    · exact fun h => .inr ⟨rfl, .inr (.inr (.inl ⟨ds, rfl, h⟩))⟩
    · rintro (h | ⟨-, ⟨r, e, h⟩ | ⟨r, e, h⟩ | ⟨r, e, h⟩ | ⟨r, e, h⟩⟩)
      · exact absurd h (not_grouped_x (.inl rfl) (by simp))
      · cases e; exact absurd h not_grouped_under
      · exact absurd (List.cons.inj (List.cons.inj e).2).1 (by decide)
      · cases e; exact h
      · exact absurd (List.cons.inj (List.cons.inj e).2).1 (by decide)
  · next ds =>
    constructor
    · exact fun h => .inr ⟨rfl, .inr (.inr (.inr ⟨ds, rfl, h⟩))⟩
    · rintro (h | ⟨-, ⟨r, e, h⟩ | ⟨r, e, h⟩ | ⟨r, e, h⟩ | ⟨r, e, h⟩⟩)
      · exact absurd h (not_grouped_x (.inr rfl) (by simp))
      · exact absurd (List.cons.inj (List.cons.inj e).2).1 (by decide)
      · cases e; exact absurd h not_grouped_under
      · exact absurd (List.cons.inj (List.cons.inj e).2).1 (by decide)
      · cases e; exact h
  · next ds hno =>
    constructor
    · exact fun h => .inr ⟨rfl, .inl ⟨ds, rfl, h⟩⟩
    · rintro (h | ⟨-, ⟨r, e, h⟩ | ⟨r, e, h⟩ | ⟨r, e, h⟩ | ⟨r, e, h⟩⟩)
      · exact absurd h (not_grouped_x (.inl rfl) (by simp))
      · cases e; exact h
      · exact absurd (List.cons.inj (List.cons.inj e).2).1 (by decide)
      · cases e; exact (hno r rfl).elim
      · exact absurd (List.cons.inj (List.cons.inj e).2).1 (by decide)
  · next ds hno =>
    constructor
    · exact fun h => .inr ⟨rfl, .inr (.inl ⟨ds, rfl, h⟩)⟩
    · rintro (h | ⟨-, ⟨r, e, h⟩ | ⟨r, e, h⟩ | ⟨r, e, h⟩ | ⟨r, e, h⟩⟩)
      · exact absurd h (not_grouped_x (.inr rfl) (by simp))
      · exact absurd (List.cons.inj (List.cons.inj e).2).1 (by decide)
      · cases e; exact h
      · exact absurd (List.cons.inj (List.cons.inj e).2).1 (by decide)
      · cases e; exact (hno r rfl).elim
  · next h1 h2 h3 h4 =>
    constructor
    · exact .inl
    · rintro (h | ⟨-, ⟨r, e, h⟩ | ⟨r, e, h⟩ | ⟨r, e, h⟩ | ⟨r, e, h⟩⟩)
      · exact h
      · exact (h3 r e).elim
      · exact (h4 r e).elim
      · exact (h1 r e).elim
      · exact (h2 r e).elim

theorem unsigned_ten {s : Str} {n : Nat} : Unsigned 10 s n ↔ Grouped 10 s n :=
  ⟨fun h => h.elim id fun h => absurd h.1 (by decide), .inl⟩

theorem grouped_head {b : Nat} {s : Str} {n : Nat} (h : Grouped b s n) : ∃ c t d, s = c :: t ∧ DigitOf b c d := by
  obtain ⟨⟨h0, ds, h1, -⟩, h2, -⟩ := h
  cases s with
  | nil => exact absurd rfl h0
  | cons c t =>
    have hc : c ≠ '_' := by simpa using h2
    rw [List.filter_cons_of_pos (by simpa using hc)] at h1
    cases h1 with
    | cons h _ => exact ⟨c, t, _, rfl, h⟩

theorem unsigned_head {b : Nat} {s : Str} {n : Nat} (hb : 0 < b) (h : Unsigned b s n) : ∃ c t d, s = c :: t ∧ DigitOf b c d := by
  rcases h with h | ⟨-, x, hx, r, rfl, h⟩
  · exact grouped_head h
  · have : ∃ y, x = '0' :: y := by
      simp only [List.mem_cons, List.not_mem_nil, or_false] at hx
      rcases hx with rfl | rfl | rfl | rfl <;> exact ⟨_, rfl⟩
    obtain ⟨y, rfl⟩ := this
    exact ⟨'0', _, 0, rfl, hb, .inl rfl⟩

theorem digitOf_not_sign {b : Nat} {c : Char} {d : Nat} (h : DigitOf b c d) : c ≠ '+' ∧ c ≠ '-' := by
  have h1 : ∀ x ∈ c!"0123456789abcdef", x ≠ '+' ∧ x ≠ '-' := by decide
  have h2 : ∀ x ∈ c!"0123456789ABCDEF", x ≠ '+' ∧ x ≠ '-' := by decide
  rcases h.2 with h | h
  · exact h1 c (List.mem_of_getElem? h)
  · exact h2 c (List.mem_of_getElem? h)

/-- The sign in front of what a reader of unsigned numbers reads. -/
theorem signed_iff {b : Nat} (hb : 0 < b) {f : Str → Option Nat} (hf : ∀ s n, f s = some n ↔ Unsigned b s n) (s : Str) (i : Int) :
    (match s with
      | '-' :: ds => (f ds).map fun (n : Nat) => -(n : Int)
      | '+' :: ds => (f ds).map fun (n : Nat) => (n : Int)
      | ds => (f ds).map fun (n : Nat) => (n : Int)) = some i ↔ Literal b s i := by
  have no : ∀ {c : Char} {t : Str} {n : Nat}, c = '+' ∨ c = '-' → ¬ Unsigned b (c :: t) n := by
    intro c t n hc h
    obtain ⟨c', t', d, e, hd⟩ := unsigned_head hb h
    cases e
    have := digitOf_not_sign hd
    tauto
  split
  · next ds =>
    simp only [Option.map_eq_some_iff, hf]
    constructor
    · rintro ⟨n, h, rfl⟩
      exact ⟨n, .inr (.inr ⟨ds, rfl, h, rfl⟩)⟩
    · rintro ⟨n, ⟨h, -⟩ | ⟨t, e, -⟩ | ⟨t, e, h, rfl⟩⟩
      · exact absurd h (no (.inr rfl))
      · exact absurd (List.cons.inj e).1 (by decide)
      · cases e; exact ⟨n, h, rfl⟩
  · next ds =>
    simp only [Option.map_eq_some_iff, hf]
    constructor
    · rintro ⟨n, h, rfl⟩
      exact ⟨n, .inr (.inl ⟨ds, rfl, h, rfl⟩)⟩
    · rintro ⟨n, ⟨h, -⟩ | ⟨t, e, h, rfl⟩ | ⟨t, e, -⟩⟩
      · exact absurd h (no (.inl rfl))
      · cases e; exact ⟨n, h, rfl⟩
      · exact absurd (List.cons.inj e).1 (by decide)
  · next h1 h2 =>
    simp only [Option.map_eq_some_iff, hf]
    constructor
    · rintro ⟨n, h, rfl⟩
      exact ⟨n, .inl ⟨h, rfl⟩⟩
    · rintro ⟨n, ⟨h, rfl⟩ | ⟨t, e, -⟩ | ⟨t, e, -⟩⟩
      · exact ⟨n, h, rfl⟩
      · exact (h2 t e).elim
      · exact (h1 t e).elim

theorem isSpace_iff {c : Char} : isSpace c = true ↔ White c := by
  unfold isSpace White
  simp only [Bool.or_eq_true, Bool.and_eq_true, decide_eq_true_eq, beq_iff_eq, List.mem_cons, List.not_mem_nil, or_false]
  omega

theorem digitOf_not_space {b : Nat} {c : Char} {d : Nat} (h : DigitOf b c d) : isSpace c = false := by
  have h1 : ∀ x ∈ c!"0123456789abcdef", isSpace x = false := by decide
  have h2 : ∀ x ∈ c!"0123456789ABCDEF", isSpace x = false := by decide
  rcases h.2 with h | h
  · exact h1 c (List.mem_of_getElem? h)
  · exact h2 c (List.mem_of_getElem? h)

theorem grouped_no_space {b : Nat} {s : Str} {n : Nat} (h : Grouped b s n) : ∀ c ∈ s, isSpace c = false := by
  obtain ⟨⟨-, ds, h1, -⟩, -⟩ := h
  intro c hc
  by_cases hu : c = '_'
  · subst hu; rfl
  have hm : c ∈ s.filter (· ≠ '_') := List.mem_filter.2 ⟨hc, by simpa using hu⟩
  generalize s.filter (· ≠ '_') = l at h1 hm
  induction h1 with
  | nil => cases hm
  | cons h _ ih =>
    rcases List.mem_cons.1 hm with rfl | hm
    · exact digitOf_not_space h
    · exact ih hm

theorem literal_no_space {b : Nat} {s : Str} {i : Int} (h : Literal b s i) : ∀ c ∈ s, isSpace c = false := by
  have key : ∀ {s : Str} {n : Nat}, Unsigned b s n → ∀ c ∈ s, isSpace c = false := by
    rintro s n (h | ⟨-, x, hx, r, rfl, h⟩) c hc
    · exact grouped_no_space h c hc
    · rcases List.mem_append.1 hc with hc | hc
      · have : ∀ x ∈ [c!"0x", c!"0X", c!"0x_", c!"0X_"], ∀ c ∈ x, isSpace c = false := by decide
        exact this x hx c hc
      · exact grouped_no_space h c hc
  obtain ⟨n, ⟨h, -⟩ | ⟨t, rfl, h, -⟩ | ⟨t, rfl, h, -⟩⟩ := h
  · exact key h
  · intro c hc
    rcases List.mem_cons.1 hc with rfl | hc
    · rfl
    · exact key h c hc
  · intro c hc
    rcases List.mem_cons.1 hc with rfl | hc
    · rfl
    · exact key h c hc

theorem strip_of_no_space {s : Str} (h : ∀ c ∈ s, isSpace c = false) : strip s = s := by
  have drop : ∀ l : Str, (∀ c ∈ l, isSpace c = false) → l.dropWhile isSpace = l := by
    intro l hl
    cases l with
    | nil => rfl
    | cons c l => rw [List.dropWhile_cons_of_neg (by simp [hl c List.mem_cons_self])]
  unfold strip lstrip rstrip
  rw [drop s h, drop s.reverse (fun c hc => h c (List.mem_reverse.1 hc)), List.reverse_reverse]

theorem strip_around {w t w' : Str} (hw : ∀ c ∈ w, isSpace c = true) (hw' : ∀ c ∈ w', isSpace c = true) (ht : ∀ c ∈ t, isSpace c = false) :
    strip (w ++ t ++ w') = t := by
  rw [List.append_assoc]
  unfold strip
  rw [lstrip_append _ _ hw]
  by_cases he : t = []
  · subst he
    have : lstrip w' = [] := lstrip_eq_nil.2 hw'
    rw [List.nil_append, this]
    rfl
  · have : lstrip (t ++ w') = t ++ w' := by
      obtain ⟨c, t, rfl⟩ := List.exists_cons_of_ne_nil he
      unfold lstrip
      rw [List.cons_append, List.dropWhile_cons_of_neg (by simp [ht c List.mem_cons_self])]
    rw [this, rstrip_append _ _ hw']
    have := strip_of_no_space ht
    unfold strip at this
    have hl : lstrip t = t := by
      obtain ⟨c, t, rfl⟩ := List.exists_cons_of_ne_nil he
      unfold lstrip
      rw [List.dropWhile_cons_of_neg (by simp [ht c List.mem_cons_self])]
    rwa [hl] at this

theorem says_iff {b : Nat} {s : Str} {i : Int} : Says b s i ↔ Literal b (strip s) i := by
  constructor
  · rintro ⟨w, t, w', rfl, hw, hw', h⟩
    rwa [strip_around (fun c hc => isSpace_iff.2 (hw c hc)) (fun c hc => isSpace_iff.2 (hw' c hc)) (literal_no_space h)]
  · intro h
    obtain ⟨w, w', e, hw, hw'⟩ := strip_split s
    exact ⟨w, strip s, w', e, fun c hc => isSpace_iff.1 (hw c hc), fun c hc => isSpace_iff.1 (hw' c hc), h⟩

/-- `int(s)`. -/
theorem pyInt_iff {s : Str} {i : Int} : pyInt s = some i ↔ Says 10 s i := by
  rw [says_iff]
  exact signed_iff (by decide) (fun s n => digitsUnderscore_iff.trans unsigned_ten.symm) (strip s) i

/-- `int(s, 16)`. -/
theorem pyInt16_iff {s : Str} {i : Int} : pyInt16 s = some i ↔ Says 16 s i := by
  rw [says_iff]
  exact signed_iff (by decide) (fun s n => hexBody_iff) (strip s) i

end Verif
