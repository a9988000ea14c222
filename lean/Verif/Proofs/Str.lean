import Verif.Py.Str
/-! Lemmas about the string functions. -/
namespace Verif

theorem splitOn_ne_nil (c : Char) (s : Str) : splitOn c s ≠ [] := by
  induction s with
  | nil => simp [splitOn]
  | cons x xs ih =>
    simp only [splitOn]
    split
    · simp
    · split <;> simp

theorem join_splitOn (c : Char) (s : Str) : join [c] (splitOn c s) = s := by
  induction s with
  | nil => rfl
  | cons x xs ih =>
    simp only [splitOn]
    split
    · next h =>
      subst h
      rcases hs : splitOn x xs with _ | ⟨p, ps⟩
      · exact absurd hs (splitOn_ne_nil _ _)
      · rw [hs] at ih; simp [join, ih]
    · rcases hs : splitOn c xs with _ | ⟨p, ps⟩
      · exact absurd hs (splitOn_ne_nil _ _)
      · rw [hs] at ih
        cases ps with
        | nil => simpa [join] using ih
        | cons q qs => simpa [join] using ih

theorem splitOn_not_mem (c : Char) (s : Str) : ∀ p ∈ splitOn c s, c ∉ p := by
  induction s with
  | nil => simp [splitOn]
  | cons x xs ih =>
    simp only [splitOn]
    split
    · simpa using ih
    · next h =>
      rcases hs : splitOn c xs with _ | ⟨p, ps⟩
      · simpa using fun e => h e.symm
      · rw [hs] at ih
        intro q hq
        simp only [List.mem_cons] at hq
        rcases hq with rfl | hq
        · have := ih p (by simp)
          simp only [List.mem_cons, not_or]
          exact ⟨fun e => h e.symm, this⟩
        · exact ih q (by simp [hq])

theorem splitOn_of_not_mem (c : Char) (s : Str) (h : c ∉ s) : splitOn c s = [s] := by
  induction s with
  | nil => rfl
  | cons x xs ih =>
    simp only [List.mem_cons, not_or] at h
    simp [splitOn, ih h.2, Ne.symm h.1]

theorem splitOn_append_sep (c : Char) (a b : Str) (h : c ∉ a) :
    splitOn c (a ++ c :: b) = a :: splitOn c b := by
  induction a with
  | nil => simp [splitOn]
  | cons x xs ih =>
    simp only [List.mem_cons, not_or] at h
    simp [splitOn, ih h.2, Ne.symm h.1]

theorem splitOn_join (c : Char) (ps : List Str) (hne : ps ≠ []) (h : ∀ p ∈ ps, c ∉ p) :
    splitOn c (join [c] ps) = ps := by
  induction ps with
  | nil => exact absurd rfl hne
  | cons p ps ih =>
    cases ps with
    | nil => simpa [join] using splitOn_of_not_mem c p (h p (by simp))
    | cons q qs =>
      simp only [join, List.append_assoc, List.singleton_append]
      rw [splitOn_append_sep _ _ _ (h p (by simp)), ih (by simp) (fun r hr => h r (by simp [hr]))]

/-- Splitting a concatenation: the last piece of the left is glued to the first piece of the right. -/
theorem splitOn_append (c : Char) (a b : Str) :
    splitOn c (a ++ b) = (splitOn c a).dropLast ++
      (((splitOn c a).getLastD [] ++ (splitOn c b).headD []) :: (splitOn c b).tail) := by
  induction a with
  | nil =>
    rcases hs : splitOn c b with _ | ⟨p, ps⟩
    · exact absurd hs (splitOn_ne_nil _ _)
    · simp [splitOn, hs]
  | cons x xs ih =>
    simp only [List.cons_append, splitOn]
    split
    · rw [ih]
      rcases hs : splitOn c xs with _ | ⟨p, ps⟩
      · exact absurd hs (splitOn_ne_nil _ _)
      · simp
    · rw [ih]
      rcases hs : splitOn c xs with _ | ⟨p, ps⟩
      · exact absurd hs (splitOn_ne_nil _ _)
      · cases ps with
        | nil => simp
        | cons q qs => simp

theorem mem_join {sep : Str} {ps : List Str} {x : Char} (h : x ∈ join sep ps) :
    x ∈ sep ∨ ∃ p ∈ ps, x ∈ p := by
  induction ps with
  | nil => simp [join] at h
  | cons p ps ih =>
    cases ps with
    | nil => exact .inr ⟨p, by simp, by simpa [join] using h⟩
    | cons q qs =>
      simp only [join, List.append_assoc, List.mem_append] at h
      rcases h with h | h | h
      · exact .inr ⟨p, by simp, h⟩
      · exact .inl h
      · rcases ih h with h | ⟨r, hr, hx⟩
        · exact .inl h
        · exact .inr ⟨r, by simp [hr], hx⟩

theorem mem_splitOn {c : Char} {s p : Str} {x : Char} (hp : p ∈ splitOn c s) (hx : x ∈ p) : x ∈ s := by
  induction s generalizing p with
  | nil => simp [splitOn] at hp; simp [hp] at hx
  | cons y ys ih =>
    simp only [splitOn] at hp
    split at hp
    · simp only [List.mem_cons] at hp
      rcases hp with rfl | hp
      · simp at hx
      · simp [ih hp hx]
    · rcases hs : splitOn c ys with _ | ⟨q, qs⟩
      · exact absurd hs (splitOn_ne_nil _ _)
      · rw [hs] at hp ih
        simp only [List.mem_cons] at hp
        rcases hp with rfl | hp
        · simp only [List.mem_cons] at hx
          rcases hx with rfl | hx
          · simp
          · simp [ih (p := q) (by simp) hx]
        · simp [ih (p := p) (by simp [hp]) hx]

theorem length_join_singleton (c : Char) (ps : List Str) :
    (join [c] ps).length = (ps.map List.length).sum + (ps.length - 1) := by
  induction ps with
  | nil => simp [join]
  | cons p ps ih =>
    cases ps with
    | nil => simp [join]
    | cons q qs =>
      simp only [join, List.length_append, ih]
      simp
      omega

/-! ### decimal representation -/

theorem isDigit_iff (c : Char) : isDigit c = true ↔ 48 ≤ c.toNat ∧ c.toNat ≤ 57 := by
  simp only [isDigit, Bool.and_eq_true, decide_eq_true_eq]
  exact Iff.rfl

theorem toNat_digitChar {n : Nat} (h : n < 10) : (digitChar n).toNat = 48 + n := by
  have : ∀ n : Fin 10, (digitChar n.val).toNat = 48 + n.val := by decide
  exact this ⟨n, h⟩

theorem isDigit_digitChar {n : Nat} (h : n < 10) : isDigit (digitChar n) = true := by
  rw [isDigit_iff, toNat_digitChar h]; omega

theorem digitVal_digitChar {n : Nat} (h : n < 10) : digitVal (digitChar n) = n := by
  rw [digitVal, toNat_digitChar h]; omega

/-- The value of a digit string. -/
def digitsVal (s : Str) : Nat := s.foldl (fun a c => a * 10 + digitVal c) 0

theorem digitsVal_append_singleton (s : Str) (c : Char) :
    digitsVal (s ++ [c]) = digitsVal s * 10 + digitVal c := by
  simp [digitsVal]

theorem natReprAux_spec (fuel n : Nat) (h : n < fuel) :
    (∀ c ∈ natReprAux fuel n, isDigit c = true) ∧ digitsVal (natReprAux fuel n) = n ∧ natReprAux fuel n ≠ [] := by
  induction fuel generalizing n with
  | zero => omega
  | succ fuel ih =>
    simp only [natReprAux]
    split
    · next h10 =>
      refine ⟨?_, ?_, by simp⟩
      · simpa using isDigit_digitChar h10
      · simp [digitsVal, digitVal_digitChar h10]
    · next h10 =>
      have hlt : n / 10 < fuel := by omega
      obtain ⟨h1, h2, h3⟩ := ih (n / 10) hlt
      have hm : n % 10 < 10 := Nat.mod_lt _ (by omega)
      refine ⟨?_, ?_, by simp⟩
      · intro c hc
        simp only [List.mem_append, List.mem_singleton] at hc
        rcases hc with hc | rfl
        · exact h1 c hc
        · exact isDigit_digitChar hm
      · rw [digitsVal_append_singleton, h2, digitVal_digitChar hm]; omega

theorem natRepr_digits (n : Nat) : ∀ c ∈ natRepr n, isDigit c = true := (natReprAux_spec _ n (by omega)).1
theorem digitsVal_natRepr (n : Nat) : digitsVal (natRepr n) = n := (natReprAux_spec _ n (by omega)).2.1
theorem natRepr_ne_nil (n : Nat) : natRepr n ≠ [] := (natReprAux_spec _ n (by omega)).2.2

theorem natRepr_injective {a b : Nat} (h : natRepr a = natRepr b) : a = b := by
  rw [← digitsVal_natRepr a, ← digitsVal_natRepr b, h]

theorem digitsVal_replicate_zero (k : Nat) (s : Str) :
    digitsVal (List.replicate k '0' ++ s) = digitsVal s := by
  have h0 : digitsVal (List.replicate k '0') = 0 := by
    induction k with
    | zero => rfl
    | succ k ih => rw [List.replicate_succ', digitsVal_append_singleton, ih]; decide
  simp only [digitsVal, List.foldl_append] at h0 ⊢
  rw [h0]

theorem zfill_digits {w : Nat} {s : Str} (h : ∀ c ∈ s, isDigit c = true) :
    ∀ c ∈ zfill w s, isDigit c = true := by
  intro c hc
  simp only [zfill, List.mem_append, List.mem_replicate] at hc
  rcases hc with ⟨_, rfl⟩ | hc
  · decide
  · exact h c hc

theorem zfill_natRepr_injective {w a b : Nat} (h : zfill w (natRepr a) = zfill w (natRepr b)) : a = b := by
  have := congrArg digitsVal h
  simpa [zfill, digitsVal_replicate_zero, digitsVal_natRepr] using this

theorem zfill_ne_nil {w : Nat} {s : Str} (h : s ≠ []) : zfill w s ≠ [] := by
  simp [zfill, h]

theorem natReprAux_length (fuel n k : Nat) (h : n < fuel) (hk : 0 < k) (hn : n < 10 ^ k) :
    (natReprAux fuel n).length ≤ k := by
  induction fuel generalizing n k with
  | zero => omega
  | succ fuel ih =>
    simp only [natReprAux]
    split
    · simp; omega
    · next h10 =>
      obtain ⟨k, rfl⟩ : ∃ j, k = j + 1 := ⟨k - 1, by omega⟩
      have hk0 : 0 < k := by
        rcases Nat.eq_zero_or_pos k with rfl | h
        · simp at hn; omega
        · exact h
      have hd : n / 10 < 10 ^ k := by
        rw [Nat.pow_succ] at hn
        exact Nat.div_lt_of_lt_mul (by omega)
      have := ih (n / 10) k (by omega) hk0 hd
      simp; omega

theorem natRepr_length_le {n k : Nat} (hk : 0 < k) (h : n < 10 ^ k) : (natRepr n).length ≤ k :=
  natReprAux_length _ _ _ (by omega) hk h

theorem zfill_length {w : Nat} {s : Str} (h : s.length ≤ w) : (zfill w s).length = w := by
  simp [zfill]; omega

/-! ### casing -/

theorem Casing.Lawful.lower_digits {L : Casing} (hL : L.Lawful) (d : Str) (hd : ∀ c ∈ d, isDigit c = true) (hne : d ≠ [])
    (a b : Str) : L.lower (a ++ d ++ b) = L.lower a ++ d ++ L.lower b := by
  induction d generalizing a with
  | nil => exact absurd rfl hne
  | cons c d ih =>
    have hc := hd c (by simp)
    cases d with
    | nil => simpa using hL.lower_sep a b c (.inr hc)
    | cons e es =>
      have := ih (fun c hc => hd c (by simp [hc])) (by simp) []
      have h2 := hL.lower_sep a (e :: es ++ b) c (.inr hc)
      simp only [List.nil_append, hL.lower_nil] at this
      rw [List.append_assoc, List.cons_append, h2, this]
      simp

theorem asciiCasing_lawful : asciiCasing.Lawful where
  lower_nil := rfl
  lower_sep a b c h := by
    have : asciiLowerChar c = c := by
      rcases h with rfl | h
      · decide
      · rw [isDigit_iff] at h
        unfold asciiLowerChar
        rw [if_neg]
        rintro ⟨h1, _⟩
        have : ('A').toNat ≤ c.toNat := h1
        have e : ('A').toNat = 65 := rfl
        omega
    simp [asciiCasing, this]

end Verif
