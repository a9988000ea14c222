import Verif.Py.Num
import Verif.Proofs.Str
import Mathlib.Data.Rat.Defs
/-! Lemmas about numbers as text. -/
namespace Verif

theorem isSpace_of_isGraph {c : Char} (h : isGraph c = true) : isSpace c = false := by
  simp only [isGraph, Bool.and_eq_true, decide_eq_true_eq] at h
  rw [Bool.eq_false_iff]
  intro hs
  simp only [isSpace, Bool.or_eq_true, Bool.and_eq_true, decide_eq_true_eq, beq_iff_eq] at hs
  omega

theorem isGraph_of_isDigit {c : Char} (h : isDigit c = true) : isGraph c = true := by
  rw [isDigit_iff] at h
  simp only [isGraph, Bool.and_eq_true, decide_eq_true_eq]
  omega

theorem dropWhile_eq_self {α : Type} {p : α → Bool} {l : List α} (h : ∀ x ∈ l.head?, p x = false) : l.dropWhile p = l := by
  cases l with
  | nil => rfl
  | cons x l => rw [List.dropWhile_cons_of_neg]; simp [h x (by simp)]

/-- `strip` changes nothing when the ends are no whitespace. -/
theorem strip_eq_self {s : Str} (h1 : ∀ c ∈ s.head?, isSpace c = false) (h2 : ∀ c ∈ s.getLast?, isSpace c = false) : strip s = s := by
  rw [strip, rstrip, lstrip, dropWhile_eq_self h1, dropWhile_eq_self, List.reverse_reverse]
  rwa [List.head?_reverse]

theorem strip_graph {s : Str} (h : ∀ c ∈ s, isGraph c = true) : strip s = s :=
  strip_eq_self (fun c hc => isSpace_of_isGraph (h c (List.mem_of_mem_head? hc)))
    (fun c hc => isSpace_of_isGraph (h c (List.mem_of_getLast? hc)))

theorem digitsUnderscore_digits (s : Str) (h : ∀ c ∈ s, isDigit c = true) : ∀ (prev : Bool) (acc : Nat), (prev = true ∨ s ≠ []) →
    digitsUnderscore prev acc s = some (s.foldl (fun a c => a * 10 + digitVal c) acc) := by
  induction s with
  | nil => intro prev acc hp; rcases hp with rfl | hp; exact rfl; exact absurd rfl hp
  | cons c s ih =>
    intro prev acc _
    rw [digitsUnderscore, if_pos (h c (by simp)), ih (fun c hc => h c (by simp [hc])) true _ (.inl rfl), List.foldl_cons]

theorem digitsUnderscore_natRepr (n : Nat) : digitsUnderscore false 0 (natRepr n) = some n := by
  rw [digitsUnderscore_digits _ (natRepr_digits n) _ _ (.inr (natRepr_ne_nil n))]
  exact congrArg some (digitsVal_natRepr n)

theorem intRepr_graph (i : Int) : ∀ c ∈ intRepr i, isGraph c = true := by
  intro c hc
  cases i with
  | ofNat n => exact isGraph_of_isDigit (natRepr_digits n c hc)
  | negSucc n =>
    rcases List.mem_cons.1 hc with rfl | hc
    · decide
    · exact isGraph_of_isDigit (natRepr_digits _ c hc)

theorem intRepr_ne_nil (i : Int) : intRepr i ≠ [] := by
  cases i with
  | ofNat n => exact natRepr_ne_nil n
  | negSucc n => simp [intRepr]

/-- `int(s)` of a string of digits. -/
theorem pyInt_digits (s : Str) (h : ∀ c ∈ s, isDigit c = true) (hne : s ≠ []) : pyInt s = some (digitsVal s : Int) := by
  have hg : ∀ c ∈ s, isGraph c = true := fun c hc => isGraph_of_isDigit (h c hc)
  have hd := digitsUnderscore_digits s h false 0 (.inr hne)
  unfold pyInt
  rw [strip_graph hg]
  split
  · exact absurd (h '-' (by simp)) (by decide)
  · exact absurd (h '+' (by simp)) (by decide)
  · rw [hd]; rfl

/-- `int(str(i)) == i`. -/
theorem pyInt_intRepr (i : Int) : pyInt (intRepr i) = some i := by
  cases i with
  | ofNat n =>
    show pyInt (natRepr n) = _
    rw [pyInt_digits _ (natRepr_digits n) (natRepr_ne_nil n), digitsVal_natRepr]; rfl
  | negSucc n =>
    unfold pyInt
    rw [strip_graph (intRepr_graph _)]
    show (digitsUnderscore false 0 (natRepr (n + 1))).map _ = _
    rw [digitsUnderscore_natRepr]
    rfl

theorem intRepr_injective {a b : Int} (h : intRepr a = intRepr b) : a = b := by
  have := congrArg pyInt h
  rw [pyInt_intRepr, pyInt_intRepr] at this
  exact Option.some.inj this

theorem digitsUnderscore_chars (s : Str) : ∀ (prev : Bool) (acc n : Nat), digitsUnderscore prev acc s = some n →
    ∀ c ∈ s, isDigit c = true ∨ c = '_' := by
  induction s with
  | nil => intro _ _ _ _ c hc; cases hc
  | cons x s ih =>
    intro prev acc n h c hc
    rw [digitsUnderscore] at h
    split at h
    · next hx =>
      rcases List.mem_cons.1 hc with rfl | hc
      · exact .inl hx
      · exact ih _ _ _ h c hc
    · split at h
      · next hx =>
        rcases List.mem_cons.1 hc with rfl | hc
        · simp only [Bool.and_eq_true, decide_eq_true_eq] at hx; exact .inr hx.1
        · exact ih _ _ _ h c hc
      · cases h

theorem pyInt_chars {s : Str} {i : Int} (h : pyInt s = some i) :
    ∀ c ∈ strip s, isDigit c = true ∨ c = '_' ∨ c = '+' ∨ c = '-' := by
  intro c hc
  unfold pyInt at h
  split at h
  · next ds heq =>
    rw [heq] at hc
    rcases List.mem_cons.1 hc with rfl | hc
    · simp
    · rw [Option.map_eq_some_iff] at h
      obtain ⟨n, h, -⟩ := h
      rcases digitsUnderscore_chars _ _ _ _ h c hc with h | h <;> simp [h]
  · next ds heq =>
    rw [heq] at hc
    rcases List.mem_cons.1 hc with rfl | hc
    · simp
    · rw [Option.map_eq_some_iff] at h
      obtain ⟨n, h, -⟩ := h
      rcases digitsUnderscore_chars _ _ _ _ h c hc with h | h <;> simp [h]
  · rw [Option.map_eq_some_iff] at h
    obtain ⟨n, h, -⟩ := h
    rcases digitsUnderscore_chars _ _ _ _ h c hc with h | h <;> simp [h]

/-! ### a lawful float codec -/

/-- A codec that prints fractions; it shows that the laws can be met (Python prints decimals). -/
def fractionCodec : FloatCodec where
  repr
    | .nan => c!"nan"
    | .inf false => c!"inf"
    | .inf true => c!"-inf"
    | .fin q => intRepr q.num ++ '/' :: natRepr q.den
  parse s :=
    if s = c!"nan" then some .nan
    else if s = c!"inf" then some (.inf false)
    else if s = c!"-inf" then some (.inf true)
    else match splitOn '/' s with
      | [a, b] => match pyInt a, pyInt b with
        | some n, some d => if 0 < d then some (.fin (mkRat n d.toNat)) else none
        | _, _ => none
      | _ => (pyInt s).map fun i => .fin i

theorem intRepr_no (i : Int) (c : Char) (h1 : isDigit c = false) (h2 : c ≠ '-') : c ∉ intRepr i := by
  intro hc
  cases i with
  | ofNat n => rw [natRepr_digits n c hc] at h1; cases h1
  | negSucc n =>
    rcases List.mem_cons.1 hc with rfl | hc
    · exact h2 rfl
    · rw [natRepr_digits _ c hc] at h1; cases h1

theorem fractionCodec_lawful : fractionCodec.Lawful where
  parse_repr f := by
    match f with
    | .nan => rfl
    | .inf false => rfl
    | .inf true => rfl
    | .fin q =>
      have hslash : '/' ∈ intRepr q.num ++ '/' :: natRepr q.den := by simp
      simp only [fractionCodec]
      rw [if_neg (by intro h; rw [h] at hslash; revert hslash; decide), if_neg (by intro h; rw [h] at hslash; revert hslash; decide),
        if_neg (by intro h; rw [h] at hslash; revert hslash; decide)]
      rw [splitOn_append_sep _ _ _ (intRepr_no _ _ (by decide) (by decide)),
        splitOn_of_not_mem _ _ (fun h => by have := natRepr_digits _ _ h; revert this; decide)]
      have hd : pyInt (natRepr q.den) = some (q.den : Int) := by
        rw [pyInt_digits _ (natRepr_digits _) (natRepr_ne_nil _), digitsVal_natRepr]
      have hpos : (0 : Int) < (q.den : Int) := by exact_mod_cast q.den_pos
      simp only [pyInt_intRepr, hd, if_pos hpos, Int.toNat_natCast, Rat.mkRat_self]
  pyInt_repr f := by
    match f with
    | .nan => decide
    | .inf false => decide
    | .inf true => decide
    | .fin q =>
      rcases h : pyInt (fractionCodec.repr (.fin q)) with _ | i
      · rfl
      · have hg : ∀ c ∈ fractionCodec.repr (.fin q), isGraph c = true := by
          intro c hc
          simp only [fractionCodec, List.mem_append, List.mem_cons] at hc
          rcases hc with hc | rfl | hc
          · exact intRepr_graph _ c hc
          · decide
          · exact isGraph_of_isDigit (natRepr_digits _ c hc)
        have := pyInt_chars h '/' (by rw [strip_graph hg]; simp [fractionCodec])
        exact absurd this (by decide)
  repr_ne_nil f := by
    match f with
    | .nan => decide
    | .inf false => decide
    | .inf true => decide
    | .fin q => simp [fractionCodec]
  repr_graph f := by
    match f with
    | .nan => decide
    | .inf false => decide
    | .inf true => decide
    | .fin q =>
      intro c hc
      simp only [fractionCodec, List.mem_append, List.mem_cons] at hc
      rcases hc with hc | rfl | hc
      · exact intRepr_graph _ c hc
      · decide
      · exact isGraph_of_isDigit (natRepr_digits _ c hc)
  repr_plain f := by
    match f with
    | .nan => decide
    | .inf false => decide
    | .inf true => decide
    | .fin q =>
      intro c hc
      simp only [fractionCodec, List.mem_append, List.mem_cons] at hc
      have hnat : ∀ (x : Char), c ∈ natRepr q.den → isDigit x = false → c ≠ x := by
        rintro x h1 h2 rfl
        rw [natRepr_digits _ _ h1] at h2; cases h2
      rcases hc with hc | rfl | hc
      · refine ⟨?_, ?_, ?_, ?_, ?_⟩ <;> (rintro rfl; exact intRepr_no _ _ (by decide) (by decide) hc)
      · decide
      · exact ⟨hnat _ hc (by decide), hnat _ hc (by decide), hnat _ hc (by decide), hnat _ hc (by decide), hnat _ hc (by decide)⟩
  parse_int s i h := by
    simp only [fractionCodec]
    split
    · exact ⟨_, rfl⟩
    split
    · exact ⟨_, rfl⟩
    split
    · exact ⟨_, rfl⟩
    split
    · next a b heq =>
      exfalso
      have hs : s = a ++ '/' :: b := by
        have := join_splitOn '/' s
        rw [heq] at this
        simpa [join] using this.symm
      have hmem : '/' ∈ s := by rw [hs]; simp
      have : '/' ∈ strip s := by
        have key : ∀ t : Str, '/' ∈ t → '/' ∈ t.dropWhile isSpace := by
          intro t
          induction t with
          | nil => simp
          | cons x t ih =>
            intro hm
            rw [List.dropWhile_cons]
            split
            · next hx =>
              rcases List.mem_cons.1 hm with h | h
              · rw [← h] at hx; exact absurd hx (by decide)
              · exact ih h
            · exact hm
        rw [strip, rstrip, lstrip, List.mem_reverse]
        exact key _ (List.mem_reverse.2 (key _ hmem))
      have := pyInt_chars h '/' this
      exact absurd this (by decide)
    · rw [h]; exact ⟨_, rfl⟩

end Verif
