import Verif.Proofs.Num
import Verif.Proofs.Str
/-! Stripping and splitting notes. -/
namespace Verif

/-- The lines of a text that are not blank, stripped. -/
def noteLines (s : Str) : List Str := ((splitOn '\n' s).map strip).filter fun l => !l.isEmpty

theorem rstrip_append (s t : Str) (h : ∀ c ∈ t, isSpace c = true) : rstrip (s ++ t) = rstrip s := by
  unfold rstrip
  rw [List.reverse_append, List.dropWhile_append_of_pos]
  simpa using h

theorem lstrip_append (s t : Str) (h : ∀ c ∈ t, isSpace c = true) : lstrip (t ++ s) = lstrip s := by
  unfold lstrip
  rw [List.dropWhile_append_of_pos h]

theorem lstrip_split (s : Str) : ∃ t, s = t ++ lstrip s ∧ ∀ c ∈ t, isSpace c = true := by
  refine ⟨s.takeWhile isSpace, by rw [lstrip, List.takeWhile_append_dropWhile], fun c hc => ?_⟩
  have := List.all_takeWhile (p := isSpace) (l := s)
  rw [List.all_eq_true] at this
  exact this c hc

theorem rstrip_split (s : Str) : ∃ t, s = rstrip s ++ t ∧ ∀ c ∈ t, isSpace c = true := by
  obtain ⟨t, h1, h2⟩ := lstrip_split s.reverse
  refine ⟨t.reverse, ?_, by simpa using h2⟩
  have := congrArg List.reverse h1
  rw [List.reverse_reverse, List.reverse_append] at this
  exact this

/-- White space on both sides of the stripped text. -/
theorem strip_split (s : Str) : ∃ a b, s = a ++ strip s ++ b ∧ (∀ c ∈ a, isSpace c = true) ∧ ∀ c ∈ b, isSpace c = true := by
  obtain ⟨a, h1, h2⟩ := lstrip_split s
  obtain ⟨b, h3, h4⟩ := rstrip_split (lstrip s)
  exact ⟨a, b, by rw [strip, List.append_assoc, ← h3]; exact h1, h2, h4⟩

theorem rstrip_eq_nil {s : Str} : rstrip s = [] ↔ ∀ c ∈ s, isSpace c = true := by
  constructor
  · intro h
    obtain ⟨t, h1, h2⟩ := rstrip_split s
    rw [h, List.nil_append] at h1
    rw [h1]; exact h2
  · intro h
    have := rstrip_append [] s h
    rw [List.nil_append] at this
    rw [this]; rfl

theorem lstrip_eq_nil {s : Str} : lstrip s = [] ↔ ∀ c ∈ s, isSpace c = true := by
  constructor
  · intro h
    obtain ⟨t, h1, h2⟩ := lstrip_split s
    rw [h, List.append_nil] at h1
    rw [h1]; exact h2
  · intro h
    have := lstrip_append [] s h
    rw [List.append_nil] at this
    rw [this]; rfl

theorem strip_cons (c : Char) (s : Str) (h : isSpace c = true) : strip (c :: s) = strip s := by
  unfold strip
  rw [show c :: s = [c] ++ s from rfl, lstrip_append s [c] (by simpa using h)]

theorem strip_snoc (c : Char) (s : Str) (h : isSpace c = true) : strip (s ++ [c]) = strip s := by
  unfold strip
  by_cases hs : ∀ x ∈ s, isSpace x = true
  · rw [lstrip_eq_nil.2 hs, lstrip_eq_nil.2]
    intro x hx
    rcases List.mem_append.1 hx with hx | hx
    · exact hs x hx
    · rw [List.mem_singleton] at hx; rw [hx]; exact h
  · have : lstrip (s ++ [c]) = lstrip s ++ [c] := by
      unfold lstrip
      rw [List.dropWhile_append, if_neg]
      rw [List.isEmpty_iff]
      intro he
      exact hs (lstrip_eq_nil.1 he)
    rw [this, rstrip_append _ _ (by simpa using h)]

theorem noteLines_cons (c : Char) (s : Str) (h : isSpace c = true) : noteLines (c :: s) = noteLines s := by
  unfold noteLines
  rw [splitOn]
  split
  · rw [List.map_cons, List.filter_cons, if_neg (by decide)]
  · split
    · next he => exact absurd he (splitOn_ne_nil _ _)
    · next p ps he =>
      rw [he, List.map_cons, List.map_cons, strip_cons c p h]

theorem noteLines_prefix (a s : Str) (h : ∀ c ∈ a, isSpace c = true) : noteLines (a ++ s) = noteLines s := by
  induction a with
  | nil => rfl
  | cons c a ih =>
    rw [List.forall_mem_cons] at h
    rw [List.cons_append, noteLines_cons c _ h.1, ih h.2]

theorem splitOn_snoc (c x : Char) (s : Str) : splitOn c (s ++ [x]) = if x = c then splitOn c s ++ [[]] else (splitOn c s).dropLast ++ [(splitOn c s).getLast (splitOn_ne_nil c s) ++ [x]] := by
  induction s with
  | nil => simp [splitOn]
  | cons y s ih =>
    rw [List.cons_append]
    by_cases hy : y = c
    · subst hy
      simp only [splitOn, if_true, ih]
      split
      · rfl
      · rw [List.dropLast_cons_of_ne_nil (splitOn_ne_nil _ _), List.getLast_cons (splitOn_ne_nil _ _)]
        rfl
    · rcases hs : splitOn c s with _ | ⟨p, ps⟩
      · exact absurd hs (splitOn_ne_nil _ _)
      · have h1 : splitOn c (y :: s) = (y :: p) :: ps := by rw [splitOn, if_neg hy, hs]
        simp only [hs] at ih
        simp only [h1]
        rw [splitOn, if_neg hy, ih]
        by_cases hx : x = c
        · simp [hx]
        · simp only [if_neg hx]
          cases ps with
          | nil => rfl
          | cons q qs => rfl

theorem noteLines_snoc (c : Char) (s : Str) (h : isSpace c = true) : noteLines (s ++ [c]) = noteLines s := by
  unfold noteLines
  rw [splitOn_snoc]
  split
  · rw [List.map_append, List.filter_append]
    simp [strip, lstrip, rstrip]
  · have := List.dropLast_concat_getLast (splitOn_ne_nil '\n' s)
    conv_rhs => rw [← this]
    rw [List.map_append, List.map_append, List.map_singleton, List.map_singleton, strip_snoc _ _ h]

theorem noteLines_suffix (a s : Str) (h : ∀ c ∈ a, isSpace c = true) : noteLines (s ++ a) = noteLines s := by
  induction a generalizing s with
  | nil => rw [List.append_nil]
  | cons c a ih =>
    rw [List.forall_mem_cons] at h
    rw [show s ++ c :: a = (s ++ [c]) ++ a by simp, ih _ h.2, noteLines_snoc _ _ h.1]

theorem noteLines_strip (s : Str) : noteLines (strip s) = noteLines s := by
  obtain ⟨a, b, h1, h2, h3⟩ := strip_split s
  conv_rhs => rw [h1]
  rw [noteLines_suffix _ _ h3, noteLines_prefix _ _ h2]

theorem strip_strip (s : Str) : strip (strip s) = strip s := by
  apply strip_eq_self
  · intro c hc
    unfold strip at hc
    rcases hl : lstrip s with _ | ⟨x, xs⟩
    · rw [hl] at hc; cases hc
    · have hx : isSpace x = false := by
        have := List.head?_dropWhile_not isSpace s
        rw [show s.dropWhile isSpace = x :: xs from hl] at this
        simpa using this
      obtain ⟨t, h1, -⟩ := rstrip_split (lstrip s)
      rw [hl] at h1 hc
      rcases hr : rstrip (x :: xs) with _ | ⟨y, ys⟩
      · rw [hr] at hc; cases hc
      · rw [hr] at h1 hc
        rw [List.cons_append, List.cons.injEq] at h1
        simp only [List.head?_cons, Option.mem_def, Option.some.injEq] at hc
        rw [← hc, ← h1.1]; exact hx
  · intro c hc
    unfold strip rstrip at hc
    rw [List.getLast?_reverse] at hc
    have := List.head?_dropWhile_not isSpace (lstrip s).reverse
    rw [Option.mem_def] at hc
    rw [hc] at this
    simpa using this

/-- The lines are stripped, not empty, and have no line breaks. -/
theorem noteLines_mem {s l : Str} (h : l ∈ noteLines s) : strip l = l ∧ l ≠ [] ∧ '\n' ∉ l := by
  obtain ⟨h1, h2⟩ := List.mem_filter.1 h
  obtain ⟨p, hp, rfl⟩ := List.mem_map.1 h1
  refine ⟨strip_strip p, by simpa using h2, fun hn => ?_⟩
  obtain ⟨a, b, h3, -, -⟩ := strip_split p
  exact splitOn_not_mem '\n' s p hp (by rw [h3]; simp [hn])

/-- Putting lines together and taking them apart. -/
theorem noteLines_join (ls : List Str) (h : ∀ l ∈ ls, strip l = l ∧ l ≠ [] ∧ '\n' ∉ l) : noteLines (join ['\n'] ls) = ls := by
  by_cases hne : ls = []
  · subst hne; rfl
  · unfold noteLines
    rw [splitOn_join '\n' ls hne (fun l hl => (h l hl).2.2)]
    have h1 : ls.map strip = ls := by
      conv_rhs => rw [← List.map_id ls]
      exact List.map_congr_left fun l hl => (h l hl).1
    rw [h1, List.filter_eq_self]
    intro l hl
    simpa using (h l hl).2.1

end Verif
