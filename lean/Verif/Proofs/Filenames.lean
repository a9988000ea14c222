import Verif.Model.Filenames
import Verif.Spec.Filenames
import Verif.Proofs.Str
import Mathlib.Data.List.Perm.Subperm
import Mathlib.Data.List.Nodup
import Mathlib.Data.List.Range
/-! Lemmas about the file name model. -/
namespace Verif.Filenames
open Verif Verif.Spec.Filenames

variable {L : Casing}

/-! ### the clash loop -/

theorem clashLoop_some {existing : List Str} {mk : Nat → Str} {tries counter : Nat} {r : Str}
    (h : clashLoop L existing mk tries counter = some r) :
    ∃ k, counter ≤ k ∧ k < counter + tries ∧ r = mk k ∧ L.lower r ∉ existing ∧
      ∀ i, counter ≤ i → i < k → L.lower (mk i) ∈ existing := by
  induction tries generalizing counter with
  | zero => simp [clashLoop] at h
  | succ n ih =>
    simp only [clashLoop] at h
    split at h
    · next hin =>
      obtain ⟨k, h1, h2, h3, h4, h5⟩ := ih h
      refine ⟨k, by omega, by omega, h3, h4, fun i hi hk => ?_⟩
      rcases Nat.eq_or_lt_of_le hi with rfl | hlt
      · exact hin
      · exact h5 i hlt hk
    · next hin =>
      injection h with h
      subst h
      exact ⟨counter, by omega, by omega, rfl, hin, fun i hi hk => by omega⟩

theorem clashLoop_none {existing : List Str} {mk : Nat → Str} {tries counter : Nat}
    (h : clashLoop L existing mk tries counter = none) :
    ∀ i, counter ≤ i → i < counter + tries → L.lower (mk i) ∈ existing := by
  induction tries generalizing counter with
  | zero => intro i h1 h2; omega
  | succ n ih =>
    simp only [clashLoop] at h
    split at h
    · next hin =>
      intro i h1 h2
      rcases Nat.eq_or_lt_of_le h1 with rfl | hlt
      · exact hin
      · exact ih h i hlt (by omega)
    · cases h

/-- `n` different values inside a list need a list of length at least `n`. -/
theorem pigeonhole {existing : List Str} {f : Nat → Str} {a n : Nat}
    (hinj : ∀ i j, f i = f j → i = j) (h : ∀ i, a ≤ i → i < a + n → f i ∈ existing) : n ≤ existing.length := by
  have hnd : ((List.range' a n).map f).Nodup :=
    List.Nodup.map (fun i j h => hinj i j h) (List.nodup_range')
  have hsub : ((List.range' a n).map f) ⊆ existing := by
    intro x hx
    simp only [List.mem_map, List.mem_range'_1] at hx
    obtain ⟨i, ⟨h1, h2⟩, rfl⟩ := hx
    exact h i h1 h2
  simpa using (hnd.subperm hsub).length_le

theorem clash1_inj (hL : L.Lawful) (pre u suf : Str) :
    ∀ i j, L.lower (pre ++ (u ++ zfill 15 (natRepr i)) ++ suf) = L.lower (pre ++ (u ++ zfill 15 (natRepr j)) ++ suf) → i = j := by
  intro i j h
  have e : ∀ k, L.lower (pre ++ (u ++ zfill 15 (natRepr k)) ++ suf) = L.lower (pre ++ u) ++ zfill 15 (natRepr k) ++ L.lower suf := by
    intro k
    rw [← hL.lower_digits _ (zfill_digits (natRepr_digits k)) (zfill_ne_nil (natRepr_ne_nil k))]
    simp
  rw [e, e] at h
  exact zfill_natRepr_injective (List.append_cancel_left (List.append_cancel_right h))

/-! ### shapes of the result -/

/-- The user name after filtering, clipping and reserved-part handling. -/
def cleaned (L : Casing) (u pre suf : Str) : Str :=
  fixReserved L (pySliceTo (u.flatMap (filterChar L)) ((maxFileNameLength : Int) - pre.length - suf.length))

theorem userNameToFileName_cases {u pre suf r : Str} {existing : List Str}
    (h : userNameToFileName L u existing pre suf = .ok r) :
    ∃ v, fixLeadingPeriod u pre = .ok v ∧ L.lower r ∉ existing ∧
      (r = pre ++ cleaned L v pre suf ++ suf ∨
       (∃ k, k < 999999999999999 ∧ r = pre ++ (clash1Name (cleaned L v pre suf) pre suf ++ zfill 15 (natRepr k)) ++ suf) ∨
       (∃ k, 0 < maxFileNameLength - pre.length - suf.length ∧
          k < 1 + max 1 (10 ^ (maxFileNameLength - pre.length - suf.length) - 1 - 1) ∧ r = pre ++ natRepr k ++ suf)) := by
  simp only [userNameToFileName] at h
  split at h
  · cases h
  · next v hv =>
    refine ⟨v, hv, ?_⟩
    change (if L.lower (pre ++ cleaned L v pre suf ++ suf) ∈ existing then _ else _) = _ at h
    split at h
    · simp only [handleClash1] at h
      change (match clashLoop L existing (fun counter => pre ++ (clash1Name (cleaned L v pre suf) pre suf ++ zfill 15 (natRepr counter)) ++ suf) 999999999999998 1 with
        | some n => Except.ok n
        | none => handleClash2 L existing pre suf) = _ at h
      split at h
      · next n hn =>
        injection h with h; subst h
        obtain ⟨k, h1, h2, h3, h4, -⟩ := clashLoop_some hn
        exact ⟨h4, .inr (.inl ⟨k, by omega, h3⟩)⟩
      · simp only [handleClash2] at h
        split at h
        · cases h
        · next hml =>
          split at h
          · cases h
          · next n hn =>
            injection h with h; subst h
            obtain ⟨k, h1, h2, h3, h4, -⟩ := clashLoop_some hn
            exact ⟨h4, .inr (.inr ⟨k, by omega, h2, h3⟩)⟩
    · next hnin =>
      injection h with h; subst h
      exact ⟨hnin, .inl rfl⟩

/-! ### characters -/

theorem illegal_iff (c : Char) : c ∈ illegalCharacters ↔ IllegalChar c := by
  have key : ∀ n : Fin 128, Char.ofNat n.val ∈ illegalCharacters ↔ IllegalChar (Char.ofNat n.val) := by
    unfold IllegalChar; decide
  constructor
  · intro h
    have hlt : c.toNat < 128 := by
      have hall : ∀ d ∈ illegalCharacters, d.toNat < 128 := by decide
      exact hall c h
    have := (key ⟨c.toNat, hlt⟩)
    rw [Char.ofNat_toNat] at this
    exact this.1 h
  · intro h
    have hlt : c.toNat < 128 := by
      rcases h with h | h | h
      · omega
      · omega
      · rcases h with rfl | rfl | rfl | rfl | rfl | rfl | rfl | rfl | rfl | rfl | rfl | rfl <;> decide
    have := (key ⟨c.toNat, hlt⟩)
    rw [Char.ofNat_toNat] at this
    exact this.2 h

theorem underscore_legal : '_' ∉ illegalCharacters := by decide
theorem dot_legal : '.' ∉ illegalCharacters := by decide

theorem digit_legal {c : Char} (h : isDigit c = true) : c ∉ illegalCharacters := by
  intro hc
  have hall : ∀ d ∈ illegalCharacters, isDigit d = false := by decide
  rw [hall c hc] at h; cases h

theorem filterChar_legal (c : Char) : ∀ x ∈ filterChar L c, x ∉ illegalCharacters := by
  intro x hx
  simp only [filterChar] at hx
  split at hx
  · simp only [List.mem_singleton] at hx; subst hx; exact underscore_legal
  · next hc =>
    split at hx
    · simp only [List.mem_cons, List.not_mem_nil, or_false] at hx
      rcases hx with rfl | rfl
      · exact hc
      · exact underscore_legal
    · simp only [List.mem_singleton] at hx; subst hx; exact hc

theorem mem_of_mem_pySliceTo {s : Str} {k : Int} {x : Char} (h : x ∈ pySliceTo s k) : x ∈ s := by
  simp only [pySliceTo] at h
  split at h <;> exact List.mem_of_mem_take h

theorem pySliceTo_eq_take (s : Str) (k : Int) : ∃ n, pySliceTo s k = s.take n := by
  simp only [pySliceTo]
  split <;> exact ⟨_, rfl⟩

theorem fixReserved_mem {s : Str} {x : Char} (h : x ∈ fixReserved L s) : x = '.' ∨ x = '_' ∨ x ∈ s := by
  rcases mem_join h with h | ⟨p, hp, hx⟩
  · left; simpa using h
  · simp only [List.mem_map] at hp
    obtain ⟨q, hq, rfl⟩ := hp
    split at hx
    · simp only [List.mem_cons] at hx
      rcases hx with rfl | hx
      · exact .inr (.inl rfl)
      · exact .inr (.inr (mem_splitOn hq hx))
    · exact .inr (.inr (mem_splitOn hq hx))

theorem cleaned_legal (u pre suf : Str) : ∀ x ∈ cleaned L u pre suf, x ∉ illegalCharacters := by
  intro x hx
  rcases fixReserved_mem hx with rfl | rfl | hx
  · exact dot_legal
  · exact underscore_legal
  · have := mem_of_mem_pySliceTo hx
    simp only [List.mem_flatMap] at this
    obtain ⟨c, -, hx⟩ := this
    exact filterChar_legal c x hx

theorem clash1Name_eq_take (u pre suf : Str) : ∃ n, clash1Name u pre suf = u.take n := by
  simp only [clash1Name]
  split
  · exact pySliceTo_eq_take _ _
  · exact ⟨u.length, by simp⟩

/-! ### leading period -/

theorem fixLeadingPeriod_head {u v : Str} (h : fixLeadingPeriod u [] = .ok v) : ∃ c rest, v = c :: rest ∧ c ≠ '.' := by
  simp only [fixLeadingPeriod, if_true] at h
  cases u with
  | nil => cases h
  | cons c rest =>
    simp only at h
    split at h
    · injection h with h; subst h; exact ⟨'_', rest, rfl, by decide⟩
    · next hc => injection h with h; subst h; exact ⟨c, rest, rfl, hc⟩

theorem filter_head {c : Char} (rest : Str) (hc : c ≠ '.') :
    ∃ d r, (c :: rest).flatMap (filterChar L) = d :: r ∧ d ≠ '.' := by
  simp only [List.flatMap_cons, filterChar]
  split
  · exact ⟨'_', _, rfl, by decide⟩
  · split
    · exact ⟨c, _, rfl, hc⟩
    · exact ⟨c, _, rfl, hc⟩

theorem fixReserved_head {d : Char} {r : Str} (hd : d ≠ '.') : ∃ e s, fixReserved L (d :: r) = e :: s ∧ e ≠ '.' := by
  have hsp : ∃ p ps, splitOn '.' (d :: r) = (d :: p) :: ps := by
    simp only [splitOn, if_neg hd]
    split
    · exact ⟨[], [], rfl⟩
    · exact ⟨_, _, rfl⟩
  obtain ⟨p, ps, hsp⟩ := hsp
  have key : ∀ (x : Char) (q : Str) (qs : List Str), ∃ s, join ['.'] ((x :: q) :: qs) = x :: s := by
    intro x q qs
    cases qs with
    | nil => exact ⟨q, rfl⟩
    | cons _ _ => exact ⟨_, rfl⟩
  simp only [fixReserved, hsp, List.map_cons]
  split
  · obtain ⟨s, hs⟩ := key '_' (d :: p) (ps.map fun part => if L.lower part ∈ reservedFileNames then '_' :: part else part)
    exact ⟨'_', s, hs, by decide⟩
  · obtain ⟨s, hs⟩ := key d p (ps.map fun part => if L.lower part ∈ reservedFileNames then '_' :: part else part)
    exact ⟨d, s, hs, hd⟩

theorem cleaned_head {u v suf : Str} (h : fixLeadingPeriod u [] = .ok v) (hs : suf.length < 255) :
    ∃ e s, cleaned L v [] suf = e :: s ∧ e ≠ '.' := by
  obtain ⟨c, rest, rfl, hc⟩ := fixLeadingPeriod_head h
  obtain ⟨d, r, hf, hd⟩ := filter_head (L := L) rest hc
  simp only [cleaned, hf, pySliceTo]
  rw [if_pos (by simp [maxFileNameLength]; omega)]
  obtain ⟨n, hn⟩ : ∃ n, (((maxFileNameLength : Nat) : Int) - (([] : Str).length : Nat) - (suf.length : Nat)).toNat = n + 1 :=
    ⟨254 - suf.length, by simp [maxFileNameLength]; omega⟩
  rw [hn, List.take_succ_cons]
  exact fixReserved_head hd

/-! ### components -/

theorem component_iff (p s : Str) : Component p s ↔ p ∈ splitOn '.' s := by
  constructor
  · rintro ⟨hp, a, b, rfl, ha, hb⟩
    have h1 : ∀ b, (b = [] ∨ ∃ b', b = '.' :: b') → (splitOn '.' b).headD [] = [] := by
      rintro b (rfl | ⟨b', rfl⟩) <;> simp [splitOn]
    have hl : ∀ a, (a = [] ∨ ∃ a', a = a' ++ ['.']) → (splitOn '.' a).getLastD [] = [] := by
      rintro a (rfl | ⟨a', rfl⟩)
      · rfl
      · rw [splitOn_append]; simp [splitOn]
    rw [List.append_assoc, splitOn_append, splitOn_append, splitOn_of_not_mem _ _ hp, hl a ha]
    have := h1 b hb
    rcases hs : splitOn '.' b with _ | ⟨q, qs⟩
    · exact absurd hs (splitOn_ne_nil _ _)
    · rw [hs] at this; simp at this; simp [this]
  · intro h
    refine ⟨splitOn_not_mem _ _ p h, ?_⟩
    have hj := join_splitOn '.' s
    generalize splitOn '.' s = ps at h hj
    subst hj
    induction ps with
    | nil => simp at h
    | cons q qs ih =>
      cases qs with
      | nil => simp at h; subst h; exact ⟨[], [], by simp [join], .inl rfl, .inl rfl⟩
      | cons r rs =>
        rw [List.mem_cons] at h
        rcases h with rfl | h
        · exact ⟨[], '.' :: join ['.'] (r :: rs), by simp [join], .inl rfl, .inr ⟨_, rfl⟩⟩
        · obtain ⟨a, b, e, ha, hb⟩ := ih h
          refine ⟨q ++ ['.'] ++ a, b, by simp [join, e], .inr ?_, hb⟩
          rcases ha with rfl | ⟨a', rfl⟩
          · exact ⟨q, by simp⟩
          · exact ⟨q ++ ['.'] ++ a', by simp⟩

theorem reserved_iff (p : Str) : L.lower p ∈ reservedFileNames ↔ Reserved L p := by
  have h : ∀ x : Str, x ∈ reservedFileNames ↔ x ∈ deviceNames := by
    intro x; simp only [reservedFileNames, deviceNames, List.mem_cons, List.not_mem_nil, or_false]; tauto
  exact h _

theorem not_reserved_underscore (hL : L.Lawful) (p : Str) : ¬ Reserved L ('_' :: p) := by
  have h := hL.lower_sep [] p '_' (.inl rfl)
  simp only [List.nil_append, hL.lower_nil] at h
  rw [Reserved, h]
  simp [deviceNames]

/-- A name containing fifteen digits in a row is not a device name. -/
theorem not_reserved_digits (hL : L.Lawful) (a d b : Str) (hd : ∀ c ∈ d, isDigit c = true) (hlen : 15 ≤ d.length) :
    ¬ Reserved L (a ++ d ++ b) := by
  rw [Reserved, hL.lower_digits d hd (by rintro rfl; simp at hlen)]
  intro h
  have hall : ∀ x ∈ deviceNames, x.length < 15 := by decide
  have := hall _ h
  simp at this; omega

theorem not_reserved_allDigits (hL : L.Lawful) (d : Str) (hd : ∀ c ∈ d, isDigit c = true) (hne : d ≠ []) :
    ¬ Reserved L d := by
  have := hL.lower_digits d hd hne [] []
  simp only [List.nil_append, List.append_nil, hL.lower_nil] at this
  rw [Reserved, this]
  intro h
  have hall : ∀ x ∈ deviceNames, ¬ (∀ c ∈ x, isDigit c = true) := by decide
  exact hall _ h hd

theorem splitOn_fixReserved (s : Str) :
    splitOn '.' (fixReserved L s) =
      (splitOn '.' s).map fun part => if L.lower part ∈ reservedFileNames then '_' :: part else part := by
  apply splitOn_join
  · simp [splitOn_ne_nil]
  · intro p hp
    simp only [List.mem_map] at hp
    obtain ⟨q, hq, rfl⟩ := hp
    have := splitOn_not_mem '.' s q hq
    split
    · simp [this]
    · exact this

theorem fixReserved_components (hL : L.Lawful) (s : Str) : ∀ p ∈ splitOn '.' (fixReserved L s), ¬ Reserved L p := by
  intro p hp
  rw [splitOn_fixReserved, List.mem_map] at hp
  obtain ⟨q, -, rfl⟩ := hp
  split
  · exact not_reserved_underscore hL q
  · next h => exact fun hr => h ((reserved_iff q).2 hr)

theorem dot_not_digit {d : Str} (hd : ∀ c ∈ d, isDigit c = true) : '.' ∉ d := fun h => by
  have := hd _ h; revert this; decide

/-- Components of a prefix of a string: all but the last one are components of the string. -/
theorem splitOn_take_dropLast (s : Str) (n : Nat) :
    ∀ p ∈ (splitOn '.' (s.take n)).dropLast, p ∈ splitOn '.' s := by
  intro p hp
  have := splitOn_append '.' (s.take n) (s.drop n)
  rw [List.take_append_drop] at this
  rw [this]
  simp [hp]

theorem clash_components (hL : L.Lawful) (s : Str) (hs : ∀ p ∈ splitOn '.' s, ¬ Reserved L p) (n : Nat) (d : Str)
    (hd : ∀ c ∈ d, isDigit c = true) (hlen : 15 ≤ d.length) :
    ∀ p ∈ splitOn '.' (s.take n ++ d), ¬ Reserved L p := by
  intro p hp
  rw [splitOn_append, splitOn_of_not_mem _ _ (dot_not_digit hd)] at hp
  simp only [List.tail_cons, List.mem_append, List.mem_singleton, List.headD_cons] at hp
  rcases hp with hp | rfl
  · exact hs p (splitOn_take_dropLast s n p hp)
  · have := not_reserved_digits hL ((splitOn '.' (s.take n)).getLastD []) d [] hd hlen
    simpa using this

/-! ### lengths -/

theorem length_fixReserved (s : Str) :
    (fixReserved L s).length = s.length + ((splitOn '.' s).filter fun p => decide (Reserved L p)).length := by
  have hs := length_join_singleton '.' (splitOn '.' s)
  rw [join_splitOn] at hs
  rw [fixReserved, length_join_singleton, hs]
  generalize splitOn '.' s = ps
  have : ∀ ps : List Str, ((ps.map fun part => if L.lower part ∈ reservedFileNames then '_' :: part else part).map List.length).sum
      = (ps.map List.length).sum + (ps.filter fun p => decide (Reserved L p)).length := by
    intro ps
    induction ps with
    | nil => rfl
    | cons p ps ih =>
      by_cases h : Reserved L p
      · have h' := (reserved_iff p).2 h
        simp only [List.map_cons, List.sum_cons, ih, if_pos h', List.filter_cons, decide_eq_true h, if_true, List.length_cons]
        omega
      · have h' := fun x => h ((reserved_iff p).1 x)
        simp only [List.map_cons, List.sum_cons, ih, if_neg h', List.filter_cons, decide_eq_false h]
        simp; omega
  rw [this]
  simp
  omega

theorem escaped_count (s : Str) :
    ((splitOn '.' s).filter fun p => decide (Reserved L p)).length ≤
      ((splitOn '.' (fixReserved L s)).filter (EscapedReserved L)).length := by
  rw [splitOn_fixReserved]
  generalize splitOn '.' s = ps
  induction ps with
  | nil => simp
  | cons p ps ih =>
    by_cases h : Reserved L p
    · have h' := (reserved_iff p).2 h
      have he : EscapedReserved L ('_' :: p) = true := by simp [EscapedReserved, h]
      simp only [List.map_cons, if_pos h', List.filter_cons, decide_eq_true h, if_true, he, List.length_cons]
      omega
    · have h' := fun x => h ((reserved_iff p).1 x)
      rw [List.map_cons, if_neg h', List.filter_cons, if_neg (by simp [h])]
      exact Nat.le_trans ih (by rw [List.filter_cons]; split <;> simp)

theorem length_pySliceTo_clip (s : Str) (pre suf : Str) (h : pre.length + suf.length ≤ 255) :
    (pySliceTo s ((maxFileNameLength : Int) - pre.length - suf.length)).length ≤ 255 - pre.length - suf.length := by
  have hm : maxFileNameLength = 255 := rfl
  simp only [pySliceTo]
  rw [if_pos (by omega)]
  simp; omega

theorem length_clash1Name (u pre suf : Str) (h : pre.length + suf.length + 15 ≤ 255) :
    pre.length + (clash1Name u pre suf).length + suf.length + 15 ≤ 255 := by
  have hm : maxFileNameLength = 255 := rfl
  simp only [clash1Name]
  split
  · simp only [pySliceTo]
    rw [if_neg (by omega)]
    simp; omega
  · omega

end Verif.Filenames
