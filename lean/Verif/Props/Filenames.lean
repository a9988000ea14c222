import Verif.Proofs.Filenames
/-! Properties C01-C06 of `filenames.py`. -/
namespace Verif.Props
open Verif Verif.Filenames Verif.Spec.Filenames

/-! ## C01 -/

/-- **C01.** A returned name, lower-cased, is not among the existing names. -/
theorem C01_fresh (L : Casing) (u pre suf r : Str) (existing : List Str)
    (h : userNameToFileName L u existing pre suf = .ok r) : L.lower r ∉ existing := by
  obtain ⟨_, _, h, _⟩ := userNameToFileName_cases h
  exact h

example : userNameToFileName asciiCasing c!"A.alt" [c!"a_.alt.glif", c!"a_.alt000000000000001.glif"] [] c!".glif"
    = .ok c!"A_.alt000000000000002.glif" := by decide +kernel

/-! ## C02 -/

/-- **C02 (partial).** With room for the clash counter, the returned name `prefix + g + suffix` is at most 255
characters longer than the number of components of `g` that had to be escaped with an underscore because they
are device names. Missing from the full claim: the bound 255 itself when there are such components;
`C02_length_refuted` shows it is false. -/
theorem C02_length_partial (L : Casing) (u pre suf r : Str) (existing : List Str)
    (hroom : pre.length + suf.length + 15 ≤ 255)
    (h : userNameToFileName L u existing pre suf = .ok r) :
    ∃ g, r = pre ++ g ++ suf ∧
      r.length ≤ 255 + ((splitOn '.' g).filter (EscapedReserved L)).length := by
  obtain ⟨v, hv, -, h⟩ := userNameToFileName_cases h
  rcases h with rfl | ⟨k, hk, rfl⟩ | ⟨k, h0, hk, rfl⟩
  · refine ⟨_, rfl, ?_⟩
    have h1 := length_pySliceTo_clip (v.flatMap (filterChar L)) pre suf (by omega)
    have h2 := length_fixReserved (L := L) (pySliceTo (v.flatMap (filterChar L)) ((maxFileNameLength : Int) - pre.length - suf.length))
    have h3 := escaped_count (L := L) (pySliceTo (v.flatMap (filterChar L)) ((maxFileNameLength : Int) - pre.length - suf.length))
    simp only [cleaned, List.length_append]
    omega
  · refine ⟨_, rfl, ?_⟩
    have h1 := length_clash1Name (cleaned L v pre suf) pre suf hroom
    have h2 : (zfill 15 (natRepr k)).length = 15 := zfill_length (natRepr_length_le (by omega) (by omega))
    simp only [List.length_append]
    omega
  · refine ⟨_, rfl, ?_⟩
    have hm : maxFileNameLength = 255 := rfl
    rw [hm] at h0 hk
    have hp : 10 ^ (255 - pre.length - suf.length) = 10 ^ (254 - pre.length - suf.length) * 10 := by
      rw [← Nat.pow_succ]; congr 1; omega
    have hp1 : 0 < 10 ^ (254 - pre.length - suf.length) := Nat.pow_pos (by omega)
    have h1 : (natRepr k).length ≤ 255 - pre.length - suf.length := natRepr_length_le h0 (by omega)
    simp only [List.length_append]
    omega

/-- **C02 (partial).** The name has at most 255 characters whenever no component of its generated part is an
escaped device name. -/
theorem C02_length_unescaped_partial (L : Casing) (u pre suf r : Str) (existing : List Str)
    (hroom : pre.length + suf.length + 15 ≤ 255)
    (h : userNameToFileName L u existing pre suf = .ok r)
    (hesc : ∀ g, r = pre ++ g ++ suf → ∀ q, Component ('_' :: q) g → ¬ Reserved L q) :
    r.length ≤ 255 := by
  obtain ⟨g, hg, hlen⟩ := C02_length_partial L u pre suf r existing hroom h
  have : (splitOn '.' g).filter (EscapedReserved L) = [] := by
    rw [List.filter_eq_nil_iff]
    intro p hp
    rcases p with _ | ⟨c, q⟩
    · simp [EscapedReserved]
    · by_cases hc : c = '_'
      · subst hc
        simp only [EscapedReserved, decide_eq_true_eq]
        exact hesc g hg q ((component_iff _ _).2 hp)
      · simp [EscapedReserved, hc]
  simp only [this, List.length_nil] at hlen
  omega

example : (c!"00000.".length + c!".glif".length + 15 ≤ 255) ∧
    userNameToFileName asciiCasing (List.replicate 300 'A') [] c!"00000." c!".glif"
      = .ok (c!"00000." ++ (List.replicate 122 c!"A_").flatten ++ c!".glif") := by decide +kernel

/-- **C02 refuted.** `"con.con. ... .con"` (64 components, 255 characters) becomes a name of 319 characters:
the clip to 255 happens before device names are escaped. -/
theorem C02_length_refuted :
    ∃ u r, userNameToFileName asciiCasing u [] [] [] = .ok r ∧ ¬ r.length ≤ 255 :=
  ⟨(List.replicate 63 c!"con.").flatten ++ c!"con", (List.replicate 63 c!"_con.").flatten ++ c!"_con", by decide +kernel⟩

/-! ## C03 -/

/-- **C03.** The generated part of a returned name contains no illegal character; without a prefix (and with a suffix
that leaves room for at least one character) it is not empty and does not start with a period. -/
theorem C03_legal (L : Casing) (u pre suf r : Str) (existing : List Str)
    (h : userNameToFileName L u existing pre suf = .ok r) :
    ∃ g, r = pre ++ g ++ suf ∧ (∀ c ∈ g, ¬ IllegalChar c) ∧
      (pre = [] → suf.length < 255 → ∃ c rest, r = c :: rest ∧ c ≠ '.') := by
  obtain ⟨v, hv, -, h⟩ := userNameToFileName_cases h
  have hdig : ∀ d : Str, (∀ c ∈ d, isDigit c = true) → d ≠ [] → ∀ s, ∃ c rest, d ++ s = c :: rest ∧ c ≠ '.' := by
    intro d hd hne s
    rcases d with _ | ⟨c, rest⟩
    · exact absurd rfl hne
    · refine ⟨c, rest ++ s, rfl, ?_⟩
      rintro rfl
      exact dot_not_digit hd (by simp)
  rcases h with rfl | ⟨k, hk, rfl⟩ | ⟨k, h0, hk, rfl⟩
  · refine ⟨_, rfl, fun c hc => ?_, ?_⟩
    · rw [← illegal_iff]; exact cleaned_legal v pre suf c hc
    · rintro rfl hs
      obtain ⟨e, s, he, hne⟩ := cleaned_head (L := L) hv hs
      exact ⟨e, s ++ suf, by simp [he], hne⟩
  · refine ⟨_, rfl, fun c hc => ?_, ?_⟩
    · rw [← illegal_iff]
      rw [List.mem_append] at hc
      rcases hc with hc | hc
      · obtain ⟨n, hn⟩ := clash1Name_eq_take (cleaned L v pre suf) pre suf
        rw [hn] at hc
        exact cleaned_legal v pre suf c (List.mem_of_mem_take hc)
      · exact digit_legal (zfill_digits (natRepr_digits k) c hc)
    · rintro rfl hs
      obtain ⟨e, s, he, hne⟩ := cleaned_head (L := L) hv hs
      obtain ⟨n, hn⟩ := clash1Name_eq_take (cleaned L v [] suf) [] suf
      rw [hn, he]
      cases n with
      | zero =>
        obtain ⟨c, rest, h1, h2⟩ := hdig _ (zfill_digits (w := 15) (natRepr_digits k)) (zfill_ne_nil (natRepr_ne_nil k)) suf
        exact ⟨c, rest, by simpa using h1, h2⟩
      | succ n => exact ⟨e, _, rfl, hne⟩
  · refine ⟨_, rfl, fun c hc => ?_, ?_⟩
    · rw [← illegal_iff]; exact digit_legal (natRepr_digits k c hc)
    · rintro rfl -
      obtain ⟨c, rest, h1, h2⟩ := hdig _ (natRepr_digits k) (natRepr_ne_nil k) suf
      exact ⟨c, rest, by simpa using h1, h2⟩

example : userNameToFileName asciiCasing c!".not/def" [] [] c!".glif" = .ok c!"_not_def.glif" := by decide +kernel

/-! ## C04 -/

/-- **C04.** No dot-separated component of the generated part of a returned name is a device name (ignoring case). -/
theorem C04_reserved (L : Casing) (hL : L.Lawful) (u pre suf r : Str) (existing : List Str)
    (h : userNameToFileName L u existing pre suf = .ok r) :
    ∃ g, r = pre ++ g ++ suf ∧ ∀ p, Component p g → ¬ Reserved L p := by
  obtain ⟨v, hv, -, h⟩ := userNameToFileName_cases h
  rcases h with rfl | ⟨k, hk, rfl⟩ | ⟨k, h0, hk, rfl⟩
  · refine ⟨_, rfl, fun p hp => ?_⟩
    rw [component_iff] at hp
    exact fixReserved_components hL _ p hp
  · refine ⟨_, rfl, fun p hp => ?_⟩
    rw [component_iff] at hp
    obtain ⟨n, hn⟩ := clash1Name_eq_take (cleaned L v pre suf) pre suf
    rw [hn] at hp
    refine clash_components hL _ (fixReserved_components hL _) n _ (zfill_digits (natRepr_digits k)) ?_ p hp
    rw [zfill_length (natRepr_length_le (by omega) (by omega))]
  · refine ⟨_, rfl, fun p hp => ?_⟩
    rw [component_iff, splitOn_of_not_mem _ _ (dot_not_digit (natRepr_digits k))] at hp
    simp only [List.mem_singleton] at hp
    subst hp
    exact not_reserved_allDigits hL _ (natRepr_digits k) (natRepr_ne_nil k)

/-- **C04, whole name.** With an empty or period-terminated prefix and an empty or period-started suffix, every component
of the whole name is a component of the prefix or suffix text or is not a device name. -/
theorem C04_reserved_whole (L : Casing) (hL : L.Lawful) (u pre suf r : Str) (existing : List Str)
    (hpre : pre = [] ∨ ∃ p, pre = p ++ ['.']) (hsuf : suf = [] ∨ ∃ s, suf = '.' :: s)
    (h : userNameToFileName L u existing pre suf = .ok r) (q : Str) (hq : Component q r) :
    Component q pre ∨ Component q suf ∨ ¬ Reserved L q := by
  obtain ⟨g, rfl, hg⟩ := C04_reserved L hL u pre suf r existing h
  simp only [component_iff] at hq hg ⊢
  have hl : (splitOn '.' pre).getLastD [] = [] := by
    rcases hpre with rfl | ⟨a', rfl⟩
    · rfl
    · rw [splitOn_append]; simp [splitOn]
  have hh : (splitOn '.' suf).headD [] = [] := by
    rcases hsuf with rfl | ⟨b', rfl⟩ <;> simp [splitOn]
  have hgs : splitOn '.' (g ++ suf) = splitOn '.' g ++ (splitOn '.' suf).tail := by
    rw [splitOn_append, hh, List.append_nil]
    have hne := splitOn_ne_nil '.' g
    rcases hs : splitOn '.' g with _ | ⟨a, as⟩
    · exact absurd hs hne
    · have := List.dropLast_concat_getLast (l := a :: as) (by simp)
      have h2 : (a :: as).getLastD [] = (a :: as).getLast (by simp) := by
        rw [List.getLastD_eq_getLast?, List.getLast?_eq_some_getLast (by simp)]; rfl
      rw [h2]
      calc (a :: as).dropLast ++ (a :: as).getLast (by simp) :: (splitOn '.' suf).tail
          = ((a :: as).dropLast ++ [(a :: as).getLast (by simp)]) ++ (splitOn '.' suf).tail := by simp
        _ = _ := by rw [this]
  rw [List.append_assoc, splitOn_append, hl, List.nil_append, hgs] at hq
  rcases hs : splitOn '.' g with _ | ⟨a, as⟩
  · exact absurd hs (splitOn_ne_nil _ _)
  · rw [hs] at hq hg
    simp only [List.cons_append, List.headD_cons, List.tail_cons, List.mem_append, List.mem_cons] at hq
    rcases hq with hq | rfl | hq | hq
    · exact .inl (List.dropLast_subset _ hq)
    · exact .inr (.inr (hg q (by simp)))
    · exact .inr (.inr (hg q (by simp [hq])))
    · exact .inr (.inl (List.mem_of_mem_tail hq))

example : asciiCasing.Lawful ∧
    userNameToFileName asciiCasing c!"alt.con.lpt1" [c!"glyphs.alt._con._lpt1"] c!"glyphs." [] = .ok c!"glyphs.alt._con._lpt1000000000000001" :=
  ⟨asciiCasing_lawful, by decide +kernel⟩

/-! ## C05 -/

/-- **C05.** For a non-empty name (or any name with a prefix) and fewer than 999999999999998 existing names, a file name
is returned; if there is a clash, the appended counter is at most `len(existing) + 1`. -/
theorem C05_succeeds (L : Casing) (hL : L.Lawful) (u pre suf : Str) (existing : List Str)
    (hu : u ≠ [] ∨ pre ≠ []) (hex : existing.length < 999999999999998) :
    ∃ r, userNameToFileName L u existing pre suf = .ok r ∧
      ∃ g, (r = pre ++ g ++ suf ∨
        ∃ k, 1 ≤ k ∧ k ≤ existing.length + 1 ∧ r = pre ++ (g ++ zfill 15 (natRepr k)) ++ suf) := by
  simp only [userNameToFileName]
  have hv : ∃ v, fixLeadingPeriod u pre = .ok v := by
    simp only [fixLeadingPeriod]
    split
    · next hp =>
      cases u with
      | nil => simp [hp] at hu
      | cons c rest => simp only; split <;> exact ⟨_, rfl⟩
    · exact ⟨u, rfl⟩
  obtain ⟨v, hv⟩ := hv
  rw [hv]
  simp only
  split
  · simp only [handleClash1]
    generalize hw : clash1Name _ pre suf = w
    split
    · next n hn =>
      obtain ⟨k, h1, h2, h3, h4, h5⟩ := clashLoop_some hn
      refine ⟨n, rfl, w, .inr ⟨k, h1, ?_, h3⟩⟩
      have := pigeonhole (existing := existing) (a := 1) (n := k - 1)
        (f := fun i => L.lower (pre ++ (w ++ zfill 15 (natRepr i)) ++ suf)) (clash1_inj hL pre w suf)
        (fun i hi hi2 => h5 i hi (by omega))
      omega
    · next hn =>
      have := pigeonhole (existing := existing) (a := 1) (n := 999999999999998)
        (f := fun i => L.lower (pre ++ (w ++ zfill 15 (natRepr i)) ++ suf)) (clash1_inj hL pre w suf)
        (fun i hi hi2 => clashLoop_none hn i hi hi2)
      omega
  · exact ⟨_, rfl, _, .inl rfl⟩

/-- **C05, boundary.** The empty name without a prefix raises `IndexError`. -/
theorem C05_empty (L : Casing) (suf : Str) (existing : List Str) :
    userNameToFileName L [] existing [] suf = .error .indexError := rfl

/-- When `existing` does contain every attempt, the outcome is an error, never a clashing name. -/
theorem C05_only_errors (L : Casing) (u pre suf : Str) (existing : List Str) (e : Exc)
    (h : userNameToFileName L u existing pre suf = .error e) :
    e = .indexError ∧ u = [] ∧ pre = [] ∨
      ((e = .valueError ∨ e = .nameTranslationError) ∧
        ∃ w, ∀ k, 1 ≤ k → k ≤ 999999999999998 → L.lower (pre ++ (w ++ zfill 15 (natRepr k)) ++ suf) ∈ existing) := by
  simp only [userNameToFileName] at h
  split at h
  · next e' he =>
    injection h with h; subst h
    left
    simp only [fixLeadingPeriod] at he
    split at he
    · next hp =>
      cases u with
      | nil => simp at he; exact ⟨he.symm, rfl, hp⟩
      | cons c rest => simp only at he; split at he <;> cases he
    · cases he
  · next v hv =>
    right
    split at h
    · simp only [handleClash1] at h
      split at h
      · cases h
      · next hn =>
        refine ⟨?_, ?_⟩
        · simp only [handleClash2] at h
          split at h
          · injection h with h; exact .inl h.symm
          · split at h
            · injection h with h; exact .inr h.symm
            · cases h
        · exact ⟨_, fun k h1 h2 => clashLoop_none hn k h1 (by omega)⟩
    · cases h

example : userNameToFileName asciiCasing c!"a" [c!"a", c!"a000000000000001", c!"a000000000000003"] [] []
    = .ok c!"a000000000000002" := by decide +kernel

/-! ## C06 -/

/-- Generating names one after another, adding each lower-cased result to the existing names (the way
`UFOWriter._getGlyphSetFormatVersion3` and `renameGlyphSet` call it, `__init__.py` 1450-1462, 1494-1500). -/
def assignAll (L : Casing) (pre suf : Str) : List Str → List Str → Except Exc (List Str)
  | _, [] => .ok []
  | existing, u :: us =>
    match userNameToFileName L u existing pre suf with
    | .error e => .error e
    | .ok r =>
      match assignAll L pre suf (L.lower r :: existing) us with
      | .error e => .error e
      | .ok rs => .ok (r :: rs)

/-- **C06.** Names assigned one after another are pairwise different ignoring case, and different from all names that
existed before. -/
theorem C06_history (L : Casing) (pre suf : Str) (us : List Str) (existing : List Str) (rs : List Str)
    (h : assignAll L pre suf existing us = .ok rs) :
    rs.length = us.length ∧ rs.Pairwise (fun a b => ¬ SameFile L a b) ∧ ∀ r ∈ rs, L.lower r ∉ existing := by
  induction us generalizing existing rs with
  | nil => simp only [assignAll] at h; injection h with h; subst h; simp
  | cons u us ih =>
    simp only [assignAll] at h
    split at h
    · cases h
    · next r hr =>
      split at h
      · cases h
      · next rs' hrs =>
        injection h with h; subst h
        obtain ⟨h1, h2, h3⟩ := ih _ _ hrs
        refine ⟨by simp [h1], ?_, ?_⟩
        · rw [List.pairwise_cons]
          refine ⟨fun b hb hab => ?_, h2⟩
          have := h3 b hb
          simp only [List.mem_cons, not_or] at this
          exact this.1 hab.symm
        · intro x hx
          rw [List.mem_cons] at hx
          rcases hx with rfl | hx
          · exact C01_fresh L u pre suf x existing hr
          · have := h3 x hx
            simp only [List.mem_cons, not_or] at this
            exact this.2

example : assignAll asciiCasing c!"glyphs." [] [] [c!"A", c!"a_", c!"A*", c!"a"]
    = .ok [c!"glyphs.A_", c!"glyphs.a_000000000000001", c!"glyphs.A__", c!"glyphs.a"] := by decide +kernel

end Verif.Props
