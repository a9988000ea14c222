import Verif.Proofs.Validators
/-! Lemmas about `openTypeHeadCreated`. -/
namespace Verif.Validators
open Verif Verif.Spec.Validators Verif.Spec.Plist

/-- The text of the parts. -/
def headText (ys ms ds hs mis ss : Str) : Str := ys ++ '/' :: (ms ++ '/' :: (ds ++ ' ' :: (hs ++ ':' :: (mis ++ ':' :: ss))))

theorem splitOn_two {c : Char} {s a b : Str} (h : splitOn c s = [a, b]) : s = a ++ c :: b ∧ c ∉ a ∧ c ∉ b := by
  have h1 := join_splitOn c s
  have h2 := splitOn_not_mem c s
  rw [h] at h1 h2
  exact ⟨by rw [← h1]; simp [join], h2 a (by simp), h2 b (by simp)⟩

theorem splitOn_three {c : Char} {s a b d : Str} (h : splitOn c s = [a, b, d]) : s = a ++ c :: (b ++ c :: d) ∧ c ∉ a ∧ c ∉ b ∧ c ∉ d := by
  have h1 := join_splitOn c s
  have h2 := splitOn_not_mem c s
  rw [h] at h1 h2
  exact ⟨by rw [← h1]; simp [join], h2 a (by simp), h2 b (by simp), h2 d (by simp)⟩

theorem splitOn_eq_three {c : Char} {s a b d : Str} : splitOn c s = [a, b, d] ↔ s = a ++ c :: (b ++ c :: d) ∧ c ∉ a ∧ c ∉ b ∧ c ∉ d := by
  constructor
  · exact splitOn_three
  · rintro ⟨rfl, h1, h2, h3⟩
    rw [splitOn_append_sep _ _ _ h1, splitOn_append_sep _ _ _ h2, splitOn_of_not_mem _ _ h3]

/-- The date part is well formed. -/
structure DateParts (py38 : Bool) (ys ms ds : Str) : Prop where
  len : ys.length = 4 ∧ ms.length = 2 ∧ ds.length = 2
  value : ∃ y m d mx, pyInt ys = some y ∧ pyInt ms = some m ∧ pyInt ds = some d ∧ 1 ≤ m ∧ m ≤ 12 ∧ monthMaxDay py38 y m = .ok mx ∧ 1 ≤ d ∧ d ≤ mx

/-- The time part is well formed. -/
structure TimeParts (hs mis ss : Str) : Prop where
  len : hs.length = 2 ∧ mis.length = 2 ∧ ss.length = 2
  value : ∃ h mi s, pyInt hs = some h ∧ pyInt mis = some mi ∧ pyInt ss = some s ∧ 0 ≤ h ∧ h ≤ 23 ∧ 0 ≤ mi ∧ mi ≤ 59 ∧ 0 ≤ s ∧ s ≤ 59

theorem headDate_parts {py38 : Bool} {date : Str} (h : headDate py38 date = .ok true) : ∃ ys ms ds, splitOn '/' date = [ys, ms, ds] ∧ DateParts py38 ys ms ds := by
  unfold headDate at h
  split at h
  · next year month day hd =>
    split at h; · cases h
    next l1 =>
    split at h; · cases h
    next l2 =>
    split at h; · cases h
    next l3 =>
    split at h
    · next y m d hy hm hdd =>
      split at h; · cases h
      next r1 =>
      split at h
      · cases h
      · next mx hmx =>
        split at h; · cases h
        next r2 =>
        exact ⟨year, month, day, hd, ⟨not_not.1 l1, not_not.1 l2, not_not.1 l3⟩, y, m, d, mx, hy, hm, hdd, by omega, by omega, hmx, by omega, by omega⟩
    · cases h
  · cases h

theorem headDate_of_parts {py38 : Bool} {date ys ms ds : Str} (hd : splitOn '/' date = [ys, ms, ds]) (h : DateParts py38 ys ms ds) : headDate py38 date = .ok true := by
  obtain ⟨⟨l1, l2, l3⟩, y, m, d, mx, hy, hm, hdd, r1, r2, hmx, r3, r4⟩ := h
  unfold headDate
  simp only [hd, l1, l2, l3, ne_eq, not_true_eq_false, if_false, hy, hm, hdd, hmx]
  rw [if_neg (by omega), if_neg (by omega)]

theorem headTime_parts {time : Str} (h : headTime time = .ok true) : ∃ hs mis ss, splitOn ':' time = [hs, mis, ss] ∧ TimeParts hs mis ss := by
  unfold headTime at h
  split at h
  · next hour minute second ht =>
    split at h; · cases h
    next l4 =>
    split at h; · cases h
    next l5 =>
    split at h; · cases h
    next l6 =>
    split at h
    · next hh mi s e1 e2 e3 =>
      split at h; · cases h
      next r3 =>
      split at h; · cases h
      next r4 =>
      split at h; · cases h
      next r5 =>
      exact ⟨hour, minute, second, ht, ⟨not_not.1 l4, not_not.1 l5, not_not.1 l6⟩, hh, mi, s, e1, e2, e3, by omega, by omega, by omega, by omega, by omega, by omega⟩
    · cases h
  · cases h

theorem headTime_of_parts {time hs mis ss : Str} (ht : splitOn ':' time = [hs, mis, ss]) (h : TimeParts hs mis ss) : headTime time = .ok true := by
  obtain ⟨⟨l1, l2, l3⟩, hh, mi, s, e1, e2, e3, t1, t2, t3, t4, t5, t6⟩ := h
  unfold headTime
  simp only [ht, l1, l2, l3, ne_eq, not_true_eq_false, if_false, e1, e2, e3]
  rw [if_neg (by omega), if_neg (by omega), if_neg (by omega)]

theorem count_of_splitOn {c : Char} {s : Str} {l : List Str} (h : splitOn c s = l) : s.count c + 1 = l.length := by
  rw [← h, splitOn_length]

theorem headCreated_parts {py38 : Bool} {v : PyVal} (h : headCreatedValidator py38 v = .ok true) :
    ∃ ys ms ds hs mis ss, v = .str (headText ys ms ds hs mis ss) ∧ DateParts py38 ys ms ds ∧ TimeParts hs mis ss ∧
      ' ' ∉ ys ++ ms ++ ds ++ hs ++ mis ++ ss ∧ '/' ∉ ys ++ ms ++ ds ∧ ':' ∉ hs ++ mis ++ ss := by
  unfold headCreatedValidator at h
  split at h
  · next value =>
    split at h; · cases h
    split at h; · cases h
    split at h
    · next date time hsp =>
      split at h; · cases h
      split at h; · cases h
      split at h
      · cases h
      · cases h
      · next hdt =>
        obtain ⟨ys, ms, ds, hd, hdp⟩ := headDate_parts hdt
        obtain ⟨hs, mis, ss, ht, htp⟩ := headTime_parts h
        obtain ⟨hv, n1, n2⟩ := splitOn_two hsp
        obtain ⟨rfl, s1, s2, s3⟩ := splitOn_three hd
        obtain ⟨rfl, c1, c2, c3⟩ := splitOn_three ht
        simp only [List.mem_append, List.mem_cons, not_or] at n1 n2
        refine ⟨ys, ms, ds, hs, mis, ss, ?_, hdp, htp, ?_, ?_, ?_⟩
        · rw [hv, headText]; simp
        · simp only [List.mem_append, not_or]
          exact ⟨⟨⟨⟨⟨n1.1, n1.2.2.1⟩, n1.2.2.2.2⟩, n2.1⟩, n2.2.2.1⟩, n2.2.2.2.2⟩
        · simp [s1, s2, s3]
        · simp [c1, c2, c3]
    · cases h
  · cases h

theorem headCreated_of_parts {py38 : Bool} {ys ms ds hs mis ss : Str} (hd : DateParts py38 ys ms ds) (ht : TimeParts hs mis ss)
    (hspace : ' ' ∉ ys ∧ ' ' ∉ ms ∧ ' ' ∉ ds ∧ ' ' ∉ hs ∧ ' ' ∉ mis ∧ ' ' ∉ ss) (hslash : '/' ∉ ys ∧ '/' ∉ ms ∧ '/' ∉ ds)
    (hcolon : ':' ∉ hs ∧ ':' ∉ mis ∧ ':' ∉ ss) : headCreatedValidator py38 (.str (headText ys ms ds hs mis ss)) = .ok true := by
  obtain ⟨n1, n2, n3, n4, n5, n6⟩ := hspace
  have hsp : splitOn ' ' (headText ys ms ds hs mis ss) = [ys ++ '/' :: (ms ++ '/' :: ds), hs ++ ':' :: (mis ++ ':' :: ss)] := by
    have : headText ys ms ds hs mis ss = (ys ++ '/' :: (ms ++ '/' :: ds)) ++ ' ' :: (hs ++ ':' :: (mis ++ ':' :: ss)) := by simp [headText]
    rw [this, splitOn_append_sep, splitOn_of_not_mem]
    · simp [n4, n5, n6]
    · simp [n1, n2, n3]
  have hdate := splitOn_eq_three.2 ⟨rfl, hslash⟩
  have htime := splitOn_eq_three.2 ⟨rfl, hcolon⟩
  have k1 := count_of_splitOn hsp
  have k2 := count_of_splitOn hdate
  have k3 := count_of_splitOn htime
  have hlen : (headText ys ms ds hs mis ss).length = 19 := by simp [headText, hd.len, ht.len]
  simp only [List.length_cons, List.length_nil] at k1 k2 k3
  unfold headCreatedValidator
  simp only [hlen, ne_eq, not_true_eq_false, if_false, hsp, headDate_of_parts hdate hd, headTime_of_parts htime ht]
  rw [if_neg (by omega), if_neg (by omega), if_neg (by omega)]

theorem headDate_total {date : Str} (h : date.count '/' = 2) : ∃ b, headDate true date = .ok b := by
  unfold headDate
  split
  · split; · exact ⟨_, rfl⟩
    split; · exact ⟨_, rfl⟩
    split; · exact ⟨_, rfl⟩
    split
    · split; · exact ⟨_, rfl⟩
      split
      · next e he => rw [monthMaxDay, if_neg (by simp)] at he; cases he
      · split <;> exact ⟨_, rfl⟩
    · exact ⟨_, rfl⟩
  · next hn =>
    have hl := splitOn_length '/' date
    rw [h] at hl
    obtain ⟨a, b, c, e⟩ := List.length_eq_three.1 hl
    exact absurd e (hn a b c)

theorem headTime_total {time : Str} (h : time.count ':' = 2) : ∃ b, headTime time = .ok b := by
  unfold headTime
  split
  · split; · exact ⟨_, rfl⟩
    split; · exact ⟨_, rfl⟩
    split; · exact ⟨_, rfl⟩
    split
    · split; · exact ⟨_, rfl⟩
      split; · exact ⟨_, rfl⟩
      split <;> exact ⟨_, rfl⟩
    · exact ⟨_, rfl⟩
  · next hn =>
    have hl := splitOn_length ':' time
    rw [h] at hl
    obtain ⟨a, b, c, e⟩ := List.length_eq_three.1 hl
    exact absurd e (hn a b c)

theorem headCreated_total (v : PyVal) : ∃ b, headCreatedValidator true v = .ok b := by
  unfold headCreatedValidator
  split
  · next value =>
    split; · exact ⟨_, rfl⟩
    split; · exact ⟨_, rfl⟩
    next hc =>
    split
    · split; · exact ⟨_, rfl⟩
      next hs =>
      split; · exact ⟨_, rfl⟩
      next hcl =>
      split
      · next e he =>
        obtain ⟨b, hb⟩ := headDate_total (not_not.1 hs)
        rw [hb] at he; cases he
      · exact ⟨_, rfl⟩
      · exact headTime_total (not_not.1 hcl)
    · next hn =>
      have hl := splitOn_length ' ' value
      rw [not_not.1 hc] at hl
      obtain ⟨a, b, e⟩ := List.length_eq_two.1 hl
      exact absurd e (hn a b)
  · exact ⟨_, rfl⟩

theorem digits_ext : ∀ (n : Nat) (s t : Str), s.length = n → t.length = n → (∀ c ∈ s, isDigit c = true) → (∀ c ∈ t, isDigit c = true) →
    digitsVal s = digitsVal t → s = t := by
  intro n
  induction n with
  | zero => intro s t hs ht _ _ _; rw [List.length_eq_zero_iff.1 hs, List.length_eq_zero_iff.1 ht]
  | succ n ih =>
    intro s t hs ht hds hdt h
    obtain ⟨s', c, rfl⟩ : ∃ s' c, s = s' ++ [c] := ⟨s.dropLast, s.getLast (by intro h; simp [h] at hs), (List.dropLast_append_getLast _).symm⟩
    obtain ⟨t', d, rfl⟩ : ∃ s' c, t = s' ++ [c] := ⟨t.dropLast, t.getLast (by intro h; simp [h] at ht), (List.dropLast_append_getLast _).symm⟩
    rw [digitsVal_append_singleton, digitsVal_append_singleton] at h
    have hc := (isDigit_iff c).1 (hds c (by simp))
    have hd := (isDigit_iff d).1 (hdt d (by simp))
    have hcv : digitVal c < 10 ∧ c.toNat = digitVal c + 48 := by rw [digitVal]; omega
    have hdv : digitVal d < 10 ∧ d.toNat = digitVal d + 48 := by rw [digitVal]; omega
    have e1 : digitsVal s' = digitsVal t' := by omega
    have e2 : c.toNat = d.toNat := by omega
    rw [ih s' t' (by simpa using hs) (by simpa using ht) (fun c hc => hds c (by simp [hc])) (fun c hc => hdt c (by simp [hc])) e1, Char.toNat_inj.1 e2]

theorem digitsVal_lt (s : Str) (h : ∀ c ∈ s, isDigit c = true) : digitsVal s < 10 ^ s.length := by
  induction hn : s.length generalizing s with
  | zero => rw [List.length_eq_zero_iff.1 hn]; simp [digitsVal]
  | succ n ih =>
    obtain ⟨s, c, rfl⟩ : ∃ s' c, s = s' ++ [c] := ⟨s.dropLast, s.getLast (by intro h; simp [h] at hn), (List.dropLast_append_getLast _).symm⟩
    rw [digitsVal_append_singleton, Nat.pow_succ]
    have := ih s (fun c hc => h c (by simp [hc])) (by simpa using hn)
    have hc := (isDigit_iff c).1 (h c (by simp))
    have : digitVal c < 10 := by rw [digitVal]; omega
    omega

theorem zfill_digitsVal {s : Str} (h : ∀ c ∈ s, isDigit c = true) (hne : 0 < s.length) : zfill s.length (natRepr (digitsVal s)) = s := by
  have hl := natRepr_length_le hne (digitsVal_lt s h)
  apply digits_ext s.length
  · exact zfill_length hl
  · rfl
  · exact zfill_digits (natRepr_digits _)
  · exact h
  · rw [zfill, digitsVal_replicate_zero, digitsVal_natRepr]

theorem monthMaxDay_nat (py38 : Bool) {y m : Nat} (hy : 1 ≤ y) : monthMaxDay py38 y m = .ok (Plist.daysIn y m) := by
  have hl : isLeap (y : Int) = Plist.isLeap y := by
    rw [isLeap, Plist.isLeap]
    have h4 : ((y : Int) % 4 == 0) = (y % 4 == 0) := by rw [Bool.eq_iff_iff]; simp only [beq_iff_eq]; omega
    have h100 : ((y : Int) % 100 != 0) = (y % 100 != 0) := by rw [Bool.eq_iff_iff]; simp only [bne_iff_ne, ne_eq]; omega
    have h400 : ((y : Int) % 400 == 0) = (y % 400 == 0) := by rw [Bool.eq_iff_iff]; simp only [beq_iff_eq]; omega
    rw [h4, h100, h400]
    rw [Bool.eq_iff_iff]
    simp only [Bool.and_eq_true, Bool.or_eq_true, beq_iff_eq, bne_iff_ne]
    omega
  rw [monthMaxDay, if_neg (by simp; omega), Plist.daysIn, hl]
  congr 1
  have e2 : ((m : Int) = 2) = (m = 2) := by apply propext; omega
  have e4 : ((m : Int) = 4 ∨ (m : Int) = 6 ∨ (m : Int) = 9 ∨ (m : Int) = 11) = (m = 4 ∨ m = 6 ∨ m = 9 ∨ m = 11) := by apply propext; omega
  simp only [e2, e4]
  split
  · split <;> rfl
  · split <;> rfl

theorem zfill_part {w n : Nat} (hw : 0 < w) (hn : n < 10 ^ w) :
    (zfill w (natRepr n)).length = w ∧ (∀ c ∈ zfill w (natRepr n), isDigit c = true) ∧ pyInt (zfill w (natRepr n)) = some (n : Int) := by
  have hd : ∀ c ∈ zfill w (natRepr n), isDigit c = true := zfill_digits (natRepr_digits n)
  refine ⟨zfill_length (natRepr_length_le hw hn), hd, ?_⟩
  rw [pyInt_digits _ hd (zfill_ne_nil (natRepr_ne_nil n)), zfill, digitsVal_replicate_zero, digitsVal_natRepr]

theorem not_digit {s : Str} (h : ∀ c ∈ s, isDigit c = true) (c : Char) (hc : isDigit c = false) : c ∉ s := by
  intro hm
  rw [h c hm] at hc
  cases hc

theorem headCreated_complete (py38 : Bool) (d : PyDate) (hd : RealDate d) : headCreatedValidator py38 (.str (dateText d)) = .ok true := by
  have hok := (Plist.dateOk_iff d).2 hd
  simp only [Plist.dateOk, Bool.and_eq_true, decide_eq_true_eq] at hok
  obtain ⟨⟨⟨⟨⟨⟨⟨⟨h1, h2⟩, h3⟩, h4⟩, h5⟩, h6⟩, h7⟩, h8⟩, h9⟩ := hok
  have h31 := hd.long
  obtain ⟨a1, a2, a3⟩ := zfill_part (w := 4) (n := d.year) (by decide) (by omega)
  obtain ⟨b1, b2, b3⟩ := zfill_part (w := 2) (n := d.month) (by decide) (by omega)
  obtain ⟨c1, c2, c3⟩ := zfill_part (w := 2) (n := d.day) (by decide) (by omega)
  obtain ⟨d1, d2, d3⟩ := zfill_part (w := 2) (n := d.hour) (by decide) (by omega)
  obtain ⟨e1, e2, e3⟩ := zfill_part (w := 2) (n := d.minute) (by decide) (by omega)
  obtain ⟨f1, f2, f3⟩ := zfill_part (w := 2) (n := d.second) (by decide) (by omega)
  have hsp : isDigit ' ' = false := by decide
  have hsl : isDigit '/' = false := by decide
  have hco : isDigit ':' = false := by decide
  refine headCreated_of_parts ⟨⟨a1, b1, c1⟩, _, _, _, _, a3, b3, c3, by omega, by omega, monthMaxDay_nat py38 h1, by omega, by omega⟩
    ⟨⟨d1, e1, f1⟩, _, _, _, d3, e3, f3, by omega, by omega, by omega, by omega, by omega, by omega⟩ ?_ ?_ ?_
  · exact ⟨not_digit a2 _ hsp, not_digit b2 _ hsp, not_digit c2 _ hsp, not_digit d2 _ hsp, not_digit e2 _ hsp, not_digit f2 _ hsp⟩
  · exact ⟨not_digit a2 _ hsl, not_digit b2 _ hsl, not_digit c2 _ hsl⟩
  · exact ⟨not_digit d2 _ hco, not_digit e2 _ hco, not_digit f2 _ hco⟩

theorem strip_of_no_sep {s : Str} (h : ∀ c ∈ s, isDigit c = true ∨ c = '/' ∨ c = ' ' ∨ c = ':') (hsp : ' ' ∉ s) : strip s = s := by
  apply strip_graph
  intro c hc
  rcases h c hc with h | rfl | rfl | rfl
  · exact isGraph_of_isDigit h
  · decide
  · exact absurd hc hsp
  · decide

theorem digits_of_pyInt {s : Str} {i : Int} (h : ∀ c ∈ s, isDigit c = true ∨ c = '/' ∨ c = ' ' ∨ c = ':') (hsp : ' ' ∉ s) (hi : pyInt s = some i) :
    ∀ c ∈ s, isDigit c = true := by
  intro c hc
  have hs := pyInt_chars hi c (by rwa [strip_of_no_sep h hsp])
  rcases h c hc with h | rfl | rfl | rfl
  · exact h
  all_goals (rcases hs with h | h | h | h <;> revert h <;> decide)

theorem part_of_pyInt {s : Str} {i : Int} {w : Nat} (h : ∀ c ∈ s, isDigit c = true ∨ c = '/' ∨ c = ' ' ∨ c = ':') (hsp : ' ' ∉ s) (hi : pyInt s = some i)
    (hl : s.length = w) (hw : 0 < w) : ∃ n : Nat, i = n ∧ n < 10 ^ w ∧ s = zfill w (natRepr n) := by
  have hd := digits_of_pyInt h hsp hi
  have hne : s ≠ [] := by intro h; rw [h] at hl; simp at hl; omega
  rw [pyInt_digits s hd hne] at hi
  refine ⟨digitsVal s, (Option.some.inj hi).symm, ?_, ?_⟩
  · rw [← hl]; exact digitsVal_lt s hd
  · rw [← hl, zfill_digitsVal hd (by omega)]

/-- Digits and the three separators. -/
def dateChar (c : Char) : Prop := isDigit c = true ∨ c = '/' ∨ c = ' ' ∨ c = ':'

theorem headCreated_sound {py38 : Bool} {s : Str} (h : headCreatedValidator py38 (.str s) = .ok true) (hc : ∀ c ∈ s, dateChar c) :
    ∃ d : PyDate, s = dateText d ∧ (1 ≤ d.year → RealDate d) ∧ (py38 = false → 1 ≤ d.year) := by
  obtain ⟨ys, ms, ds, hs, mis, ss, hv, ⟨⟨l1, l2, l3⟩, y, m, d, mx, hy, hm, hd, r1, r2, hmx, r3, r4⟩, ⟨⟨l4, l5, l6⟩, hh, mi, sec, e1, e2, e3, t1, t2, t3, t4, t5, t6⟩,
    hsp, -, -⟩ := headCreated_parts h
  simp only [List.mem_append, not_or] at hsp
  obtain ⟨⟨⟨⟨⟨n1, n2⟩, n3⟩, n4⟩, n5⟩, n6⟩ := hsp
  rw [PyVal.str.injEq] at hv
  subst hv
  have sub : ∀ part : Str, (∀ c ∈ part, c ∈ headText ys ms ds hs mis ss) → ∀ c ∈ part, isDigit c = true ∨ c = '/' ∨ c = ' ' ∨ c = ':' := fun part hp c hcp => hc c (hp c hcp)
  obtain ⟨yn, rfl, b1, ey⟩ := part_of_pyInt (sub ys (fun c h => by simp [headText, h])) n1 hy l1 (by decide)
  obtain ⟨mn, rfl, b2, em⟩ := part_of_pyInt (sub ms (fun c h => by simp [headText, h])) n2 hm l2 (by decide)
  obtain ⟨dn, rfl, b3, ed⟩ := part_of_pyInt (sub ds (fun c h => by simp [headText, h])) n3 hd l3 (by decide)
  obtain ⟨hn, rfl, b4, eh⟩ := part_of_pyInt (sub hs (fun c h => by simp [headText, h])) n4 e1 l4 (by decide)
  obtain ⟨min, rfl, b5, emi⟩ := part_of_pyInt (sub mis (fun c h => by simp [headText, h])) n5 e2 l5 (by decide)
  obtain ⟨sn, rfl, b6, es⟩ := part_of_pyInt (sub ss (fun c h => by simp [headText, h])) n6 e3 l6 (by decide)
  refine ⟨⟨yn, mn, dn, hn, min, sn⟩, ?_, ?_, ?_⟩
  · rw [headText, dateText, ey, em, ed, eh, emi, es]
  · intro hy1
    apply (Plist.dateOk_iff _).1
    simp only at hy1
    rw [monthMaxDay_nat py38 hy1] at hmx
    have hmx := Except.ok.inj hmx
    simp only [Plist.dateOk, Bool.and_eq_true, decide_eq_true_eq]
    refine ⟨⟨⟨⟨⟨⟨⟨⟨?_, ?_⟩, ?_⟩, ?_⟩, ?_⟩, ?_⟩, ?_⟩, ?_⟩, ?_⟩ <;> omega
  · rintro rfl
    show 1 ≤ yn
    by_contra hlt
    rw [monthMaxDay, if_pos (by simp; omega)] at hmx
    cases hmx

end Verif.Validators
