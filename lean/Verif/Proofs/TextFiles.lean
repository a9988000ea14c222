import Verif.Spec.TextFiles
import Verif.Proofs.FileObjects
import Verif.Proofs.Cut
/-! Reading text in blocks of any size loses nothing. -/
namespace Verif.TextFiles
open Verif Verif.Spec.TextFiles

theorem width_encode (c : Char) : ∃ a r, String.utf8EncodeChar c = a :: r ∧ width a = (String.utf8EncodeChar c).length := by
  have hv' : c.val.toNat < 0xD800 ∨ 0xDFFF < c.val.toNat ∧ c.val.toNat < 0x110000 := c.valid
  unfold String.utf8EncodeChar
  generalize c.val.toNat = v at *
  simp only
  split
  · refine ⟨_, _, rfl, ?_⟩
    have : (UInt8.ofNat v).toNat = v := by simp; omega
    simp only [width, this]
    rw [if_pos (by omega)]; rfl
  · split
    · refine ⟨_, _, rfl, ?_⟩
      have h1 : (UInt8.ofNat (v / 64 % 32 + 192)).toNat = v / 64 + 192 := by simp; omega
      simp only [width, h1]
      rw [if_neg (by omega), if_pos (by omega)]; rfl
    · split
      · refine ⟨_, _, rfl, ?_⟩
        have h1 : (UInt8.ofNat (v / 4096 % 16 + 224)).toNat = v / 4096 + 224 := by simp; omega
        simp only [width, h1]
        rw [if_neg (by omega), if_neg (by omega), if_pos (by omega)]; rfl
      · refine ⟨_, _, rfl, ?_⟩
        have h1 : (UInt8.ofNat (v / 262144 % 8 + 240)).toNat = v / 262144 + 240 := by simp; omega
        simp only [width, h1]
        rw [if_neg (by omega), if_neg (by omega), if_neg (by omega)]; rfl

/-- The decoder on the beginning of a text in UTF-8. -/
theorem decodeSome_prefix : ∀ (t : Str) (n : Nat) (b r : Bytes), b.length ≤ n → b ++ r = utf8 t →
    ∃ o k t', decodeSome n b = some (o, k) ∧ t = o ++ t' ∧ k ++ r = utf8 t' ∧ (r = [] → k = [] ∧ t' = [])
  | [], n, b, r, _, h => by
    obtain ⟨rfl, rfl⟩ := List.append_eq_nil_iff.1 (h : b ++ r = [])
    cases n <;> exact ⟨[], [], [], rfl, rfl, rfl, fun _ => ⟨rfl, rfl⟩⟩
  | c :: t, n, b, r, hn, h => by
    have hu : utf8 (c :: t) = String.utf8EncodeChar c ++ utf8 t := rfl
    obtain ⟨a, e, he, hw⟩ := width_encode c
    cases b with
    | nil =>
      refine ⟨[], [], c :: t, by cases n <;> rfl, rfl, h, fun hr => ?_⟩
      subst hr
      rw [hu, he] at h
      cases h
    | cons x b =>
      cases n with
      | zero => simp at hn
      | succ n =>
        have hx : x = a := by
          rw [hu, he] at h
          exact (List.cons.inj h).1
        subst hx
        by_cases hl : (x :: b).length < width x
        · refine ⟨[], x :: b, c :: t, by unfold decodeSome; rw [if_pos hl], rfl, h, fun hr => ?_⟩
          subst hr
          rw [List.append_nil] at h
          rw [h, hu, hw, List.length_append] at hl
          omega
        · have hd : (x :: b) = String.utf8EncodeChar c ++ (x :: b).drop (width x) ∧ (x :: b).take (width x) = String.utf8EncodeChar c := by
            have h1 : ((x :: b) ++ r).take (width x) = String.utf8EncodeChar c := by rw [h, hu, hw, List.take_left]
            rw [List.take_append_of_le_length (by omega)] at h1
            exact ⟨by rw [← h1, List.take_append_drop], h1⟩
          have h2 : (x :: b).drop (width x) ++ r = utf8 t := by
            have := h
            rw [hu, hd.1, List.append_assoc] at this
            exact List.append_cancel_left this
          have hpos : 0 < width x := by rw [hw, he]; simp
          obtain ⟨o, k, t', h3, h4, h5, h6⟩ := decodeSome_prefix t n _ r (by rw [List.length_drop]; omega) h2
          have hc : utf8Decode (String.utf8EncodeChar c) = some [c] := by
            have := utf8Decode_char c []
            rw [List.append_nil] at this
            rw [this]; rfl
          refine ⟨c :: o, k, t', ?_, by rw [h4]; rfl, h5, h6⟩
          unfold decodeSome
          rw [if_neg hl, hd.2, hc]
          dsimp only
          rw [h3]
          rfl

/-- The carriage return kept back. -/
def held (b : Bool) : Str := if b then ['\r'] else []

/-- The text `t` is still to be returned. -/
def Left (s : Text) (t : Str) : Prop :=
  ∃ u, s.raw ++ s.data = utf8 u ∧ t = s.text ++ (held s.cr ++ u) ∧ (s.text.getLast? = some '\r' → (held s.cr ++ u).head? ≠ some '\n')

theorem fill_left {s : Text} {t : Str} (n : Nat) (h : Left s t) :
    ∃ s', fill n s = .ok s' ∧ Left s' t ∧ s'.data = s.data.drop (n + 1) ∧ (s.data = [] → s'.text = t) := by
  obtain ⟨u, h1, h2, h3⟩ := h
  obtain ⟨o, k, u', h4, h5, h6, h7⟩ := decodeSome_prefix u _ (s.raw ++ s.data.take (n + 1)) (s.data.drop (n + 1)) (Nat.le_refl _) (by rw [List.append_assoc, List.take_append_drop, h1])
  subst h5
  unfold fill
  dsimp only
  rw [h4]
  dsimp only
  by_cases hd : s.data = []
  · obtain ⟨rfl, rfl⟩ := h7 (by rw [hd]; rfl)
    simp only [hd, List.isEmpty_nil, Bool.not_true, Bool.and_false, Bool.or_true, Bool.and_true, Bool.false_eq_true, if_false, List.drop_nil]
    rw [List.append_nil] at h2
    refine ⟨_, rfl, ⟨[], rfl, ?_, fun _ => ?_⟩, rfl, fun _ => ?_⟩
    · rw [h2]; cases s.cr <;> simp [held]
    · cases s.cr <;> simp [held]
    · rw [h2]; cases s.cr <;> simp [held]
  · have hde : s.data.isEmpty = false := by cases hs : s.data with
      | nil => exact absurd hs hd
      | cons => rfl
    simp only [hde, Bool.false_and, Bool.false_eq_true, if_false, Bool.or_false, Bool.not_false, Bool.and_true]
    -- what is put behind the text, with the carriage return kept back before
    have hput : ∀ q : Str, q = (if s.cr && !o.isEmpty then '\r' :: o else o) → q ++ held (s.cr && !(s.cr && !o.isEmpty)) = held s.cr ++ o := by
      rintro q rfl
      cases s.cr <;> cases o <;> simp [held]
    have hend : ∀ q : Str, q = (if s.cr && !o.isEmpty then '\r' :: o else o) → q = [] ∨ (s.cr && !(s.cr && !o.isEmpty)) = false := by
      rintro q rfl
      cases s.cr <;> cases o <;> simp
    generalize (if s.cr && !o.isEmpty then '\r' :: o else o) = q at hput hend
    generalize (s.cr && !(s.cr && !o.isEmpty)) = b at hput hend
    have hq := hput q rfl
    have he := hend q rfl
    have key : t = s.text ++ (q ++ (held b ++ u')) := by rw [h2, ← List.append_assoc (held s.cr), ← hq, List.append_assoc]
    have key3 : s.text.getLast? = some '\r' → (q ++ (held b ++ u')).head? ≠ some '\n' := fun h => by
      rw [← List.append_assoc, hq, List.append_assoc]; exact h3 h
    by_cases hl : q.getLast? = some '\r'
    · rw [if_pos (by simpa using hl)]
      have hne : q ≠ [] := by rintro rfl; cases hl
      have hb : b = false := he.resolve_left hne
      subst hb
      have hqq : q = q.dropLast ++ ['\r'] := by
        rw [List.getLast?_eq_some_getLast hne] at hl
        rw [← Option.some.inj hl, List.dropLast_append_getLast]
      refine ⟨_, rfl, ⟨u', h6, ?_, fun hx => ?_⟩, rfl, fun h => absurd h hd⟩
      · show t = (s.text ++ q.dropLast) ++ (['\r'] ++ u')
        rw [key, List.append_assoc, ← List.append_assoc q.dropLast, ← hqq]
        rfl
      · show ('\r' :: u').head? ≠ some '\n'
        simp
    · rw [if_neg (by simpa using hl)]
      refine ⟨_, rfl, ⟨u', h6, by rw [key]; simp, fun hx => ?_⟩, rfl, fun h => absurd h hd⟩
      have hx : (s.text ++ q).getLast? = some '\r' := hx
      show (held b ++ u').head? ≠ some '\n'
      by_cases hq0 : q = []
      · subst hq0
        rw [List.append_nil] at hx
        exact key3 hx
      · rw [List.getLast?_append, List.getLast?_eq_some_getLast hq0] at hx
        rw [List.getLast?_eq_some_getLast hq0] at hl
        exact absurd hx hl

theorem fillUntil_left (size : Nat → Nat) (enough : Str → Bool) : ∀ (n : Nat) (s : Text) (t : Str), s.data.length ≤ n → Left s t →
    ∃ s', fillUntil size enough n s = .ok s' ∧ Left s' t ∧ (enough s'.text = true ∨ s'.text = t)
  | 0, s, t, hn, h => by
    unfold fillUntil
    split
    · rename_i he
      exact ⟨s, rfl, h, .inl he⟩
    · obtain ⟨s', h1, h2, -, h3⟩ := fill_left 0 h
      exact ⟨s', h1, h2, .inr (h3 (List.length_eq_zero_iff.1 (by omega)))⟩
  | n + 1, s, t, hn, h => by
    unfold fillUntil
    split
    · rename_i he
      exact ⟨s, rfl, h, .inl he⟩
    · split
      · rename_i hd
        obtain ⟨s', h1, h2, -, h3⟩ := fill_left 0 h
        exact ⟨s', h1, h2, .inr (h3 (List.isEmpty_iff.1 hd))⟩
      · rename_i hd
        obtain ⟨s', h1, h2, h3, -⟩ := fill_left (size s.data.length) h
        rw [h1]
        dsimp only
        refine fillUntil_left size enough n s' t ?_ h2
        rw [h3, List.length_drop]
        omega

/-- Text that was returned is no longer left. -/
theorem left_drop {s : Text} {t : Str} (n : Nat) (h : Left s t) (hn : n ≤ s.text.length) : Left { s with text := s.text.drop n } (t.drop n) := by
  obtain ⟨u, h1, rfl, h3⟩ := h
  refine ⟨u, h1, by rw [List.drop_append_of_le_length hn], fun hl => h3 ?_⟩
  have hl : (s.text.drop n).getLast? = some '\r' := hl
  rw [← List.take_append_drop n s.text, List.getLast?_append, hl]
  rfl

theorem lineEnd_first : ∀ (a : Str) (n : Nat), lineEnd a = some n → n ≤ a.length ∧
    ∀ r : Str, (a.getLast? = some '\r' → r.head? ≠ some '\n') → FirstLine (a.take n) (a.drop n ++ r)
  | [], n, h => by cases h
  | c :: a, n, h => by
    unfold lineEnd at h
    split at h
    · rename_i hc
      subst hc
      cases h
      exact ⟨by simp, fun r _ => ⟨[], c!"\n", rfl, by simp, by simp, .inl rfl⟩⟩
    · split at h
      · rename_i hc
        subst hc
        split at h
        · rename_i hh
          cases h
          cases a with
          | nil => cases hh
          | cons x a =>
            cases hh
            exact ⟨by simp, fun r _ => ⟨[], c!"\r\n", rfl, by simp, by simp, .inr (.inl rfl)⟩⟩
        · rename_i hh
          cases h
          refine ⟨by simp, fun r hr => ⟨[], c!"\r", rfl, by simp, by simp, .inr (.inr (.inl ⟨rfl, ?_⟩))⟩⟩
          cases a with
          | nil => exact hr rfl
          | cons x a => exact hh
      · rename_i h1 h2
        cases hl : lineEnd a with
        | none => rw [hl] at h; cases h
        | some m =>
          rw [hl] at h
          cases h
          obtain ⟨h3, h4⟩ := lineEnd_first a m hl
          refine ⟨by simpa using h3, fun r hr => ?_⟩
          obtain ⟨body, e, h5, h6, h7, h8⟩ := h4 r fun hx => hr (by
            cases a with
            | nil => cases hx
            | cons y a => rw [List.getLast?_cons_cons]; exact hx)
          exact ⟨c :: body, e, by rw [List.take_succ_cons, h5]; rfl, by simp [h6, Ne.symm h1], by simp [h7, Ne.symm h2], h8⟩

theorem lineEnd_none : ∀ a : Str, lineEnd a = none → FirstLine a []
  | a, h => ⟨a, [], by simp, (go a h).1, (go a h).2, .inr (.inr (.inr ⟨rfl, rfl⟩))⟩
where
  go : ∀ a : Str, lineEnd a = none → '\n' ∉ a ∧ '\r' ∉ a
    | [], _ => by simp
    | c :: a, h => by
      unfold lineEnd at h
      split at h
      · cases h
      · split at h
        · split at h <;> cases h
        · rename_i h1 h2
          have := go a (Option.map_eq_none_iff.1 h)
          simp [this.1, this.2, Ne.symm h1, Ne.symm h2]

theorem calls_returns (size : Nat → Nat) : ∀ (cs : List Call) (s : Text) (t : Str), Left s t → ∃ os s' rest, calls size s cs = .ok (os, s') ∧ Returns t cs os rest ∧ Left s' rest
  | [], s, t, h => ⟨[], s, t, rfl, .nil t, h⟩
  | .read n :: cs, s, t, h => by
    obtain ⟨s1, h1, h2, h3⟩ := fillUntil_left size (fun t => decide (n ≤ t.length)) _ s t (Nat.le_refl _) h
    have hx : s1.text.take n = t.take n ∧ Left { s1 with text := s1.text.drop n } (t.drop n) := by
      rcases h3 with h3 | h3
      · have hn : n ≤ s1.text.length := by simpa using h3
        refine ⟨?_, left_drop n h2 hn⟩
        obtain ⟨u, -, rfl, -⟩ := h2
        rw [List.take_append_of_le_length hn]
      · refine ⟨by rw [h3], ?_⟩
        by_cases hn : n ≤ s1.text.length
        · exact left_drop n h2 hn
        · have := left_drop s1.text.length h2 (Nat.le_refl _)
          rw [List.drop_length] at this
          rw [List.drop_of_length_le (by omega : s1.text.length ≤ n), ← h3, List.drop_of_length_le (by omega : s1.text.length ≤ n)]
          rw [← h3, List.drop_length] at this
          exact this
    obtain ⟨os, s', rest, h4, h5, h6⟩ := calls_returns size cs _ _ hx.2
    refine ⟨t.take n :: os, s', rest, ?_, .read t n cs os rest h5, h6⟩
    unfold calls call
    dsimp only
    rw [h1]
    dsimp only
    rw [h4, hx.1]
  | .readline :: cs, s, t, h => by
    obtain ⟨s1, h1, h2, h3⟩ := fillUntil_left size (fun t => (lineEnd t).isSome) _ s t (Nat.le_refl _) h
    have hx : ∃ n, (lineEnd s1.text).getD s1.text.length = n ∧ n ≤ s1.text.length ∧ FirstLine (s1.text.take n) (t.drop n) ∧ t = s1.text.take n ++ t.drop n := by
      cases hl : lineEnd s1.text with
      | some n =>
        obtain ⟨h4, h5⟩ := lineEnd_first _ n hl
        refine ⟨n, rfl, h4, ?_, ?_⟩
        · obtain ⟨u, -, rfl, h6⟩ := h2
          rw [List.drop_append_of_le_length h4]
          exact h5 _ h6
        · obtain ⟨u, -, rfl, -⟩ := h2
          rw [← List.take_append_of_le_length h4, List.take_append_drop]
      | none =>
        have h3 : s1.text = t := h3.resolve_left (by simp [hl])
        refine ⟨s1.text.length, rfl, Nat.le_refl _, ?_, ?_⟩
        · rw [List.take_length, ← h3, List.drop_length]
          exact lineEnd_none _ hl
        · rw [h3, List.take_append_drop]
    obtain ⟨n, hn, hle, hf, ht⟩ := hx
    obtain ⟨os, s', rest, h4, h5, h6⟩ := calls_returns size cs _ _ (left_drop n h2 hle)
    refine ⟨s1.text.take n :: os, s', rest, ?_, ?_, h6⟩
    · unfold calls call
      dsimp only
      rw [h1]
      dsimp only
      rw [hn, h4]
    · rw [ht]
      exact .readline _ _ cs os rest hf h5
  | .all :: cs, s, t, h => by
    obtain ⟨s1, h1, h2, h3⟩ := fillUntil_left size (fun _ => false) _ s t (Nat.le_refl _) h
    have h3 : s1.text = t := h3.resolve_left (by simp)
    have hx := left_drop s1.text.length h2 (Nat.le_refl _)
    rw [List.drop_length, h3, List.drop_length] at hx
    obtain ⟨os, s', rest, h4, h5, h6⟩ := calls_returns size cs _ _ hx
    refine ⟨t :: os, s', rest, ?_, .all t cs os rest h5, h6⟩
    unfold calls call
    dsimp only
    rw [h1]
    dsimp only
    rw [h4, h3]

/-! ### files that are not UTF-8 -/

theorem decodeSome_sound : ∀ (n : Nat) (b : Bytes) (o : Str) (k r : Bytes), decodeSome n b = some (o, k) → utf8Decode (b ++ r) = (utf8Decode (k ++ r)).map (o ++ ·)
  | 0, b, o, k, r, h => by cases h; simp
  | _ + 1, [], o, k, r, h => by cases h; simp
  | n + 1, a :: b, o, k, r, h => by
    unfold decodeSome at h
    split at h
    · cases h; simp
    · cases hc : utf8Decode ((a :: b).take (width a)) with
      | none => rw [hc] at h; cases h
      | some c =>
        rw [hc] at h
        dsimp only at h
        cases hd : decodeSome n ((a :: b).drop (width a)) with
        | none => rw [hd] at h; cases h
        | some x =>
          rw [hd] at h
          cases h
          have h1 := decodeSome_sound n _ x.1 x.2 r hd
          rw [← List.take_append_drop (width a) (a :: b), List.append_assoc, Cut.utf8Decode_append _ hc, h1, Option.map_map]
          congr 1
          funext y
          simp

/-- What was not decoded yet is not UTF-8. -/
def Bad (s : Text) : Prop := utf8Decode (s.raw ++ s.data) = none

theorem fill_bad {s : Text} (n : Nat) (h : Bad s) : fill n s = .error .valueError ∨ ∃ s', fill n s = .ok s' ∧ Bad s' ∧ s'.data = s.data.drop (n + 1) ∧ s.data ≠ [] := by
  unfold fill
  dsimp only
  cases hd : decodeSome (s.raw ++ s.data.take (n + 1)).length (s.raw ++ s.data.take (n + 1)) with
  | none => exact .inl rfl
  | some x =>
    obtain ⟨o, k⟩ := x
    dsimp only
    have h1 := decodeSome_sound _ _ o k (s.data.drop (n + 1)) hd
    rw [List.append_assoc, List.take_append_drop, (h : utf8Decode (s.raw ++ s.data) = none)] at h1
    have h2 : utf8Decode (k ++ s.data.drop (n + 1)) = none := Option.map_eq_none_iff.1 h1.symm
    by_cases he : s.data = []
    · left
      rw [if_pos]
      cases k with
      | nil => rw [he] at h2; cases h2
      | cons => rw [he]; rfl
    · right
      rw [if_neg (by cases hs : s.data with
        | nil => exact absurd hs he
        | cons => simp)]
      split <;> split <;> exact ⟨_, rfl, h2, rfl, he⟩

theorem fillUntil_bad (size : Nat → Nat) (enough : Str → Bool) : ∀ (n : Nat) (s : Text), s.data.length ≤ n → Bad s →
    fillUntil size enough n s = .error .valueError ∨ ∃ s', fillUntil size enough n s = .ok s' ∧ Bad s' ∧ enough s'.text = true
  | 0, s, hn, h => by
    unfold fillUntil
    split
    · rename_i he
      exact .inr ⟨s, rfl, h, he⟩
    · rcases fill_bad 0 h with h1 | ⟨s', -, -, -, h1⟩
      · exact .inl h1
      · exact absurd (List.length_eq_zero_iff.1 (by omega)) h1
  | n + 1, s, hn, h => by
    unfold fillUntil
    split
    · rename_i he
      exact .inr ⟨s, rfl, h, he⟩
    · split
      · rename_i hd
        rcases fill_bad 0 h with h1 | ⟨s', -, -, -, h1⟩
        · exact .inl h1
        · exact absurd (List.isEmpty_iff.1 hd) h1
      · rcases fill_bad (size s.data.length) h with h1 | ⟨s', h1, h2, h3, -⟩
        · rw [h1]; exact .inl rfl
        · rw [h1]
          dsimp only
          refine fillUntil_bad size enough n s' ?_ h2
          rw [h3, List.length_drop]
          omega

theorem calls_bad (size : Nat → Nat) : ∀ (cs : List Call) (s : Text), Bad s → calls size s cs = .error .valueError ∨ ∃ os s', calls size s cs = .ok (os, s') ∧ List.Forall₂ Full cs os
  | [], s, _ => .inr ⟨[], s, rfl, .nil⟩
  | .read n :: cs, s, h => by
    unfold calls call
    dsimp only
    rcases fillUntil_bad size (fun t => decide (n ≤ t.length)) _ s (Nat.le_refl _) h with h1 | ⟨s1, h1, h2, h3⟩
    · rw [h1]; exact .inl rfl
    · rw [h1]
      dsimp only
      have h3 : n ≤ s1.text.length := by simpa using h3
      rcases calls_bad size cs { s1 with text := s1.text.drop n } h2 with h4 | ⟨os, s', h4, h5⟩
      · rw [h4]; exact .inl rfl
      · rw [h4]
        exact .inr ⟨_, _, rfl, .cons (by show (s1.text.take n).length = n; rw [List.length_take]; omega) h5⟩
  | .readline :: cs, s, h => by
    unfold calls call
    dsimp only
    rcases fillUntil_bad size (fun t => (lineEnd t).isSome) _ s (Nat.le_refl _) h with h1 | ⟨s1, h1, h2, h3⟩
    · rw [h1]; exact .inl rfl
    · rw [h1]
      dsimp only
      obtain ⟨n, hn⟩ := Option.isSome_iff_exists.1 h3
      rw [hn]
      rcases calls_bad size cs { s1 with text := s1.text.drop n } h2 with h4 | ⟨os, s', h4, h5⟩
      · rw [Option.getD_some, h4]; exact .inl rfl
      · rw [Option.getD_some, h4]
        refine .inr ⟨_, _, rfl, .cons ?_ h5⟩
        obtain ⟨body, e, h6, -, -, h7⟩ := (lineEnd_first _ n hn).2 [' '] (by simp)
        show (s1.text.take n).getLast? = some '\n' ∨ (s1.text.take n).getLast? = some '\r'
        rw [h6, List.getLast?_append]
        rcases h7 with rfl | rfl | ⟨rfl, -⟩ | ⟨-, h7⟩
        · exact .inl rfl
        · exact .inl rfl
        · exact .inr rfl
        · exact absurd h7 (by simp)
  | .all :: cs, s, h => by
    unfold calls call
    dsimp only
    rcases fillUntil_bad size (fun _ => false) _ s (Nat.le_refl _) h with h1 | ⟨s1, h1, h2, h3⟩
    · rw [h1]; exact .inl rfl
    · cases h3

/-! ### the specification -/

theorem firstLine_end {l rest : Str} (h : FirstLine l rest) : (lineEnd (l ++ rest)).getD (l ++ rest).length = l.length := by
  obtain ⟨body, e, rfl, h1, h2, h3⟩ := h
  induction body with
  | nil =>
    rcases h3 with rfl | rfl | ⟨rfl, h3⟩ | ⟨rfl, rfl⟩
    · rfl
    · rfl
    · show (lineEnd ('\r' :: rest)).getD _ = 1
      unfold lineEnd
      rw [if_neg (by decide), if_pos rfl, if_neg h3]
      rfl
    · rfl
  | cons c body ih =>
    have hc : c ≠ '\n' ∧ c ≠ '\r' := ⟨fun h => h1 (by simp [h]), fun h => h2 (by simp [h])⟩
    have := ih (fun h => h1 (List.mem_cons_of_mem _ h)) (fun h => h2 (List.mem_cons_of_mem _ h))
    show (lineEnd (c :: (body ++ e ++ rest))).getD ((body ++ e ++ rest).length + 1) = (body ++ e).length + 1
    unfold lineEnd
    rw [if_neg hc.1, if_neg hc.2, ← this]
    cases lineEnd (body ++ e ++ rest) <;> rfl

end Verif.TextFiles
