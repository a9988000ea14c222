import Verif.Spec.Glif
import Verif.Proofs.Dict
import Verif.Proofs.Validators
import Mathlib.Tactic.Tauto
import Mathlib.Data.List.TakeWhile
/-! Reading contours: what an accepted contour is like. -/
namespace Verif.Glif
open Verif Verif.Validators Verif.Spec.Validators Verif.Spec.Glif

/-- The number of trailing off-curve points. -/
def tail (l : List (Option Str)) : Nat := (l.reverse.takeWhile Option.isNone).length

theorem trailing_eq (l : List MPoint) : trailing l = tail (l.map MPoint.seg) := by
  unfold trailing tail
  rw [← List.map_reverse, List.takeWhile_map, List.length_map]
  rfl

theorem tail_append_some (a b : List (Option Str)) (t : Str) : tail (a ++ some t :: b) = tail b := by
  unfold tail
  rw [List.reverse_append, List.reverse_cons, List.append_assoc, List.singleton_append, List.takeWhile_append]
  split <;> simp_all

theorem tail_append (x a : List (Option Str)) : tail (x ++ a) = if (∀ t ∈ a, t = none) then a.length + tail x else tail a := by
  unfold tail
  rw [List.reverse_append, List.takeWhile_append]
  by_cases h : ∀ t ∈ a, t = none
  · have h1 : a.reverse.takeWhile Option.isNone = a.reverse := by
      rw [List.takeWhile_eq_self_iff]
      intro t ht
      rw [h t (List.mem_reverse.1 ht)]; rfl
    rw [if_pos h, h1, if_pos rfl]
    simp
  · rw [if_neg h, if_neg]
    intro hl
    apply h
    intro t ht
    have h2 : a.reverse.takeWhile Option.isNone = a.reverse := (List.takeWhile_prefix _).eq_of_length hl
    rw [List.takeWhile_eq_self_iff] at h2
    simpa using h2 t (List.mem_reverse.2 ht)

theorem tail_replicate (n : Nat) : tail (List.replicate n none) = n := by
  unfold tail
  rw [List.reverse_replicate, List.takeWhile_replicate]
  simp

theorem tail_eq_zero (l : List (Option Str)) : tail l = 0 ↔ ∀ s, l ≠ s ++ [none] := by
  constructor
  · rintro h s rfl
    simp [tail] at h
  · intro h
    rcases hl : l.reverse with _ | ⟨t, r⟩
    · simp [tail, hl]
    · cases t with
      | some t => simp [tail, hl]
      | none =>
        refine absurd ?_ (h r.reverse)
        rw [← List.reverse_reverse l, hl, List.reverse_cons]

theorem tail_le_two (l : List (Option Str)) : tail l ≤ 2 ↔ ∀ s, l ≠ s ++ [none, none, none] := by
  constructor
  · rintro h s rfl
    simp [tail] at h
  · intro h
    rcases hl : l.reverse with _ | ⟨_ | t, _ | ⟨_ | u, _ | ⟨_ | v, r⟩⟩⟩ <;> simp [tail, hl]
    exact h r.reverse (by rw [← List.reverse_reverse l, hl]; simp)

/-- What the loop of the reader checks. -/
theorem segmentsOk_iff (l : List MPoint) (c : Nat) : segmentsOk c l = true ↔
    ∀ a t b, l.map MPoint.seg = a ++ some t :: b →
      ((t = c!"move" ∨ t = c!"line") → tail (List.replicate c none ++ a) = 0) ∧ (t = c!"curve" → tail (List.replicate c none ++ a) ≤ 2) := by
  induction l generalizing c with
  | nil => simp [segmentsOk]
  | cons p l ih =>
    unfold segmentsOk
    rcases hp : p.seg with _ | t
    · simp only
      rw [ih]
      constructor
      · intro h a t b he
        rw [List.map_cons, hp] at he
        cases a with
        | nil => cases he
        | cons x a =>
          rw [List.cons_append, List.cons.injEq] at he
          obtain ⟨rfl, he⟩ := he
          have := h a t b he
          rwa [List.replicate_succ', List.append_assoc, List.singleton_append] at this
      · intro h a t b he
        rw [List.replicate_succ', List.append_assoc, List.singleton_append]
        exact h (none :: a) t b (by rw [List.map_cons, hp, he]; rfl)
    · simp only
      by_cases h1 : c ≠ 0 ∧ (t = c!"move" ∨ t = c!"line")
      · rw [if_pos h1]
        simp only [Bool.false_eq_true, false_iff]
        intro h
        have := (h [] t (l.map MPoint.seg) (by rw [List.map_cons, hp]; rfl)).1 h1.2
        rw [List.append_nil, tail_replicate] at this
        exact h1.1 this
      rw [if_neg h1]
      by_cases h2 : c > 2 ∧ t = c!"curve"
      · rw [if_pos h2]
        simp only [Bool.false_eq_true, false_iff]
        intro h
        have := (h [] t (l.map MPoint.seg) (by rw [List.map_cons, hp]; rfl)).2 h2.2
        rw [List.append_nil, tail_replicate] at this
        omega
      rw [if_neg h2, ih]
      have hs : ∀ a : List (Option Str), tail (List.replicate c none ++ some t :: a) = tail (List.replicate 0 none ++ a) := by
        intro a
        rw [tail_append_some]
        rfl
      constructor
      · intro h a t' b he
        rw [List.map_cons, hp] at he
        cases a with
        | nil =>
          rw [List.nil_append, List.cons.injEq] at he
          obtain ⟨he, -⟩ := he
          cases he
          rw [List.append_nil, tail_replicate]
          constructor
          · intro ht; by_contra hc; exact h1 ⟨hc, ht⟩
          · intro ht; by_contra hc; exact h2 ⟨by omega, ht⟩
        | cons x a =>
          rw [List.cons_append, List.cons.injEq] at he
          obtain ⟨rfl, he⟩ := he
          rw [hs]
          exact h a t' b he
      · intro h a t' b he
        rw [← hs]
        exact h (some t :: a) t' b (by rw [List.map_cons, hp, he]; rfl)

theorem mem_of_massagePoints {E : Env} {fv : Nat} {es : List Elem} : ∀ {index : Nat} {l : List MPoint}, massagePoints E true fv index es = .ok l →
    ∀ a p b, l = a ++ p :: b → ∃ e ∈ es, massagePoint E true fv (index + a.length) e = .ok p := by
  induction es with
  | nil => intro index l h a p b hl; cases h; simp at hl
  | cons e es ih =>
    intro index l h a p b hl
    unfold massagePoints at h
    split at h
    · cases h
    next q hq =>
    split at h
    · cases h
    next qs hqs =>
    cases h
    cases a with
    | nil =>
      rw [List.nil_append, List.cons.injEq] at hl
      exact ⟨e, List.mem_cons_self, by rw [← hl.1]; exact hq⟩
    | cons x a =>
      rw [List.cons_append, List.cons.injEq] at hl
      obtain ⟨e', he', h'⟩ := ih hqs a p b hl.2
      exact ⟨e', List.mem_cons_of_mem _ he', by rw [List.length_cons, show index + (a.length + 1) = index + 1 + a.length by omega]; exact h'⟩

/-- An accepted point: its type is known, `move` is the first one, smooth points are on-curve. -/
theorem massagePoint_ok {E : Env} {fv index : Nat} {e : Elem} {p : MPoint} (h : massagePoint E true fv index e = .ok p) :
    (∀ t, p.seg = some t → t = c!"move" ∨ t = c!"line" ∨ t = c!"curve" ∨ t = c!"qcurve") ∧ (p.seg = some c!"move" → index = 0) ∧ (p.seg = none → p.smooth = false) := by
  unfold massagePoint at h
  split at h
  · cases h
  split at h
  · cases h
  split at h
  · cases h
  split at h
  · cases h
  split at h
  · cases h
  simp only at h
  generalize (Dict.get? e.attrib c!"type").getD c!"offcurve" = t at h
  generalize (Dict.get? e.attrib c!"smooth").getD c!"no" = sm at h
  split at h
  · cases h
  next h1 =>
  split at h
  · cases h
  next h2 =>
  split at h
  · cases h
  split at h
  · cases h
  next h3 =>
  cases h
  simp only [Bool.true_and, Bool.not_eq_true', Bool.not_eq_false, decide_eq_true_eq, pointTypeOptions, List.mem_cons, List.not_mem_nil, or_false, Bool.and_eq_true,
    not_and, not_not] at h1 h2 h3
  refine ⟨?_, ?_, ?_⟩
  · intro t' ht'
    simp only at ht'
    split at ht'
    · cases ht'
    · cases ht'
      next hn => rcases h1 with h | h | h | h | h <;> simp_all
  · intro ht
    simp only at ht
    split at ht
    · cases ht
    · cases ht; exact h2 rfl
  · intro ht
    simp only at ht ⊢
    split at ht
    · next he =>
      simp only [decide_eq_false_iff_not]
      exact fun hs => h3 hs he
    · cases ht

theorem dropTrailing_prefix (l : List MPoint) : ∃ r, l = dropTrailing l ++ r := by
  refine ⟨(l.reverse.takeWhile fun p => p.seg.isNone).reverse, ?_⟩
  rw [dropTrailing, ← List.reverse_append, List.takeWhile_append_dropWhile, List.reverse_reverse]

theorem lenient_prefix (fv : Nat) (l : List MPoint) : ∃ r, l = lenient fv l ++ r := by
  unfold lenient
  split
  · exact ⟨[], rfl⟩
  · split
    · exact dropTrailing_prefix _
    · exact ⟨[], by simp⟩

/-- The points of an accepted contour. -/
theorem massage_ok {E : Env} {fv : Nat} {es : List Elem} {l : List MPoint} (h : massage E true fv es = .ok l) :
    GoodContour (l.map MPoint.seg) ∧ ∀ p ∈ l, (p.seg = none → p.smooth = false) ∧ p.seg ≠ some c!"offcurve" := by
  unfold massage at h
  split at h
  · cases h
  next l0 h0 =>
  split at h
  · cases h
  next hc =>
  cases h
  obtain ⟨r, hr⟩ := lenient_prefix fv l0
  have hsplit : ∀ a p b, lenient fv l0 = a ++ p :: b → (∀ t, p.seg = some t → t = c!"move" ∨ t = c!"line" ∨ t = c!"curve" ∨ t = c!"qcurve") ∧ (p.seg = some c!"move" → a.length = 0) ∧
      (p.seg = none → p.smooth = false) := by
    intro a p b hl
    rw [hl] at hr
    obtain ⟨e, -, he⟩ := mem_of_massagePoints h0 a p (b ++ r) (by rw [hr]; simp)
    have := massagePoint_ok he
    exact ⟨this.1, fun h => by have := this.2.1 h; omega, this.2.2⟩
  have hsplit' : ∀ a t b, (lenient fv l0).map MPoint.seg = a ++ some t :: b → ∃ a' p b', lenient fv l0 = a' ++ p :: b' ∧ a'.map MPoint.seg = a ∧ p.seg = some t ∧ b'.map MPoint.seg = b := by
    intro a t b hl
    obtain ⟨a', rest, h1, h2, h3⟩ := List.map_eq_append_iff.1 hl
    obtain ⟨p, b', rfl, h5, h6⟩ := List.map_eq_cons_iff.1 h3
    exact ⟨a', p, b', h1, h2, h5, h6⟩
  have hround : ∀ a t b, (lenient fv l0).map MPoint.seg = a ++ some t :: b → ((t = c!"move" ∨ t = c!"line") → tail (b ++ a) = 0) ∧ (t = c!"curve" → tail (b ++ a) ≤ 2) := by
    intro a t b hl
    by_cases hoff : (l0.any fun p => p.seg.isNone) = true
    · have hon : (l0.any fun p => p.seg.isSome) = true := by
        obtain ⟨a', p, b', h1, -, h3, -⟩ := hsplit' a t b hl
        rw [List.any_eq_true]
        exact ⟨p, by rw [hr, h1]; simp, by rw [h3]; rfl⟩
      rw [hoff, hon] at hc
      simp only [Bool.true_and, Bool.not_eq_true', Bool.not_eq_false] at hc
      have key := (segmentsOk_iff _ _).1 hc a t b hl
      rw [trailing_eq, hl, tail_append_some] at key
      have he : tail (List.replicate (tail b) none ++ a) = tail (b ++ a) := by rw [tail_append, tail_append, tail_replicate]
      rw [he] at key
      exact key
    · have hnone : ∀ x ∈ b ++ a, x ≠ none := by
        rintro x hx rfl
        apply hoff
        have hx' : none ∈ (lenient fv l0).map MPoint.seg := by
          rw [hl]
          simp only [List.mem_append, List.mem_cons] at hx ⊢
          tauto
        obtain ⟨p, hp, hpn⟩ := List.mem_map.1 hx'
        rw [List.any_eq_true]
        exact ⟨p, by rw [hr]; exact List.mem_append_left _ hp, by rw [hpn]; rfl⟩
      have h0 : tail (b ++ a) = 0 := by
        rw [tail_eq_zero]
        intro s hs
        exact hnone none (by rw [hs]; simp) rfl
      rw [h0]
      simp
  refine ⟨⟨?_, ?_, ?_, ?_⟩, ?_⟩
  · intro t ht
    obtain ⟨p, hp, hpt⟩ := List.mem_map.1 ht
    obtain ⟨a, b, hl⟩ := List.append_of_mem hp
    exact (hsplit a p b hl).1 t hpt
  · intro a b hl
    obtain ⟨a', p, b', h1, h2, h3, -⟩ := hsplit' a _ b hl
    have := (hsplit a' p b' h1).2.1 h3
    rw [← h2, List.length_eq_zero_iff.1 this]
    rfl
  · intro a b t hl ht
    rw [← tail_eq_zero]
    exact (hround a t b hl).1 ht
  · intro a b hl
    rw [← tail_le_two]
    exact (hround a _ b hl).2 rfl
  · intro p hp
    obtain ⟨a, b, hl⟩ := List.append_of_mem hp
    have := hsplit a p b hl
    refine ⟨this.2.2, fun ho => ?_⟩
    rcases this.1 _ ho with h | h | h | h <;> simp at h

end Verif.Glif
