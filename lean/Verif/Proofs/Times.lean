import Verif.Spec.Times
import Verif.Proofs.Crash
/-! The times of files after mutations. -/
namespace Verif.Times
open Verif Verif.FS Verif.Spec.FS Verif.Spec.Times

theorem stampFrom_append (c : Clock) (k : Path) (l m : List Prim) : ∀ n t, stampFrom c k n t (l ++ m) = stampFrom c k (n + l.length) (stampFrom c k n t l) m := by
  induction l with
  | nil => exact fun n t => rfl
  | cons a l ih =>
    intro n t
    simp only [List.cons_append, stampFrom, ih, List.length_cons]
    congr 1
    omega

theorem stampFrom_same (c : Clock) (k : Path) (l : List Prim) : ∀ n t, (∀ a ∈ l, a.marks k = false) → stampFrom c k n t l = t := by
  induction l with
  | nil => exact fun n t _ => rfl
  | cons a l ih =>
    intro n t h
    simp only [stampFrom, h a (by simp), Bool.false_eq_true, if_false]
    exact ih _ _ fun b hb => h b (by simp [hb])

/-- Later mutations give later times. -/
theorem stampFrom_late {c : Clock} (hc : Fine c) (k : Path) (l : List Prim) : ∀ n t, (∀ m, n ≤ m → t < c.tick m) →
    (∀ m, n + l.length ≤ m → stampFrom c k n t l < c.tick m) ∧ t ≤ stampFrom c k n t l ∧ ((∃ a ∈ l, a.marks k = true) → t < stampFrom c k n t l) := by
  induction l with
  | nil => intro n t h; exact ⟨fun m hm => h m (by simpa using hm), le_refl _, by simp⟩
  | cons a l ih =>
    intro n t h
    simp only [stampFrom]
    cases hm : a.marks k with
    | false =>
      obtain ⟨h1, h2, h3⟩ := ih (n + 1) t (fun m hm => h m (by omega))
      simp only [Bool.false_eq_true, if_false]
      refine ⟨fun m hm' => h1 m (by simp only [List.length_cons] at hm'; omega), h2, ?_⟩
      rintro ⟨b, hb, hb'⟩
      rcases List.mem_cons.1 hb with rfl | hb
      · rw [hm] at hb'; cases hb'
      · exact h3 ⟨b, hb, hb'⟩
    | true =>
      obtain ⟨h1, h2, h3⟩ := ih (n + 1) (c.tick n) (fun m hm => hc.ticks _ _ (by omega))
      simp only [if_true]
      have h0 := h n (le_refl _)
      exact ⟨fun m hm' => h1 m (by simp only [List.length_cons] at hm'; omega), (lt_of_lt_of_le h0 h2).le, fun _ => lt_of_lt_of_le h0 h2⟩

/-- A mutation that does not mark a node does not change it. -/
theorem unmarked {nodes : Dict Path Node} {a : Prim} {k : Path} (h : a.marks k = false) : Dict.get? (a.apply nodes) k = Dict.get? nodes k := by
  cases a with
  | write p d =>
    simp only [Prim.marks, Bool.or_eq_false_iff, beq_eq_false_iff_ne] at h
    exact Dict.get?_set_ne _ _ h.1
  | mkdir p =>
    simp only [Prim.marks, Bool.or_eq_false_iff, beq_eq_false_iff_ne] at h
    exact Dict.get?_set_ne _ _ h.1
  | remove p =>
    simp only [Prim.marks, Bool.or_eq_false_iff, beq_eq_false_iff_ne] at h
    show Dict.get? (Dict.erase nodes p) k = _
    rw [Dict.get?_erase, if_neg h.1]
  | rmtree p =>
    simp only [Prim.marks, Bool.or_eq_false_iff] at h
    refine apply_frame _ _ _ fun q hq => ?_
    simp only [Prim.paths, List.mem_singleton] at hq
    subst hq
    rw [← List.isPrefixOf_iff_prefix, h.1]; simp
  | move s d =>
    simp only [Prim.marks, Bool.or_eq_false_iff] at h
    refine apply_frame _ _ _ fun q hq => ?_
    simp only [Prim.paths, List.mem_cons, List.not_mem_nil, or_false] at hq
    rw [← List.isPrefixOf_iff_prefix]
    rcases hq with rfl | rfl
    · rw [h.1.1.1]; simp
    · rw [h.1.1.2]; simp

theorem performAll_canon (acts : List Prim) : ∀ (fs : FS), (performAll fs acts).canon = fs.canon := by
  induction acts with
  | nil => exact fun _ => rfl
  | cons a acts ih => exact fun fs => ih (fs.perform a)

theorem unmarked_all {k : Path} (acts : List Prim) : ∀ (fs : FS), (∀ a ∈ acts, a.marks k = false) → Dict.get? (performAll fs acts).nodes k = Dict.get? fs.nodes k := by
  induction acts with
  | nil => exact fun _ _ => rfl
  | cons a acts ih => exact fun fs h => (ih (fs.perform a) fun b hb => h b (by simp [hb])).trans (unmarked (h a (by simp)))

/-- The time of a node after further mutations. -/
theorem stamp_late {c : Clock} (hc : Fine c) (fs : FS) (acts : List Prim) (k : Path) :
    fs.stamp c k ≤ (performAll fs acts).stamp c k ∧ ((∃ a ∈ acts, a.marks k = true) → fs.stamp c k < (performAll fs acts).stamp c k) := by
  unfold FS.stamp
  rw [Crash.performAll_log, stampFrom_append]
  obtain ⟨h1, -, -⟩ := stampFrom_late hc k fs.log 0 (c.start k) (fun m _ => hc.older k m)
  exact (stampFrom_late hc k acts _ _ h1).2

theorem stamp_same (c : Clock) (fs : FS) (acts : List Prim) (k : Path) (h : ∀ a ∈ acts, a.marks k = false) : (performAll fs acts).stamp c k = fs.stamp c k := by
  unfold FS.stamp
  rw [Crash.performAll_log, stampFrom_append, stampFrom_same _ _ _ _ _ h]

/-- Nothing is marked: the same answer. -/
theorem time_same (c : Clock) (fs : FS) (acts : List Prim) (p : Path) (h : ∀ a ∈ acts, a.marks (fs.key p) = false) :
    getFileModificationTime c (performAll fs acts) p = getFileModificationTime c fs p := by
  have hn : (performAll fs acts).node? p = fs.node? p := by
    unfold FS.node? FS.key
    rw [performAll_canon]
    split
    · rfl
    · exact unmarked_all acts fs h
  unfold getFileModificationTime
  rw [hn, show (performAll fs acts).key p = fs.key p by unfold FS.key; rw [performAll_canon], stamp_same c fs acts _ h]

/-- Mutations about other paths mark nothing. -/
theorem marks_false {a : Prim} {k : Path} (h : ∀ p ∈ a.paths, ¬ p <+: k ∧ p.dropLast ≠ k) : a.marks k = false := by
  cases a with
  | write p d =>
    obtain ⟨h1, h2⟩ := h p (by simp [Prim.paths])
    simp [Prim.marks, h2, show p ≠ k from fun e => h1 (e ▸ List.prefix_refl _)]
  | remove p =>
    obtain ⟨h1, h2⟩ := h p (by simp [Prim.paths])
    simp [Prim.marks, h2, show p ≠ k from fun e => h1 (e ▸ List.prefix_refl _)]
  | mkdir p =>
    obtain ⟨h1, h2⟩ := h p (by simp [Prim.paths])
    simp [Prim.marks, h2, show p ≠ k from fun e => h1 (e ▸ List.prefix_refl _)]
  | rmtree p =>
    obtain ⟨h1, h2⟩ := h p (by simp [Prim.paths])
    rw [← List.isPrefixOf_iff_prefix, Bool.not_eq_true] at h1
    simp [Prim.marks, h2, h1]
  | move s d =>
    obtain ⟨h1, h2⟩ := h s (by simp [Prim.paths])
    obtain ⟨h3, h4⟩ := h d (by simp [Prim.paths])
    rw [← List.isPrefixOf_iff_prefix, Bool.not_eq_true] at h1 h3
    simp [Prim.marks, h2, h1, h3, h4]

theorem acts_time (c : Clock) {P : Path → Prop} {fs fs' : FS} (h : Acts P fs fs') (p : Path) (hp : ∀ k, P k → ¬ k <+: fs.key p ∧ k.dropLast ≠ fs.key p) :
    getFileModificationTime c fs' p = getFileModificationTime c fs p := by
  obtain ⟨acts, rfl, ha⟩ := h
  exact time_same c fs acts p fun a h => marks_false fun q hq => hp q (ha a h q hq)

end Verif.Times
