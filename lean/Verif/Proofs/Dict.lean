import Verif.Py.Dict
import Mathlib.Data.List.Nodup
/-! Lemmas about dictionaries. -/
namespace Verif.Dict
variable {κ ν : Type} [DecidableEq κ]

@[simp] theorem get?_nil (k : κ) : get? ([] : Dict κ ν) k = none := rfl

theorem get?_cons (p : κ × ν) (d : Dict κ ν) (k : κ) :
    get? (p :: d) k = if p.1 = k then some p.2 else get? d k := rfl

theorem get?_set (d : Dict κ ν) (k k' : κ) (v : ν) :
    get? (set d k v) k' = if k = k' then some v else get? d k' := by
  induction d with
  | nil => simp [set, get?]
  | cons p d ih =>
    obtain ⟨a, b⟩ := p
    simp only [set]
    split
    · next h => subst h; simp only [get?]; split <;> rfl
    · next h =>
      simp only [get?, ih]
      split
      · next h2 => subst h2; rw [if_neg (Ne.symm h)]
      · rfl

@[simp] theorem get?_set_self (d : Dict κ ν) (k : κ) (v : ν) : get? (set d k v) k = some v := by
  rw [get?_set, if_pos rfl]

theorem get?_set_ne (d : Dict κ ν) {k k' : κ} (v : ν) (h : k ≠ k') : get? (set d k v) k' = get? d k' := by
  rw [get?_set, if_neg h]

theorem get?_erase (d : Dict κ ν) (k k' : κ) :
    get? (erase d k) k' = if k = k' then none else get? d k' := by
  induction d with
  | nil => simp [erase, get?]
  | cons p d ih =>
    obtain ⟨a, b⟩ := p
    simp only [erase]
    split
    · next h =>
      subst h; rw [ih]; simp only [get?]; split <;> rfl
    · next h =>
      simp only [get?, ih]
      split
      · next h2 => subst h2; rw [if_neg (Ne.symm h)]
      · rfl

theorem get?_eq_none_iff {d : Dict κ ν} {k : κ} : get? d k = none ↔ k ∉ keys d := by
  induction d with
  | nil => simp [keys]
  | cons p d ih =>
    simp only [get?_cons, keys, List.map_cons, List.mem_cons, not_or]
    split
    · next h => simp [h]
    · next h => rw [ih]; simp only [keys]; exact ⟨fun x => ⟨Ne.symm h, x⟩, fun x => x.2⟩

theorem has_iff {d : Dict κ ν} {k : κ} : has d k = true ↔ k ∈ keys d := by
  simp only [has]
  by_cases h : k ∈ keys d
  · simp only [h, iff_true]
    rw [Option.isSome_iff_ne_none]
    exact fun e => get?_eq_none_iff.1 e h
  · rw [get?_eq_none_iff.2 h]; simp [h]

theorem mem_of_get? {d : Dict κ ν} {k : κ} {v : ν} (h : get? d k = some v) : (k, v) ∈ d := by
  induction d with
  | nil => simp at h
  | cons p d ih =>
    simp only [get?_cons] at h
    split at h
    · next e => injection h with h; subst e; subst h; simp
    · simp [ih h]

omit [DecidableEq κ] in
theorem mem_keys_of_mem {d : Dict κ ν} {k : κ} {v : ν} (h : (k, v) ∈ d) : k ∈ keys d :=
  List.mem_map.2 ⟨(k, v), h, rfl⟩

theorem get?_of_mem {d : Dict κ ν} (hd : WF d) {k : κ} {v : ν} (h : (k, v) ∈ d) : get? d k = some v := by
  induction d with
  | nil => simp at h
  | cons p d ih =>
    simp only [WF, keys, List.map_cons, List.nodup_cons] at hd
    simp only [get?_cons]
    rw [List.mem_cons] at h
    rcases h with rfl | h
    · simp
    · rw [if_neg, ih hd.2 h]
      intro e
      exact hd.1 (e ▸ mem_keys_of_mem h)

theorem mem_iff_get? {d : Dict κ ν} (hd : WF d) {k : κ} {v : ν} : (k, v) ∈ d ↔ get? d k = some v :=
  ⟨get?_of_mem hd, mem_of_get?⟩

theorem mem_keys_set {d : Dict κ ν} {k k' : κ} {v : ν} : k' ∈ keys (set d k v) ↔ k' = k ∨ k' ∈ keys d := by
  rw [← has_iff, ← has_iff, has, has, get?_set]
  by_cases h : k = k'
  · simp [h]
  · simp [h, Ne.symm h]

theorem keys_set_of_mem {d : Dict κ ν} {k : κ} {v : ν} (h : k ∈ keys d) : keys (set d k v) = keys d := by
  induction d with
  | nil => simp [keys] at h
  | cons p d ih =>
    obtain ⟨a, b⟩ := p
    simp only [set]
    split
    · rfl
    · next hne =>
      simp only [keys, List.map_cons, List.mem_cons] at h
      rcases h with h | h
      · exact absurd h.symm hne
      · simpa [keys] using ih h

theorem keys_set_of_not_mem {d : Dict κ ν} {k : κ} {v : ν} (h : k ∉ keys d) : set d k v = d ++ [(k, v)] := by
  induction d with
  | nil => rfl
  | cons p d ih =>
    obtain ⟨a, b⟩ := p
    simp only [keys, List.map_cons, List.mem_cons, not_or] at h
    simp only [set]
    rw [if_neg (Ne.symm h.1), ih h.2]
    rfl

theorem wf_set {d : Dict κ ν} (hd : WF d) (k : κ) (v : ν) : WF (set d k v) := by
  by_cases h : k ∈ keys d
  · simpa [WF, keys_set_of_mem h] using hd
  · rw [WF, keys_set_of_not_mem h]
    simp only [keys, List.map_append, List.map_cons, List.map_nil]
    rw [List.nodup_append]
    refine ⟨hd, by simp, ?_⟩
    intro a ha b hb
    simp only [List.mem_singleton] at hb
    subst hb
    rintro rfl
    exact h ha

theorem keys_erase (d : Dict κ ν) (k : κ) : keys (erase d k) = (keys d).filter (fun x => decide (x ≠ k)) := by
  induction d with
  | nil => rfl
  | cons p d ih =>
    obtain ⟨a, b⟩ := p
    simp only [erase]
    split
    · next h => simp [keys, h] at ih ⊢; exact ih
    · next h => simp [keys, h] at ih ⊢; exact ih

theorem wf_erase {d : Dict κ ν} (hd : WF d) (k : κ) : WF (erase d k) := by
  rw [WF, keys_erase]; exact List.Nodup.filter _ hd

theorem mem_keys_erase {d : Dict κ ν} {k k' : κ} : k' ∈ keys (erase d k) ↔ k' ∈ keys d ∧ k' ≠ k := by
  simp [keys_erase]

omit [DecidableEq κ] in
theorem wf_nil : WF ([] : Dict κ ν) := by simp [WF, keys]

theorem has_eq_false_iff {d : Dict κ ν} {k : κ} : has d k = false ↔ k ∉ keys d := by
  rw [← has_iff]; simp

theorem get?_isSome_of_mem {d : Dict κ ν} {k : κ} (h : k ∈ keys d) : ∃ v, get? d k = some v := by
  have := has_iff.2 h
  rw [has, Option.isSome_iff_exists] at this
  exact this

theorem get?_perm {d e : Dict κ ν} (hd : WF d) (h : d.Perm e) : Equiv d e := by
  intro k
  have he : WF e := (h.map Prod.fst).nodup_iff.1 hd
  rcases hk : get? e k with _ | v
  · rw [get?_eq_none_iff] at hk ⊢
    exact fun hm => hk ((h.map Prod.fst).mem_iff.1 hm)
  · exact get?_of_mem hd (h.mem_iff.2 (mem_of_get? hk))

omit [DecidableEq κ] in
theorem wf_perm {d e : Dict κ ν} (hd : WF d) (h : d.Perm e) : WF e := (h.map Prod.fst).nodup_iff.1 hd

theorem get?_append (d e : Dict κ ν) (k : κ) : get? (d ++ e) k = (get? d k).or (get? e k) := by
  induction d with
  | nil => simp
  | cons p d ih =>
    simp only [List.cons_append, get?_cons, ih]
    split <;> simp

end Verif.Dict
