import Verif.Proofs.UfoFiles
/-! Removing empty directories. -/
namespace Verif.Ufo
open Verif Verif.FS Verif.IO

/-- There is something at a stored path. -/
def At (fs : FS) (k : Path) : Prop := k ∈ Dict.keys fs.nodes

theorem at_iff {fs : FS} {q : Path} (hq : q ≠ []) : At fs (fs.key q) ↔ (fs.node? q).isSome = true := by
  unfold At node?
  rw [if_neg hq]
  cases h : Dict.get? fs.nodes (fs.key q) with
  | none => simpa using Dict.get?_eq_none_iff.1 h
  | some v => simpa using Dict.mem_keys_of_mem (Dict.mem_of_get? h)

theorem key_ne_nil {fs : FS} {q : Path} : fs.key q ≠ [] ↔ q ≠ [] := by simp [FS.key]

/-- Removing the empty directories above a path that are there: it succeeds, and exactly those directories stay that hold something off the path. -/
theorem removeEmpty_keeps : ∀ (rev : List Str) (fs : FS), (∀ q, q <+: rev.reverse → fs.node? q = some .dir) →
    (removeEmpty fs rev).2 = .ok () ∧ ∀ q, q <+: rev.reverse → q ≠ [] →
      ((removeEmpty fs rev).1.node? q = some .dir ↔ ∃ k, At fs k ∧ fs.key q <+: k ∧ ¬ k <+: fs.key rev.reverse)
  | [], fs, _ => ⟨rfl, fun q hq hne => absurd (List.prefix_nil.1 hq) hne⟩
  | c :: rest, fs, hd => by
    have hrev : (c :: rest).reverse = rest.reverse ++ [c] := List.reverse_cons
    rw [hrev] at hd
    rw [hrev]
    have hp := hd _ (List.prefix_refl _)
    have hdl : ∀ k, fs.key (rest.reverse ++ [c]) <+: k → k ≠ fs.key (rest.reverse ++ [c]) → ¬ k <+: fs.key (rest.reverse ++ [c]) := fun k h1 h2 h3 =>
      h2 (h3.eq_of_length_le h1.length_le)
    by_cases hany : fs.nodes.any (fun e => (fs.key (rest.reverse ++ [c])).isPrefixOf e.1 && e.1 != fs.key (rest.reverse ++ [c])) = true
    · have hr : removeEmpty fs (c :: rest) = (fs, .ok ()) := by
        unfold removeEmpty removedir
        simp only [hp, hany, if_true]
      rw [hr]
      refine ⟨rfl, fun q hq hne => ⟨fun _ => ?_, fun _ => hd q hq⟩⟩
      obtain ⟨e, he, h⟩ := List.any_eq_true.1 hany
      simp only [Bool.and_eq_true, List.isPrefixOf_iff_prefix, bne_iff_ne] at h
      refine ⟨e.1, Dict.mem_keys_of_mem he, ?_, hdl _ h.1 h.2⟩
      exact (List.IsPrefix.map _ hq).trans h.1
    · have hnone : ∀ k, At fs k → fs.key (rest.reverse ++ [c]) <+: k → k = fs.key (rest.reverse ++ [c]) := by
        intro k hk h
        by_contra hne
        obtain ⟨e, he, rfl⟩ := List.mem_map.1 hk
        exact hany (List.any_eq_true.2 ⟨e, he, by simpa [List.isPrefixOf_iff_prefix] using ⟨h, hne⟩⟩)
      have hr : removeEmpty fs (c :: rest) = removeEmpty (fs.perform (.remove (fs.key (rest.reverse ++ [c])))) rest := by
        conv => lhs; unfold removeEmpty removedir
        simp only [hp, hany, Bool.false_eq_true, if_false]
      have hlen : ∀ q, q <+: rest.reverse → fs.key q ≠ fs.key (rest.reverse ++ [c]) := fun q hq e => by
        have := congrArg List.length e
        have h2 := hq.length_le
        simp only [FS.key, List.length_map, List.length_append, List.length_singleton] at this
        omega
      have hat : ∀ k, At (fs.perform (.remove (fs.key (rest.reverse ++ [c])))) k ↔ At fs k ∧ k ≠ fs.key (rest.reverse ++ [c]) := fun k => Dict.mem_keys_erase
      obtain ⟨h1, h2⟩ := removeEmpty_keeps rest (fs.perform (.remove (fs.key (rest.reverse ++ [c])))) (fun q hq => by
        have := hd q (hq.trans (List.prefix_append _ _))
        unfold node? at this ⊢
        split
        · rfl
        · rename_i hne
          rw [if_neg hne] at this
          show Dict.get? (Dict.erase fs.nodes _) (fs.key q) = _
          rw [Dict.get?_erase, if_neg (hlen q hq).symm]
          exact this)
      rw [hr]
      refine ⟨h1, fun q hq hne => ?_⟩
      rcases List.prefix_concat_iff.1 hq with rfl | hq
      · constructor
        · intro h
          have := (removeEmpty_spec rest (fs.perform (.remove (fs.key (rest.reverse ++ [c]))))).2.2.1 (rest.reverse ++ [c]) (by
            unfold node?
            rw [if_neg hne]
            show Dict.get? (Dict.erase fs.nodes _) (fs.key _) = _
            rw [Dict.get?_erase, if_pos rfl])
          rw [this] at h
          cases h
        · rintro ⟨k, k1, k2, k3⟩
          exact absurd (hnone k k1 k2 ▸ List.prefix_refl _) k3
      · rw [h2 q hq hne]
        constructor
        · rintro ⟨k, k1, k2, k3⟩
          refine ⟨k, ((hat k).1 k1).1, k2, fun h => ?_⟩
          rw [show fs.key (rest.reverse ++ [c]) = fs.key rest.reverse ++ [fs.canon c] by simp [FS.key], List.prefix_concat_iff] at h
          rcases h with h | h
          · exact ((hat k).1 k1).2 (by simpa [FS.key] using h)
          · exact k3 h
        · rintro ⟨k, k1, k2, k3⟩
          refine ⟨k, (hat k).2 ⟨k1, fun e => k3 (e ▸ List.prefix_refl _)⟩, k2, fun h => k3 (h.trans ?_)⟩
          show fs.key rest.reverse <+: fs.key (rest.reverse ++ [c])
          simp [FS.key]

end Verif.Ufo
