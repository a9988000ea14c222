import Verif.Props.UfoRemove
import Verif.Proofs.UfoMethods
/-! The methods of a file system keep it a tree. -/
namespace Verif.Props
open Verif Verif.FS Verif.IO Verif.Ufo Verif.Spec.Ufo

theorem tidy_intro {fs : FS} (h1 : Dict.WF fs.nodes) (h2 : ∀ k n, Dict.get? fs.nodes k = some n → ∃ p : Path, p ≠ [] ∧ k = fs.key p)
    (h3 : ∀ p n, fs.node? p = some n → fs.node? p.dropLast = some .dir) : Tidy fs := by
  refine ⟨h1, fun k hk => ?_, fun p hp => ?_⟩
  · obtain ⟨⟨k', n⟩, hm, rfl⟩ := List.mem_map.1 hk
    exact h2 _ n (Dict.get?_of_mem h1 hm)
  · obtain ⟨n, hn⟩ := Option.isSome_iff_exists.1 hp
    exact h3 p n hn

theorem tidy_key {fs : FS} (ht : Tidy fs) {k : Path} {n : Node} (h : Dict.get? fs.nodes k = some n) : ∃ p : Path, p ≠ [] ∧ k = fs.key p :=
  ht.canonical k (List.mem_map.2 ⟨_, Dict.mem_of_get? h, rfl⟩)

theorem tidy_parent {fs : FS} (ht : Tidy fs) {p : Path} {n : Node} (h : fs.node? p = some n) : fs.node? p.dropLast = some .dir :=
  ht.parents p (by rw [h]; rfl)

theorem key_dropLast (fs : FS) (p : Path) : fs.key p.dropLast = (fs.key p).dropLast := by simp [FS.key, List.map_dropLast]

theorem dropLast_ne {fs : FS} {p : Path} (hp : p ≠ []) : fs.key p.dropLast ≠ fs.key p := by
  intro h
  have := congrArg List.length h
  have h0 := List.length_pos_of_ne_nil hp
  simp [FS.key] at this
  omega

theorem tidy_write {fs : FS} (ht : Tidy fs) {p : Path} (d : Bytes) (hp : p ≠ []) (hd : fs.node? p ≠ some .dir) (hpar : fs.node? p.dropLast = some .dir) :
    Tidy (fs.perform (.write (fs.key p) d)) := by
  refine tidy_intro (perform_wf ht.once _) (fun k n hk => ?_) fun q n hq => ?_
  · have hk' : Dict.get? (Dict.set fs.nodes (fs.key p) (.file d)) k = some n := hk
    rw [Dict.get?_set] at hk'
    split at hk'
    · rename_i e
      exact ⟨p, hp, e.symm⟩
    · exact tidy_key ht hk'
  · rw [node?_write _ _ _ _ hp] at hq ⊢
    split at hq
    · rename_i e
      rw [key_dropLast, e, ← key_dropLast, if_neg (dropLast_ne hp), ← hpar]
      exact node?_eq (by rw [key_dropLast, e, ← key_dropLast])
    · have := tidy_parent ht hq
      rw [if_neg, this]
      intro e
      rw [node?_eq e] at this
      exact hd this

theorem tidy_mkdir {fs : FS} (ht : Tidy fs) {p : Path} (hp : p ≠ []) (hpar : fs.node? p.dropLast = some .dir) :
    Tidy (fs.perform (.mkdir (fs.key p))) := by
  refine tidy_intro (perform_wf ht.once _) (fun k n hk => ?_) fun q n hq => ?_
  · have hk' : Dict.get? (Dict.set fs.nodes (fs.key p) .dir) k = some n := hk
    rw [Dict.get?_set] at hk'
    split at hk'
    · rename_i e
      exact ⟨p, hp, e.symm⟩
    · exact tidy_key ht hk'
  · rw [node?_mkdir _ _ _ hp] at hq ⊢
    split
    · rfl
    · split at hq
      · rename_i e
        rw [← hpar]
        exact node?_eq (by rw [key_dropLast, e, ← key_dropLast])
      · exact tidy_parent ht hq

theorem tidy_setbytes {fs fs' : FS} (ht : Tidy fs) {p : Path} {d : Bytes} (h : fs.setbytes p d = .ok fs') : Tidy fs' := by
  obtain ⟨rfl, h1, h2, h3⟩ := setbytes_ok h
  exact tidy_write ht d h1 h2 h3

theorem tidy_makedir {fs fs' : FS} (ht : Tidy fs) {p : Path} (h : fs.makedir p = .ok fs') : Tidy fs' := by
  unfold makedir at h
  split at h
  · cases h; exact ht
  · cases h
  · rename_i hn
    split at h
    · cases h
    · cases h
    · rename_i hd
      cases h
      refine tidy_mkdir ht ?_ hd
      rintro rfl
      simp [node?] at hn

theorem tidy_makedirsFrom : ∀ (rest : Path) {fs fs' : FS} {done : Path}, Tidy fs → makedirsFrom fs done rest = .ok fs' → Tidy fs'
  | [], fs, fs', done, ht, h => by cases h; exact ht
  | c :: rest, fs, fs', done, ht, h => by
    unfold makedirsFrom at h
    split at h
    · cases h
    · rename_i fs1 h1
      exact tidy_makedirsFrom rest (tidy_makedir ht h1) h

theorem tidy_makedirs {fs fs' : FS} (ht : Tidy fs) {p : Path} (h : fs.makedirs p = .ok fs') : Tidy fs' := tidy_makedirsFrom p ht h

/-- Removing one entry that has nothing below it. -/
theorem tidy_erase {fs : FS} (ht : Tidy fs) {p : Path} (hn : ∀ q n, fs.node? q = some n → q ≠ [] → fs.key q.dropLast = fs.key p → fs.key q = fs.key p) :
    Tidy (fs.perform (.remove (fs.key p))) := by
  refine tidy_intro (perform_wf ht.once _) (fun k n hk => ?_) fun q n hq => ?_
  · have hk' : Dict.get? (Dict.erase fs.nodes (fs.key p)) k = some n := hk
    rw [Dict.get?_erase] at hk'
    split at hk'
    · cases hk'
    · exact tidy_key ht hk'
  · by_cases h0 : q = []
    · subst h0; rfl
    rw [node?_remove _ _ _ h0] at hq
    split at hq
    · cases hq
    · rename_i hne
      by_cases h1 : q.dropLast = []
      · rw [h1]; rfl
      · rw [node?_remove _ _ _ h1, if_neg fun e => hne (hn q n hq h0 e)]
        exact tidy_parent ht hq

theorem tidy_remove {fs fs' : FS} (ht : Tidy fs) {p : Path} (h : fs.remove p = .ok fs') : Tidy fs' := by
  obtain ⟨rfl, d, hd⟩ := remove_ok h
  refine tidy_erase ht fun q n hq h0 e => ?_
  have := tidy_parent ht hq
  rw [node?_eq e, getbytes_ok.1 hd] at this
  cases this

theorem tidy_removedir {fs fs' : FS} (ht : Tidy fs) {p : Path} (h : fs.removedir p = .ok fs') : Tidy fs' := by
  obtain ⟨rfl, -, he⟩ := removedir_ok h
  refine tidy_erase ht fun q n hq h0 e => ?_
  rw [node?_of_ne h0] at hq
  refine he _ (Dict.mem_of_get? hq) ?_
  rw [← e, key_dropLast]
  exact List.dropLast_prefix _

theorem tidy_removetree {fs fs' : FS} (ht : Tidy fs) {p : Path} (h : fs.removetree p = .ok fs') : Tidy fs' := by
  obtain ⟨rfl, -⟩ := removetree_ok h
  refine tidy_intro (perform_wf ht.once _) (fun k n hk => ?_) fun q n hq => ?_
  · have hk' : Dict.get? (dropTree fs.nodes (fs.key p)) k = some n := hk
    rw [get?_dropTree] at hk'
    split at hk'
    · cases hk'
    · exact tidy_key ht hk'
  · by_cases h0 : q = []
    · subst h0; rfl
    rw [node?_rmtree _ _ _ h0] at hq
    split at hq
    · cases hq
    · rename_i hne
      by_cases h1 : q.dropLast = []
      · rw [h1]; rfl
      · rw [node?_rmtree _ _ _ h1, if_neg fun e => hne (e.trans (by rw [key_dropLast]; exact List.dropLast_prefix _))]
        exact tidy_parent ht hq

end Verif.Props
