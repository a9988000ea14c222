import Verif.Proofs.UfoSessions
/-! Lemmas about raw files: `writeBytesToPath` and `removePath`. -/
namespace Verif.Ufo
open Verif Verif.FS Verif.IO Verif.Spec.Ufo

theorem node?_of_not_exists {fs : FS} {p : Path} (h : fs.exists p = false) : fs.node? p = none := by
  unfold FS.exists at h
  cases hn : fs.node? p <;> simp_all

theorem makedirs_ok {fs fs' : FS} {p : Path} (h : fs.makedirs p = .ok fs') :
    fs'.canon = fs.canon ∧ (∀ q n, fs.node? q = some n → fs'.node? q = some n) ∧
    (∀ q, fs.node? q = none → fs'.node? q = none ∨ fs'.node? q = some .dir) ∧
    (∀ q, fs'.node? q ≠ fs.node? q → fs.key q <+: fs.key p) ∧ fs'.node? p = some .dir := by
  obtain ⟨h1, h2, h3, h4, h5⟩ := makedirsFrom_ok p (done := []) h
  exact ⟨h1, h2, h3, by simpa using h4, by simpa using h5 (by simp [node?])⟩

/-- The files are the same, except perhaps at `p`. -/
def SameFiles (fs fs' : FS) (p : Path) : Prop := ∀ q d, fs.key q ≠ fs.key p → (fs'.getbytes q = .ok d ↔ fs.getbytes q = .ok d)

theorem sameFiles_refl (fs : FS) (p : Path) : SameFiles fs fs p := fun _ _ _ => Iff.rfl

theorem makedirs_files {fs fs' : FS} {p : Path} (h : fs.makedirs p = .ok fs') (q : Path) (d : Bytes) : fs'.getbytes q = .ok d ↔ fs.getbytes q = .ok d := by
  obtain ⟨-, h2, h3, -⟩ := makedirs_ok h
  simp only [getbytes_ok]
  constructor
  · intro hq
    rcases hn : fs.node? q with _ | n
    · rcases h3 q hn with e | e <;> rw [e] at hq <;> cases hq
    · rw [h2 q n hn] at hq; exact hq
  · exact h2 q _

theorem setbytes_files {fs fs' : FS} {p : Path} {d : Bytes} (h : fs.setbytes p d = .ok fs') :
    fs'.canon = fs.canon ∧ fs'.getbytes p = .ok d ∧ SameFiles fs fs' p ∧ ∀ q, fs.key q ≠ fs.key p → fs'.node? q = fs.node? q := by
  obtain ⟨rfl, hp, -⟩ := setbytes_ok h
  refine ⟨rfl, getbytes_write_self fs p d hp, fun q e hq => ?_, fun q hq => ?_⟩
  · rw [getbytes_write_ne fs p q d hp hq]
  · rw [node?_write fs p q d hp, if_neg hq]

theorem writeBytesToPath_spec (hp : Bool) (fs : FS) (p : Path) (d : Bytes) :
    (writeBytesToPath hp fs p d).1.canon = fs.canon ∧
    ((writeBytesToPath hp fs p d).2 = .ok () → (writeBytesToPath hp fs p d).1.getbytes p = .ok d) ∧
    SameFiles fs (writeBytesToPath hp fs p d).1 p ∧
    (∀ q, ¬ fs.key q <+: fs.key p → (writeBytesToPath hp fs p d).1.node? q = fs.node? q) ∧
    ∀ q n, fs.key q ≠ fs.key p → fs.node? q = some n → (writeBytesToPath hp fs p d).1.node? q = some n := by
  have hne : ∀ q, ¬ fs.key q <+: fs.key p → fs.key q ≠ fs.key p := fun q h e => h (e ▸ List.prefix_refl _)
  have hdl : ∀ q, ¬ fs.key q <+: fs.key p → ¬ fs.key q <+: fs.key p.dropLast := fun q h e => h (e.trans (by
    rw [FS.key, List.map_dropLast]; exact List.dropLast_prefix _))
  unfold writeBytesToPath
  split
  · rename_i hu
    rw [Bool.and_eq_true] at hu
    exact ⟨rfl, fun _ => unchanged_iff.1 hu.2, sameFiles_refl _ _, fun _ _ => rfl, fun _ _ _ h => h⟩
  · split
    · rename_i fs' h
      obtain ⟨h1, h2, h3, h4⟩ := setbytes_files h
      exact ⟨h1, fun _ => h2, h3, fun q hq => h4 q (hne q hq), fun q n hq hn => (h4 q hq).trans hn⟩
    · exact ⟨rfl, nofun, sameFiles_refl _ _, fun _ _ => rfl, fun _ _ _ h => h⟩
    · split
      · exact ⟨rfl, nofun, sameFiles_refl _ _, fun _ _ => rfl, fun _ _ _ h => h⟩
      · rename_i fs1 hm
        obtain ⟨m1, m2, -, m4, -⟩ := makedirs_ok hm
        have mf := makedirs_files hm
        have key : ∀ q, fs1.key q = fs.key q := fun q => by unfold FS.key; rw [m1]
        split
        · exact ⟨m1, nofun, fun q e _ => mf q e, fun q hq => by_contra fun hx => hdl q hq (m4 q hx), fun q n _ hn => m2 q n hn⟩
        · rename_i fs2 h2
          obtain ⟨a1, a2, a3, a4⟩ := setbytes_files h2
          refine ⟨a1.trans m1, fun _ => a2, fun q e hq => ?_, fun q hq => ?_, fun q n hq hn => ?_⟩
          · rw [a3 q e (by rw [key, key]; exact hq), mf]
          · rw [a4 q (by rw [key, key]; exact hne q hq)]
            exact by_contra fun hx => hdl q hq (m4 q hx)
          · rw [a4 q (by rw [key, key]; exact hq)]
            exact m2 q n hn
    · exact ⟨rfl, nofun, sameFiles_refl _ _, fun _ _ => rfl, fun _ _ _ h => h⟩

/-! ### removing -/

theorem removedir_ok {fs fs' : FS} {p : Path} (h : fs.removedir p = .ok fs') :
    fs' = fs.perform (.remove (fs.key p)) ∧ fs.node? p = some .dir ∧ ∀ e ∈ fs.nodes, fs.key p <+: e.1 → e.1 = fs.key p := by
  unfold removedir at h
  split at h
  · rename_i hd
    split at h
    · cases h
    · rename_i hn
      cases h
      refine ⟨rfl, hd, fun e he hp => ?_⟩
      by_contra hne
      refine hn (List.any_eq_true.2 ⟨e, he, ?_⟩)
      simpa [List.isPrefixOf_iff_prefix] using ⟨hp, hne⟩
  · cases h
  · cases h

/-- Removing empty directories: files stay, and only directories on the way up that are empty go. -/
theorem removeEmpty_spec : ∀ (rev : List Str) (fs : FS),
    (removeEmpty fs rev).1.canon = fs.canon ∧ (∀ q d, q ≠ [] → ((removeEmpty fs rev).1.getbytes q = .ok d ↔ fs.getbytes q = .ok d)) ∧
    (∀ q, fs.node? q = none → (removeEmpty fs rev).1.node? q = none) ∧
    (∀ q, ¬ fs.key q <+: fs.key rev.reverse → (removeEmpty fs rev).1.node? q = fs.node? q)
  | [], fs => ⟨rfl, fun _ _ _ => Iff.rfl, fun _ h => h, fun _ _ => rfl⟩
  | c :: rest, fs => by
    have same : fs.canon = fs.canon ∧ (∀ q d, q ≠ [] → (fs.getbytes q = .ok d ↔ fs.getbytes q = .ok d)) ∧ (∀ q, fs.node? q = none → fs.node? q = none) ∧
        (∀ q, ¬ fs.key q <+: fs.key (c :: rest).reverse → fs.node? q = fs.node? q) := ⟨rfl, fun _ _ _ => Iff.rfl, fun _ h => h, fun _ _ => rfl⟩
    unfold removeEmpty
    split
    · exact same
    · exact same
    · rename_i fs1 h1
      obtain ⟨rfl, hd, -⟩ := removedir_ok h1
      obtain ⟨i1, i2, i3, i4⟩ := removeEmpty_spec rest (fs.perform (.remove (fs.key (rest.reverse ++ [c]))))
      have hroot : ∀ (g : FS) (q : Path), g.node? q = none → q ≠ [] := fun g q h e => by subst e; simp [node?] at h
      refine ⟨i1, fun q d hq => ?_, fun q hq => ?_, fun q hq => ?_⟩
      · rw [i2 q d hq]
        by_cases hk : fs.key q = fs.key (rest.reverse ++ [c])
        · rw [getbytes_ok, getbytes_ok, node?_remove _ _ _ hq, if_pos hk, node?_eq hk, hd]
          simp
        · rw [getbytes_remove_ne _ _ _ hq hk]
      · refine i3 q ?_
        rw [node?_remove _ _ _ (hroot _ _ hq)]
        split
        · rfl
        · exact hq
      · have hq0 : q ≠ [] := fun e => hq (by rw [e]; simp [FS.key])
        have hq' : ¬ fs.key q <+: fs.key rest.reverse := fun e => hq (e.trans (by simp [FS.key]))
        rw [i4 q hq', node?_remove _ _ _ hq0, if_neg]
        intro e
        refine hq ?_
        rw [List.reverse_cons, e]
        exact List.prefix_refl _

theorem removetree_ok {fs fs' : FS} {p : Path} (h : fs.removetree p = .ok fs') : fs' = fs.perform (.rmtree (fs.key p)) ∧ fs.node? p = some .dir := by
  unfold removetree at h
  split at h <;> cases h
  exact ⟨rfl, by assumption⟩

/-- The first part of `removePath`. -/
theorem removeNode_spec (fs : FS) (p : Path) (hp : p ≠ []) (force : Bool) :
    (removeNode fs p force).1.canon = fs.canon ∧
    ((removeNode fs p force).2 = .ok () → (removeNode fs p force).1.node? p = none) ∧
    (∀ q, ¬ fs.key p <+: fs.key q → (removeNode fs p force).1.node? q = fs.node? q) ∧
    (∀ q, fs.node? q = none → (removeNode fs p force).1.node? q = none) ∧
    ((removeNode fs p force).2 ≠ .ok () → (removeNode fs p force).1 = fs) := by
  have hne : ∀ q, ¬ fs.key p <+: fs.key q → fs.key q ≠ fs.key p := fun q h e => h (e ▸ List.prefix_refl _)
  have hroot : ∀ (q : Path), fs.node? q = none → q ≠ [] := fun q h e => by subst e; simp [node?] at h
  unfold removeNode
  split
  · rename_i fs' h
    obtain ⟨rfl, -⟩ := remove_ok h
    refine ⟨rfl, fun _ => ?_, fun q hq => ?_, fun q hq => ?_, fun h => absurd rfl h⟩
    · rw [node?_remove _ _ _ hp, if_pos rfl]
    · by_cases hq0 : q = []
      · subst hq0; simp [node?]
      · rw [node?_remove _ _ _ hq0, if_neg (hne q hq)]
    · rw [node?_remove _ _ _ (hroot q hq)]
      split
      · rfl
      · exact hq
  · split
    · rename_i fs' h
      obtain ⟨rfl, -⟩ := removetree_ok h
      refine ⟨rfl, fun _ => ?_, fun q hq => ?_, fun q hq => ?_, fun h => absurd rfl h⟩
      · rw [node?_rmtree _ _ _ hp, if_pos (List.prefix_refl _)]
      · by_cases hq0 : q = []
        · subst hq0; simp [node?]
        · rw [node?_rmtree _ _ _ hq0, if_neg hq]
      · rw [node?_rmtree _ _ _ (hroot q hq)]
        split
        · rfl
        · exact hq
    · exact ⟨rfl, nofun, fun _ _ => rfl, fun _ h => h, fun _ => rfl⟩
  · rename_i h
    have : fs.node? p = none := by
      unfold FS.remove at h
      split at h <;> first | (cases h; done) | assumption
    split
    · exact ⟨rfl, fun _ => this, fun _ _ => rfl, fun _ h => h, fun h => absurd rfl h⟩
    · exact ⟨rfl, nofun, fun _ _ => rfl, fun _ h => h, fun _ => rfl⟩
  · exact ⟨rfl, nofun, fun _ _ => rfl, fun _ h => h, fun _ => rfl⟩

theorem removePath_spec (fs : FS) (p : Path) (hp : p ≠ []) (force re : Bool) :
    (removePath fs p force re).1.canon = fs.canon ∧
    ((removePath fs p force re).2 = .ok () → (removePath fs p force re).1.node? p = none) ∧
    (∀ q d, ¬ fs.key p <+: fs.key q → ((removePath fs p force re).1.getbytes q = .ok d ↔ fs.getbytes q = .ok d)) ∧
    (∀ q, ¬ fs.key p <+: fs.key q → ¬ fs.key q <+: fs.key p → (removePath fs p force re).1.node? q = fs.node? q) := by
  obtain ⟨n1, n2, n3, n4, n5⟩ := removeNode_spec fs p hp force
  have key : ∀ q, (removeNode fs p force).1.key q = fs.key q := fun q => by unfold FS.key; rw [n1]
  unfold removePath
  split
  · rename_i fs' e h
    rw [h] at n1 n3 n5
    dsimp only at *
    have := n5 nofun
    subst this
    exact ⟨rfl, nofun, fun _ _ _ => Iff.rfl, fun _ _ _ => rfl⟩
  · rename_i fs' h
    rw [h] at n1 n2 n3 n4 key
    dsimp only at *
    split
    · obtain ⟨e1, e2, e3, e4⟩ := removeEmpty_spec p.dropLast.reverse fs'
      rw [List.reverse_reverse] at e4
      refine ⟨e1.trans n1, fun _ => e3 p (n2 rfl), fun q d hq => ?_, fun q hq hq' => ?_⟩
      · by_cases hq0 : q = []
        · subst hq0; simp [getbytes_ok, node?]
        · rw [e2 q d hq0, getbytes_ok, getbytes_ok, n3 q hq]
      · rw [e4 q ?_, n3 q hq]
        rw [key, key]
        exact fun h => hq' (h.trans (by rw [FS.key, List.map_dropLast]; exact List.dropLast_prefix _))
    · exact ⟨n1, fun _ => n2 rfl, fun q d hq => by rw [getbytes_ok, getbytes_ok, n3 q hq], fun q hq _ => n3 q hq⟩

end Verif.Ufo
