import Verif.Proofs.CopyWithin
/-! Copying from one place of a UFO to another one of the same UFO: C129. -/
namespace Verif.Props
open Verif Verif.FS Verif.Ufo Verif.Proofs.Walk Verif.Proofs.CopyWithin

/-- Without a source, or with something at the destination, the copy is refused and nothing is changed. -/
theorem C129_refused (k : Nat) (fs : FS) (p q : Path) (h : fs.exists p = false ∨ fs.exists q = true) : copyWithin k fs p q = some (fs, .error .ufoLibError) := by
  unfold copyWithin
  by_cases h1 : fs.exists p = false
  · rw [if_pos h1]
  · rw [if_neg h1, if_pos (h.resolve_left h1)]

/-- A file is copied: the destination holds its bytes, and what was there before is as it was. -/
theorem C129_file (k : Nat) (fs : FS) (ht : Tidy fs) (p q : Path) (b : Bytes) (hp : fs.node? p = some (.file b)) (hq : fs.exists q = false)
    (hf : ∀ r b, r <+: q → fs.node? r ≠ some (.file b)) :
    ∃ fs', copyWithin k fs p q = some (fs', .ok ()) ∧ fs'.node? q = some (.file b) ∧ (∀ r n, fs.node? r = some n → fs'.node? r = some n) ∧
      ∀ r, ¬ fs.key r <+: fs.key q → fs'.node? r = fs.node? r := by
  obtain ⟨fs1, fs2, h1, h2, -, hc, -, -, h7, h8⟩ := prepared ht hq hf
  have hx := node?_of_not_exists hq
  have hne : q ≠ [] := by rintro rfl; cases hx
  have hx1 : fs1.node? q = none := by
    obtain ⟨m1, m2, m3, m4, m5⟩ := makedirs_ok h1
    by_contra hn
    have := (m4 q (by rw [hx]; exact hn)).length_le
    have h2 : 0 < q.length := List.length_pos_iff.2 hne
    simp [FS.key] at this
    omega
  have hset := setbytes_of (fs := fs1) (p := q) b (makedirs_ok h1).2.2.2.2 (by rw [hx1]; simp)
  have hp1 := (h8 p _ hp).2
  refine ⟨fs1.perform (.write (fs1.key q) b), ?_, by rw [node?_write _ _ _ _ hne, if_pos rfl], fun r n hr => ?_, fun r hr => ?_⟩
  · unfold copyWithin
    rw [if_neg (by rw [exists_iff.2 ⟨_, hp⟩]; simp), if_neg (by rw [hq]; simp), h1]
    dsimp only
    rw [hp1]
    dsimp only
    rw [getbytes_ok.2 hp1]
    dsimp only
    rw [hset]
  · rw [node?_write _ _ _ _ hne, if_neg, (h8 r n hr).2]
    intro e
    rw [← node?_eq (fs := fs) (p := r) (q := q) (by unfold FS.key at e ⊢; rw [hc] at e; exact e), hr] at hx
    cases hx
  · rw [node?_write _ _ _ _ hne, if_neg, (h7 r hr).2]
    intro e
    refine hr ?_
    unfold FS.key at e ⊢
    rw [hc] at e
    rw [e]
    exact List.prefix_refl _

/-- A directory that is copied to a place outside of it: the copy ends, after looking at no more directories than there are files and directories; at the destination is
everything that is below the source, which is as before, like all that is not on the way to the destination. -/
theorem C129_directory_partial (fs : FS) (ht : Tidy fs) (hi : ∀ a, fs.canon (fs.canon a) = fs.canon a) (p q : Path) (hp : fs.node? p = some .dir) (hq : fs.exists q = false)
    (hf : ∀ r b, r <+: q → fs.node? r ≠ some (.file b)) (hout : ¬ fs.key p <+: fs.key q) :
    ∃ bound, ∀ k, bound ≤ k → ∃ fs', copyWithin k fs p q = some (fs', .ok ()) ∧ (∀ x, fs'.node? (q ++ x) = fs.node? (p ++ x)) ∧
      ∀ r, ¬ fs.key q <+: fs.key r → ¬ fs.key r <+: fs.key q → fs'.node? r = fs.node? r := by
  obtain ⟨fs1, fs2, h1, h2, h3, h4, h5, h6, h7, h8⟩ := prepared ht hq hf
  have hk2 : ∀ r, fs2.key r = fs.key r := fun r => by unfold FS.key; rw [h5]
  have hx := node?_of_not_exists hq
  have hp0 : p ≠ [] := by rintro rfl; exact hout (by simp [FS.key])
  have hin : ¬ fs.key q <+: fs.key p := by
    rintro ⟨s, hs⟩
    have e : fs.key (q ++ p.drop q.length) = fs.key p := by
      have := congrArg (List.drop (fs.key q).length) hs
      rw [List.drop_left] at this
      rw [key_append, ← hs, this]
      simp [FS.key, List.map_drop]
    have := above ht q (p.drop q.length) (by rw [node?_eq e, hp]; rfl)
    rw [hx] at this
    cases this
  have hsrc : ∀ x, fs2.node? (p ++ x) = fs.node? (p ++ x) := fun x => (h7 _ fun hh => by
    rw [key_append] at hh
    exact hout ((List.prefix_append _ _).trans hh)).1
  refine ⟨fs2.nodes.length, fun k hk => ?_⟩
  have hp2 : fs2.node? p = some .dir := (h8 p _ hp).1
  obtain ⟨fs', all, w1, w2, w3, w4⟩ := apart_walk (src := fs2) (p := p) (q := q) (fun a => by rw [h5]; exact hi a) hp0 (by rw [hk2, hk2]; exact hout) (by rw [hk2, hk2]; exact hin) k fs2 [] [p]
    ⟨by simp, by simpa using hp2, by simp, by simp, by simp, by simp⟩
    ⟨h3, rfl, fun _ _ => rfl, h6, fun _ _ _ h => by simp at h, fun t m _ _ => by
      rw [List.append_assoc, (h7 (q ++ (t ++ [m])) (fun hh => by have := hh.length_le; simp [FS.key] at this)).1]
      cases hn : fs.node? (q ++ (t ++ [m])) with
      | none => rfl
      | some n =>
        have := above ht q _ (by rw [hn]; rfl)
        rw [hx] at this
        cases this⟩
    (by simp) (by simp) (by simpa using hk)
  refine ⟨fs', ?_, fun x => ?_, fun r hr1 hr2 => ?_⟩
  · unfold copyWithin
    rw [if_neg (by rw [exists_iff.2 ⟨_, hp⟩]; simp), if_neg (by rw [hq]; simp), h1]
    dsimp only
    rw [(h8 p _ hp).2]
    dsimp only
    rw [h2]
    exact w1
  · rw [apart_end h3 (fun a => by rw [h5]; exact hi a) hp2 w2 w3 w4 x, hsrc]
  · rw [w2.out r (by rw [hk2, hk2]; exact hr1), (h7 r hr2).1]

/-- The full claim fails for a place inside of the directory: for no directory and no place inside of it does the copy ever end, since what it makes comes before it again. -/
theorem C129_inside_refuted (fs : FS) (ht : Tidy fs) (hi : ∀ a, fs.canon (fs.canon a) = fs.canon a) (p q : Path) (hp : fs.node? p = some .dir) (hq : fs.exists q = false)
    (hf : ∀ r b, r <+: q → fs.node? r ≠ some (.file b)) (hin : fs.key p <+: fs.key q) (k : Nat) : copyWithin k fs p q = none := by
  obtain ⟨fs1, fs2, h1, h2, h3, h4, h5, h6, h7, h8⟩ := prepared ht hq hf
  have hx := node?_of_not_exists hq
  have hid : ((q.drop p.length).map fs.canon).map fs.canon = (q.drop p.length).map fs.canon := by
    rw [List.map_map]; exact List.map_congr_left fun a _ => hi a
  have hkey : q.map fs.canon = p.map fs.canon ++ (q.drop p.length).map fs.canon := by
    obtain ⟨s, hs⟩ := hin
    have := congrArg (List.drop (fs.key p).length) hs
    rw [List.drop_left] at this
    have e : s = (q.drop p.length).map fs.canon := by rw [this]; simp [FS.key, List.map_drop]
    rw [← e]
    exact hs.symm
  have hy : (q.drop p.length).map fs.canon ≠ [] := by
    intro e
    rw [e, List.append_nil] at hkey
    rw [node?_eq (fs := fs) (p := q) (q := p) hkey, hp] at hx
    cases hx
  have hall : fs2.node? (p ++ (q.drop p.length).map fs.canon) = some .dir := by
    rw [← h6]
    refine node?_eq ?_
    unfold FS.key
    rw [h5, List.map_append, hid, hkey]
  unfold copyWithin
  rw [if_neg (by rw [exists_iff.2 ⟨_, hp⟩]; simp), if_neg (by rw [hq]; simp), h1]
  dsimp only
  rw [(h8 p _ hp).2]
  dsimp only
  rw [h2]
  refine nested_walk (c := fs.canon) hi hy hid hkey k fs2 [p] ⟨h3, h5, fun z a ha => ?_, fun d hd => ?_, 0, by simp [around], fun i hle => ?_⟩
  · by_cases hz : z = []
    · subst hz
      rw [List.append_nil] at ha ⊢
      rw [h6] at ha
      cases ha
      exact ⟨.dir, (h8 p _ hp).1, Iff.rfl⟩
    · rw [(h7 (q ++ z) (fun hh => by
        have h1 := hh.length_le
        have h2 := List.length_pos_iff.2 hz
        rw [key_append, List.length_append] at h1
        simp only [FS.key, List.length_map] at h1
        omega)).1] at ha
      have := above ht q z (by rw [ha]; rfl)
      rw [hx] at this
      cases this
  · rw [List.mem_singleton] at hd
    exact ⟨[], by rw [hd, List.append_nil], rfl, by rw [List.append_nil]; exact (h8 p _ hp).1, by rw [List.append_nil]; exact h6⟩
  · refine around_down h3 _ i ?_ (by rw [around_all]; exact hall)
    simpa using hle

/-- A UFO with a directory of data. -/
def ufo129 : FS :=
  { canon := id, nodes := [([c!"data"], .dir), ([c!"data", c!"a"], .file [1]), ([c!"data", c!"x"], .dir), ([c!"data", c!"x", c!"b"], .file [2])], log := [] }

example : (copyWithin 5 ufo129 [c!"data"] [c!"backup", c!"1"]).map (fun r => (r.1.getbytes [c!"backup", c!"1", c!"x", c!"b"]).toOption) = some (some [2]) := by decide +kernel
example : (copyWithin 5 ufo129 [c!"data", c!"a"] [c!"data", c!"c"]).map (fun r => (r.1.getbytes [c!"data", c!"c"]).toOption) = some (some [1]) := by decide +kernel
example : (copyWithin 40 ufo129 [c!"data"] [c!"data", c!"x", c!"backup"]).isNone = true := by decide +kernel

/-- The hypotheses hold for it. -/
example : Tidy ufo129 := ⟨show (ufo129.nodes.map Prod.fst).Nodup by decide +kernel, fun k hk => ⟨k, by
    revert hk; revert k; decide +kernel, by simp [ufo129]⟩, fun p hp => by
  by_cases h0 : p = []
  · subst h0; rfl
  · rw [node?_of_ne h0, ufo129] at hp
    obtain ⟨n, hn⟩ := Option.isSome_iff_exists.1 hp
    have hm := Dict.mem_of_get? hn
    simp only [FS.key, List.map_id] at hm
    simp only [List.mem_cons, Prod.mk.injEq, List.not_mem_nil, or_false] at hm
    rcases hm with ⟨rfl, -⟩ | ⟨rfl, -⟩ | ⟨rfl, -⟩ | ⟨rfl, -⟩ <;> decide +kernel⟩
example : ufo129.node? [c!"data"] = some .dir ∧ ufo129.exists [c!"backup", c!"1"] = false ∧ ufo129.exists [c!"data", c!"x", c!"backup"] = false ∧
    ¬ ufo129.key [c!"data"] <+: ufo129.key [c!"backup", c!"1"] ∧ ufo129.key [c!"data"] <+: ufo129.key [c!"data", c!"x", c!"backup"] := by decide +kernel
example : ∀ r b, r <+: [c!"data", c!"x", c!"backup"] → ufo129.node? r ≠ some (.file b) := by
  intro r b hr
  simp only [List.prefix_cons_iff, List.prefix_nil] at hr
  have hd : ∀ r, ufo129.node? r = some .dir ∨ ufo129.node? r = none → ufo129.node? r ≠ some (.file b) := fun r h e => by
    rw [e] at h
    rcases h with h | h <;> cases h
  rcases hr with rfl | ⟨_, rfl, rfl | ⟨_, rfl, rfl | ⟨_, rfl, rfl⟩⟩⟩ <;> exact hd _ (by decide +kernel)

end Verif.Props
