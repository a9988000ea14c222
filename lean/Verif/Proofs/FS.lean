import Verif.Model.FS
import Verif.Model.PlistIO
import Verif.Proofs.Dict
/-! Lemmas about the file system model. -/
namespace Verif.FS
open Verif Verif.IO

@[simp] theorem perform_canon (fs : FS) (a : Prim) : (fs.perform a).canon = fs.canon := rfl
@[simp] theorem perform_key (fs : FS) (a : Prim) (p : Path) : (fs.perform a).key p = fs.key p := rfl

theorem key_eq_nil {fs : FS} {p : Path} : fs.key p = [] ↔ p = [] := by simp [key]

theorem key_snoc (fs : FS) (d : Path) (f g : Str) :
    fs.key (d ++ [f]) = fs.key (d ++ [g]) ↔ fs.canon f = fs.canon g := by
  simp [key]

theorem snoc_ne_nil (d : Path) (f : Str) : d ++ [f] ≠ [] := by simp

theorem node?_eq {fs : FS} {p q : Path} (h : fs.key p = fs.key q) : fs.node? p = fs.node? q := by
  unfold node?
  by_cases hp : p = []
  · have : q = [] := by
      rw [hp] at h
      exact key_eq_nil.1 (h.symm.trans (by simp [key]))
    simp [hp, this]
  · have : q ≠ [] := fun hq => hp (key_eq_nil.1 (h.trans (by simp [hq, key])))
    simp [hp, this, h]

theorem node?_write (fs : FS) (p q : Path) (d : Bytes) (hp : p ≠ []) :
    (fs.perform (.write (fs.key p) d)).node? q = if fs.key q = fs.key p then some (.file d) else fs.node? q := by
  unfold node?
  by_cases hq : q = []
  · have : fs.key q ≠ fs.key p := fun h => hp (key_eq_nil.1 (h.symm.trans (by simp [hq, key])))
    simp [hq] at this ⊢
    simp [this]
  · rw [if_neg hq, if_neg hq]
    show Dict.get? (Dict.set fs.nodes (fs.key p) (.file d)) (fs.key q) = _
    rw [Dict.get?_set]
    by_cases h : fs.key q = fs.key p
    · simp [h]
    · simp [h, Ne.symm h]

theorem node?_remove (fs : FS) (p q : Path) (hq : q ≠ []) :
    (fs.perform (.remove (fs.key p))).node? q = if fs.key q = fs.key p then none else fs.node? q := by
  unfold node?
  rw [if_neg hq, if_neg hq]
  show Dict.get? (Dict.erase fs.nodes (fs.key p)) (fs.key q) = _
  rw [Dict.get?_erase]
  by_cases h : fs.key q = fs.key p
  · simp [h]
  · simp [h, Ne.symm h]

theorem setbytes_ok {fs fs' : FS} {p : Path} {d : Bytes} (h : fs.setbytes p d = .ok fs') :
    fs' = fs.perform (.write (fs.key p) d) ∧ p ≠ [] ∧ fs.node? p ≠ some .dir ∧ fs.node? p.dropLast = some .dir := by
  unfold setbytes at h
  split at h
  · exact absurd h (by simp)
  · exact absurd h (by simp)
  · rename_i hd
    split at h
    · exact absurd h (by simp)
    · rename_i hn
      injection h with h
      refine ⟨h.symm, ?_, hn, hd⟩
      rintro rfl
      exact hn rfl

theorem setbytes_of {fs : FS} {p : Path} (d : Bytes) (h1 : fs.node? p.dropLast = some .dir) (h2 : fs.node? p ≠ some .dir) :
    fs.setbytes p d = .ok (fs.perform (.write (fs.key p) d)) := by
  unfold setbytes
  rw [h1]
  dsimp only
  split
  · rename_i h; exact absurd h h2
  · rfl

theorem remove_ok {fs fs' : FS} {p : Path} (h : fs.remove p = .ok fs') :
    fs' = fs.perform (.remove (fs.key p)) ∧ ∃ d, fs.getbytes p = .ok d := by
  unfold remove at h
  split at h
  · rename_i d hd
    injection h with h
    exact ⟨h.symm, d, by simp [getbytes, hd]⟩
  · exact absurd h (by simp)
  · exact absurd h (by simp)

theorem getbytes_ok {fs : FS} {p : Path} {d : Bytes} : fs.getbytes p = .ok d ↔ fs.node? p = some (.file d) := by
  unfold getbytes
  split <;> simp_all

theorem remove_of_getbytes {fs : FS} {p : Path} {d : Bytes} (h : fs.getbytes p = .ok d) :
    fs.remove p = .ok (fs.perform (.remove (fs.key p))) := by
  rw [getbytes_ok] at h
  simp [remove, h]

theorem getbytes_eq {fs : FS} {p q : Path} (h : fs.key p = fs.key q) : fs.getbytes p = fs.getbytes q := by
  simp [getbytes, node?_eq h]

theorem getbytes_write_self (fs : FS) (p : Path) (d : Bytes) (hp : p ≠ []) :
    (fs.perform (.write (fs.key p) d)).getbytes p = .ok d := by
  rw [getbytes_ok, node?_write _ _ _ _ hp]; simp

theorem getbytes_write_ne (fs : FS) (p q : Path) (d : Bytes) (hp : p ≠ []) (h : fs.key q ≠ fs.key p) :
    (fs.perform (.write (fs.key p) d)).getbytes q = fs.getbytes q := by
  simp [getbytes, node?_write _ _ _ _ hp, h]

theorem getbytes_remove_ne (fs : FS) (p q : Path) (hq : q ≠ []) (h : fs.key q ≠ fs.key p) :
    (fs.perform (.remove (fs.key p))).getbytes q = fs.getbytes q := by
  simp [getbytes, node?_remove _ _ _ hq, h]

theorem exists_iff {fs : FS} {p : Path} : fs.exists p = true ↔ ∃ n, fs.node? p = some n := by
  simp [«exists», Option.isSome_iff_exists]

theorem exists_of_getbytes {fs : FS} {p : Path} {d : Bytes} (h : fs.getbytes p = .ok d) : fs.exists p = true :=
  exists_iff.2 ⟨_, getbytes_ok.1 h⟩

end Verif.FS

namespace Verif.IO
open Verif Verif.FS

theorem unchanged_iff {fs : FS} {p : Path} {d : Bytes} : unchanged fs p d = true ↔ fs.getbytes p = .ok d := by
  unfold unchanged
  split <;> simp_all

/-- A property list write: the directories and the other files are untouched, and on success the file holds the value. -/
theorem writePlist_spec {F : FloatCodec} {hp : Bool} {fs fs' : FS} {p : Path} {v : PyVal} {r : Except Exc Unit}
    (h : writePlist F hp fs p v = (fs', r)) :
    fs'.canon = fs.canon ∧ (∀ q, fs.key q ≠ fs.key p → fs'.node? q = fs.node? q) ∧
    (r = .ok () → ∃ data, dumpBytes F v = .ok data ∧ fs'.getbytes p = .ok data) := by
  unfold writePlist at h
  cases hp
  · simp only [Bool.false_eq_true, if_false] at h
    split at h
    · cases h; simp
    · rename_i fs1 h1
      obtain ⟨rfl, hp0, -, -⟩ := setbytes_ok h1
      split at h
      · cases h
        refine ⟨rfl, fun q hq => ?_, by simp⟩
        rw [node?_write _ _ _ _ hp0, if_neg hq]
      · rename_i data hd
        split at h
        · cases h
          refine ⟨rfl, fun q hq => ?_, by simp⟩
          rw [node?_write _ _ _ _ hp0, if_neg hq]
        · rename_i fs2 h2
          obtain ⟨rfl, -, -, -⟩ := setbytes_ok h2
          cases h
          refine ⟨rfl, fun q hq => ?_, fun _ => ⟨data, hd, ?_⟩⟩
          · rw [node?_write _ _ _ _ hp0, perform_key, perform_key, if_neg hq, node?_write _ _ _ _ hp0, if_neg hq]
          · exact getbytes_write_self _ _ _ hp0
  · simp only [if_true] at h
    split at h
    · cases h; simp
    · rename_i data hd
      split at h
      · rename_i hu
        cases h
        exact ⟨rfl, fun _ _ => rfl, fun _ => ⟨data, hd, unchanged_iff.1 hu⟩⟩
      · split at h
        · cases h; simp
        · rename_i fs1 h1
          obtain ⟨rfl, hp0, -, -⟩ := setbytes_ok h1
          cases h
          refine ⟨rfl, fun q hq => ?_, fun _ => ⟨data, hd, getbytes_write_self _ _ _ hp0⟩⟩
          rw [node?_write _ _ _ _ hp0, if_neg hq]

end Verif.IO
