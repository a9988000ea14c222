import Verif.Proofs.FSTree
import Verif.Proofs.GlyphSet
import Verif.Spec.FS
import Verif.Model.LayerInfo
/-! Which mutations a call makes: the paths concerned bound what can change. -/
namespace Verif.FS
open Verif Verif.Spec.FS

/-- The paths a mutation is about. -/
def _root_.Verif.Prim.paths : Prim → List Path
  | .write p _ => [p]
  | .remove p => [p]
  | .mkdir p => [p]
  | .rmtree p => [p]
  | .move s d => [s, d]

theorem apply_frame (nodes : Dict Path Node) (a : Prim) (k : Path) (h : ∀ p ∈ a.paths, ¬ p <+: k) :
    Dict.get? (a.apply nodes) k = Dict.get? nodes k := by
  cases a with
  | write p d => exact Dict.get?_set_ne _ _ fun e => h p (by simp [Prim.paths]) (e ▸ List.prefix_refl _)
  | remove p =>
    show Dict.get? (Dict.erase nodes p) k = _
    rw [Dict.get?_erase, if_neg]
    rintro rfl
    exact h _ (by simp [Prim.paths]) (List.prefix_refl _)
  | mkdir p => exact Dict.get?_set_ne _ _ fun e => h p (by simp [Prim.paths]) (e ▸ List.prefix_refl _)
  | rmtree p =>
    show Dict.get? (dropTree nodes p) k = _
    rw [get?_dropTree, if_neg (h p (by simp [Prim.paths]))]
  | move s d =>
    show Dict.get? (dropTree ((subTree nodes s d).foldl (fun d e => Dict.set d e.1 e.2) nodes) s) k = _
    rw [get?_dropTree, if_neg (h s (by simp [Prim.paths])), GlyphSet.foldl_set_get? (fun e : Path × Node => e.1) (fun e => e.2)]
    intro e he hek
    unfold subTree at he
    obtain ⟨x, -, rfl⟩ := List.mem_map.1 he
    exact h d (by simp [Prim.paths]) (hek ▸ List.prefix_append _ _)

/-- From `fs` to `fs'` by mutations that are about paths satisfying `P`. -/
def Acts (P : Path → Prop) (fs fs' : FS) : Prop :=
  ∃ acts, fs' = performAll fs acts ∧ ∀ a ∈ acts, ∀ p ∈ a.paths, P p

namespace Acts
variable {P Q : Path → Prop} {fs fs' fs'' : FS}

theorem refl : Acts P fs fs := ⟨[], rfl, by simp⟩

theorem single (a : Prim) (h : ∀ p ∈ a.paths, P p) : Acts P fs (fs.perform a) := ⟨[a], rfl, by simpa using h⟩

theorem trans (h : Acts P fs fs') (h' : Acts P fs' fs'') : Acts P fs fs'' := by
  obtain ⟨l, rfl, hl⟩ := h
  obtain ⟨m, rfl, hm⟩ := h'
  refine ⟨l ++ m, by simp [performAll], fun a ha => ?_⟩
  rcases List.mem_append.1 ha with ha | ha
  · exact hl a ha
  · exact hm a ha

theorem mono (h : Acts P fs fs') (hPQ : ∀ p, P p → Q p) : Acts Q fs fs' := by
  obtain ⟨l, rfl, hl⟩ := h
  exact ⟨l, rfl, fun a ha p hp => hPQ p (hl a ha p hp)⟩

theorem canon (h : Acts P fs fs') : fs'.canon = fs.canon := by
  obtain ⟨l, rfl, -⟩ := h
  induction l generalizing fs with
  | nil => rfl
  | cons a l ih => exact ih (fs := fs.perform a)

theorem key (h : Acts P fs fs') (p : Path) : fs'.key p = fs.key p := by
  unfold FS.key; rw [h.canon]

theorem wf (h : Acts P fs fs') (hw : Dict.WF fs.nodes) : Dict.WF fs'.nodes := by
  obtain ⟨l, rfl, -⟩ := h
  induction l generalizing fs with
  | nil => exact hw
  | cons a l ih => exact ih (fs := fs.perform a) (perform_wf hw a)

theorem get? (h : Acts P fs fs') (k : Path) (hk : ∀ p, P p → ¬ p <+: k) : Dict.get? fs'.nodes k = Dict.get? fs.nodes k := by
  obtain ⟨l, rfl, hl⟩ := h
  induction l generalizing fs with
  | nil => rfl
  | cons a l ih =>
    refine (ih (fs := fs.perform a) fun b hb => hl b (by simp [hb])).trans ?_
    exact apply_frame _ _ _ fun p hp => hk p (hl a (by simp) p hp)

theorem node? (h : Acts P fs fs') (q : Path) (hq : ∀ p, P p → ¬ p <+: fs.key q) : fs'.node? q = fs.node? q := by
  unfold FS.node?
  split
  · rfl
  · rw [h.key]; exact h.get? _ hq

end Acts

/-- At `p` or at a directory above it, other than the root. -/
def Along (fs : FS) (p : Path) (k : Path) : Prop := k <+: fs.key p ∧ (k = [] → p = [])

theorem along_self (fs : FS) (p : Path) : Along fs p (fs.key p) := ⟨List.prefix_refl _, fun h => key_eq_nil.1 h⟩

theorem setbytes_acts {fs fs' : FS} {p : Path} {d : Bytes} (h : fs.setbytes p d = .ok fs') : Acts (· = fs.key p) fs fs' := by
  obtain ⟨rfl, -⟩ := setbytes_ok h
  exact .single _ (by simp [Prim.paths])

theorem makedir_acts {fs fs' : FS} {p : Path} (h : fs.makedir p = .ok fs') : Acts (· = fs.key p) fs fs' := by
  unfold makedir at h
  split at h
  · cases h; exact .refl
  · cases h
  · split at h
    · cases h
    · cases h
    · cases h; exact .single _ (by simp [Prim.paths])

theorem makedirsFrom_acts : ∀ (rest : Path) {fs fs' : FS} {done : Path}, makedirsFrom fs done rest = .ok fs' →
    Acts (fun k => k <+: fs.key (done ++ rest) ∧ k ≠ []) fs fs'
  | [], fs, fs', done, h => by cases h; exact .refl
  | c :: rest, fs, fs', done, h => by
    unfold makedirsFrom at h
    split at h
    · cases h
    · rename_i fs1 h1
      have a1 := makedir_acts h1
      have a2 := makedirsFrom_acts rest h
      refine (a1.mono ?_).trans (a2.mono ?_)
      · rintro k rfl
        exact ⟨by simp [FS.key], key_ne_nil (by simp)⟩
      · rintro k ⟨hk, h0⟩
        rw [a1.key] at hk
        exact ⟨by simpa using hk, h0⟩

theorem makedirs_acts {fs fs' : FS} {p : Path} (h : fs.makedirs p = .ok fs') : Acts (fun k => k <+: fs.key p ∧ k ≠ []) fs fs' := by
  simpa using makedirsFrom_acts p h

theorem remove_acts {fs fs' : FS} {p : Path} (h : fs.remove p = .ok fs') : Acts (· = fs.key p) fs fs' := by
  obtain ⟨rfl, -⟩ := remove_ok h
  exact .single _ (by simp [Prim.paths])

theorem removetree_acts {fs fs' : FS} {p : Path} (h : fs.removetree p = .ok fs') : Acts (· = fs.key p) fs fs' := by
  unfold removetree at h
  split at h <;> cases h
  exact .single _ (by simp [Prim.paths])

theorem removedir_acts {fs fs' : FS} {p : Path} (h : fs.removedir p = .ok fs') : Acts (· = fs.key p) fs fs' := by
  unfold removedir at h
  split at h
  · split at h
    · cases h
    · cases h; exact .single _ (by simp [Prim.paths])
  · cases h
  · cases h

theorem movedir_acts (fs : FS) (src dst : Path) : Acts (fun k => k = fs.key src ∨ k = fs.key dst) fs (fs.movedir src dst).1 := by
  unfold movedir
  split
  · exact .refl
  · rename_i fs1 h1
    have a1 : Acts (fun k => k = fs.key src ∨ k = fs.key dst) fs fs1 := (makedir_acts h1).mono fun _ h => .inr h
    split
    · exact a1
    · exact a1
    · refine a1.trans (.single _ ?_)
      simp [Prim.paths, a1.key]

end Verif.FS

namespace Verif.IO
open Verif Verif.FS

theorem writePlist_acts (F : FloatCodec) (hp : Bool) (fs : FS) (p : Path) (v : PyVal) :
    Acts (· = fs.key p) fs (writePlist F hp fs p v).1 := by
  unfold writePlist
  cases hp
  · simp only [Bool.false_eq_true, if_false]
    split
    · exact .refl
    · rename_i fs1 h1
      have a1 := setbytes_acts h1
      split
      · exact a1
      · split
        · exact a1
        · rename_i fs2 h2
          have a2 := setbytes_acts h2
          rw [a1.key] at a2
          exact a1.trans a2
  · simp only [if_true]
    split
    · exact .refl
    · split
      · exact .refl
      · split
        · exact .refl
        · rename_i fs1 h1
          exact setbytes_acts h1

end Verif.IO

namespace Verif.GlyphSet
open Verif Verif.FS Verif.IO

theorem storeGlyph_acts (hp : Bool) (fs : FS) (p : Path) (d : Bytes) : Acts (· = fs.key p) fs (storeGlyph hp fs p d).1 := by
  unfold storeGlyph
  split
  · exact .refl
  · split
    · exact .refl
    · rename_i fs1 h1
      exact setbytes_acts h1

theorem step_acts (L : Casing) (F : FloatCodec) (w : World) (op : Op) :
    Acts (fun k => ∃ f, k = w.2.key (w.1.dir ++ [f])) w.2 (step L F w op).1.2 := by
  cases op with
  | write naming n fv data =>
    simp only [step, writeGlyph]
    split
    · exact .refl
    · split
      · exact .refl
      · rename_i gs f ha
        split
        · exact .refl
        · rw [(assignFile_dir ha).1]
          exact (storeGlyph_acts _ _ _ _).mono fun k hk => ⟨f, hk⟩
  | delete n =>
    rcases (deleteGlyph_spec (L := L) (w := w) (n := n) (w' := (deleteGlyph L w n).1) (r := (deleteGlyph L w n).2) rfl).2.2.2.2.2 with ⟨h, -⟩ | ⟨f, -, h⟩
    · simp only [step]; rw [h]; exact .refl
    · simp only [step]; rw [h]; exact .single _ (by simp only [Prim.paths, List.mem_singleton]; rintro p rfl; exact ⟨f, rfl⟩)
  | reverse => exact .refl
  | save => exact (writePlist_acts F _ _ _ _).mono fun k hk => ⟨_, hk⟩
  | rebuild v =>
    simp only [step]
    split <;> exact .refl

theorem writeLayerInfo_frame (F : FloatCodec) (w : World) (info : Str → Option PyVal) (validate : Bool) :
    (writeLayerInfo F w info validate).1.1 = w.1 ∧ Acts (· = w.2.key (w.1.dir ++ [layerinfoName])) w.2 (writeLayerInfo F w info validate).1.2 := by
  unfold writeLayerInfo
  split
  · exact ⟨rfl, .refl⟩
  · unfold storeLayerInfo
    split
    · split
      · exact ⟨rfl, .refl⟩
      · exact ⟨rfl, writePlist_acts _ _ _ _ _⟩
    · split
      · split
        · exact ⟨rfl, .refl⟩
        · rename_i fs h
          exact ⟨rfl, remove_acts h⟩
      · exact ⟨rfl, .refl⟩

end Verif.GlyphSet
