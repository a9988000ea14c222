import Verif.Proofs.FS
import Verif.Proofs.GlyphSetNames
/-! Lemmas about directories, trees and moves in the file system model. -/
namespace Verif.FS
open Verif Verif.IO Verif.GlyphSet

theorem get?_filter {κ ν : Type} [DecidableEq κ] (P : κ → Bool) (d : Dict κ ν) (k : κ) :
    Dict.get? (d.filter fun e => P e.1) k = if P k then Dict.get? d k else none := by
  induction d with
  | nil => simp [Dict.get?]
  | cons e d ih =>
    obtain ⟨a, b⟩ := e
    by_cases ha : P a = true
    · rw [List.filter_cons_of_pos (by simpa using ha), Dict.get?_cons, Dict.get?_cons, ih]
      by_cases hk : a = k
      · subst hk; simp [ha]
      · simp [hk]
    · rw [List.filter_cons_of_neg (by simpa using ha), Dict.get?_cons, ih]
      by_cases hk : a = k
      · subst hk; simp [ha]
      · simp [hk]

theorem get?_dropTree (nodes : Dict Path Node) (p k : Path) :
    Dict.get? (dropTree nodes p) k = if p <+: k then none else Dict.get? nodes k := by
  unfold dropTree
  rw [get?_filter (fun a => !(p.isPrefixOf a))]
  by_cases h : p <+: k
  · rw [List.isPrefixOf_iff_prefix.2 h]; simp [h]
  · have : p.isPrefixOf k = false := by
      rw [Bool.eq_false_iff]; exact fun e => h (List.isPrefixOf_iff_prefix.1 e)
    rw [this]; simp [h]

theorem key_ne_nil {fs : FS} {p : Path} (h : p ≠ []) : fs.key p ≠ [] := fun e => h (key_eq_nil.1 e)

theorem node?_of_ne {fs : FS} {q : Path} (hq : q ≠ []) : fs.node? q = Dict.get? fs.nodes (fs.key q) := by
  unfold node?; rw [if_neg hq]

theorem node?_rmtree (fs : FS) (p q : Path) (hq : q ≠ []) :
    (fs.perform (.rmtree (fs.key p))).node? q = if fs.key p <+: fs.key q then none else fs.node? q := by
  rw [node?_of_ne hq, node?_of_ne hq, perform_key]
  exact get?_dropTree _ _ _

theorem node?_mkdir (fs : FS) (p q : Path) (hp : p ≠ []) :
    (fs.perform (.mkdir (fs.key p))).node? q = if fs.key q = fs.key p then some .dir else fs.node? q := by
  by_cases hq : q = []
  · have : fs.key q ≠ fs.key p := fun h => hp (key_eq_nil.1 (h.symm.trans (by simp [hq, key])))
    subst hq
    rw [if_neg this]
    rfl
  · rw [node?_of_ne hq, node?_of_ne hq]
    show Dict.get? (Dict.set fs.nodes (fs.key p) .dir) (fs.key q) = _
    rw [Dict.get?_set]
    by_cases h : fs.key q = fs.key p
    · simp [h]
    · simp [h, Ne.symm h]

theorem isdir_iff {fs : FS} {p : Path} : fs.isdir p = true ↔ fs.node? p = some .dir := by
  unfold isdir
  split <;> simp_all

/-- Making a directory: it is there afterwards, and nothing else changes. -/
theorem makedir_ok {fs fs' : FS} {p : Path} (h : fs.makedir p = .ok fs') :
    fs'.canon = fs.canon ∧ fs'.node? p = some .dir ∧ (∀ q, fs.key q ≠ fs.key p → fs'.node? q = fs.node? q) ∧
    (∀ q n, fs.node? q = some n → fs'.node? q = some n) ∧ (fs.node? p = some .dir ∨ fs.node? p = none) := by
  unfold makedir at h
  split at h
  · rename_i hd
    cases h
    exact ⟨rfl, hd, fun _ _ => rfl, fun _ _ h => h, .inl hd⟩
  · cases h
  · rename_i hn
    have hp : p ≠ [] := by rintro rfl; simp [node?] at hn
    split at h
    · cases h
    · cases h
    · cases h
      refine ⟨rfl, ?_, fun q hq => ?_, fun q n hq => ?_, .inr hn⟩
      · rw [node?_mkdir _ _ _ hp]; simp
      · rw [node?_mkdir _ _ _ hp, if_neg hq]
      · rw [node?_mkdir _ _ _ hp, if_neg]
        · exact hq
        · intro hk
          rw [node?_eq hk, hn] at hq
          cases hq

theorem makedir_of {fs : FS} {p : Path} (h : fs.node? p = some .dir ∨ fs.node? p = none) (hp : fs.node? p.dropLast = some .dir) :
    ∃ fs', fs.makedir p = .ok fs' := by
  unfold makedir
  rcases h with h | h
  · rw [h]; exact ⟨_, rfl⟩
  · rw [h]; dsimp only; rw [hp]; exact ⟨_, rfl⟩

/-- Making several directories keeps everything that exists. -/
theorem makedirsFrom_ok : ∀ (rest : Path) {fs fs' : FS} {done : Path}, makedirsFrom fs done rest = .ok fs' →
    fs'.canon = fs.canon ∧ (∀ q n, fs.node? q = some n → fs'.node? q = some n) ∧
    (∀ q, fs.node? q = none → fs'.node? q = none ∨ fs'.node? q = some .dir) ∧
    (∀ q, fs'.node? q ≠ fs.node? q → fs.key q <+: fs.key (done ++ rest)) ∧
    (fs.node? done = some .dir → fs'.node? (done ++ rest) = some .dir)
  | [], fs, fs', done, h => by
    cases h
    refine ⟨rfl, fun _ _ h => h, fun _ h => .inl h, fun q hq => absurd rfl hq, fun h => by simpa using h⟩
  | c :: rest, fs, fs', done, h => by
    unfold makedirsFrom at h
    split at h
    · cases h
    · rename_i fs1 h1
      obtain ⟨a1, a2, a3, a4, a5⟩ := makedir_ok h1
      obtain ⟨b1, b2, b3, b4, b5⟩ := makedirsFrom_ok rest h
      have hkey : ∀ x, fs1.key x = fs.key x := fun x => by simp [key, a1]
      refine ⟨b1.trans a1, fun q n hq => b2 q n (a4 q n hq), fun q hq => ?_, fun q hq => ?_, fun _ => ?_⟩
      · by_cases hk : fs.key q = fs.key (done ++ [c])
        · refine .inr (b2 _ _ ?_)
          rw [node?_eq (show fs1.key q = fs1.key (done ++ [c]) by rw [hkey, hkey, hk])]
          exact a2
        · exact b3 q (by rw [a3 q hk]; exact hq)
      · by_cases h2 : fs'.node? q = fs1.node? q
        · have h3 : fs1.node? q ≠ fs.node? q := fun e => hq (h2.trans e)
          have hk : fs.key q = fs.key (done ++ [c]) := Classical.byContradiction fun hk => h3 (a3 q hk)
          rw [hk]
          refine ⟨fs.key rest, ?_⟩
          simp [key]
        · have := b4 q h2
          rw [hkey, hkey] at this
          rwa [List.append_assoc] at this
      · have := b5 a2
        rwa [List.append_assoc] at this

theorem get?_subTree {nodes : Dict Path Node} (src dst k : Path) :
    Dict.get? (subTree nodes src dst) k = if dst <+: k then Dict.get? nodes (src ++ k.drop dst.length) else none := by
  unfold subTree
  induction nodes with
  | nil => simp [Dict.get?]
  | cons e d ih =>
    obtain ⟨a, b⟩ := e
    by_cases ha : src <+: a
    · obtain ⟨r, rfl⟩ := ha
      rw [List.filter_cons_of_pos (p := fun e : Path × Node => src.isPrefixOf e.1) (List.isPrefixOf_iff_prefix.2 ⟨r, rfl⟩), List.map_cons, Dict.get?_cons, ih]
      simp only [List.drop_left]
      by_cases hk : dst ++ r = k
      · subst hk
        simp [Dict.get?_cons]
      · rw [if_neg hk]
        by_cases hd : dst <+: k
        · rw [if_pos hd, if_pos hd, Dict.get?_cons, if_neg]
          intro he
          apply hk
          obtain ⟨r', rfl⟩ := hd
          simp at he
          rw [he]
        · rw [if_neg hd, if_neg hd]
    · rw [List.filter_cons_of_neg (p := fun e : Path × Node => src.isPrefixOf e.1) (fun e => ha (List.isPrefixOf_iff_prefix.1 e)), ih]
      by_cases hd : dst <+: k
      · rw [if_pos hd, if_pos hd, Dict.get?_cons, if_neg]
        rintro rfl
        exact ha ⟨_, rfl⟩
      · rw [if_neg hd, if_neg hd]

theorem mem_subTree_wf {nodes : Dict Path Node} (hw : Dict.WF nodes) (src dst : Path) : Dict.WF (subTree nodes src dst) := by
  unfold subTree Dict.WF Dict.keys
  rw [List.map_map]
  have h1 : ((nodes.filter fun e => src.isPrefixOf e.1).map Prod.fst).Nodup := hw.sublist ((List.filter_sublist).map _)
  have : (nodes.filter fun e => src.isPrefixOf e.1).map (Prod.fst ∘ fun e => (dst ++ e.1.drop src.length, e.2)) =
      ((nodes.filter fun e => src.isPrefixOf e.1).map Prod.fst).map fun p => dst ++ p.drop src.length := by
    rw [List.map_map]; rfl
  rw [this]
  refine h1.map_on ?_
  intro x hx y hy hxy
  have px : src <+: x := by
    obtain ⟨e, he, rfl⟩ := List.mem_map.1 hx
    exact List.isPrefixOf_iff_prefix.1 (by simpa using (List.mem_filter.1 he).2)
  have py : src <+: y := by
    obtain ⟨e, he, rfl⟩ := List.mem_map.1 hy
    exact List.isPrefixOf_iff_prefix.1 (by simpa using (List.mem_filter.1 he).2)
  obtain ⟨r, rfl⟩ := px
  obtain ⟨s, rfl⟩ := py
  simpa using hxy

/-- The nodes after a move: nothing below the source, below the destination what was below the source, or else what was there before. -/
theorem get?_move {nodes : Dict Path Node} (hw : Dict.WF nodes) (src dst k : Path) :
    Dict.get? ((Prim.move src dst).apply nodes) k =
      if src <+: k then none
      else if dst <+: k then (Dict.get? nodes (src ++ k.drop dst.length)).or (Dict.get? nodes k) else Dict.get? nodes k := by
  show Dict.get? (dropTree ((subTree nodes src dst).foldl (fun d e => Dict.set d e.1 e.2) nodes) src) k = _
  rw [get?_dropTree]
  by_cases hs : src <+: k
  · simp [hs]
  · rw [if_neg hs, if_neg hs]
    have hsub := get?_subTree (nodes := nodes) src dst k
    cases hg : Dict.get? (subTree nodes src dst) k with
    | none =>
      rw [foldl_set_get? (fun e : Path × Node => e.1) (fun e => e.2) (subTree nodes src dst) nodes k]
      · rw [hg] at hsub
        by_cases hd : dst <+: k
        · rw [if_pos hd] at hsub ⊢
          rw [← hsub]; rfl
        · rw [if_neg hd]
      · intro e he hek
        exact Dict.get?_eq_none_iff.1 hg (hek ▸ Dict.mem_keys_of_mem (v := e.2) he)
    | some n =>
      rw [foldl_set_mem (fun e : Path × Node => e.1) (fun e => e.2) (subTree nodes src dst) n k]
      · rw [hg] at hsub
        by_cases hd : dst <+: k
        · rw [if_pos hd] at hsub ⊢
          rw [← hsub]; rfl
        · rw [if_neg hd] at hsub; cases hsub
      · intro e he hek
        have h1 := Dict.get?_of_mem (mem_subTree_wf hw src dst) he
        rw [hek, hg] at h1
        injection h1 with h1
        exact h1.symm
      · exact ⟨(k, n), Dict.mem_of_get? hg, rfl⟩

/-- Primitive mutations keep paths unique. -/
theorem apply_wf {nodes : Dict Path Node} (hw : Dict.WF nodes) (a : Prim) : Dict.WF (a.apply nodes) := by
  have hdrop : ∀ (d : Dict Path Node) p, Dict.WF d → Dict.WF (dropTree d p) := fun d p h => h.sublist ((List.filter_sublist).map _)
  cases a with
  | write p d => exact Dict.wf_set hw _ _
  | remove p => exact Dict.wf_erase hw _
  | mkdir p => exact Dict.wf_set hw _ _
  | rmtree p => exact hdrop _ _ hw
  | move s d => exact hdrop _ _ (foldl_set_wf (fun e : Path × Node => e.1) (fun e => e.2) _ _ hw)

theorem perform_wf {fs : FS} (hw : Dict.WF fs.nodes) (a : Prim) : Dict.WF (fs.perform a).nodes := apply_wf hw a

theorem makedir_wf {fs fs' : FS} {p : Path} (hw : Dict.WF fs.nodes) (h : fs.makedir p = .ok fs') : Dict.WF fs'.nodes := by
  unfold makedir at h
  split at h
  · cases h; exact hw
  · cases h
  · split at h
    · cases h
    · cases h
    · cases h; exact perform_wf hw _

end Verif.FS
