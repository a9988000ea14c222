import Verif.Proofs.UfoFrame
import Verif.Proofs.UfoFiles
/-! What copying a tree from another file system does to the stored entries. -/
namespace Verif.Ufo
open Verif Verif.FS Verif.IO Verif.Spec.Ufo

theorem copyEntry_nodes (q : Path) (fs : FS) (e : Path × Node) :
    (copyEntry q fs e).nodes = Dict.set fs.nodes (fs.key (q ++ e.1)) e.2 ∧ (copyEntry q fs e).canon = fs.canon := by
  obtain ⟨x, n⟩ := e
  cases n <;> exact ⟨rfl, rfl⟩

theorem copyTree_nodes (q : Path) : ∀ (l : List (Path × Node)) (fs : FS),
    (l.foldl (copyEntry q) fs).nodes = l.foldl (fun d e => Dict.set d (fs.key (q ++ e.1)) e.2) fs.nodes ∧ (l.foldl (copyEntry q) fs).canon = fs.canon
  | [], _ => ⟨rfl, rfl⟩
  | e :: l, fs => by
    obtain ⟨h1, h2⟩ := copyEntry_nodes q fs e
    obtain ⟨i1, i2⟩ := copyTree_nodes q l (copyEntry q fs e)
    rw [List.foldl_cons, List.foldl_cons, i1, i2, h1, h2]
    refine ⟨?_, rfl⟩
    unfold FS.key
    rw [h2]

/-- The entries that are copied are those below the path. -/
theorem mem_below {src : FS} (hw : Dict.WF src.nodes) {p t : Path} {n : Node} :
    (t, n) ∈ below src p ↔ t ≠ [] ∧ Dict.get? src.nodes (src.key p ++ t) = some n := by
  unfold below
  rw [List.mem_filterMap]
  constructor
  · rintro ⟨⟨k, m⟩, hm, h⟩
    split at h
    · rename_i hk
      rw [Bool.and_eq_true, List.isPrefixOf_iff_prefix, bne_iff_ne] at hk
      obtain ⟨⟨t', rfl⟩, hne⟩ := hk
      cases h
      have hl : p.length = (src.key p).length := by simp [FS.key]
      have ht : (src.key p ++ t').drop p.length = t' := by rw [hl, List.drop_left]
      dsimp only
      rw [ht]
      exact ⟨fun h0 => hne (by simp [h0]), Dict.get?_of_mem hw hm⟩
    · cases h
  · rintro ⟨h0, h⟩
    refine ⟨_, Dict.mem_of_get? h, ?_⟩
    have hl : p.length = (src.key p).length := by simp [FS.key]
    rw [if_pos]
    · simp only [hl, List.drop_left]
    · rw [Bool.and_eq_true, List.isPrefixOf_iff_prefix, bne_iff_ne]
      exact ⟨List.prefix_append _ _, fun h1 => h0 (by simpa using h1)⟩

/-- A path below one that does not exist does not exist. -/
theorem below_missing {fs : FS} (hpar : ∀ p, (fs.node? p).isSome = true → fs.node? p.dropLast = some .dir) {q : Path} (hq : fs.node? q = none) :
    ∀ x : Path, fs.node? (q ++ x) = none := by
  intro x
  induction x using List.reverseRecOn with
  | nil => simpa using hq
  | append_singleton x c ih =>
    cases hn : fs.node? (q ++ (x ++ [c])) with
    | none => rfl
    | some n =>
      have := hpar _ (by rw [hn]; rfl)
      rw [← List.append_assoc, List.dropLast_concat, ih] at this
      cases this

/-- An entry that is set is the same whatever there was before. -/
theorem foldl_set_over {κ ν α : Type} [DecidableEq κ] {g : α → κ} {v : α → ν} {k : κ} : ∀ {l : List α} (d d' : Dict κ ν), (∃ a ∈ l, g a = k) →
    Dict.get? (l.foldl (fun d e => Dict.set d (g e) (v e)) d) k = Dict.get? (l.foldl (fun d e => Dict.set d (g e) (v e)) d') k
  | [], _, _, h => by simp at h
  | a :: l, d, d', h => by
    rw [List.foldl_cons, List.foldl_cons]
    by_cases hl : ∃ b ∈ l, g b = k
    · exact foldl_set_over _ _ hl
    · have hl' : ∀ b ∈ l, g b ≠ k := fun b hb hk => hl ⟨b, hb, hk⟩
      have ha : g a = k := by
        obtain ⟨b, hb, hk⟩ := h
        rcases List.mem_cons.1 hb with rfl | hb
        · exact hk
        · exact absurd hk (hl' b hb)
      rw [GlyphSet.foldl_set_get? g v l _ k hl', GlyphSet.foldl_set_get? g v l _ k hl', Dict.get?_set, Dict.get?_set, if_pos ha, if_pos ha]

/-- A copied directory: what is at the destination and below it, and that it succeeds. -/
theorem copyDir_spec {src fs : FS} {p q : Path} (hs : src.node? p = some .dir) (hpar : ∀ p, (fs.node? p).isSome = true → fs.node? p.dropLast = some .dir)
    (h : (copyFromReader src fs p q).2 = .ok ()) :
    q ≠ [] ∧ (copyFromReader src fs p q).1.canon = fs.canon ∧ (copyFromReader src fs p q).1.node? q = some .dir ∧
    ∀ x : Path, x ≠ [] → (copyFromReader src fs p q).1.node? (q ++ x) =
      Dict.get? ((below src p).foldl (fun d e => Dict.set d (fs.key (q ++ e.1)) e.2) []) (fs.key (q ++ x)) := by
  unfold copyFromReader at h ⊢
  have he : src.exists p = true := exists_iff.2 ⟨_, hs⟩
  rw [if_neg (by rw [he]; simp)] at h ⊢
  by_cases hx : fs.exists q = true
  · rw [if_pos hx] at h; cases h
  rw [if_neg hx] at h ⊢
  have hx : fs.node? q = none := node?_of_not_exists (by simpa using hx)
  have hq : q ≠ [] := by rintro rfl; cases hx
  cases hm : fs.makedirs q.dropLast with
  | error e => rw [hm] at h; cases h
  | ok fs1 =>
    rw [hm, hs] at h
    dsimp only at h ⊢
    rw [hs]
    obtain ⟨m1, -, -, m4, -⟩ := makedirs_ok hm
    have hk1 : ∀ x, fs1.key x = fs.key x := fun x => by unfold FS.key; rw [m1]
    cases hd : fs1.makedir q with
    | error e => rw [hd] at h; cases h
    | ok fs2 =>
      dsimp only
      obtain ⟨k1, k2, k3, -⟩ := makedir_ok hd
      obtain ⟨t1, t2⟩ := copyTree_nodes q (below src p) fs2
      have hc : fs2.canon = fs.canon := k1.trans m1
      have hk2 : ∀ x, fs2.key x = fs.key x := fun x => by unfold FS.key; rw [hc]
      have hk3 : ∀ x, ((below src p).foldl (copyEntry q) fs2).key x = fs.key x := fun x => by unfold FS.key; rw [t2, hc]
      have hnb : ∀ t n, (t, n) ∈ below src p → t ≠ [] := by
        rintro t n ht rfl
        unfold below at ht
        rw [List.mem_filterMap] at ht
        obtain ⟨⟨k, m⟩, -, ht⟩ := ht
        split at ht
        · rename_i hk
          rw [Bool.and_eq_true, List.isPrefixOf_iff_prefix, bne_iff_ne] at hk
          obtain ⟨⟨t', rfl⟩, hne⟩ := hk
          have hl : p.length = (src.key p).length := by simp [FS.key]
          simp only [hl, List.drop_left, Option.some.injEq, Prod.mk.injEq] at ht
          exact hne (by simp [ht.1])
        · cases ht
      refine ⟨hq, t2.trans hc, ?_, fun x hx0 => ?_⟩
      · rw [node?_of_ne hq, hk3, t1, GlyphSet.foldl_set_get? (fun e : Path × Node => fs2.key (q ++ e.1)) (fun e => e.2)]
        · rw [← hk2, ← node?_of_ne hq, k2]
        · rintro ⟨t, n⟩ ht he
          have := congrArg List.length he
          simp [FS.key] at this
          exact hnb t n ht this
      · have hne : q ++ x ≠ [] := by simp [hq]
        rw [node?_of_ne hne, hk3, t1]
        have hbase : Dict.get? fs2.nodes (fs.key (q ++ x)) = none := by
          rw [← hk2, ← node?_of_ne hne, k3, Classical.byContradiction (p := fs1.node? (q ++ x) = fs.node? (q ++ x))]
          · exact below_missing hpar hx x
          · intro hne'
            have := (m4 _ hne').length_le
            have hl := List.length_pos_of_ne_nil hq
            simp only [FS.key, List.length_map, List.length_append, List.length_dropLast] at this
            omega
          · intro he
            have := congrArg List.length he
            simp [FS.key] at this
            exact hx0 this
        simp only [hk2]
        by_cases hex : ∃ e ∈ below src p, fs.key (q ++ e.1) = fs.key (q ++ x)
        · exact foldl_set_over _ _ hex
        · have hex' : ∀ e ∈ below src p, fs.key (q ++ e.1) ≠ fs.key (q ++ x) := fun e he hk => hex ⟨e, he, hk⟩
          rw [GlyphSet.foldl_set_get? (fun e : Path × Node => fs.key (q ++ e.1)) (fun e => e.2) _ _ _ hex',
            GlyphSet.foldl_set_get? (fun e : Path × Node => fs.key (q ++ e.1)) (fun e => e.2) _ _ _ hex', hbase]
          rfl

end Verif.Ufo
