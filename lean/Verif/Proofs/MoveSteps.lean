import Verif.Spec.MoveSteps
import Verif.Proofs.FSTree
import Verif.Proofs.UfoLayers
/-! Moving a directory step by step. -/
namespace Verif.Ufo
open Verif Verif.FS Verif.Spec.FS Verif.Spec.MoveSteps Verif.Spec.Interrupt

theorem performAll_canon (acts : List Prim) : ∀ fs : FS, (performAll fs acts).canon = fs.canon := by
  induction acts with
  | nil => exact fun _ => rfl
  | cons a l ih => exact fun fs => ih (fs.perform a)

theorem performAll_nodes (acts : List Prim) : ∀ fs : FS, (performAll fs acts).nodes = acts.foldl (fun d a => a.apply d) fs.nodes := by
  induction acts with
  | nil => exact fun _ => rfl
  | cons a l ih => exact fun fs => ih (fs.perform a)

theorem copyStep_apply (src dst : Path) (e : Path × Node) (d : Dict Path Node) : (copyStep src dst e).apply d = Dict.set d (dst ++ e.1.drop src.length) e.2 := by
  unfold copyStep
  cases e.2 <;> rfl

theorem foldl_copies (src dst : Path) (l : List (Path × Node)) : ∀ d : Dict Path Node,
    (l.map (copyStep src dst)).foldl (fun d a => a.apply d) d = l.foldl (fun d e => Dict.set d (dst ++ e.1.drop src.length) e.2) d := by
  induction l with
  | nil => exact fun _ => rfl
  | cons e l ih => intro d; simp only [List.map_cons, List.foldl_cons, copyStep_apply, ih]

theorem foldl_removes (l : List (Path × Node)) : ∀ (d : Dict Path Node) (k : Path),
    Dict.get? ((l.map fun e => Prim.remove e.1).foldl (fun d a => a.apply d) d) k = if k ∈ l.map Prod.fst then none else Dict.get? d k := by
  induction l with
  | nil => intro d k; simp
  | cons e l ih =>
    intro d k
    simp only [List.map_cons, List.foldl_cons]
    rw [ih]
    show (if k ∈ l.map Prod.fst then none else Dict.get? (Dict.erase d e.1) k) = _
    rw [Dict.get?_erase]
    by_cases h1 : k ∈ l.map Prod.fst
    · rw [if_pos h1, if_pos (List.mem_cons_of_mem _ h1)]
    · rw [if_neg h1]
      by_cases h2 : e.1 = k
      · rw [if_pos h2, if_pos (by rw [h2]; exact List.mem_cons_self)]
      · rw [if_neg h2, if_neg]
        simp only [List.mem_cons, not_or]
        exact ⟨fun h => h2 h.symm, h1⟩

/-- The files in the middle of a move: the entries `C` have been copied, the entries `R` removed. -/
structure Mid (fs : FS) (s t : Str) (C R : List (Path × Node)) (left : FS) : Prop where
  canon : left.canon = fs.canon
  once : Dict.WF left.nodes
  src : ∀ x, Dict.get? left.nodes (s :: x) = if s :: x ∈ R.map Prod.fst then none else Dict.get? fs.nodes (s :: x)
  dst : ∀ x, Dict.get? left.nodes (t :: x) = if s :: x ∈ C.map Prod.fst then Dict.get? fs.nodes (s :: x) else if x = [] then some .dir else Dict.get? fs.nodes (t :: x)
  rest : ∀ c x, c ≠ s → c ≠ t → Dict.get? left.nodes (c :: x) = Dict.get? fs.nodes (c :: x)
  root : Dict.get? left.nodes [] = Dict.get? fs.nodes []

theorem mem_entries {fs : FS} (hw : Dict.WF fs.nodes) {s : Str} {e : Path × Node} : e ∈ entriesBelow fs [s] ↔ ∃ x, e.1 = s :: x ∧ Dict.get? fs.nodes e.1 = some e.2 := by
  unfold entriesBelow
  rw [List.mem_filter, List.isPrefixOf_iff_prefix]
  constructor
  · rintro ⟨h1, x, h2⟩
    exact ⟨x, h2.symm, Dict.get?_of_mem hw h1⟩
  · rintro ⟨x, h1, h2⟩
    exact ⟨Dict.mem_of_get? h2, x, h1.symm⟩

theorem performAll_wf (acts : List Prim) : ∀ fs : FS, Dict.WF fs.nodes → Dict.WF (performAll fs acts).nodes := by
  induction acts with
  | nil => exact fun _ h => h
  | cons a l ih => exact fun fs h => ih (fs.perform a) (apply_wf h a)

theorem mid_steps {fs : FS} (hw : Dict.WF fs.nodes) {s t : Str} (hst : s ≠ t) {C R : List (Path × Node)} (hC : ∀ e ∈ C, e ∈ entriesBelow fs [s]) (hR : ∀ e ∈ R, e ∈ entriesBelow fs [s]) :
    Mid fs s t C R (performAll fs (moveSteps [s] [t] C R)) := by
  have hC' : ∀ e ∈ C, ∃ x, e.1 = s :: x ∧ Dict.get? fs.nodes e.1 = some e.2 := fun e he => (mem_entries hw).1 (hC e he)
  have hR' : ∀ e ∈ R, ∃ x, e.1 = s :: x := fun e he => by obtain ⟨x, h, -⟩ := (mem_entries hw).1 (hR e he); exact ⟨x, h⟩
  have hget : ∀ k, Dict.get? (performAll fs (moveSteps [s] [t] C R)).nodes k = if k ∈ R.map Prod.fst then none else
      Dict.get? (C.foldl (fun d e => Dict.set d ([t] ++ e.1.drop [s].length) e.2) (Dict.set fs.nodes [t] .dir)) k := by
    intro k
    rw [performAll_nodes]
    unfold moveSteps
    rw [List.foldl_cons, List.foldl_append, foldl_removes, foldl_copies]
    rfl
  have himg : ∀ e ∈ C, ∀ c x, [t] ++ e.1.drop [s].length = c :: x → c = t ∧ e.1 = s :: x := by
    intro e he c x h
    obtain ⟨y, hy, -⟩ := hC' e he
    rw [hy] at h
    simp only [List.length_cons, List.length_nil, List.drop_succ_cons, List.drop_zero, List.cons_append, List.nil_append, List.cons.injEq] at h
    exact ⟨h.1.symm, by rw [hy, h.2]⟩
  have hother : ∀ c x, c ≠ t → Dict.get? (C.foldl (fun d e => Dict.set d ([t] ++ e.1.drop [s].length) e.2) (Dict.set fs.nodes [t] .dir)) (c :: x) = Dict.get? fs.nodes (c :: x) := by
    intro c x hc
    rw [Verif.GlyphSet.foldl_set_get? (fun e : Path × Node => [t] ++ e.1.drop [s].length) (fun e => e.2) C _ _ fun e he h => hc (himg e he c x h).1, Dict.get?_set_ne]
    intro h
    cases h
    exact hc rfl
  have hRne : ∀ c x, c ≠ s → c :: x ∉ R.map Prod.fst := by
    intro c x hc h
    obtain ⟨e, he, h1⟩ := List.mem_map.1 h
    obtain ⟨y, hy⟩ := hR' e he
    rw [hy] at h1
    cases h1
    exact hc rfl
  refine ⟨performAll_canon _ _, performAll_wf _ _ hw, fun x => ?_, fun x => ?_, fun c x h1 h2 => ?_, ?_⟩
  · rw [hget, hother s x hst]
  · rw [hget, if_neg (hRne t x (Ne.symm hst))]
    by_cases hm : s :: x ∈ C.map Prod.fst
    · rw [if_pos hm]
      obtain ⟨e, he, h1⟩ := List.mem_map.1 hm
      obtain ⟨y, -, h2⟩ := hC' e he
      rw [h1] at h2
      rw [h2]
      refine Verif.GlyphSet.foldl_set_mem (fun e : Path × Node => [t] ++ e.1.drop [s].length) (fun e => e.2) C e.2 (t :: x) (fun f hf h3 => ?_) _ ⟨e, he, by rw [h1]; rfl⟩
      obtain ⟨-, h4⟩ := himg f hf t x h3
      obtain ⟨z, -, h5⟩ := hC' f hf
      rw [h4, h2] at h5
      exact (Option.some.inj h5).symm
    · rw [if_neg hm, Verif.GlyphSet.foldl_set_get? (fun e : Path × Node => [t] ++ e.1.drop [s].length) (fun e => e.2) C _ _ fun e he h => hm (List.mem_map.2 ⟨e, he, (himg e he t x h).2⟩), Dict.get?_set]
      by_cases hx : x = []
      · subst hx; rw [if_pos rfl, if_pos rfl]
      · rw [if_neg fun h => hx (by cases h; rfl), if_neg hx]
  · rw [hget, if_neg (hRne c x h1), hother c x h2]
  · rw [hget, if_neg, Verif.GlyphSet.foldl_set_get? (fun e : Path × Node => [t] ++ e.1.drop [s].length) (fun e => e.2) C _ _ fun e he h => by simp at h, Dict.get?_set_ne]
    · simp
    · intro h
      obtain ⟨e, he, h1⟩ := List.mem_map.1 h
      obtain ⟨y, hy⟩ := hR' e he
      rw [hy] at h1
      cases h1

/-- The moments at which a move can stop. -/
theorem stopped_mid {fs left : FS} (hw : Dict.WF fs.nodes) {s t : Str} (hst : s ≠ t) {copied removed : List (Path × Node)} (hC : copied.Perm (entriesBelow fs [s]))
    (hR : removed.Perm (entriesBelow fs [s])) (h : StoppedIn fs (moveSteps [s] [t] copied removed) left) :
    left = fs ∨ (∃ C, C <+: copied ∧ Mid fs s t C [] left) ∨ (∃ R, R <+: removed ∧ Mid fs s t copied R left) ∨
      ∃ C x d j mid, C ++ [(s :: x, .file d)] <+: copied ∧ Mid fs s t C [] mid ∧ left = mid.perform (.write (t :: x) (d.take j)) := by
  have hmem : ∀ l, l <+: copied → ∀ e ∈ l, e ∈ entriesBelow fs [s] := fun l hl e he => hC.mem_iff.1 (hl.subset he)
  have hmem' : ∀ l, l <+: removed → ∀ e ∈ l, e ∈ entriesBelow fs [s] := fun l hl e he => hR.mem_iff.1 (hl.subset he)
  have htake : ∀ k, (moveSteps [s] [t] copied removed).take (k + 1) = moveSteps [s] [t] (copied.take k) (removed.take (k - copied.length)) := by
    intro k
    unfold moveSteps
    rw [List.take_succ_cons, List.take_append, List.length_map, List.map_take, List.map_take]
  cases h with
  | between k =>
    cases k with
    | zero => exact .inl rfl
    | succ k =>
      rw [htake]
      by_cases hk : k ≤ copied.length
      · rw [Nat.sub_eq_zero_of_le hk]
        exact .inr (.inl ⟨_, List.take_prefix _ _, mid_steps hw hst (hmem _ (List.take_prefix _ _)) (by simp)⟩)
      · rw [List.take_of_length_le (by omega : copied.length ≤ k)]
        exact .inr (.inr (.inl ⟨_, List.take_prefix _ _, mid_steps hw hst (hmem _ (List.prefix_refl _)) (hmem' _ (List.take_prefix _ _))⟩))
  | @writing k j p d hk =>
    cases k with
    | zero => simp [moveSteps] at hk
    | succ k =>
      rw [htake]
      have hk' : (copied.map (copyStep [s] [t]) ++ removed.map fun e => Prim.remove e.1)[k]? = some (.write p d) := hk
      have hlt : k < copied.length := by
        by_contra hge
        rw [List.getElem?_append_right (by simpa using hge), List.getElem?_map] at hk'
        cases hx : removed[k - (copied.map (copyStep [s] [t])).length]? with
        | none => rw [hx] at hk'; cases hk'
        | some e => rw [hx] at hk'; cases hk'
      rw [List.getElem?_append_left (by simpa using hlt), List.getElem?_map, List.getElem?_eq_getElem hlt] at hk'
      have he := (mem_entries hw).1 (hmem _ (List.prefix_refl _) copied[k] (List.getElem_mem hlt))
      have hp : copied.take k ++ [copied[k]] <+: copied := by
        rw [List.take_append_getElem]
        exact List.take_prefix _ _
      obtain ⟨x, hx, -⟩ := he
      have hk'' := Option.some.inj hk'
      unfold copyStep at hk''
      split at hk''
      · cases hk''
      · rename_i d' hd
        rw [hx] at hk''
        have hk3 := Prim.write.inj hk''
        obtain ⟨rfl, rfl⟩ := hk3
        rw [Nat.sub_eq_zero_of_le (by omega)]
        refine .inr (.inr (.inr ⟨copied.take k, x, _, j, _, ?_, mid_steps hw hst (hmem _ (List.take_prefix _ _)) (by simp), rfl⟩))
        have : copied[k] = (s :: x, Node.file _) := Prod.ext hx hd
        rw [← this]
        exact hp
  | @during k a left hk hwr hc hn =>
    have ha : a ∈ moveSteps [s] [t] copied removed := List.mem_of_getElem? hk
    unfold moveSteps at ha
    simp only [List.mem_cons, List.mem_append, List.mem_map] at ha
    rcases ha with rfl | ⟨e, -, rfl⟩ | ⟨e, -, rfl⟩
    · cases hn
    · unfold copyStep at hn hwr
      split at hn
      · cases hn
      · rename_i d hd
        rw [hd] at hwr
        exact absurd rfl (hwr _ _)
    · cases hn

/-- The outcome of `movedir`. -/
structure MovedTo (fs : FS) (s t : Str) (fs' : FS) : Prop where
  canon : fs'.canon = fs.canon
  once : Dict.WF fs'.nodes
  src : ∀ x, Dict.get? fs'.nodes (s :: x) = none
  dst : ∀ x, Dict.get? fs'.nodes (t :: x) = (Dict.get? fs.nodes (s :: x)).or (Dict.get? fs.nodes (t :: x))
  rest : ∀ c x, c ≠ s → c ≠ t → Dict.get? fs'.nodes (c :: x) = Dict.get? fs.nodes (c :: x)

theorem moved_movedir {fs : FS} (hw : Dict.WF fs.nodes) {a b : Str} (hab : fs.canon a ≠ fs.canon b) (ha : fs.node? [a] = some .dir) (hb : ∀ d, fs.node? [b] ≠ some (.file d)) :
    (fs.movedir [a] [b]).2 = .ok () ∧ MovedTo fs (fs.canon a) (fs.canon b) (fs.movedir [a] [b]).1 := by
  have ha' : Dict.get? fs.nodes [fs.canon a] = some .dir := ha
  have key : ∀ fs1 : FS, fs1.canon = fs.canon → Dict.WF fs1.nodes → (∀ k, k ≠ [fs.canon b] → Dict.get? fs1.nodes k = Dict.get? fs.nodes k) →
      MovedTo fs (fs.canon a) (fs.canon b) (fs1.perform (.move [fs.canon a] [fs.canon b])) := by
    intro fs1 h1 h2 h3
    have hg : ∀ k, Dict.get? (fs1.perform (.move [fs.canon a] [fs.canon b])).nodes k = _ := fun k => get?_move h2 [fs.canon a] [fs.canon b] k
    refine ⟨h1, apply_wf h2 (.move [fs.canon a] [fs.canon b]), fun x => ?_, fun x => ?_, fun c x hc1 hc2 => ?_⟩
    · rw [hg, if_pos ⟨x, rfl⟩]
    · rw [hg, if_neg, if_pos ⟨x, rfl⟩]
      · show (Dict.get? fs1.nodes (fs.canon a :: x)).or _ = _
        rw [h3 (fs.canon a :: x) (fun h => hab (List.cons.inj h).1)]
        by_cases hx : x = []
        · subst hx; rw [ha']; rfl
        · rw [h3 (fs.canon b :: x) (by intro h; cases h; exact hx rfl)]
      · rintro ⟨y, hy⟩
        exact hab (List.cons.inj hy).1
    · rw [hg, if_neg, if_neg, h3]
      · intro h; cases h; exact hc2 rfl
      · rintro ⟨y, hy⟩; cases hy; exact hc2 rfl
      · rintro ⟨y, hy⟩; cases hy; exact hc1 rfl
  unfold movedir
  cases hn : fs.node? [b] with
  | none =>
    have hm : fs.makedir [b] = .ok (fs.perform (.mkdir (fs.key [b]))) := by
      unfold makedir
      rw [hn]
      rfl
    have hs : (fs.perform (.mkdir (fs.key [b]))).node? [a] = some .dir := by
      show Dict.get? (Dict.set fs.nodes [fs.canon b] .dir) [fs.canon a] = _
      rw [Dict.get?_set_ne _ _ (fun h => hab (List.cons.inj h).1.symm)]
      exact ha'
    rw [hm]
    dsimp only
    rw [hs]
    refine ⟨rfl, key _ rfl (apply_wf hw (.mkdir (fs.key [b]))) fun k hk => ?_⟩
    show Dict.get? (Dict.set fs.nodes [fs.canon b] .dir) k = _
    rw [Dict.get?_set_ne _ _ (Ne.symm hk)]
  | some nd =>
    cases nd with
    | file d => exact absurd hn (hb d)
    | dir =>
      have hm : fs.makedir [b] = .ok fs := by
        unfold makedir
        rw [hn]
      rw [hm]
      dsimp only
      rw [ha]
      exact ⟨rfl, key _ rfl hw fun _ _ => rfl⟩

theorem MovedTo.same {fs f g : FS} {s t : Str} (hf : MovedTo fs s t f) (hg : MovedTo fs s t g) : SameNodes f g := by
  intro p
  cases p with
  | nil => rfl
  | cons c x =>
    show Dict.get? g.nodes (g.canon c :: x.map g.canon) = Dict.get? f.nodes (f.canon c :: x.map f.canon)
    rw [hf.canon, hg.canon]
    by_cases h1 : fs.canon c = s
    · rw [h1, hf.src, hg.src]
    · by_cases h2 : fs.canon c = t
      · rw [h2, hf.dst, hg.dst]
      · rw [hf.rest _ _ h1 h2, hg.rest _ _ h1 h2]

/-- When everything has been copied and removed. -/
theorem Mid.movedTo {fs left : FS} (hw : Dict.WF fs.nodes) {s t : Str} {C R : List (Path × Node)} (ha : Dict.get? fs.nodes [s] = some .dir)
    (hC : C.Perm (entriesBelow fs [s])) (hR : R.Perm (entriesBelow fs [s])) (h : Mid fs s t C R left) : MovedTo fs s t left := by
  have hmem : ∀ {l : List (Path × Node)}, l.Perm (entriesBelow fs [s]) → ∀ x, s :: x ∈ l.map Prod.fst ↔ Dict.get? fs.nodes (s :: x) ≠ none := by
    intro l hl x
    rw [List.mem_map]
    constructor
    · rintro ⟨e, he, h1⟩
      obtain ⟨-, -, h2⟩ := (mem_entries hw).1 (hl.mem_iff.1 he)
      rw [h1] at h2
      rw [h2]
      simp
    · intro hn
      obtain ⟨n, hn⟩ := Option.ne_none_iff_exists'.1 hn
      exact ⟨(s :: x, n), hl.mem_iff.2 ((mem_entries hw).2 ⟨x, rfl, hn⟩), rfl⟩
  refine ⟨h.canon, h.once, fun x => ?_, fun x => ?_, h.rest⟩
  · rw [h.src]
    by_cases hx : Dict.get? fs.nodes (s :: x) = none
    · rw [hx]; simp
    · rw [if_pos ((hmem hR x).2 hx)]
  · rw [h.dst]
    cases hx : Dict.get? fs.nodes (s :: x) with
    | none =>
      rw [if_neg (by rw [hmem hC]; simp [hx]), if_neg]
      · rfl
      · rintro rfl
        rw [ha] at hx
        cases hx
    | some n => rw [if_pos ((hmem hC x).2 (by simp [hx]))]; rfl

end Verif.Ufo
