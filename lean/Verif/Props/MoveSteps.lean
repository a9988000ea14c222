import Verif.Proofs.MoveSteps
import Verif.Props.Tree
import Verif.Props.InterruptAgain
import Verif.Props.UfoRename
/-! Renaming a layer step by step, and stopping in the middle of it: C125. -/
namespace Verif.Props
open Verif Verif.FS Verif.IO Verif.Ufo Verif.Spec.Ufo Verif.Spec.FS Verif.Spec.Interrupt Verif.Spec.MoveSteps Verif.Spec.Tree

/-- C125. Moving a directory step by step, in any order, gives the files and directories of the model that moves it at once. -/
theorem C125_whole (fs : FS) (hw : Dict.WF fs.nodes) (a b : Str) (hab : fs.canon a ≠ fs.canon b) (ha : fs.node? [a] = some .dir) (hb : ∀ d, fs.node? [b] ≠ some (.file d))
    (copied removed : List (Path × Node)) (ho : Orders fs [a] copied removed) :
    SameNodes (fs.movedir [a] [b]).1 (performAll fs (moveSteps (fs.key [a]) (fs.key [b]) copied removed)) := by
  refine (moved_movedir hw hab ha hb).2.same ?_
  exact Mid.movedTo hw ha ho.all ho.gone (mid_steps hw hab (fun e he => ho.all.mem_iff.1 he) fun e he => ho.gone.mem_iff.1 he)

/-- What is known whenever a move stops. -/
structure StopFacts (fs : FS) (s t : Str) (left : FS) : Prop where
  canon : left.canon = fs.canon
  once : Dict.WF left.nodes
  kept : (∀ x, Dict.get? left.nodes (s :: x) = Dict.get? fs.nodes (s :: x)) ∨ ∀ x n, Dict.get? fs.nodes (s :: x) = some n → Dict.get? left.nodes (t :: x) = some n
  sum : ∀ x, (Dict.get? left.nodes (s :: x)).or (Dict.get? left.nodes (t :: x)) = (Dict.get? fs.nodes (s :: x)).or (Dict.get? fs.nodes (t :: x))
  rest : ∀ c x, c ≠ s → c ≠ t → Dict.get? left.nodes (c :: x) = Dict.get? fs.nodes (c :: x)
  made : left = fs ∨ Dict.get? left.nodes [t] = some .dir
  last : Dict.get? left.nodes [s] = some .dir ∨ MovedTo fs s t left

theorem mem_copied {fs : FS} (hw : Dict.WF fs.nodes) {s : Str} {copied : List (Path × Node)} (hC : copied.Perm (entriesBelow fs [s])) (x : Path) :
    s :: x ∈ copied.map Prod.fst ↔ Dict.get? fs.nodes (s :: x) ≠ none := by
  rw [List.mem_map]
  constructor
  · rintro ⟨e, he, h1⟩
    obtain ⟨-, -, h2⟩ := (mem_entries hw).1 (hC.mem_iff.1 he)
    rw [h1] at h2
    rw [h2]
    simp
  · intro hn
    obtain ⟨n, hn⟩ := Option.ne_none_iff_exists'.1 hn
    exact ⟨(s :: x, n), hC.mem_iff.2 ((mem_entries hw).2 ⟨x, rfl, hn⟩), rfl⟩

theorem stop_copying {fs left : FS} (hw : Dict.WF fs.nodes) {s t : Str} (hs : Dict.get? fs.nodes [s] = some .dir) {copied C : List (Path × Node)} (hC : copied.Perm (entriesBelow fs [s])) (hp : C <+: copied)
    (h : Mid fs s t C [] left) : StopFacts fs s t left := by
  have hsrc : ∀ x, Dict.get? left.nodes (s :: x) = Dict.get? fs.nodes (s :: x) := fun x => by rw [h.src]; simp
  refine ⟨h.canon, h.once, .inl hsrc, fun x => ?_, h.rest, .inr ?_, .inl (by rw [hsrc, hs])⟩
  · rw [hsrc]
    cases hx : Dict.get? fs.nodes (s :: x) with
    | some n => rfl
    | none =>
      have hm : s :: x ∉ C.map Prod.fst := fun hm => (mem_copied hw hC x).1 ((hp.map Prod.fst).subset hm) hx
      rw [h.dst, if_neg hm, if_neg]
      rintro rfl
      rw [hs] at hx
      cases hx
  · rw [h.dst]
    split
    · exact hs
    · rfl

theorem stop_facts {fs left : FS} (hw : Dict.WF fs.nodes) {a b : Str} (hab : fs.canon a ≠ fs.canon b) (ha : fs.node? [a] = some .dir) (h : StoppedMove fs [a] [b] left) :
    StopFacts fs (fs.canon a) (fs.canon b) left := by
  obtain ⟨copied, removed, ho, hs⟩ := h
  have hs' : Dict.get? fs.nodes [fs.canon a] = some .dir := ha
  rcases stopped_mid hw hab ho.all ho.gone hs with rfl | ⟨C, hp, hm⟩ | ⟨R, hp, hm⟩ | ⟨C, x, d, j, mid, hp, hm, rfl⟩
  · exact ⟨rfl, hw, .inl fun _ => rfl, fun _ => rfl, fun _ _ _ _ => rfl, .inl rfl, .inl hs'⟩
  · exact stop_copying hw hs' ho.all hp hm
  · have hdst : ∀ x n, Dict.get? fs.nodes (fs.canon a :: x) = some n → Dict.get? left.nodes (fs.canon b :: x) = some n := fun x n hx => by
      rw [hm.dst, if_pos ((mem_copied hw ho.all x).2 (by simp [hx])), hx]
    refine ⟨hm.canon, hm.once, .inr hdst, fun x => ?_, hm.rest, .inr (hdst [] _ hs'), ?_⟩
    · cases hx : Dict.get? fs.nodes (fs.canon a :: x) with
      | some n =>
        rw [hdst x n hx, hm.src, hx]
        split <;> rfl
      | none =>
        have hnot : fs.canon a :: x ∉ copied.map Prod.fst := fun h => (mem_copied hw ho.all x).1 h hx
        have hx0 : x ≠ [] := by
          rintro rfl
          rw [hs'] at hx
          cases hx
        rw [hm.src, hx, hm.dst, if_neg hnot, if_neg hx0]
        split <;> rfl
    · by_cases hin : [fs.canon a] ∈ R.map Prod.fst
      · right
        obtain ⟨rest, hrest⟩ := hp
        obtain ⟨e, he, h1⟩ := List.mem_map.1 hin
        have hnil : rest = [] := by
          cases rest with
          | nil => rfl
          | cons f l =>
            have hup := ho.up
            rw [← hrest, List.pairwise_append] at hup
            have hf := (mem_entries hw).1 (ho.gone.mem_iff.1 (by rw [← hrest]; simp : f ∈ removed))
            obtain ⟨y, hy, -⟩ := hf
            refine absurd ?_ (hup.2.2 e he f List.mem_cons_self)
            rw [h1, hy]
            exact ⟨y, rfl⟩
        rw [hnil, List.append_nil] at hrest
        subst hrest
        exact Mid.movedTo hw hs' ho.all ho.gone hm
      · left
        rw [hm.src, if_neg hin, hs']
  · have hC : C <+: copied := (List.prefix_append _ _).trans hp
    have f := stop_copying hw hs' ho.all hC hm
    have hfile : Dict.get? fs.nodes (fs.canon a :: x) = some (.file d) := by
      obtain ⟨y, -, h⟩ := (mem_entries hw).1 (ho.all.mem_iff.1 (hp.subset (by simp : (fs.canon a :: x, Node.file d) ∈ C ++ [(fs.canon a :: x, Node.file d)])))
      exact h
    have hx0 : x ≠ [] := by
      rintro rfl
      rw [hs'] at hfile
      cases hfile
    have hget : ∀ k, k ≠ fs.canon b :: x → Dict.get? (mid.perform (.write (fs.canon b :: x) (d.take j))).nodes k = Dict.get? mid.nodes k := fun k hk => by
      show Dict.get? (Dict.set mid.nodes _ _) k = _
      rw [Dict.get?_set_ne _ _ (Ne.symm hk)]
    have hsne : ∀ y, fs.canon a :: y ≠ fs.canon b :: x := fun y h => hab (List.cons.inj h).1
    have hsrc : ∀ y, Dict.get? mid.nodes (fs.canon a :: y) = Dict.get? fs.nodes (fs.canon a :: y) := fun y => by rw [hm.src]; simp
    refine ⟨f.canon, apply_wf f.once (.write (fs.canon b :: x) (d.take j)), .inl fun y => ?_, fun y => ?_, fun c y h1 h2 => ?_, .inr ?_, .inl ?_⟩
    · rw [hget _ (hsne y), hsrc]
    · rw [hget _ (hsne y)]
      by_cases hy : y = x
      · subst hy
        rw [hsrc, hfile]
        rfl
      · rw [hget _ fun h => hy (List.cons.inj h).2, f.sum]
    · rw [hget _ fun h => h2 (List.cons.inj h).1, f.rest c y h1 h2]
    · rw [hget _ fun h => hx0 (List.cons.inj h).2.symm]
      rcases f.made with h | h
      · rw [hm.dst]
        split
        · exact hs'
        · rfl
      · exact h
    · rw [hget _ (hsne []), hsrc, hs']

/-- C125. Whenever the move of a directory stops, everything in it is still in the old place, or everything is in the new place; and nothing else has changed. -/
theorem C125_kept (fs left : FS) (hw : Dict.WF fs.nodes) (a b : Str) (hab : fs.canon a ≠ fs.canon b) (ha : fs.node? [a] = some .dir) (h : StoppedMove fs [a] [b] left) :
    ((∀ x, left.node? (a :: x) = fs.node? (a :: x)) ∨ ∀ x n, fs.node? (a :: x) = some n → left.node? (b :: x) = some n) ∧
      ∀ c x, fs.canon c ≠ fs.canon a → fs.canon c ≠ fs.canon b → left.node? (c :: x) = fs.node? (c :: x) := by
  have f := stop_facts hw hab ha h
  have hn : ∀ c x, left.node? (c :: x) = Dict.get? left.nodes (fs.canon c :: x.map fs.canon) := fun c x => by
    show Dict.get? left.nodes (left.canon c :: x.map left.canon) = _
    rw [f.canon]
  refine ⟨f.kept.imp (fun k x => ?_) fun k x n hx => ?_, fun c x h1 h2 => ?_⟩
  · rw [hn, k]; rfl
  · rw [hn]; exact k _ n hx
  · rw [hn, f.rest _ _ h1 h2]; rfl

/-- C125. A move that stopped and is made again leaves the files and directories of a move that did not stop; if the old directory is gone it need not be made again. -/
theorem C125_again (fs left : FS) (hw : Dict.WF fs.nodes) (a b : Str) (hab : fs.canon a ≠ fs.canon b) (ha : fs.node? [a] = some .dir) (hb : ∀ d, fs.node? [b] ≠ some (.file d))
    (h : StoppedMove fs [a] [b] left) :
    (left.node? [a] = some .dir ∧ (left.movedir [a] [b]).2 = .ok () ∧ SameNodes (fs.movedir [a] [b]).1 (left.movedir [a] [b]).1) ∨
      (left.node? [a] = none ∧ SameNodes (fs.movedir [a] [b]).1 left) := by
  have f := stop_facts hw hab ha h
  have m := (moved_movedir hw hab ha hb).2
  have hn : ∀ c, left.node? [c] = Dict.get? left.nodes [fs.canon c] := fun c => by
    show Dict.get? left.nodes [left.canon c] = _
    rw [f.canon]
  rcases f.last with hl | hl
  · have hb' : ∀ d, left.node? [b] ≠ some (.file d) := by
      intro d hd
      rcases f.made with rfl | hm
      · exact hb d hd
      · rw [hn, hm] at hd
        cases hd
    have hla : left.node? [a] = some .dir := by rw [hn, hl]
    obtain ⟨h1, h2⟩ := moved_movedir f.once (a := a) (b := b) (by rw [f.canon]; exact hab) hla hb'
    refine .inl ⟨hla, h1, m.same ?_⟩
    rw [f.canon] at h2
    refine ⟨by rw [h2.canon, f.canon], h2.once, h2.src, fun x => ?_, fun c x h3 h4 => ?_⟩
    · rw [h2.dst, f.sum]
    · rw [h2.rest c x h3 h4, f.rest c x h3 h4]
  · exact .inr ⟨by rw [hn, hl.src], m.same hl⟩

theorem tidy_shape {fs left : FS} (ht : Tidy fs) (hc : left.canon = fs.canon) (hw : Dict.WF left.nodes)
    (h : ∀ k, Dict.get? left.nodes k = Dict.get? fs.nodes k ∨ ∃ d d', Dict.get? left.nodes k = some (.file d) ∧ Dict.get? fs.nodes k = some (.file d')) : Tidy left := by
  have hk : ∀ p, left.key p = fs.key p := fun p => by unfold FS.key; rw [hc]
  have hn : ∀ p, left.node? p = fs.node? p ∨ ∃ d d', left.node? p = some (.file d) ∧ fs.node? p = some (.file d') := by
    intro p
    unfold FS.node?
    by_cases hp : p = []
    · rw [if_pos hp, if_pos hp]; exact .inl rfl
    · rw [if_neg hp, if_neg hp, hk]; exact h _
  refine tidy_intro hw (fun k n hg => ?_) fun p n hp => ?_
  · have : ∃ n', Dict.get? fs.nodes k = some n' := by
      rcases h k with h | ⟨d, d', -, h⟩
      · exact ⟨n, by rw [← h, hg]⟩
      · exact ⟨_, h⟩
    obtain ⟨n', hn'⟩ := this
    obtain ⟨p, h1, h2⟩ := tidy_key ht hn'
    exact ⟨p, h1, by rw [hk, h2]⟩
  · have : ∃ n', fs.node? p = some n' := by
      rcases hn p with h | ⟨d, d', -, h⟩
      · exact ⟨n, by rw [← h, hp]⟩
      · exact ⟨_, h⟩
    obtain ⟨n', hn'⟩ := this
    have hpar := tidy_parent ht hn'
    rcases hn p.dropLast with h | ⟨d, d', -, h⟩
    · rw [h, hpar]
    · rw [hpar] at h; cases h

theorem tidy_mid {fs left : FS} (ht : Tidy fs) {a b : Str} (ha : fs.node? [a] = some .dir) (hnc : NoClash fs a b) {copied removed C R : List (Path × Node)}
    (ho : Orders fs [a] copied removed) (hC : C <+: copied) (hR : R <+: removed) (hm : Mid fs (fs.canon a) (fs.canon b) C R left) : Tidy left := by
  have hw := ht.once
  have hs' : Dict.get? fs.nodes [fs.canon a] = some .dir := ha
  have hkey : ∀ p, left.key p = fs.key p := fun p => by unfold FS.key; rw [hm.canon]
  have hpar : ∀ c x n, x ≠ [] → Dict.get? fs.nodes (c :: x) = some n → Dict.get? fs.nodes (c :: x.dropLast) = some .dir := by
    intro c x n hx hg
    obtain ⟨p, hp, hpk⟩ := tidy_key ht hg
    have h1 : fs.node? p = some n := by rw [node?_of_ne hp, ← hpk, hg]
    have h2 := tidy_parent ht h1
    have h3 : fs.key p.dropLast = c :: x.dropLast := by
      rw [key_dropLast, ← hpk, List.dropLast_cons_of_ne_nil hx]
    have h4 : p.dropLast ≠ [] := by
      intro h
      rw [h] at h3
      cases h3
    rw [node?_of_ne h4, h3] at h2
    exact h2
  refine tidy_intro hm.once (fun k n hg => ?_) fun p n hp => ?_
  · have old : ∀ n', Dict.get? fs.nodes k = some n' → ∃ p : Path, p ≠ [] ∧ k = left.key p := fun n' h => by
      obtain ⟨p, h1, h2⟩ := tidy_key ht h
      exact ⟨p, h1, by rw [hkey, h2]⟩
    cases k with
    | nil => rw [hm.root] at hg; exact old n hg
    | cons c x =>
      by_cases h1 : c = fs.canon a
      · rw [h1, hm.src] at hg
        split at hg
        · cases hg
        · rw [h1] at old ⊢; exact old n hg
      · by_cases h2 : c = fs.canon b
        · rw [h2, hm.dst] at hg
          split at hg
          · obtain ⟨p, hp, hpk⟩ := tidy_key ht hg
            cases p with
            | nil => exact absurd rfl hp
            | cons q p =>
              refine ⟨b :: p, by simp, ?_⟩
              rw [hkey, h2]
              exact congrArg (fs.canon b :: ·) (List.cons.inj hpk).2
          · split at hg
            · rename_i hx
              refine ⟨[b], by simp, ?_⟩
              rw [hkey, h2, hx]
              rfl
            · rw [h2] at old ⊢; exact old n hg
        · rw [hm.rest c x h1 h2] at hg; exact old n hg
  · cases hpq : p with
    | nil => rfl
    | cons q p' =>
    by_cases hp' : p' = []
    · subst hp'; rfl
    have hne : p ≠ [] := by rw [hpq]; simp
    have hdn : p.dropLast ≠ [] := by
      rw [hpq, List.dropLast_cons_of_ne_nil hp']; simp
    rw [← hpq, node?_of_ne hdn, hkey, key_dropLast]
    rw [node?_of_ne hne, hkey] at hp
    have hK : ∃ c x, x ≠ [] ∧ fs.key p = c :: x := ⟨fs.canon q, p'.map fs.canon, by simpa using hp', by rw [hpq]; rfl⟩
    obtain ⟨c, x, hx, hcx⟩ := hK
    rw [hcx] at hp
    rw [hcx, List.dropLast_cons_of_ne_nil hx]
    have hpre : ∀ c : Str, (c :: x.dropLast) <+: c :: x := fun c => by
      rw [← List.dropLast_cons_of_ne_nil hx]
      exact List.dropLast_prefix _
    by_cases h1 : c = fs.canon a
    · subst h1
      rw [hm.src] at hp ⊢
      split at hp
      · cases hp
      · rename_i hnot
        have hd := hpar _ x n hx hp
        rw [if_neg, hd]
        intro hin
        obtain ⟨e, he, he1⟩ := List.mem_map.1 hin
        obtain ⟨rest, hrest⟩ := hR
        have hmem : (fs.canon a :: x, n) ∈ removed := ho.gone.mem_iff.2 ((mem_entries hw).2 ⟨x, rfl, hp⟩)
        rw [← hrest, List.mem_append] at hmem
        rcases hmem with hmem | hmem
        · exact hnot (List.mem_map.2 ⟨_, hmem, rfl⟩)
        · have hup := ho.up
          rw [← hrest, List.pairwise_append] at hup
          refine hup.2.2 e he _ hmem ?_
          rw [he1]
          exact hpre _
    · by_cases h2 : c = fs.canon b
      · subst h2
        rw [hm.dst] at hp ⊢
        split at hp
        · rename_i hin
          have hd := hpar _ x n hx hp
          rw [if_pos, hd]
          obtain ⟨f, hf, hf1⟩ := List.mem_map.1 hin
          obtain ⟨rest, hrest⟩ := hC
          have hmem : (fs.canon a :: x.dropLast, Node.dir) ∈ copied := ho.all.mem_iff.2 ((mem_entries hw).2 ⟨_, rfl, hd⟩)
          rw [← hrest, List.mem_append] at hmem
          rcases hmem with hmem | hmem
          · exact List.mem_map.2 ⟨_, hmem, rfl⟩
          · have hdown := ho.down
            rw [← hrest, List.pairwise_append] at hdown
            refine absurd ?_ (hdown.2.2 f hf _ hmem)
            rw [hf1]
            exact hpre _
        · have hd := hpar _ x n hx hp
          split
          · rename_i hin
            have hin' := (mem_copied hw ho.all x.dropLast).1 ((hC.map Prod.fst).subset hin)
            cases hg : Dict.get? fs.nodes (fs.canon a :: x.dropLast) with
            | none => exact absurd hg hin'
            | some nd =>
              cases nd with
              | dir => rfl
              | file dd =>
                obtain ⟨r, hr, hrk⟩ := tidy_key ht hg
                cases r with
                | nil => exact absurd rfl hr
                | cons r0 r =>
                  have hk := (List.cons.inj hrk).2
                  have := hnc r (isfile_iff.2 ⟨dd, by rw [node?_of_ne (by simp)]; show Dict.get? fs.nodes (fs.canon a :: r.map fs.canon) = _; rw [← hg, hk]⟩)
                  have hdir : fs.isdir (b :: r) = true := isdir_iff.2 (by rw [node?_of_ne (by simp)]; show Dict.get? fs.nodes (fs.canon b :: r.map fs.canon) = _; rw [← hd, hk])
                  rw [hdir] at this
                  cases this
          · split
            · rfl
            · exact hd
      · rw [hm.rest _ _ h1 h2] at hp ⊢
        exact hpar _ x n hx hp

/-- C125. Whenever the move of a directory stops, the files of the UFO are a tree, when they are one before and no file comes where there is a directory. -/
theorem C125_tree (fs left : FS) (ht : Tidy fs) (a b : Str) (hab : fs.canon a ≠ fs.canon b) (ha : fs.node? [a] = some .dir) (hnc : NoClash fs a b) (h : StoppedMove fs [a] [b] left) :
    Tidy left ∧ Tree left := by
  suffices h : Tidy left from ⟨h, tree_of_tidy h⟩
  obtain ⟨copied, removed, ho, hs⟩ := h
  rcases stopped_mid ht.once hab ho.all ho.gone hs with rfl | ⟨C, hp, hm⟩ | ⟨R, hp, hm⟩ | ⟨C, x, d, j, mid, hp, hm, rfl⟩
  · exact ht
  · exact tidy_mid ht ha hnc ho hp (List.nil_prefix) hm
  · exact tidy_mid ht ha hnc ho (List.prefix_refl _) hp hm
  · have hsub : ∀ e ∈ C ++ [(fs.canon a :: x, Node.file d)], e ∈ entriesBelow fs [fs.canon a] := fun e he => ho.all.mem_iff.1 (hp.subset he)
    have hfull := mid_steps ht.once (t := fs.canon b) hab hsub (R := []) (by simp)
    have hfile : Dict.get? fs.nodes (fs.canon a :: x) = some (.file d) := by
      obtain ⟨y, -, h⟩ := (mem_entries ht.once).1 (hsub _ (by simp : (fs.canon a :: x, Node.file d) ∈ C ++ [(fs.canon a :: x, Node.file d)]))
      exact h
    have htf := tidy_mid ht ha hnc ho hp (List.nil_prefix) hfull
    refine tidy_shape htf (by rw [hfull.canon]; exact hm.canon) (apply_wf hm.once (.write (fs.canon b :: x) (d.take j))) fun k => ?_
    have hg : Dict.get? (mid.perform (.write (fs.canon b :: x) (d.take j))).nodes k = if fs.canon b :: x = k then some (.file (d.take j)) else Dict.get? mid.nodes k := Dict.get?_set _ _ _ _
    rw [hg]
    by_cases hk : fs.canon b :: x = k
    · rw [if_pos hk, ← hk]
      right
      refine ⟨_, d, rfl, ?_⟩
      rw [hfull.dst, if_pos (by simp), hfile]
    · rw [if_neg hk]
      left
      cases k with
      | nil => rw [hm.root, hfull.root]
      | cons c y =>
        by_cases h1 : c = fs.canon a
        · rw [h1, hm.src, hfull.src]
        · by_cases h2 : c = fs.canon b
          · have hy : y ≠ x := fun h => hk (by rw [h, h2])
            rw [h2, hm.dst, hfull.dst]
            have : (fs.canon a :: y ∈ (C ++ [(fs.canon a :: x, Node.file d)]).map Prod.fst) ↔ fs.canon a :: y ∈ C.map Prod.fst := by
              simp [hy]
            by_cases h3 : fs.canon a :: y ∈ C.map Prod.fst
            · rw [if_pos h3, if_pos (this.2 h3)]
            · rw [if_neg h3, if_neg fun h => h3 (this.1 h)]
          · rw [hm.rest c y h1 h2, hfull.rest c y h1 h2]

theorem renameCheck_names {layers : Dict Str Str} {n m : Str} {b : Bool} {r : Option Str} (h : renameCheck layers (some n) (some m) b = .ok r) : (r = none → n = m) ∧ ∀ x, r = some x → x = m := by
  unfold renameCheck at h
  split at h
  · rename_i hnm
    cases hnm
    dsimp only at h
    refine ⟨fun _ => rfl, ?_⟩
    rintro x rfl
    split at h
    · cases h
    · split at h
      · cases h
      · split at h
        · cases h
        · cases h; rfl
  · dsimp only at h
    split at h
    · cases h
    · split at h
      · cases h
      · cases h
        exact ⟨fun h => (by cases h), fun x hx => (by cases hx; rfl)⟩

theorem rename_again {L : Casing} {w w' : Writer} {fs fs' left : FS} {n m : Str} {b : Bool} {d e : Str} (hl : Layered w) (h3 : w.version = 3) (hd : Dict.get? w.layers n = some d)
    (he : Dict.get? w'.layers m = some e) (hde : d ≠ e) (h : renameGlyphSet L (w, fs) (some n) (some m) b = ((w', fs'), .ok ())) :
    renameDirectory L w.layers m b = .ok e ∧ (n ≠ m ∧ Dict.get? w.layers m = none ∧ (b = true → glyphsName ∉ Dict.values w.layers) ∨ n = m ∧ (b = true → d ≠ glyphsName)) ∧
      fs' = (fs.movedir [d] [e]).1 ∧ (fs.movedir [d] [e]).2 = .ok () ∧ renameGlyphSet L (w, left) (some n) (some m) b = ((w', (left.movedir [d] [e]).1), (left.movedir [d] [e]).2) := by
  obtain ⟨d', hd', hcase⟩ := rename_ok (w := (w, fs)) (w' := (w', fs')) hl h3 h
  have hd2 : Dict.get? w.layers n = some d' := hd'
  rw [hd] at hd2
  cases hd2
  rcases hcase with ⟨rfl, hw', -⟩ | ⟨e', hc, hr, hw', hok⟩
  · cases hw'
    rw [hd] at he
    exact absurd (Option.some.inj he) hde
  · have h1 : w' = { w with layers := Dict.set (Dict.erase w.layers n) m e' } := congrArg Prod.fst hw'
    have h2 : fs' = (fs.movedir [d] [e']).1 := congrArg Prod.snd hw'
    have hee : e' = e := by
      rw [h1] at he
      have : Dict.get? (Dict.set (Dict.erase w.layers n) m e') m = some e := he
      rw [Dict.get?_set_self] at this
      exact Option.some.inj this
    subst hee
    refine ⟨hr, hc, h2, hok, ?_⟩
    unfold renameGlyphSet at h ⊢
    dsimp only at h ⊢
    rw [if_neg (by omega)] at h ⊢
    split at h
    · cases h
    · rename_i hchk
      have := congrArg (fun q => q.1.1) h
      dsimp only at this
      rw [← this, ← (renameCheck_names hchk).1 rfl, hd] at he
      exact absurd (Option.some.inj he) hde
    · rename_i new hchk
      have hnew := (renameCheck_names hchk).2 new rfl
      subst hnew
      rw [hr] at h ⊢
      split at h
      · cases h
      · rename_i od hod
        have hod' : od = d := by
          rw [findDirectory_of hl hd] at hod
          exact (Except.ok.inj hod).symm
        subst hod'
        have hw2 := congrArg (fun q => q.1.1) h
        dsimp only at hw2
        rw [← hw2]

theorem movedir_returned {fs : FS} {a b : Str} (h : (fs.movedir [a] [b]).2 = .ok ()) : ∀ d, fs.node? [b] ≠ some (.file d) := by
  intro d hd
  unfold movedir makedir at h
  rw [hd] at h
  cases h

/-- C125. A layer is renamed, and the process stops in the middle: all files of the layer are in its old directory or all of them are in its new one, and the other files are as they were. If
the old directory is there, renaming the layer again, with the writer in the state before the call, leaves the files and the writer of a call that was not interrupted; if it is gone, the files
are those already. -/
theorem C125_rename (L : Casing) (hL : AsciiPrefix L) (w w' : World) (hw : Consistent L ⟨w.1, w.2, []⟩) (n m : Str) (b : Bool) (h : renameGlyphSet L w (some n) (some m) b = (w', .ok ()))
    (d e : Str) (hd : Dict.get? w.1.layers n = some d) (he : Dict.get? w'.1.layers m = some e) (hde : d ≠ e) (left : FS) (hs : StoppedMove w.2 [d] [e] left) :
    ((∀ x, left.node? (d :: x) = w.2.node? (d :: x)) ∨ ∀ x node, w.2.node? (d :: x) = some node → left.node? (e :: x) = some node) ∧
      (∀ c x, w.2.canon c ≠ w.2.canon d → w.2.canon c ≠ w.2.canon e → left.node? (c :: x) = w.2.node? (c :: x)) ∧
      ((left.node? [d] = some .dir ∧ ∃ fs, renameGlyphSet L (w.1, left) (some n) (some m) b = ((w'.1, fs), .ok ()) ∧ SameNodes w'.2 fs) ∨
        (left.node? [d] = none ∧ SameNodes w'.2 left)) := by
  obtain ⟨w, fs⟩ := w
  obtain ⟨w', fs'⟩ := w'
  have hl : Layered w := ⟨hw.layers, hw.dirs⟩
  obtain ⟨hr, hc, rfl, hok, hagain⟩ := rename_again (left := left) hl hw.version hd he hde h
  have hab : fs.canon d ≠ fs.canon e := fun x => rename_dir_ne hL hl hd hc hr (hw.canon _ _ x)
  have hdir := ((movedir_node hw.nodes hab).2.2 hok).1
  obtain ⟨k1, k2⟩ := C125_kept fs left hw.nodes d e hab hdir hs
  refine ⟨k1, k2, ?_⟩
  rcases C125_again fs left hw.nodes d e hab hdir (movedir_returned hok) hs with ⟨h1, h2, h3⟩ | ⟨h1, h2⟩
  · exact .inl ⟨h1, _, by rw [hagain, h2], h3⟩
  · exact .inr ⟨h1, h2⟩

/-- C125. A program opens a UFO 3 and renames a layer, and is stopped before the old directory itself is removed. When it is started again, it can open the UFO as before, which changes nothing,
and renaming the layer leaves the files and the writer of a program that was not stopped. -/
theorem C125_program_partial (F : FloatCodec) (hF : F.Lawful) (L : Casing) (hL : AsciiPrefix L) (fs : FS) (creator : PyVal) (hcr : Storable creator) (w w' : World)
    (hm : readMetaInfo F fs true = .ok 3) (h : openWriter F true fs 3 creator true = (w.2, .ok w.1)) (hk : KeepsApart fs.canon) (hw : Consistent L ⟨w.1, w.2, []⟩)
    (n m : Str) (b : Bool) (hr : renameGlyphSet L w (some n) (some m) b = (w', .ok ())) (d e : Str) (hd : Dict.get? w.1.layers n = some d) (he : Dict.get? w'.1.layers m = some e) (hde : d ≠ e)
    (left : FS) (hs : StoppedMove w.2 [d] [e] left) (hleft : left.node? [d] = some .dir) :
    openWriter F true left 3 creator true = (left, .ok w.1) ∧ ∃ fs', renameGlyphSet L (w.1, left) (some n) (some m) b = ((w'.1, fs'), .ok ()) ∧ SameNodes w'.2 fs' := by
  refine ⟨?_, ?_⟩
  · obtain ⟨w, fs1⟩ := w
    obtain ⟨w', fs'⟩ := w'
    have hl : Layered w := ⟨hw.layers, hw.dirs⟩
    obtain ⟨hrd, hc, rfl, hok, -⟩ := rename_again (left := left) hl hw.version hd he hde hr
    have hab : fs1.canon d ≠ fs1.canon e := fun x => rename_dir_ne hL hl hd hc hrd (hw.canon _ _ x)
    have hdir := ((movedir_node hw.nodes hab).2.2 hok).1
    have f := stop_facts hw.nodes hab hdir hs
    have k2 := (C125_kept fs1 left hw.nodes d e hab hdir hs).2
    have gd : GlyphsDir d := hw.dirs n d hd
    have ge : GlyphsDir e := renameDirectory_dir hrd
    obtain ⟨hsup, ⟨previous, hprev, hlow, hlay⟩, hwp, hv, hhp, hval, hmap⟩ := openWriter_ok h
    obtain ⟨hcanon, hframe, -⟩ := Verif.IO.writePlist_spec hwp
    have hcanon' : fs1.canon = fs.canon := hcanon
    have e0 : previous = some 3 := by
      have := (readMetaInfo_true hm).2.1
      rw [hprev] at this
      exact Except.ok.inj this
    subst e0
    have hstd : ∀ a ∈ standardNames, left.node? [a] = fs1.node? [a] := fun a ha => k2 a [] (by rw [hcanon']; exact Ne.symm (hk.dirs a ha d gd)) (by rw [hcanon']; exact Ne.symm (hk.dirs a ha e ge))
    have n1 : left.node? [metainfoName] = fs1.node? [metainfoName] := hstd _ (by simp [standardNames, metainfoName])
    have n2 : left.node? [layercontentsName] = fs.node? [layercontentsName] := by
      rw [hstd _ (by simp [standardNames, layercontentsName])]
      refine hframe _ fun e => ?_
      simp only [FS.key, List.map_cons, List.map_nil, List.cons.injEq, and_true] at e
      exact absurd (hk.names _ (by simp [standardNames, layercontentsName]) _ (by simp [standardNames, metainfoName]) e) (by decide)
    have hmeta' : readMetaInfo F left true = .ok 3 := by
      rw [readMetaInfo_congr n1]
      exact readMetaInfo_stored F rfl (writePlist_reads F hF (storable_metaInfo hcr rfl) hwp none) true
    have hlay' : initialLayers F left (some 3) true = .ok w.layers := by
      unfold initialLayers at hlay ⊢
      simp only [Option.any_some, decide_eq_true_eq, Std.le_refl, if_true] at hlay ⊢
      split at hlay
      · cases hlay
      · next t ht =>
        rw [Crash.readLayerTable_mono n2 (fun x hg hx => ?_) ht]
        · exact hlay
        · have hx1 : fs1.exists [x] = true := by
            unfold FS.exists at hx ⊢
            have hfx : fs1.node? [x] = fs.node? [x] := hframe _ fun e => by
              simp only [FS.key, List.map_cons, List.map_nil, List.cons.injEq, and_true] at e
              exact hk.dirs metainfoName (by simp [standardNames, metainfoName]) x hg e
            rw [hfx]
            exact hx
          unfold FS.exists at hx1 ⊢
          by_cases q1 : fs1.canon x = fs1.canon d
          · have : left.node? [x] = left.node? [d] := by
              show Dict.get? left.nodes [left.canon x] = Dict.get? left.nodes [left.canon d]
              rw [f.canon, q1]
            rw [this, hleft]
            rfl
          · by_cases q2 : fs1.canon x = fs1.canon e
            · rcases f.made with rfl | hmade
              · exact hx1
              · have : left.node? [x] = some .dir := by
                  show Dict.get? left.nodes [left.canon x] = _
                  rw [f.canon, q2, hmade]
                rw [this]
                rfl
            · rw [k2 x [] q1 q2]
              exact hx1
    unfold openWriter
    rw [hsup, (readMetaInfo_true hmeta').2.1]
    simp only [Bool.true_eq_false, if_false, Option.any_some, decide_eq_true_eq, Int.lt_irrefl]
    rw [hlay']
    dsimp only
    rw [Interrupt.writePlist_again hwp n1]
    dsimp only
    rcases w with ⟨a, b, c, d, e⟩
    dsimp only at hv hhp hval hmap
    subst hv hhp hval hmap
    rfl
  · obtain ⟨-, -, h1 | h1⟩ := C125_rename L hL w w' hw n m b hr d e hd he hde left hs
    · exact h1.2
    · rw [h1.1] at hleft
      cases hleft

/-- The UFO of the examples of C77, with its table of layers. -/
def ufo125 : World := (writeLayerContents fractionCodec layers77 none true).1

/-- The files of a layer in the order in which they are copied. -/
def copied125 : List (Path × Node) := entriesBelow ufo125.2 [c!"glyphs.b"]

theorem orders125 : Orders ufo125.2 [c!"glyphs.b"] copied125 copied125.reverse :=
  ⟨List.Perm.refl _, List.reverse_perm _, by decide +kernel, by decide +kernel⟩

/-- A stop in the middle: the directory was made and the file of the glyph is being written. The layer can be read from its old directory. -/
example : ∃ left, StoppedMove ufo125.2 [c!"glyphs.b"] [c!"glyphs.C_"] left ∧ left.node? [c!"glyphs.C_", c!"x.glif"] = some (.file []) ∧ left.node? [c!"glyphs.b", c!"x.glif"] = some (.file [2]) ∧
    (getLayerNames fractionCodec left 3 true).toOption = some [c!"a", c!"b"] := by
  refine ⟨_, ⟨copied125, copied125.reverse, orders125, .writing 2 0 (p := [c!"glyphs.C_", c!"x.glif"]) (d := [2]) (by decide +kernel)⟩, ?_⟩
  decide +kernel

/-- C125. Refuted for a process that stops after the old directory is gone and before the table of layers is written: the UFO has a table with a directory that does not exist, no reader gives the
names of its layers and no writer can be opened on it, although the files of the layer are all there. -/
theorem C125_refuted : ∃ left, StoppedMove ufo125.2 [c!"glyphs.b"] [c!"glyphs.C_"] left ∧ (renameGlyphSet asciiCasing ufo125 (some c!"b") (some c!"C") false).2 = .ok () ∧
    (getLayerNames fractionCodec ufo125.2 3 true).toOption = some [c!"a", c!"b"] ∧ (getLayerNames fractionCodec left 3 true).toOption = none ∧
    (openWriter fractionCodec true left 3 (.str c!"x") true).2.toOption.isNone = true ∧ left.node? [c!"glyphs.C_", c!"x.glif"] = some (.file [2]) := by
  refine ⟨_, ⟨copied125, copied125.reverse, orders125, .between (moveSteps (ufo125.2.key [c!"glyphs.b"]) (ufo125.2.key [c!"glyphs.C_"]) copied125 copied125.reverse).length⟩, ?_⟩
  decide +kernel

end Verif.Props
