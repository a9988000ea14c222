import Verif.Model.Walk
import Verif.Props.Tree
import Mathlib.Data.List.Perm.Subperm
namespace Verif.Proofs.Walk
open Verif Verif.FS Verif.Ufo Verif.Props

/-- Comparing twice is comparing once: true of every way in which file systems compare names. -/
def Idem (canon : Str → Str) : Prop := ∀ a, canon (canon a) = canon a

theorem snoc_of {k a : Path} {n : Str} (h1 : k.dropLast = a) (h2 : k.getLast? = some n) : k = a ++ [n] := by
  rw [← h1]
  exact (List.dropLast_append_getLast? n (by rw [h2]; rfl)).symm

/-- What is in a listing of a directory. -/
theorem mem_entries {fs : FS} (ht : Tidy fs) (hi : Idem fs.canon) {d : Path} {n : Str} {b : Bool} :
    (n, b) ∈ entries fs d ↔ fs.canon n = n ∧ ∃ x, fs.node? (d ++ [n]) = some x ∧ b = decide (x = .dir) := by
  unfold entries
  rw [List.mem_filterMap]
  constructor
  · rintro ⟨⟨k, x⟩, hm, h⟩
    dsimp only at h
    split at h
    · rename_i hd
      rw [Option.map_eq_some_iff] at h
      obtain ⟨m, hl, he⟩ := h
      cases he
      have hk := snoc_of hd hl
      obtain ⟨p, -, hp⟩ := ht.canonical k (Dict.mem_keys_of_mem hm)
      have hn : fs.canon n = n := by
        have : n ∈ p.map fs.canon := by rw [← hp, hk]; simp
        obtain ⟨a, -, rfl⟩ := List.mem_map.1 this
        exact hi a
      refine ⟨hn, x, ?_, rfl⟩
      rw [node?_of_ne (by simp)]
      have e : fs.key (d ++ [n]) = k := by rw [hk]; simp [FS.key, hn]
      rw [e]
      exact Dict.get?_of_mem ht.once hm
    · cases h
  · rintro ⟨hn, x, hx, rfl⟩
    rw [node?_of_ne (by simp)] at hx
    refine ⟨_, Dict.mem_of_get? hx, ?_⟩
    simp [FS.key, hn]

theorem entries_nodup {fs : FS} (ht : Tidy fs) (d : Path) : ((entries fs d).map Prod.fst).Nodup := by
  have h : ∀ l : List (Path × Node), (l.map Prod.fst).Nodup →
      ((l.filterMap fun e => if e.1.dropLast = fs.key d then e.1.getLast?.map fun n => (n, decide (e.2 = .dir)) else none).map Prod.fst).Nodup := by
    intro l
    induction l with
    | nil => intro _; exact List.nodup_nil
    | cons e l ih =>
      intro h
      rw [List.map_cons, List.nodup_cons] at h
      rw [List.filterMap_cons]
      split
      · exact ih h.2
      · rename_i x hx
        rw [List.map_cons, List.nodup_cons]
        refine ⟨fun hm => h.1 ?_, ih h.2⟩
        split at hx
        · rename_i hd
          rw [Option.map_eq_some_iff] at hx
          obtain ⟨n, hl, rfl⟩ := hx
          rw [List.mem_map] at hm
          obtain ⟨⟨n', b⟩, hm, hn⟩ := hm
          dsimp only at hn
          subst hn
          rw [List.mem_filterMap] at hm
          obtain ⟨e', hm', he'⟩ := hm
          split at he'
          · rename_i hd'
            rw [Option.map_eq_some_iff] at he'
            obtain ⟨n2, hl', he'⟩ := he'
            cases he'
            rw [List.mem_map]
            exact ⟨e', hm', by rw [snoc_of hd hl, snoc_of hd' hl']⟩
          · cases he'
        · cases hx
  exact h fs.nodes ht.once

theorem mem_pick {b : Bool} {d p : Path} {l : List (Str × Bool)} : p ∈ pick b d l ↔ ∃ n, p = d ++ [n] ∧ (n, b) ∈ l := by
  unfold pick
  rw [List.mem_map]
  constructor
  · rintro ⟨⟨n, c⟩, h, rfl⟩
    rw [List.mem_filter] at h
    obtain rfl : c = b := by simpa using h.2
    exact ⟨n, rfl, h.1⟩
  · rintro ⟨n, rfl, h⟩
    exact ⟨(n, b), List.mem_filter.2 ⟨h, by simp⟩, rfl⟩

theorem pick_nodup {b : Bool} {d : Path} {l : List (Str × Bool)} (h : (l.map Prod.fst).Nodup) : (pick b d l).Nodup := by
  unfold pick
  have : ((l.filter fun e => e.2 == b).map Prod.fst).Nodup := h.sublist (List.filter_sublist.map _)
  have e : ((l.filter fun e => e.2 == b).map fun e => d ++ [e.1]) = ((l.filter fun e => e.2 == b).map Prod.fst).map fun n => d ++ [n] := by simp
  rw [e]
  exact List.Nodup.map (fun a b h => by simpa using h) this

theorem scan_ok {m : Look} {d : Path} {l : List (Str × Bool)} (h : m.scan d = .ok l) : m.failure = none ∧ m.fs.node? d = some .dir ∧ l = entries m.fs d := by
  unfold Look.scan at h
  split at h
  · cases h
  · rename_i hf
    split at h
    · rename_i hd
      cases h
      exact ⟨hf, hd, rfl⟩
    · cases h

/-- What the walk finds was a file at one of its moments. -/
theorem walk_sound : ∀ (ms : List Look), (∀ m ∈ ms, Tidy m.fs ∧ Idem m.fs.canon) → ∀ (queue found l : List Path), walk ms queue found = some (.ok l) →
    ∀ p ∈ l, p ∈ found ∨ ∃ m ∈ ms, m.fs.isfile p = true
  | ms, hms, [], found, l, h, p, hp => by
    unfold walk at h
    cases h
    exact .inl hp
  | [], _, _ :: _, _, _, h, _, _ => by cases h
  | m :: ms, hms, d :: queue, found, l, h, p, hp => by
    unfold walk at h
    split at h
    · cases h
    · rename_i r hs
      obtain ⟨-, -, rfl⟩ := scan_ok hs
      rcases walk_sound ms (fun x hx => hms x (List.mem_cons_of_mem _ hx)) _ _ _ h p hp with h1 | ⟨x, hx, h1⟩
      · rcases List.mem_append.1 h1 with h1 | h1
        · exact .inl h1
        · obtain ⟨n, rfl, hn⟩ := mem_pick.1 h1
          obtain ⟨-, x, hx, hb⟩ := (mem_entries (hms m List.mem_cons_self).1 (hms m List.mem_cons_self).2).1 hn
          refine .inr ⟨m, List.mem_cons_self, ?_⟩
          cases x with
          | dir => simp at hb
          | file data => exact isfile_iff.2 ⟨data, hx⟩
      · exact .inr ⟨x, List.mem_cons_of_mem _ hx, h1⟩

/-- Everything the walk finds is below where it started. -/
theorem walk_below {a : Str} : ∀ (ms : List Look) (queue found l : List Path), walk ms queue found = some (.ok l) → (∀ d ∈ queue, ∃ x, d = a :: x) →
    (∀ d ∈ found, ∃ x, d = a :: x) → ∀ p ∈ l, ∃ x, p = a :: x
  | ms, [], found, l, h, _, hf => by
    unfold walk at h
    cases h
    exact hf
  | [], _ :: _, _, _, h, _, _ => by cases h
  | m :: ms, d :: queue, found, l, h, hq, hf => by
    unfold walk at h
    split at h
    · cases h
    · obtain ⟨x, rfl⟩ := hq d List.mem_cons_self
      refine walk_below ms _ _ _ h (fun y hy => ?_) (fun y hy => ?_)
      · rcases List.mem_append.1 hy with hy | hy
        · exact hq y (List.mem_cons_of_mem _ hy)
        · obtain ⟨n, rfl, -⟩ := mem_pick.1 hy
          exact ⟨_, rfl⟩
      · rcases List.mem_append.1 hy with hy | hy
        · exact hf y hy
        · obtain ⟨n, rfl, -⟩ := mem_pick.1 hy
          exact ⟨_, rfl⟩

/-- A file that is there at all moments is found, if its directory or one above is waiting. -/
theorem walk_complete (c : Str → Str) (hi : Idem c) (p : Path) (hp : ∀ n ∈ p.drop 1, c n = n) : ∀ (ms : List Look), (∀ m ∈ ms, Tidy m.fs ∧ m.fs.canon = c ∧ m.fs.isfile p = true) →
    ∀ (queue found l : List Path), walk ms queue found = some (.ok l) → (p ∈ found ∨ ∃ d ∈ queue, d ≠ [] ∧ d <+: p ∧ d ≠ p) → p ∈ l
  | ms, hms, [], found, l, h, hq => by
    unfold walk at h
    cases h
    rcases hq with h | ⟨d, hd, -⟩
    · exact h
    · cases hd
  | [], _, _ :: _, _, _, h, _ => by cases h
  | m :: ms, hms, d :: queue, found, l, h, hq => by
    unfold walk at h
    split at h
    · cases h
    · rename_i r hs
      obtain ⟨-, hdir, rfl⟩ := scan_ok hs
      obtain ⟨ht, hc, hf⟩ := hms m List.mem_cons_self
      refine walk_complete c hi p hp ms (fun x hx => hms x (List.mem_cons_of_mem _ hx)) _ _ _ h ?_
      rcases hq with h1 | ⟨d', hd', hne, hpre, hpne⟩
      · exact .inl (List.mem_append_left _ h1)
      · rcases List.mem_cons.1 hd' with rfl | hd'
        · obtain ⟨rest, rfl⟩ := hpre
          cases rest with
          | nil => exact absurd (List.append_nil _).symm hpne
          | cons n rest =>
            have hn : c n = n := hp n (by
              cases d' with
              | nil => exact absurd rfl hne
              | cons a d' => simp)
            obtain ⟨data, hf⟩ := isfile_iff.1 hf
            cases rest with
            | nil =>
              refine .inl (List.mem_append_right _ (mem_pick.2 ⟨n, rfl, (mem_entries ht (hc ▸ hi)).2 ⟨hc ▸ hn, _, hf, by simp⟩⟩))
            | cons n2 rest =>
              have hd2 : m.fs.node? (d' ++ [n]) = some .dir := tidy_above ht (p := d' ++ n :: n2 :: rest) (by rw [hf]; rfl) ⟨n2 :: rest, by simp⟩ (by simp)
              refine .inr ⟨d' ++ [n], List.mem_append_right _ (mem_pick.2 ⟨n, rfl, (mem_entries ht (hc ▸ hi)).2 ⟨hc ▸ hn, _, hd2, by simp⟩⟩), by simp, ⟨n2 :: rest, by simp⟩, by simp⟩
        · exact .inr ⟨d', List.mem_append_left _ hd', hne, hpre, hpne⟩

/-- A walk in which no look fails and no waiting directory vanishes raises nothing. -/
theorem walk_ok : ∀ (ms : List Look), (∀ m ∈ ms, Tidy m.fs ∧ Idem m.fs.canon ∧ m.failure = none) →
    ms.Pairwise (fun a b => ∀ d, a.fs.isdir d = true → b.fs.isdir d = true) → ∀ (queue found : List Path), (∀ d ∈ queue, ∀ m ∈ ms, m.fs.isdir d = true) →
    ∀ e, walk ms queue found ≠ some (.error e)
  | ms, _, _, [], found, _, e, h => by
    unfold walk at h
    cases h
  | [], _, _, _ :: _, _, _, _, h => by cases h
  | m :: ms, hms, hk, d :: queue, found, hq, e, h => by
    obtain ⟨ht, hi, hf⟩ := hms m List.mem_cons_self
    have hd := FS.isdir_iff.1 (hq d List.mem_cons_self m List.mem_cons_self)
    have hs : m.scan d = .ok (entries m.fs d) := by
      unfold Look.scan
      rw [hf]
      dsimp only
      rw [if_pos hd]
    unfold walk at h
    rw [hs] at h
    dsimp only at h
    rw [List.pairwise_cons] at hk
    refine walk_ok ms (fun x hx => hms x (List.mem_cons_of_mem _ hx)) hk.2 _ _ ?_ e h
    intro d' hd' x hx
    rcases List.mem_append.1 hd' with hd' | hd'
    · exact hq d' (List.mem_cons_of_mem _ hd') x (List.mem_cons_of_mem _ hx)
    · obtain ⟨n, rfl, hn⟩ := mem_pick.1 hd'
      obtain ⟨-, y, hy, hb⟩ := (mem_entries ht hi).1 hn
      cases y with
      | dir => exact hk.1 x hx _ (FS.isdir_iff.2 hy)
      | file data => simp at hb

/-- The invariant of a walk over files that do not change: what was visited. -/
structure Visiting (fs : FS) (r : Path) (visited queue found : List Path) : Prop where
  once : (visited ++ queue).Nodup
  dirs : ∀ d ∈ visited ++ queue, fs.node? d = some .dir
  below : ∀ d ∈ visited ++ queue, ∃ t : Path, d = r ++ t ∧ t.map fs.canon = t
  parents : ∀ d ∈ visited ++ queue, d = r ∨ d.dropLast ∈ visited
  met : ∀ p ∈ found, p.dropLast ∈ visited
  foundOnce : found.Nodup

theorem Visiting.length_le {fs : FS} {r : Path} {visited queue found : List Path} (hr : r ≠ []) (h : Visiting fs r visited queue found) :
    (visited ++ queue).length ≤ fs.nodes.length := by
  have h1 : ((visited ++ queue).map fs.key).Nodup := by
    refine List.Nodup.map_on (fun a ha b hb e => ?_) h.once
    obtain ⟨t, rfl, ht⟩ := h.below a ha
    obtain ⟨u, rfl, hu⟩ := h.below b hb
    simp only [FS.key, List.map_append, ht, hu] at e
    rw [List.append_cancel_left e]
  have h2 : (visited ++ queue).map fs.key ⊆ fs.nodes.map Prod.fst := by
    intro k hk
    obtain ⟨d, hd, rfl⟩ := List.mem_map.1 hk
    have hn := h.dirs d hd
    obtain ⟨t, rfl, -⟩ := h.below d hd
    rw [node?_of_ne (by simp [hr])] at hn
    exact List.mem_map.2 ⟨_, Dict.mem_of_get? hn, rfl⟩
  simpa using (h1.subperm h2).length_le

/-- A walk over files that do not change ends, and finds nothing twice. -/
theorem walk_still {fs : FS} (ht : Tidy fs) (hi : Idem fs.canon) {r : Path} (hr : r ≠ []) : ∀ (k : Nat) (visited queue found : List Path), Visiting fs r visited queue found →
    fs.nodes.length ≤ visited.length + k → ∃ l, walk (List.replicate k ⟨fs, none⟩) queue found = some (.ok l) ∧ l.Nodup
  | _, _, [], found, h, _ => ⟨found, by unfold walk; rfl, h.foundOnce⟩
  | 0, visited, d :: queue, found, h, hk => by
    have := h.length_le hr
    simp only [List.length_append, List.length_cons] at this
    omega
  | k + 1, visited, d :: queue, found, h, hk => by
    have hd : fs.node? d = some .dir := h.dirs d (by simp)
    have hs : Look.scan ⟨fs, none⟩ d = .ok (entries fs d) := by
      unfold Look.scan
      dsimp only
      rw [if_pos hd]
    rw [List.replicate_succ]
    unfold walk
    rw [hs]
    dsimp only
    have hdv : d ∉ visited := fun hm => by
      have := List.nodup_append.1 h.once
      exact this.2.2 d hm d List.mem_cons_self rfl
    obtain ⟨t, hdt, htc⟩ := h.below d (by simp)
    have hnew : ∀ b, ∀ p ∈ pick b d (entries fs d), p.dropLast = d ∧ (∃ u : Path, p = r ++ u ∧ u.map fs.canon = u) ∧ ∃ x, fs.node? p = some x ∧ b = decide (x = .dir) := by
      intro b p hp
      obtain ⟨n, rfl, hn⟩ := mem_pick.1 hp
      obtain ⟨hc, x, hx, hb⟩ := (mem_entries ht hi).1 hn
      exact ⟨by simp, ⟨t ++ [n], by rw [hdt, List.append_assoc], by rw [List.map_append, htc]; simp [hc]⟩, x, hx, hb⟩
    have hmem : ∀ x, x ∈ (visited ++ [d]) ++ (queue ++ pick true d (entries fs d)) → x ∈ visited ++ d :: queue ∨ x ∈ pick true d (entries fs d) := by
      intro x hx
      simp only [List.mem_append, List.mem_cons, List.not_mem_nil, or_false] at hx ⊢
      tauto
    refine walk_still ht hi hr k (visited ++ [d]) _ _ ⟨?_, ?_, ?_, ?_, ?_, ?_⟩ (by simp only [List.length_append, List.length_cons, List.length_nil]; omega)
    · have e : (visited ++ [d]) ++ (queue ++ pick true d (entries fs d)) = (visited ++ d :: queue) ++ pick true d (entries fs d) := by simp
      rw [e, List.nodup_append]
      refine ⟨h.once, pick_nodup (entries_nodup ht d), fun a ha b hb e => ?_⟩
      subst e
      obtain ⟨hb1, -, -⟩ := hnew true a hb
      rcases h.parents a ha with e | hp
      · obtain ⟨n, e2, -⟩ := mem_pick.1 hb
        have := congrArg List.length (e2.symm.trans e)
        rw [hdt] at this
        simp at this
      · exact hdv (hb1 ▸ hp)
    · intro x hx
      rcases hmem x hx with h1 | h1
      · exact h.dirs x h1
      · obtain ⟨-, -, y, hy, hb⟩ := hnew true x h1
        cases y with
        | dir => exact hy
        | file data => simp at hb
    · intro x hx
      rcases hmem x hx with h1 | h1
      · exact h.below x h1
      · exact (hnew true x h1).2.1
    · intro x hx
      rcases hmem x hx with h1 | h1
      · rcases h.parents x h1 with h2 | h2
        · exact .inl h2
        · exact .inr (List.mem_append_left _ h2)
      · exact .inr (by rw [(hnew true x h1).1]; simp)
    · intro p hp
      rcases List.mem_append.1 hp with h1 | h1
      · exact List.mem_append_left _ (h.met p h1)
      · rw [(hnew false p h1).1]; simp
    · rw [List.nodup_append]
      refine ⟨h.foundOnce, pick_nodup (entries_nodup ht d), fun a ha b hb e => ?_⟩
      subst e
      exact hdv ((hnew false a hb).1 ▸ h.met a ha)

theorem listData_ok {m : Look} {ms : List Look} {l : List Path} (h : listData (m :: ms) = some (.ok l)) :
    l = [] ∨ ∃ l', walk ms [[dataName]] [] = some (.ok l') ∧ l = l'.map (List.drop 1) := by
  unfold listData at h
  dsimp only at h
  split at h
  · cases h; exact .inl rfl
  · cases h
  · rw [Option.map_eq_some_iff] at h
    obtain ⟨w, hw, he⟩ := h
    split at he
    · cases he; exact .inl rfl
    · cases he
    · cases he; exact .inr ⟨_, hw, rfl⟩

theorem data_below {ms : List Look} {l : List Path} (h : walk ms [[dataName]] [] = some (.ok l)) : ∀ p ∈ l, ∃ x, p = c!"data" :: x :=
  walk_below _ _ _ _ h (fun d hd => ⟨[], List.mem_singleton.1 hd⟩) (by simp)

theorem stayed {c : Str → Str} (hi : Idem c) (ms : List Look) (hms : ∀ m ∈ ms, Tidy m.fs ∧ m.fs.canon = c) {l : List Path} (h : walk ms [[dataName]] [] = some (.ok l))
    (x : Path) (hx : x ≠ []) (hf : ∀ m ∈ ms, m.fs.isfile (c!"data" :: x) = true) : x.map c ∈ l.map (List.drop 1) := by
  refine List.mem_map.2 ⟨c!"data" :: x.map c, ?_, rfl⟩
  refine walk_complete c hi _ (fun n hn => ?_) ms (fun m hm => ?_) _ _ _ h
    (.inr ⟨[dataName], by simp, by simp, ⟨x.map c, rfl⟩, fun e => hx (by simpa using (List.cons.inj e).2.symm)⟩)
  · obtain ⟨a, -, rfl⟩ := List.mem_map.1 (show n ∈ x.map c from hn)
    exact hi a
  · obtain ⟨ht, hc⟩ := hms m hm
    obtain ⟨d, h1⟩ := isfile_iff.1 (hf m hm)
    refine ⟨ht, hc, isfile_iff.2 ⟨d, (node?_eq ?_).trans h1⟩⟩
    simp only [FS.key, List.map_cons, List.map_map]
    congr 1
    exact List.map_congr_left fun a _ => by rw [hc]; exact hi a

end Verif.Proofs.Walk
