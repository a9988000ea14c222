import Verif.Proofs.Walk
import Verif.Props.UfoZip
/-! The listing of the data directory: C127. -/
namespace Verif.Props
open Verif Verif.FS Verif.Ufo Verif.Proofs.Walk

/-- While nothing changes and nothing fails the listing has exactly the files below the data directory, each once, however deep; the walk looks at most as often as there are
entries, and once more. -/
theorem C127_still (fs : FS) (ht : Tidy fs) (hi : Idem fs.canon) (k : Nat) (hk : fs.nodes.length < k) :
    ∃ l, listData (List.replicate k ⟨fs, none⟩) = some (.ok l) ∧ l.Nodup ∧ ∀ x, x ≠ [] → (x.map fs.canon ∈ l ↔ fs.isfile (c!"data" :: x) = true) := by
  obtain ⟨k, rfl⟩ : ∃ j, k = j + 1 := ⟨k - 1, by omega⟩
  rw [List.replicate_succ]
  unfold listData
  have hkey : ∀ x : Path, fs.node? (c!"data" :: x.map fs.canon) = fs.node? (c!"data" :: x) := fun x => node?_eq (by
    simp only [FS.key, List.map_cons, List.map_map]
    congr 1
    exact List.map_congr_left fun a _ => hi a)
  by_cases hd : fs.node? [dataName] = some .dir
  · have hs : Look.scan ⟨fs, none⟩ [dataName] = .ok (entries fs [dataName]) := by
      unfold Look.scan
      dsimp only
      rw [if_pos hd]
    dsimp only
    rw [hs]
    dsimp only
    have hv : Visiting fs [dataName] [] [[dataName]] [] := by
      refine ⟨by simp, ?_, ?_, ?_, by simp, by simp⟩
      · intro d h; obtain rfl : d = [dataName] := by simpa using h
        exact hd
      · intro d h; obtain rfl : d = [dataName] := by simpa using h
        exact ⟨[], rfl, rfl⟩
      · intro d h; obtain rfl : d = [dataName] := by simpa using h
        exact .inl rfl
    obtain ⟨l, hl, hn⟩ := walk_still ht hi (by simp) k [] [[dataName]] [] hv (by simp; omega)
    rw [hl]
    have hall : ∀ m ∈ List.replicate k (⟨fs, none⟩ : Look), m = ⟨fs, none⟩ := fun m hm => List.eq_of_mem_replicate hm
    have hb : ∀ p ∈ l, ∃ x, p = c!"data" :: x := data_below hl
    refine ⟨_, rfl, ?_, fun x hx => ?_⟩
    · refine List.Nodup.map_on (fun a ha b hb' e => ?_) hn
      obtain ⟨x, rfl⟩ := hb a ha
      obtain ⟨y, rfl⟩ := hb b hb'
      simpa using e
    · constructor
      · intro h
        obtain ⟨p, hp, he⟩ := List.mem_map.1 h
        obtain ⟨y, rfl⟩ := hb p hp
        obtain rfl : y = x.map fs.canon := by simpa using he
        rcases walk_sound _ (fun m hm => by rw [hall m hm]; exact ⟨ht, hi⟩) _ _ _ hl _ hp with h1 | ⟨m, hm, h1⟩
        · cases h1
        · rw [hall m hm] at h1
          obtain ⟨d, h1⟩ := isfile_iff.1 h1
          exact isfile_iff.2 ⟨d, (hkey x).symm.trans h1⟩
      · intro h
        refine List.mem_map.2 ⟨c!"data" :: x.map fs.canon, ?_, rfl⟩
        obtain ⟨d, h1⟩ := isfile_iff.1 h
        refine walk_complete fs.canon hi _ (fun n hn => ?_) _ (fun m hm => by rw [hall m hm]; exact ⟨ht, rfl, isfile_iff.2 ⟨d, (hkey x).trans h1⟩⟩) _ _ _ hl
          (.inr ⟨[dataName], by simp, by simp, ⟨x.map fs.canon, rfl⟩, fun e => hx (by simpa using (List.cons.inj e).2.symm)⟩)
        obtain ⟨a, -, rfl⟩ := List.mem_map.1 (show n ∈ x.map fs.canon from hn)
        exact hi a
  · have hs : Look.scan ⟨fs, none⟩ [dataName] = .error .resource := by
      unfold Look.scan
      dsimp only
      rw [if_neg hd]
    dsimp only
    rw [hs]
    refine ⟨[], rfl, List.nodup_nil, fun x hx => ⟨fun h => (by cases h), fun h => ?_⟩⟩
    obtain ⟨d, h1⟩ := isfile_iff.1 h
    exact absurd (tidy_above ht (p := c!"data" :: x) (by rw [h1]; rfl) ⟨x, rfl⟩ (fun e => hx (List.cons.inj e).2.symm)) hd

/-- Whatever other programs do meanwhile: every path in the listing was a file at one of the moments. -/
theorem C127_only (ms : List Look) (hms : ∀ m ∈ ms, Tidy m.fs ∧ Idem m.fs.canon) (l : List Path) (h : listData ms = some (.ok l)) :
    ∀ x ∈ l, ∃ m ∈ ms, m.fs.isfile (c!"data" :: x) = true := by
  intro x hx
  cases ms with
  | nil => cases h
  | cons m ms =>
    rcases listData_ok h with rfl | ⟨l', hw, rfl⟩
    · cases hx
    · obtain ⟨p, hp, rfl⟩ := List.mem_map.1 hx
      obtain ⟨y, rfl⟩ := data_below hw p hp
      rcases walk_sound ms (fun x hx => hms x (List.mem_cons_of_mem _ hx)) _ _ _ hw _ hp with h1 | ⟨m', hm, h1⟩
      · cases h1
      · exact ⟨m', List.mem_cons_of_mem _ hm, h1⟩

/-- Whatever other programs do meanwhile and whatever fails: the listing is empty, or it has every file that was there all the time. -/
theorem C127_stayed_partial (c : Str → Str) (hi : Idem c) (ms : List Look) (hms : ∀ m ∈ ms, Tidy m.fs ∧ m.fs.canon = c) (l : List Path) (h : listData ms = some (.ok l)) :
    l = [] ∨ ∀ x, x ≠ [] → (∀ m ∈ ms, m.fs.isfile (c!"data" :: x) = true) → x.map c ∈ l := by
  cases ms with
  | nil => cases h
  | cons m ms =>
    rcases listData_ok h with rfl | ⟨l', hw, rfl⟩
    · exact .inl rfl
    · exact .inr fun x hx hf => stayed hi ms (fun x hx => hms x (List.mem_cons_of_mem _ hx)) hw x hx fun m hm => hf m (List.mem_cons_of_mem _ hm)

/-- If no look fails and no directory is removed meanwhile, whatever else is done (files written and removed, directories made), the listing raises nothing and has every file
that was there all the time. -/
theorem C127_kept (c : Str → Str) (hi : Idem c) (ms : List Look) (hms : ∀ m ∈ ms, Tidy m.fs ∧ m.fs.canon = c ∧ m.failure = none)
    (hk : ms.Pairwise fun a b => ∀ d, a.fs.isdir d = true → b.fs.isdir d = true) (r : Except ScanFailure (List Path)) (h : listData ms = some r) :
    ∃ l, r = .ok l ∧ ∀ x, x ≠ [] → (∀ m ∈ ms, m.fs.isfile (c!"data" :: x) = true) → x.map c ∈ l := by
  cases ms with
  | nil => cases h
  | cons m ms =>
    obtain ⟨ht, hc, hf⟩ := hms m List.mem_cons_self
    rw [List.pairwise_cons] at hk
    unfold listData at h
    dsimp only at h
    by_cases hd : m.fs.node? [dataName] = some .dir
    · have hs : m.scan [dataName] = .ok (entries m.fs [dataName]) := by
        unfold Look.scan
        rw [hf]
        dsimp only
        rw [if_pos hd]
      rw [hs] at h
      dsimp only at h
      rw [Option.map_eq_some_iff] at h
      obtain ⟨w, hw, rfl⟩ := h
      cases w with
      | error e =>
        refine absurd hw (walk_ok ms (fun x hx => ?_) hk.2 _ _ (fun d hd' x hx => ?_) e)
        · obtain ⟨a, b, d⟩ := hms x (List.mem_cons_of_mem _ hx)
          exact ⟨a, b ▸ hi, d⟩
        · obtain rfl : d = [dataName] := by simpa using hd'
          exact hk.1 x hx _ (FS.isdir_iff.2 hd)
      | ok l =>
        exact ⟨_, rfl, fun x hx hx' => stayed hi ms (fun y hy => let q := hms y (List.mem_cons_of_mem _ hy); ⟨q.1, q.2.1⟩) hw x hx fun y hy => hx' y (List.mem_cons_of_mem _ hy)⟩
    · have hs : m.scan [dataName] = .error .resource := by
        unfold Look.scan
        rw [hf]
        dsimp only
        rw [if_neg hd]
      rw [hs] at h
      cases h
      refine ⟨[], rfl, fun x hx hx' => ?_⟩
      obtain ⟨d, h1⟩ := isfile_iff.1 (hx' m List.mem_cons_self)
      exact absurd (tidy_above ht (p := c!"data" :: x) (by rw [h1]; rfl) ⟨x, rfl⟩ (fun e => hx (List.cons.inj e).2.symm)) hd

/-- A failure that is not about what is at the path (no permission, a device error) is passed on. -/
theorem C127_raises (before after : List Look) (m : Look) (hm : m.failure = some .other) (h : listData before = none) :
    listData (before ++ m :: after) = some (.error .other) := by
  have hs : ∀ d, m.scan d = .error .other := fun d => by
    unfold Look.scan
    rw [hm]
  have hw : ∀ (ms : List Look) (queue found : List Path), walk ms queue found = none → walk (ms ++ m :: after) queue found = some (.error .other) := by
    intro ms
    induction ms with
    | nil =>
      intro queue found h
      cases queue with
      | nil => simp [walk] at h
      | cons d queue =>
        rw [List.nil_append]
        unfold walk
        rw [hs]
    | cons a ms ih =>
      intro queue found h
      cases queue with
      | nil => simp [walk] at h
      | cons d queue =>
        rw [List.cons_append]
        unfold walk at h ⊢
        split at h
        · cases h
        · exact ih _ _ h
  cases before with
  | nil =>
    rw [List.nil_append]
    unfold listData
    dsimp only
    rw [hs]
  | cons a before =>
    rw [List.cons_append]
    unfold listData at h ⊢
    dsimp only at h ⊢
    split at h
    · cases h
    · cases h
    · rw [Option.map_eq_none_iff] at h
      rw [hw _ _ _ h]
      rfl

/-- A data directory with a file and a directory with two files; and the same after another program has removed that directory. -/
def full127 : FS := { canon := id, nodes := [([c!"data"], .dir), ([c!"data", c!"keep.txt"], .file []), ([c!"data", c!"old"], .dir), ([c!"data", c!"old", c!"a"], .file []),
  ([c!"data", c!"old", c!"b"], .file [])], log := [] }
def less127 : FS := { canon := id, nodes := [([c!"data"], .dir), ([c!"data", c!"keep.txt"], .file [])], log := [] }

/-- What the theorems ask is met: the listing of the full directory, and one during which a file is removed. -/
example : listData (List.replicate 6 ⟨full127, none⟩) = some (.ok [[c!"keep.txt"], [c!"old", c!"a"], [c!"old", c!"b"]]) := by decide +kernel
example : Tidy full127 := ⟨show (full127.nodes.map Prod.fst).Nodup by decide +kernel, fun k hk => ⟨k, by
    revert hk; revert k; decide +kernel, by simp [full127]⟩, fun p hp => by
  by_cases h0 : p = []
  · subst h0; rfl
  · rw [node?_of_ne h0, full127] at hp
    obtain ⟨n, hn⟩ := Option.isSome_iff_exists.1 hp
    have hm := Dict.mem_of_get? hn
    simp only [FS.key, List.map_id] at hm
    simp only [List.mem_cons, Prod.mk.injEq, List.not_mem_nil, or_false] at hm
    rcases hm with ⟨rfl, -⟩ | ⟨rfl, -⟩ | ⟨rfl, -⟩ | ⟨rfl, -⟩ | ⟨rfl, -⟩ <;> decide +kernel⟩

/-- Removing files is no trouble. -/
example : listData [⟨full127, none⟩, ⟨full127, none⟩, ⟨{ full127 with nodes := Dict.erase full127.nodes [c!"data", c!"old", c!"a"] }, none⟩] =
    some (.ok [[c!"keep.txt"], [c!"old", c!"b"]]) := by decide +kernel
example : listData [⟨full127, none⟩, ⟨full127, none⟩] = none ∧ listData [⟨full127, none⟩, ⟨full127, none⟩, ⟨full127, some .other⟩] = some (.error .other) := by decide +kernel

/-- The full claim fails: if another program removes a directory below `data` while the listing is made, the listing is empty, without an exception, though there was a file
that stayed all the time. -/
theorem C127_refuted : listData [⟨full127, none⟩, ⟨full127, none⟩, ⟨less127, none⟩] = some (.ok []) ∧ full127.isfile [c!"data", c!"keep.txt"] = true ∧
    less127.isfile [c!"data", c!"keep.txt"] = true := by decide +kernel

end Verif.Props
