import Verif.Proofs.UfoCopyTree
import Verif.Props.UfoImages
import Verif.Props.UfoUpgrade
/-! Copying from another UFO: C95. -/
namespace Verif.Props
open Verif Verif.FS Verif.IO Verif.Ufo Verif.Spec.Ufo

/-- Without a source, or with something at the destination, the copy is refused and nothing is changed. -/
theorem C95_refused (src fs : FS) (p q : Path) (h : src.exists p = false ∨ fs.exists q = true) :
    copyFromReader src fs p q = (fs, .error .ufoLibError) := by
  unfold copyFromReader
  by_cases h1 : src.exists p = false
  · rw [if_pos h1]
  · rw [if_neg h1, if_pos (h.resolve_left h1)]

/-- Otherwise it succeeds, unless a file is in the way of a directory that has to be made. -/
theorem C95_succeeds (src fs : FS) (p q : Path) (hs : src.exists p = true) (hq : fs.exists q = false)
    (hf : ∀ r b, r <+: q → fs.node? r ≠ some (.file b)) : (copyFromReader src fs p q).2 = .ok () := by
  have hx := node?_of_not_exists hq
  have hne : q ≠ [] := by rintro rfl; cases hx
  obtain ⟨fs1, hm⟩ := makedirsFrom_succeeds q.dropLast fs [] (by simp [node?]) (fun r b hr => by
    rw [List.nil_append]
    exact hf r b (hr.trans (List.dropLast_prefix q)))
  have hm' : fs.makedirs q.dropLast = .ok fs1 := hm
  obtain ⟨m1, -, m3, m4, m5⟩ := makedirs_ok hm'
  have hx1 : fs1.node? q = none := by
    have := m4 q
    rw [hx] at this
    cases hn : fs1.node? q with
    | none => rfl
    | some n =>
      have := (this (by simp [hn])).length_le
      have hl := List.length_pos_of_ne_nil hne
      simp only [FS.key, List.length_map, List.length_dropLast] at this
      omega
  unfold copyFromReader
  rw [if_neg (by simp [hs]), if_neg (by simp [hq]), hm']
  dsimp only
  split
  · rw [setbytes_of _ m5 (by rw [hx1]; simp)]
  · obtain ⟨fs2, h2⟩ := makedir_of (.inr hx1) m5
    rw [h2]

/-- Files that are not at the destination or below it are as before, whether the copy is made or not. -/
theorem C95_others (src fs : FS) (p q : Path) (r : Path) (hr : ¬ q.map fs.canon <+: r.map fs.canon) (d : Bytes) :
    (copyFromReader src fs p q).1.getbytes r = .ok d ↔ fs.getbytes r = .ok d := by
  have hr' : fs.key r ≠ fs.key q := fun e => hr (by unfold FS.key at e; exact e ▸ List.prefix_refl _)
  unfold copyFromReader
  split
  · rfl
  · split
    · rfl
    · split
      · rfl
      · rename_i fs1 h1
        have e1 := makedirs_files h1 r d
        have c1 := (makedirs_acts h1).key
        split
        · split
          · exact e1
          · rename_i fs2 h2
            exact ((setbytes_files h2).2.2.1 r d (by rw [c1, c1]; exact hr')).trans e1
        · split
          · exact e1
          · rename_i fs2 h2
            obtain ⟨k1, -, k3, -⟩ := makedir_ok h2
            have c2 := (makedir_acts h2).key
            have a := copyTree_acts q (below src p) fs2
            refine Iff.trans ?_ e1
            rw [getbytes_ok, getbytes_ok, a.node?, k3]
            · rw [c1, c1]; exact hr'
            · intro k hk hk'
              rw [c2, c1] at hk hk'
              exact hr (hk.trans hk')

/-- A copied file has the bytes of its source. -/
theorem C95_file (src fs : FS) (p q : Path) (d : Bytes) (hs : readBytesFromPath src p = .ok (some d)) (h : (copyFromReader src fs p q).2 = .ok ()) :
    readBytesFromPath (copyFromReader src fs p q).1 q = .ok (some d) := by
  have hr : ∀ (g : FS) q d, readBytesFromPath g q = .ok (some d) ↔ g.getbytes q = .ok d := by
    intro g q d
    unfold readBytesFromPath
    cases hg : g.getbytes q with
    | ok b => simp
    | error e => cases e <;> simp
  rw [hr] at hs ⊢
  rw [getbytes_ok] at hs
  unfold copyFromReader at h ⊢
  have he : src.exists p = true := exists_iff.2 ⟨_, hs⟩
  rw [if_neg (by rw [he]; simp)] at h ⊢
  by_cases hx : fs.exists q = true
  · rw [if_pos hx] at h; cases h
  rw [if_neg hx] at h ⊢
  cases hm : fs.makedirs q.dropLast with
  | error e => rw [hm] at h; cases h
  | ok fs1 =>
    rw [hm, hs] at h
    dsimp only at h ⊢
    rw [hs]
    dsimp only
    cases hd : fs1.setbytes q d with
    | error e => rw [hd] at h; cases h
    | ok fs2 => exact (setbytes_files hd).2.1

/-- A copied directory has everything that is below its source, at the same place below the destination (under the names that the source stores), and nothing
else; provided that the destination tells apart the names that are copied. -/
theorem C95_directory (src fs : FS) (p q : Path) (hts : Tidy src) (htf : Tidy fs) (hs : src.node? p = some .dir) (h : (copyFromReader src fs p q).2 = .ok ())
    (hdist : ∀ x y, src.exists (p ++ x) = true → src.exists (p ++ y) = true → (x.map src.canon).map fs.canon = (y.map src.canon).map fs.canon →
      x.map src.canon = y.map src.canon) :
    (∀ x n, src.node? (p ++ x) = some n → (copyFromReader src fs p q).1.node? (q ++ x.map src.canon) = some n) ∧
    ∀ x n, (copyFromReader src fs p q).1.node? (q ++ x) = some n → ∃ y, src.node? (p ++ y) = some n ∧ x.map fs.canon = (y.map src.canon).map fs.canon := by
  obtain ⟨hq, -, c2, c3⟩ := copyDir_spec hs htf.parents h
  have hkey : ∀ (g : FS) (a b : Path), g.key (a ++ b) = g.key a ++ b.map g.canon := fun g a b => by simp [FS.key]
  -- an entry that is copied, as a path of the source
  have hent : ∀ t n, (t, n) ∈ below src p → ∃ y, t = y.map src.canon ∧ src.node? (p ++ y) = some n := by
    intro t n ht
    obtain ⟨h0, hg⟩ := (mem_below hts.once).1 ht
    obtain ⟨r, -, hk⟩ := hts.canonical _ (Dict.mem_keys_of_mem (Dict.mem_of_get? hg))
    have : t = (r.drop p.length).map src.canon := by
      rw [List.map_drop, ← hk, show p.length = (src.key p).length by simp [FS.key], List.drop_left]
    refine ⟨_, this, ?_⟩
    rw [node?_of_ne (by rintro e; rw [List.append_eq_nil_iff] at e; exact h0 (by rw [this, e.2]; rfl)), hkey, ← this, hg]
  constructor
  · intro x n hx
    by_cases h0 : x = []
    · subst h0
      rw [List.append_nil, hs] at hx
      cases hx
      simpa using c2
    rw [c3 _ (by simpa using h0)]
    have hm : (x.map src.canon, n) ∈ below src p := by
      refine (mem_below hts.once).2 ⟨by simpa using h0, ?_⟩
      rw [← hkey, ← node?_of_ne (by simp [h0])]
      exact hx
    refine GlyphSet.foldl_set_mem (fun e : Path × Node => fs.key (q ++ e.1)) (fun e => e.2) _ _ _ ?_ _ ⟨_, hm, rfl⟩
    rintro ⟨t, m⟩ ht he
    obtain ⟨y, rfl, hy⟩ := hent t m ht
    simp only [hkey, List.append_cancel_left_eq] at he
    have := hdist y x (exists_iff.2 ⟨_, hy⟩) (exists_iff.2 ⟨_, hx⟩) he
    have hn : src.node? (p ++ y) = src.node? (p ++ x) := node?_eq (by rw [hkey, hkey, this])
    rw [hy, hx] at hn
    exact Option.some.inj hn
  · intro x n hx
    by_cases h0 : x = []
    · subst h0
      rw [List.append_nil, c2] at hx
      cases hx
      exact ⟨[], by simpa using hs, by simp⟩
    rw [c3 x h0] at hx
    have hmem : fs.key (q ++ x) ∈ Dict.keys ((below src p).foldl (fun d e => Dict.set d (fs.key (q ++ e.1)) e.2) []) :=
      Dict.mem_keys_of_mem (Dict.mem_of_get? hx)
    rw [GlyphSet.foldl_set_keys (fun e : Path × Node => fs.key (q ++ e.1)) (fun e => e.2)] at hmem
    obtain ⟨⟨t, m⟩, ht, he⟩ := hmem.resolve_left (by simp [Dict.keys])
    obtain ⟨y, rfl, hy⟩ := hent t m ht
    have he' : (y.map src.canon).map fs.canon = x.map fs.canon := by simpa only [hkey, List.append_cancel_left_eq] using he
    refine ⟨y, ?_, he'.symm⟩
    have hm' : Dict.get? ((below src p).foldl (fun d e => Dict.set d (fs.key (q ++ e.1)) e.2) []) (fs.key (q ++ x)) = some m := by
      refine GlyphSet.foldl_set_mem (fun e : Path × Node => fs.key (q ++ e.1)) (fun e => e.2) _ _ _ ?_ _ ⟨_, ht, he⟩
      rintro ⟨t', m'⟩ ht' he2
      obtain ⟨z, rfl, hz⟩ := hent t' m' ht'
      have he2' : (z.map src.canon).map fs.canon = x.map fs.canon := by simpa only [hkey, List.append_cancel_left_eq] using he2
      have := hdist z y (exists_iff.2 ⟨_, hz⟩) (exists_iff.2 ⟨_, hy⟩) (he2'.trans he'.symm)
      have hn : src.node? (p ++ z) = src.node? (p ++ y) := node?_eq (by rw [hkey, hkey, this])
      rw [hz, hy] at hn
      exact Option.some.inj hn
    rw [hx] at hm'
    rw [hy, Option.some.inj hm']

/-- When both compare names in the same way, everything below the destination is what is below the source. -/
theorem C95_same (src fs : FS) (p q : Path) (hts : Tidy src) (htf : Tidy fs) (hc : src.canon = fs.canon) (hi : ∀ c, fs.canon (fs.canon c) = fs.canon c)
    (hs : src.node? p = some .dir) (h : (copyFromReader src fs p q).2 = .ok ()) (x : Path) :
    (copyFromReader src fs p q).1.node? (q ++ x) = src.node? (p ++ x) := by
  have hid : ∀ y : Path, (y.map fs.canon).map fs.canon = y.map fs.canon := fun y => by
    rw [List.map_map]
    exact List.map_congr_left fun c _ => hi c
  obtain ⟨h1, h2⟩ := C95_directory src fs p q hts htf hs h (fun x y _ _ e => by rw [hc, hid, hid] at e; rw [hc]; exact e)
  have hcan := (copyDir_spec hs htf.parents h).2.1
  have hkey : ∀ (g : FS) (a b : Path), g.key (a ++ b) = g.key a ++ b.map g.canon := fun g a b => by simp [FS.key]
  cases hn : src.node? (p ++ x) with
  | some n =>
    rw [← h1 x n hn]
    refine node?_eq ?_
    rw [hkey, hkey, hcan, hc, hid]
  | none =>
    cases hm : (copyFromReader src fs p q).1.node? (q ++ x) with
    | none => rfl
    | some n =>
      obtain ⟨y, hy, he⟩ := h2 x n hm
      rw [hc, hid] at he
      have : src.node? (p ++ x) = src.node? (p ++ y) := node?_eq (by rw [hkey, hkey, hc, he])
      rw [hn, hy] at this
      cases this

/-- A copied image is read as the image it is a copy of. -/
theorem C95_image (src : FS) (w : Ufo.World) (n m : Str) (d : Bytes) (validate : Bool) (hs : readImage src 3 n validate = .ok d)
    (h : (copyImageFromReader src w n m).2 = .ok ()) : readImage (copyImageFromReader src w n m).1.2 3 m validate = .ok d := by
  unfold copyImageFromReader at h ⊢
  split at h
  · cases h
  rename_i hv
  rw [if_neg hv]
  dsimp only at h ⊢
  unfold readImage at hs
  rw [if_neg (by omega)] at hs
  split at hs
  · cases hs
  · cases hs
  split at hs
  · cases hs
  rename_i d' hd
  split at hs
  · cases hs
  rename_i hp
  cases hs
  have hr : ∀ (g : FS) q, readBytesFromPath g q = .ok (some d) ↔ g.getbytes q = .ok d := by
    intro g q
    unfold readBytesFromPath
    cases hg : g.getbytes q with
    | ok b => simp
    | error e => cases e <;> simp
  have hf := (hr _ _).1 (C95_file src w.2 [imagesName, n] [imagesName, m] d ((hr _ _).2 hd) h)
  have hdir : (copyFromReader src w.2 [imagesName, n] [imagesName, m]).1.node? [imagesName] = some .dir := by
    rw [getbytes_ok] at hd
    unfold copyFromReader at h ⊢
    have he : src.exists [imagesName, n] = true := exists_iff.2 ⟨_, hd⟩
    rw [if_neg (by rw [he]; simp)] at h ⊢
    by_cases hx : w.2.exists [imagesName, m] = true
    · rw [if_pos hx] at h; cases h
    rw [if_neg hx] at h ⊢
    cases hm : w.2.makedirs [imagesName, m].dropLast with
    | error e => rw [hm] at h; cases h
    | ok fs1 =>
      rw [hm, hd] at h
      dsimp only at h ⊢
      rw [hd]
      dsimp only
      cases hsb : fs1.setbytes [imagesName, m] d with
      | error e => rw [hsb] at h; cases h
      | ok fs2 =>
        have := (makedirs_ok hm).2.2.2.2
        rw [← this]
        refine (setbytes_files hsb).2.2.2 _ fun e => ?_
        have := congrArg List.length e
        simp [FS.key] at this
  unfold readImage
  rw [if_neg (by omega), hdir]
  dsimp only
  rw [hf]
  dsimp only
  rw [if_neg hp]

/-- A UFO with a data directory and an image, and a writer on a new UFO. -/
def src95 : FS := (writeImage ((new60.1, (writeBytesToPath false (writeBytesToPath false new60.2 [c!"data", c!"org.x", c!"a.txt"] [1, 2]).1 [c!"data", c!"b.txt"] [3]).1))
  c!"a.png" png63 true).1.2

example : (copyFromReader src95 new60.2 [c!"nothing"] [c!"data"]).2 = .error .ufoLibError ∧ (copyFromReader src95 new60.2 [c!"data"] [c!"metainfo.plist"]).2 = .error .ufoLibError :=
  ⟨congrArg Prod.snd (C95_refused _ _ _ _ (.inl (by decide +kernel))), congrArg Prod.snd (C95_refused _ _ _ _ (.inr (by decide +kernel)))⟩

theorem tidy_of {fs : FS} (h1 : (Dict.keys fs.nodes).Nodup) (h2 : ∀ k ∈ Dict.keys fs.nodes, k ≠ [] ∧ k.map fs.canon = k)
    (h3 : ∀ k ∈ Dict.keys fs.nodes, k.dropLast = [] ∨ Dict.get? fs.nodes k.dropLast = some .dir) : Tidy fs := by
  refine ⟨h1, fun k hk => ⟨k, (h2 k hk).1, (h2 k hk).2.symm⟩, fun p hp => ?_⟩
  by_cases h0 : p = []
  · subst h0; rfl
  rw [node?_of_ne h0] at hp
  obtain ⟨n, hn⟩ := Option.isSome_iff_exists.1 hp
  have := h3 _ (Dict.mem_keys_of_mem (Dict.mem_of_get? hn))
  by_cases hd : p.dropLast = []
  · rw [hd]; rfl
  · rw [node?_of_ne hd]
    have hk : fs.key p.dropLast = (fs.key p).dropLast := by simp [FS.key, List.map_dropLast]
    rw [hk]
    refine this.resolve_left ?_
    rw [← hk]
    exact key_ne_nil hd

theorem tidy_src95 : Tidy src95 := tidy_of (by decide +kernel) (by decide +kernel) (by decide +kernel)
theorem tidy_new60 : Tidy new60.2 := tidy_of (by decide +kernel) (by decide +kernel) (by decide +kernel)

example : (copyFromReader src95 new60.2 [c!"data"] [c!"data", c!"old"]).2 = .ok () :=
  C95_succeeds _ _ _ _ (by decide +kernel) (by decide +kernel) (by
    intro r b hr
    obtain ⟨t, ht⟩ := hr
    match r, ht with
    | [], _ => simp [node?]
    | [a], ht => simp only [List.cons_append, List.cons.injEq] at ht; rw [ht.1, show new60.2.node? [c!"data"] = none by decide +kernel]; simp
    | [a, b'], ht => simp only [List.cons_append, List.cons.injEq] at ht; rw [ht.1, ht.2.1, show new60.2.node? [c!"data", c!"old"] = none by decide +kernel]; simp
    | _ :: _ :: _ :: _, ht => simp at ht)

example : (copyFromReader src95 new60.2 [c!"data"] [c!"data", c!"old"]).1.node? ([c!"data", c!"old"] ++ [c!"org.x", c!"a.txt"]) = some (.file [1, 2]) := by
  rw [C95_same _ _ _ _ tidy_src95 tidy_new60 rfl (fun _ => rfl) (by decide +kernel) (eq_ok (by decide +kernel))]
  decide +kernel

example : readImage (copyImageFromReader src95 new60 c!"a.png" c!"b.png").1.2 3 c!"b.png" true = .ok png63 :=
  C95_image _ _ _ _ _ _ (eq_ok (by decide +kernel)) (eq_ok (by decide +kernel))

/-- The proviso is needed: of two files whose names the destination does not tell apart, only one arrives, and the call returns all the same. -/
theorem C95_names_refuted : let src : FS := ⟨id, [([c!"data"], .dir), ([c!"data", c!"a"], .file [1]), ([c!"data", c!"A"], .file [2])], []⟩
    let fs : FS := ⟨fun s => s.map Char.toLower, [], []⟩
    let r := copyFromReader src fs [c!"data"] [c!"data"]
    r.2.toOption = some () ∧ (r.1.getbytes [c!"data", c!"a"]).toOption = some [2] ∧ r.1.nodes.length = 2 := by decide +kernel

end Verif.Props
