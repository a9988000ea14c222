import Verif.Proofs.UfoFilesRun
import Mathlib.Data.List.Nodup
/-! The listings of a UFO whose images and data files have been written. -/
namespace Verif.Props
open Verif Verif.Ufo Verif.FS Verif.IO Verif.Spec.Ufo

/-- The file a call writes. -/
def fileOf : Op → Path × Bytes
  | .image n d _ => ([c!"images", n], d)
  | .bytes p d => (p, d)
  | _ => ([], [])

theorem fileOf_mem {files : Files} {op : Op} (h : SavesFile files op) : fileOf op ∈ files.paths := by
  cases h with
  | image h => exact List.mem_append_left _ (List.mem_map.2 ⟨_, h, rfl⟩)
  | data h => exact List.mem_append_right _ (List.mem_map.2 ⟨_, h, rfl⟩)

theorem mem_paths {files : Files} {a : Path × Bytes} (h : a ∈ files.paths) : ∃ op, SavesFile files op ∧ fileOf op = a := by
  rcases List.mem_append.1 h with h | h
  · obtain ⟨⟨n, d⟩, he, rfl⟩ := List.mem_map.1 h
    exact ⟨_, .image he, rfl⟩
  · obtain ⟨⟨p, d⟩, he, rfl⟩ := List.mem_map.1 h
    exact ⟨_, .data he, rfl⟩

theorem step_file {E : FontInfo.Env} {L : Casing} {files : Files} (hpng : ∀ e ∈ files.images, pngValidator e.2 = true) {op : Op} (h : SavesFile files op) {w : World} (hv : w.1.version = 3)
    (hp : w.1.havePrevious = false) :
    step E L w op = ((w.1, (writeBytesToPath false w.2 (fileOf op).1 (fileOf op).2).1), (writeBytesToPath false w.2 (fileOf op).1 (fileOf op).2).2) := by
  cases h with
  | image h =>
    have := hpng _ h
    show writeImage w _ _ true = _
    unfold writeImage
    rw [if_neg (by omega), if_neg (by simp at this; simp [this]), hp]
    rfl
  | data h =>
    simp only [step, fileOf, hp]

theorem region_run {E : FontInfo.Env} {L : Casing} {canon : Str → Str} {files : Files} (hF : Free canon files.paths) (hpng : ∀ e ∈ files.images, pngValidator e.2 = true) (ops : List Op) :
    ∀ {w : World} {S : List (Path × Bytes)}, Layered w.1 → w.1.version = 3 → w.1.havePrevious = false → (∀ a ∈ S, a ∈ files.paths) → Region canon S w.2 →
      (∀ op ∈ ops, SavesFile files op ∨ Spares canon c!"images" op ∧ Spares canon c!"data" op) →
      (∃ S', (∀ a ∈ S', a ∈ files.paths) ∧ (∀ a ∈ S, a ∈ S') ∧ Region canon S' (run E L w ops).2 ∧ ∀ op ∈ ops, SavesFile files op → fileOf op ∈ S') ∧
      ∀ pre op post, ops = pre ++ op :: post → SavesFile files op → (step E L (run E L w pre) op).2 = .ok () := by
  induction ops with
  | nil => exact fun {w S} _ _ _ h1 h2 _ => ⟨⟨S, h1, fun _ h => h, h2, nofun⟩, fun pre op post e => by simp at e⟩
  | cons op ops ih =>
    intro w S hl hv hp hS hR hops
    obtain ⟨hsame, -, hl', -⟩ := step_spec E L w hl op
    have hv' : (step E L w op).1.1.version = 3 := by rw [← hv]; exact hsame.1
    have hp' : (step E L w op).1.1.havePrevious = false := by rw [← hp]; exact hsame.previous
    have key : ∃ S1, (∀ a ∈ S1, a ∈ files.paths) ∧ (∀ a ∈ S, a ∈ S1) ∧ Region canon S1 (step E L w op).1.2 ∧ (SavesFile files op → fileOf op ∈ S1 ∧ (step E L w op).2 = .ok ()) := by
      by_cases hs : SavesFile files op
      · obtain ⟨fs', h1, h2⟩ := region_write hF hS hR (fileOf_mem hs)
        refine ⟨fileOf op :: S, ?_, fun a h => by simp [h], ?_, fun _ => ⟨by simp, ?_⟩⟩
        · intro a ha
          rcases List.mem_cons.1 ha with rfl | ha
          · exact fileOf_mem hs
          · exact hS a ha
        · rw [step_file hpng hs hv hp, h1]; exact h2
        · rw [step_file hpng hs hv hp, h1]
      · have := (hops op (by simp)).resolve_left hs
        exact ⟨S, hS, fun _ h => h, region_spared hl hR (fun a ha => hF.head (hS a ha)) this.1 this.2, fun h => absurd h hs⟩
    obtain ⟨S1, k1, k2, k3, k4⟩ := key
    obtain ⟨⟨S', i1, i2, i3, i4⟩, i5⟩ := ih hl' hv' hp' k1 k3 fun o ho => hops o (by simp [ho])
    refine ⟨⟨S', i1, fun a h => i2 a (k2 a h), i3, fun o ho hs => ?_⟩, fun pre o post e hs => ?_⟩
    · rcases List.mem_cons.1 ho with rfl | ho
      · exact i2 _ (k4 hs).1
      · exact i4 o ho hs
    · cases pre with
      | nil =>
        simp only [List.nil_append, List.cons.injEq] at e
        obtain ⟨rfl, -⟩ := e
        exact (k4 hs).2
      | cons x pre =>
        simp only [List.cons_append, List.cons.injEq] at e
        obtain ⟨rfl, e⟩ := e
        exact i5 pre o post e hs

theorem nodes_unique {nodes : Dict Path Node} (h : Dict.WF nodes) {k : Path} {n m : Node} (h1 : (k, n) ∈ nodes) (h2 : (k, m) ∈ nodes) : n = m := by
  have a := Dict.get?_of_mem h h1
  rw [Dict.get?_of_mem h h2] at a
  injection a with a
  exact a.symm

variable {canon : Str → Str} {files : Files} {fs : FS}

theorem nodup_filterMap_on {α β : Type} (f : α → Option β) : ∀ {l : List α}, l.Nodup → (∀ a ∈ l, ∀ b ∈ l, ∀ x, f a = some x → f b = some x → a = b) → (l.filterMap f).Nodup
  | [], _, _ => List.nodup_nil
  | a :: l, hn, h => by
    have ih := nodup_filterMap_on f (List.nodup_cons.1 hn).2 fun b hb c hc => h b (by simp [hb]) c (by simp [hc])
    cases hf : f a with
    | none => rw [List.filterMap_cons_none hf]; exact ih
    | some x =>
      rw [List.filterMap_cons_some hf, List.nodup_cons]
      refine ⟨fun hx => ?_, ih⟩
      obtain ⟨b, hb, hbx⟩ := List.mem_filterMap.1 hx
      have := h a (by simp) b (by simp [hb]) x hf hbx
      exact (List.nodup_cons.1 hn).1 (this ▸ hb)

/-- The entry behind a listed image. -/
def listedImage (fs : FS) (e : Path × Node) : Option Str :=
  if e.1.dropLast = fs.key [imagesName] then
    match e.2 with
    | .dir => none
    | .file data => if true && !pngValidator data then none else e.1.getLast?
  else none

theorem listedImage_some (hkey : ∀ q, fs.key q = q.map canon) {k : Path} {n : Node} {x : Str} (h : listedImage fs (k, n) = some x) :
    k = [canon c!"images", x] ∧ ∃ d, n = .file d := by
  unfold listedImage at h
  simp only at h
  split at h
  · rename_i hk
    split at h
    · cases h
    · rename_i d
      split at h
      · cases h
      · have hk0 : k ≠ [] := by rintro rfl; cases h
        rw [List.getLast?_eq_some_getLast hk0] at h
        injection h with h
        refine ⟨?_, d, rfl⟩
        rw [← List.dropLast_concat_getLast hk0, hk, hkey, h]
        rfl
  · cases h

/-- The entry behind a listed data file. -/
def listedData (fs : FS) (e : Path × Node) : Option Path :=
  match e with
  | (k, .file _) => if (fs.key [dataName]).isPrefixOf k then some (k.drop 1) else none
  | _ => none

theorem listedData_some (hkey : ∀ q, fs.key q = q.map canon) {k : Path} {n : Node} {x : Path} (h : listedData fs (k, n) = some x) :
    k = canon c!"data" :: x ∧ ∃ d, n = .file d := by
  unfold listedData at h
  split at h
  · rename_i k' d e
    cases e
    split at h
    · rename_i hp
      injection h with h
      rw [hkey, List.isPrefixOf_iff_prefix] at hp
      obtain ⟨t, rfl⟩ := hp
      exact ⟨by rw [← h]; rfl, d, rfl⟩
    · cases h
  · cases h

theorem region_holds (hne : canon c!"images" ≠ canon c!"data") (hF : Free canon files.paths) (hpng : ∀ e ∈ files.images, pngValidator e.2 = true)
    (hwi : Dict.WF files.images) (hwd : Dict.WF files.data) (h : Region canon files.paths fs) : HoldsFiles canon fs 3 files := by
  have hkey : ∀ q, fs.key q = q.map canon := fun q => by unfold FS.key; rw [h.canon_eq]
  have hnd : fs.nodes.Nodup := List.Nodup.of_map _ (h.wf : (fs.nodes.map Prod.fst).Nodup)
  have hmi : ∀ n d, (n, d) ∈ files.images → ([c!"images", n], d) ∈ files.paths := fun n d he => List.mem_append_left _ (List.mem_map.2 ⟨_, he, rfl⟩)
  have hmd : ∀ p d, (p, d) ∈ files.data → (c!"data" :: p, d) ∈ files.paths := fun p d he => List.mem_append_right _ (List.mem_map.2 ⟨_, he, rfl⟩)
  have himg : ∀ e ∈ files.images, fs.node? [c!"images"] = some .dir := by
    rintro ⟨n, d⟩ he
    rw [node?_of_ne (by simp), hkey]
    exact h.dirs _ (hmi n d he) _ ⟨[canon n], by simp⟩ (by simp) (by simp)
  have hdat : ∀ e ∈ files.data, fs.node? [c!"data"] = some .dir := by
    rintro ⟨p, d⟩ he
    rw [node?_of_ne (by simp), hkey]
    have hp : p ≠ [] := by
      rcases hF.1 _ (hmd p d he) with ⟨c, r, e⟩ | ⟨c, r, e⟩
      · simp at e
      · simp at e; simp [e]
    exact h.dirs _ (hmd p d he) _ ⟨p.map canon, by simp⟩ (by simp) (by simpa using hp)
  have hfile : ∀ a ∈ files.paths, fs.getbytes a.1 = .ok a.2 := by
    intro a ha
    have h0 : a.1 ≠ [] := by rcases hF.1 a ha with ⟨c, r, e⟩ | ⟨c, r, e⟩ <;> simp [e]
    have := h.files a ha
    rw [← hkey, ← node?_of_ne h0] at this
    unfold FS.getbytes
    rw [this]
  -- the listed images
  have hl : ∀ x, x ∈ listImages fs true ↔ x ∈ (Dict.keys files.images).map canon := by
    intro x
    show x ∈ fs.nodes.filterMap (listedImage fs) ↔ _
    rw [List.mem_filterMap]
    constructor
    · rintro ⟨⟨k, n⟩, hm, hx⟩
      obtain ⟨hkx, d, rfl⟩ := listedImage_some hkey hx
      rcases h.only k _ (Dict.get?_of_mem h.wf hm) (.inl (by rw [hkx]; rfl)) with ⟨a, ha, h1, h2⟩ | ⟨a, -, -, -, h2⟩
      · rcases List.mem_append.1 ha with ha | ha
        · obtain ⟨⟨m, e⟩, he, rfl⟩ := List.mem_map.1 ha
          rw [hkx] at h1
          simp only [List.map_cons, List.map_nil, List.cons.injEq, true_and, and_true] at h1
          rw [h1]
          exact List.mem_map.2 ⟨m, Dict.mem_keys_of_mem he, rfl⟩
        · obtain ⟨⟨m, e⟩, he, rfl⟩ := List.mem_map.1 ha
          rw [hkx] at h1
          simp only [List.map_cons, List.cons.injEq] at h1
          exact absurd h1.1 hne
      · cases h2
    · intro hx
      obtain ⟨n, hn, rfl⟩ := List.mem_map.1 hx
      obtain ⟨⟨n', d⟩, he, rfl⟩ := List.mem_map.1 hn
      refine ⟨([canon c!"images", canon n'], .file d), Dict.mem_of_get? (h.files _ (hmi n' d he)), ?_⟩
      have hp := hpng _ he
      unfold listedImage
      simp only [hkey] at hp ⊢
      simp [hp, imagesName]
  have hln : (listImages fs true).Nodup := by
    show (fs.nodes.filterMap (listedImage fs)).Nodup
    refine nodup_filterMap_on _ hnd ?_
    rintro ⟨k, n⟩ hm ⟨k', n'⟩ hm' x hx hx'
    obtain ⟨rfl, -⟩ := listedImage_some hkey hx
    obtain ⟨rfl, -⟩ := listedImage_some hkey hx'
    rw [nodes_unique h.wf hm hm']
  have hcn : ((Dict.keys files.images).map canon).Nodup := by
    refine List.Nodup.map_on ?_ hwi
    intro a ha b hb e
    obtain ⟨⟨a', d⟩, hda, rfl⟩ := List.mem_map.1 ha
    obtain ⟨⟨b', d'⟩, hdb, rfl⟩ := List.mem_map.1 hb
    have := hF.2 _ (hmi a' d hda) _ (hmi b' d' hdb) (by simp only [List.map_cons, List.map_nil]; simp only at e; rw [e]; exact List.prefix_refl _)
    simpa using congrArg Prod.fst this
  -- the listed data files
  have hdl : ∀ x, x ∈ fs.nodes.filterMap (listedData fs) ↔ x ∈ (Dict.keys files.data).map (·.map canon) := by
    intro x
    rw [List.mem_filterMap]
    constructor
    · rintro ⟨⟨k, n⟩, hm, hx⟩
      obtain ⟨hkx, d, rfl⟩ := listedData_some hkey hx
      rcases h.only k _ (Dict.get?_of_mem h.wf hm) (.inr (by rw [hkx]; rfl)) with ⟨a, ha, h1, h2⟩ | ⟨a, -, -, -, h2⟩
      · rcases List.mem_append.1 ha with ha | ha
        · obtain ⟨⟨m, e⟩, he, rfl⟩ := List.mem_map.1 ha
          rw [hkx] at h1
          simp only [List.map_cons, List.cons.injEq] at h1
          exact absurd h1.1.symm hne
        · obtain ⟨⟨m, e⟩, he, rfl⟩ := List.mem_map.1 ha
          rw [hkx] at h1
          simp only [List.map_cons, List.cons.injEq, true_and] at h1
          rw [h1]
          exact List.mem_map.2 ⟨m, Dict.mem_keys_of_mem he, rfl⟩
      · cases h2
    · intro hx
      obtain ⟨n, hn, rfl⟩ := List.mem_map.1 hx
      obtain ⟨⟨n', d⟩, he, rfl⟩ := List.mem_map.1 hn
      refine ⟨(canon c!"data" :: n'.map canon, .file d), Dict.mem_of_get? (h.files _ (hmd n' d he)), ?_⟩
      unfold listedData
      simp [hkey, dataName]
  have hdn : (fs.nodes.filterMap (listedData fs)).Nodup := by
    refine nodup_filterMap_on _ hnd ?_
    rintro ⟨k, n⟩ hm ⟨k', n'⟩ hm' x hx hx'
    obtain ⟨rfl, -⟩ := listedData_some hkey hx
    obtain ⟨rfl, -⟩ := listedData_some hkey hx'
    rw [nodes_unique h.wf hm hm']
  have hcd : ((Dict.keys files.data).map (·.map canon)).Nodup := by
    refine List.Nodup.map_on ?_ hwd
    intro a ha b hb e
    obtain ⟨⟨a', d⟩, hda, rfl⟩ := List.mem_map.1 ha
    obtain ⟨⟨b', d'⟩, hdb, rfl⟩ := List.mem_map.1 hb
    have := hF.2 _ (hmd a' d hda) _ (hmd b' d' hdb) (by simp only [List.map_cons]; simp only at e; rw [e]; exact List.prefix_refl _)
    simpa using congrArg Prod.fst this
  refine ⟨?_, ?_, ?_, ?_⟩
  · unfold getImageDirectoryListing
    rw [if_neg (by decide)]
    cases hn : fs.node? [imagesName] with
    | none =>
      have : files.images = [] := by
        by_contra hx
        obtain ⟨e, he⟩ := List.exists_mem_of_ne_nil _ hx
        have := himg e he
        rw [show fs.node? [c!"images"] = none from hn] at this
        cases this
      exact ⟨[], rfl, by simp [this, Dict.keys]⟩
    | some n =>
      cases n with
      | dir => exact ⟨_, rfl, (List.perm_ext_iff_of_nodup hln hcn).2 hl⟩
      | file b =>
        rw [node?_of_ne (by simp), hkey] at hn
        rcases h.only _ _ hn (.inl rfl) with ⟨a, ha, h1, -⟩ | ⟨a, -, -, -, h2⟩
        · have := congrArg List.length h1
          rcases hF.1 a ha with ⟨c, r, e⟩ | ⟨c, r, e⟩ <;> simp [e] at this
        · cases h2
  · rintro ⟨n, d⟩ he
    exact C63_read_succeeds fs 3 (by decide) n d ((pngValidator_iff _).1 (hpng _ he)) (himg _ he) (hfile _ (hmi n d he)) true
  · unfold getDataDirectoryListing
    cases hn : fs.node? [dataName] with
    | none =>
      have : files.data = [] := by
        by_contra hx
        obtain ⟨e, he⟩ := List.exists_mem_of_ne_nil _ hx
        have := hdat e he
        rw [show fs.node? [c!"data"] = none from hn] at this
        cases this
      simp [this, Dict.keys]
    | some n =>
      cases n with
      | dir => exact (List.perm_ext_iff_of_nodup hdn hcd).2 hdl
      | file b =>
        rw [node?_of_ne (by simp), hkey] at hn
        rcases h.only _ _ hn (.inr rfl) with ⟨a, ha, h1, -⟩ | ⟨a, -, -, -, h2⟩
        · have := congrArg List.length h1
          rcases hF.1 a ha with ⟨c, r, e⟩ | ⟨c, r, e⟩ <;> simp [e] at this
        · cases h2
  · rintro ⟨p, d⟩ he
    unfold readBytesFromPath
    rw [hfile _ (hmd p d he)]

end Verif.Props
