import Verif.Props.UfoData
/-! Images and arbitrary files: C63, C66 and C70. -/
namespace Verif.Props
open Verif Verif.FS Verif.IO Verif.Ufo Verif.Spec.Ufo

/-- Data that begins with the signature of PNG files. -/
def Png (data : Bytes) : Prop := ∃ rest, data = [137, 80, 78, 71, 13, 10, 26, 10] ++ rest

theorem pngValidator_iff (data : Bytes) : pngValidator data = true ↔ Png data := by
  unfold pngValidator Png
  rw [beq_iff_eq]
  constructor
  · intro h
    refine ⟨data.drop 8, ?_⟩
    have := List.take_append_drop 8 data
    rw [h] at this
    exact this.symm
  · rintro ⟨rest, rfl⟩
    rfl

/-! ### C66 -/

/-- After a successful `writeBytesToPath` the file holds the data, and in any case all other files are as before. -/
theorem C66_write (havePrevious : Bool) (fs : FS) (p : Path) (data : Bytes) :
    let r := writeBytesToPath havePrevious fs p data
    (r.2 = .ok () → readBytesFromPath r.1 p = .ok (some data)) ∧
    ∀ q, q.map fs.canon ≠ p.map fs.canon → ∀ d, readBytesFromPath r.1 q = .ok (some d) ↔ readBytesFromPath fs q = .ok (some d) := by
  intro r
  obtain ⟨-, h2, h3, -⟩ := writeBytesToPath_spec havePrevious fs p data
  have hr : ∀ (g : FS) q d, readBytesFromPath g q = .ok (some d) ↔ g.getbytes q = .ok d := by
    intro g q d
    unfold readBytesFromPath
    cases hb : g.getbytes q with
    | ok b => simp
    | error e => cases e <;> simp
  refine ⟨fun h => (hr _ _ _).2 (h2 h), fun q hq d => ?_⟩
  rw [hr, hr]
  exact h3 q d hq

/-- It succeeds unless there is a directory at the path or a file on the way to it. -/
theorem makedirsFrom_succeeds : ∀ (rest : Path) (fs : FS) (done : Path), fs.node? done = some .dir →
    (∀ q b, q <+: rest → fs.node? (done ++ q) ≠ some (.file b)) → ∃ fs', fs.makedirsFrom done rest = .ok fs'
  | [], fs, _, _, _ => ⟨fs, rfl⟩
  | c :: rest, fs, done, hd, hf => by
    have h1 : fs.node? (done ++ [c]) = some .dir ∨ fs.node? (done ++ [c]) = none := by
      cases hn : fs.node? (done ++ [c]) with
      | none => exact .inr rfl
      | some n => cases n with
        | dir => exact .inl rfl
        | file b => exact absurd hn (hf [c] b (by simp))
    obtain ⟨fs1, h2⟩ := makedir_of h1 (by rw [List.dropLast_concat]; exact hd)
    obtain ⟨k1, k2, k3, -⟩ := makedir_ok h2
    obtain ⟨fs2, h3⟩ := makedirsFrom_succeeds rest fs1 (done ++ [c]) k2 (fun q b hq => by
      by_cases hk : fs.key (done ++ [c] ++ q) = fs.key (done ++ [c])
      · have : fs1.key (done ++ [c] ++ q) = fs1.key (done ++ [c]) := by unfold FS.key at *; rw [k1]; exact hk
        rw [node?_eq this, k2]; simp
      · rw [k3 _ hk, List.append_assoc]
        exact hf (c :: q) b (by simpa using hq))
    refine ⟨fs2, ?_⟩
    unfold makedirsFrom
    rw [h2]; exact h3

theorem C66_write_succeeds (havePrevious : Bool) (fs : FS) (p : Path) (data : Bytes) (hp : p ≠ []) (hd : fs.node? p ≠ some .dir)
    (hf : ∀ q b, q <+: p → q ≠ p → fs.node? q ≠ some (.file b)) : (writeBytesToPath havePrevious fs p data).2 = .ok () := by
  have hlen := List.length_pos_of_ne_nil hp
  have hpar : ∀ b, fs.node? p.dropLast ≠ some (.file b) := fun b => hf _ b (List.dropLast_prefix p) (fun h => by
    have := congrArg List.length h
    simp at this; omega)
  unfold writeBytesToPath
  by_cases hu : (havePrevious && unchanged fs p data) = true
  · rw [if_pos hu]
  rw [if_neg hu]
  cases hn : fs.node? p.dropLast with
  | some n =>
    cases n with
    | file b => exact absurd hn (hpar b)
    | dir => rw [setbytes_of data hn hd]
  | none =>
    have hs : fs.setbytes p data = .error .resourceNotFound := by unfold setbytes; rw [hn]
    obtain ⟨fs1, hm⟩ := makedirsFrom_succeeds p.dropLast fs [] (by simp [node?]) (fun q b hq => by
      rw [List.nil_append]
      exact hf q b (hq.trans (List.dropLast_prefix p)) (fun h => by
        have := hq.length_le
        subst h; simp at this; omega))
    have hm' : fs.makedirs p.dropLast = .ok fs1 := hm
    obtain ⟨-, m2, m3, m4, m5⟩ := makedirs_ok hm'
    have hd' : fs1.node? p ≠ some .dir := by
      cases hn : fs.node? p with
      | some n => rw [m2 p n hn, ← hn]; exact hd
      | none =>
        intro h
        have h4 := m4 p (by rw [h, hn]; simp)
        have := h4.length_le
        simp [FS.key] at this; omega
    rw [hs]
    dsimp only
    rw [hm']
    dsimp only
    rw [setbytes_of data m5 hd']

/-- After a successful `removePath` there is nothing at the path, and in any case all files outside it are as before. -/
theorem C66_remove (fs : FS) (p : Path) (hp : p ≠ []) (force removeEmptyParents : Bool) :
    let r := removePath fs p force removeEmptyParents
    (r.2 = .ok () → r.1.exists p = false) ∧
    ∀ q, ¬ p.map fs.canon <+: q.map fs.canon → ∀ d, r.1.getbytes q = .ok d ↔ fs.getbytes q = .ok d := by
  intro r
  obtain ⟨-, h2, h3, -⟩ := removePath_spec fs p hp force removeEmptyParents
  refine ⟨fun h => ?_, fun q hq d => h3 q d hq⟩
  unfold FS.exists
  rw [h2 h]; rfl

example : let r := writeBytesToPath false fs57 [c!"data", c!"org.x", c!"a.txt"] [1, 2]
    let s := writeBytesToPath false r.1 [c!"data", c!"b.txt"] [3]
    let t := removePath s.1 [c!"data", c!"org.x", c!"a.txt"] false true
    r.2.toOption = some () ∧ s.2.toOption = some () ∧ (s.1.getbytes [c!"data", c!"org.x", c!"a.txt"]).toOption = some [1, 2] ∧
    t.2.toOption = some () ∧ t.1.nodes = [([c!"data"], .dir), ([c!"data", c!"b.txt"], .file [3])] := by decide +kernel

/-! ### C63 -/

/-- With validation `writeImage` stores only PNG data, which is then read back; other data is refused and nothing changes. -/
theorem C63_write (w : World) (hv : 3 ≤ w.1.version) (name : Str) (data : Bytes) :
    (¬ Png data → writeImage w name data true = (w, .error .ufoLibError)) ∧
    ((writeImage w name data true).2 = .ok () → Png data ∧ (writeImage w name data true).1.2.getbytes [c!"images", name] = .ok data) := by
  constructor
  · intro h
    have : pngValidator data = false := by rw [← Bool.not_eq_true, pngValidator_iff]; exact h
    unfold writeImage
    rw [if_neg (by omega), if_pos (by simp [this])]
  · intro h
    unfold writeImage at h ⊢
    rw [if_neg (by omega)] at h ⊢
    split at h
    · cases h
    · rename_i hp
      rw [if_neg hp]
      refine ⟨(pngValidator_iff _).1 (by simpa using hp), ?_⟩
      exact (writeBytesToPath_spec _ _ _ _).2.1 h

/-- With validation `readImage` returns only PNG data, which is the content of the file. -/
theorem C63_read (fs : FS) (version : Int) (name : Str) (data : Bytes) (h : readImage fs version name true = .ok data) :
    Png data ∧ fs.getbytes [c!"images", name] = .ok data := by
  unfold readImage at h
  split at h
  · cases h
  · split at h
    · cases h
    · cases h
    · split at h
      · cases h
      · rename_i d hd
        split at h
        · cases h
        · rename_i hp
          cases h
          exact ⟨(pngValidator_iff _).1 (by simpa using hp), hd⟩

/-- Every PNG file in the directory can be read. -/
theorem C63_read_succeeds (fs : FS) (version : Int) (hv : 3 ≤ version) (name : Str) (data : Bytes) (hp : Png data) (hd : fs.node? [c!"images"] = some .dir)
    (h : fs.getbytes [c!"images", name] = .ok data) (validate : Bool) : readImage fs version name validate = .ok data := by
  have := (pngValidator_iff _).2 hp
  unfold readImage
  rw [if_neg (by omega), show imagesName = c!"images" from rfl, hd]
  dsimp only
  rw [h]
  simp [this]

/-- The file system stores every file once, under the name it compares it by, and every file lies in a directory. -/
structure Tidy (fs : FS) : Prop where
  once : Dict.WF fs.nodes
  canonical : ∀ k ∈ Dict.keys fs.nodes, ∃ p : Path, p ≠ [] ∧ k = p.map fs.canon
  parents : ∀ p, (fs.node? p).isSome = true → fs.node? p.dropLast = some .dir

/-- The listing has exactly the files of the directory, with validation exactly those that are PNG files, each once. (The names are those under which the
file system stores the files.) -/
theorem C63_listing (fs : FS) (ht : Tidy fs) (validate : Bool) (l : List Str) (h : getImageDirectoryListing fs 3 validate = .ok l) :
    l.Nodup ∧ ∀ n, n ∈ l ↔ ∃ n' data, n = fs.canon n' ∧ fs.getbytes [c!"images", n'] = .ok data ∧ (validate = true → Png data) := by
  unfold getImageDirectoryListing at h
  rw [if_neg (by omega)] at h
  have hget : ∀ n' data, fs.getbytes [c!"images", n'] = .ok data → fs.node? [c!"images", n'] = some (.file data) := fun n' data hd => getbytes_ok.1 hd
  split at h
  · rename_i hn
    cases h
    refine ⟨List.nodup_nil, fun n => ⟨fun hm => by simp at hm, ?_⟩⟩
    rintro ⟨n', data, -, hd, -⟩
    have := ht.parents [c!"images", n'] (by rw [hget _ _ hd]; rfl)
    rw [show imagesName = c!"images" from rfl] at hn
    simp [hn] at this
  · cases h
  · cases h
    unfold listImages
    have hkeys : ∀ {k : Path} {n : Str}, k.dropLast = fs.key [imagesName] → k.getLast? = some n → k = [fs.canon c!"images", n] := by
      intro k n h1 h2
      have hk : k ≠ [] := by rintro rfl; simp at h2
      rw [List.getLast?_eq_some_getLast hk] at h2
      have := List.dropLast_concat_getLast hk
      rw [h1, Option.some.inj h2] at this
      exact this.symm
    have hone : ∀ (e : Path × Node) n, (if e.1.dropLast = fs.key [imagesName] then
        match e.2 with
        | .dir => none
        | .file data => if validate && !pngValidator data then none else e.1.getLast?
      else none) = some n ↔ ∃ data, e = ([fs.canon c!"images", n], .file data) ∧ (validate = true → Png data) := by
      rintro ⟨k, nd⟩ n
      constructor
      · intro hs
        split at hs
        · rename_i hk
          cases nd with
          | dir => cases hs
          | file data =>
            dsimp only at hs
            split at hs
            · cases hs
            · rename_i hv
              refine ⟨data, Prod.ext (hkeys hk hs) rfl, fun hval => (pngValidator_iff _).1 ?_⟩
              simpa [hval] using hv
        · cases hs
      · rintro ⟨data, he, hp⟩
        cases he
        rw [if_pos (show List.dropLast [fs.canon c!"images", n] = fs.key [imagesName] from rfl)]
        dsimp only
        rw [if_neg]
        · rfl
        · cases validate with
          | false => simp
          | true => simp [(pngValidator_iff _).2 (hp rfl)]
    constructor
    · unfold List.Nodup
      rw [List.pairwise_filterMap]
      have hw : fs.nodes.Pairwise (fun a b => a.1 ≠ b.1) := List.pairwise_map.1 ht.once
      refine hw.imp (fun {a b} hab n hn n' hn' he => hab ?_)
      obtain ⟨d, rfl, -⟩ := (hone a n).1 hn
      obtain ⟨d', rfl, -⟩ := (hone b n').1 hn'
      rw [he]
    · intro n
      rw [List.mem_filterMap]
      constructor
      · rintro ⟨e, he, hs⟩
        obtain ⟨data, rfl, hp⟩ := (hone e n).1 hs
        obtain ⟨p, -, hk⟩ := ht.canonical _ (Dict.mem_keys_of_mem he)
        obtain ⟨a, n', rfl⟩ : ∃ a n', p = [a, n'] := by
          have hl := congrArg List.length hk
          match p, hl with
          | [a, n'], _ => exact ⟨a, n', rfl⟩
          | [_], hl => simp at hl
          | [], hl => simp at hl
          | _ :: _ :: _ :: _, hl => simp at hl
        simp only [List.map_cons, List.map_nil, List.cons.injEq, and_true] at hk
        refine ⟨n', data, hk.2, getbytes_ok.2 ?_, hp⟩
        simp only [node?]
        rw [← Dict.get?_of_mem ht.once he, hk.2]
        simp [FS.key]
      · rintro ⟨n', data, rfl, hd, hp⟩
        have hd := hget _ _ hd
        simp only [node?] at hd
        exact ⟨_, Dict.mem_of_get? hd, (hone _ _).2 ⟨data, rfl, hp⟩⟩

/-- An image that has been removed is not there any more; the other images and all other files stay. -/
theorem C63_remove (w : World) (name : Str) (h : (Ufo.removeImage w name).2 = .ok ()) :
    (Ufo.removeImage w name).1.2.exists [c!"images", name] = false ∧
    ∀ q, ¬ [c!"images", name].map w.2.canon <+: q.map w.2.canon → ∀ d, (Ufo.removeImage w name).1.2.getbytes q = .ok d ↔ w.2.getbytes q = .ok d := by
  unfold Ufo.removeImage at h ⊢
  split at h
  · cases h
  · rename_i hv
    rw [if_neg hv]
    have := C66_remove w.2 [c!"images", name] (by simp) false true
    exact ⟨this.1 h, this.2⟩

def png63 : Bytes := [137, 80, 78, 71, 13, 10, 26, 10, 0, 0]

/-- Writing a PNG file succeeds, other data is refused; both listings after a file without signature has been put into the directory. -/
example : let w := (writeImage new60 c!"a.png" png63 true);
    let x := (writeImage w.1 c!"b.png" [1, 2, 3] false);
    w.2.toOption = some () ∧ (writeImage w.1 c!"b.png" [1, 2, 3] true).2.toOption = none ∧ x.2.toOption = some () ∧
    (getImageDirectoryListing x.1.2 3 true).toOption = some [c!"a.png"] ∧
    (getImageDirectoryListing x.1.2 3 false).toOption = some [c!"a.png", c!"b.png"] ∧
    (readImage x.1.2 3 c!"b.png" true).toOption = none ∧ (readImage x.1.2 3 c!"a.png" true).toOption = some png63 := by decide +kernel

theorem tidy_id (fs : FS) (hc : fs.canon = id) (h1 : (Dict.keys fs.nodes).Nodup) (h2 : ∀ k ∈ Dict.keys fs.nodes, k ≠ [])
    (h3 : ∀ k ∈ Dict.keys fs.nodes, fs.node? k.dropLast = some .dir) : Tidy fs := by
  refine ⟨h1, fun k hk => ⟨k, h2 k hk, by simp [hc]⟩, fun p hp => ?_⟩
  cases p with
  | nil => rfl
  | cons c p =>
    refine h3 _ (Dict.has_iff.1 ?_)
    simp only [node?] at hp
    simpa [FS.key, hc, Dict.has] using hp

example : Tidy (writeImage (writeImage new60 c!"a.png" png63 true).1 c!"b.png" [1, 2, 3] false).1.2 :=
  tidy_id _ rfl (by decide +kernel) (by decide +kernel) (by decide +kernel)

/-! ### C70 -/

theorem writeBytesToPath_content (havePrevious : Bool) (fs : FS) (p : Path) (data : Bytes) (q : Path) (d : Bytes)
    (h : (writeBytesToPath havePrevious fs p data).1.getbytes q = .ok d) : fs.getbytes q = .ok d ∨ d = data := by
  have hset : ∀ {g g' : FS}, g.setbytes p data = .ok g' → g'.getbytes q = .ok d → g.getbytes q = .ok d ∨ d = data := by
    intro g g' hs hg
    obtain ⟨h1, h2, h3, -⟩ := setbytes_files hs
    by_cases hk : g.key q = g.key p
    · have hk' : g'.key q = g'.key p := by unfold FS.key; rw [h1]; exact hk
      rw [getbytes_ok, node?_eq hk', ← getbytes_ok, h2] at hg
      cases hg
      exact .inr rfl
    · exact .inl ((h3 q d hk).1 hg)
  unfold writeBytesToPath at h
  split at h
  · exact .inl h
  · split at h
    · exact hset ‹_› h
    · exact .inl h
    · split at h
      · exact .inl h
      · rename_i fs1 hm
        have mf := makedirs_files hm q d
        split at h
        · exact .inl (mf.1 h)
        · exact (hset ‹_› h).imp_left mf.1
    · exact .inl h

theorem removePath_content (fs : FS) (p : Path) (hp : p ≠ []) (force re : Bool) (q : Path) (d : Bytes)
    (h : (removePath fs p force re).1.getbytes q = .ok d) : fs.getbytes q = .ok d := by
  have hq0 : q ≠ [] := fun e => by subst e; simp [getbytes_ok, node?] at h
  have hnode : ∀ {g : FS} {r}, removeNode fs p force = (g, r) → g.getbytes q = .ok d → fs.getbytes q = .ok d := by
    intro g r hg hd
    rw [getbytes_ok] at hd ⊢
    unfold removeNode at hg
    split at hg
    · rename_i fs' h
      obtain ⟨rfl, -⟩ := remove_ok h
      cases hg
      rw [node?_remove _ _ _ hq0] at hd
      split at hd
      · cases hd
      · exact hd
    · split at hg
      · rename_i fs' h
        obtain ⟨rfl, -⟩ := removetree_ok h
        cases hg
        rw [node?_rmtree _ _ _ hq0] at hd
        split at hd
        · cases hd
        · exact hd
      · cases hg; exact hd
    · split at hg <;> cases hg <;> exact hd
    · cases hg; exact hd
  unfold removePath at h
  split at h
  · exact hnode ‹_› h
  · rename_i fs' hn
    split at h
    · exact hnode hn (((removeEmpty_spec _ _).2.1 q d hq0).1 h)
    · exact hnode hn h

/-- Every file in the directory of images is a PNG file. -/
def AllPng (fs : FS) : Prop := ∀ p data, fs.getbytes (c!"images" :: p) = .ok data → Png data

/-- The calls that keep to the validated API for images. -/
def Validated (canon : Str → Str) (op : Op) : Prop :=
  (∃ n d, op = .image n d true) ∨ (∃ n, op = .removeImage n) ∨ Spares canon c!"images" op

/-- After any history of calls in which images are only written with validation and removed, and the other calls do not concern the directory of images,
every file there is a PNG file if it was so before; whether the calls succeed or raise. -/
theorem C70_images_partial (E : FontInfo.Env) (L : Casing) : ∀ (ops : List Op) (w : World), Layered w.1 → (∀ op ∈ ops, Validated w.2.canon op) → AllPng w.2 →
    AllPng (run E L w ops).2
  | [], _, _, _, h => h
  | op :: ops, w, hl, hv, h => by
    obtain ⟨-, -, hl', ha⟩ := step_spec E L w hl op
    refine C70_images_partial E L ops (step E L w op).1 hl' (fun o ho => by rw [ha.canon]; exact hv o (by simp [ho])) ?_
    intro p data hd
    rcases hv op (by simp) with ⟨n, d, rfl⟩ | ⟨n, rfl⟩ | hs
    · simp only [step] at hd
      unfold writeImage at hd
      split at hd
      · exact h p data hd
      · split at hd
        · exact h p data hd
        · rename_i hp
          rcases writeBytesToPath_content _ _ _ _ _ _ hd with hd | rfl
          · exact h p data hd
          · exact (pngValidator_iff _).1 (by simpa using hp)
    · simp only [step] at hd
      unfold Ufo.removeImage at hd
      split at hd
      · exact h p data hd
      · exact h p data (removePath_content _ _ (by simp) _ _ _ _ hd)
    · have := run_node? E L w hl [op] (c := c!"images") (by simpa using hs) p
      rw [getbytes_ok] at hd
      exact h p data (getbytes_ok.2 (this ▸ hd))

example : AllPng new60.2 ∧ (∀ op ∈ [Op.image c!"a.png" png63 true, .image c!"b.png" [1] true, .features c!"x", .removeImage c!"c.png"], Validated new60.2.canon op) ∧
    ((run env57 asciiCasing new60 [Op.image c!"a.png" png63 true, .image c!"b.png" [1] true, .features c!"x", .removeImage c!"c.png"]).2.getbytes
      [c!"images", c!"a.png"]).toOption = some png63 := by
  refine ⟨fun p data h => ?_, ?_, by decide +kernel⟩
  · rw [getbytes_ok] at h
    have hk : ∀ k ∈ Dict.keys new60.2.nodes, k.head? ≠ some c!"images" := by decide +kernel
    rw [node?, if_neg (by simp)] at h
    exact absurd rfl (hk _ (Dict.mem_keys_of_mem (Dict.mem_of_get? h)))
  · intro op hop
    simp only [List.mem_cons, List.not_mem_nil, or_false] at hop
    rcases hop with rfl | rfl | rfl | rfl
    · exact .inl ⟨_, _, rfl⟩
    · exact .inl ⟨_, _, rfl⟩
    · refine .inr (.inr fun c hc => ?_)
      cases hc
      decide
    · exact .inr (.inl ⟨_, rfl⟩)

/-- An image copied from another UFO is not validated: after it the directory has a file that is no PNG file, and that `readImage` refuses. -/
theorem C70_copy_refuted : let src : FS := (writeImage new60 c!"a.png" [1, 2, 3] false).1.2
    let w := (copyImageFromReader src new60 c!"a.png" c!"b.png");
    w.2.toOption = some () ∧ (readImage w.1.2 3 c!"b.png" false).toOption = some [1, 2, 3] ∧ (readImage w.1.2 3 c!"b.png" true).toOption = none := by decide +kernel

end Verif.Props
