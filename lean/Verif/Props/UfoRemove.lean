import Verif.Proofs.UfoRemove
import Verif.Props.UfoCopyFrom
/-! Removing files and directories, and refused images: more about C66 and C63. -/
namespace Verif.Props
open Verif Verif.FS Verif.IO Verif.Ufo Verif.Spec.Ufo Verif.Spec.Plist

theorem tidy_prefix {fs : FS} (ht : Tidy fs) {p : Path} (h : fs.node? p = some .dir) : ∀ q, q <+: p → fs.node? q = some .dir := by
  induction p using List.reverseRecOn with
  | nil => intro q hq; rw [List.prefix_nil.1 hq]; exact h
  | append_singleton p c ih =>
    intro q hq
    rcases List.prefix_concat_iff.1 hq with rfl | hq
    · exact h
    · refine ih ?_ q hq
      have := ht.parents (p ++ [c]) (by rw [h]; rfl)
      simpa using this

/-- Above what is there are directories. -/
theorem tidy_above {fs : FS} (ht : Tidy fs) {p : Path} (h : (fs.node? p).isSome = true) {q : Path} (hq : q <+: p) (hne : q ≠ p) : fs.node? q = some .dir := by
  have hd := ht.parents p h
  refine tidy_prefix ht hd q ?_
  rcases List.eq_nil_or_concat p with rfl | ⟨p, c, rfl⟩
  · exact absurd (List.prefix_nil.1 hq) hne
  · rw [List.concat_eq_append] at hq hne ⊢
    rcases List.prefix_concat_iff.1 hq with rfl | hq
    · exact absurd rfl hne
    · simpa using hq

theorem removeNode_at {fs : FS} (ht : Tidy fs) {p : Path} (he : fs.exists p = true) (force : Bool) :
    (removeNode fs p force).2 = .ok () ∧ ∀ k, At (removeNode fs p force).1 k ↔ At fs k ∧ ¬ fs.key p <+: k := by
  obtain ⟨n, hn⟩ := exists_iff.1 he
  cases n with
  | dir =>
    unfold removeNode remove removetree
    simp only [hn]
    refine ⟨trivial, fun k => ?_⟩
    simp only [At, Dict.keys, perform, Prim.apply, dropTree, List.mem_map, List.mem_filter]
    constructor
    · rintro ⟨e, ⟨h1, h2⟩, rfl⟩
      exact ⟨⟨e, h1, rfl⟩, fun h => by simp [List.isPrefixOf_iff_prefix.2 h] at h2⟩
    · rintro ⟨⟨e, h1, rfl⟩, h2⟩
      refine ⟨e, ⟨h1, ?_⟩, rfl⟩
      have : (fs.key p).isPrefixOf e.1 = false := by rw [← Bool.not_eq_true, List.isPrefixOf_iff_prefix]; exact h2
      rw [this]; rfl
  | file d =>
    unfold removeNode remove
    simp only [hn]
    refine ⟨trivial, fun k => ?_⟩
    show k ∈ Dict.keys (Dict.erase fs.nodes (fs.key p)) ↔ _
    rw [Dict.mem_keys_erase]
    refine and_congr_right fun hk => ⟨fun hne h => ?_, fun h e => h (e ▸ List.prefix_refl _)⟩
    obtain ⟨x, hx, rfl⟩ := ht.canonical k hk
    have hx' : (fs.node? x).isSome = true := (at_iff hx).1 hk
    have h : fs.key p <+: fs.key x := h
    have hpx : fs.key p = fs.key (x.take p.length) := by
      have := List.prefix_iff_eq_take.1 h
      simpa [FS.key, List.map_take] using this
    have hlt : p.length < x.length := by
      rcases Nat.lt_or_ge p.length x.length with h' | h'
      · exact h'
      · refine absurd (h.eq_of_length_le ?_).symm hne
        simpa [FS.key] using h'
    have := tidy_above ht hx' (List.take_prefix p.length x) fun e => by
      have := congrArg List.length e
      simp at this
      omega
    rw [← node?_eq hpx, hn] at this
    cases this

/-- Whatever is there can be removed, a file or a directory with everything in it. With `removeEmptyParents`, of the directories above exactly those stay that hold something else. -/
theorem C66_remove_succeeds (fs : FS) (ht : Tidy fs) (p : Path) (hp : p ≠ []) (he : fs.exists p = true) (force removeEmptyParents : Bool) :
    let r := removePath fs p force removeEmptyParents
    r.2 = .ok () ∧ ∀ q, q <+: p → q ≠ p → q ≠ [] →
      (r.1.node? q = some .dir ↔ removeEmptyParents = false ∨ ∃ x, fs.exists x = true ∧ fs.key q <+: fs.key x ∧ ¬ fs.key p <+: fs.key x ∧ ¬ fs.key x <+: fs.key p) := by
  obtain ⟨h1, h2⟩ := removeNode_at ht he force
  obtain ⟨n1, -, n3, -⟩ := removeNode_spec fs p hp force
  obtain ⟨p, c, rfl⟩ : ∃ p' c, p = p' ++ [c] := by
    rcases List.eq_nil_or_concat p with rfl | ⟨p, c, rfl⟩
    · exact absurd rfl hp
    · exact ⟨p, c, List.concat_eq_append⟩
  have hdl : ∀ q, q <+: p → (removeNode fs (p ++ [c]) force).1.node? q = some .dir := by
    intro q hq
    have hl := hq.length_le
    rw [n3 q fun h => by
      have := h.length_le
      simp only [FS.key, List.length_map, List.length_append, List.length_singleton] at this
      omega]
    exact tidy_above ht he (hq.trans (List.prefix_append _ _)) fun e => by
      have := congrArg List.length e
      simp at this
      omega
  have hq' : ∀ q, q <+: p ++ [c] → q ≠ p ++ [c] → q <+: p := fun q hq hne => by
    rcases List.prefix_concat_iff.1 hq with h | h
    · exact absurd h hne
    · exact h
  have hrm : removePath fs (p ++ [c]) force removeEmptyParents =
      if removeEmptyParents then removeEmpty (removeNode fs (p ++ [c]) force).1 p.reverse else ((removeNode fs (p ++ [c]) force).1, .ok ()) := by
    unfold removePath
    rcases hr : removeNode fs (p ++ [c]) force with ⟨g, e | u⟩
    · rw [hr] at h1; cases h1
    · simp
  intro r
  have hr : r = _ := hrm
  rw [hr]
  cases removeEmptyParents with
  | false => exact ⟨rfl, fun q hq hne _ => ⟨fun _ => .inl rfl, fun _ => hdl q (hq' q hq hne)⟩⟩
  | true =>
    simp only [if_true]
    have key : ∀ q, (removeNode fs (p ++ [c]) force).1.key q = fs.key q := fun q => by unfold FS.key; rw [n1]
    obtain ⟨k1, k2⟩ := removeEmpty_keeps p.reverse (removeNode fs (p ++ [c]) force).1 (by simpa using hdl)
    refine ⟨k1, fun q hq hne hnil => ?_⟩
    rw [k2 q (by simpa using hq' q hq hne) hnil]
    simp only [List.reverse_reverse, key, h2, Bool.true_eq_false, false_or]
    constructor
    · rintro ⟨k, ⟨a, b⟩, d, e⟩
      obtain ⟨x, hx, rfl⟩ := ht.canonical k a
      refine ⟨x, (at_iff hx).1 a, d, b, fun h => ?_⟩
      rw [show fs.key (p ++ [c]) = fs.key p ++ [fs.canon c] by simp [FS.key], List.prefix_concat_iff] at h
      rcases h with h | h
      · refine b ?_
        have h : fs.key x = fs.key (p ++ [c]) := by rw [h]; simp [FS.key]
        show _ <+: fs.key x
        rw [h]
        exact List.prefix_refl _
      · exact e h
    · rintro ⟨x, a, b, d, e⟩
      have hx : x ≠ [] := by
        rintro rfl
        exact e (by simp [FS.key])
      exact ⟨fs.key x, ⟨(at_iff hx).2 a, d⟩, b, fun h => e (h.trans (by simp [FS.key]))⟩

/-- What is not there cannot be removed: the exception of the library, and nothing changes. With `force` (and without `removeEmptyParents`) the call just returns. -/
theorem C66_remove_missing (fs : FS) (p : Path) (he : fs.exists p = false) :
    (∀ re, removePath fs p false re = (fs, .error .ufoLibError)) ∧ removePath fs p true false = (fs, .ok ()) := by
  have hn : fs.node? p = none := by
    unfold FS.exists at he
    simpa using he
  unfold removePath removeNode remove
  simp [hn]

/-- With `force` and `removeEmptyParents` it returns if the parent directory is there. -/
theorem C66_remove_force (fs : FS) (ht : Tidy fs) (p : Path) (he : fs.exists p = false) (hd : fs.node? p.dropLast = some .dir) : (removePath fs p true true).2 = .ok () := by
  have hn : fs.node? p = none := by
    unfold FS.exists at he
    simpa using he
  unfold removePath removeNode remove
  simp only [hn, if_true]
  exact (removeEmpty_keeps _ fs (by simpa using tidy_prefix ht hd)).1

/-- Otherwise `force` does not help: the exception of the file system reaches the caller. (`removeEmptyParents` is on by default.) -/
theorem C66_force_missing (fs : FS) (p : Path) (he : fs.exists p = false) (hp : fs.node? p.dropLast = none) : removePath fs p true true = (fs, .error .resourceNotFound) := by
  have hn : fs.node? p = none := by
    unfold FS.exists at he
    simpa using he
  have hne : p.dropLast ≠ [] := by
    rintro h
    rw [h] at hp
    cases hp
  obtain ⟨d, c, hdc⟩ : ∃ d c, p.dropLast = d ++ [c] := by
    rcases List.eq_nil_or_concat p.dropLast with h | ⟨d, c, h⟩
    · exact absurd h hne
    · exact ⟨d, c, by rw [h, List.concat_eq_append]⟩
  rw [hdc] at hp
  unfold removePath removeNode remove
  simp only [hn, if_true, hdc, List.reverse_append, List.reverse_singleton, List.singleton_append]
  unfold removeEmpty removedir
  simp [hp]

/-- Images are for UFO 3: every call about images of an older UFO is refused with the exception of the library, and nothing changes. -/
theorem C63_version (w : World) (hv : w.1.version < 3) (name : Str) (data : Bytes) (validate : Bool) :
    writeImage w name data validate = (w, .error .ufoLibError) ∧ removeImage w name = (w, .error .ufoLibError) ∧
    ∀ fs version, version < 3 → readImage fs version name validate = .error .ufoLibError ∧ getImageDirectoryListing fs version validate = .ok [] := by
  refine ⟨by unfold writeImage; rw [if_pos hv], by unfold removeImage; rw [if_pos hv], fun fs version h => ⟨by unfold readImage; rw [if_pos h], by unfold getImageDirectoryListing; rw [if_pos h]⟩⟩

/-- With validation, files that are not PNG files are refused by the reader with the exception of the library. Without validation every file is read. -/
theorem C63_read_other (fs : FS) (version : Int) (hv : 3 ≤ version) (name : Str) (data : Bytes) (hd : fs.node? [c!"images"] = some .dir)
    (h : fs.getbytes [c!"images", name] = .ok data) : readImage fs version name false = .ok data ∧ (¬ Png data → readImage fs version name true = .error .ufoLibError) := by
  unfold readImage
  rw [if_neg (by omega), show imagesName = c!"images" from rfl, hd]
  dsimp only
  rw [h]
  refine ⟨by simp, fun hp => ?_⟩
  have : pngValidator data = false := by rw [← Bool.not_eq_true, pngValidator_iff]; exact hp
  simp [this]

/-- In `src95`, which has the files `data/org.x/a.txt` and `data/b.txt`: removing the first removes the directory `data/org.x` and leaves `data`. -/
example : (removePath src95 [c!"data", c!"org.x", c!"a.txt"] false true).2 = .ok () ∧ (removePath src95 [c!"data", c!"org.x", c!"a.txt"] false true).1.node? [c!"data"] = some .dir ∧
    (removePath src95 [c!"data", c!"org.x", c!"a.txt"] false true).1.node? [c!"data", c!"org.x"] ≠ some .dir := by
  obtain ⟨h1, h2⟩ := C66_remove_succeeds src95 tidy_src95 [c!"data", c!"org.x", c!"a.txt"] (by decide) (by decide +kernel) false true
  refine ⟨h1, (h2 [c!"data"] (by decide) (by decide) (by decide)).2 (.inr ⟨[c!"data", c!"b.txt"], by decide +kernel, by decide +kernel, by decide +kernel, by decide +kernel⟩), by decide +kernel⟩

example : (removePath src95 [c!"data", c!"nothing"] true true).2 = .ok () ∧ (removePath src95 [c!"nowhere", c!"a.txt"] true true).2 = .error .resourceNotFound :=
  ⟨C66_remove_force src95 tidy_src95 _ (by decide +kernel) (by decide +kernel), congrArg Prod.snd (C66_force_missing src95 _ (by decide +kernel) (by decide +kernel))⟩

/-- An image of `src95` that is no PNG file. -/
example : let fs := (writeBytesToPath false src95 [c!"images", c!"x.png"] [1]).1
    readImage fs 3 c!"x.png" false = .ok [1] ∧ readImage fs 3 c!"x.png" true = .error .ufoLibError :=
  have h := C63_read_other (writeBytesToPath false src95 [c!"images", c!"x.png"] [1]).1 3 (by decide) c!"x.png" [1] (by decide +kernel) (getbytes_ok.2 (by decide +kernel))
  ⟨h.1, h.2 (by rw [← pngValidator_iff]; decide)⟩

end Verif.Props
