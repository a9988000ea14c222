import Verif.Proofs.FileObjects
import Verif.Props.PathNames
/-! Open files: C105. -/
namespace Verif.Props
open Verif Verif.FS Verif.IO Verif.Ufo Verif.PathNames Verif.FileObjects Verif.Spec.PathNames Verif.Spec.FileObjects

/-- What opening a file for writing does: the file is at the place the string leads to; with `w` and `x` it is empty, with `a` it is as it was; with `x` there was nothing before;
the other files are as before, and the files of the UFO are a tree if they were one. -/
theorem C105_open (fs fs' : FS) (s : Str) (p : Path) (m : Mode) (f : File) (hs : Leads s p) (hm : m ≠ .r) (h : getFileObject fs s m = (fs', .ok (.file f))) :
    f.path = p ∧ f.mode = m ∧ fs'.getbytes p = .ok (before fs p m) ∧ (m = .x → fs.exists p = false) ∧
    (∀ q d, q.map fs.canon ≠ p.map fs.canon → (fs'.getbytes q = .ok d ↔ fs.getbytes q = .ok d)) ∧ (Tidy fs → Tidy fs') := by
  obtain ⟨rfl, g, -, o, x, t, -⟩ := getFileObject_spec ((resolve_iff s p).2 hs) hm h
  exact ⟨rfl, rfl, g, x, o, t⟩

/-- When a file can be opened for writing: nothing on the way is a file, there is no directory, and with `x` there is nothing. Missing directories are made. -/
theorem C105_success_partial (fs : FS) (ht : Tidy fs) (l : List Str) (hl : l ≠ []) (hn : ∀ c ∈ l, Name c) (m : Mode) (hm : m ≠ .r) :
    (∃ fs' f, getFileObject fs (join c!"/" l) m = (fs', .ok (.file f))) ↔
    (∀ pre d, pre <+: l → pre ≠ l → fs.node? pre ≠ some (.file d)) ∧ fs.node? l ≠ some .dir ∧ (m = .x → fs.exists l = false) := by
  have hr := resolve_join hl hn
  constructor
  · rintro ⟨fs', f, h⟩
    exact of_getFileObject ht hr hm h
  · rintro ⟨h1, h2, h3⟩
    exact getFileObject_of ht hr (dirOf_join hl hn) hm hl h1 h2 fun hx => node?_of_not_exists (h3 hx)

/-- Whatever is written, in pieces of any size, and whenever data goes to the disk: at every moment the file holds what it began with and after that a part of what has been written, from
its start; once the file is closed, all that was written before. -/
theorem C105_write (fs fs' : FS) (ht : Tidy fs) (s : Str) (p : Path) (m : Mode) (f : File) (hs : Leads s p) (hm : m ≠ .r) (h : getFileObject fs s m = (fs', .ok (.file f)))
    (es : List Event) (hu : Undisturbed (f, fs') es) :
    ∃ c, c <+: sent es ∧ (Closed es → c = sent es) ∧ (events (f, fs') es).2.getbytes p = .ok (before fs p m ++ c) := by
  obtain ⟨rfl, g, -, -, -, -, hd⟩ := getFileObject_spec ((resolve_iff s p).2 hs) hm h
  obtain ⟨c, h1, h2, h3⟩ := holds_run es (newFile p m, fs') (before fs p m) [] ⟨⟨[], by simpa [newFile] using g, rfl⟩, hd ht, rfl, hm⟩ hu
  exact ⟨c, by simpa using h1, by simpa using h2, h3⟩

/-- Writing to an open file and closing it concerns no other file. -/
theorem C105_alone (fs fs' : FS) (s : Str) (p : Path) (m : Mode) (f : File) (hs : Leads s p) (hm : m ≠ .r) (h : getFileObject fs s m = (fs', .ok (.file f)))
    (es : List Event) (ha : Alone es) (q : Path) (d : Bytes) (hq : q.map fs.canon ≠ p.map fs.canon) :
    Undisturbed (f, fs') es ∧ ((events (f, fs') es).2.getbytes q = .ok d ↔ fs.getbytes q = .ok d) := by
  obtain ⟨rfl, -, c, o, -, -, -⟩ := getFileObject_spec ((resolve_iff s p).2 hs) hm h
  refine ⟨undisturbed_of_alone _ _ ha, ?_⟩
  rw [← o q d hq]
  unfold FS.getbytes
  rw [(events_other es (newFile p m, fs') ha).2 q (by unfold FS.key; rw [c]; exact hq)]

/-- Opening a file anew, writing to it and closing it leaves what `writeBytesToPath` leaves. -/
theorem C105_same (fs fs' : FS) (s : Str) (p : Path) (f : File) (hs : Leads s p) (h : getFileObject fs s .w = (fs', .ok (.file f))) (es : List Event) (ha : Alone es) (hc : Closed es) :
    (writeBytesAt false fs s (sent es)).2 = .ok () ∧ ∀ q, (events (f, fs') es).2.node? q = (writeBytesAt false fs s (sent es)).1.node? q := by
  have hr := (resolve_iff s p).2 hs
  obtain ⟨rfl, g, c, -, -, -, -⟩ := getFileObject_spec hr (by simp) h
  -- the file has its place in a directory
  have key : ∀ fs1 : FS, fs1.setbytes p [] = .ok fs' → ∃ fs2 : FS, fs1.setbytes p (sent es) = .ok fs2 ∧ ∀ q, (events (newFile p .w, fs') es).2.node? q = fs2.node? q := by
    intro fs1 h1
    obtain ⟨-, h0, hnd, hd⟩ := setbytes_ok h1
    refine ⟨_, setbytes_of _ hd hnd, fun q => ?_⟩
    obtain ⟨c1, g1, -, o1⟩ := setbytes_files h1
    obtain ⟨c', i1, i2, i3⟩ := holds_run es (newFile p .w, fs') [] [] ⟨⟨[], by simpa [newFile] using g1, rfl⟩, setbytes_parent h1, rfl, by simp [newFile]⟩ (undisturbed_of_alone _ _ ha)
    rw [i2 hc] at i3
    rw [node?_write _ _ _ _ h0]
    have ek := (events_other es (newFile p .w, fs') ha)
    by_cases hq : fs1.key q = fs1.key p
    · rw [if_pos hq]
      have : (events (newFile p .w, fs') es).2.node? q = (events (newFile p .w, fs') es).2.node? p := by
        apply node?_eq
        unfold FS.key at hq ⊢
        rw [ek.1, c1]; exact hq
      rw [this]
      exact getbytes_ok.1 (by simpa [newFile] using i3)
    · rw [if_neg hq, ek.2 q (by unfold FS.key at hq ⊢; rw [c1]; exact hq), o1 q hq]
  unfold getFileObject at h
  unfold writeBytesAt
  rw [hr] at h ⊢
  dsimp only [openFile] at h ⊢
  rw [if_neg (by simp)]
  cases ho : fs.setbytes p [] with
  | ok fs2 =>
    rw [ho] at h
    cases h
    obtain ⟨fs2, k1, k2⟩ := key fs ho
    rw [k1]
    exact ⟨rfl, k2⟩
  | error e =>
    rw [ho] at h
    by_cases he : e = .resourceNotFound
    · subst he
      have hw : fs.setbytes p (sent es) = .error .resourceNotFound := by
        unfold FS.setbytes at ho ⊢
        split at ho
        · rfl
        · cases ho
        · split at ho <;> cases ho
      rw [hw]
      dsimp only at h ⊢
      rw [if_neg (by simp)] at h
      cases hm : fs.makedirs (dirOf s) with
      | error e => rw [hm] at h; cases h
      | ok fs1 =>
        rw [hm] at h
        dsimp only at h ⊢
        cases ho' : fs1.setbytes p [] with
        | error e => rw [ho'] at h; cases h
        | ok fs2 =>
          rw [ho'] at h
          cases h
          obtain ⟨fs2, k1, k2⟩ := key fs1 ho'
          rw [k1]
          exact ⟨rfl, k2⟩
    · cases e <;> first | exact absurd rfl he | (simp only [resourceError] at h; cases h)

/-- Reading: `None` exactly when `readBytesFromPath` has nothing, a file exactly when it has data, and the pieces read from the file, of any sizes, make up the data as far as they go;
reading changes nothing. -/
theorem C105_read (fs : FS) (s : Str) :
    (getReadFile fs s = .ok .none ↔ readBytesAt fs s = .ok none) ∧ (∀ d, readBytesAt fs s = .ok (some d) → ∃ f, getReadFile fs s = .ok (.file f)) ∧
    (∀ f, getReadFile fs s = .ok (.file f) → ∃ d, readBytesAt fs s = .ok (some d) ∧ ∀ ns, readPieces f fs ns = .ok (d.take ns.sum)) ∧
    (∀ e, getReadFile fs s = .error e ↔ readBytesAt fs s = .error e) ∧
    (getFileObject fs s .r).1 = fs ∧ ∀ f, (getFileObject fs s .r).2 = .ok f ↔ getReadFile fs s = .ok f ∨ (getReadFile fs s = .error .fileExpected ∧ f = .exception .ufoLibError) := by
  unfold getReadFile readBytesAt getFileObject
  cases hr : resolve s with
  | none => simp
  | some p =>
    dsimp only
    unfold openFile readBytesFromPath FS.getbytes
    cases hn : fs.node? p with
    | none => simp [eq_comm]
    | some n =>
      cases n with
      | dir => simp [resourceError, eq_comm]
      | file d =>
        refine ⟨by simp, by simp, fun f hf => ⟨d, rfl, fun ns => ?_⟩, by simp, rfl, by simp⟩
        cases hf
        have := readPieces_take fs d ns (newFile p .r) rfl rfl (getbytes_ok.2 hn)
        simpa [newFile] using this

/-- Text written to a file, in pieces, is the text read from it later. -/
theorem C105_text (fs fs' : FS) (ht : Tidy fs) (s : Str) (p : Path) (m : Mode) (f : File) (hs : Leads s p) (hm : m ≠ .r) (h : getFileObject fs s m = (fs', .ok (.file f)))
    (es : List Event) (hu : Undisturbed (f, fs') es) (hc : Closed es) (hw : ∀ e ∈ es, ∀ d, e ≠ .write d) (t : Str) (hb : before fs p m = utf8 t) :
    ∃ g, getReadFile (events (f, fs') es).2 s = .ok (.file g) ∧ readText g (events (f, fs') es).2 = .ok (t ++ texts es) := by
  obtain ⟨c, -, h2, h3⟩ := C105_write fs fs' ht s p m f hs hm h es hu
  rw [h2 hc, sent_texts es hw, hb, ← utf8_append] at h3
  refine ⟨newFile p .r, ?_, ?_⟩
  · unfold getReadFile
    rw [(resolve_iff s p).2 hs]
    dsimp only
    unfold openFile
    rw [h3]
  · unfold readText newFile
    dsimp only
    rw [h3]
    dsimp only
    rw [utf8Decode_utf8]

/-- The claim that `getFileObjectForPath` returns a file, `None` for reading what is not there, or raises fails: for a directory, and with `x` for what exists, it returns an exception as its value. -/
theorem C105_refuted : getFileObject fs103 c!"data" .w = (fs103, .ok (.exception .ufoLibError)) ∧ getFileObject fs103 c!"lib.plist" .x = (fs103, .ok (.exception .ufoLibError)) ∧
    getFileObject fs103 c!"data" .r = (fs103, .ok (.exception .ufoLibError)) := by
  refine ⟨rfl, rfl, rfl⟩

/-- Where the string is not written plainly opening can make a directory in the place of the file, and fail. -/
theorem C105_place_refuted : Leads c!"new/x/." [c!"new", c!"x"] ∧ (getFileObject fs103 c!"new/x/." .w).2.toOption = none ∧
    (getFileObject fs103 c!"new/x/." .w).1.isdir [c!"new", c!"x"] = true :=
  ⟨(resolve_iff _ _).1 (by decide +kernel), by decide +kernel, by decide +kernel⟩

/-! ### examples -/

/-- A file in a directory that is not there yet, written in pieces; some of the data goes to the disk early, and another file is written meanwhile. -/
def es105 : List Event := [.write [1, 2], .flush 1, .other ((getFileObject fs103 c!"log/new.txt" .w).1.perform (.write [c!"other"] [7])), .write [3], .close, .write [4]]

example : sent es105 = [1, 2, 3] := rfl

theorem opened105 : getFileObject fs103 c!"log/new.txt" .w = ((getFileObject fs103 c!"log/new.txt" .w).1, .ok (.file (newFile [c!"log", c!"new.txt"] .w))) := rfl

theorem leads105 : Leads c!"log/new.txt" [c!"log", c!"new.txt"] := (resolve_iff _ _).1 (by decide +kernel)

/-- Before the file is closed a part may be there, afterwards all of it. -/
example : let es := [Event.write [1, 2], .flush 1, .write [3], .close]
    (events (newFile [c!"log", c!"new.txt"] .w, (getFileObject fs103 c!"log/new.txt" .w).1) es).2.getbytes [c!"log", c!"new.txt"] = .ok [1, 2, 3] := by
  intro es
  have ha : Alone es := by intro e he fs; rintro rfl; simp [es] at he
  obtain ⟨c, -, h2, h3⟩ := C105_write fs103 _ tidy_fs103 _ _ .w _ leads105 (by simp) opened105 es (undisturbed_of_alone es _ ha)
  rw [h2 (by simp [es, Closed])] at h3
  exact h3

example : (events (newFile [c!"log", c!"new.txt"] .w, (getFileObject fs103 c!"log/new.txt" .w).1) [Event.write [1, 2], .flush 1, .write [3]]).2.getbytes [c!"log", c!"new.txt"] = .ok [1] := rfl

example : Undisturbed (newFile [c!"log", c!"new.txt"] .w, (getFileObject fs103 c!"log/new.txt" .w).1) [Event.write [1, 2], .other ((getFileObject fs103 c!"log/new.txt" .w).1.perform (.write [c!"other"] [7]))] :=
  ⟨⟨rfl, rfl⟩, trivial⟩

example : ∃ fs' f, getFileObject fs103 c!"log/new.txt" .x = (fs', .ok (.file f)) :=
  (C105_success_partial fs103 tidy_fs103 [c!"log", c!"new.txt"] (by simp) (by
    intro c hc
    simp only [List.mem_cons, List.not_mem_nil, or_false] at hc
    rcases hc with rfl | rfl <;> exact ⟨by decide, by decide, by decide, by decide⟩) .x (by simp)).2 ⟨by
      rintro pre d ⟨t, ht⟩ hne
      match pre, ht with
      | [], _ => simp [node?]
      | [a], ht => cases ht; rw [show fs103.node? [c!"log"] = none by decide +kernel]; simp
      | [a, b], ht => cases ht; exact absurd rfl hne, by decide +kernel, fun _ => by decide +kernel⟩

/-- Text added at the end of a file. -/
example : let r := getFileObject fs103 c!"data/b.txt" .a
    ∃ t, before fs103 [c!"data", c!"b.txt"] .a = utf8 t ∧ ∃ g, getReadFile (events (newFile [c!"data", c!"b.txt"] .a, r.1) [.writeText c!"é", .writeText c!"b", .close]).2 c!"data/b.txt" = .ok (.file g) ∧
      readText g (events (newFile [c!"data", c!"b.txt"] .a, r.1) [.writeText c!"é", .writeText c!"b", .close]).2 = .ok (t ++ c!"éb") := by
  intro r
  have hb : before fs103 [c!"data", c!"b.txt"] .a = utf8 [Char.ofNat 4] := by decide +kernel
  exact ⟨_, hb, C105_text fs103 r.1 tidy_fs103 c!"data/b.txt" _ .a _ ((resolve_iff _ _).1 (by decide +kernel)) (by simp) rfl
    [.writeText c!"é", .writeText c!"b", .close] trivial (by simp [Closed]) (by simp) _ hb⟩

example : getReadFile fs103 c!"missing" = .ok .none ∧ (getReadFile fs103 c!"data").toOption = none := ⟨rfl, rfl⟩

end Verif.Props
