import Verif.Spec.PlistPaths
import Verif.Proofs.FileObjects
import Verif.Props.PlistOptions
/-! The property list functions that take a path or an open file: C118. -/
namespace Verif.Props
open Verif Verif.FS Verif.FileObjects Verif.PlistPaths Verif.PlistOptions Verif.Spec.PlistPaths Verif.Spec.PlistOptions
open Verif.Spec.Plist (Same FileText TreeText)

theorem load_spec (F : FloatCodec) (builtin : Bool) (s : Proc) (fp : Option Nat) :
    (load F builtin s fp).1.fs = s.fs ∧ (load F builtin s fp).1.files.length = s.files.length ∧ (∀ i : Nat, fp ≠ some i → (load F builtin s fp).1.files[i]? = s.files[i]?) ∧
      ∀ (i : Nat) (f : File), s.files[i]? = some f → ∃ f' : File, (load F builtin s fp).1.files[i]? = some f' ∧ f'.closed = f.closed ∧ f'.path = f.path ∧ f'.mode = f.mode ∧ f'.pending = f.pending := by
  have triv : s.fs = s.fs ∧ s.files.length = s.files.length ∧ (∀ i : Nat, fp ≠ some i → s.files[i]? = s.files[i]?) ∧
      ∀ (i : Nat) (f : File), s.files[i]? = some f → ∃ f' : File, s.files[i]? = some f' ∧ f'.closed = f.closed ∧ f'.path = f.path ∧ f'.mode = f.mode ∧ f'.pending = f.pending :=
    ⟨rfl, rfl, fun _ _ => rfl, fun i f h => ⟨f, h, rfl, rfl, rfl, rfl⟩⟩
  cases fp with
  | none => exact triv
  | some k =>
    unfold load
    dsimp only
    split
    · exact triv
    · next f hf =>
      split
      · exact triv
      · next d hd =>
        split
        · exact triv
        · next f' b hr =>
          have hf' : f'.closed = f.closed ∧ f'.path = f.path ∧ f'.mode = f.mode ∧ f'.pending = f.pending := by
            unfold FileObjects.read at hr
            split at hr
            · cases hr
            · rw [hd] at hr; cases hr; exact ⟨rfl, rfl, rfl, rfl⟩
          refine ⟨rfl, by simp, fun i hi => by rw [List.getElem?_set_ne (fun e => hi (by rw [e]))], fun i g hg => ?_⟩
          by_cases e : k = i
          · subst e
            rw [hf] at hg; cases hg
            exact ⟨f', List.getElem?_set_self (List.getElem?_eq_some_iff.1 hf).1, hf'⟩
          · exact ⟨g, by rw [List.getElem?_set_ne e]; exact hg, rfl, rfl, rfl, rfl⟩

theorem dump_spec (F : FloatCodec) (o : Options) (v : PlVal) (s : Proc) (fp : Option Nat) :
    (dump F o v s fp).1.fs = s.fs ∧ (dump F o v s fp).1.files.length = s.files.length ∧ (∀ i : Nat, fp ≠ some i → (dump F o v s fp).1.files[i]? = s.files[i]?) ∧
      ∀ (i : Nat) (f : File), s.files[i]? = some f → ∃ f' : File, (dump F o v s fp).1.files[i]? = some f' ∧ f'.closed = f.closed ∧ f'.path = f.path ∧ f'.mode = f.mode := by
  have triv : s.fs = s.fs ∧ s.files.length = s.files.length ∧ (∀ i : Nat, fp ≠ some i → s.files[i]? = s.files[i]?) ∧
      ∀ (i : Nat) (f : File), s.files[i]? = some f → ∃ f' : File, s.files[i]? = some f' ∧ f'.closed = f.closed ∧ f'.path = f.path ∧ f'.mode = f.mode :=
    ⟨rfl, rfl, fun _ _ => rfl, fun i f h => ⟨f, h, rfl, rfl, rfl⟩⟩
  cases fp with
  | none => exact triv
  | some k =>
    unfold dump
    dsimp only
    split
    · exact triv
    · next f hf =>
      split
      · exact triv
      · next t ht =>
        have hev : (event (f, s.fs) (.write (utf8 t))).1.2 = s.fs ∧ (event (f, s.fs) (.write (utf8 t))).1.1.closed = f.closed ∧
            (event (f, s.fs) (.write (utf8 t))).1.1.path = f.path ∧ (event (f, s.fs) (.write (utf8 t))).1.1.mode = f.mode := by
          unfold event
          dsimp only
          split <;> exact ⟨rfl, rfl, rfl, rfl⟩
        refine ⟨hev.1, by simp, fun i hi => by dsimp only; rw [List.getElem?_set_ne (fun e => hi (by rw [e]))], fun i g hg => ?_⟩
        by_cases e : k = i
        · subst e
          rw [hf] at hg; cases hg
          exact ⟨_, List.getElem?_set_self (List.getElem?_eq_some_iff.1 hf).1, hev.2⟩
        · exact ⟨g, by dsimp only; rw [List.getElem?_set_ne e]; exact hg, rfl, rfl, rfl⟩

theorem open_spec {s s1 : Proc} {p : Path} {m : Mode} {i : Nat} (h : openPath s p m = (s1, .ok i)) :
    i = s.files.length ∧ s1.files = s.files ++ [newFile p m] ∧ openFile s.fs p m = .ok s1.fs := by
  unfold openPath at h
  split at h
  · cases h
  · next fs hfs => cases h; exact ⟨rfl, rfl, hfs⟩

theorem open_error {s s1 : Proc} {p : Path} {m : Mode} {e : Exc} (h : openPath s p m = (s1, .error e)) : s1 = s ∧ openFile s.fs p m = .error e := by
  unfold openPath at h
  split at h
  · next e' he => cases h; exact ⟨rfl, he⟩
  · cases h

theorem close_spec (s : Proc) (k : Nat) : (closeFile s (some k)).files.length = s.files.length ∧ (∀ i : Nat, k ≠ i → (closeFile s (some k)).files[i]? = s.files[i]?) ∧
    ∀ f : File, (closeFile s (some k)).files[k]? = some f → f.closed = true ∧ f.pending = [] := by
  unfold closeFile
  dsimp only
  split
  · next h => exact ⟨rfl, fun _ _ => rfl, fun f hf => by rw [h] at hf; cases hf⟩
  · next g hg =>
    refine ⟨by simp, fun i hi => by dsimp only; rw [List.getElem?_set_ne hi], fun f hf => ?_⟩
    dsimp only at hf
    rw [List.getElem?_set_self (List.getElem?_eq_some_iff.1 hg).1] at hf
    cases hf
    exact ⟨rfl, rfl⟩

/-- What opening a file for one call, using it and closing it does to the files of the caller. -/
theorem closes_of {s s1 s2 : Proc} {p : Path} {m : Mode} {k : Nat} (h : openPath s p m = (s1, .ok k)) (hl : s2.files.length = s1.files.length)
    (hk : ∀ i, k ≠ i → s2.files[i]? = s1.files[i]?) : Closes s (closeFile s2 (some k)) ∧ ∀ i : Nat, i < s.files.length → (closeFile s2 (some k)).files[i]? = s.files[i]? := by
  obtain ⟨rfl, h2, -⟩ := open_spec h
  obtain ⟨c1, c2, c3⟩ := close_spec s2 s.files.length
  have same : ∀ i : Nat, i < s.files.length → (closeFile s2 (some s.files.length)).files[i]? = s.files[i]? := by
    intro i hi
    have hne : s.files.length ≠ i := by omega
    rw [c2 i hne, hk i hne, h2, List.getElem?_append_left hi]
  refine ⟨⟨fun i f hf => ⟨f, ?_, rfl, rfl, rfl⟩, fun i f hi hf => ?_⟩, same⟩
  · rw [same i (List.getElem?_eq_some_iff.1 hf).1, hf]
  · have hlt := (List.getElem?_eq_some_iff.1 hf).1
    rw [c1, hl, h2] at hlt
    simp only [List.length_append, List.length_singleton] at hlt
    obtain rfl : i = s.files.length := by omega
    exact c3 f hf

theorem closes_refl (s : Proc) : Closes s s := ⟨fun i f h => ⟨f, h, rfl, rfl, rfl⟩, fun i f h hf => by
  have := (List.getElem?_eq_some_iff.1 hf).1; omega⟩

/-- C118. Whatever is read, and whether it is a property list or not: the file that `readPlist` opens is closed when it returns or raises; a file of the caller stays open; nothing on the disk and
no other file of the caller changes. -/
theorem C118_read_closes (F : FloatCodec) (s : Proc) (a : Arg) :
    Closes s (readPlist F s a).1 ∧ (readPlist F s a).1.fs = s.fs ∧ ∀ i : Nat, i < s.files.length → NotFile a i → (readPlist F s a).1.files[i]? = s.files[i]? := by
  cases a with
  | path p =>
    rcases ho : openPath s p .r with ⟨s1, e | k⟩
    · rw [show readPlist F s (.path p) = (s1, .error e) by simp only [readPlist, openArg, ho]]
      obtain ⟨rfl, -⟩ := open_error ho
      exact ⟨closes_refl _, rfl, fun _ _ _ => rfl⟩
    · rw [show readPlist F s (.path p) = (closeFile (load F false s1 (some k)).1 (some k), (load F false s1 (some k)).2) by simp only [readPlist, openArg, ho, if_true]]
      dsimp only
      obtain ⟨l1, l2, l3, l4⟩ := load_spec F false s1 (some k)
      obtain ⟨c1, c2⟩ := closes_of ho l2 (fun i hi => l3 i (fun e => hi (by cases e; rfl)))
      refine ⟨c1, ?_, fun i hi _ => c2 i hi⟩
      obtain ⟨rfl, h2, h3⟩ := open_spec ho
      have hfs : s1.fs = s.fs := by
        unfold openFile at h3
        dsimp only at h3
        split at h3
        · cases h3
        · injection h3 with h3; exact h3.symm
      unfold closeFile
      dsimp only
      obtain ⟨f', g1, g2, g3, g4, -⟩ := l4 s.files.length (newFile p .r) (by rw [h2]; simp)
      rw [g1]
      dsimp only [event]
      rw [g4, if_pos (by simp [newFile]), l1, hfs]
  | file k =>
    obtain ⟨l1, l2, l3, l4⟩ := load_spec F false s (some k)
    refine ⟨⟨fun i f hf => ?_, fun i f hi hf => ?_⟩, l1, fun i _ hn => l3 i (fun e => hn (by cases e; rfl))⟩
    · obtain ⟨f', g1, g2, g3, g4, -⟩ := l4 i f hf
      exact ⟨f', g1, g2, g3, g4⟩
    · have hlt := (List.getElem?_eq_some_iff.1 hf).1
      have : (readPlist F s (.file k)).1.files.length = s.files.length := l2
      omega
  | other => exact ⟨closes_refl _, rfl, fun _ _ _ => rfl⟩

/-- C118. The same of `writePlist`, for every value: what is at other paths is not touched, and for a file of the caller the disk is left to that file. -/
theorem C118_write_closes (F : FloatCodec) (comparable : List PlVal → Bool) (s : Proc) (v : PlVal) (a : Arg) :
    Closes s (writePlist F comparable s v a).1 ∧ (∀ q, (∀ p, a = .path p → s.fs.key q ≠ s.fs.key p) → (writePlist F comparable s v a).1.fs.node? q = s.fs.node? q) ∧
      ∀ i : Nat, i < s.files.length → NotFile a i → (writePlist F comparable s v a).1.files[i]? = s.files[i]? := by
  cases a with
  | path p =>
    rcases ho : openPath s p .w with ⟨s1, e | k⟩
    · rw [show writePlist F comparable s v (.path p) = (s1, .error e) by simp only [writePlist, openArg, ho]]
      obtain ⟨rfl, -⟩ := open_error ho
      exact ⟨closes_refl _, fun _ _ => rfl, fun _ _ _ => rfl⟩
    · rw [show writePlist F comparable s v (.path p) = (closeFile (dump F ⟨true, false, false, true, comparable⟩ v s1 (some k)).1 (some k), (dump F ⟨true, false, false, true, comparable⟩ v s1 (some k)).2) by simp only [writePlist, openArg, ho, if_true]]
      dsimp only
      obtain ⟨l1, l2, l3, l4⟩ := dump_spec F ⟨true, false, false, true, comparable⟩ v s1 (some k)
      obtain ⟨c1, c2⟩ := closes_of ho l2 (fun i hi => l3 i (fun e => hi (by cases e; rfl)))
      refine ⟨c1, fun q hq => ?_, fun i hi _ => c2 i hi⟩
      obtain ⟨rfl, h2, h3⟩ := open_spec ho
      obtain ⟨-, o2, o3, -⟩ := openFile_ok (by simp) h3
      unfold closeFile
      dsimp only
      obtain ⟨f', g1, g2, g3, g4⟩ := l4 s.files.length (newFile p .w) (by rw [h2]; simp)
      rw [g1]
      dsimp only [event]
      have hq' := hq p rfl
      have hkey : ∀ x, s1.fs.key x = s.fs.key x := fun x => by simp only [FS.key, o2]
      rw [l1]
      split
      · exact o3 q hq'
      · rw [(putBytes_other _ _ _).2 q (by rw [g3]; rw [hkey, hkey]; exact hq')]
        exact o3 q hq'
  | file k =>
    obtain ⟨l1, l2, l3, l4⟩ := dump_spec F ⟨true, false, false, true, comparable⟩ v s (some k)
    refine ⟨⟨fun i f hf => ?_, fun i f hi hf => ?_⟩, fun q _ => ?_, fun i _ hn => l3 i (fun e => hn (by cases e; rfl))⟩
    · exact l4 i f hf
    · have hlt := (List.getElem?_eq_some_iff.1 hf).1
      have : (writePlist F comparable s v (.file k)).1.files.length = s.files.length := l2
      omega
    · show (dump F ⟨true, false, false, true, comparable⟩ v s (some k)).1.fs.node? q = _
      rw [l1]
  | other => exact ⟨closes_refl _, fun _ _ => rfl, fun _ _ _ => rfl⟩

theorem parse_dumped {F : FloatCodec} (hF : F.Lawful) {comparable : List PlVal → Bool} {v : PlVal} {w : PyVal} (hv : Stored false false FileText v w) (hw : WellFormed v) :
    ∃ t w', dumps F ⟨true, false, false, true, comparable⟩ v = .ok t ∧ parseBytes F false (utf8 t) = .ok (readAs false w') ∧ Same w w' := by
  obtain ⟨t, w', h1, h2, h3⟩ := C100_deprecated_partial F hF comparable v w hv hw
  refine ⟨t, w', h1, ?_, h3⟩
  unfold parseBytes
  rw [utf8Decode_utf8]
  exact h2

/-- C118. Reading a path gives what the bytes of the file are. -/
theorem C118_read_path (F : FloatCodec) (s : Proc) (p : Path) : (readPlist F s (.path p)).2 = match s.fs.getbytes p with
    | .error e => .error e
    | .ok d => parseBytes F false d := by
  unfold readPlist openArg openPath openFile
  dsimp only
  cases hg : s.fs.getbytes p with
  | error e => rfl
  | ok d =>
    dsimp only
    unfold load
    simp [newFile, hg, FileObjects.read]

/-- C118. Reading an open file gives what the rest of its bytes are, and leaves nothing to be read. -/
theorem C118_read_file (F : FloatCodec) (s : Proc) (i : Nat) (f : File) (d : Bytes) (hf : s.files[i]? = some f) (ho : f.closed = false) (hm : f.mode = .r) (hd : s.fs.getbytes f.path = .ok d)
    (hp : f.position ≤ d.length) :
    readPlist F s (.file i) = ({ s with files := s.files.set i { f with position := d.length } }, parseBytes F false (d.drop f.position)) := by
  have ht : (d.drop f.position).take d.length = d.drop f.position := List.take_of_length_le (by simp)
  have hl : f.position + (d.drop f.position).length = d.length := by simp; omega
  unfold readPlist openArg
  dsimp only
  rw [if_neg (by simp)]
  unfold load
  simp only [hf, hd, FileObjects.read, ho, hm, ht, hl]
  rfl

theorem write_path (F : FloatCodec) (comparable : List PlVal → Bool) (s : Proc) (v : PlVal) (p : Path) (hd : s.fs.node? p.dropLast = some .dir) (hp : s.fs.node? p ≠ some .dir) :
    (writePlist F comparable s v (.path p)).2 = ((dumps F ⟨true, false, false, true, comparable⟩ v).map fun _ => ()) ∧
      (writePlist F comparable s v (.path p)).1.fs.getbytes p = .ok (match dumps F ⟨true, false, false, true, comparable⟩ v with | .ok t => utf8 t | .error _ => []) := by
  obtain ⟨fs1, h1⟩ := openFile_of (m := .w) hd hp (by simp) (by simp)
  obtain ⟨o1, o2, o3, -⟩ := openFile_ok (by simp) h1
  have hdir : fs1.node? p.dropLast = some .dir := setbytes_parent (show s.fs.setbytes p [] = .ok fs1 from h1)
  have o1' : fs1.getbytes p = .ok [] := by
    rw [o1]; unfold Spec.FileObjects.before; rfl
  have hop : openPath s p .w = (⟨s.files ++ [newFile p .w], fs1⟩, .ok s.files.length) := by unfold openPath; rw [h1]
  unfold writePlist openArg
  dsimp only
  rw [hop]
  dsimp only
  rw [if_pos rfl]
  unfold dump
  dsimp only
  rw [List.getElem?_concat_length]
  dsimp only
  cases ht : dumps F ⟨true, false, false, true, comparable⟩ v with
  | error e =>
    refine ⟨rfl, ?_⟩
    simp only [closeFile, List.getElem?_concat_length, event, newFile]
    have := (putBytes_spec o1' hdir []).1
    simpa using this
  | ok t =>
    refine ⟨rfl, ?_⟩
    have := (putBytes_spec o1' hdir (utf8 t)).1
    simpa [closeFile, event, newFile] using this

/-- C118. A value that `writePlist` has written to a path is read back from that path, as long as nothing else writes to the file. -/
theorem C118_path_partial (F : FloatCodec) (hF : F.Lawful) (comparable : List PlVal → Bool) (s : Proc) (v : PlVal) (w : PyVal) (hv : Stored false false FileText v w) (hw : WellFormed v)
    (p : Path) (hd : s.fs.node? p.dropLast = some .dir) (hp : s.fs.node? p ≠ some .dir) :
    (writePlist F comparable s v (.path p)).2 = .ok () ∧
      ∀ s2 : Proc, s2.fs.getbytes p = (writePlist F comparable s v (.path p)).1.fs.getbytes p → ∃ w', (readPlist F s2 (.path p)).2 = .ok (readAs false w') ∧ Same w w' := by
  obtain ⟨t, w', h1, h2, h3⟩ := parse_dumped hF (comparable := comparable) hv hw
  obtain ⟨k1, k2⟩ := write_path F comparable s v p hd hp
  rw [h1] at k1 k2
  refine ⟨k1, fun s2 h => ⟨w', ?_, h3⟩⟩
  rw [C118_read_path, h, k2]
  exact h2

/-- C118. What `writePlist` writes to an open file of the caller goes to its end when it is closed, after what was written before; from that place on it is read back. -/
theorem C118_file_partial (F : FloatCodec) (hF : F.Lawful) (comparable : List PlVal → Bool) (s : Proc) (v : PlVal) (w : PyVal) (hv : Stored false false FileText v w) (hw : WellFormed v)
    (i : Nat) (f : File) (base : Bytes) (hf : s.files[i]? = some f) (ho : f.closed = false) (hm : f.mode ≠ .r) (hb : s.fs.getbytes f.path = .ok base) (hd : s.fs.node? f.path.dropLast = some .dir) :
    (writePlist F comparable s v (.file i)).2 = .ok () ∧
      ∃ data w', (closeFile (writePlist F comparable s v (.file i)).1 (some i)).fs.getbytes f.path = .ok (base ++ f.pending ++ data) ∧ Same w w' ∧
        ∀ (s2 : Proc) (j : Nat), s2.fs.getbytes f.path = .ok (base ++ f.pending ++ data) → s2.files[j]? = some { newFile f.path .r with position := (base ++ f.pending).length } →
          (readPlist F s2 (.file j)).2 = .ok (readAs false w') := by
  obtain ⟨t, w', h1, h2, h3⟩ := parse_dumped hF (comparable := comparable) hv hw
  have hlt := (List.getElem?_eq_some_iff.1 hf).1
  have hopen : (f.closed || f.mode == .r) = false := by
    rw [ho]
    simp only [Bool.false_or]
    cases hmm : f.mode <;> first | rfl | exact absurd hmm hm
  have hw' : writePlist F comparable s v (.file i) = (⟨s.files.set i { f with pending := f.pending ++ utf8 t }, s.fs⟩, .ok ()) := by
    unfold writePlist openArg
    dsimp only
    rw [if_neg (by simp)]
    unfold dump
    dsimp only
    rw [hf]
    dsimp only
    rw [h1]
    dsimp only
    unfold event
    dsimp only
    rw [hopen]
    rfl
  rw [hw']
  refine ⟨rfl, utf8 t, w', ?_, h3, fun s2 j hs2 hj => ?_⟩
  · have := (putBytes_spec hb hd (f.pending ++ utf8 t)).1
    rw [← List.append_assoc] at this
    unfold closeFile
    dsimp only
    rw [List.getElem?_set_self hlt]
    dsimp only
    unfold event
    dsimp only
    rw [hopen]
    exact this
  · rw [C118_read_file F s2 j _ _ hj rfl rfl hs2 (by simp)]
    dsimp only
    rw [List.drop_left]
    exact h2

/-- C118. A value that is not a property list value is refused, and nothing has been written to a file of the caller. -/
theorem C118_refused_partial (F : FloatCodec) (comparable : List PlVal → Bool) (s : Proc) (v : PlVal) (hv : ∀ w, ¬ Stored false false (TreeText false) v w) (a : Arg) :
    (∃ e, (writePlist F comparable s v a).2 = .error e) ∧ ∀ i, a = .file i → (writePlist F comparable s v a).1 = s := by
  obtain ⟨e, he⟩ := C100_refuses F false ⟨true, false, false, true, comparable⟩ 1 v hv
  have hd : dumps F ⟨true, false, false, true, comparable⟩ v = .error e := by unfold dumps; rw [he]
  have hfp : ∀ (s1 : Proc) fp, (∃ x, (dump F ⟨true, false, false, true, comparable⟩ v s1 fp).2 = .error x) ∧ (dump F ⟨true, false, false, true, comparable⟩ v s1 fp).1 = s1 := by
    intro s1 fp
    cases fp with
    | none => exact ⟨⟨_, rfl⟩, rfl⟩
    | some k =>
      unfold dump
      dsimp only
      split
      · exact ⟨⟨_, rfl⟩, rfl⟩
      · rw [hd]; exact ⟨⟨_, rfl⟩, rfl⟩
  cases a with
  | path p =>
    refine ⟨?_, fun i h => by cases h⟩
    unfold writePlist
    rcases openArg s .w (.path p) with ⟨s1, x | ⟨fp, o⟩⟩
    · exact ⟨x, rfl⟩
    · exact (hfp s1 fp).1
  | file i => exact ⟨(hfp s (some i)).1, fun _ _ => (hfp s (some i)).2⟩
  | other => exact ⟨(hfp s none).1, fun i h => by cases h⟩

/-- C118 fails for paths: the file is opened, and so emptied, before the value is looked at. When a value is refused, the property list that was at the path is lost. -/
theorem C118_refuted (F : FloatCodec) (comparable : List PlVal → Bool) (s : Proc) (v : PlVal) (hv : ∀ w, ¬ Stored false false (TreeText false) v w) (p : Path) (hd : s.fs.node? p.dropLast = some .dir)
    (hp : s.fs.node? p ≠ some .dir) : (∃ e, (writePlist F comparable s v (.path p)).2 = .error e) ∧ (writePlist F comparable s v (.path p)).1.fs.getbytes p = .ok [] := by
  refine ⟨(C118_refused_partial F comparable s v hv (.path p)).1, ?_⟩
  obtain ⟨e, he⟩ := C100_refuses F false ⟨true, false, false, true, comparable⟩ 1 v hv
  have := (write_path F comparable s v p hd hp).2
  have hd : dumps F ⟨true, false, false, true, comparable⟩ v = .error e := by unfold dumps; rw [he]
  rw [hd] at this
  exact this

/-! ### an example -/

/-- A disk with a property list, and two files of the caller: one open for reading at its third byte, one open for writing with something kept back. -/
def proc118 : Proc :=
  ⟨[{ newFile [c!"a"] .r with position := 2 }, { newFile [c!"b"] .w with pending := [33] }],
    { canon := id, nodes := [([c!"a"], .file (utf8 c!"!!<plist><true/></plist>")), ([c!"b"], .file [32])], log := [] }⟩

/-- A value that can be stored. -/
def value118 : PlVal := .dict [(.str c!"k", .tuple [.data [0, 255], .int 7])]

theorem stored118 : Stored false false FileText value118 (.dict [(.str c!"k", .list [.bytes [0, 255], .int 7])]) ∧ WellFormed value118 := by
  have hx : ∀ s : Str, s.all isXmlChar = true → '\r' ∉ s → FileText s := fun s h h' => ⟨(Plist.xmlText_iff s).2 h, h'⟩
  refine ⟨.dict _ _ (.cons _ _ _ _ _ (hx _ (by decide) (by decide)) (.tuple _ _ (.cons _ _ _ _ (.data _) (.cons _ _ _ _ (.int _ (by decide)) .nil))) .nil), ?_⟩
  simp [value118, WellFormed, WellFormedItems, WellFormedList]

/-- Reading the first file from where it is. -/
example : ((readPlist fractionCodec proc118 (.file 0)).2.toOption matches some (.bool true)) = true ∧ ((readPlist fractionCodec proc118 (.file 0)).1.files.map File.closed) = [false, false] := by
  decide +kernel

/-- Reading a path that holds no property list: the parser refuses it, and the third file is closed. -/
example : (readPlist fractionCodec proc118 (.path [c!"a"])).2.toOption.isNone = true ∧ ((readPlist fractionCodec proc118 (.path [c!"a"])).1.files.map File.closed) = [false, false, true] := by
  decide +kernel

example (comparable : List PlVal → Bool) : (writePlist fractionCodec comparable proc118 value118 (.path [c!"a"])).2 = .ok () :=
  (C118_path_partial fractionCodec fractionCodec_lawful comparable proc118 value118 _ stored118.1 stored118.2 [c!"a"] rfl (by decide)).1

example (comparable : List PlVal → Bool) : ∃ data, (closeFile (writePlist fractionCodec comparable proc118 value118 (.file 1)).1 (some 1)).fs.getbytes [c!"b"] = .ok ([32] ++ [33] ++ data) := by
  obtain ⟨-, data, w', h, -⟩ := C118_file_partial fractionCodec fractionCodec_lawful comparable proc118 value118 _ stored118.1 stored118.2 1 _ [32] rfl rfl (by decide) rfl rfl
  exact ⟨data, h⟩

/-- A value that is refused: the file of the caller is as before, the file at the path is empty. -/
example (comparable : List PlVal → Bool) : (writePlist fractionCodec comparable proc118 .none (.file 1)).1 = proc118 ∧
    (writePlist fractionCodec comparable proc118 .none (.path [c!"a"])).1.fs.getbytes [c!"a"] = .ok [] := by
  have hn : ∀ w, ¬ Stored false false (TreeText false) .none w := fun w h => by cases h
  exact ⟨(C118_refused_partial fractionCodec comparable proc118 .none hn (.file 1)).2 1 rfl, (C118_refuted fractionCodec comparable proc118 .none hn [c!"a"] rfl (by decide)).2⟩

end Verif.Props
