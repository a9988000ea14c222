import Verif.Props.UfoVersion
import Verif.Proofs.UfoFiles
import Verif.Spec.FsObjects
/-! UFOs on file system objects that the program has made: C121. -/
namespace Verif.Props
open Verif Verif.FS Verif.IO Verif.Ufo Verif.Spec.Ufo Verif.Spec.Plist Verif.Spec.FsObjects Verif.Validators

theorem supported_iff (i : Int) : supported i = true ↔ i = 1 ∨ i = 2 ∨ i = 3 := by
  simp only [supported, Bool.or_eq_true, beq_iff_eq]
  tauto

theorem intOf_overflow (v : PyVal) : intOfVal v = .error .overflowError ↔ ∃ b, v = .float (.inf b) := by
  constructor
  · intro h
    unfold intOfVal at h
    split at h <;> first | exact ⟨_, rfl⟩ | cases h | (split at h <;> cases h)
  · rintro ⟨b, rfl⟩; rfl

/-- When the constructor closes the file system. -/
theorem closesFS_iff (F : FloatCodec) (fs : FS) : closesFS F true fs = true ↔ UnknownVersion F fs := by
  unfold closesFS UnknownVersion
  rw [Bool.true_and]
  constructor
  · intro h
    split at h
    · rename_i d hd
      refine ⟨d, _, hd, rfl, ?_⟩
      change (match intOfVal ((Dict.get? d (.str c!"formatVersion")).getD .none) with
        | .error .overflowError => false
        | .error _ => true
        | .ok i => !supported i) = true at h
      generalize (Dict.get? d (.str c!"formatVersion")).getD .none = v at h ⊢
      constructor
      · rintro b rfl
        cases h
      · intro i hi
        rw [hi] at h
        dsimp only at h
        have : supported i ≠ true := by simpa using h
        rw [Ne, supported_iff] at this
        tauto
    · cases h
  · rintro ⟨d, v, hd, hv, h1, h2⟩
    rw [show [metainfoName] = [c!"metainfo.plist"] from rfl, hd]
    dsimp only
    have hv' : (get d c!"formatVersion").getD .none = v := hv.symm
    rw [hv']
    split
    · rename_i h
      obtain ⟨b, hb⟩ := (intOf_overflow v).1 h
      exact absurd hb (h1 b)
    · rfl
    · rename_i i hi
      have := h2 i hi
      have : ¬ supported i = true := by rw [supported_iff]; tauto
      simpa using this

/-- Without a metainfo.plist there is no version. -/
theorem missing_unknown {F : FloatCodec} {fs : FS} (h : fs.exists [metainfoName] = false) : ¬ UnknownVersion F fs := by
  rintro ⟨d, v, hd, -⟩
  have : fs.node? [metainfoName] = none := by simpa [FS.exists] using h
  have hg : fs.getbytes [c!"metainfo.plist"] = .error .resourceNotFound := by
    unfold FS.getbytes
    rw [show fs.node? [c!"metainfo.plist"] = none from this]
  unfold getPlist at hd
  rw [hg] at hd
  cases hd

theorem closes_iff (F : FloatCodec) (fs : FS) : closesFS F (fs.exists [metainfoName]) fs = true ↔ UnknownVersion F fs := by
  cases h : fs.exists [metainfoName]
  · refine ⟨fun h' => ?_, fun h' => absurd h' (missing_unknown h)⟩
    rw [closesFS, Bool.false_and] at h'
    cases h'
  · exact closesFS_iff F fs

theorem known_of_read {F : FloatCodec} {fs : FS} {v : Int} (h : readMetaInfo F fs true = .ok v) : ¬ UnknownVersion F fs := by
  intro hu
  obtain ⟨hs, hp, -⟩ := readMetaInfo_true h
  obtain ⟨d, x, hd, hx, h1, h2⟩ := hu
  unfold previousVersion at hp
  rw [if_pos rfl] at hp
  rw [show [metainfoName] = [c!"metainfo.plist"] from rfl, hd] at hp
  dsimp only at hp
  have hx' : (get d c!"formatVersion").getD .none = x := hx.symm
  rw [hx'] at hp
  split at hp
  · cases hp
  · cases hp
  · rename_i i hi
    split at hp
    · cases hp
      have := h2 _ hi
      rw [supported_iff] at hs
      tauto
    · cases hp

/-- No value is read from an empty file. -/
theorem load_empty (F : FloatCodec) : ∃ e, loadBytes F [] = .error e := ⟨_, rfl⟩

theorem empty_unknown {F : FloatCodec} {fs : FS} (h : fs.getbytes [metainfoName] = .ok []) : ¬ UnknownVersion F fs := by
  rintro ⟨d, v, hd, -⟩
  obtain ⟨e, he⟩ := load_empty F
  unfold getPlist at hd
  rw [show [c!"metainfo.plist"] = [metainfoName] from rfl, h] at hd
  dsimp only at hd
  rw [he] at hd
  cases hd

/-- A refused opening does not make the version unknown. -/
theorem refused_known {F : FloatCodec} {fs fs' : FS} {version : Int} {creator : PyVal} {validate : Bool} {e : Exc}
    (h : openWriter F (fs.exists [metainfoName]) fs version creator validate = (fs', .error e)) (hk : ¬ UnknownVersion F fs) : ¬ UnknownVersion F fs' := by
  rcases openWriter_error h with rfl | ⟨-, h⟩
  · exact hk
  · cases hp : fs.exists [metainfoName]
    · rw [hp] at h
      unfold writePlist at h
      rw [if_neg (by decide)] at h
      split at h
      · cases h; exact hk
      · rename_i fs1 h1
        have h0 : ¬ UnknownVersion F fs1 := empty_unknown (setbytes_files h1).2.1
        split at h
        · cases h; exact h0
        · split at h
          · cases h; exact h0
          · cases h
    · rw [hp] at h
      rw [writePlist_previous h]
      exact hk

/-- `UFOReader`, `UFOWriter` and `GlyphSet` refuse an object that is closed, with their own exceptions, and nothing happens to it or its files. -/
theorem C121_closed (E : FontInfo.Env) (L : Casing) (fs : FS) :
    (∀ validate, readObject E.F ⟨fs, false⟩ validate = .error .ufoLibError) ∧
    (∀ version creator validate, writeObject E.F ⟨fs, false⟩ version creator validate = (⟨fs, false⟩, .error .ufoLibError)) ∧
    (∀ dir version validate, glyphsObject E.F ⟨fs, false⟩ dir version validate = .error .glifLibError) ∧
    ∀ us, (runUses E L ⟨fs, false⟩ us).1 = ⟨fs, false⟩ ∧ (runUses E L ⟨fs, false⟩ us).2.length = us.length ∧
      ∀ i : Nat, (runUses E L ⟨fs, false⟩ us).2[i]? = some true → us[i]? = some Use.close := by
  have hw : ∀ version creator validate, writeObject E.F ⟨fs, false⟩ version creator validate = (⟨fs, false⟩, .error .ufoLibError) := by
    intro version creator validate
    unfold writeObject
    split <;> rfl
  have hg : ∀ dir version validate, glyphsObject E.F ⟨fs, false⟩ dir version validate = .error .glifLibError := by
    intro dir version validate
    unfold glyphsObject
    split <;> rfl
  refine ⟨fun _ => rfl, hw, hg, fun us => ?_⟩
  induction us with
  | nil => exact ⟨rfl, rfl, fun i h => by simp [runUses] at h⟩
  | cons u us ih =>
    have hu : (u.run E L ⟨fs, false⟩).1 = ⟨fs, false⟩ ∧ ((u.run E L ⟨fs, false⟩).2 = true → u = .close) := by
      cases u with
      | read v => exact ⟨rfl, fun h => by cases h⟩
      | write version creator validate ops =>
        unfold Use.run
        dsimp only
        rw [hw]
        exact ⟨rfl, fun h => by cases h⟩
      | glyphs dir version validate =>
        unfold Use.run
        dsimp only
        rw [hg]
        exact ⟨rfl, fun h => by cases h⟩
      | close => exact ⟨rfl, fun _ => rfl⟩
    unfold runUses
    dsimp only
    rw [hu.1]
    refine ⟨ih.1, by simp [ih.2.1], fun i h => ?_⟩
    cases i with
    | zero => simp at h; simp [hu.2 h]
    | succ i => simpa using ih.2.2 i (by simpa using h)

/-- An open object after `UFOWriter(filesystem)`: it is closed if and only if the format version in its metainfo.plist is unknown (and the version asked for is a supported one); the
constructor raises `UFOLibError` then, and the files are unchanged. -/
theorem C121_opened (F : FloatCodec) (fs : FS) (version : Int) (creator : PyVal) (validate : Bool) :
    ((writeObject F ⟨fs, true⟩ version creator validate).1.isOpen = false ↔ (version = 1 ∨ version = 2 ∨ version = 3) ∧ UnknownVersion F fs) ∧
    (UnknownVersion F fs → (writeObject F ⟨fs, true⟩ version creator validate).2 = .error .ufoLibError ∧ (writeObject F ⟨fs, true⟩ version creator validate).1.fs = fs) := by
  constructor
  · rw [← supported_iff, ← closes_iff]
    unfold writeObject
    split
    · rename_i h
      simp [h]
    · rename_i h
      simp [h]
  · intro hu
    have hc := (closes_iff F fs).2 hu
    unfold writeObject
    split
    · exact ⟨rfl, rfl⟩
    · rw [if_neg (by simp)]
      dsimp only
      have hp : fs.exists [metainfoName] = true := by
        cases h : fs.exists [metainfoName]
        · exact absurd hu (missing_unknown h)
        · rfl
      have hv : previousVersion F (fs.exists [metainfoName]) fs = .error .ufoLibError := by
        obtain ⟨d, x, hd, hx, h1, h2⟩ := hu
        unfold previousVersion
        rw [hp, if_pos rfl, show [metainfoName] = [c!"metainfo.plist"] from rfl, hd]
        dsimp only
        rw [show (get d c!"formatVersion").getD .none = x from hx.symm]
        split
        · rename_i h
          obtain ⟨b, hb⟩ := (intOf_overflow x).1 h
          exact absurd hb (h1 b)
        · rfl
        · rename_i i hi
          rw [if_neg]
          rw [supported_iff]
          have := h2 i hi
          tauto
      have ho : openWriter F (fs.exists [metainfoName]) fs version creator validate = (fs, .error .ufoLibError) := by
        unfold openWriter
        rw [hv]
        split <;> rfl
      rw [ho]
      exact ⟨rfl, rfl⟩

/-- An object whose format version is not unknown stays open whatever readers, writers and glyph sets are opened, used and closed on it, in any order, whether they succeed or raise;
its files are those that the writers leave, as if each had been given the files alone. -/
theorem C121_open_partial (E : FontInfo.Env) (hF : E.F.Lawful) (L : Casing) : ∀ (us : List Use) (fs : FS), ¬ UnknownVersion E.F fs →
    (∀ u ∈ us, match u with
      | .write _ creator validate ops => ((∃ t, creator = .str t) ∨ Storable creator) ∧ (validate = true ∨ ops = []) ∧ ∀ op ∈ ops, Spares fs.canon c!"metainfo.plist" op
      | .close => False
      | _ => True) →
    (runUses E L ⟨fs, true⟩ us).1 = ⟨(runSessions E L fs (sessions us)).1, true⟩ ∧ ¬ UnknownVersion E.F (runSessions E L fs (sessions us)).1
  | [], fs, hk, _ => ⟨rfl, hk⟩
  | u :: us, fs, hk, h => by
    have hu := h u (by simp)
    have ht := fun x hx => h x (List.mem_cons_of_mem _ hx)
    cases u with
    | read v => exact C121_open_partial E hF L us fs hk ht
    | glyphs dir version v => exact C121_open_partial E hF L us fs hk ht
    | close => exact hu.elim
    | write version creator validate ops =>
      obtain ⟨g1, g2, g3⟩ := hu
      let s : Session := ⟨false, version, creator, validate, ops⟩
      obtain ⟨hcan, hcase⟩ := session_spec E hF L s fs none (fun _ h => by cases h) g1.symm g2 g3
      have hrun : (Use.run E L ⟨fs, true⟩ (.write version creator validate ops)).1 = ⟨(s.run E L fs).1, true⟩ ∧ ¬ UnknownVersion E.F (s.run E L fs).1 := by
        have hcl : closesFS E.F (fs.exists [metainfoName]) fs = false := by
          cases hc : closesFS E.F (fs.exists [metainfoName]) fs
          · rfl
          · exact absurd ((closes_iff E.F fs).1 hc) hk
        have hw : writeObject E.F ⟨fs, true⟩ version creator validate = (⟨(s.open E fs).1, true⟩, (s.open E fs).2) := by
          have hh : s.havePrevious fs = fs.exists [metainfoName] := Bool.false_or _
          unfold writeObject Session.open
          rw [hh]
          split
          · rename_i hs
            unfold openWriter
            rw [if_pos hs]
          · rw [if_neg (by simp)]
            dsimp only
            rw [hcl]
            rfl
        constructor
        · unfold Use.run Session.run
          dsimp only
          rw [hw]
          cases hr : s.open E fs with
          | mk fs' r => cases r <;> rfl
        · rcases hcase with ⟨-, h2, -⟩ | ⟨h1, -⟩
          · exact known_of_read (h2 _ rfl)
          · unfold Session.run at h1 ⊢
            split
            · rename_i fs' e ho
              have hh : s.havePrevious fs = fs.exists [metainfoName] := Bool.false_or _
              unfold Session.open at ho
              rw [hh] at ho
              exact refused_known ho hk
            · rename_i fs' w ho
              rw [ho] at h1
              cases h1
      have ih := C121_open_partial E hF L us (s.run E L fs).1 hrun.2 (by rw [hcan]; exact ht)
      have e1 : (runUses E L ⟨fs, true⟩ (.write version creator validate ops :: us)).1 = (runUses E L (Use.run E L ⟨fs, true⟩ (.write version creator validate ops)).1 us).1 := rfl
      have e2 : (runSessions E L fs (sessions (.write version creator validate ops :: us))).1 = (runSessions E L (s.run E L fs).1 (sessions us)).1 := rfl
      rw [e1, e2, hrun.1]
      exact ih

/-- A writer for an object and a writer for the path of a directory with the same files: if there is a metainfo.plist they come to the same. -/
theorem C121_path (F : FloatCodec) (canon : Str → Str) (fs : FS) (hm : fs.exists [c!"metainfo.plist"] = true) (dirOk : Bool) (version : Int) (creator : PyVal) (validate : Bool) :
    (openPath F canon (.package fs) dirOk .absent version creator validate).1 = .package (writeObject F ⟨fs, true⟩ version creator validate).1.fs ∧
    (openPath F canon (.package fs) dirOk .absent version creator validate).2.map (fun h => (h.writer, h.fs)) =
      (writeObject F ⟨fs, true⟩ version creator validate).2.map (fun w => (w, (writeObject F ⟨fs, true⟩ version creator validate).1.fs)) := by
  have hm : fs.exists [metainfoName] = true := hm
  have h2 : prepare canon (.package fs) dirOk .absent = .ok (.member .package, fs, true) := rfl
  unfold openPath writeObject
  rw [h2]
  split
  · exact ⟨rfl, rfl⟩
  · rw [if_neg (by simp), hm]
    dsimp only
    refine ⟨rfl, ?_⟩
    cases (openWriter F true fs version creator validate).2 <;> rfl

/-- If there is none, the path is refused, even if the directory is empty, while the object is taken for a new UFO. -/
theorem C121_missing (F : FloatCodec) (canon : Str → Str) (fs : FS) (hm : fs.exists [c!"metainfo.plist"] = false) (dirOk : Bool) (version : Int) (creator : PyVal) (validate : Bool) :
    openPath F canon (.package fs) dirOk .absent version creator validate = (.package fs, .error .ufoLibError) ∧
    ((version = 1 ∨ version = 2 ∨ version = 3) → (∃ data, dumpBytes F (metaInfo creator version) = .ok data) →
      ∃ w, (writeObject F ⟨fs, true⟩ version creator validate).2 = .ok w ∧ (writeObject F ⟨fs, true⟩ version creator validate).1.isOpen = true ∧
        w.havePrevious = false ∧ w.version = version) := by
  have hm' : fs.exists [metainfoName] = false := hm
  have hnode : fs.node? [metainfoName] = none := by simpa [FS.exists] using hm'
  constructor
  · have h2 : prepare canon (.package fs) dirOk .absent = .ok (.member .package, fs, true) := rfl
    have hg : getPlist F fs [metainfoName] none = .error .ufoLibError := by
      have : fs.getbytes [metainfoName] = .error .resourceNotFound := by unfold FS.getbytes; rw [hnode]
      unfold getPlist
      rw [this]
    have ho : openWriter F true fs version creator validate = (fs, .error .ufoLibError) := by
      unfold openWriter previousVersion
      rw [if_pos rfl, hg]
      split <;> rfl
    unfold openPath
    rw [h2]
    split
    · rfl
    · dsimp only
      rw [ho]
      rfl
  · rintro hv ⟨data, hd⟩
    have hs := (supported_iff version).2 hv
    have hroot : fs.node? [metainfoName].dropLast = some .dir := rfl
    obtain ⟨fs1, h1⟩ : ∃ fs1, fs.setbytes [metainfoName] [] = .ok fs1 := by
      unfold FS.setbytes
      rw [hroot, hnode]
      exact ⟨_, rfl⟩
    obtain ⟨fs2, h2⟩ : ∃ fs2, fs1.setbytes [metainfoName] data = .ok fs2 := by
      have hb := getbytes_ok.1 (setbytes_files h1).2.1
      unfold FS.setbytes
      rw [show fs1.node? [metainfoName].dropLast = some .dir from rfl, hb]
      exact ⟨_, rfl⟩
    have hw : writePlist F false fs [metainfoName] (metaInfo creator version) = (fs2, .ok ()) := by
      unfold writePlist
      rw [if_neg (by decide), h1]
      dsimp only
      rw [hd]
      dsimp only
      rw [h2]
    have ho : ∃ w, openWriter F false fs version creator validate = (fs2, .ok w) ∧ w.havePrevious = false ∧ w.version = version := by
      unfold openWriter
      rw [if_neg (by simp [hs])]
      unfold previousVersion
      rw [if_neg (by decide)]
      dsimp only [Option.any]
      rw [if_neg (by decide)]
      unfold initialLayers
      dsimp only [Option.any]
      rw [if_neg (by decide)]
      dsimp only
      rw [hw]
      exact ⟨_, rfl, rfl, rfl⟩
    obtain ⟨w, ho, w1, w2⟩ := ho
    refine ⟨w, ?_⟩
    unfold writeObject
    rw [if_neg (by simp [hs]), if_neg (by simp)]
    dsimp only
    rw [hm', ho]
    exact ⟨rfl, rfl, w1, w2⟩

/-- An object with a UFO of a version to come. -/
def future121 : FsObject := ⟨⟨id, [([c!"metainfo.plist"], .file ((dumpBytes fractionCodec (metaInfo (.str c!"x") 4)).toOption.getD []))], []⟩, true⟩

/-- The object is the program's, which has to close it itself. But a writer closes it when it finds an unknown version: afterwards not even a reader can be opened that could be opened before. -/
theorem C121_refuted : readObject fractionCodec future121 false = .ok 4 ∧
    (writeObject fractionCodec future121 3 (.str c!"x") true).1.isOpen = false ∧
    (runUses env57 asciiCasing future121 [.read false, .write 3 (.str c!"x") true [], .read false]).2 = [true, false, false] := by decide +kernel

/-- An object without files; a UFO is made, read, and changed on it. -/
def uses121 : List Use := [.read true, .write 2 (.str c!"x") true [.lib (.dict [(.str c!"a", .int 1)]) true], .write 1 (.str c!"x") true [], .read true,
  .write 3 (.str c!"y") true [.glyphSet none true true, .layerContents none true], .glyphs [c!"glyphs"] 3 true, .read true]

example : ¬ UnknownVersion fractionCodec ⟨id, [], []⟩ := missing_unknown rfl

example : (runUses env57 asciiCasing ⟨⟨id, [], []⟩, true⟩ uses121).2 = [false, true, false, true, true, true, true] ∧
    (runUses env57 asciiCasing ⟨⟨id, [], []⟩, true⟩ uses121).1.isOpen = true ∧
    readObject fractionCodec (runUses env57 asciiCasing ⟨⟨id, [], []⟩, true⟩ uses121).1 true = .ok 3 := by decide +kernel

example : ∀ u ∈ uses121, match u with
      | .write _ creator validate ops => ((∃ t, creator = .str t) ∨ Storable creator) ∧ (validate = true ∨ ops = []) ∧ ∀ op ∈ ops, Spares (id : Str → Str) c!"metainfo.plist" op
      | .close => False
      | _ => True := by
  have h1 : Spares (id : Str → Str) c!"metainfo.plist" (.lib (.dict [(.str c!"a", .int 1)]) true) :=
    spares_of keepsApart_id (by decide) (fun c hc => by cases hc; exact .inl (by decide)) (fun hc => by cases hc)
  have h2 : Spares (id : Str → Str) c!"metainfo.plist" (.glyphSet none true true) :=
    spares_of keepsApart_id (by decide) (fun c hc => by cases hc with | glyphSet h => exact .inr h) (fun hc => by cases hc with | glyphSet h => exact absurd h (by decide))
  have h3 : Spares (id : Str → Str) c!"metainfo.plist" (.layerContents none true) :=
    spares_of keepsApart_id (by decide) (fun c hc => by cases hc; exact .inl (by decide)) (fun hc => by cases hc)
  intro u hu
  simp only [uses121, List.mem_cons, List.not_mem_nil, or_false] at hu
  rcases hu with rfl | rfl | rfl | rfl | rfl | rfl | rfl
  · trivial
  · refine ⟨.inl ⟨_, rfl⟩, .inl rfl, ?_⟩
    intro op ho
    rw [List.mem_singleton.1 ho]
    exact h1
  · exact ⟨.inl ⟨_, rfl⟩, .inl rfl, by simp⟩
  · trivial
  · refine ⟨.inl ⟨_, rfl⟩, .inl rfl, ?_⟩
    intro op ho
    simp only [List.mem_cons, List.not_mem_nil, or_false] at ho
    rcases ho with rfl | rfl
    · exact h2
    · exact h3
  · trivial
  · trivial

end Verif.Props
