import Verif.Props.UfoZip
import Verif.Proofs.UfoCopyDone
/-! Opening UFOs at a path, and closing twice: more about C74. -/
namespace Verif.Props
open Verif Verif.FS Verif.IO Verif.Ufo Verif.Spec.Ufo Verif.Spec.Plist

theorem supported_of {version : Int} (h : version = 1 ∨ version = 2 ∨ version = 3) : supported version = true := by
  rcases h with rfl | rfl | rfl <;> rfl

/-- A new UFO can be made wherever the parent directory exists, in every supported version. Without `structure` it is a package; an archive appears on `close`. -/
theorem C74_opens_new (F : FloatCodec) (hF : F.Lawful) (canon : Str → Str) (arg : StructureArg) (version : Int) (hv : version = 1 ∨ version = 2 ∨ version = 3) (creator : PyVal)
    (hcr : Storable creator) (validate : Bool) :
    ∃ t' h, openPath F canon .nothing true arg version creator validate = (t', .ok h) ∧ h.writer.version = version ∧ h.writer.layers = [] ∧
      (arg = .absent ∨ arg = .member .package → t' = .package h.fs) ∧ (arg = .member .zip → t' = .nothing) := by
  obtain ⟨fs', hw⟩ := writePlist_root F hF false (fs := ⟨canon, [], []⟩) (n := metainfoName) (storable_metaInfo hcr (supported_of hv)) (by simp [FS.node?, Dict.get?])
  have ho : openWriter F false ⟨canon, [], []⟩ version creator validate =
      (fs', .ok { version := version, layers := [], havePrevious := false, validate := validate, renameMap := none }) := by
    unfold openWriter
    simp [supported_of hv, previousVersion, initialLayers, FS.exists, FS.node?, Dict.get?, hw]
  unfold openPath
  rw [if_neg (by simp [supported_of hv])]
  unfold prepare
  simp only [Bool.true_eq_false, if_false, ho]
  refine ⟨_, _, rfl, rfl, rfl, ?_, ?_⟩
  · rintro (rfl | rfl) <;> rfl
  · rintro rfl; rfl

/-- A UFO that a reader opens, archive or package, can be opened for writing, in its own version or a later one: if it is a UFO 3, its layers must be readable. -/
theorem C74_opens (F : FloatCodec) (hF : F.Lawful) (canon : Str → Str) (t : Target) (dirOk : Bool) (fs : FS) (previous : Int) (hr : openReader F t true = .ok (fs, previous))
    (x : Structure) (hx : sniff t = .ok x) (arg : StructureArg) (ha : arg = .absent ∨ arg = .member x ∨ arg = .text (match x with | .zip => c!"zip" | .package => c!"package"))
    (version : Int) (hv : previous ≤ version ∧ version ≤ 3) (creator : PyVal) (hcr : Storable creator) (validate : Bool)
    (hl : previous = 3 → ∃ names, getLayerNames F fs 3 validate = .ok names) :
    ∃ t' h, openPath F canon t dirOk arg version creator validate = (t', .ok h) ∧ h.writer.version = version ∧ h.structure_ = .member x := by
  obtain ⟨h1, h2⟩ : readerFS t = .ok fs ∧ readMetaInfo F fs true = .ok previous := by
    unfold openReader at hr
    split at hr
    · cases hr
    · rename_i g hg
      split at hr
      · cases hr
      · rename_i v hm
        cases hr
        exact ⟨hg, hm⟩
  obtain ⟨k1, k2, -, data, k4⟩ := readMetaInfo_true h2
  have hsup : supported version = true := by
    have : supported previous = true := k1
    simp only [supported, Bool.or_eq_true, beq_iff_eq] at this ⊢
    omega
  have hp : prepare canon t dirOk arg = .ok (.member x, fs, true) := by
    have hex : existingStructure t arg = .ok x := by
      unfold existingStructure
      rw [hx]
      rcases ha with rfl | rfl | rfl
      · rfl
      · simp [toStructure]
      · cases x <;> rfl
    cases t with
    | nothing => cases hx
    | file => cases hx
    | package f => unfold prepare; simp only [hex, h1]
    | zip f => unfold prepare; simp only [hex, h1]
  obtain ⟨fs', hw⟩ := writePlist_root F hF true (storable_metaInfo hcr hsup) (node?_of_getbytes k4)
  obtain ⟨ls, hi⟩ : ∃ ls, initialLayers F fs (some previous) validate = .ok ls := by
    unfold initialLayers
    split
    · rename_i h3
      obtain ⟨names, hn⟩ := hl (by simp at h3; omega)
      unfold getLayerNames readLayers at hn
      split at hn
      · cases hn
      · rename_i tb ht
        rw [if_neg (by decide)] at ht
        rw [ht]
        exact ⟨_, rfl⟩
    · exact ⟨_, rfl⟩
  have ho : openWriter F true fs version creator validate = (fs', .ok { version := version, layers := ls, havePrevious := true, validate := validate, renameMap := none }) := by
    unfold openWriter
    rw [if_neg (by simp [hsup]), k2]
    simp only [Option.any_some, decide_eq_true_eq, show ¬ version < previous by omega, if_false, hi, hw]
  unfold openPath
  rw [if_neg (by simp [hsup]), hp]
  simp only [ho]
  exact ⟨_, _, rfl, rfl, rfl⟩

/-- What cannot be opened is refused with the exception of the library, and nothing changes: versions that do not exist, a path without a parent directory, a file that is no archive, and a string that names
no structure. Readers refuse files and paths where nothing is. -/
theorem C74_refused (F : FloatCodec) (canon : Str → Str) (t : Target) (dirOk : Bool) (arg : StructureArg) (version : Int) (creator : PyVal) (validate : Bool)
    (h : (version ≠ 1 ∧ version ≠ 2 ∧ version ≠ 3) ∨ (t = .nothing ∧ dirOk = false) ∨ t = .file ∨ (t ≠ .nothing ∧ ∃ s, arg = .text s ∧ s ≠ c!"zip" ∧ s ≠ c!"package")) :
    openPath F canon t dirOk arg version creator validate = (t, .error .ufoLibError) ∧
    (t = .nothing ∨ t = .file → openReader F t validate = .error .ufoLibError) := by
  refine ⟨?_, by rintro (rfl | rfl) <;> rfl⟩
  unfold openPath
  by_cases hs : supported version = false
  · rw [if_pos hs]
  · rw [if_neg hs]
    have hp : prepare canon t dirOk arg = .error .ufoLibError := by
      rcases h with h | ⟨rfl, rfl⟩ | rfl | ⟨hne, s, rfl, hz, hk⟩
      · simp [supported, h] at hs
      · rfl
      · rfl
      · have hex : existingStructure t (.text s) = .error .ufoLibError := by
          unfold existingStructure
          cases t <;> simp [sniff, toStructure, hz, hk]
        cases t with
        | nothing => exact absurd rfl hne
        | file => rfl
        | package f => unfold prepare; simp only [hex]
        | zip f => unfold prepare; simp only [hex]
    rw [hp]

/-- Closing again does nothing to packages and to archives that are new. An archive that existed is lost: the second `close` raises and leaves an archive that no reader opens. -/
theorem C74_again (E : FontInfo.Env) (L : Casing) (canon : Str → Str) (t t' : Target) (dirOk : Bool) (arg : StructureArg) (version : Int) (creator : PyVal) (h : Handle)
    (ho : openPath E.F canon t dirOk arg version creator true = (t', .ok h)) (ops : List Op) (base : Str) :
    let closed := (close base (calls E L (h, t') ops)).1
    ((∀ z, t ≠ .zip z) → (close base closed).2 = .ok () ∧ (close base closed).1.2 = closed.2) ∧
    ((∃ z, t = .zip z) → (close base closed).2 = .error .fsError ∧ ∀ v, (openReader E.F (close base closed).1.2 v).toOption = none) := by
  obtain ⟨fs0, previous, hp, hw, hcl, ht⟩ := openPath_ok ho
  obtain ⟨c1, c2, c3, -, -⟩ := calls_run E L ops (h, t')
  have hprev : (calls E L (h, t') ops).1.writer.havePrevious = previous := by
    rw [show (calls E L (h, t') ops).1.writer = (run E L (h.writer, h.fs) ops).1 from congrArg Prod.fst c1, (run_spec E L ops (h.writer, h.fs) (openWriter_layered hw)).1.previous]
    exact (openWriter_ok hw).2.2.2.2.1
  dsimp only at c2 c3
  rw [hcl] at c3
  generalize calls E L (h, t') ops = s at *
  intro closed
  by_cases hz : isZip s.1.structure_ = true
  · have he : closed = ({ s.1 with closed := true }, .zip (archive (base ++ c!".ufo") s.1.fs)) := by
      show (close base s).1 = _
      unfold close
      simp only [hz, c3, if_true, Bool.false_eq_true, if_false]
    rcases prepare_ok hp with ⟨rfl, rfl, -, -⟩ | ⟨rfl, -, x, hx, hs, -⟩
    · refine ⟨fun _ => ?_, fun ⟨z, h⟩ => by cases h⟩
      rw [he]
      unfold close
      simp [hz, hprev]
    · have hx' : x = .zip := by
        rw [c2, hs] at hz
        cases x
        · rfl
        · cases hz
      subst hx'
      obtain ⟨z, rfl⟩ : ∃ z, t = .zip z := by
        cases t with
        | zip z => exact ⟨z, rfl⟩
        | package f => cases hx
        | nothing => cases hx
        | file => cases hx
      refine ⟨fun hn => absurd rfl (hn z), fun _ => ?_⟩
      have hroot : base ++ c!".ufo" ≠ c!"__MACOSX" := fun e => by
        have := congrArg List.getLast? e
        rw [List.getLast?_append] at this
        simp at this
      have hc : close base closed = (({ s.1 with closed := true }, .zip (archive (base ++ c!".ufo") ⟨s.1.fs.canon, [], []⟩)), .error .fsError) := by
        rw [he]
        unfold close
        simp [hz, hprev]
      rw [hc]
      refine ⟨rfl, fun v => ?_⟩
      unfold openReader readerFS openRoot
      dsimp only
      rw [rootDirs_archive _ _ hroot]
      dsimp only
      rw [readMetaInfo_congr (fs := ⟨s.1.fs.canon, [], []⟩) (subFS_archive_node? _ _ _)]
      rfl
  · have hz : isZip s.1.structure_ = false := by simpa using hz
    have he : closed = ({ s.1 with closed := true }, s.2) := by
      show (close base s).1 = _
      unfold close
      simp [hz]
    refine ⟨fun _ => ?_, ?_⟩
    · rw [he]
      unfold close
      simp [hz]
    · rintro ⟨z, rfl⟩
      exfalso
      rcases prepare_ok hp with ⟨h, -⟩ | ⟨-, -, x, hx, hs, -⟩
      · cases h
      · cases hx
        rw [c2, hs] at hz
        cases hz

/-- The hypotheses hold for the archive `zip74`. -/
example : (∃ fs, openReader fractionCodec zip74 true = .ok (fs, 3) ∧ (getLayerNames fractionCodec fs 3 true).toOption = some [c!"public.default"]) ∧ sniff zip74 = .ok .zip ∧
    (openPath fractionCodec id zip74 true (.text c!"zip") 3 (.str c!"x") true).2.toOption.isSome = true := by
  refine ⟨?_, by decide +kernel, by decide +kernel⟩
  have h : (openReader fractionCodec zip74 true).toOption.map (fun r => (r.2, (getLayerNames fractionCodec r.1 3 true).toOption)) = some (3, some [c!"public.default"]) := by decide +kernel
  cases hr : openReader fractionCodec zip74 true with
  | error e => rw [hr] at h; cases h
  | ok r =>
    rw [hr] at h
    obtain ⟨fs, v⟩ := r
    simp only [Except.toOption, Option.map_some, Option.some.injEq, Prod.mk.injEq] at h
    obtain ⟨rfl, h⟩ := h
    exact ⟨fs, rfl, h⟩

/-- A package, an archive and a file. -/
example : (∃ t h, openPath fractionCodec id .nothing true .absent 2 (.str c!"x") true = (t, .ok h) ∧ t = .package h.fs) ∧
    openPath fractionCodec id .nothing true .absent 4 (.str c!"x") true = (.nothing, .error .ufoLibError) ∧
    openPath fractionCodec id .file true (.member .zip) 3 (.str c!"x") true = (.file, .error .ufoLibError) := by
  refine ⟨?_, (C74_refused _ _ _ _ _ _ _ _ (.inl (by decide))).1, (C74_refused _ _ _ _ _ _ _ _ (.inr (.inr (.inl rfl)))).1⟩
  obtain ⟨t, h, h1, -, -, h2, -⟩ := C74_opens_new fractionCodec fractionCodec_lawful id .absent 2 (by decide) (.str c!"x") ⟨.str _ ⟨by unfold XmlText; decide, by decide⟩, trivial⟩ true
  exact ⟨t, h, h1, h2 (.inl rfl)⟩

end Verif.Props
