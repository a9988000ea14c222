import Verif.Proofs.UfoZip
import Verif.Props.UfoVersion
/-! UFOs in zip archives: C74. -/
namespace Verif.Props
open Verif Verif.FS Verif.IO Verif.Ufo Verif.Spec.Ufo Verif.Spec.Plist

/-- An existing archive stays as it is while a writer is opened and used, whatever is called and whether or not calls raise: only `close` changes it. -/
theorem C74_untouched (E : FontInfo.Env) (L : Casing) (canon : Str → Str) (z : FS) (dirOk : Bool) (arg : StructureArg) (version : Int) (creator : PyVal) (validate : Bool) :
    (openPath E.F canon (.zip z) dirOk arg version creator validate).1 = .zip z ∧
    ∀ h, (openPath E.F canon (.zip z) dirOk arg version creator validate).2 = .ok h → ∀ ops, (calls E L (h, .zip z) ops).2 = .zip z := by
  have hz : ∀ s fs p, prepare canon (.zip z) dirOk arg = .ok (s, fs, p) → isZip s = true := by
    intro s fs p hp
    rcases prepare_ok hp with ⟨h, -⟩ | ⟨-, -, x, hx, rfl, -⟩
    · cases h
    · cases hx; rfl
  constructor
  · unfold openPath
    split
    · rfl
    · split
      · rfl
      · rename_i s fs p hp
        dsimp only
        rw [if_pos (hz _ _ _ hp)]
  · intro h hh ops
    obtain ⟨fs, p, hp, -⟩ := openPath_ok (Prod.ext rfl hh)
    exact (calls_run E L ops (h, .zip z)).2.2.2.1 (hz _ _ _ hp)

/-- A new archive does not appear before `close`. -/
theorem C74_new_untouched (E : FontInfo.Env) (L : Casing) (canon : Str → Str) (dirOk : Bool) (version : Int) (creator : PyVal) (validate : Bool) :
    (openPath E.F canon .nothing dirOk (.member .zip) version creator validate).1 = .nothing ∧
    ∀ h, (openPath E.F canon .nothing dirOk (.member .zip) version creator validate).2 = .ok h → ∀ ops, (calls E L (h, .nothing) ops).2 = .nothing := by
  have hz : ∀ s fs p, prepare canon .nothing dirOk (.member .zip) = .ok (s, fs, p) → isZip s = true := by
    intro s fs p hp
    rcases prepare_ok hp with ⟨-, -, -, rfl⟩ | ⟨-, -, x, hx, -⟩
    · rfl
    · cases hx
  constructor
  · unfold openPath
    split
    · rfl
    · split
      · rfl
      · rename_i s fs p hp
        dsimp only
        rw [if_pos (hz _ _ _ hp)]
  · intro h hh ops
    obtain ⟨fs, p, hp, -⟩ := openPath_ok (Prod.ext rfl hh)
    exact (calls_run E L ops (h, .nothing)).2.2.2.1 (hz _ _ _ hp)

/-- After `close`, a reader finds in the archive (or the package) exactly the files the writer left, and the version written. -/
theorem C74_close (E : FontInfo.Env) (hF : E.F.Lawful) (L : Casing) (canon : Str → Str) (t t' : Target) (dirOk : Bool) (arg : StructureArg) (version : Int) (creator : PyVal)
    (hc : (∃ s, creator = .str s) ∨ Storable creator) (h : Handle) (ho : openPath E.F canon t dirOk arg version creator true = (t', .ok h)) (ops : List Op)
    (hops : ∀ op ∈ ops, Spares h.fs.canon c!"metainfo.plist" op) (base : Str) (validate : Bool) :
    (close base (calls E L (h, t') ops)).2 = .ok () ∧
    ∃ fs, openReader E.F (close base (calls E L (h, t') ops)).1.2 validate = .ok (fs, version) ∧ fs.canon = h.fs.canon ∧
      ∀ p, fs.node? p = (run E L (h.writer, h.fs) ops).2.node? p := by
  obtain ⟨fs0, previous, hp, hw, hcl, ht⟩ := openPath_ok ho
  obtain ⟨c1, c2, c3, c4, c5⟩ := calls_run E L ops (h, t')
  have hcan : (run E L (h.writer, h.fs) ops).2.canon = h.fs.canon := (run_spec E L ops (h.writer, h.fs) (openWriter_layered hw)).2.2.canon
  have hver := opened_version E hF L hw hc.symm ops hops validate
  have hfs : (calls E L (h, t') ops).1.fs = (run E L (h.writer, h.fs) ops).2 := congrArg Prod.snd c1
  unfold close
  dsimp only
  rw [c2, c3, hfs]
  dsimp only
  by_cases hz : isZip h.structure_ = true
  · rw [if_pos hz, hcl, if_neg (by decide)]
    refine ⟨rfl, subFS (archive (base ++ c!".ufo") (run E L (h.writer, h.fs) ops).2) (base ++ c!".ufo"), ?_, hcan, subFS_archive_node? _ _⟩
    have hroot : base ++ c!".ufo" ≠ c!"__MACOSX" := fun e => by
      have := congrArg List.getLast? e
      rw [List.getLast?_append] at this
      simp at this
    unfold openReader readerFS openRoot
    dsimp only
    rw [rootDirs_archive _ _ hroot]
    dsimp only
    rw [readMetaInfo_congr (subFS_archive_node? _ _ _), hver]
  · have hz : isZip h.structure_ = false := by simpa using hz
    rw [if_neg (by simp [hz])]
    rw [hz, if_neg (by decide)] at ht
    refine ⟨rfl, (run E L (h.writer, h.fs) ops).2, ?_, hcan, fun _ => rfl⟩
    rw [c5 hz ht, hfs]
    unfold openReader readerFS
    dsimp only
    rw [hver]

/-- An archive is like the package that holds the same files: opening gives the same outcome and the same writer, and so every call does. -/
theorem C74_like_package (E : FontInfo.Env) (L : Casing) (canon : Str → Str) (z fs : FS) (hz : readerFS (.zip z) = .ok fs) (version : Int) (creator : PyVal) (validate dirOk : Bool) :
    (openPath E.F canon (.zip z) dirOk .absent version creator validate).2.map (fun h => (h.writer, h.fs)) =
      (openPath E.F canon (.package fs) dirOk .absent version creator validate).2.map (fun h => (h.writer, h.fs)) ∧
    (∀ b, openReader E.F (.zip z) b = openReader E.F (.package fs) b) ∧
    ∀ h h' : Handle, h.writer = h'.writer → h.fs = h'.fs → ∀ t t' ops op, (call E L (calls E L (h, t) ops) op).2 = (call E L (calls E L (h', t') ops) op).2 := by
  refine ⟨?_, fun b => ?_, fun h h' e1 e2 t t' ops op => ?_⟩
  · have h1 : prepare canon (.zip z) dirOk .absent = .ok (.member .zip, fs, true) := by
      unfold prepare existingStructure sniff
      dsimp only
      rw [hz]
    have h2 : prepare canon (.package fs) dirOk .absent = .ok (.member .package, fs, true) := rfl
    unfold openPath
    rw [h1, h2]
    split
    · rfl
    · dsimp only
      cases (openWriter E.F true fs version creator validate).2 <;> rfl
  · unfold openReader
    rw [hz]
    rfl
  · have c1 := (calls_run E L ops (h, t)).1
    have c2 := (calls_run E L ops (h', t')).1
    dsimp only at c1 c2
    rw [e1, e2, ← c2] at c1
    unfold call
    dsimp only
    rw [c1]

/-- The structure of an existing UFO is never changed: asking for another structure is refused and changes nothing. -/
theorem C74_structure (F : FloatCodec) (canon : Str → Str) (t : Target) (dirOk : Bool) (arg : StructureArg) (version : Int) (creator : PyVal) (validate : Bool) :
    (∀ t' h, openPath F canon t dirOk arg version creator validate = (t', .ok h) → t ≠ .nothing → ∃ x, sniff t = .ok x ∧ h.structure_ = .member x ∧ sniff t' = .ok x) ∧
    (∀ x, sniff t = .ok x → arg ≠ .absent → arg ≠ .member x → toStructure arg ≠ some x → openPath F canon t dirOk arg version creator validate = (t, .error .ufoLibError)) := by
  constructor
  · intro t' h ho hne
    obtain ⟨fs, previous, hp, -, -, ht⟩ := openPath_ok ho
    rcases prepare_ok hp with ⟨rfl, -⟩ | ⟨-, -, x, hx, hs, -⟩
    · exact absurd rfl hne
    · refine ⟨x, hx, hs, ?_⟩
      rw [ht, hs]
      cases x
      · exact hx
      · rfl
  · intro x hx ha hm hs
    have hex : existingStructure t arg = .error .ufoLibError := by
      unfold existingStructure
      rw [hx]
      dsimp only
      split
      · exact absurd rfl ha
      · split
        · rfl
        · rename_i a h
          rw [if_neg]
          rintro rfl
          exact hs h
    have hp : prepare canon t dirOk arg = .error .ufoLibError := by
      cases t with
      | nothing => cases hx
      | file => cases hx
      | package f => unfold prepare; dsimp only; rw [hex]
      | zip f => unfold prepare; dsimp only; rw [hex]
    unfold openPath
    split
    · rfl
    · rw [hp]

/-- Archives without exactly one root directory are refused, by readers and writers, and not changed. -/
theorem C74_roots (F : FloatCodec) (canon : Str → Str) (z : FS) (h : ∀ d, rootDirs z ≠ [d]) (dirOk : Bool) (arg : StructureArg) (version : Int) (creator : PyVal) (validate : Bool) :
    openReader F (.zip z) validate = .error .ufoLibError ∧ openPath F canon (.zip z) dirOk arg version creator validate = (.zip z, .error .ufoLibError) := by
  have hr : readerFS (.zip z) = .error .ufoLibError := by
    unfold readerFS openRoot
    dsimp only
    split
    · rename_i d hd
      exact absurd hd (h d)
    · rfl
  constructor
  · unfold openReader
    rw [hr]
  · have hp : prepare canon (.zip z) dirOk arg = .error .ufoLibError := by
      unfold prepare
      dsimp only
      cases hs : existingStructure (.zip z) arg with
      | error e =>
        dsimp only
        unfold existingStructure sniff at hs
        dsimp only at hs
        split at hs
        · cases hs
        · split at hs
          · cases hs; rfl
          · split at hs
            · cases hs
            · cases hs; rfl
      | ok s => dsimp only; rw [hr]
    unfold openPath
    split
    · rfl
    · rw [hp]

/-- An archive for the examples: a UFO 3 with a lib. -/
def zip74 : Target :=
  match openPath fractionCodec id .nothing true (.member .zip) 3 (.str c!"x") true with
  | (t, .ok h) => (close c!"font" (calls env57 asciiCasing (h, t) [.lib (.dict [(.str c!"a", .int 1)]) true, .glyphSet none true true, .layerContents none true])).1.2
  | (t, .error _) => t

/-- Opening and closing it with calls in between. -/
def edit74 (ops : List Op) (closes : Nat) : Target :=
  match openPath fractionCodec id zip74 true (.text c!"zip") 3 (.str c!"x") true with
  | (t, .ok h) => (Nat.repeat (fun s => (close c!"font" s).1) closes (calls env57 asciiCasing (h, t) ops)).2
  | (t, .error _) => t

/-- The lib that a reader finds. -/
def lib74 (t : Target) : Option PyVal := (openReader fractionCodec t true).toOption.bind fun r => (readLib fractionCodec r.1 true).toOption

example : sniff zip74 = .ok .zip ∧ lib74 zip74 = some (.dict [(.str c!"a", .int 1)]) ∧
    lib74 (edit74 [.lib (.dict [(.str c!"b", .int 2)]) true] 0) = some (.dict [(.str c!"a", .int 1)]) ∧
    lib74 (edit74 [.lib (.dict [(.str c!"b", .int 2)]) true] 1) = some (.dict [(.str c!"b", .int 2)]) := by decide +kernel

/-- Closing twice loses the UFO: the second `close` copies the closed file system over the archive, raises, and leaves an archive with an empty directory. This also happens
when `close` is called inside a `with` statement. -/
theorem C74_twice_refuted : lib74 (edit74 [] 1) = some (.dict [(.str c!"a", .int 1)]) ∧ lib74 (edit74 [] 2) = none ∧
    (openReader fractionCodec (edit74 [] 2) true).toOption.isNone = true := by decide +kernel

/-- `structure="zip"` (as a string) is understood for existing archives only. For a new path a package is made. -/
theorem C74_text_refuted : (openPath fractionCodec id zip74 true (.text c!"zip") 3 (.str c!"x") true).2.toOption.isSome = true ∧
    sniff (openPath fractionCodec id .nothing true (.text c!"zip") 3 (.str c!"x") true).1 = .ok .package ∧
    sniff (openPath fractionCodec id .nothing true (.text c!"anything") 3 (.str c!"x") true).1 = .ok .package := by decide +kernel

end Verif.Props
