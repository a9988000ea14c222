import Verif.Model.UfoZip
import Verif.Proofs.UfoSessions
import Verif.Proofs.UfoData
/-! Lemmas about UFOs at a path. -/
namespace Verif.Ufo
open Verif Verif.FS Verif.IO Verif.Spec.Ufo Verif.Spec.Plist

theorem rootDirs_archive (root : Str) (fs : FS) (h : root ≠ c!"__MACOSX") : rootDirs (archive root fs) = [root] := by
  have : ((fs.nodes.filter fun e => e.1 != []).map fun e => (root :: e.1, e.2)).filterMap rootDir? = [] := by
    rw [List.filterMap_map, List.filterMap_eq_nil_iff]
    rintro ⟨p, n⟩ he
    cases p with
    | nil => simp at he
    | cons c p => rfl
  unfold rootDirs archive
  dsimp only
  rw [List.filterMap_cons_some (b := root), this]
  exact if_pos h

theorem subFS_archive (root : Str) (fs : FS) : (subFS (archive root fs) root).nodes = fs.nodes.filter fun e => e.1 != [] := by
  unfold subFS archive
  dsimp only
  rw [List.filterMap_cons_none (by rfl), List.filterMap_map]
  generalize fs.nodes = l
  induction l with
  | nil => rfl
  | cons e l ih =>
    obtain ⟨p, n⟩ := e
    cases p with
    | nil => exact ih
    | cons c p =>
      rw [List.filter_cons_of_pos (by rfl), List.filterMap_cons_some (b := (c :: p, n)), ih]
      simp [below?]

theorem subFS_archive_node? (root : Str) (fs : FS) (p : Path) : (subFS (archive root fs) root).node? p = fs.node? p := by
  unfold FS.node?
  split
  · rfl
  · rename_i hp
    rw [subFS_archive]
    have hk : (subFS (archive root fs) root).key p = fs.key p := rfl
    rw [hk]
    have hne : fs.key p ≠ [] := by simpa [FS.key] using hp
    generalize fs.key p = k at hne
    generalize fs.nodes = l
    induction l with
    | nil => rfl
    | cons e l ih =>
      obtain ⟨q, n⟩ := e
      cases q with
      | nil =>
        rw [List.filter_cons_of_neg (by simp), ih, Dict.get?_cons, if_neg (Ne.symm hne)]
      | cons c q =>
        rw [List.filter_cons_of_pos (by rfl), Dict.get?_cons, Dict.get?_cons, ih]

/-- The calls on a writer are calls on its file system. -/
theorem calls_run (E : FontInfo.Env) (L : Casing) : ∀ (ops : List Op) (s : Handle × Target),
    ((calls E L s ops).1.writer, (calls E L s ops).1.fs) = run E L (s.1.writer, s.1.fs) ops ∧
    (calls E L s ops).1.structure_ = s.1.structure_ ∧ (calls E L s ops).1.closed = s.1.closed ∧
    (isZip s.1.structure_ = true → (calls E L s ops).2 = s.2) ∧
    (isZip s.1.structure_ = false → s.2 = .package s.1.fs → (calls E L s ops).2 = .package (calls E L s ops).1.fs)
  | [], s => ⟨rfl, rfl, rfl, fun _ => rfl, fun _ h => h⟩
  | op :: ops, s => by
    obtain ⟨h1, h2, h3, h4, h5⟩ := calls_run E L ops (call E L s op).1
    refine ⟨h1, h2, h3, fun h => (h4 h).trans ?_, fun h _ => h5 h ?_⟩
    · show (if isZip s.1.structure_ then s.2 else _) = s.2
      rw [if_pos h]
    · show (if isZip s.1.structure_ then s.2 else _) = _
      rw [if_neg (by simp [h])]
      rfl

/-- The version the reader finds after calls that spare metainfo.plist. -/
theorem opened_version (E : FontInfo.Env) (hF : E.F.Lawful) (L : Casing) {hp : Bool} {fs fs' : FS} {version : Int} {creator : PyVal} {w : Writer}
    (h : openWriter E.F hp fs version creator true = (fs', .ok w)) (hc : Creator creator) (ops : List Op)
    (hops : ∀ op ∈ ops, Spares fs'.canon metainfoName op) (b : Bool) : readMetaInfo E.F (run E L (w, fs') ops).2 b = .ok version := by
  obtain ⟨h1, -, h5, -⟩ := openWriter_ok h
  rw [readMetaInfo_congr (run_node? E L (w, fs') (openWriter_layered h) ops hops [])]
  obtain ⟨data, hd, hb⟩ := (writePlist_spec h5).2.2 rfl
  obtain ⟨c', x, hx, hst⟩ := creator_loads E.F hF hc h1 hd
  exact readMetaInfo_stored E.F h1 (creator := c') ⟨x, by simp [getPlist, hb, hx], hst⟩ b

/-- What an opened writer is. -/
theorem openPath_ok {F : FloatCodec} {canon : Str → Str} {t t' : Target} {dirOk : Bool} {arg : StructureArg} {version : Int} {creator : PyVal} {validate : Bool} {h : Handle}
    (ho : openPath F canon t dirOk arg version creator validate = (t', .ok h)) :
    ∃ fs previous, prepare canon t dirOk arg = .ok (h.structure_, fs, previous) ∧ openWriter F previous fs version creator validate = (h.fs, .ok h.writer) ∧
      h.closed = false ∧ t' = if isZip h.structure_ then t else .package h.fs := by
  unfold openPath at ho
  split at ho
  · cases ho
  · split at ho
    · cases ho
    · rename_i s fs previous hp
      rcases hr : openWriter F previous fs version creator validate with ⟨fs', e | w⟩
      · rw [hr] at ho; cases ho
      · rw [hr] at ho
        cases ho
        exact ⟨fs, previous, hp, hr, rfl, rfl⟩

/-- The structure of an existing UFO is kept. -/
theorem prepare_ok {canon : Str → Str} {t : Target} {dirOk : Bool} {arg s : StructureArg} {fs : FS} {previous : Bool} (h : prepare canon t dirOk arg = .ok (s, fs, previous)) :
    (t = .nothing ∧ previous = false ∧ fs = ⟨canon, [], []⟩ ∧ s = if arg = .absent then .member .package else arg) ∨
    (previous = true ∧ readerFS t = .ok fs ∧ ∃ x, sniff t = .ok x ∧ s = .member x ∧ (arg = .absent ∨ toStructure arg = some x)) := by
  have key : ∀ t : Target, (match existingStructure t arg with
    | .error e => .error e
    | .ok s => match readerFS t with
      | .error e => .error e
      | .ok fs => .ok (.member s, fs, true)) = Except.ok (ε := Exc) (s, fs, previous) →
      previous = true ∧ readerFS t = .ok fs ∧ ∃ x, sniff t = .ok x ∧ s = .member x ∧ (arg = .absent ∨ toStructure arg = some x) := by
    intro t h
    split at h
    · cases h
    · rename_i x hx
      split at h
      · cases h
      · rename_i fs' hfs
        cases h
        refine ⟨rfl, hfs, x, ?_⟩
        unfold existingStructure at hx
        split at hx
        · cases hx
        · rename_i y hy
          split at hx
          · cases hx; exact ⟨hy, rfl, .inl rfl⟩
          · split at hx
            · cases hx
            · rename_i a ha
              split at hx
              · rename_i heq
                cases hx
                exact ⟨hy, rfl, .inr (heq ▸ ha)⟩
              · cases hx
  cases t with
  | nothing =>
    refine .inl ?_
    unfold prepare at h
    dsimp only at h
    split at h
    · cases h
    · cases h; exact ⟨rfl, rfl, rfl, rfl⟩
  | file => exact .inr (key _ h)
  | package f => exact .inr (key _ h)
  | zip f => exact .inr (key _ h)

end Verif.Ufo
