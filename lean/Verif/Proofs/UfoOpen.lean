import Verif.Proofs.UfoFrame
import Verif.Proofs.Stored
import Verif.Proofs.Validators
/-! Opening a writer, and the version in metainfo.plist. -/
namespace Verif.Ufo
open Verif Verif.IO Verif.FS Verif.Spec.Ufo Verif.Spec.Plist Verif.FontInfo Verif.Validators

/-! ### property list files -/

theorem dump_ok (F : FloatCodec) (hF : F.Lawful) {v : PyVal} (hv : Storable v) :
    ∃ data w, dumpBytes F v = .ok data ∧ loadBytes F data = .ok w ∧ Stored v w := by
  obtain ⟨s, w, h1, h2, h3⟩ := Plist.loads_dumps F hF true v hv.1 hv.2
  exact ⟨utf8 s, w, by simp [dumpBytes, h1], by simp [loadBytes, utf8Decode_utf8, h2], h3⟩

/-- A file that holds a dumped value is read. -/
theorem getPlist_dumped (F : FloatCodec) (hF : F.Lawful) {v : PyVal} (hv : Storable v) {fs : FS} {p : Path} {data : Bytes}
    (hd : dumpBytes F v = .ok data) (hb : fs.getbytes p = .ok data) (default : Option PyVal) :
    ∃ w, getPlist F fs p default = .ok w ∧ Stored v w := by
  obtain ⟨data', w, h1, h2, h3⟩ := dump_ok F hF hv
  rw [hd] at h1
  cases h1
  exact ⟨w, by simp [getPlist, hb, h2], h3⟩

/-- A successful write of a property list. -/
theorem writePlist_reads (F : FloatCodec) (hF : F.Lawful) {hp : Bool} {fs fs' : FS} {p : Path} {v : PyVal} (hv : Storable v)
    (h : writePlist F hp fs p v = (fs', .ok ())) (default : Option PyVal) : ∃ w, getPlist F fs' p default = .ok w ∧ Stored v w := by
  obtain ⟨data, h1, h2⟩ := (writePlist_spec h).2.2 rfl
  exact getPlist_dumped F hF hv h1 h2 default

/-- In the root directory, storable values are written unless there is a directory of that name. -/
theorem writePlist_root (F : FloatCodec) (hF : F.Lawful) (hp : Bool) {fs : FS} {n : Str} {v : PyVal} (hv : Storable v)
    (hn : fs.node? [n] ≠ some .dir) : ∃ fs', writePlist F hp fs [n] v = (fs', .ok ()) := by
  obtain ⟨data, w, h1, -⟩ := dump_ok F hF hv
  have hroot : ∀ g : FS, g.node? ([n] : Path).dropLast = some .dir := fun g => rfl
  unfold writePlist
  cases hp
  · simp only [Bool.false_eq_true, if_false]
    rw [setbytes_of [] (hroot fs) hn]
    simp only [h1]
    rw [setbytes_of data (hroot _) (by rw [node?_write _ _ _ _ (by simp)]; simp)]
    exact ⟨_, rfl⟩
  · simp only [if_true, h1]
    split
    · exact ⟨_, rfl⟩
    · rw [setbytes_of data (hroot fs) hn]
      exact ⟨_, rfl⟩

theorem stored_get {d e : List (PyVal × PyVal)} (hd : (d.map Prod.fst).Nodup) (h : StoredItems d e) {k : PyVal} {v : PyVal} (hv : Dict.get? d k = some v) :
    ∃ w, Dict.get? e k = some w ∧ Stored v w := by
  obtain ⟨q, hq, h1, h2⟩ := h.left (k, v) (Dict.mem_of_get? hv)
  refine ⟨q.2, Dict.get?_of_mem (h.keys.nodup hd) ?_, h2⟩
  simp only at h1
  rw [← h1]; exact hq

/-! ### metainfo.plist -/

theorem storable_metaInfo {creator : PyVal} (h : Storable creator) {v : Int} (hv : supported v = true) : Storable (metaInfo creator v) := by
  have hi : -(2 : Int) ^ 63 ≤ v ∧ v < (2 : Int) ^ 64 := by
    simp only [supported, Bool.or_eq_true, beq_iff_eq] at hv
    rcases hv with (rfl | rfl) | rfl <;> decide
  refine ⟨.dict _ (.cons _ _ _ ?_ h.1 (.cons _ _ _ ?_ (.int v hi) .nil)), ?_⟩
  · exact ⟨by unfold XmlText; decide, by decide⟩
  · exact ⟨by unfold XmlText; decide, by decide⟩
  · refine ⟨?_, h.2, trivial, trivial⟩
    simp

/-- The version in a metainfo.plist just written. -/
theorem readMetaInfo_stored (F : FloatCodec) {fs : FS} {creator : PyVal} {v : Int} (hv : supported v = true)
    (h : ∃ w, getPlist F fs [metainfoName] none = .ok w ∧ Stored (metaInfo creator v) w) (b : Bool) : readMetaInfo F fs b = .ok v := by
  obtain ⟨w, h1, h2⟩ := h
  obtain ⟨e, rfl, he⟩ := stored_dict h2
  obtain ⟨x, hx, hs⟩ := stored_get (by simp) he (k := .str c!"formatVersion") (v := .int v) (by simp [Dict.get?])
  have hx' : x = .int v := stored_atomic trivial hs
  subst hx'
  simp [readMetaInfo, h1, Validators.get, hx, hv]

/-- What the reader accepts is what the writer finds. -/
theorem readMetaInfo_true {F : FloatCodec} {fs : FS} {v : Int} (h : readMetaInfo F fs true = .ok v) :
    supported v = true ∧ previousVersion F true fs = .ok (some v) ∧ (∀ b, readMetaInfo F fs b = .ok v) ∧ ∃ data, fs.getbytes [metainfoName] = .ok data := by
  unfold readMetaInfo at h
  split at h
  · cases h
  · rename_i d hd
    split at h
    · cases h
    · rename_i x hx
      split at h
      · cases h
      · rename_i i hi
        simp only [Bool.true_and, Bool.not_eq_true'] at h
        split at h
        · cases h
        · rename_i hsup
          cases h
          have hsup : supported v = true := by simpa using hsup
          have hint : intOfVal x = .ok v := by
            cases x <;> simp at hi <;> simp [intOfVal, hi]
          refine ⟨hsup, by simp [previousVersion, hd, hx, hint, hsup], fun b => by simp [readMetaInfo, hd, hx, hi, hsup], ?_⟩
          unfold getPlist at hd
          split at hd
          · cases hd
          · cases hd
          · rename_i data hdata; exact ⟨data, hdata⟩
  · cases h

theorem readMetaInfo_congr {F : FloatCodec} {fs fs' : FS} (h : fs'.node? [metainfoName] = fs.node? [metainfoName]) (b : Bool) :
    readMetaInfo F fs' b = readMetaInfo F fs b := by
  have : fs'.getbytes [metainfoName] = fs.getbytes [metainfoName] := by simp [getbytes, h]
  simp [readMetaInfo, getPlist, this]

/-! ### layers at the opening -/

theorem layerEntriesOf_ok : ∀ {l : List PyVal} {t : List (Str × Str)}, layerEntriesOf l = .ok t → l = t.map fun e => .list [.str e.1, .str e.2]
  | [], t, h => by cases h; rfl
  | x :: l, t, h => by
    unfold layerEntriesOf at h
    split at h
    · rename_i hc; cases hc
    · rename_i n d rest hc
      cases hc
      split at h
      · cases h
      · rename_i t' ht'
        cases h
        simp [layerEntriesOf_ok ht']
    · cases h

theorem layerEntriesOf_map (t : List (Str × Str)) : layerEntriesOf (t.map fun e => PyVal.list [.str e.1, .str e.2]) = .ok t := by
  induction t with
  | nil => rfl
  | cons e t ih => simp [layerEntriesOf, ih]

/-- What the reader accepts as layer contents. -/
theorem readLayerTable_ok {F : FloatCodec} {fs : FS} {t : List (Str × Str)} (h : readLayerTable F fs true = .ok t) :
    Spec.Validators.LayerTable (dirExists fs) t := by
  unfold readLayerTable at h
  split at h
  · cases h
  · rename_i v hv
    simp only [if_true] at h
    split at h
    · cases h
    · cases h
    · rename_i hval
      obtain ⟨t', rfl, ht⟩ := layerContents_iff.1 hval
      have h' : layerEntriesOf (t'.map fun e => PyVal.list [.str e.1, .str e.2]) = .ok t := h
      rw [layerEntriesOf_map] at h'
      cases h'
      exact ht

theorem foldl_set_get?_mem (t : List (Str × Str)) : ∀ (d : Dict Str Str) (n x : Str), Dict.get? (t.foldl (fun d e => Dict.set d e.1 e.2) d) n = some x →
    Dict.get? d n = some x ∨ (n, x) ∈ t := by
  induction t with
  | nil => exact fun d n x h => .inl h
  | cons e t ih =>
    intro d n x h
    rw [List.foldl_cons] at h
    rcases ih _ _ _ h with h | h
    · rw [Dict.get?_set] at h
      split at h
      · rename_i he
        cases h
        subst he; exact .inr List.mem_cons_self
      · exact .inl h
    · exact .inr (List.mem_cons_of_mem _ h)

theorem foldl_layers_wf (t : List (Str × Str)) (d : Dict Str Str) (h : Dict.WF d) : Dict.WF (t.foldl (fun d e => Dict.set d e.1 e.2) d) :=
  GlyphSet.foldl_set_wf (fun e : Str × Str => e.1) (fun e => e.2) t d h

theorem initialLayers_ok {F : FloatCodec} {fs : FS} {previous : Option Int} {layers : Dict Str Str} (h : initialLayers F fs previous true = .ok layers) :
    Dict.WF layers ∧ LayerDirs layers := by
  unfold initialLayers at h
  split at h
  · split at h
    · cases h
    · rename_i t ht
      cases h
      have := readLayerTable_ok ht
      refine ⟨foldl_layers_wf t [] Dict.wf_nil, fun n d hd => ?_⟩
      rcases foldl_set_get?_mem t [] n d hd with h | h
      · cases h
      · exact this.dirNames _ h
  · split at h
    · cases h
      refine ⟨by simp [Dict.WF, Dict.keys], fun n d hd => ?_⟩
      simp only [Dict.get?] at hd
      split at hd
      · cases hd; exact .inl rfl
      · cases hd
    · cases h
      exact ⟨Dict.wf_nil, fun n d hd => by cases hd⟩

/-- A successful opening. -/
theorem openWriter_ok {F : FloatCodec} {hp : Bool} {fs fs' : FS} {version : Int} {creator : PyVal} {validate : Bool} {w : Writer}
    (h : openWriter F hp fs version creator validate = (fs', .ok w)) :
    supported version = true ∧ (∃ previous, previousVersion F hp fs = .ok previous ∧ (∀ p, previous = some p → p ≤ version) ∧
      initialLayers F fs previous validate = .ok w.layers) ∧ writePlist F hp fs [metainfoName] (metaInfo creator version) = (fs', .ok ()) ∧
    w.version = version ∧ w.havePrevious = hp ∧ w.validate = validate ∧ w.renameMap = none := by
  unfold openWriter at h
  split at h
  · cases h
  · rename_i hs
    split at h
    · cases h
    · rename_i previous hprev
      split at h
      · cases h
      · rename_i hlow
        split at h
        · cases h
        · rename_i layers hl
          split at h
          · cases h
          · rename_i fs1 hw
            cases h
            refine ⟨by simpa using hs, ⟨previous, hprev, ?_, hl⟩, hw, rfl, rfl, rfl, rfl⟩
            rintro p rfl
            simpa using hlow

/-- A failed opening changes nothing unless writing metainfo.plist failed. -/
theorem openWriter_error {F : FloatCodec} {hp : Bool} {fs fs' : FS} {version : Int} {creator : PyVal} {validate : Bool} {e : Exc}
    (h : openWriter F hp fs version creator validate = (fs', .error e)) :
    fs' = fs ∨ (supported version = true ∧ writePlist F hp fs [metainfoName] (metaInfo creator version) = (fs', .error e)) := by
  unfold openWriter at h
  split at h
  · cases h; exact .inl rfl
  · rename_i hs
    split at h
    · cases h; exact .inl rfl
    · split at h
      · cases h; exact .inl rfl
      · split at h
        · cases h; exact .inl rfl
        · split at h
          · rename_i hw
            cases h
            exact .inr ⟨by simpa using hs, hw⟩
          · cases h

theorem openWriter_layered {F : FloatCodec} {hp : Bool} {fs fs' : FS} {version : Int} {creator : PyVal} {w : Writer}
    (h : openWriter F hp fs version creator true = (fs', .ok w)) : Layered w := by
  obtain ⟨-, ⟨p, -, -, hl⟩, -⟩ := openWriter_ok h
  obtain ⟨h1, h2⟩ := initialLayers_ok hl
  exact ⟨h1, h2⟩

end Verif.Ufo
