import Verif.Proofs.LayerInfo
import Verif.Props.GlyphSet
import Verif.Props.Filenames
/-! Layer info: C72. -/
namespace Verif.Props
open Verif Verif.FS Verif.IO Verif.GlyphSet Verif.Spec.LayerInfo Verif.Spec.GlyphSet Verif.Spec.Plist Verif.Spec.Ufo Verif.FontInfo
open Verif.Ufo (getPlist_congr getPlist_none node?_of_not_exists writePlist_reads)

/-- Layer info that was written is read back, whatever glyphs are written or deleted in between: the same color and lib (tuples read as
lists), nothing else. If there is nothing to write, the glyph set must have had a contents.plist when it was opened (or there is no
layerinfo.plist); see `C72_empty_refuted`. Glyphs must not be given files the file system takes for layerinfo.plist. -/
theorem C72_roundtrip_partial (L : Casing) (F : FloatCodec) (hF : F.Lawful) (w : World) (info : Str → Option PyVal) (validate b : Bool) (ops : List Op)
    (hs : ∀ attr ∈ [c!"color", c!"lib"], ∀ v, Stores info attr v → Storable v)
    (hok : (writeLayerInfo F w info validate).2 = .ok ()) (hb : b = true → validate = true)
    (hnew : w.1.havePrevious = true ∨ (∃ attr ∈ [c!"color", c!"lib"], ∃ v, Stores info attr v) ∨ w.2.exists (w.1.dir ++ [c!"layerinfo.plist"]) = false)
    (hav : Avoids w.2.canon c!"layerinfo.plist" w.1.contents) (hf : w.2.canon c!"layerinfo.plist" ≠ w.2.canon c!"contents.plist")
    (hops : ∀ op ∈ ops, NamesAvoid w.2.canon c!"layerinfo.plist" op) :
    ∃ d, readLayerInfo F (run L F (writeLayerInfo F w info validate).1 ops) b = .ok d ∧ SameInfo info d := by
  obtain ⟨h1, h2⟩ := writeLayerInfo_frame F w info validate
  have hcan := h2.canon
  obtain ⟨h3, h4⟩ := run_file (L := L) (F := F) (f := layerinfoName) ops (w := (writeLayerInfo F w info validate).1) (by rw [hcan, h1]; exact hav) (by rw [hcan]; exact hops)
    (by rw [hcan]; exact hf)
  rw [h1] at h3 h4
  have hread : readLayerInfo F (run L F (writeLayerInfo F w info validate).1 ops) b = readLayerInfo F (writeLayerInfo F w info validate).1 b := by
    unfold readLayerInfo
    rw [h4, getPlist_congr h3, h1]
  rw [hread]
  clear hread h3 h4 hops hav hf hcan h2
  have hempty : gatherLayerInfo info layerInfoAttrs = [] ↔ ¬ ∃ attr ∈ [c!"color", c!"lib"], ∃ v, Stores info attr v := by
    constructor
    · rintro h ⟨a, ha, v, hv⟩
      have : (PyVal.str a, v) ∈ gatherLayerInfo info layerInfoAttrs := gather_mem.2 ⟨a, ha, rfl, hv⟩
      rw [h] at this
      cases this
    · intro h
      rw [List.eq_nil_iff_forall_not_mem]
      rintro ⟨k, v⟩ hm
      obtain ⟨a, ha, -, hv⟩ := gather_mem.1 hm
      exact h ⟨a, ha, v, hv⟩
  unfold writeLayerInfo at hok h1 ⊢
  split at hok
  · cases hok
  rename_i hver
  rw [if_neg hver] at h1 ⊢
  unfold readLayerInfo
  rw [h1]
  unfold storeLayerInfo at hok ⊢
  split at hok
  · rename_i hne
    rw [if_pos hne]
    split at hok
    · cases hok
    rename_i u hval
    dsimp only at hok ⊢
    have hstor := gather_storable hs
    obtain ⟨x, hx, hst⟩ := writePlist_reads F hF hstor (fs' := (writePlist F w.1.havePrevious w.2 (w.1.dir ++ [layerinfoName]) (.dict (gatherLayerInfo info layerInfoAttrs))).1)
      (Prod.ext rfl hok) (some (.dict []))
    obtain ⟨e, rfl, hitems⟩ := stored_dict hst
    rw [hx]
    dsimp only
    refine ⟨e, ?_, sameInfo_of hitems⟩
    cases b with
    | false => rfl
    | true =>
      rw [hb rfl, if_pos rfl] at hval
      rw [if_pos rfl, layerInfo_stored hitems hval]
      rfl
  · rename_i hne
    have hnil : gatherLayerInfo info layerInfoAttrs = [] := by simpa using hne
    rw [if_neg hne]
    have hsame : SameInfo info [] := by
      rw [hempty] at hnil
      exact ⟨fun a ha v hv => absurd ⟨a, ha, v, hv⟩ hnil, fun _ _ _ => rfl, by simp [Dict.keys]⟩
    refine ⟨[], ?_, hsame⟩
    have fin : ∀ fs : FS, fs.node? (w.1.dir ++ [layerinfoName]) = none → (match getPlist F fs (w.1.dir ++ [layerinfoName]) (some (.dict [])) with
        | .error e => Except.error e
        | .ok (.dict d) => if b then (validateLayerInfo F d).map fun _ => d else .ok d
        | .ok _ => .error (if b then .glifLibError else .attributeError)) = .ok [] := by
      intro fs hn
      rw [getPlist_none hn]
      cases b <;> rfl
    split at hok
    · rename_i hc
      rw [if_pos hc]
      split at hok
      · cases hok
      rename_i fs hrm
      obtain ⟨rfl, -⟩ := remove_ok hrm
      refine fin _ ?_
      dsimp only
      rw [node?_remove _ _ _ (by simp), if_pos rfl]
    · rename_i hc
      rw [if_neg hc]
      refine fin _ ?_
      have : w.2.exists (w.1.dir ++ [layerinfoName]) = false := by
        rcases hnew with h | h | h
        · simpa [h] using hc
        · exact absurd h (hempty.1 hnil)
        · exact h
      exact node?_of_not_exists this

/-- The default naming function never gives a file that could be taken for layerinfo.plist. -/
theorem C72_default (L : Casing) (canon : Str → Str) (h : ∀ a, canon (a ++ c!".glif") ≠ canon c!"layerinfo.plist") (n : Str) (fv : Option Int) (data : Int → Except Exc Bytes) :
    NamesAvoid canon c!"layerinfo.plist" (.write (defaultNaming L) n fv data) := by
  intro ex g hg
  obtain ⟨x, rfl, -⟩ := C03_legal L n [] c!".glif" g (Dict.keys ex) hg
  exact h x

/-- Writing succeeds for storable layer info of a version 3 UFO when the directory is there. -/
theorem C72_succeeds (F : FloatCodec) (hF : F.Lawful) (w : World) (info : Str → Option PyVal) (validate : Bool) (hv : 3 ≤ w.1.version)
    (hs : ∀ attr ∈ [c!"color", c!"lib"], ∀ v, Stores info attr v → Storable v) (hvalid : validate = true → Valid F info)
    (hdir : w.2.node? w.1.dir = some .dir) (hfile : w.2.node? (w.1.dir ++ [c!"layerinfo.plist"]) ≠ some .dir) :
    (writeLayerInfo F w info validate).2 = .ok () := by
  rw [writeLayerInfo, if_neg (by omega), storeLayerInfo]
  split
  · have : (if validate then validateLayerInfo F (gatherLayerInfo info layerInfoAttrs) else .ok ()) = .ok () := by
      split
      · rename_i h
        exact valid_iff.2 (hvalid h)
      · rfl
    rw [this]
    obtain ⟨fs', h⟩ := writePlist_in F hF w.1.havePrevious (gather_storable hs) hdir hfile
    have h : writePlist F w.1.havePrevious w.2 (w.1.dir ++ [layerinfoName]) (.dict (gatherLayerInfo info layerInfoAttrs)) = (fs', .ok ()) := h
    dsimp only
    rw [h]
  · split
    · rename_i h
      simp only [Bool.and_eq_true] at h
      obtain ⟨n, hn⟩ := exists_iff.1 h.2
      cases n with
      | dir => exact absurd hn hfile
      | file d =>
        rw [remove_of_getbytes (getbytes_ok.2 hn)]
    · rfl

/-- Invalid layer info is refused with GlifLibError, and nothing is written. -/
theorem C72_invalid (F : FloatCodec) (w : World) (info : Str → Option PyVal) (h : ¬ Valid F info) : writeLayerInfo F w info true = (w, .error .glifLibError) := by
  rw [writeLayerInfo]
  split
  · rfl
  · rw [storeLayerInfo, if_pos]
    · rw [if_pos rfl]
      cases hv : validateLayerInfo F (gatherLayerInfo info layerInfoAttrs) with
      | ok u => exact absurd (valid_iff.1 hv) h
      | error e => rw [validateLayerInfo_error hv]
    · cases hg : gatherLayerInfo info layerInfoAttrs with
      | nil => exact absurd (valid_iff.1 (by rw [hg]; rfl)) h
      | cons e d => rfl

/-- Before UFO 3 there is no layer info. -/
theorem C72_version (F : FloatCodec) (w : World) (info : Str → Option PyVal) (validate : Bool) (h : w.1.version < 3) :
    writeLayerInfo F w info validate = (w, .error .glifLibError) := by
  rw [writeLayerInfo, if_pos h]

/-- Only layerinfo.plist is touched: the glyph set stays as it is, and so does everything at other paths, in particular the glyphs. -/
theorem C72_frame (F : FloatCodec) (w : World) (info : Str → Option PyVal) (validate : Bool) (n : Str) (hav : Avoids w.2.canon c!"layerinfo.plist" w.1.contents) :
    (writeLayerInfo F w info validate).1.1 = w.1 ∧
    (∀ q, ¬ w.2.key (w.1.dir ++ [c!"layerinfo.plist"]) <+: w.2.key q → (writeLayerInfo F w info validate).1.2.node? q = w.2.node? q) ∧
    getGLIF (writeLayerInfo F w info validate).1 n = getGLIF w n := by
  obtain ⟨h1, h2⟩ := writeLayerInfo_frame F w info validate
  have h3 : ∀ q, ¬ w.2.key (w.1.dir ++ [layerinfoName]) <+: w.2.key q → (writeLayerInfo F w info validate).1.2.node? q = w.2.node? q := by
    intro q hq
    exact h2.node? _ fun k hk hkq => hq (by rw [← hk]; exact hkq)
  refine ⟨h1, h3, ?_⟩
  unfold getGLIF
  rw [h1]
  split
  · rfl
  · rename_i f hf
    rw [getbytes_of_node? (h3 _ _)]
    intro hp
    have := hp.eq_of_length (by simp [FS.key])
    rw [key_snoc] at this
    exact hav n f hf this.symm

/-- Layer info for the examples. -/
def info72 : Str → Option PyVal := fun k =>
  if k = c!"color" then some (.str c!"0,1,0.5,1") else if k = c!"lib" then some (.dict [(.str c!"k", .tuple [.int 1])]) else none

theorem stores72 : ∀ attr ∈ [c!"color", c!"lib"], ∀ v, Stores info72 attr v → Storable v := by
  intro attr ha v hv
  simp only [List.mem_cons, List.not_mem_nil, or_false] at ha
  rcases ha with rfl | rfl
  · obtain rfl : PyVal.str c!"0,1,0.5,1" = v := Option.some.inj hv.1
    exact ⟨.str _ ⟨by unfold XmlText; decide, by decide⟩, trivial⟩
  · obtain rfl : PyVal.dict [(.str c!"k", .tuple [.int 1])] = v := Option.some.inj hv.1
    exact ⟨.dict _ (.cons _ _ _ ⟨by unfold XmlText; decide, by decide⟩ (.tuple _ (.cons _ _ (.int 1 (by decide)) .nil)) .nil), by decide, by simp [WellFormedItems, WellFormed, WellFormedList]⟩

/-- The layer info is there after glyphs were written and deleted. -/
example : (readLayerInfo fractionCodec (run asciiCasing fractionCodec (writeLayerInfo fractionCodec new51 info72 false).1
      [put51 c!"A" [1], put51 c!"layerinfo.plist" [2], .save, .delete c!"A"]) false).toOption =
    some [(.str c!"color", .str c!"0,1,0.5,1"), (.str c!"lib", .dict [(.str c!"k", .list [.int 1])])] := by decide +kernel

example : ∃ d, readLayerInfo fractionCodec (run asciiCasing fractionCodec (writeLayerInfo fractionCodec new51 info72 false).1 [put51 c!"A" [1], .save, .delete c!"A"]) false = .ok d ∧
    SameInfo info72 d := by
  have hput : ∀ n d, NamesAvoid new51.2.canon c!"layerinfo.plist" (put51 n d) := fun n d =>
    C72_default asciiCasing id (fun a h => absurd (congrArg List.getLast? h) (by simp)) n none _
  refine C72_roundtrip_partial asciiCasing fractionCodec fractionCodec_lawful new51 info72 false false _ stores72 (by decide +kernel) (by decide) (.inr (.inr (by rfl)))
    (fun n g h => by cases h) (by decide) ?_
  intro op hop
  simp only [List.mem_cons, List.not_mem_nil, or_false] at hop
  rcases hop with rfl | rfl | rfl
  · exact hput _ _
  · trivial
  · trivial

/-- A color that is not four numbers is refused. -/
example : (writeLayerInfo fractionCodec new51 (fun k => if k = c!"color" then some (.str c!"1,1,1") else none) true).2 = .error .glifLibError := by rfl

/-- The claim fails in a new glyph set: writing an empty info leaves the layer info written before. -/
theorem C72_empty_refuted : let w := (writeLayerInfo fractionCodec new51 info72 false).1
    (writeLayerInfo fractionCodec w (fun _ => none) true).2 = .ok () ∧
    (readLayerInfo fractionCodec (writeLayerInfo fractionCodec w (fun _ => none) true).1 false).toOption =
      some [(.str c!"color", .str c!"0,1,0.5,1"), (.str c!"lib", .dict [(.str c!"k", .list [.int 1])])] := by decide +kernel

end Verif.Props
