import Verif.Proofs.UfoSessions
import Verif.Proofs.UfoApart
/-! The format version of a UFO: C57. What a call may change: C69. -/
namespace Verif.Props
open Verif Verif.FS Verif.IO Verif.Ufo Verif.Spec.Ufo Verif.Spec.Plist

/-- An empty case sensitive file system. -/
def fs57 : FS := { canon := id, nodes := [], log := [] }

/-- The environment of the examples. -/
def env57 : FontInfo.Env := ⟨fractionCodec, true⟩

/-- Opening a UFO with a writer for this version, with the default creator. -/
def session57 (v : Int) (ops : List Op) : Session :=
  { rootExisted := false, version := v, creator := .str c!"org.robofab.ufoLib", validate := true, ops := ops }

/-! ### C57 -/

/-- Opening for a lower version than the reader finds raises, and the files are unchanged. -/
theorem C57_lower (F : FloatCodec) (fs : FS) (p version : Int) (creator : PyVal) (validate : Bool) (hp : readMetaInfo F fs true = .ok p)
    (hlow : version < p) : openWriter F true fs version creator validate = (fs, .error .ufoLibError) := by
  obtain ⟨-, h, -⟩ := readMetaInfo_true hp
  unfold openWriter
  split
  · rfl
  · simp [h, hlow]

/-- Unsupported versions are refused, and the files are unchanged. -/
theorem C57_unsupported (F : FloatCodec) (hp : Bool) (fs : FS) (version : Int) (creator : PyVal) (validate : Bool)
    (h : ¬ (version = 1 ∨ version = 2 ∨ version = 3)) : openWriter F hp fs version creator validate = (fs, .error .ufoLibError) := by
  have : supported version = false := by
    simp only [supported, Bool.or_eq_false_iff, beq_eq_false_iff_ne]
    omega
  simp [openWriter, this]

/-- Every sequence of sessions on any file system: the versions of the successful openings are supported and never decrease, starting
from the version `v0` the reader finds at first (if it finds one), and the reader finds the last of them at the end. Creators are
strings, or any other values a property list file can hold. -/
theorem C57_history (E : FontInfo.Env) (hF : E.F.Lawful) (L : Casing) (fs : FS) (v0 : Option Int)
    (h0 : ∀ v, v0 = some v → readMetaInfo E.F fs true = .ok v) (sessions : List Session)
    (hs : ∀ s ∈ sessions, ((∃ t, s.creator = .str t) ∨ Storable s.creator) ∧ (s.validate = true ∨ s.ops = []) ∧
      ∀ op ∈ s.ops, Spares fs.canon c!"metainfo.plist" op) :
    (v0.toList ++ (runSessions E L fs sessions).2).Pairwise (· ≤ ·) ∧
    (∀ v ∈ (runSessions E L fs sessions).2, v = 1 ∨ v = 2 ∨ v = 3) ∧
    ∀ v, (v0.toList ++ (runSessions E L fs sessions).2).getLast? = some v → ∀ validate, readMetaInfo E.F (runSessions E L fs sessions).1 validate = .ok v := by
  obtain ⟨h1, h2, h3⟩ := sessions_spec E hF L sessions fs v0 h0 (fun s h => ⟨(hs s h).1.symm, (hs s h).2⟩)
  refine ⟨h1, fun v hv => ?_, fun v hv b => ?_⟩
  · have := h2 v hv
    simp only [supported, Bool.or_eq_true, beq_iff_eq] at this
    tauto
  · exact (readMetaInfo_true (h3 v hv)).2.2.1 b

/-- A new UFO 1, upgraded to 3 with a lib; opening for 2 fails in between and at the end. -/
example : let r := (runSessions env57 asciiCasing fs57
      [session57 1 [], session57 3 [.lib (.dict [(.str c!"a", .int 1)]) true, .glyphSet none true true, .layerContents none true], session57 2 [], session57 3 []]);
    r.2 = [1, 3, 3] ∧ (readMetaInfo fractionCodec r.1 true).toOption = some 3 := by decide +kernel

/-- These sessions meet the hypotheses, on file systems that ignore the case of ASCII letters or do not. -/
example (canon : Str → Str) (h : canon = id ∨ canon = fun s => s.map asciiLowerChar) :
    ∀ s ∈ [session57 1 [], session57 3 [.lib (.dict [(.str c!"a", .int 1)]) true, .glyphSet none true true, .layerContents none true], session57 2 [], session57 3 []],
      ((∃ t, s.creator = .str t) ∨ Storable s.creator) ∧ (s.validate = true ∨ s.ops = []) ∧ ∀ op ∈ s.ops, Spares canon c!"metainfo.plist" op := by
  have hk : KeepsApart canon := by rcases h with rfl | rfl; exacts [keepsApart_id, keepsApart_ascii]
  have h1 : Spares canon c!"metainfo.plist" (.lib (.dict [(.str c!"a", .int 1)]) true) :=
    spares_of hk (by decide) (fun c hc => by cases hc; exact .inl (by decide)) (fun hc => by cases hc)
  have h2 : Spares canon c!"metainfo.plist" (.glyphSet none true true) :=
    spares_of hk (by decide) (fun c hc => by cases hc with | glyphSet h => exact .inr h) (fun hc => by cases hc with | glyphSet h => exact absurd h (by decide))
  have h3 : Spares canon c!"metainfo.plist" (.layerContents none true) :=
    spares_of hk (by decide) (fun c hc => by cases hc; exact .inl (by decide)) (fun hc => by cases hc)
  intro s hs
  simp only [List.mem_cons, List.not_mem_nil, or_false] at hs
  have none : ∀ op ∈ ([] : List Op), Spares canon c!"metainfo.plist" op := by intro op ho; cases ho
  rcases hs with rfl | rfl | rfl | rfl
  · exact ⟨.inl ⟨_, rfl⟩, .inl rfl, none⟩
  · refine ⟨.inl ⟨_, rfl⟩, .inl rfl, fun op ho => ?_⟩
    simp only [session57, List.mem_cons, List.not_mem_nil, or_false] at ho
    rcases ho with rfl | rfl | rfl
    · exact h1
    · exact h2
    · exact h3
  · exact ⟨.inl ⟨_, rfl⟩, .inl rfl, none⟩
  · exact ⟨.inl ⟨_, rfl⟩, .inl rfl, none⟩

/-- A creator with a control character is refused, and leaves an existing UFO as it was. -/
example : let r := (runSessions env57 asciiCasing fs57 [session57 2 [], { session57 3 [] with creator := .str [Char.ofNat 1] }, session57 3 []]);
    r.2 = [2, 3] ∧ (readMetaInfo fractionCodec r.1 true).toOption = some 3 := by decide +kernel

/-! ### C69 -/

/-- A call, whether it returns or raises, changes nothing below an entry of the root directory that it is not about; nor does it change
the version the writer writes. -/
theorem C69_call (E : FontInfo.Env) (L : Casing) (w : World) (hwf : Dict.WF w.1.layers) (hl : LayerDirs w.1.layers) (op : Op) (c : Str) (p : Path)
    (hs : Spares w.2.canon c op) :
    (step E L w op).1.2.node? (c :: p) = w.2.node? (c :: p) ∧ (step E L w op).1.1.version = w.1.version := by
  obtain ⟨h1, -, -, h2⟩ := step_spec E L w ⟨hwf, hl⟩ op
  exact ⟨acts_node? h2 (S := Concerns op) (fun k hk => hk) hs p, h1.version⟩

/-- The same for histories of calls on a writer that was opened with validation. -/
theorem C69_history (E : FontInfo.Env) (L : Casing) (hp : Bool) (fs fs' : FS) (version : Int) (creator : PyVal) (w : Writer)
    (h : openWriter E.F hp fs version creator true = (fs', .ok w)) (ops : List Op) (c : Str) (p : Path)
    (hs : ∀ op ∈ ops, Spares fs'.canon c op) :
    (run E L (w, fs') ops).2.node? (c :: p) = fs'.node? (c :: p) ∧ (run E L (w, fs') ops).1.version = version := by
  obtain ⟨h1, -, h2⟩ := run_spec E L ops (w, fs') (openWriter_layered h)
  refine ⟨acts_node? h2 (S := fun c => ∃ op ∈ ops, Concerns op c) ?_ ?_ p, h1.version.trans (openWriter_ok h).2.2.2.1⟩
  · rintro k ⟨op, hop, ⟨d, r, hd, rfl⟩ | hall⟩
    · exact .inl ⟨d, r, ⟨op, hop, hd⟩, rfl⟩
    · exact .inr fun c => ⟨op, hop, hall c⟩
  · rintro d ⟨op, hop, hd⟩
    exact hs op hop d hd

/-- Renaming a layer changes nothing in lib.plist, images or data. -/
example (d : Bool) (n m : Option Str) : ∀ c ∈ [c!"lib.plist", c!"images", c!"data"], Spares id c (.rename n m d) := by
  intro c hc x hx e
  cases hx with
  | rename h =>
    have h1 := take2_glyphsDir h
    rw [show x = c from e] at h1
    clear e h
    revert c
    decide

end Verif.Props
