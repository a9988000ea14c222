import Verif.Proofs.GlifText
import Verif.Props.GlifRoundTrip
import Verif.Props.GlyphSet
/-! Glyphs written to files and read back: C71. -/
namespace Verif.Props
open Verif Verif.Glif Verif.Validators Verif.Spec.Validators Verif.Spec.Glif Verif.GlifFile

theorem bytes_read {E : Env} (hE : ReprLaws E) {validate : Bool} {fv : Nat} {name : PyVal} {o : Obj} {draw : Option (List Call)} (hL : Legible name o draw) {tree : Elem}
    (h : writeGlyphTree E validate fv name o draw = .ok tree) :
    ∃ b tree', writeGlyphToBytes E validate fv name o draw = .ok b ∧ writeGlyphTree E.asLxml validate fv name o draw = .ok tree' ∧
      ∀ validate' hasObj hasPen versions, readGlyphFromBytes E validate' hasObj hasPen versions b = readGlyphTree E validate' hasObj hasPen versions tree' := by
  obtain ⟨tree', s, e, h1, h2, h3, h4⟩ := tree_text hE hL h
  refine ⟨utf8 s, tree', ?_, h1, fun validate' hasObj hasPen versions => ?_⟩
  · rw [writeGlyphToBytes, h]
    dsimp only
    rw [h2]
  · rw [readGlyphFromBytes, GlyphSet.glifTree, utf8Decode_utf8]
    dsimp only
    rw [h3]
    exact h4 E validate' hasObj hasPen versions

theorem bytes_tree {E : Env} {validate : Bool} {fv : Nat} {name : PyVal} {o : Obj} {draw : Option (List Call)} {b : Bytes}
    (h : writeGlyphToBytes E validate fv name o draw = .ok b) : ∃ tree, writeGlyphTree E validate fv name o draw = .ok tree := by
  rw [writeGlyphToBytes] at h
  split at h
  · cases h
  next tree ht => exact ⟨tree, ht⟩

/-- A glyph whose data the writer accepts and whose strings are legible is turned into bytes without error. -/
theorem C71_writes (E : Env) (hE : ReprLaws E) (validate : Bool) (fv : Nat) (name : PyVal) (o : Obj) (draw : Option (List Call)) (hL : Legible name o draw) (tree : Elem)
    (h : writeGlyphTree E validate fv name o draw = .ok tree) : ∃ b, writeGlyphToBytes E validate fv name o draw = .ok b := by
  obtain ⟨b, -, h1, -⟩ := bytes_read hE hL h
  exact ⟨b, h1⟩

/-- The bytes written for a glyph are read like the tree the writer made (with lxml, which has strings where the built-in backend has bytes). -/
theorem C71_tree_partial (E : Env) (hE : ReprLaws E) (validate : Bool) (fv : Nat) (name : PyVal) (o : Obj) (draw : Option (List Call)) (hL : Legible name o draw) (b : Bytes)
    (h : writeGlyphToBytes E validate fv name o draw = .ok b) :
    ∃ tree, writeGlyphTree { E with lxml := true } validate fv name o draw = .ok tree ∧
      ∀ validate' hasObj hasPen versions, readGlyphFromBytes E validate' hasObj hasPen versions b = readGlyphTree E validate' hasObj hasPen versions tree := by
  obtain ⟨tree, ht⟩ := bytes_tree h
  obtain ⟨b', tree', h1, h2, h3⟩ := bytes_read hE hL ht
  rw [h] at h1
  cases h1
  exact ⟨tree', h2, h3⟩

/-- A glyph written with validation in format 2 is read back with validation from the bytes: the same calls, the same data. Missing from the full claim: numbers
must be ints or floats, contours well formed (C44, C48), strings without the characters that do not survive (`C71_refuted_...`). -/
theorem C71_bytes_partial (E : Env) (hE : ReprLaws E) (name : PyVal) (o : Obj) (d : List Item) (versions : List Int) (hv : 2 ∈ versions)
    (hL : Legible name o (some (drawing d))) (ho : Plain true o) (hd : ∀ it ∈ d, Readable it) (b : Bytes) (h : writeGlyphToBytes E true 2 name o (some (drawing d)) = .ok b) :
    ∃ attrs calls, readGlyphFromBytes E true true true versions b = .ok (attrs, calls) ∧ List.Forall₂ SameCall (drawing d) calls ∧ SameGlyph name o attrs := by
  obtain ⟨tree, h1, h2⟩ := C71_tree_partial E hE true 2 name o _ hL b h
  have h1 : writeGlyphTree E.asLxml true 2 name o (some (drawing d)) = .ok tree := h1
  obtain ⟨attrs, calls, h3, h4, h5⟩ := C44_calls_partial E.asLxml hE.lawful name o d tree versions hv ho hd h1
  refine ⟨attrs, calls, by rw [h2, ← readGlyphTree_lxml]; exact h3, h4, ?_⟩
  have hw := C46_advance E.asLxml hE.lawful name o _ tree versions attrs calls ho.width ho.height h1 h3
  exact {
    name := h5
    unicodes := fun is hi => C45_unicodes E.asLxml name o _ tree versions attrs calls is hi h1 h3
    width := hw.1
    height := hw.2
    note := fun lines hl => C47_lines E.asLxml name o _ tree versions attrs calls lines hl h1 h3
    image := C48_image_partial E.asLxml hE.lawful name o _ tree versions attrs calls ho.image ho.imageNumbers h1 h3
    guidelines := C48_guidelines_partial E.asLxml hE.lawful name o _ tree versions attrs calls ho.guidelines ho.guidelineNumbers h1 h3
    anchors := C48_anchors_partial E.asLxml hE.lawful name o _ tree versions attrs calls ho.anchors ho.anchorNumbers h1 h3
    lib := C48_lib E.asLxml hE.lawful name o _ tree versions attrs calls ho.lib (.inl rfl) h1 h3 }

/-- The same for strings. -/
theorem C71_string_partial (E : Env) (hE : ReprLaws E) (name : PyVal) (o : Obj) (d : List Item) (versions : List Int) (hv : 2 ∈ versions)
    (hL : Legible name o (some (drawing d))) (ho : Plain true o) (hd : ∀ it ∈ d, Readable it) (s : Str) (h : writeGlyphToString E true 2 name o (some (drawing d)) = .ok s) :
    ∃ attrs calls, readGlyphFromString E true true true versions s = .ok (attrs, calls) ∧ List.Forall₂ SameCall (drawing d) calls ∧ SameGlyph name o attrs := by
  rw [writeGlyphToString] at h
  split at h
  · cases h
  next b hb =>
  have hb' := hb
  rw [writeGlyphToBytes] at hb'
  split at hb'
  · cases hb'
  split at hb'
  · cases hb'
  next s' hs' =>
  cases hb'
  rw [utf8Decode_utf8] at h
  cases h
  exact C71_bytes_partial E hE name o d versions hv hL ho hd _ hb

open Verif.GlyphSet Verif.Spec.GlyphSet in
/-- In a glyph set of a version 3 UFO: the glyph is read back from the file with its text. -/
theorem C71_file_partial (E : Env) (hE : ReprLaws E) (w : World) (hw : 3 ≤ w.1.version) (name : Str) (o : Obj) (d : List Item) (hL : Legible (.str name) o (some (drawing d)))
    (ho : Plain true o) (hd : ∀ it ∈ d, Readable it) (b : Bytes) (h : writeGlyphToBytes E true 2 (.str name) o (some (drawing d)) = .ok b) (hg : getGLIF w name = .ok b) :
    ∃ attrs calls, readGlyph E w name true true true = .ok (attrs, calls) ∧ List.Forall₂ SameCall (drawing d) calls ∧ SameGlyph (.str name) o attrs := by
  obtain ⟨attrs, calls, h1, h2⟩ := C71_bytes_partial E hE (.str name) o d [1, 2] (by simp) hL ho hd b h
  refine ⟨attrs, calls, ?_, h2⟩
  rw [readGlyph, hg]
  dsimp only
  rw [if_neg (by omega)]
  exact h1

open Verif.GlyphSet in
theorem run_version (L : Casing) (F : FloatCodec) (w : World) (ops : List Op) : (run L F w ops).1.version = w.1.version := by
  induction ops generalizing w with
  | nil => rfl
  | cons op ops ih =>
    rw [run, ih]
    cases op with
    | write naming n fv data =>
      rcases h : writeGlyph L naming w n fv data with ⟨w', r⟩
      show (writeGlyph L naming w n fv data).1.1.version = _
      rw [h]
      exact (writeGlyph_spec h).2.2.1
    | delete n =>
      rcases h : deleteGlyph L w n with ⟨w', r⟩
      show (deleteGlyph L w n).1.1.version = _
      rw [h]
      exact (deleteGlyph_spec h).2.2.1
    | reverse =>
      show (getReverseContents L w.1).1.version = _
      rw [getReverseContents]
      split <;> rfl
    | save =>
      show (writeContents F w).1.1.version = _
      rw [writeContents]
      repeat' split
      all_goals rfl
    | rebuild v =>
      rw [step]
      split
      · rfl
      next gs h =>
      rw [rebuildContents] at h
      split at h
      · cases h
      split at h
      · cases h
      cases h
      rfl

open Verif.GlyphSet Verif.Spec.GlyphSet in
/-- After any history of writing and deleting glyphs in a new glyph set, the glyph `n` is read as it was last written. -/
theorem C71_history_partial (E : Env) (hE : ReprLaws E) (L : Casing) (hL : CaseLaws L.lower) (N : Str → Prop) (hN : OwnFiles L.lower N) (fs : FS) (gs : GlyphSet)
    (ops : List Op) (hcanon : ∀ a b, fs.canon a = fs.canon b → L.lower a = L.lower b)
    (hempty : gs.contents = [] ∧ gs.existing = none ∧ gs.reverse = none)
    (hops : ∀ op ∈ ops, ∀ v, op ≠ .rebuild v)
    (hn : ∀ op ∈ ops, ∀ naming n fv data, op = .write naming n fv data → naming = defaultNaming L ∧ N n) (hv : 3 ≤ gs.version)
    (n : Str) (o : Obj) (d : List Item) (hl : Legible (.str n) o (some (drawing d))) (ho : Plain true o) (hd : ∀ it ∈ d, Readable it) (b : Bytes)
    (h : writeGlyphToBytes E true 2 (.str n) o (some (drawing d)) = .ok b) (hh : Status.absent.history n (Spec.GlyphSet.calls L E.F (gs, fs) ops) = .holds b) :
    ∃ attrs calls, readGlyph E (run L E.F (gs, fs) ops) n true true true = .ok (attrs, calls) ∧ List.Forall₂ SameCall (drawing d) calls ∧ SameGlyph (.str n) o attrs := by
  have := C51_default_partial L hL E.F N hN fs gs ops hcanon hempty hops hn n
  rw [hh] at this
  exact C71_file_partial E hE _ (by rw [run_version]; exact hv) n o d hl ho hd b h this

instance (s : Str) : Decidable (Spec.Plist.FileText s) := by unfold Spec.Plist.FileText Spec.Plist.XmlText; infer_instance
instance (s : Str) : Decidable (AttrText s) := by unfold AttrText; infer_instance

/-- The glyph `glyph44` with its drawing is legible. -/
theorem legible44 : Legible (.str c!"A") glyph44 (some (drawing drawing44)) where
  name := by decide +kernel
  image := by decide +kernel
  guidelines := by decide +kernel
  anchors := by decide +kernel
  draw := by
    intro calls hc
    cases hc
    decide +kernel
  note := by decide +kernel
  lib := by decide +kernel

theorem attrText_nil : AttrText [] := by decide

theorem reprLaws44 : ReprLaws env44 := ⟨fractionCodec_lawful, fun _ => attrText_nil⟩

/-- The built-in backend, for examples. -/
def env71 : Env := ⟨fractionCodec, false, fun _ => []⟩

theorem reprLaws71 : ReprLaws env71 := ⟨fractionCodec_lawful, reprLaws44.other⟩

/-- The bytes of the example. -/
def bytes71 : Bytes := ((writeGlyphToBytes env71 true 2 (.str c!"A") glyph44 (some (drawing drawing44))).toOption).getD []

theorem bytes71_eq : writeGlyphToBytes env71 true 2 (.str c!"A") glyph44 (some (drawing drawing44)) = .ok bytes71 := by
  have h : (writeGlyphToBytes env71 true 2 (.str c!"A") glyph44 (some (drawing drawing44))).toOption.isSome = true := by decide +kernel
  unfold bytes71
  revert h
  cases writeGlyphToBytes env71 true 2 (.str c!"A") glyph44 (some (drawing drawing44)) with
  | error e => intro h; cases h
  | ok b => intro _; rfl

/-- All the hypotheses of the theorems hold of the example. -/
example : ∃ attrs calls, readGlyphFromBytes env71 true true true [1, 2] bytes71 = .ok (attrs, calls) ∧ List.Forall₂ SameCall (drawing drawing44) calls ∧ SameGlyph (.str c!"A") glyph44 attrs :=
  C71_bytes_partial env71 reprLaws71 _ _ _ _ (by decide) legible44 plain44 readable44 _ bytes71_eq

open Verif.GlyphSet in
/-- A history: the glyph is written, other glyphs are written and deleted, and the first one is read. -/
example : ∃ attrs calls, readGlyph env71 (run asciiCasing fractionCodec new51 [put51 c!"B" [1], put51 c!"A" bytes71, put51 c!"a" [2], .delete c!"B"]) c!"A" true true true = .ok (attrs, calls) ∧
    List.Forall₂ SameCall (drawing drawing44) calls ∧ SameGlyph (.str c!"A") glyph44 attrs :=
  C71_file_partial env71 reprLaws71 _ (by decide +kernel) _ _ _ legible44 plain44 readable44 _ bytes71_eq (by rfl)

/-- With the built-in backend a TAB in the name of a glyph comes back as a space, so the glyph has another name. -/
theorem C71_refuted_tab : ((writeGlyphToBytes env71 true 2 (.str c!"a\tb") (fun _ => none) none).toOption.bind fun b =>
    (readGlyphFromBytes env71 true true true [1, 2] b).toOption.map (·.1)) = some [(c!"name", .str c!"a b")] := by decide +kernel

/-- And a CR in a string of the lib comes back as a LF. -/
theorem C71_refuted_cr : ((writeGlyphToBytes env71 true 2 (.str c!"A") (fun k => if k = c!"lib" then some (.dict [(.str c!"k", .str c!"a\rb")]) else none) none).toOption.bind fun b =>
    (readGlyphFromBytes env71 true true true [1, 2] b).toOption.map fun r => Dict.get? r.1 c!"lib") = some (some (.dict [(.str c!"k", .str c!"a\nb")])) := by decide +kernel

end Verif.Props
