import Verif.Proofs.ReadMoments
import Verif.Props.Interrupt
import Verif.Props.UfoKerning
/-! Reading a UFO while another program writes it: C124. -/
namespace Verif.Props
open Verif Verif.FS Verif.IO Verif.Ufo Verif.Kerning Verif.Spec.Ufo Verif.Spec.Cut Verif.Spec.Interrupt

/-- C124. A method that reads one file gives (or raises) what it gives at one of the moments at which it uses the file system, if it uses it at all. -/
theorem C124_file (E : FontInfo.Env) (G : Glif.Env) {α : Type} (c : ReadCall α) (hc : Spec.ReadMoments.OneFile c) (l : List FS) (r : Except Exc α) (h : (c.prog E G).Sees l r) :
    (∃ m, l = [m] ∧ r = c.read E G m) ∨ (l = [] ∧ ∀ m, r = c.read E G m) := by
  have plist : ∀ {F : FloatCodec} {p : Path} {d : Option PyVal} {f : PyVal → Except Exc α}, c.prog E G = thenP (getPlistP F p d) (fun v => .ret (f v)) → ∃ m, l = [m] ∧ r = c.read E G m := by
    intro F p d f he
    rw [he] at h
    obtain ⟨m, hm, hr⟩ := sees_plist h
    have := read_run E G m c
    rw [he] at this
    rw [this] at hr
    exact ⟨m, hm, hr.symm⟩
  cases hc with
  | version => exact .inl (plist rfl)
  | info => exact .inl (plist rfl)
  | lib => exact .inl (plist rfl)
  | groups3 => exact .inl (plist rfl)
  | kerning3 => exact .inl (plist rfl)
  | features =>
    obtain ⟨m, l', h1, h2⟩ := sees_get h
    obtain ⟨h3, h4⟩ := sees_ret h2
    exact .inl ⟨m, by rw [h1, h3], h4⟩
  | bytes =>
    obtain ⟨m, l', h1, h2⟩ := sees_get h
    obtain ⟨h3, h4⟩ := sees_ret h2
    exact .inl ⟨m, by rw [h1, h3], h4⟩
  | glif =>
    rcases sees_glifP h with ⟨m, h1, h2⟩ | ⟨h1, h2⟩
    · exact .inl ⟨m, h1, h2⟩
    · exact .inr ⟨h1, h2⟩
  | @glyph gs n o p b =>
    obtain ⟨l1, l2, r1, hl, h1, h2⟩ := sees_thenP h
    have key : ∀ m, r1 = GlyphSet.getGLIF (gs, m) n → r = GlyphSet.readGlyph G (gs, m) n o p b := by
      intro m hm
      unfold GlyphSet.readGlyph
      rw [← hm]
      rcases h2 with ⟨e, rfl, rfl, -⟩ | ⟨d, rfl, h3⟩
      · rfl
      · exact (sees_ret h3).2
    have hl2 : l2 = [] := by
      rcases h2 with ⟨e, -, -, h⟩ | ⟨d, -, h3⟩
      · exact h
      · exact (sees_ret h3).1
    rw [hl, hl2, List.append_nil]
    rcases sees_glifP h1 with ⟨m, h3, h4⟩ | ⟨h3, h4⟩
    · exact .inl ⟨m, h3, key m h4⟩
    · exact .inr ⟨h3, fun m => key m (h4 m)⟩
  | layerInfo => exact .inl (plist rfl)

/-- C124. So a lib that is read while a writer is opened and used raises, or is the lib of some point of the session; the same holds for the format version, the info, groups and kerning of UFO 3,
layer info and glyphs. Files that one of the session's states cannot be read from are left aside, cf. `Noticed`. -/
theorem C124_session (E : FontInfo.Env) (G : Glif.Env) (L : Casing) (havePrevious : Bool) (fs fs' : FS) (version : Int) (creator : PyVal) (validate : Bool) (w : Writer)
    (h : openWriter E.F havePrevious fs version creator validate = (fs', .ok w)) (ops : List Op) (ho : OneFileEach E L (w, fs') ops) {α : Type} (c : ReadCall α)
    (hc : Spec.ReadMoments.OneFile c) (hf : ¬ HEq c ReadCall.features) (hb : ∀ p, ¬ HEq c (ReadCall.bytes p)) (hg : ∀ gs n, ¬ HEq c (ReadCall.glif gs n)) (l : List FS) (r : Except Exc α)
    (hs : (c.prog E G).Sees l r) (hl : ∀ m ∈ l, StoppedBetween fs (run E L (w, fs') ops).2 m) :
    ∃ s, (s = fs ∨ ∃ pre, pre <+: ops ∧ s = (run E L (w, fs') pre).2) ∧ Noticed (c.read E G s) r := by
  rcases C124_file E G c hc l r hs with ⟨m, rfl, rfl⟩ | ⟨-, hr⟩
  · obtain ⟨s, h1, h2⟩ := C112_reads E G L havePrevious fs fs' version creator validate w h ops ho m (hl m (List.mem_singleton.2 rfl))
    refine ⟨s, h1, ?_⟩
    cases hc with
    | @version b => exact (h2 0 b).1
    | @info v b => exact (h2 v b).2.1
    | @lib b => exact (h2 0 b).2.2.1
    | @groups3 b => exact (h2 0 b).2.2.2.1
    | @kerning3 b => exact (h2 0 b).2.2.2.2.1
    | features => exact absurd HEq.rfl hf
    | bytes => exact absurd HEq.rfl (hb _)
    | glif => exact absurd HEq.rfl (hg _ _)
    | @glyph gs n o p b => exact (h2 0 b).2.2.2.2.2.2.2.2.2.1 gs n o p
    | @layerInfo gs b => exact (h2 0 b).2.2.2.2.2.2.2.2.1 gs
  · exact ⟨fs, .inl rfl, fun x x' h1 h2 => by rw [hr fs, h1] at h2; cases h2; rfl⟩

/-- C124. The names of layers are those of one moment, also with validation, which asks for the directories at later moments. -/
theorem C124_layers (E : FontInfo.Env) (G : Glif.Env) (v : Int) (b : Bool) (l : List FS) (names : List Str) (h : ((ReadCall.layerNames v b).prog E G).Sees l (.ok names)) :
    (v < 3 ∧ ∀ m, getLayerNames E.F m v false = .ok names) ∨ ∃ m ∈ l, getLayerNames E.F m v false = .ok names := by
  obtain ⟨l1, l2, t, rfl, h1, h2⟩ := sees_thenP_ok h
  have h2 := (sees_ret h2).2
  unfold getLayerNames
  rcases sees_readLayersP h1 with ⟨hv, h⟩ | ⟨m, hm, h⟩
  · exact .inl ⟨hv, fun m => by rw [h m]; exact h2.symm⟩
  · exact .inr ⟨m, List.mem_append_left _ hm, by rw [h]; exact h2.symm⟩

theorem C124_default (E : FontInfo.Env) (G : Glif.Env) (v : Int) (b : Bool) (l : List FS) (name : Str) (h : ((ReadCall.defaultLayer v b).prog E G).Sees l (.ok name)) :
    (v < 3 ∧ ∀ m, getDefaultLayerName E.F m v false = .ok name) ∨ ∃ m ∈ l, getDefaultLayerName E.F m v false = .ok name :=
  sees_defaultLayerP h

/-- C124. A glyph set: its name was that of the default layer at one moment (if no name was given), its directory was that of this layer at one moment, and its table is that of one moment. -/
theorem C124_glyphSet (E : FontInfo.Env) (G : Glif.Env) (v : Int) (layer : Option Str) (b : Bool) (l : List FS) (gs : GlyphSet.GlyphSet)
    (h : ((ReadCall.glyphSet v layer b).prog E G).Sees l (.ok gs)) :
    ∃ name, (layer = some name ∨ (layer = none ∧ ∃ m ∈ l, getDefaultLayerName E.F m v false = .ok name)) ∧
      (∃ m ∈ l, ∃ t e, readLayers E.F m v false = .ok t ∧ t.find? (fun e => decide (e.1 = name)) = some e ∧ gs.dir = [e.2]) ∧
      (∃ m ∈ l, m.node? gs.dir = some .dir) ∧
      ∃ m ∈ l, ∃ g, GlyphSet.openGlyphSet E.F m gs.dir v.toNat false = .ok g ∧ gs.contents = g.contents := by
  obtain ⟨l1, l2, name, hl, h1, h2⟩ := sees_thenP_ok h
  obtain ⟨l3, l4, t, hl', h3, h4⟩ := sees_thenP_ok h2
  subst hl hl'
  cases hf : t.find? (fun e => decide (e.1 = name)) with
  | none => rw [hf] at h4; cases (sees_ret h4).2
  | some e =>
    rw [hf] at h4
    obtain ⟨m4, l5, hl5, h5, h6⟩ := sees_openDirP h4
    obtain ⟨h7, m6, hm6, g, h8, h9⟩ := sees_openP h6
    subst hl5
    have m4mem : m4 ∈ l1 ++ (l3 ++ m4 :: l5) := by simp
    refine ⟨name, ?_, ?_, ⟨m4, m4mem, by rw [h7]; exact h5⟩, m6, by simp [hm6], g, by rw [h7]; exact h8, h9⟩
    · cases layer with
      | some n =>
        obtain ⟨-, h⟩ := sees_ret h1
        cases h
        exact .inl rfl
      | none =>
        rcases sees_defaultLayerP h1 with ⟨-, h⟩ | ⟨m, hm, h⟩
        · exact .inr ⟨rfl, m4, m4mem, h m4⟩
        · exact .inr ⟨rfl, m, by simp [hm], h⟩
    · rcases sees_readLayersP h3 with ⟨-, h⟩ | ⟨m, hm, h⟩
      · exact ⟨m4, m4mem, t, e, h m4, hf, h7⟩
      · exact ⟨m, by simp [hm], t, e, h, hf, h7⟩

/-- C124. Every entry of the tables that are made from the files of glyphs was fetched from the glyph's file at one moment. -/
theorem C124_tables (E : FontInfo.Env) (G : Glif.Env) (gs : GlyphSet.GlyphSet) (names : Option (List Str)) (l : List FS) (n : Str) :
    (∀ t v, ((ReadCall.unicodes gs names).prog E G).Sees l (.ok t) → Dict.get? t n = some v → ∃ m ∈ l, ∃ d, GlyphSet.getGLIF (gs, m) n = .ok d ∧ Glif.fetchUnicodesOf d = .ok v) ∧
    (∀ t v, ((ReadCall.components gs names).prog E G).Sees l (.ok t) → Dict.get? t n = some v → ∃ m ∈ l, ∃ d, GlyphSet.getGLIF (gs, m) n = .ok d ∧ Glif.fetchComponentBasesOf d = .ok v) ∧
    (∀ t v, ((ReadCall.images gs names).prog E G).Sees l (.ok t) → Dict.get? t n = some v → ∃ m ∈ l, ∃ d, GlyphSet.getGLIF (gs, m) n = .ok d ∧ Glif.fetchImageFileNameOf d = .ok v) := by
  refine ⟨fun t v h hv => ?_, fun t v h hv => ?_, fun t v h hv => ?_⟩
  · rcases sees_fetchP _ _ _ _ h n v hv with h | h
    · cases h
    · exact h
  · rcases sees_fetchP _ _ _ _ h n v hv with h | h
    · cases h
    · exact h
  · rcases sees_fetchP _ _ _ _ h n v hv with h | h
    · cases h
    · exact h

/-- C124. An image is that of one moment. -/
theorem C124_image (E : FontInfo.Env) (G : Glif.Env) (v : Int) (n : Str) (b : Bool) (l : List FS) (d : Bytes) (h : ((ReadCall.image v n b).prog E G).Sees l (.ok d)) :
    ∃ m ∈ l, m.getbytes [imagesName, n] = .ok d := by
  have h : (imageP v n b).Sees l (.ok d) := h
  unfold imageP at h
  split at h
  · cases (sees_ret h).2
  · obtain ⟨m, l', hl, -, h1⟩ := sees_openDirP h
    obtain ⟨m', l2, hl2, h2⟩ := sees_get h1
    have h3 := (sees_ret h2).2
    refine ⟨m', by rw [hl, hl2]; simp, ?_⟩
    cases hg : m'.getbytes [imagesName, n] with
    | error e => rw [hg] at h3; cases h3
    | ok x =>
      rw [hg] at h3
      dsimp only at h3
      split at h3
      · cases h3
      · cases h3; rfl

/-- C124. Groups and kerning of UFO 1 and 2, read for the first time: they are converted from the groups of one moment and the kerning of a later one. -/
theorem C124_converted_partial (E : FontInfo.Env) (G : Glif.Env) (conv : PyVal → PyVal → Except Exc (Converters.Converted PyVal)) (kind : KerningReader.Kind) (b : Bool) (l : List FS)
    (r : KerningReader.Ret) (h : ((ReadCall.converted conv none kind b).prog E G).Sees l (.ok r)) :
    ∃ m1 m2, l = [m1, m2] ∧ (KerningReader.step conv none ⟨kind, b, getPlist E.F m2 [kerningName] (some (.dict [])), getPlist E.F m1 [groupsName] (some (.dict []))⟩).1 = .ok r := by
  obtain ⟨l1, l2, g, hl, h1, h2⟩ := sees_thenP_ok h
  obtain ⟨m1, hm1, hg⟩ := sees_getPlistP h1
  split at h2
  · cases (sees_ret h2).2
  · obtain ⟨l3, l4, k, hl', h3, h4⟩ := sees_thenP_ok h2
    obtain ⟨m2, hm2, hk⟩ := sees_getPlistP h3
    obtain ⟨h5, h6⟩ := sees_ret h4
    refine ⟨m1, m2, by rw [hl, hm1, hl', hm2, h5]; rfl, ?_⟩
    rw [← hg, ← hk]
    exact h6.symm

/-- A UFO 2 with groups and kerning. -/
def ufo124 : World :=
  let r := openWriter fractionCodec false fs57 2 (.str c!"x") true;
  match r.2 with
  | .ok w => run env57 asciiCasing (w, r.1) [.groups [(c!"A", [c!"a"])] true, .kerning [((c!"A", c!"x"), .int 5)] true]
  | .error _ => (new60.1, r.1)

/-- A group is renamed in both files. -/
def ops124 : List Op := [.groups [(c!"B", [c!"a"])] true, .kerning [((c!"B", c!"x"), .int 7)] true]

/-- The call on the reader. -/
def read124 : ReadCall KerningReader.Ret := .converted (KerningReader.convertFiles id id) none .kerning true

theorem prefix_pair {α : Type} {a b : α} {l : List α} (h : l <+: [a, b]) : l = [] ∨ l = [a] ∨ l = [a, b] := by
  obtain ⟨t, ht⟩ := h
  rcases l with - | ⟨x, - | ⟨y, - | ⟨z, l⟩⟩⟩ <;> simp_all

/-- C124. Refuted: with the groups from before and the kerning from after the session, `readKerning` returns kerning that it returns at no point of the session, and does not raise. -/
theorem C124_refuted (G : Glif.Env) : ∃ r, (read124.prog env57 G).Sees [ufo124.2, (run env57 asciiCasing ufo124 ops124).2] (.ok r) ∧
    ∀ pre, pre <+: ops124 → read124.read env57 G (run env57 asciiCasing ufo124 pre).2 ≠ .ok r := by
  refine ⟨.kerning [((c!"B", c!"x"), .int 7)], ?_, ?_⟩
  · have h1 : (getPlist fractionCodec ufo124.2 [groupsName] (some (.dict []))).toOption = some (.dict [(.str c!"A", .list [.str c!"a"])]) := by decide +kernel
    have h2 : (getPlist fractionCodec (run env57 asciiCasing ufo124 ops124).2 [kerningName] (some (.dict []))).toOption = some (.dict [(.str c!"B", .dict [(.str c!"x", .int 7)])]) := by decide +kernel
    have h1' : getPlist fractionCodec ufo124.2 [groupsName] (some (.dict [])) = .ok (.dict [(.str c!"A", .list [.str c!"a"])]) := by
      revert h1
      cases getPlist fractionCodec ufo124.2 [groupsName] (some (.dict [])) with
      | error e => intro h; cases h
      | ok v => intro h; rw [Option.some.inj h]
    have h2' : getPlist fractionCodec (run env57 asciiCasing ufo124 ops124).2 [kerningName] (some (.dict [])) = .ok (.dict [(.str c!"B", .dict [(.str c!"x", .int 7)])]) := by
      revert h2
      cases getPlist fractionCodec (run env57 asciiCasing ufo124 ops124).2 [kerningName] (some (.dict [])) with
      | error e => intro h; cases h
      | ok v => intro h; rw [Option.some.inj h]
    generalize (run env57 asciiCasing ufo124 ops124).2 = m2 at h2' ⊢
    generalize ufo124.2 = m1 at h1' ⊢
    refine .get ?_
    show Prog.Sees (Prog.bind (.ret (getPlist fractionCodec m1 [groupsName] (some (.dict [])))) _) _ _
    rw [h1']
    refine .get ?_
    show Prog.Sees (Prog.bind (.ret (getPlist fractionCodec m2 [kerningName] (some (.dict [])))) _) _ _
    rw [h2']
    have h3 : ((KerningReader.step (KerningReader.convertFiles id id) none ⟨.kerning, true, .ok (.dict [(.str c!"B", .dict [(.str c!"x", .int 7)])]), .ok (.dict [(.str c!"A", .list [.str c!"a"])])⟩).1).toOption =
      some (.kerning [((c!"B", c!"x"), .int 7)]) := by decide +kernel
    have h4 : (KerningReader.step (KerningReader.convertFiles id id) none ⟨.kerning, true, .ok (.dict [(.str c!"B", .dict [(.str c!"x", .int 7)])]), .ok (.dict [(.str c!"A", .list [.str c!"a"])])⟩).1 =
      .ok (.kerning [((c!"B", c!"x"), .int 7)]) := by
      revert h3
      generalize (KerningReader.step (KerningReader.convertFiles id id) none ⟨.kerning, true, .ok (.dict [(.str c!"B", .dict [(.str c!"x", .int 7)])]), .ok (.dict [(.str c!"A", .list [.str c!"a"])])⟩).1 = q
      cases q with
      | error e => intro h; cases h
      | ok v => intro h; rw [Option.some.inj h]
    rw [← h4]
    exact .ret
  · intro pre hp
    have key : ∀ m, (read124.read env57 G m).toOption ≠ some (.kerning [((c!"B", c!"x"), .int 7)]) → read124.read env57 G m ≠ .ok (.kerning [((c!"B", c!"x"), .int 7)]) := by
      intro m h1 h2
      rw [h2] at h1
      exact h1 rfl
    have unf : ∀ m, read124.read env57 G m = (KerningReader.step (KerningReader.convertFiles id id) none ⟨.kerning, true, getPlist fractionCodec m [kerningName] (some (.dict [])), getPlist fractionCodec m [groupsName] (some (.dict []))⟩).1 :=
      fun _ => rfl
    rcases prefix_pair hp with rfl | rfl | rfl
    · refine key _ ?_; rw [unf]; decide +kernel
    · refine key _ ?_; rw [unf]; decide +kernel
    · refine key _ ?_; rw [unf]; decide +kernel

/-- The session of the example of C112, and a lib that is read in it. -/
example (G : Glif.Env) : ∃ r, ((ReadCall.lib true).prog env57 G).Sees [(run env57 asciiCasing new60 (ops112.take 1)).2] (.ok r) := by
  have h : (readLib fractionCodec (run env57 asciiCasing new60 (ops112.take 1)).2 true).toOption = some (.dict [(.str c!"a", .int 1)]) := by decide +kernel
  generalize (run env57 asciiCasing new60 (ops112.take 1)).2 = m at h ⊢
  unfold readLib at h
  refine ⟨.dict [(.str c!"a", .int 1)], .get ?_⟩
  show Prog.Sees (Prog.bind (.ret (getPlist fractionCodec m [libName] (some (.dict [])))) _) _ _
  revert h
  cases getPlist fractionCodec m [libName] (some (.dict [])) with
  | error e => intro h; cases h
  | ok v =>
    intro h
    dsimp only at h
    split at h
    · cases h
    · rename_i hv
      cases Option.some.inj h
      exact .ret

end Verif.Props
