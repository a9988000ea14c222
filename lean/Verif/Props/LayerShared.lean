import Verif.Proofs.LayerTurns
import Verif.Props.GlyphSet
/-! Programs that work on the same layer: C128. -/
namespace Verif.Props
open Verif Verif.FS Verif.IO Verif.GlyphSet Verif.Spec.GlyphSet Verif.Spec.LayerShared Verif.Proofs.LayerShared

/-- Programs that have opened the same layer and write different glyphs of it, which all are in its table, do not disturb each other: in every order of their calls each gets the
outcomes it would get alone, its glyph set is what it would be alone, and its glyphs hold what they would hold alone. -/
theorem C128_edits_partial (L : Casing) (F : FloatCodec) (C : Dict Str Str) (dir : Path) (B : Bytes) (hB : dumpBytes F (contentsVal C) = .ok B) (N : Nat → Str → Prop)
    (hN : ∀ i j n, N i n → N j n → i = j) (s : Sharing) (hs : ∀ gs ∈ s.sets, gs.contents = C ∧ gs.dir = dir) (ha : Apart s.fs.canon C) (hr : Ready s.fs dir C)
    (sched : List (Nat × Op)) (hsched : ∀ e ∈ sched, Edits C (N e.1) e.2) (i : Nat) (gs : GlyphSet) (hi : s.sets[i]? = some gs) :
    let alone := run L F (gs, s.fs) (ofProgram i sched)
    (s.run L F sched).sets[i]? = some alone.1 ∧ s.outcomes L F i sched = results L F (gs, s.fs) (ofProgram i sched) ∧
      ∀ n f, N i n → Dict.get? C n = some f → (s.run L F sched).fs.node? (dir ++ [f]) = alone.2.node? (dir ++ [f]) :=
  alone_run hB N hN i sched hsched s gs s.fs ⟨hs, ha, hr⟩ hi hr rfl fun _ _ _ _ => rfl

/-- Meanwhile the table in the file is the one all of them have, as soon as one has saved it, and as before otherwise. Files that are not about a glyph of a program are as before. -/
theorem C128_rest (L : Casing) (F : FloatCodec) (C : Dict Str Str) (dir : Path) (B : Bytes) (hB : dumpBytes F (contentsVal C) = .ok B) (N : Nat → Str → Prop)
    (s : Sharing) (hs : ∀ gs ∈ s.sets, gs.contents = C ∧ gs.dir = dir) (ha : Apart s.fs.canon C) (hr : Ready s.fs dir C)
    (sched : List (Nat × Op)) (hsched : ∀ e ∈ sched, Edits C (N e.1) e.2) :
    ((∃ j, (j, Op.save) ∈ sched ∧ j < s.sets.length) → (s.run L F sched).fs.node? (dir ++ [c!"contents.plist"]) = some (.file B)) ∧
    ((∀ j, (j, Op.save) ∈ sched → s.sets.length ≤ j) → (s.run L F sched).fs.node? (dir ++ [c!"contents.plist"]) = s.fs.node? (dir ++ [c!"contents.plist"])) ∧
    ∀ q, s.fs.key q ≠ s.fs.key (dir ++ [c!"contents.plist"]) → (∀ i n f, N i n → Dict.get? C n = some f → s.fs.key q ≠ s.fs.key (dir ++ [f])) →
      (s.run L F sched).fs.node? q = s.fs.node? q :=
  ⟨(table_run hB N sched hsched s ⟨hs, ha, hr⟩).1, (table_run hB N sched hsched s ⟨hs, ha, hr⟩).2, fun q h1 h2 => rest_run hB N q sched hsched s ⟨hs, ha, hr⟩ h1 h2⟩

/-- Two programs that have opened a layer with two glyphs. -/
def files128 : FS :=
  (writeContents fractionCodec (⟨[c!"glyphs"], [(c!"a", c!"a.glif"), (c!"b", c!"b.glif")], none, none, true, 3, true⟩,
    { canon := id, nodes := [([c!"glyphs"], .dir), ([c!"glyphs", c!"a.glif"], .file (utf8 c!"a")), ([c!"glyphs", c!"b.glif"], .file (utf8 c!"b"))], log := [] })).1.2
def set128 : Option GlyphSet := (openGlyphSet fractionCodec files128 [c!"glyphs"] 3 true).toOption
def both128 : Sharing := ⟨set128.toList ++ set128.toList, files128⟩

/-- Writing a glyph with a text. -/
def put128 (name text : Str) : Op := .write (defaultNaming asciiCasing) name none fun _ => .ok (utf8 text)

/-- What the glyphs of the layer are, for a program that opens it. -/
def found128 (s : Sharing) : Option (List (Str × Option Bytes)) :=
  (openGlyphSet fractionCodec s.fs [c!"glyphs"] 3 true).toOption.map fun gs => gs.contents.map fun e => (e.1, (getGLIF (gs, s.fs) e.1).toOption)

example : found128 (both128.run asciiCasing fractionCodec [(0, put128 c!"a" c!"A1"), (1, put128 c!"b" c!"B1"), (1, .save), (0, put128 c!"a" c!"A2"), (0, .save)]) =
    some [(c!"a", some (utf8 c!"A2")), (c!"b", some (utf8 c!"B1"))] := by decide +kernel

/-- The hypotheses hold for it. -/
example : (∀ gs ∈ both128.sets, gs.contents = [(c!"a", c!"a.glif"), (c!"b", c!"b.glif")] ∧ gs.dir = [c!"glyphs"]) ∧ both128.sets.length = 2 ∧
    (dumpBytes fractionCodec (contentsVal [(c!"a", c!"a.glif"), (c!"b", c!"b.glif")])).toOption.isSome = true := by
  refine ⟨fun gs h => ?_, by decide +kernel, by decide +kernel⟩
  have key : (set128.map fun g => (g.contents, g.dir)) = some ([(c!"a", c!"a.glif"), (c!"b", c!"b.glif")], [c!"glyphs"]) := by decide +kernel
  have h' : gs ∈ set128.toList := by
    rcases List.mem_append.1 (show gs ∈ set128.toList ++ set128.toList from h) with h | h <;> exact h
  rw [Option.mem_toList] at h'
  have h'' : set128 = some gs := h'
  rw [h''] at key
  have := Option.some.inj key
  exact ⟨congrArg Prod.fst this, congrArg Prod.snd this⟩
example : Apart id [(c!"a", c!"a.glif"), (c!"b", c!"b.glif")] ∧ Ready files128 [c!"glyphs"] [(c!"a", c!"a.glif"), (c!"b", c!"b.glif")] := by
  have hm : ∀ n f, Dict.get? [(c!"a", c!"a.glif"), (c!"b", c!"b.glif")] n = some f → (n = c!"a" ∧ f = c!"a.glif") ∨ (n = c!"b" ∧ f = c!"b.glif") := by
    intro n f h
    have := Dict.mem_of_get? h
    simpa using this
  refine ⟨⟨fun n m f g h1 h2 e => ?_, fun n f h => ?_⟩, ⟨by decide +kernel, fun n f h => ?_, by decide +kernel⟩⟩
  · rcases hm _ _ h1 with ⟨rfl, rfl⟩ | ⟨rfl, rfl⟩ <;> rcases hm _ _ h2 with ⟨rfl, rfl⟩ | ⟨rfl, rfl⟩
    · rfl
    · exact absurd e (by decide)
    · exact absurd e (by decide)
    · rfl
  · rcases hm _ _ h with ⟨rfl, rfl⟩ | ⟨rfl, rfl⟩ <;> decide
  · rcases hm _ _ h with ⟨rfl, rfl⟩ | ⟨rfl, rfl⟩ <;> decide +kernel

/-- Programs that take turns lose nothing, also when they add and delete glyphs: if each reads the table again at the start of its turn and saves it at the end, and all calls return, then the layer
can be opened afterwards, and every glyph is what the calls of all programs together have made of it. -/
theorem C128_turns_partial (L : Casing) (hL : CaseLaws L.lower) (F : FloatCodec) (hF : F.Lawful) (N : Str → Prop) (hN : OwnFiles L.lower N) (hT : ∀ n, N n → Spec.Plist.FileText n)
    (s : Sharing) (dir : Path) (hs : ∀ gs ∈ s.sets, gs.dir = dir) (hcanon : ∀ a b, s.fs.canon a = s.fs.canon b → L.lower a = L.lower b)
    (gs : GlyphSet) (hgs : openGlyphSet F s.fs dir 3 true = .ok gs) (hown : ∀ n f, Dict.get? gs.contents n = some f → N n ∧ f = ownFile L.lower n)
    (hread : ∀ n ∈ keys gs, ∃ d, getGLIF (gs, s.fs) n = .ok d) (turns : List Turn)
    (hops : ∀ t ∈ turns, ∀ op ∈ t.ops, (∀ v, op ≠ .rebuild v) ∧ ∀ naming n fv data, op = .write naming n fv data → naming = defaultNaming L ∧ N n)
    (hok : ∀ i, ∀ r ∈ s.outcomes L F i (schedule turns), r = .ok ()) :
    ∃ gs', openGlyphSet F (s.run L F (schedule turns)).fs dir 3 true = .ok gs' ∧
      ∀ n, Expects (getGLIF (gs', (s.run L F (schedule turns)).fs) n) ((seen (getGLIF (gs, s.fs) n)).history n (record L F s (schedule turns))) := by
  have h0 : Proofs.LayerTurns.Holds L F N dir s.fs fun n => seen (getGLIF (gs, s.fs) n) := by
    refine ⟨gs, hgs, hown, fun n => ?_⟩
    dsimp only
    cases hg : getGLIF (gs, s.fs) n with
    | ok d => exact ⟨by simp [seen], (expects_iff (s := .holds d)).1 hg⟩
    | error e =>
      refine ⟨by simp [seen], ?_⟩
      show Dict.get? gs.contents n = none
      cases hc : Dict.get? gs.contents n with
      | none => rfl
      | some f =>
        obtain ⟨d, hd⟩ := hread n (Dict.mem_keys_of_mem (Dict.mem_of_get? hc))
        rw [hg] at hd
        cases hd
  obtain ⟨gs', h1, -, h3⟩ := Proofs.LayerTurns.turns_run hL hF hN hT turns s _ hcanon h0 hs hops hok
  exact ⟨gs', h1, fun n => expects_iff.2 (h3 n).2⟩

/-- Two programs take turns. -/
def turns128 : List Turn := [⟨0, true, [put128 c!"c" c!"C", .delete c!"a"]⟩, ⟨1, false, [put128 c!"d" c!"D"]⟩, ⟨0, true, [put128 c!"d" c!"D2"]⟩]

example : found128 (both128.run asciiCasing fractionCodec (schedule turns128)) =
    some [(c!"b", some (utf8 c!"b")), (c!"c", some (utf8 c!"C")), (c!"d", some (utf8 c!"D2"))] := by decide +kernel

/-- The hypotheses hold for it. -/
example : (openGlyphSet fractionCodec both128.fs [c!"glyphs"] 3 true).toOption.map (fun gs => gs.contents.map fun e => (e.2 = ownFile asciiCasing.lower e.1 : Bool)) = some [true, true] ∧
    both128.outcomes asciiCasing fractionCodec 0 (schedule turns128) = List.replicate 7 (.ok ()) ∧ both128.outcomes asciiCasing fractionCodec 1 (schedule turns128) = List.replicate 3 (.ok ()) := by
  decide +kernel

example : OwnFiles asciiCasing.lower (· ∈ [c!"a", c!"b", c!"c", c!"d"]) ∧ ∀ n, n ∈ [c!"a", c!"b", c!"c", c!"d"] → Spec.Plist.FileText n := by
  refine ⟨⟨by decide, fun n m hn hm => ?_⟩, by decide⟩
  have key : ∀ n ∈ [c!"a", c!"b", c!"c", c!"d"], ∀ m ∈ [c!"a", c!"b", c!"c", c!"d"], asciiCasing.lower (ownFile asciiCasing.lower n) = asciiCasing.lower (ownFile asciiCasing.lower m) → n = m := by
    decide +kernel
  exact key n hn m hm

/-- The full claim fails for glyphs that are added: the table of the program that saves last does not have the glyph of the other, though all calls succeeded. -/
theorem C128_added_refuted : both128.outcomes asciiCasing fractionCodec 0 [(0, put128 c!"c" c!"C"), (0, .save), (1, put128 c!"d" c!"D"), (1, .save)] = [.ok (), .ok ()] ∧
    found128 (both128.run asciiCasing fractionCodec [(0, put128 c!"c" c!"C"), (0, .save), (1, put128 c!"d" c!"D"), (1, .save)]) =
      some [(c!"a", some (utf8 c!"a")), (c!"b", some (utf8 c!"b")), (c!"d", some (utf8 c!"D"))] := by decide +kernel

/-- Two programs may also give their new glyphs the same file: what the first wrote is destroyed, and its own glyph set delivers the text of the other glyph. -/
theorem C128_file_refuted :
    let s := both128.run asciiCasing fractionCodec [(0, put128 c!"c_" c!"C"), (1, put128 c!"c*" c!"D")]
    (s.sets[0]?.bind fun gs => (getGLIF (gs, s.fs) c!"c_").toOption) = some (utf8 c!"D") := by decide +kernel

/-- And for glyphs that are deleted: when the other program saves its table afterwards, the layer cannot be opened any more. -/
theorem C128_deleted_refuted : (found128 both128).isSome = true ∧
    both128.outcomes asciiCasing fractionCodec 0 [(0, .delete c!"a"), (0, .save), (1, put128 c!"b" c!"B"), (1, .save)] = [.ok (), .ok ()] ∧
    found128 (both128.run asciiCasing fractionCodec [(0, .delete c!"a"), (0, .save), (1, put128 c!"b" c!"B"), (1, .save)]) = none := by decide +kernel

end Verif.Props
