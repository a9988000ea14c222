import Verif.Proofs.UfoRelax
import Verif.Props.UfoCopy
import Verif.Props.Draw
import Verif.Props.KerningReader
/-! C92: validation only refuses. -/
namespace Verif.Props
open Verif Verif.Ufo Verif.Spec.Relax Verif.Spec.Glif Verif.Converters Verif.Kerning

/-- C92: a glyph that is read with validation is read without it to the same attributes and the same calls on the pen; so is a glyph of a glyph set, and a glyph that is drawn. -/
theorem C92_read_glyph (E : Glif.Env) (hasObj hasPen : Bool) :
    (∀ (versions : List Int) (b : Bytes), Relaxes (GlifFile.readGlyphFromBytes E true hasObj hasPen versions b) (GlifFile.readGlyphFromBytes E false hasObj hasPen versions b))
    ∧ (∀ (w : GlyphSet.World) (name : Str), Relaxes (GlyphSet.readGlyph E w name hasObj hasPen true) (GlyphSet.readGlyph E w name hasObj hasPen false))
    ∧ (∀ (w : GlyphSet.World) (name : Str), Relaxes (GlyphSet.draw E w name true) (GlyphSet.draw E w name false)) :=
  ⟨readGlyphFromBytes_relax E hasObj hasPen, fun w name => readGlyph_relax E w name hasObj hasPen, drawGlyph_relax E⟩

example : (GlifFile.readGlyphFromBytes env71 false true true [1, 2] (utf8 text86)).toOption = (GlifFile.readGlyphFromBytes env71 true true true [1, 2] (utf8 text86)).toOption
    ∧ ((GlifFile.readGlyphFromBytes env71 true true true [1, 2] (utf8 text86)).toOption.map fun r => decide (r.2 = [])) = some false := by
  have h : (GlifFile.readGlyphFromBytes env71 true true true [1, 2] (utf8 text86)).toOption.isSome = true := by decide +kernel
  obtain ⟨r, hr⟩ := Option.isSome_iff_exists.1 h
  exact ⟨by rw [(C92_read_glyph env71 true true).1 _ _ r (toOption_some hr)]; exact hr.symm, by decide +kernel⟩

/-- C92: a glyph that is written with validation is written without it to the same bytes, and writing it into a glyph set leaves the same glyph set and the same files, unless the glyph has a
single code point instead of a list of code points. -/
theorem C92_write_glyph_partial (E : Glif.Env) (o : Glif.Obj) (draw : Option (List Glif.Call)) (hu : ∀ i : Int, o.attr c!"unicodes" ≠ .int i) (hb : ∀ b : Bool, o.attr c!"unicodes" ≠ .bool b) :
    (∀ (fv : Nat) (name : PyVal), Relaxes (GlifFile.writeGlyphToBytes E true fv name o draw) (GlifFile.writeGlyphToBytes E false fv name o draw))
    ∧ ∀ (L : Casing) (naming : GlyphSet.Naming) (w : GlyphSet.World) (name : Str) (fv : Option Int),
        RelaxesTo (GlifFile.writeGlyph E L naming w name fv true o draw) (GlifFile.writeGlyph E L naming w name fv false o draw) := by
  have h : Validators.isInt (o.attr c!"unicodes") = false := by
    cases hx : o.attr c!"unicodes" with
    | int i => exact absurd hx (hu i)
    | bool b => exact absurd hx (hb b)
    | _ => rfl
  exact ⟨fun fv name => writeGlyphToBytes_relax E fv name h draw, fun L naming w name fv => writeGlyph_relax E L naming w name fv h draw⟩

example : (GlifFile.writeGlyphToBytes env71 true 2 (.str c!"A") glyph44 (some (drawing drawing44))).toOption.isSome = true
    ∧ GlifFile.writeGlyphToBytes env71 false 2 (.str c!"A") glyph44 (some (drawing drawing44)) = .ok bytes71 :=
  ⟨by decide +kernel, (C92_write_glyph_partial env71 glyph44 (some (drawing drawing44)) (by intro i; simp [Glif.Obj.attr, glyph44]) (by intro i; simp [Glif.Obj.attr, glyph44])).1 2 (.str c!"A") bytes71
    (eq_ok (by decide +kernel))⟩

/-- C92 fails for a glyph with a single code point: with validation it is taken for the list of it, without validation writing raises `TypeError`. -/
theorem C92_write_glyph_false : ¬ ∀ (E : Glif.Env) (o : Glif.Obj), Relaxes (GlifFile.writeGlyphToBytes E true 2 (.str c!"A") o none) (GlifFile.writeGlyphToBytes E false 2 (.str c!"A") o none) := by
  intro h
  have h1 : (GlifFile.writeGlyphToBytes env71 true 2 (.str c!"A") (fun n => if n = c!"unicodes" then some (.int 65) else none) none).toOption.isSome = true := by decide +kernel
  have h2 : (GlifFile.writeGlyphToBytes env71 false 2 (.str c!"A") (fun n => if n = c!"unicodes" then some (.int 65) else none) none).toOption.isSome = false := by decide +kernel
  obtain ⟨r, hr⟩ := Option.isSome_iff_exists.1 h1
  rw [h env71 _ r (toOption_some hr)] at h2
  cases h2

/-- C92: what is read from a UFO with validation is read without it. -/
theorem C92_read (E : FontInfo.Env) (fs : FS) (version : Int) :
    Relaxes (Ufo.readLib E.F fs true) (Ufo.readLib E.F fs false)
    ∧ Relaxes (readGroups3 E.F fs true) (readGroups3 E.F fs false)
    ∧ Relaxes (readKerning3 E.F fs true) (readKerning3 E.F fs false)
    ∧ Relaxes (Ufo.readInfo E fs version true) (Ufo.readInfo E fs version false)
    ∧ Relaxes (readMetaInfo E.F fs true) (readMetaInfo E.F fs false)
    ∧ Relaxes (getLayerNames E.F fs version true) (getLayerNames E.F fs version false)
    ∧ Relaxes (getDefaultLayerName E.F fs version true) (getDefaultLayerName E.F fs version false)
    ∧ (∀ layer, Relaxes (getCharacterMapping E.F fs version layer true) (getCharacterMapping E.F fs version layer false))
    ∧ (∀ name, Relaxes (Ufo.readImage fs version name true) (Ufo.readImage fs version name false))
    ∧ (∀ gs, Relaxes (GlyphSet.readLayerInfo E.F (gs, fs) true) (GlyphSet.readLayerInfo E.F (gs, fs) false))
    ∧ (∀ layer gs, readerGlyphSet E.F fs version layer true = .ok gs → readerGlyphSet E.F fs version layer false = .ok { gs with validateRead := false }) :=
  ⟨Ufo.readLib_relax E.F fs true, readGroups3_relax E.F fs true, readKerning3_relax E.F fs true, Ufo.readInfo_relax E fs version true, readMetaInfo_relax E.F fs true,
    getLayerNames_relax E.F fs version true, getDefaultLayerName_relax E.F fs version true, fun layer => getCharacterMapping_relax E.F fs version layer true,
    fun name => Ufo.readImage_relax fs version name true, fun gs => readLayerInfo_relax E.F (gs, fs) true, fun layer _ h => readerGlyphSet_relax E.F fs version layer true h⟩

example : getDefaultLayerName env57.F src89 3 false = .ok c!"fore" := (C92_read env57 src89 3).2.2.2.2.2.2.1 _ (eq_ok (by decide +kernel))

/-- C92: the groups, kerning and rename maps of a UFO 1 or 2, for every history of calls on one reader that do not raise, whatever the files are at each call. -/
theorem C92_read_old (conv : PyVal → PyVal → Except Exc (Converters.Converted PyVal)) (cache : Option KerningReader.Cache) (cs : List KerningReader.Call)
    (h : ∀ e ∈ KerningReader.run conv cache cs, ∃ r, e.2 = .ok r) :
    (KerningReader.run conv cache (cs.map fun c => { c with validate := false })).map Prod.snd = (KerningReader.run conv cache cs).map Prod.snd :=
  KerningReader.run_lax conv cache cs h

example :
    let f : Except Exc PyVal := .ok (kerningVal [(c!"@MMK_L_A", [(c!"B", .int 5)])])
    let g : Except Exc PyVal := .ok (groupsVal [(c!"@MMK_L_A", [c!"A"])])
    let cs : List KerningReader.Call := [⟨.kerning, true, f, g⟩, ⟨.groups, true, f, g⟩, ⟨.maps, true, f, g⟩]
    (KerningReader.run (KerningReader.convertFiles id id) none (cs.map fun c => { c with validate := false })).map Prod.snd = (KerningReader.run (KerningReader.convertFiles id id) none cs).map Prod.snd := by
  intro f g cs
  refine C92_read_old _ none cs ?_
  have h : ∀ e ∈ KerningReader.run (KerningReader.convertFiles id id) none cs, e.2.toOption.isSome = true := by
    show ∀ e ∈ KerningReader.run (KerningReader.convertFiles id id) none [⟨.kerning, true, .ok (kerningVal [(c!"@MMK_L_A", [(c!"B", .int 5)])]), .ok (groupsVal [(c!"@MMK_L_A", [c!"A"])])⟩,
      ⟨.groups, true, .ok (kerningVal [(c!"@MMK_L_A", [(c!"B", .int 5)])]), .ok (groupsVal [(c!"@MMK_L_A", [c!"A"])])⟩,
      ⟨.maps, true, .ok (kerningVal [(c!"@MMK_L_A", [(c!"B", .int 5)])]), .ok (groupsVal [(c!"@MMK_L_A", [c!"A"])])⟩], e.2.toOption.isSome = true
    decide +kernel
  intro e he
  obtain ⟨r, hr⟩ := Option.isSome_iff_exists.1 (h e he)
  exact ⟨r, toOption_some hr⟩

/-- C92: opening a reader and a writer. The writer keeps the flag, as default for its calls. -/
theorem C92_open (F : FloatCodec) (t : Target) :
    Relaxes (openReader F t true) (openReader F t false)
    ∧ (∀ (canon : Str → Str) (dirOk : Bool) (arg : StructureArg) (version : Int) (creator : PyVal) (t' : Target) (k : Handle),
        openPath F canon t dirOk arg version creator true = (t', .ok k) →
        openPath F canon t dirOk arg version creator false = (t', .ok { k with writer := { k.writer with validate := false } }))
    ∧ ∀ (previous : Bool) (fs : FS) (version : Int) (creator : PyVal) (fs' : FS) (w : Writer),
        openWriter F previous fs version creator true = (fs', .ok w) → openWriter F previous fs version creator false = (fs', .ok { w with validate := false }) :=
  ⟨openReader_relax F t true, fun canon dirOk arg version creator _ _ h => openPath_relax F canon t dirOk arg version creator true h,
    fun previous fs version creator _ _ h => openWriter_relax F previous fs version creator true h⟩

example : openReader env57.F (.package src89) false = .ok (src89, 3) := by
  refine (C92_open env57.F (.package src89)).1 _ ?_
  have h : (readMetaInfo env57.F src89 true).toOption = some 3 := by decide +kernel
  simp only [openReader, readerFS, toOption_some h]

/-- C92: a call on a writer, or on a glyph set it gave out, that does not raise leaves the same writer and the same files when validation is switched off, and does not raise either; so does every
history of calls none of which raises. -/
theorem C92_write (E : FontInfo.Env) (L : Casing) (w : World) :
    (∀ op, RelaxesTo (Ufo.step E L w op) (Ufo.step E L w (lax op)))
    ∧ ∀ ops, Succeeds E L w ops → Ufo.run E L w (ops.map lax) = Ufo.run E L w ops ∧ Succeeds E L w (ops.map lax) :=
  ⟨step_lax E L w, fun ops h => Ufo.run_lax E L ops w h⟩

/-- A history of calls that succeed with validation. -/
def ops92 : List Op :=
  [.lib (.dict [(.str c!"x", .int 1)]) true, .groups [(c!"public.kern1.O", [c!"O"]), (c!"a", [])] true, .kerning [((c!"A", c!"B"), .int 3)] true, .glyphSet none true true, .layerContents none true]

example : Ufo.run env57 asciiCasing new60 (ops92.map lax) = Ufo.run env57 asciiCasing new60 ops92 ∧ (Ufo.run env57 asciiCasing new60 ops92).2.exists [kerningName] = true :=
  ⟨((C92_write env57 asciiCasing new60).2 ops92 ⟨by decide +kernel, by decide +kernel, by decide +kernel, by decide +kernel, by decide +kernel, trivial⟩).1, by decide +kernel⟩

/-- The list of images is not the same: without validation files that are not PNG files are listed too. -/
theorem C92_listing_false : ¬ ∀ (fs : FS) (version : Int), Relaxes (getImageDirectoryListing fs version true) (getImageDirectoryListing fs version false) := by
  intro h
  have := h ⟨id, [([imagesName], .dir), ([imagesName, c!"a.txt"], .file [1])], []⟩ 3 [] (by decide +kernel)
  revert this
  decide +kernel

/-- The images listed with validation are listed without it. -/
theorem C92_listing_partial (fs : FS) (version : Int) (l : List Str) (h : getImageDirectoryListing fs version true = .ok l) :
    ∃ l', getImageDirectoryListing fs version false = .ok l' ∧ l.Sublist l' := by
  unfold getImageDirectoryListing at h ⊢
  split at h
  · cases h; exact ⟨[], by rw [if_pos ‹_›], List.Sublist.refl _⟩
  · rw [if_neg ‹_›]
    split at h
    · cases h; exact ⟨[], rfl, List.Sublist.refl _⟩
    · cases h
    · cases h
      refine ⟨_, rfl, ?_⟩
      unfold listImages
      generalize fs.key [imagesName] = k
      induction fs.nodes with
      | nil => exact List.Sublist.refl _
      | cons e l ih =>
        obtain ⟨p, n⟩ := e
        rw [List.filterMap_cons, List.filterMap_cons]
        by_cases hp : p.dropLast = k
        · simp only [if_pos hp]
          cases n with
          | dir => exact ih
          | file d =>
            simp only [Bool.true_and, Bool.false_and, Bool.false_eq_true, if_false]
            cases pngValidator d
            · simp only [Bool.not_false, if_true]
              cases p.getLast? with
              | none => exact ih
              | some s => exact ih.trans (List.sublist_cons_self _ _)
            · simp only [Bool.not_true, Bool.false_eq_true, if_false]
              cases p.getLast? with
              | none => exact ih
              | some s => exact ih.cons_cons _
        · simp only [if_neg hp]; exact ih

end Verif.Props
