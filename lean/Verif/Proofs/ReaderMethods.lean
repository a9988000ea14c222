import Verif.Model.ReaderMethods
import Verif.Proofs.Faults
/-! The methods that read, and the opening of writers, as programs. -/
namespace Verif.Ufo
open Verif Verif.FS Verif.IO Verif.Validators Verif.Converters Verif.Kerning

theorem thenP_run {α β : Type} {p : Prog (Except Exc α)} {k : α → Prog (Except Exc β)} {fs fs' : FS} {r : Except Exc α} (h : p.run fs = (fs', r)) :
    (thenP p k).run fs = match (generalizing := false) r with | .error e => (fs', .error e) | .ok a => (k a).run fs' := by
  unfold thenP
  rw [Prog.run_bind, h]
  cases r <;> rfl

theorem thenP_strict {α β : Type} {p : Prog (Except Exc α)} {k : α → Prog (Except Exc β)} (hp : p.Strict Bad) (hk : ∀ a, (k a).Strict Bad) : (thenP p k).Strict Bad := by
  refine strict_bind Bad hp (fun r => ?_) ?_
  · cases r with
    | error e => trivial
    | ok a => exact hk a
  · rintro r ⟨e, rfl⟩
    exact bad_error e

theorem openDirP_run {α : Type} (p : Path) (missing : Exc) (k : Prog (Except Exc α)) (fs : FS) :
    (openDirP p missing k).run fs = match fs.node? p with
      | none => (fs, .error missing)
      | some (.file _) => (fs, .error .directoryExpected)
      | some .dir => k.run fs := by
  unfold openDirP
  simp only [Prog.run]
  unfold FS.getbytes
  cases fs.node? p with
  | none => rfl
  | some n => cases n <;> rfl

theorem openDirP_strict {α : Type} (p : Path) (missing : Exc) {k : Prog (Except Exc α)} (hk : k.Strict Bad) : (openDirP p missing k).Strict Bad := by
  refine ⟨bad_error _, fun r => ?_⟩
  try dsimp only
  split
  · trivial
  · exact hk
  · trivial
  · trivial

theorem featuresP_run (fs : FS) : featuresP.run fs = (fs, readFeatures fs) := rfl

theorem featuresP_strict : featuresP.Strict Bad := ⟨bad_error _, fun _ => trivial⟩

theorem layerEntriesP_run {α : Type} (k : Bool → Prog (Except Exc α)) (fs : FS) : ∀ (l : List PyVal) (names dirs : List Str),
    ∃ b, layerEntries (dirExists fs) names dirs l = .ok b ∧ (layerEntriesP k names dirs l).run fs = (k b).run fs
  | [], names, dirs => ⟨_, rfl, rfl⟩
  | v :: rest, names, dirs => by
    unfold layerEntries layerEntriesP
    split
    · rename_i h; cases h
    · rename_i n d rest' h
      cases h
      dsimp only
      by_cases h1 : d ≠ c!"glyphs" ∧ startsWith d c!"glyphs." = false
      · rw [if_pos h1, if_pos h1]; exact ⟨_, rfl, rfl⟩
      · rw [if_neg h1, if_neg h1]
        by_cases h2 : n = []
        · rw [if_pos h2, if_pos h2]; exact ⟨_, rfl, rfl⟩
        · rw [if_neg h2, if_neg h2]
          simp only [Prog.run]
          unfold dirExists
          cases fs.exists [d] with
          | false => exact ⟨_, rfl, rfl⟩
          | true =>
            dsimp only
            rw [if_neg (show ¬true = false by simp)]
            by_cases h3 : n = c!"public.default" ∧ d ≠ c!"glyphs"
            · rw [if_pos h3, if_pos h3]; exact ⟨_, rfl, rfl⟩
            · rw [if_neg h3, if_neg h3]
              by_cases h4 : n ∈ names
              · rw [if_pos h4, if_pos h4]; exact ⟨_, rfl, rfl⟩
              · rw [if_neg h4, if_neg h4]
                by_cases h5 : d ∈ dirs
                · rw [if_pos h5, if_pos h5]; exact ⟨_, rfl, rfl⟩
                · rw [if_neg h5, if_neg h5]
                  exact layerEntriesP_run k fs rest _ _
    · rename_i v' rest' hne h
      cases h
      split
      · rename_i h; cases h
      · rename_i h; cases h; exact absurd rfl (hne _ _)
      · exact ⟨_, rfl, rfl⟩

theorem layerEntriesP_strict {α : Type} {k : Bool → Prog (Except Exc α)} (hk : ∀ b, (k b).Strict Bad) : ∀ (l : List PyVal) (names dirs : List Str), (layerEntriesP k names dirs l).Strict Bad
  | [], names, dirs => hk _
  | v :: rest, names, dirs => by
    unfold layerEntriesP
    split
    · rename_i h; cases h
    · rename_i n d rest' h
      cases h
      split
      · exact hk _
      · split
        · exact hk _
        · intro x
          dsimp only
          split
          · exact hk _
          · split
            · exact hk _
            · split
              · exact hk _
              · split
                · exact hk _
                · exact layerEntriesP_strict hk rest _ _
    · exact hk _

theorem layerTableP_run (F : FloatCodec) (b : Bool) (fs : FS) : (layerTableP F b).run fs = (fs, readLayerTable F fs b) := by
  unfold layerTableP readLayerTable
  rw [thenP_run (getPlistP_run F _ _ fs)]
  cases getPlist F fs [layercontentsName] none with
  | error e => rfl
  | ok v =>
    dsimp only
    cases b with
    | false => unfold layerTableOf; cases v <;> rfl
    | true =>
      rw [if_pos rfl, if_pos rfl]
      unfold layerContentsValidator
      cases v with
      | list l =>
        dsimp only
        obtain ⟨b, h1, h2⟩ := layerEntriesP_run (fun ok => .ret (if ok then layerTableOf (.list l) else .error .ufoLibError)) fs l [] []
        rw [h1, h2]
        cases b <;> rfl
      | _ => rfl

theorem layerTableP_strict (F : FloatCodec) (b : Bool) : (layerTableP F b).Strict Bad := by
  refine thenP_strict (getPlistP_strict _ _ _) fun v => ?_
  split
  · split
    · refine layerEntriesP_strict (fun _ => ?_) _ _ _
      trivial
    · trivial
  · trivial

theorem readLayersP_run (F : FloatCodec) (v : Int) (b : Bool) (fs : FS) : (readLayersP F v b).run fs = (fs, readLayers F fs v b) := by
  unfold readLayersP readLayers
  split
  · rfl
  · exact layerTableP_run F b fs

theorem readLayersP_strict (F : FloatCodec) (v : Int) (b : Bool) : (readLayersP F v b).Strict Bad := by
  unfold readLayersP
  split
  · trivial
  · exact layerTableP_strict F b

theorem defaultLayerP_run (F : FloatCodec) (v : Int) (b : Bool) (fs : FS) : (defaultLayerP F v b).run fs = (fs, getDefaultLayerName F fs v b) := by
  unfold defaultLayerP getDefaultLayerName
  rw [thenP_run (readLayersP_run F v b fs)]
  cases readLayers F fs v b <;> rfl

theorem defaultLayerP_strict (F : FloatCodec) (v : Int) (b : Bool) : (defaultLayerP F v b).Strict Bad := by
  refine thenP_strict (readLayersP_strict F v b) fun _ => ?_
  trivial

theorem readerGlyphSetP_run (F : FloatCodec) (v : Int) (n : Option Str) (b : Bool) (fs : FS) : (readerGlyphSetP F v n b).run fs = (fs, readerGlyphSet F fs v n b) := by
  unfold readerGlyphSetP readerGlyphSet
  have h : (resolveLayerP F v n b).run fs = (fs, resolveLayer F fs v n b) := by
    cases n with
    | some n => rfl
    | none => exact defaultLayerP_run F v b fs
  rw [thenP_run h]
  cases resolveLayer F fs v n b with
  | error e => rfl
  | ok n =>
    dsimp only
    rw [thenP_run (readLayersP_run F v b fs)]
    cases readLayers F fs v b with
    | error e => rfl
    | ok t =>
      dsimp only
      cases t.find? (fun e => decide (e.1 = n)) with
      | none => rfl
      | some e =>
        dsimp only
        rw [openDirP_run]
        cases fs.node? [e.2] with
        | none => rfl
        | some x =>
          cases x with
          | file d => rfl
          | dir => exact openP_run F [e.2] v.toNat b fs

theorem readerGlyphSetP_strict (F : FloatCodec) (v : Int) (n : Option Str) (b : Bool) : (readerGlyphSetP F v n b).Strict Bad := by
  refine thenP_strict ?_ fun n => thenP_strict (readLayersP_strict F v b) fun t => ?_
  · unfold resolveLayerP
    split
    · trivial
    · exact defaultLayerP_strict F v b
  · split
    · trivial
    · exact openDirP_strict _ _ (openP_strict F _ _ _)

theorem imageP_run (v : Int) (n : Str) (b : Bool) (fs : FS) : (imageP v n b).run fs = (fs, readImage fs v n b) := by
  unfold imageP readImage
  split
  · rfl
  · rw [openDirP_run]
    cases fs.node? [imagesName] with
    | none => rfl
    | some x => cases x <;> rfl

theorem imageP_strict (v : Int) (n : Str) (b : Bool) : (imageP v n b).Strict Bad := by
  unfold imageP
  split
  · trivial
  · exact openDirP_strict _ _ ⟨bad_error _, fun _ => trivial⟩

theorem glifP_run (gs : GlyphSet.GlyphSet) (n : Str) (fs : FS) : (glifP gs n).run fs = (fs, GlyphSet.getGLIF (gs, fs) n) := by
  unfold glifP GlyphSet.getGLIF
  dsimp only
  cases Dict.get? gs.contents n <;> rfl

theorem glifP_strict (gs : GlyphSet.GlyphSet) (n : Str) : (glifP gs n).Strict Bad := by
  unfold glifP
  split
  · trivial
  · exact ⟨bad_error _, fun _ => trivial⟩

theorem fetchP_run {α : Type} (fetch : Bytes → Except Exc α) (gs : GlyphSet.GlyphSet) (fs : FS) : ∀ (ns : List Str) (t : Dict Str α),
    (fetchP fetch gs t ns).run fs = (fs, GlyphSet.fetchFiles fetch (gs, fs) t ns)
  | [], _ => rfl
  | n :: ns, t => by
    unfold fetchP GlyphSet.fetchFiles
    rw [thenP_run (glifP_run gs n fs)]
    cases GlyphSet.getGLIF (gs, fs) n with
    | error e => rfl
    | ok b =>
      dsimp only
      cases fetch b with
      | error e => rfl
      | ok v => exact fetchP_run fetch gs fs ns _

theorem fetchP_strict {α : Type} (fetch : Bytes → Except Exc α) (gs : GlyphSet.GlyphSet) : ∀ (ns : List Str) (t : Dict Str α), (fetchP fetch gs t ns).Strict Bad
  | [], _ => trivial
  | n :: ns, t => by
    unfold fetchP
    refine thenP_strict (glifP_strict gs n) fun b => ?_
    split
    · trivial
    · exact fetchP_strict fetch gs ns _

theorem convertedP_run (F : FloatCodec) (conv : PyVal → PyVal → Except Exc (Converted PyVal)) (cache : Option KerningReader.Cache) (kind : KerningReader.Kind) (b : Bool) (fs : FS) :
    (convertedP F conv cache kind b).run fs =
      (fs, (KerningReader.step conv cache ⟨kind, b, getPlist F fs [kerningName] (some (.dict [])), getPlist F fs [groupsName] (some (.dict []))⟩).1) := by
  unfold convertedP
  cases cache with
  | some d =>
    dsimp only
    rw [thenP_run (getPlistP_run F _ _ fs)]
    unfold KerningReader.step KerningReader.upConvert
    dsimp only
    cases getPlist F fs [kerningName] (some (.dict [])) with
    | error e => rfl
    | ok k =>
      dsimp only
      split
      · rfl
      · rw [thenP_run (getPlistP_run F _ _ fs)]
        cases getPlist F fs [groupsName] (some (.dict [])) with
        | error e => rfl
        | ok g => rfl
  | none =>
    dsimp only
    rw [thenP_run (getPlistP_run F _ _ fs)]
    unfold KerningReader.step KerningReader.upConvert
    dsimp only
    cases getPlist F fs [groupsName] (some (.dict [])) with
    | error e => rfl
    | ok g =>
      dsimp only
      split
      · rfl
      · rw [thenP_run (getPlistP_run F _ _ fs)]
        cases getPlist F fs [kerningName] (some (.dict [])) with
        | error e => rfl
        | ok k => rfl

theorem convertedP_strict (F : FloatCodec) (conv : PyVal → PyVal → Except Exc (Converted PyVal)) (cache : Option KerningReader.Cache) (kind : KerningReader.Kind) (b : Bool) :
    (convertedP F conv cache kind b).Strict Bad := by
  unfold convertedP
  split
  · refine thenP_strict (getPlistP_strict _ _ _) fun k => ?_
    split
    · trivial
    · exact thenP_strict (getPlistP_strict _ _ _) fun _ => trivial
  · refine thenP_strict (getPlistP_strict _ _ _) fun k => ?_
    split
    · trivial
    · exact thenP_strict (getPlistP_strict _ _ _) fun _ => trivial

/-- Without interruption and without failures, the programs give what the models of the methods give, and change nothing. -/
theorem read_run (E : FontInfo.Env) (G : Glif.Env) (fs : FS) {α : Type} (c : ReadCall α) : (c.prog E G).run fs = (fs, c.read E G fs) := by
  cases c with
  | version b =>
    show (thenP _ _).run fs = _
    rw [thenP_run (getPlistP_run _ _ _ fs)]
    unfold ReadCall.read readMetaInfo versionOf
    cases getPlist E.F fs [metainfoName] none with
    | error e => rfl
    | ok v => cases v <;> rfl
  | info v b =>
    show (thenP _ _).run fs = _
    rw [thenP_run (getPlistP_run _ _ _ fs)]
    unfold ReadCall.read Ufo.readInfo infoOf
    cases getPlist E.F fs [fontinfoName] (some (.dict [])) with
    | error e => rfl
    | ok v => cases v <;> rfl
  | lib b =>
    show (thenP _ _).run fs = _
    rw [thenP_run (getPlistP_run _ _ _ fs)]
    unfold ReadCall.read readLib
    cases getPlist E.F fs [libName] (some (.dict [])) <;> rfl
  | groups3 b =>
    show (thenP _ _).run fs = _
    rw [thenP_run (getPlistP_run _ _ _ fs)]
    unfold ReadCall.read readGroups3
    cases getPlist E.F fs [groupsName] (some (.dict [])) <;> rfl
  | kerning3 b =>
    show (thenP _ _).run fs = _
    rw [thenP_run (getPlistP_run _ _ _ fs)]
    unfold ReadCall.read readKerning3
    cases getPlist E.F fs [kerningName] (some (.dict [])) <;> rfl
  | converted conv cache kind b => exact convertedP_run _ _ _ _ _ fs
  | features => rfl
  | layerNames v b =>
    show (thenP _ _).run fs = (fs, getLayerNames E.F fs v b)
    rw [thenP_run (readLayersP_run _ _ _ fs)]
    unfold getLayerNames
    cases readLayers E.F fs v b <;> rfl
  | defaultLayer v b => exact defaultLayerP_run _ _ _ fs
  | glyphSet v n b => exact readerGlyphSetP_run _ _ _ _ fs
  | mapping v n b =>
    show (thenP _ _).run fs = (fs, getCharacterMappingOf E.F fs v n b)
    rw [thenP_run (readerGlyphSetP_run _ _ _ _ fs)]
    unfold getCharacterMappingOf
    cases readerGlyphSet E.F fs v n b with
    | error e => rfl
    | ok gs =>
      dsimp only
      rw [thenP_run (fetchP_run _ _ fs _ _)]
      unfold GlyphSet.getUnicodesOf
      dsimp only [Option.getD]
      cases GlyphSet.fetchFiles Glif.fetchUnicodesOf (gs, fs) [] (GlyphSet.keys gs) <;> rfl
  | bytes p => rfl
  | image v n b => exact imageP_run _ _ _ fs
  | glif gs n => exact glifP_run _ _ fs
  | glyph gs n o p b =>
    show (thenP _ _).run fs = (fs, GlyphSet.readGlyph G (gs, fs) n o p b)
    rw [thenP_run (glifP_run _ _ fs)]
    unfold GlyphSet.readGlyph glyphOf
    cases GlyphSet.getGLIF (gs, fs) n <;> rfl
  | layerInfo gs b =>
    show (thenP _ _).run fs = (fs, GlyphSet.readLayerInfo E.F (gs, fs) b)
    rw [thenP_run (getPlistP_run _ _ _ fs)]
    unfold GlyphSet.readLayerInfo layerInfoOf
    dsimp only
    cases getPlist E.F fs (gs.dir ++ [GlyphSet.layerinfoName]) (some (.dict [])) with
    | error e => rfl
    | ok v => cases v <;> rfl
  | unicodes gs ns => exact fetchP_run _ _ fs _ _
  | components gs ns => exact fetchP_run _ _ fs _ _
  | images gs ns => exact fetchP_run _ _ fs _ _

theorem read_strict (E : FontInfo.Env) (G : Glif.Env) {α : Type} (c : ReadCall α) : (c.prog E G).Strict Bad := by
  cases c with
  | version b => exact thenP_strict (getPlistP_strict _ _ _) fun _ => trivial
  | info v b => exact thenP_strict (getPlistP_strict _ _ _) fun _ => trivial
  | lib b => exact thenP_strict (getPlistP_strict _ _ _) fun _ => trivial
  | groups3 b => exact thenP_strict (getPlistP_strict _ _ _) fun _ => trivial
  | kerning3 b => exact thenP_strict (getPlistP_strict _ _ _) fun _ => trivial
  | converted conv cache kind b => exact convertedP_strict _ _ _ _ _
  | features => exact featuresP_strict
  | layerNames v b => exact thenP_strict (readLayersP_strict _ _ _) fun _ => trivial
  | defaultLayer v b => exact defaultLayerP_strict _ _ _
  | glyphSet v n b => exact readerGlyphSetP_strict _ _ _ _
  | mapping v n b => exact thenP_strict (readerGlyphSetP_strict _ _ _ _) fun gs => thenP_strict (fetchP_strict _ _ _ _) fun _ => trivial
  | bytes p => exact ⟨bad_error _, fun _ => trivial⟩
  | image v n b => exact imageP_strict _ _ _
  | glif gs n => exact glifP_strict _ _
  | glyph gs n o p b => exact thenP_strict (glifP_strict _ _) fun _ => trivial
  | layerInfo gs b => exact thenP_strict (getPlistP_strict _ _ _) fun _ => trivial
  | unicodes gs ns => exact fetchP_strict _ _ _ _
  | components gs ns => exact fetchP_strict _ _ _ _
  | images gs ns => exact fetchP_strict _ _ _ _

/-! ### opening a writer -/

theorem initialLayersP_run (F : FloatCodec) (previous : Option Int) (b : Bool) (fs : FS) : (initialLayersP F previous b).run fs = (fs, initialLayers F fs previous b) := by
  unfold initialLayersP initialLayers
  split
  · rw [thenP_run (layerTableP_run F b fs)]
    cases readLayerTable F fs b <;> rfl
  · rfl

theorem initialLayersP_strict (F : FloatCodec) (previous : Option Int) (b : Bool) : (initialLayersP F previous b).Strict Bad := by
  unfold initialLayersP
  split
  · exact thenP_strict (layerTableP_strict F b) fun _ => trivial
  · exact fun _ => trivial

theorem openWriterP_run (F : FloatCodec) (hp : Bool) (version : Int) (creator : PyVal) (b : Bool) (fs : FS) :
    (openWriterP F hp version creator b).run fs = openWriter F hp fs version creator b := by
  unfold openWriterP openWriter
  split
  · rfl
  · have h : (if hp then thenP (getPlistP F [metainfoName] none) fun v => .ret (previousOf v) else .ret (.ok none) : Prog (Except Exc (Option Int))).run fs = (fs, previousVersion F hp fs) := by
      unfold previousVersion
      cases hp with
      | false => rfl
      | true =>
        rw [if_pos rfl, if_pos rfl, thenP_run (getPlistP_run F _ _ fs)]
        unfold previousOf
        cases getPlist F fs [metainfoName] none with
        | error e => rfl
        | ok v => cases v <;> rfl
    rw [thenP_run h]
    cases previousVersion F hp fs with
    | error e => rfl
    | ok previous =>
      dsimp only
      split
      · rfl
      · rw [thenP_run (initialLayersP_run F previous b fs)]
        cases initialLayers F fs previous b with
        | error e => rfl
        | ok layers =>
          dsimp only
          rw [thenP_run (Prod.eta _).symm, writePlistP_run]
          generalize writePlist F hp fs [metainfoName] (metaInfo creator version) = x
          obtain ⟨fs', r⟩ := x
          cases r <;> rfl

theorem openWriterP_strict (F : FloatCodec) (hp : Bool) (version : Int) (creator : PyVal) (b : Bool) : (openWriterP F hp version creator b).Strict Bad := by
  unfold openWriterP
  split
  · trivial
  · refine thenP_strict ?_ fun previous => ?_
    · split
      · exact thenP_strict (getPlistP_strict _ _ _) fun _ => trivial
      · trivial
    · split
      · trivial
      · exact thenP_strict (initialLayersP_strict F previous b) fun layers => thenP_strict (writePlistP_strict _ _ _ _) fun _ => trivial

/-! ### reading changes nothing -/

/-- The program only reads. -/
def Prog.Quiet {α : Type} : Prog α → Prop
  | .ret _ => True
  | .get _ k => ∀ r, (k r).Quiet
  | .has _ k => ∀ r, (k r).Quiet
  | .call _ _ => False

theorem thenP_quiet {α β : Type} {p : Prog (Except Exc α)} {k : α → Prog (Except Exc β)} (hp : p.Quiet) (hk : ∀ a, (k a).Quiet) : (thenP p k).Quiet := by
  unfold thenP
  induction p with
  | ret r =>
    cases r with
    | error e => trivial
    | ok a => exact hk a
  | get p k ih => exact fun r => ih r (hp r)
  | has p k ih => exact fun r => ih r (hp r)
  | call m k ih => exact hp

theorem suffers_quiet {α : Type} {p : Prog α} {fs fs' : FS} {b : Bool} {r : Option α} (h : p.Suffers fs b fs' r) : p.Quiet → fs' = fs := by
  induction h with
  | ret => intro _; rfl
  | get _ ih => intro hq; exact ih (hq _)
  | getFails _ ih => intro hq; exact ih (hq _)
  | has _ ih => intro hq; exact ih (hq _)
  | hasFails => intro _; rfl
  | call _ _ => intro hq; cases hq
  | callFails _ _ _ => intro hq; cases hq

theorem getPlistP_quiet (F : FloatCodec) (p : Path) (d : Option PyVal) : (getPlistP F p d).Quiet := fun _ => trivial

theorem openDirP_quiet {α : Type} (p : Path) (missing : Exc) {k : Prog (Except Exc α)} (hk : k.Quiet) : (openDirP p missing k).Quiet := by
  intro r
  dsimp only
  split
  · trivial
  · exact hk
  · trivial
  · trivial

theorem layerEntriesP_quiet {α : Type} {k : Bool → Prog (Except Exc α)} (hk : ∀ b, (k b).Quiet) : ∀ (l : List PyVal) (names dirs : List Str), (layerEntriesP k names dirs l).Quiet
  | [], names, dirs => hk _
  | v :: rest, names, dirs => by
    unfold layerEntriesP
    split
    · rename_i h; cases h
    · rename_i n d rest' h
      cases h
      split
      · exact hk _
      · split
        · exact hk _
        · intro x
          dsimp only
          split
          · exact hk _
          · split
            · exact hk _
            · split
              · exact hk _
              · split
                · exact hk _
                · exact layerEntriesP_quiet hk rest _ _
    · exact hk _

theorem layerTableP_quiet (F : FloatCodec) (b : Bool) : (layerTableP F b).Quiet := by
  refine thenP_quiet (getPlistP_quiet _ _ _) fun v => ?_
  split
  · split
    · refine layerEntriesP_quiet (fun _ => ?_) _ _ _
      trivial
    · trivial
  · trivial

theorem readLayersP_quiet (F : FloatCodec) (v : Int) (b : Bool) : (readLayersP F v b).Quiet := by
  unfold readLayersP
  split
  · trivial
  · exact layerTableP_quiet F b

theorem defaultLayerP_quiet (F : FloatCodec) (v : Int) (b : Bool) : (defaultLayerP F v b).Quiet := by
  refine thenP_quiet (readLayersP_quiet F v b) fun _ => ?_
  trivial

theorem missingP_quiet (dir : Path) {α : Type} {k : Bool → Prog α} (hk : ∀ b, (k b).Quiet) : ∀ t : List (Str × Str), ((missingP dir t).bind k).Quiet
  | [] => hk _
  | e :: rest => by
    intro x
    dsimp only [missingP, Prog.bind]
    cases x with
    | true => exact missingP_quiet dir hk rest
    | false => exact hk _

theorem rebuildP_quiet (F : FloatCodec) (gs : GlyphSet.GlyphSet) (v : Bool) : (rebuildP F gs v).Quiet := by
  intro r
  show Prog.Quiet (match (_ : Except Exc PyVal) with | .error e => _ | .ok (.dict d) => _ | .ok _ => _)
  split
  · trivial
  · split
    · trivial
    · split
      · refine missingP_quiet _ (fun _ => ?_) _
        trivial
      · trivial
  · trivial

theorem openP_quiet (F : FloatCodec) (dir : Path) (version : Nat) (v : Bool) : (openP F dir version v).Quiet := by
  unfold openP
  split
  · exact fun _ => rebuildP_quiet F _ v
  · trivial

theorem readerGlyphSetP_quiet (F : FloatCodec) (v : Int) (n : Option Str) (b : Bool) : (readerGlyphSetP F v n b).Quiet := by
  refine thenP_quiet ?_ fun n => thenP_quiet (readLayersP_quiet F v b) fun t => ?_
  · unfold resolveLayerP
    split
    · trivial
    · exact defaultLayerP_quiet F v b
  · split
    · trivial
    · exact openDirP_quiet _ _ (openP_quiet F _ _ _)

theorem glifP_quiet (gs : GlyphSet.GlyphSet) (n : Str) : (glifP gs n).Quiet := by
  unfold glifP
  split
  · trivial
  · exact fun _ => trivial

theorem fetchP_quiet {α : Type} (fetch : Bytes → Except Exc α) (gs : GlyphSet.GlyphSet) : ∀ (ns : List Str) (t : Dict Str α), (fetchP fetch gs t ns).Quiet
  | [], _ => trivial
  | n :: ns, t => by
    unfold fetchP
    refine thenP_quiet (glifP_quiet gs n) fun b => ?_
    split
    · trivial
    · exact fetchP_quiet fetch gs ns _

theorem convertedP_quiet (F : FloatCodec) (conv : PyVal → PyVal → Except Exc (Converted PyVal)) (cache : Option KerningReader.Cache) (kind : KerningReader.Kind) (b : Bool) :
    (convertedP F conv cache kind b).Quiet := by
  unfold convertedP
  split
  · refine thenP_quiet (getPlistP_quiet _ _ _) fun k => ?_
    split
    · trivial
    · exact thenP_quiet (getPlistP_quiet _ _ _) fun _ => trivial
  · refine thenP_quiet (getPlistP_quiet _ _ _) fun k => ?_
    split
    · trivial
    · exact thenP_quiet (getPlistP_quiet _ _ _) fun _ => trivial

theorem read_quiet (E : FontInfo.Env) (G : Glif.Env) {α : Type} (c : ReadCall α) : (c.prog E G).Quiet := by
  cases c with
  | version b => exact thenP_quiet (getPlistP_quiet _ _ _) fun _ => trivial
  | info v b => exact thenP_quiet (getPlistP_quiet _ _ _) fun _ => trivial
  | lib b => exact thenP_quiet (getPlistP_quiet _ _ _) fun _ => trivial
  | groups3 b => exact thenP_quiet (getPlistP_quiet _ _ _) fun _ => trivial
  | kerning3 b => exact thenP_quiet (getPlistP_quiet _ _ _) fun _ => trivial
  | converted conv cache kind b => exact convertedP_quiet _ _ _ _ _
  | features => exact fun _ => trivial
  | layerNames v b => exact thenP_quiet (readLayersP_quiet _ _ _) fun _ => trivial
  | defaultLayer v b => exact defaultLayerP_quiet _ _ _
  | glyphSet v n b => exact readerGlyphSetP_quiet _ _ _ _
  | mapping v n b => exact thenP_quiet (readerGlyphSetP_quiet _ _ _ _) fun gs => thenP_quiet (fetchP_quiet _ _ _ _) fun _ => trivial
  | bytes p => exact fun _ => trivial
  | image v n b =>
    show (imageP v n b).Quiet
    unfold imageP
    split
    · trivial
    · exact openDirP_quiet _ _ fun _ => trivial
  | glif gs n => exact glifP_quiet _ _
  | glyph gs n o p b => exact thenP_quiet (glifP_quiet _ _) fun _ => trivial
  | layerInfo gs b => exact thenP_quiet (getPlistP_quiet _ _ _) fun _ => trivial
  | unicodes gs ns => exact fetchP_quiet _ _ _ _
  | components gs ns => exact fetchP_quiet _ _ _ _
  | images gs ns => exact fetchP_quiet _ _ _ _

end Verif.Ufo
