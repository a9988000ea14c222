import Verif.Proofs.InterruptAgain
import Verif.Props.Interrupt
import Verif.Props.UfoCopyFrom
/-! C113: repeating a session that was interrupted. -/
namespace Verif.Props
open Verif Verif.Ufo Verif.Spec.Interrupt Verif.Spec.Ufo

/-- C113. Calls that were interrupted at any moment and are made again from the first one: every file and directory is as if the calls had not been interrupted.
The writer and the glyph sets are in the state in which they were. -/
theorem C113_calls_partial (E : FontInfo.Env) (L : Casing) (w : World) (ops : List Op) (hr : ∀ op ∈ ops, Repeatable op) (ho : OneFileEach E L w ops)
    (left : FS) (hs : StoppedBetween w.2 (run E L w ops).2 left) (p : Path) :
    (run E L (w.1, left) ops).2.node? p = (run E L w ops).2.node? p := by
  obtain ⟨w, fs⟩ := w
  dsimp only at hs ⊢
  obtain ⟨pls, h, -⟩ := Interrupt.run_plan E L ops w fs fs hr ho ⟨rfl, fun _ => Iff.rfl⟩
  obtain ⟨pls, h, h'⟩ := Interrupt.run_plan E L ops w fs left hr ho (Interrupt.runs_stopped h left hs).dirs
  exact Interrupt.runs_again h hs h' p

/-- C113. A whole session with the opening of the writer: wherever it is stopped, if the writer can be opened again as before, making the calls again
gives the files of a session that was not stopped. -/
theorem C113_session_partial (E : FontInfo.Env) (L : Casing) (havePrevious : Bool) (fs fs' : FS) (version : Int) (creator : PyVal) (validate : Bool) (w : Writer)
    (h : openWriter E.F havePrevious fs version creator validate = (fs', .ok w)) (ops : List Op) (hr : ∀ op ∈ ops, Repeatable op) (ho : OneFileEach E L (w, fs') ops)
    (left fs2 : FS) (hs : StoppedBetween fs (run E L (w, fs') ops).2 left) (h2 : openWriter E.F havePrevious left version creator validate = (fs2, .ok w)) (p : Path) :
    (run E L (w, fs2) ops).2.node? p = (run E L (w, fs') ops).2.node? p := by
  obtain ⟨pl, hpl⟩ := Interrupt.openWriter_plan E.F havePrevious version creator
  have d1 := hpl _ _ _ _ h
  have d2 := hpl _ _ _ _ h2
  obtain ⟨pls, hp, -⟩ := Interrupt.run_plan E L ops w fs' fs' hr ho ⟨rfl, fun _ => Iff.rfl⟩
  have hd : Interrupt.SameDirs fs left := (Interrupt.runs_stopped (.cons d1 hp) left hs).dirs
  obtain ⟨pls, hp, hp'⟩ := Interrupt.run_plan E L ops w fs' fs2 hr ho
    (((Interrupt.done_apart d1).dirs.symm.trans hd).trans (Interrupt.done_apart d2).dirs)
  exact Interrupt.runs_again (.cons d1 hp) hs (.cons d2 hp') p

/-- C113. A UFO 3 that existed can be opened again, with the writer in the same state, when the process is stopped during calls that leave metainfo.plist and
layercontents.plist alone; opening it changes no file. -/
theorem C113_reopen_partial (E : FontInfo.Env) (hF : E.F.Lawful) (L : Casing) (fs fs' : FS) (creator : PyVal) (hcr : Storable creator) (w : Writer)
    (hm : readMetaInfo E.F fs true = .ok 3) (h : openWriter E.F true fs 3 creator true = (fs', .ok w)) (hk : KeepsApart fs.canon)
    (hdirs : ∀ d, GlyphsDir d → fs.exists [d] = true → fs.node? [d] = some .dir) (ops : List Op) (hr : ∀ op ∈ ops, Repeatable op)
    (ho : OneFileEach E L (w, fs') ops) (hmeta : ∀ op ∈ ops, Spares fs.canon c!"metainfo.plist" op) (htab : ∀ op ∈ ops, Spares fs.canon c!"layercontents.plist" op)
    (left : FS) (hs : StoppedBetween fs' (run E L (w, fs') ops).2 left) :
    openWriter E.F true left 3 creator true = (left, .ok w) := by
  obtain ⟨hsup, ⟨previous, hprev, hlow, hlay⟩, hwp, hv, hhp, hval, hmap⟩ := openWriter_ok h
  have hl : Layered w := ⟨(initialLayers_ok hlay).1, (initialLayers_ok hlay).2⟩
  obtain ⟨hcanon, hframe, -⟩ := Verif.IO.writePlist_spec hwp
  have e0 : previous = some 3 := by
    have := (readMetaInfo_true hm).2.1
    rw [hprev] at this
    exact Except.ok.inj this
  subst e0
  have n1 : left.node? [metainfoName] = fs'.node? [metainfoName] := Interrupt.run_entry E L ops (w, fs') left hl ho (fun op h => by rw [hcanon]; exact hmeta op h) hs []
  have n2 : left.node? [layercontentsName] = fs.node? [layercontentsName] := by
    rw [Interrupt.run_entry E L ops (w, fs') left hl ho (fun op h => by rw [hcanon]; exact htab op h) hs []]
    refine hframe _ fun e => ?_
    simp only [FS.key, List.map_cons, List.map_nil, List.cons.injEq, and_true] at e
    exact absurd (hk.names _ (by simp [standardNames, layercontentsName]) _ (by simp [standardNames, metainfoName]) e) (by decide)
  have hmeta' : readMetaInfo E.F left true = .ok 3 := by
    rw [readMetaInfo_congr n1]
    exact readMetaInfo_stored E.F rfl (writePlist_reads E.F hF (storable_metaInfo hcr rfl) hwp none) true
  have hd : Interrupt.SameDirs fs left := by
    obtain ⟨pl, hpl⟩ := Interrupt.openWriter_plan E.F true 3 creator
    obtain ⟨pls, hp, -⟩ := Interrupt.run_plan E L ops w fs' fs' hr ho ⟨rfl, fun _ => Iff.rfl⟩
    exact (Interrupt.done_apart (hpl _ _ _ _ h)).dirs.trans (Interrupt.runs_stopped hp left hs).dirs
  have hlay' : initialLayers E.F left (some 3) true = .ok w.layers := by
    unfold initialLayers at hlay ⊢
    simp only [Option.any_some, decide_eq_true_eq, Std.le_refl, if_true] at hlay ⊢
    split at hlay
    · cases hlay
    · next t ht =>
      rw [Crash.readLayerTable_mono n2 (fun d hg he => ?_) ht]
      · exact hlay
      · unfold FS.exists
        rw [(hd.2 [d]).2 (hdirs d hg he)]; rfl
  unfold openWriter
  rw [hsup, (readMetaInfo_true hmeta').2.1]
  simp only [Bool.true_eq_false, if_false, Option.any_some, decide_eq_true_eq, Int.lt_irrefl]
  rw [hlay']
  dsimp only
  rw [Interrupt.writePlist_again hwp n1]
  dsimp only
  rcases w with ⟨a, b, c, d, e⟩
  dsimp only at hv hhp hval hmap
  subst hv hhp hval hmap
  rfl

/-- C113. Together: the user opens the UFO again, makes the calls again and has the files of a session that was not interrupted. -/
theorem C113_again_partial (E : FontInfo.Env) (hF : E.F.Lawful) (L : Casing) (fs fs' : FS) (creator : PyVal) (hcr : Storable creator) (w : Writer)
    (hm : readMetaInfo E.F fs true = .ok 3) (h : openWriter E.F true fs 3 creator true = (fs', .ok w)) (hk : KeepsApart fs.canon)
    (hdirs : ∀ d, GlyphsDir d → fs.exists [d] = true → fs.node? [d] = some .dir) (ops : List Op) (hr : ∀ op ∈ ops, Repeatable op)
    (ho : OneFileEach E L (w, fs') ops) (hmeta : ∀ op ∈ ops, Spares fs.canon c!"metainfo.plist" op) (htab : ∀ op ∈ ops, Spares fs.canon c!"layercontents.plist" op)
    (left : FS) (hs : StoppedBetween fs' (run E L (w, fs') ops).2 left) :
    ∃ fs2 w2, openWriter E.F true left 3 creator true = (fs2, .ok w2) ∧ ∀ p, (run E L (w2, fs2) ops).2.node? p = (run E L (w, fs') ops).2.node? p :=
  ⟨left, w, C113_reopen_partial E hF L fs fs' creator hcr w hm h hk hdirs ops hr ho hmeta htab left hs,
    C113_calls_partial E L (w, fs') ops hr ho left hs⟩

/-- A session with a UFO that existed: another lib, no kerning, feature text, and a glyph. -/
def ops113 : List Op := [.lib (.dict [(.str c!"b", .int 2)]) true, .kerning [] true, .features c!"feature",
  .glyph ⟨[c!"glyphs"], [], none, none, false, 3, true⟩ (.write (GlyphSet.defaultNaming asciiCasing) c!"A" (some 2) (fun _ => .ok [60, 61]))]

/-- The UFO opened again. -/
def ufo113 : World := again60 ufo82.2

theorem ops113_repeatable : ∀ op ∈ ops113, Repeatable op := by
  intro op h
  simp only [ops113, List.mem_cons, List.not_mem_nil, or_false] at h
  rcases h with rfl | rfl | rfl | rfl
  · exact .lib
  · exact .kerning
  · exact .features
  · exact .glyph

theorem ops113_one : OneFileEach env57 asciiCasing ufo113 ops113 := by
  intro pre op post e
  rcases pre with - | ⟨o1, - | ⟨o2, - | ⟨o3, - | ⟨o4, pre⟩⟩⟩⟩ <;> simp only [ops113, List.nil_append, List.cons_append, List.cons.injEq] at e
  · obtain ⟨rfl, -⟩ := e; exact .lib (by decide +kernel)
  · obtain ⟨rfl, rfl, -⟩ := e; exact .kerning (by decide +kernel)
  · obtain ⟨rfl, rfl, rfl, -⟩ := e; exact .features (by decide +kernel)
  · obtain ⟨rfl, rfl, rfl, rfl, -⟩ := e; exact .glyph
  · exact absurd e.2.2.2.2 (by simp)

/-- Wherever this session is stopped, it can be repeated. -/
example (left : FS) (hs : StoppedBetween ufo113.2 (run env57 asciiCasing ufo113 ops113).2 left) (p : Path) :
    (run env57 asciiCasing (ufo113.1, left) ops113).2.node? p = (run env57 asciiCasing ufo113 ops113).2.node? p :=
  C113_calls_partial env57 asciiCasing ufo113 ops113 ops113_repeatable ops113_one left hs p

theorem open113 : openWriter fractionCodec true ufo82.2 3 (.str c!"me") true = (ufo113.2, .ok ufo113.1) := by
  have h : (openWriter fractionCodec true ufo82.2 3 (.str c!"me") true).2.toOption.isSome = true := by decide +kernel
  unfold ufo113 again60
  rcases hz : openWriter fractionCodec true ufo82.2 3 (.str c!"me") true with ⟨fs, e | w⟩
  · rw [hz] at h; cases h
  · rfl

/-- With the opening: the user opens the UFO again and makes the calls again. -/
example (left : FS) (hs : StoppedBetween ufo113.2 (run env57 asciiCasing ufo113 ops113).2 left) :
    ∃ fs2 w2, openWriter fractionCodec true left 3 (.str c!"me") true = (fs2, .ok w2) ∧
      ∀ p, (run env57 asciiCasing (w2, fs2) ops113).2.node? p = (run env57 asciiCasing ufo113 ops113).2.node? p := by
  have hc : ufo82.2.canon = id := by rfl
  have hsp : ∀ c, c = c!"metainfo.plist" ∨ c = c!"layercontents.plist" → ∀ op ∈ ops113, Spares ufo82.2.canon c op := by
    intro c hc' op h
    rw [hc]
    simp only [ops113, List.mem_cons, List.not_mem_nil, or_false] at h
    rcases h with rfl | rfl | rfl | rfl <;> intro d hd <;> rcases hc' with rfl | rfl <;> cases hd <;> first | decide | (rename_i h; cases h; done) | (rename_i h; cases h; decide)
  have hdirs : ∀ d, GlyphsDir d → ufo82.2.exists [d] = true → ufo82.2.node? [d] = some .dir := by
    intro d hd he
    have hn : ufo82.2.nodes.map Prod.fst = [[c!"metainfo.plist"], [c!"glyphs"], [c!"glyphs.fore"], [c!"layercontents.plist"], [c!"lib.plist"]] := by decide +kernel
    have hm : [d] ∈ ufo82.2.nodes.map Prod.fst := by
      have hkey : ufo82.2.node? [d] = Dict.get? ufo82.2.nodes [d] := by unfold FS.node? FS.key; rw [hc]; simp
      unfold FS.exists at he
      rw [hkey, Option.isSome_iff_exists] at he
      obtain ⟨x, hx⟩ := he
      exact List.mem_map.2 ⟨_, Dict.mem_of_get? hx, rfl⟩
    rw [hn] at hm
    simp only [List.mem_cons, List.cons.injEq, and_true, List.not_mem_nil, or_false] at hm
    rcases hm with rfl | rfl | rfl | rfl | rfl
    · rcases hd with h | ⟨r, h⟩ <;> simp at h
    · decide +kernel
    · decide +kernel
    · rcases hd with h | ⟨r, h⟩ <;> simp at h
    · rcases hd with h | ⟨r, h⟩ <;> simp at h
  have key : ∀ u : World, openWriter fractionCodec true ufo82.2 3 (.str c!"me") true = (u.2, .ok u.1) → OneFileEach env57 asciiCasing u ops113 →
      StoppedBetween u.2 (run env57 asciiCasing u ops113).2 left → ∃ fs2 w2, openWriter fractionCodec true left 3 (.str c!"me") true = (fs2, .ok w2) ∧
      ∀ p, (run env57 asciiCasing (w2, fs2) ops113).2.node? p = (run env57 asciiCasing u ops113).2.node? p :=
    fun u h1 h2 h3 => C113_again_partial env57 fractionCodec_lawful asciiCasing ufo82.2 u.2 (.str c!"me") ⟨.str _ ⟨by unfold Spec.Plist.XmlText; decide, by decide⟩, trivial⟩ u.1
      (by decide +kernel) h1 (by rw [hc]; exact keepsApart_id) hdirs ops113 ops113_repeatable h2 (hsp _ (.inl rfl)) (hsp _ (.inr rfl)) left h3
  exact key ufo113 open113 ops113_one hs

/-- The full claim fails for a new UFO: when the process stops before `writeLayerContents`, no writer can be opened for the UFO again. -/
theorem C113_refuted_new : ∃ left, StoppedBetween fs57 (run env57 asciiCasing new60 ops112).2 left ∧
    (openWriter fractionCodec true left 3 (.str c!"me") true).2.toOption.isNone = true := by
  refine ⟨_, ⟨(run env57 asciiCasing new60 ops112).2.log, ?_, .between 3⟩, ?_⟩ <;> decide +kernel

/-- It also fails for an image that is copied from another UFO: when the process stops while the file is being written, copying it again is refused, and the file
stays as it is, cut off. -/
theorem C113_refuted_copy : ∃ left, StoppedBetween new60.2 (step env57 asciiCasing new60 (.copyImage src95 c!"a.png" c!"b.png")).1.2 left ∧
    (step env57 asciiCasing (new60.1, left) (.copyImage src95 c!"a.png" c!"b.png")).2.toOption.isNone = true ∧
    ((step env57 asciiCasing (new60.1, left) (.copyImage src95 c!"a.png" c!"b.png")).1.2.getbytes [c!"images", c!"b.png"]).toOption = some [137, 80, 78] ∧
    ((step env57 asciiCasing new60 (.copyImage src95 c!"a.png" c!"b.png")).1.2.getbytes [c!"images", c!"b.png"]).toOption = some png63 := by
  refine ⟨_, ⟨(step env57 asciiCasing new60 (.copyImage src95 c!"a.png" c!"b.png")).1.2.log.drop new60.2.log.length, ?_,
    .writing 1 3 (p := [c!"images", c!"b.png"]) (d := png63) ?_⟩, ?_, ?_, ?_⟩ <;> decide +kernel

end Verif.Props
