import Verif.Proofs.Interrupt
import Verif.Props.Cut
import Verif.Props.CutScan
import Verif.Props.Crash
/-! C112: what is read after a process was stopped while it wrote a UFO. -/
namespace Verif.Props
open Verif Verif.Ufo Verif.Spec.Cut Verif.Spec.Interrupt Verif.Spec.Ufo Verif.Spec.Plist

/-- C112. One call: the files are as before the call, or as after it except that the file that is being written may be cut off. -/
theorem C112_call (E : FontInfo.Env) (L : Casing) (w : World) (op : Op) (h : OneFile w.2 op) (left : FS) (hs : StoppedBetween w.2 (step E L w op).1.2 left) :
    left = w.2 ∨ OneCut (step E L w op).1.2 left :=
  Interrupt.one_stopped (Interrupt.step_one h) hs

/-- C112. Opening a writer, whether or not this succeeds. -/
theorem C112_open (F : FloatCodec) (havePrevious : Bool) (fs : FS) (version : Int) (creator : PyVal) (validate : Bool) (left : FS)
    (hs : StoppedBetween fs (openWriter F havePrevious fs version creator validate).1 left) :
    left = fs ∨ OneCut (openWriter F havePrevious fs version creator validate).1 left :=
  Interrupt.one_stopped (Interrupt.openWriter_one _ _ _ _ _ _) hs

/-- C112. A whole session: the files are as before the session, or as after some of its calls except that one file may be cut off. -/
theorem C112_session (E : FontInfo.Env) (L : Casing) (havePrevious : Bool) (fs fs' : FS) (version : Int) (creator : PyVal) (validate : Bool) (w : Writer)
    (h : openWriter E.F havePrevious fs version creator validate = (fs', .ok w)) (ops : List Op) (ho : OneFileEach E L (w, fs') ops) (left : FS)
    (hs : StoppedBetween fs (run E L (w, fs') ops).2 left) :
    left = fs ∨ ∃ pre, pre <+: ops ∧ OneCut (run E L (w, fs') pre).2 left := by
  have h1 := Interrupt.openWriter_one E.F havePrevious fs version creator validate
  rw [h] at h1
  obtain ⟨a, ha⟩ := Interrupt.one_log h1
  obtain ⟨b, hb⟩ := Interrupt.run_log ops (w, fs') ho
  obtain ⟨acts, hl, hst⟩ := hs
  dsimp only at ha hb
  rw [hb, ha, Crash.performAll_log, Crash.performAll_log, List.append_assoc, List.append_cancel_left_eq] at hl
  subst hl
  rcases Interrupt.stopped_split hst with hst | hst
  · rcases Interrupt.one_stopped h1 ⟨a, by dsimp only; rw [ha, Crash.performAll_log], hst⟩ with rfl | h
    · exact .inl rfl
    · exact .inr ⟨[], List.nil_prefix, h⟩
  · rw [← ha] at hst
    exact .inr (Interrupt.run_stopped ops (w, fs') left ho ⟨b, by dsimp only; rw [hb, Crash.performAll_log], hst⟩)

/-- C112. What is read: there is a state that the session has gone through, such that every method that reads a property list or a glyph raises, or gives
what it gives in that state. -/
theorem C112_reads (E : FontInfo.Env) (G : Glif.Env) (L : Casing) (havePrevious : Bool) (fs fs' : FS) (version : Int) (creator : PyVal) (validate : Bool) (w : Writer)
    (h : openWriter E.F havePrevious fs version creator validate = (fs', .ok w)) (ops : List Op) (ho : OneFileEach E L (w, fs') ops) (left : FS)
    (hs : StoppedBetween fs (run E L (w, fs') ops).2 left) :
    ∃ s, (s = fs ∨ ∃ pre, pre <+: ops ∧ s = (run E L (w, fs') pre).2) ∧ ∀ (v : Int) (b : Bool),
      Noticed (readMetaInfo E.F s b) (readMetaInfo E.F left b) ∧
      Noticed (Ufo.readInfo E s v b) (Ufo.readInfo E left v b) ∧
      Noticed (readLib E.F s b) (readLib E.F left b) ∧
      Noticed (readGroups3 E.F s b) (readGroups3 E.F left b) ∧
      Noticed (readKerning3 E.F s b) (readKerning3 E.F left b) ∧
      Noticed (getLayerNames E.F s v b) (getLayerNames E.F left v b) ∧
      Noticed (getDefaultLayerName E.F s v b) (getDefaultLayerName E.F left v b) ∧
      (∀ layer, Noticed (readerGlyphSet E.F s v layer b) (readerGlyphSet E.F left v layer b)) ∧
      (∀ gs, Noticed (GlyphSet.readLayerInfo E.F (gs, s) b) (GlyphSet.readLayerInfo E.F (gs, left) b)) ∧
      (∀ gs n o p, Noticed (GlyphSet.readGlyph G (gs, s) n o p b) (GlyphSet.readGlyph G (gs, left) n o p b)) ∧
      (∀ x x', readFeatures s = .ok x → readFeatures left = .ok x' → x' <+: x) ∧
      ∀ n x x', readImage s v n b = .ok x → readImage left v n b = .ok x' → x' <+: x := by
  have key : ∃ s, (s = fs ∨ ∃ pre, pre <+: ops ∧ s = (run E L (w, fs') pre).2) ∧ CutOff s left := by
    rcases C112_session E L havePrevious fs fs' version creator validate w h ops ho left hs with rfl | ⟨pre, hp, hc⟩
    · exact ⟨_, .inl rfl, Interrupt.OneCut.cutOff (Interrupt.oneCut_refl _)⟩
    · exact ⟨_, .inr ⟨pre, hp, rfl⟩, Interrupt.OneCut.cutOff hc⟩
  obtain ⟨s, h1, h2⟩ := key
  refine ⟨s, h1, fun v b => ⟨C110_version _ _ _ h2 _, C110_info _ _ _ h2 _ _, C110_lib _ _ _ h2 _, C110_groups _ _ _ h2 _, C110_kerning _ _ _ h2 _,
    (C110_layers _ _ _ h2 _ _).1, (C110_layers _ _ _ h2 _ _).2, fun layer => C110_glyphSet _ _ _ h2 _ _ _, fun gs => C110_layerInfo _ _ _ _ h2 _,
    fun gs n o p => C110_glyph _ _ _ _ h2 _ _ _ _, fun x x' hx hx' => C111_features_partial _ _ h2 _ _ hx hx',
    fun n x x' hx hx' => C111_image_partial _ _ h2 _ _ _ _ _ hx hx'⟩⟩

/-- C112. A lib that is being written when the process stops: what is read afterwards is an exception, the lib from before, or the new lib. -/
theorem C112_lib (E : FontInfo.Env) (hF : E.F.Lawful) (L : Casing) (hp : Bool) (fs fs' : FS) (version : Int) (creator : PyVal) (w : Writer)
    (h : openWriter E.F hp fs version creator true = (fs', .ok w)) (pre : List Op) (d : List (PyVal × PyVal)) (validate : Bool)
    (hd : Storable (.dict d)) (hok : (step E L (run E L (w, fs') pre) (.lib (.dict d) validate)).2 = .ok ())
    (hfile : (run E L (w, fs') pre).2.node? [c!"lib.plist"] ≠ some .dir)
    (hnew : hp = true ∨ d ≠ [] ∨ (run E L (w, fs') pre).2.exists [c!"lib.plist"] = false) (b : Bool) (hb : b = true → validate = true) (left : FS)
    (hs : StoppedBetween (run E L (w, fs') pre).2 (run E L (w, fs') (pre ++ [.lib (.dict d) validate])).2 left) (x : PyVal) (hx : readLib E.F left b = .ok x) :
    readLib E.F (run E L (w, fs') pre).2 b = .ok x ∨ Same (untuple (.dict d)) x := by
  obtain ⟨r, hr, hsame⟩ := C60_lib_partial E hF L hp fs fs' version creator w h pre [] d validate hd hok (by simp) hnew b hb
  rw [run_append] at hs hr
  rcases C112_call E L _ (.lib (.dict d) validate) (.lib hfile) left hs with rfl | hc
  · exact .inl hx
  · right
    rw [C110_lib E.F _ _ (Interrupt.OneCut.cutOff hc) b r x hr hx]
    exact hsame

/-- A new UFO with a lib, a layer and a kerning table. -/
def ops112 : List Op := [.lib (.dict [(.str c!"a", .int 1)]) true, .glyphSet none true true, .layerContents none true, .kerning [((c!"A", c!"B"), .int 3)] true]

example : OneFileEach env57 asciiCasing new60 ops112 := by
  intro pre op post e
  rcases pre with - | ⟨o1, - | ⟨o2, - | ⟨o3, - | ⟨o4, pre⟩⟩⟩⟩ <;> simp only [ops112, List.nil_append, List.cons_append, List.cons.injEq] at e
  · obtain ⟨rfl, -⟩ := e; exact .lib (by decide +kernel)
  · obtain ⟨rfl, rfl, -⟩ := e; exact .glyphSet
  · obtain ⟨rfl, rfl, rfl, -⟩ := e; exact .layerContents
  · obtain ⟨rfl, rfl, rfl, rfl, -⟩ := e; exact .kerning (by decide +kernel)
  · exact absurd e.2.2.2.2 (by simp)

/-- The file of a lib. -/
def file112 : Bytes := match IO.dumpBytes fractionCodec (.dict [(.str c!"b", .int 2)]) with
  | .ok b => b
  | .error _ => []

/-- The process stops in the middle of writing the lib of `ufo82` again: 60 bytes of the new file have been written, and the lib cannot be read. When all but
the last byte have been written, it can. -/
example : (∃ left, StoppedBetween ufo82.2 (step env57 asciiCasing ufo82 (.lib (.dict [(.str c!"b", .int 2)]) true)).1.2 left ∧
      (readLib fractionCodec left true).toOption = none ∧ (readLib fractionCodec ufo82.2 true).toOption = some (.dict [(.str c!"a", .int 1)])) ∧
    ∃ left, StoppedBetween ufo82.2 (step env57 asciiCasing ufo82 (.lib (.dict [(.str c!"b", .int 2)]) true)).1.2 left ∧
      (left.getbytes [c!"lib.plist"]).toOption = some file112.dropLast ∧ (readLib fractionCodec left true).toOption = some (.dict [(.str c!"b", .int 2)]) := by
  refine ⟨⟨_, ⟨(step env57 asciiCasing ufo82 (.lib (.dict [(.str c!"b", .int 2)]) true)).1.2.log.drop ufo82.2.log.length, ?_,
      .writing 1 60 (p := [c!"lib.plist"]) (d := file112) ?_⟩, ?_⟩,
    ⟨_, ⟨(step env57 asciiCasing ufo82 (.lib (.dict [(.str c!"b", .int 2)]) true)).1.2.log.drop ufo82.2.log.length, ?_,
      .writing 1 (file112.length - 1) (p := [c!"lib.plist"]) (d := file112) ?_⟩, ?_, ?_⟩⟩
  · decide +kernel
  · decide +kernel
  · decide +kernel
  · decide +kernel
  · decide +kernel
  · decide +kernel
  · decide +kernel

end Verif.Props
