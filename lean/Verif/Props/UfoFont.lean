import Verif.Proofs.UfoFont
import Verif.Props.UfoLayers
import Verif.Proofs.UfoSaved
import Verif.Props.GlifText
import Verif.Props.LayerInfo
/-! The layers of a font do not disturb each other: C75. What was saved is loaded: C76. -/
namespace Verif.Props
open Verif Verif.FS Verif.IO Verif.Ufo Verif.Spec.Ufo Verif.Spec.Plist

/-! ### C75 -/

/-- In every interleaving of calls, a layer is as if only the calls on its own glyph set had been made: the glyph set is in the same state, its calls ended in the
same way, and its directory holds the same files. The other calls are calls on the glyph sets of other layers, `getGlyphSet` for any layer, renaming and deleting other layers, and
whatever does not concern the directory. Missing from the full claim: the call of C58 that puts two layers into one directory (`C75_refuted`). -/
theorem C75_isolation_partial (L : Casing) (hL : AsciiPrefix L) (E : FontInfo.Env) (f : Font) (hcanon : ∀ a b, f.fs.canon a = f.fs.canon b → L.lower a = L.lower b)
    (hnodes : Dict.WF f.fs.nodes) (hwf : Dict.WF f.writer.layers) (hd : LayerDirs f.writer.layers) (ha : ApartDirs L f.writer.layers)
    (i : Nat) (n d : Str) (ho : OwnsLayer f i n d) (gs : GlyphSet.GlyphSet) (hgs : f.sets[i]? = some gs)
    (calls : List FontCall) (hcalls : LeavesLayerRun E L i n d f calls) :
    let alone := GlyphSet.setRun L E.F (gs, f.fs) (calls.filterMap (onSet i))
    (f.run E L calls).sets[i]? = some alone.1.1 ∧ f.outcomes E L i calls = alone.2 ∧ ∀ p, (f.run E L calls).fs.node? (d :: p) = alone.1.2.node? (d :: p) := by
  obtain ⟨-, -, h1, h2, h3⟩ := font_run_layer hL E calls ⟨⟨hwf, hd⟩, ha, hnodes, hcanon⟩ ho hcalls hgs (Agree.refl _ _)
  exact ⟨h1, h3, h2.at⟩

/-- For two layers of a version 3 UFO: after their glyph sets were obtained, however the calls on the two are interleaved, each behaves as if it
were alone. -/
theorem C75_two_partial (L : Casing) (hL : AsciiPrefix L) (E : FontInfo.Env) (f : Font) (hcanon : ∀ a b, f.fs.canon a = f.fs.canon b → L.lower a = L.lower b)
    (hnodes : Dict.WF f.fs.nodes) (hwf : Dict.WF f.writer.layers) (hd : LayerDirs f.writer.layers) (ha : ApartDirs L f.writer.layers) (h3 : f.writer.version = 3)
    (n m : Str) (hnm : n ≠ m) (bn bm vn vm : Bool) (hn : (f.step E L (.getGlyphSet (some n) bn vn)).2 = .ok ())
    (hm : ((f.step E L (.getGlyphSet (some n) bn vn)).1.step E L (.getGlyphSet (some m) bm vm)).2 = .ok ())
    (calls : List FontCall) (hcalls : ∀ c ∈ calls, ∃ s, c = .set f.sets.length s ∨ c = .set (f.sets.length + 1) s) :
    let g := ((f.step E L (.getGlyphSet (some n) bn vn)).1.step E L (.getGlyphSet (some m) bm vm)).1
    ∀ i gs, i = f.sets.length ∨ i = f.sets.length + 1 → g.sets[i]? = some gs →
      let alone := GlyphSet.setRun L E.F (gs, g.fs) (calls.filterMap (onSet i))
      (g.run E L calls).sets[i]? = some alone.1.1 ∧ g.outcomes E L i calls = alone.2 ∧ ∀ p, (g.run E L calls).fs.node? (gs.dir ++ p) = alone.1.2.node? (gs.dir ++ p) := by
  intro g i gs hi hgs
  have s0 : Sound L f := ⟨⟨hwf, hd⟩, ha, hnodes, hcanon⟩
  obtain ⟨s1, c1⟩ := sound_step hL E s0 (.getGlyphSet (some n) bn vn) (by rintro op h; cases h)
  obtain ⟨s2, c2⟩ := sound_step hL E s1 (.getGlyphSet (some m) bm vm) (by rintro op h; cases h)
  obtain ⟨d, gn, o1, l1, d1, -⟩ := font_owner E h3 hn
  have hv : (f.step E L (.getGlyphSet (some n) bn vn)).1.writer.version = 3 := by
    have := congrArg (fun w : World => w.1.version) (font_step_world E L f (.getGlyphSet (some n) bn vn))
    exact this.trans ((step_spec E L f.world s0.layered _).1.version.trans h3)
  obtain ⟨e, gm, o2, l2, d2, -⟩ := font_owner E hv hm
  obtain ⟨o3, hsame⟩ := font_step_layer hL E s1 o1 (.getGlyphSet (some m) bm vm) trivial (by rintro op h; cases h)
  have hlen : (f.step E L (.getGlyphSet (some n) bn vn)).1.sets.length = f.sets.length + 1 := by rw [l1]; simp
  rw [hlen] at o2
  have hne : g.fs.canon d ≠ g.fs.canon e := fun h => s2.apart n m d e o3.layer o2.layer hnm (s2.canon _ _ h)
  -- the invariant: the two glyph sets stay in their directories
  have hstay : ∀ pre : List FontCall, (∀ c ∈ pre, ∃ s, c = .set f.sets.length s ∨ c = .set (f.sets.length + 1) s) →
      ∀ x : Font, (∃ a b, x.sets[f.sets.length]? = some a ∧ a.dir = [d] ∧ x.sets[f.sets.length + 1]? = some b ∧ b.dir = [e]) → x.fs.canon = g.fs.canon →
        (∃ a b, (x.run E L pre).sets[f.sets.length]? = some a ∧ a.dir = [d] ∧ (x.run E L pre).sets[f.sets.length + 1]? = some b ∧ b.dir = [e]) ∧
        (x.run E L pre).fs.canon = g.fs.canon := by
    intro pre
    induction pre with
    | nil => exact fun _ x hx hc => ⟨hx, hc⟩
    | cons c pre ih =>
      rintro hp x ⟨a, b, ha, hda, hb, hdb⟩ hc
      refine ih (fun c hc => hp c (by simp [hc])) (x.step E L c).1 ?_ ?_
      · obtain ⟨s, rfl | rfl⟩ := hp c (by simp)
        · simp only [Font.step, Font.callSet, ha]
          refine ⟨_, b, List.getElem?_set_self (List.getElem?_eq_some_iff.1 ha).1, (GlyphSet.setStep_dir _ _ _ _).trans hda, ?_, hdb⟩
          rw [List.getElem?_set_ne (by simp)]; exact hb
        · simp only [Font.step, Font.callSet, hb]
          refine ⟨a, _, ?_, hda, List.getElem?_set_self (List.getElem?_eq_some_iff.1 hb).1, (GlyphSet.setStep_dir _ _ _ _).trans hdb⟩
          rw [List.getElem?_set_ne (by simp)]; exact ha
      · obtain ⟨s, rfl | rfl⟩ := hp c (by simp)
        · simp only [Font.step, Font.callSet, ha]
          exact (GlyphSet.setStep_acts L E.F (a, x.fs) s).canon.trans hc
        · simp only [Font.step, Font.callSet, hb]
          exact (GlyphSet.setStep_acts L E.F (b, x.fs) s).canon.trans hc
  have hg : ∃ a b, g.sets[f.sets.length]? = some a ∧ a.dir = [d] ∧ g.sets[f.sets.length + 1]? = some b ∧ b.dir = [e] := by
    obtain ⟨a, ha, hda⟩ := o3.set
    obtain ⟨b, hb, hdb⟩ := o2.set
    exact ⟨a, b, ha, hda, hb, hdb⟩
  have hop : ∀ c ∈ calls, ∀ op, c ≠ .ufo op := by
    intro c hc op h
    obtain ⟨s, h' | h'⟩ := hcalls c hc <;> rw [h'] at h <;> cases h
  rcases hi with rfl | rfl
  · obtain ⟨a, b, ha', hda, -, -⟩ := id hg
    rw [ha'] at hgs
    cases hgs
    rw [hda]
    refine C75_isolation_partial L hL E g s2.canon s2.wf s2.layered.wf s2.layered.dirs s2.apart _ n d o3 gs ha' calls fun pre c post hx => ?_
    have hpre : ∀ c ∈ pre, ∃ s, c = .set f.sets.length s ∨ c = .set (f.sets.length + 1) s := fun c hc => hcalls c (by rw [hx]; simp [hc])
    obtain ⟨⟨a', b', ha1, hda1, hb1, hdb1⟩, hcan⟩ := hstay pre hpre g hg rfl
    refine ⟨?_, fun op h => absurd h (hop c (by rw [hx]; simp) op)⟩
    obtain ⟨s, rfl | rfl⟩ := hcalls c (by rw [hx]; simp)
    · exact .inl rfl
    · refine .inr fun x hxs => ?_
      rw [hb1] at hxs
      cases hxs
      exact ⟨e, hdb1, by rw [hcan]; exact hne.symm⟩
  · obtain ⟨a, b, -, -, hb', hdb⟩ := id hg
    rw [hb'] at hgs
    cases hgs
    rw [hdb]
    refine C75_isolation_partial L hL E g s2.canon s2.wf s2.layered.wf s2.layered.dirs s2.apart _ m e o2 gs hb' calls fun pre c post hx => ?_
    have hpre : ∀ c ∈ pre, ∃ s, c = .set f.sets.length s ∨ c = .set (f.sets.length + 1) s := fun c hc => hcalls c (by rw [hx]; simp [hc])
    obtain ⟨⟨a', b', ha1, hda1, hb1, hdb1⟩, hcan⟩ := hstay pre hpre g hg rfl
    refine ⟨?_, fun op h => absurd h (hop c (by rw [hx]; simp) op)⟩
    obtain ⟨s, rfl | rfl⟩ := hcalls c (by rw [hx]; simp)
    · refine .inr fun x hxs => ?_
      rw [ha1] at hxs
      cases hxs
      exact ⟨d, hda1, by rw [hcan]; exact hne⟩
    · exact .inl rfl

/-- A program with a writer for a new UFO 3 on an empty file system, after these calls. -/
def font75 (calls : List FontCall) : Font :=
  Font.run ⟨fractionCodec, true⟩ asciiCasing
    { writer := { version := 3, layers := [], havePrevious := false, validate := true, renameMap := none }, fs := { canon := id, nodes := [], log := [] }, sets := [] } calls

/-- What `getGLIF` of the glyph set number `i` gives. -/
def glif75 (f : Font) (i : Nat) (n : Str) : Option Bytes := (f.sets[i]?).bind fun gs => (GlyphSet.getGLIF (gs, f.fs) n).toOption

/-- Glyphs of the same name in three layers; the third layer gets another name and is deleted. -/
example : let f := font75 [.getGlyphSet (some c!"a") true true, .getGlyphSet (some c!"b") false true, .getGlyphSet (some c!"B") false true,
      .set 0 (.glyphs (put51 c!"x" [1])), .set 1 (.glyphs (put51 c!"x" [2])), .set 2 (.glyphs (put51 c!"x" [3])), .set 1 (.glyphs (put51 c!"y" [4])),
      .ufo (.rename (some c!"B") (some c!"C") false), .set 1 (.glyphs .save), .set 0 (.glyphs (.delete c!"x")), .ufo (.delete (some c!"C"))];
    [glif75 f 0 c!"x", glif75 f 1 c!"x", glif75 f 1 c!"y", glif75 f 2 c!"x"] = [none, some [2], some [4], none] := by decide +kernel

/-- After a layer has been put into the directory of the default layer, a glyph of the default layer is overwritten by one of the other. -/
theorem C75_refuted : let f := font75 [.getGlyphSet (some c!"a") true true, .getGlyphSet (some c!"b") false true, .set 0 (.glyphs (put51 c!"x" [1])), .set 0 (.glyphs .save)]
    let g := Font.run ⟨fractionCodec, true⟩ asciiCasing f [.ufo (.rename (some c!"b") (some c!"b") true), .getGlyphSet (some c!"b") false true, .set 2 (.glyphs (put51 c!"x" [2]))]
    g.writer.layers = [(c!"a", c!"glyphs"), (c!"b", c!"glyphs")] ∧ glif75 f 0 c!"x" = some [1] ∧ glif75 g 0 c!"x" = some [2] := by decide +kernel

/-! ### C76 -/

/-- Saving and loading: a program gets a glyph set for a new layer, writes and deletes glyphs in it and writes its contents, interleaved with any other work on other parts of the UFO (also
other layers), and finally writes the layer contents. Then the reader finds the layer, with exactly the glyphs that were written and not deleted, each with the text last written. Missing
from the full claim: glyph names whose own files are not different ignoring case (`C52_refuted`); histories in which a glyph is in an unknown state after a failed call (`C53_refuted`); the layer contents
that the writer accepts and the reader does not (C59). -/
theorem C76_saved_partial (L : Casing) (hL : AsciiPrefix L) (hC : Spec.GlyphSet.CaseLaws L.lower) (E : FontInfo.Env) (hF : E.F.Lawful) (N : Str → Prop) (hN : Spec.GlyphSet.OwnFiles L.lower N) (hT : ∀ m, N m → FileText m) (f : Font) (hf : Consistent L f) (i : Nat) (n d : Str) (ho : OwnsLayer f i n d)
    (gs : GlyphSet.GlyphSet) (hgs : f.sets[i]? = some gs) (hempty : gs.contents = [] ∧ gs.existing = none ∧ gs.reverse = none)
    (before after : List FontCall) (hcalls : LeavesLayerRun E L i n d f (before ++ .set i (.glyphs .save) :: after))
    (hkeep : ∀ op, .ufo op ∈ before ++ after → ((∃ n b v, op = .glyphSet n b v) ∨ (∃ n m b, op = .rename n m b) ∨ ∃ n, op = .delete (some n)) ∨
      (∀ d, GlyphsDir d → Spares f.fs.canon d op) ∨ InGlyphSet op)
    (hafter : ∀ c ∈ after, onSet i c = none) (hsave : ((f.run E L before).step E L (.set i (.glyphs .save))).2 = .ok ())
    (hwrites : ∀ naming m fv data, .set i (.glyphs (.write naming m fv data)) ∈ before → naming = GlyphSet.defaultNaming L ∧ N m)
    (hrebuild : ∀ v, .set i (.glyphs (.rebuild v)) ∉ before)
    (hknown : ∀ m, Spec.GlyphSet.Status.absent.history m (record E L i gs.version f before) ≠ .unknown)
    (order : Option (List (Option Str))) (w' : World)
    (hwrite : writeLayerContents E.F (f.run E L (before ++ .set i (.glyphs .save) :: after)).world order true = (w', .ok ()))
    (hdup : (orderNames (f.run E L (before ++ .set i (.glyphs .save) :: after)).writer.layers order).Nodup)
    (hdefault : ∃ n, Dict.get? (f.run E L (before ++ .set i (.glyphs .save) :: after)).writer.layers n = some c!"glyphs")
    (hlayers : ∀ n d, Dict.get? (f.run E L (before ++ .set i (.glyphs .save) :: after)).writer.layers n = some d →
      n ≠ [] ∧ FileText n ∧ FileText d ∧ (n = c!"public.default" → d = c!"glyphs")) :
    ∃ g, readerGlyphSet E.F w'.2 3 (some n) true = .ok g ∧ g.version = 3 ∧ g.dir = [d] ∧
      (∀ m, m ∈ GlyphSet.keys g ↔ Spec.GlyphSet.Status.absent.history m (record E L i gs.version f before) ≠ .absent) ∧
      (∀ m, Spec.GlyphSet.Expects (GlyphSet.getGLIF (g, w'.2) m) (Spec.GlyphSet.Status.absent.history m (record E L i gs.version f before))) ∧
      ∀ (G : Glif.Env), Spec.Glif.ReprLaws G → ∀ m o items b, Spec.Glif.Legible (.str m) o (some (Spec.Glif.drawing items)) → Spec.Glif.Plain true o →
        (∀ it ∈ items, Spec.Glif.Readable it) → GlifFile.writeGlyphToBytes G true 2 (.str m) o (some (Spec.Glif.drawing items)) = .ok b →
        Spec.GlyphSet.Status.absent.history m (record E L i gs.version f before) = .holds b →
        ∃ attrs calls, GlyphSet.readGlyph G (g, w'.2) m true true true = .ok (attrs, calls) ∧ List.Forall₂ Spec.Glif.SameCall (Spec.Glif.drawing items) calls ∧
          Spec.Glif.SameGlyph (.str m) o attrs := by
  have hA := asciiCasing_of hL
  have ho0 := Orderly.of hf
  have hcanon := hf.canon
  -- the own calls about glyphs
  have hmem : ∀ op ∈ (before.filterMap (onSet i)).filterMap glyphCall, .set i (.glyphs op) ∈ before := by
    intro op hop
    obtain ⟨c, hc, hcop⟩ := List.mem_filterMap.1 hop
    obtain ⟨x, hx, hxc⟩ := List.mem_filterMap.1 hc
    cases c with
    | layerInfo info v => cases hcop
    | glyphs o =>
      cases hcop
      cases x with
      | getGlyphSet a b c => cases hxc
      | ufo o => cases hxc
      | set j c =>
        simp only [onSet] at hxc
        split at hxc
        · rename_i hj
          cases hxc
          subst hj
          exact hx
        · cases hxc
  have hops : ∀ op ∈ (before.filterMap (onSet i)).filterMap glyphCall, ∀ v, op ≠ .rebuild v := by
    rintro op hop v rfl
    exact hrebuild v (hmem _ hop)
  have hn : ∀ op ∈ (before.filterMap (onSet i)).filterMap glyphCall, ∀ naming m fv data, op = .write naming m fv data → naming = GlyphSet.defaultNaming L ∧ N m := by
    rintro op hop naming m fv data rfl
    exact hwrites naming m fv data (hmem _ hop)
  have hnamed := fun pre hpre => named_prefix (F := E.F) (w := (gs, f.fs)) hops (fun op ho naming m fv data he => by
      obtain ⟨h1, h2⟩ := hn op ho naming m fv data he
      rw [h1]; exact GlyphSet.admissible_own hC hN h2) (named_new (L := L) hempty) pre hpre
  have hav : ∀ p : Str, (∀ c ∈ p, c.toNat < 128) → p.getLast? = some 't' → ∀ pre, pre <+: (before.filterMap (onSet i)).filterMap glyphCall →
      Spec.GlyphSet.Avoids f.fs.canon p (GlyphSet.run L E.F (gs, f.fs) pre).1.contents := by
    intro p hp hlast pre hpre m x hx e
    obtain ⟨h1, rfl⟩ := (hnamed pre hpre).good m x hx
    exact GlyphSet.own_lower hC hlast (hcanon _ _ e)
  have hcl : f.fs.canon GlyphSet.contentsName ≠ f.fs.canon GlyphSet.layerinfoName := by
    intro e
    have := hcanon _ _ e
    rw [hA _ (by decide), hA _ (by decide)] at this
    exact absurd this (by decide)
  obtain ⟨s1, s2, ⟨data, s3, s4⟩, s5, s6, s7⟩ := saved_layer hL E ho0.sound ho hgs hcalls hafter hsave hcl hops (hav _ (by decide) (by decide)) (hav _ (by decide) (by decide) _ (List.prefix_refl _))
  have hst := fun m => C51_default_partial L hC E.F N hN f.fs gs _ hcanon hempty hops hn m
  generalize hg : f.run E L (before ++ .set i (.glyphs .save) :: after) = g at *
  -- the layer contents
  have hord : Orderly L g := by
    rw [← hg]
    refine orderly_run hL E _ ho0 (fun pre c post e => (hcalls pre c post e).2) (fun c hc op h => ?_)
    subst h
    refine hkeep op ?_
    simpa using hc
  have hv : g.writer.version = 3 := by
    have : (run E L f.world (f.asOps E L (before ++ .set i (.glyphs .save) :: after))).1.version = 3 := (run_spec E L _ f.world ho0.sound.layered).1.version.trans hf.version
    rw [← font_run_world, hg] at this
    exact this
  have horder : layerOrderOf g.writer.layers order = orderNames g.writer.layers order := by cases order <;> rfl
  have hapart : ∀ x, GlyphsDir x → g.fs.canon x ≠ g.fs.canon layercontentsName := fun x hx e => lower_apart hL hx (by decide) (hord.sound.canon _ _ e)
  obtain ⟨t, t1, t2, t3⟩ := written_layers hF hord.good hv hwrite (by rw [show g.world.1.layers = g.writer.layers from rfl, horder]; exact hdup) hdefault hapart hlayers
  obtain ⟨u1, u2, u3⟩ := writeLayerContents_all hv hwrite
  have hdd : g.fs.canon d ≠ g.fs.canon layercontentsName := hapart d (hord.sound.layered.dirs n d s2.layer)
  have hnode : ∀ p, w'.2.node? (d :: p) = g.fs.node? (d :: p) := fun p => u3 _ fun e => by
    simp only [FS.key, List.map_cons, List.map_nil, List.cons.injEq] at e
    exact hdd e.1
  have hmemt : (n, d) ∈ t := by
    have : n ∈ t.map Prod.fst := by
      rw [t2]
      exact u1 n (Dict.mem_keys_of_mem (Dict.mem_of_get? s2.layer))
    obtain ⟨e, he, rfl⟩ := List.mem_map.1 this
    have h' := t3 e he
    rw [show g.world.1.layers = g.writer.layers from rfl, s2.layer] at h'
    cases h'
    exact he
  have hread := saved_read hF t1 (by rw [t2, show g.world.1.layers = g.writer.layers from rfl, horder]; exact hdup) hmemt (by rw [hnode]; exact s2.dir)
    (w := GlyphSet.run L E.F (gs, f.fs) ((before.filterMap (onSet i)).filterMap glyphCall)) (hnamed _ (List.prefix_refl _)).sound.wf s6 (fun m x hx => by
      obtain ⟨h1, rfl⟩ := (hnamed _ (List.prefix_refl _)).good m x hx
      exact ⟨hT m h1, GlyphSet.ownFile_text (hT m h1)⟩) s3
    (by unfold getbytes; rw [hnode [GlyphSet.contentsName]]; exact s4) (fun m x hx => by rw [hnode [x]]; exact s5 m x hx) (fun m => by rw [s7]; exact hst m) hknown
  obtain ⟨g', r1, r2, r0, r3, r4⟩ := hread
  refine ⟨g', r1, r2, r0, r3, r4, fun G hG m o items b hl hp hi hb hh => ?_⟩
  have := r4 m
  rw [hh] at this
  exact C71_file_partial G hG (g', w'.2) (by rw [r2]) m o items hl hp hi b hb this

/-- Layer info: after it was written for a layer, and no other layer info for this layer, it is read from a glyph set in its directory, whatever else was done in between. The
conditions are those of `C72_roundtrip_partial`. -/
theorem C76_layerinfo_partial (L : Casing) (hL : AsciiPrefix L) (E : FontInfo.Env) (hF : E.F.Lawful) (f : Font) (hf : Consistent L f) (i : Nat) (n d : Str) (ho : OwnsLayer f i n d)
    (before after : List FontCall) (info : Str → Option PyVal) (validate b : Bool)
    (hcalls : LeavesLayerRun E L i n d f (before ++ .set i (.layerInfo info validate) :: after)) (hafter : ∀ x v, .set i (.layerInfo x v) ∉ after)
    (hok : ((f.run E L before).step E L (.set i (.layerInfo info validate))).2 = .ok ()) (hb : b = true → validate = true)
    (hs : ∀ attr ∈ [c!"color", c!"lib"], ∀ v, Spec.LayerInfo.Stores info attr v → Storable v)
    (hnew : (∃ attr ∈ [c!"color", c!"lib"], ∃ v, Spec.LayerInfo.Stores info attr v) ∨ (f.run E L before).fs.exists [d, c!"layerinfo.plist"] = false)
    (hav : ∀ gs, (f.run E L before).sets[i]? = some gs → Spec.GlyphSet.Avoids f.fs.canon c!"layerinfo.plist" gs.contents)
    (hops : ∀ op, .set i (.glyphs op) ∈ after → Spec.GlyphSet.NamesAvoid f.fs.canon c!"layerinfo.plist" op) (g : GlyphSet.GlyphSet) (hg : g.dir = [d]) :
    ∃ x, GlyphSet.readLayerInfo E.F (g, (f.run E L (before ++ .set i (.layerInfo info validate) :: after)).fs) b = .ok x ∧ Spec.LayerInfo.SameInfo info x := by
  have ho0 := Orderly.of hf
  obtain ⟨hb', hr⟩ := leavesRun_append hcalls
  obtain ⟨hst, ha⟩ := leavesRun_cons hr
  obtain ⟨gs, hgs, hdir⟩ := ho.set
  obtain ⟨k1, k2, k3, k4, -⟩ := font_run_layer hL E before ho0.sound ho hb' hgs (Agree.refl _ _)
  have hcan : (f.run E L before).fs.canon = f.fs.canon := by
    have := (run_spec E L (f.asOps E L before) f.world ho0.sound.layered).2.2.canon
    rw [← font_run_world] at this
    exact this
  obtain ⟨g1, hg1, hd1⟩ := k2.set
  obtain ⟨s1, -⟩ := sound_step hL E k1 _ hst.2
  obtain ⟨s3, -⟩ := font_step_layer hL E k1 k2 _ hst.1 hst.2
  obtain ⟨g2, hg2, -⟩ := s3.set
  obtain ⟨-, -, -, q4, -⟩ := font_run_layer hL E after s1 s3 ha hg2 (Agree.refl _ _)
  have hstep : (f.run E L before).step E L (.set i (.layerInfo info validate)) =
      ({ f.run E L before with fs := (GlyphSet.writeLayerInfo E.F (g1, (f.run E L before).fs) info validate).1.2, sets := (f.run E L before).sets.set i (GlyphSet.writeLayerInfo E.F (g1, (f.run E L before).fs) info validate).1.1 },
        (GlyphSet.writeLayerInfo E.F (g1, (f.run E L before).fs) info validate).2) := by
    simp only [Font.step, Font.callSet, hg1]
    rfl
  have hpair : (g2, ((f.run E L before).step E L (.set i (.layerInfo info validate))).1.fs) = (GlyphSet.writeLayerInfo E.F (g1, (f.run E L before).fs) info validate).1 := by
    rw [hstep] at hg2 ⊢
    simp only [List.getElem?_set_self (List.getElem?_eq_some_iff.1 hg1).1, Option.some.injEq] at hg2
    rw [← hg2]
  rw [hpair] at q4
  have hmem : ∀ c ∈ after.filterMap (onSet i), .set i c ∈ after := by
    intro c hc
    obtain ⟨x, hx, hxc⟩ := List.mem_filterMap.1 hc
    cases x with
    | getGlyphSet a b c => cases hxc
    | ufo o => cases hxc
    | set j c =>
      simp only [onSet] at hxc
      split at hxc
      · rename_i hj
        cases hxc
        subst hj
        exact hx
      · cases hxc
  rw [setRun_run L E.F _ _ (fun x v hm => hafter x v (hmem _ hm))] at q4
  rw [hstep] at hok
  have hne : f.fs.canon c!"layerinfo.plist" ≠ f.fs.canon c!"contents.plist" := by
    intro e
    have := hf.canon _ _ e
    rw [asciiCasing_of hL _ (by decide), asciiCasing_of hL _ (by decide)] at this
    exact absurd this (by decide)
  obtain ⟨x, hx, hsame⟩ := C72_roundtrip_partial L E.F hF (g1, (f.run E L before).fs) info validate b ((after.filterMap (onSet i)).filterMap glyphCall) hs hok hb
    (.inr (hnew.imp id fun h => by rw [hd1]; exact h)) (by rw [hcan]; exact hav g1 hg1) (by rw [hcan]; exact hne) (fun op hop => by
      rw [hcan]
      obtain ⟨c, hc, hcop⟩ := List.mem_filterMap.1 hop
      cases c with
      | layerInfo y v => cases hcop
      | glyphs o => cases hcop; exact hops _ (hmem _ hc))
  refine ⟨x, ?_, hsame⟩
  rw [← hx]
  have hrun : f.run E L (before ++ .set i (.layerInfo info validate) :: after) = Font.run E L ((f.run E L before).step E L (.set i (.layerInfo info validate))).1 after := by
    rw [font_run_append]; rfl
  have hd2 : (GlyphSet.run L E.F (GlyphSet.writeLayerInfo E.F (g1, (f.run E L before).fs) info validate).1 ((after.filterMap (onSet i)).filterMap glyphCall)).1.dir = [d] := by
    rw [GlyphSet.run_dir, (GlyphSet.writeLayerInfo_frame E.F (g1, (f.run E L before).fs) info validate).1, hd1]
  unfold GlyphSet.readLayerInfo
  rw [hg, hd2, hrun]
  have := q4.getPlist E.F (p := [d] ++ [GlyphSet.layerinfoName]) ⟨_, rfl⟩ (some (.dict []))
  rw [this]

/-- A writer that was just opened on a new UFO is a state to start from. -/
theorem C76_new (L : Casing) (E : FontInfo.Env) (fs fs' : FS) (hcanon : ∀ a b, fs.canon a = fs.canon b → L.lower a = L.lower b) (hL : AsciiPrefix L)
    (hnodes : Dict.WF fs.nodes) (creator : PyVal) (validate : Bool) (w : Writer) (h : openWriter E.F false fs 3 creator validate = (fs', .ok w)) :
    Consistent L { writer := w, fs := fs', sets := [] } := by
  obtain ⟨h1, h2⟩ := openWriter_new h
  obtain ⟨-, -, hwp, hv, -, -⟩ := openWriter_ok h
  obtain ⟨hc, hn, -⟩ := writePlist_spec hwp
  refine ⟨hv, by simpa [hc] using hcanon, ?_, h1.wf, h1.dirs, apart_new h2, fun n d hd => ?_, by simp⟩
  · have := (writePlist_acts E.F false fs [metainfoName] (metaInfo creator 3)).wf hnodes
    rw [hwp] at this
    exact this
  · rcases h2 with h2 | ⟨h2, hx⟩
    · simp only [h2] at hd
      cases hd
    · simp only [h2, Dict.get?_cons] at hd
      split at hd
      · cases hd
        unfold «exists» at hx ⊢
        rw [hn]
        · exact hx
        · intro e
          simp only [FS.key, List.map_cons, List.map_nil, List.cons.injEq, and_true] at e
          exact lower_apart hL (.inl rfl : GlyphsDir glyphsName) (by decide : metainfoName ∈ standardNames) (hcanon _ _ e)
      · cases hd

/-- A glyph set obtained for a new layer is empty and owns the layer, unless there were left-over glyph directories. -/
theorem C76_layer (L : Casing) (hL : AsciiPrefix L) (E : FontInfo.Env) (f : Font) (hf : Consistent L f) (n : Str) (b v : Bool) (hn : Dict.get? f.writer.layers n = none)
    (hclean : ∀ x p, GlyphsDir x → (∀ m y, Dict.get? f.writer.layers m = some y → L.lower y ≠ L.lower x) → f.fs.node? (x :: p) = none)
    (hok : (f.step E L (.getGlyphSet (some n) b v)).2 = .ok ()) :
    Consistent L (f.step E L (.getGlyphSet (some n) b v)).1 ∧ ∃ d gs, OwnsLayer (f.step E L (.getGlyphSet (some n) b v)).1 f.sets.length n d ∧
      (f.step E L (.getGlyphSet (some n) b v)).1.sets[f.sets.length]? = some gs ∧ gs.version = 3 ∧ gs.contents = [] ∧ gs.existing = none ∧ gs.reverse = none := by
  have ho := Orderly.of hf
  have hord := orderly_step hL E ho (.getGlyphSet (some n) b v) (by rintro op h; cases h)
  have hv : (f.step E L (.getGlyphSet (some n) b v)).1.writer.version = 3 := by
    have := congrArg (fun w : World => w.1.version) (font_step_world E L f (.getGlyphSet (some n) b v))
    exact this.trans ((step_spec E L f.world ho.sound.layered _).1.version.trans hf.version)
  refine ⟨⟨hv, hord.sound.canon, hord.sound.wf, hord.sound.layered.wf, hord.sound.layered.dirs, hord.sound.apart, fun m d hd => ?_, hord.dirs⟩, ?_⟩
  · have : (f.step E L (.getGlyphSet (some n) b v)).1.fs.node? [d] ≠ none := hord.present m d hd
    simpa [«exists», Option.isSome_iff_ne_none] using this
  · obtain ⟨d, gs, o1, o2, o3, o4⟩ := font_owner E hf.version hok
    refine ⟨d, gs, o1, by rw [o2]; simp, o4, ?_⟩
    -- what is opened
    have hstep : (f.step E L (.getGlyphSet (some n) b v)).1 = { writer := (getGlyphSet L E.F f.world (some n) b v).1.1, fs := (getGlyphSet L E.F f.world (some n) b v).1.2, sets := f.sets ++ [gs] } ∧
        (getGlyphSet L E.F f.world (some n) b v).2 = .ok gs := by
      simp only [Font.step, Font.getGlyphSet] at hok o2 ⊢
      split at hok
      · cases hok
      · rename_i g hg
        simp only [hg] at o2
        have : g = gs := by simpa using o2
        subst this
        simp only [hg]
        exact ⟨trivial, trivial⟩
    have hs : getGlyphSet L E.F f.world (some n) b v = getGlyphSet3 L E.F f.world n b v := by
      unfold getGlyphSet
      rw [if_neg (by simp [Font.world, hf.version]), if_neg (by simp), if_neg (by simp [Font.world, hf.version])]
      rfl
    have hopen := hstep.2
    rw [hs] at hopen
    unfold getGlyphSet3 at hopen
    split at hopen
    · cases hopen
    · rename_i hconf
      split at hopen
      · cases hopen
      · rename_i x hx
        split at hopen
        · cases hopen
        · rename_i fs hfs
          have hopen' : GlyphSet.openGlyphSet E.F fs [x] 3 v = .ok gs := hopen
          obtain ⟨-, -, e1, e2⟩ := openGlyphSet_dir hopen'
          refine ⟨?_, e1, e2⟩
          have hfresh : ∀ m y, Dict.get? f.writer.layers m = some y → L.lower y ≠ L.lower x := fun m y hm => by
            refine layerDirectory_fresh hL ho.sound.layered ho.sound.apart (Bool.eq_false_iff.2 hconf) hx (fun e => ?_) hm
            rw [e, hn] at hm
            cases hm
          have hgd : GlyphsDir x := by
            have h1 : Dict.get? (f.step E L (.getGlyphSet (some n) b v)).1.writer.layers n = some x := by
              rw [hstep.1, hs]
              unfold getGlyphSet3
              rw [if_neg hconf]
              simp only [hx, hfs]
              exact Dict.get?_set_self _ _ _
            exact hord.sound.layered.dirs n x h1
          have hnone : fs.node? [x, GlyphSet.contentsName] = none := by
            rw [(makedir_ok hfs).2.2.1 _ (by
              intro e
              have := congrArg List.length e
              simp [FS.key] at this)]
            exact hclean x _ hgd hfresh
          unfold GlyphSet.openGlyphSet at hopen'
          rw [if_pos (by simp)] at hopen'
          unfold GlyphSet.rebuildContents at hopen'
          rw [show ([x] ++ [GlyphSet.contentsName] : Path) = [x, GlyphSet.contentsName] from rfl] at hopen'
          rw [Ufo.getPlist_none hnone] at hopen'
          simp only [GlyphSet.checkContents, GlyphSet.tableOf, List.any_nil, Bool.and_false, Bool.false_eq_true, if_false, List.foldl_nil] at hopen'
          cases hopen'
          rfl

theorem leaves_nil {E : FontInfo.Env} {L : Casing} {i : Nat} {n d : Str} {f : Font} : LeavesLayerRun E L i n d f [] := fun pre c post e => by simp at e

theorem leaves_cons {E : FontInfo.Env} {L : Casing} {i : Nat} {n d : Str} {f : Font} {c : FontCall} {cs : List FontCall} (h1 : LeavesLayer i n d f c)
    (h2 : ∀ op, c = .ufo op → Harmless f.writer.layers op) (h3 : LeavesLayerRun E L i n d (f.step E L c).1 cs) : LeavesLayerRun E L i n d f (c :: cs) := by
  intro pre x post e
  cases pre with
  | nil =>
    simp only [List.nil_append, List.cons.injEq] at e
    obtain ⟨rfl, rfl⟩ := e
    exact ⟨h1, h2⟩
  | cons y pre =>
    simp only [List.cons_append, List.cons.injEq] at e
    obtain ⟨rfl, rfl⟩ := e
    exact h3 pre x post rfl

theorem leaves_set {i j : Nat} {n d e : Str} {f : Font} {c : GlyphSet.SetCall} (h : (f.sets[j]?).map (·.dir) = some [e]) (hne : f.fs.canon e ≠ f.fs.canon d) :
    LeavesLayer i n d f (.set j c) := .inr fun gs hgs => by
  rw [hgs] at h
  exact ⟨e, by simpa using h, hne⟩

/-- The program of the examples: two layers. -/
def start76 : Font := font75 [.getGlyphSet (some c!"a") true true, .getGlyphSet (some c!"b") false true]

/-- Calls on both layers; the glyph set of the second is saved. -/
def before76 : List FontCall :=
  [.set 1 (.glyphs (put51 c!"x" [1])), .set 0 (.glyphs (put51 c!"x" [2])), .set 1 (.layerInfo (fun _ => none) true), .set 1 (.glyphs (put51 c!"A" [3])), .set 1 (.glyphs (.delete c!"x")),
    .ufo (.lib (.dict []) true)]

def after76 : List FontCall := [.set 0 (.glyphs (put51 c!"y" [4])), .getGlyphSet (some c!"c") false true, .set 0 (.glyphs .save), .ufo (.delete (some c!"c"))]

/-- The histories meet the conditions. -/
example : LeavesLayerRun ⟨fractionCodec, true⟩ asciiCasing 1 c!"b" c!"glyphs.b" start76 (before76 ++ .set 1 (.glyphs .save) :: after76) := by
  unfold before76 after76
  have hh : ∀ {f : Font} {j c} op, FontCall.set j c = .ufo op → Harmless f.writer.layers op := by rintro f j c op h; cases h
  refine leaves_cons (.inl rfl) hh (leaves_cons (leaves_set (e := c!"glyphs") (by decide +kernel) (by decide +kernel)) hh (leaves_cons (.inl rfl) hh (leaves_cons (.inl rfl) hh
    (leaves_cons (.inl rfl) hh (leaves_cons (.inl ?_) ?_ (leaves_cons (.inl rfl) hh (leaves_cons (leaves_set (e := c!"glyphs") (by decide +kernel) (by decide +kernel)) hh
    (leaves_cons trivial ?_ (leaves_cons (leaves_set (e := c!"glyphs") (by decide +kernel) (by decide +kernel)) hh (leaves_cons (.inr (.inr (.inr ⟨_, rfl, by decide⟩))) ?_ leaves_nil))))))))))
  · intro c hc
    cases hc
    decide +kernel
  · rintro op h
    cases h
    rintro n h
    cases h
  · rintro op h; cases h
  · rintro op h
    cases h
    rintro n h
    cases h

example : OwnsLayer start76 1 c!"b" c!"glyphs.b" := ⟨⟨_, rfl, by decide +kernel⟩, by decide +kernel, by decide +kernel⟩

/-- What the reader finds afterwards in the two layers. -/
example : let w := (start76.run ⟨fractionCodec, true⟩ asciiCasing (before76 ++ .set 1 (.glyphs .save) :: after76)).world
    let fs := (writeLayerContents fractionCodec w (some [some c!"b", some c!"a"]) true).1.2
    let read := fun n => (readerGlyphSet fractionCodec fs 3 (some n) true).toOption.map fun g => g.contents.map fun e => (e.1, (GlyphSet.getGLIF (g, fs) e.1).toOption)
    read c!"b" = some [(c!"A", some [3])] ∧ read c!"a" = some [(c!"x", some [2]), (c!"y", some [4])] ∧ read c!"c" = none := by decide +kernel

end Verif.Props
