import Verif.Props.UfoFont
import Verif.Proofs.Edit
import Verif.Proofs.UfoResave
/-! Editing a UFO that exists: C114. -/
namespace Verif.Props
open Verif Verif.FS Verif.IO Verif.Ufo Verif.Spec.Ufo Verif.Spec.Plist

/-- For a glyph set on a directory with glyphs: after any calls, each glyph is as the record of the calls says, starting from what was there. Missing from the full claim: see `C114_refuted_case` and
`C114_refuted_shared`. -/
theorem C114_glyphs_partial (L : Casing) (hL : Spec.GlyphSet.CaseLaws L.lower) (F : FloatCodec) (N : Str → Prop) (hN : Spec.GlyphSet.OwnFiles L.lower N) (fs : FS) (gs : GlyphSet.GlyphSet)
    (dir : Path) (version : Nat) (v : Bool) (hgs : GlyphSet.openGlyphSet F fs dir version v = .ok gs) (hcanon : ∀ a b, fs.canon a = fs.canon b → L.lower a = L.lower b)
    (he : Spec.GlyphSet.Editable L.lower N gs.contents) (ops : List GlyphSet.Op) (hops : ∀ op ∈ ops, ∀ v, op ≠ .rebuild v)
    (hn : ∀ op ∈ ops, ∀ naming n fv data, op = .write naming n fv data → naming = GlyphSet.defaultNaming L ∧ N n) (n : Str) :
    Spec.GlyphSet.Expects (GlyphSet.getGLIF (GlyphSet.run L F (gs, fs) ops) n)
      ((Spec.GlyphSet.now (GlyphSet.getGLIF (gs, fs) n)).history n (Spec.GlyphSet.calls L F (gs, fs) ops)) := by
  have h0 := GlyphSet.named_edit (L := L) (GlyphSet.openGlyphSet_table hgs) (Ufo.openGlyphSet_dir hgs).2.2 he
  refine C51_history_partial L F (gs, fs) ops hops (fun pre hpre => ?_) n _ (GlyphSet.expects_now _)
  have := named_prefix (F := F) (w := (gs, fs)) hops (fun op ho naming m fv data hop => by
    obtain ⟨h1, h2⟩ := hn op ho naming m fv data hop
    rw [h1]; exact GlyphSet.admissible_placed hL hN he h2) h0 pre hpre
  exact ⟨fun a b f g ha hb hab => this.distinct a b f g ha hb (hcanon _ _ hab), fun m g hm h => GlyphSet.placed_contents hL he (this.good m g hm) (hcanon _ _ h)⟩

theorem mem_onSet {i : Nat} {before : List FontCall} {op : GlyphSet.Op} (hop : op ∈ (before.filterMap (onSet i)).filterMap glyphCall) : .set i (.glyphs op) ∈ before := by
  obtain ⟨c, hc, hcop⟩ := List.mem_filterMap.1 hop
  obtain ⟨x, hx, hxc⟩ := List.mem_filterMap.1 hc
  cases c with
  | layerInfo info v => cases hcop
  | glyphs o =>
    cases hcop
    cases x with
    | getGlyphSet a b c => cases hxc
    | ufo o => cases hxc
    | set j c =>
      simp only [onSet] at hxc
      split at hxc
      · rename_i hj
        cases hxc
        subst hj
        exact hx
      · cases hxc

/-- What a reader finds in the directory of a layer after its glyph set was saved. -/
theorem edited_read (L : Casing) (hL : AsciiPrefix L) (hC : Spec.GlyphSet.CaseLaws L.lower) (E : FontInfo.Env) (hF : E.F.Lawful) (N : Str → Prop) (hN : Spec.GlyphSet.OwnFiles L.lower N)
    (hT : ∀ m, N m → FileText m) (f : Font) (hf : Consistent L f) (i : Nat) (n d : Str) (ho : OwnsLayer f i n d)
    (gs : GlyphSet.GlyphSet) (hgs : f.sets[i]? = some gs) (hw : Dict.WF gs.contents) (hfresh : gs.existing = none ∧ gs.reverse = none)
    (he : Spec.GlyphSet.Editable L.lower N gs.contents) (ht : ∀ m x, Dict.get? gs.contents m = some x → FileText m ∧ FileText x)
    (before after : List FontCall) (hcalls : LeavesLayerRun E L i n d f (before ++ .set i (.glyphs .save) :: after))
    (hafter : ∀ c ∈ after, onSet i c = none) (hsave : ((f.run E L before).step E L (.set i (.glyphs .save))).2 = .ok ())
    (hwrites : ∀ naming m fv data, .set i (.glyphs (.write naming m fv data)) ∈ before → naming = GlyphSet.defaultNaming L ∧ N m)
    (hrebuild : ∀ v, .set i (.glyphs (.rebuild v)) ∉ before)
    (s0 : Str → Spec.GlyphSet.Status) (hs0 : ∀ m, Spec.GlyphSet.Expects (GlyphSet.getGLIF (gs, f.fs) m) (s0 m))
    (hknown : ∀ m, (s0 m).history m (record E L i gs.version f before) ≠ .unknown)
    (z : FS) (layers : List (Str × Str)) (hlayers : readLayers E.F z 3 true = .ok layers) (hnd : (layers.map Prod.fst).Nodup) (hmem : (n, d) ∈ layers)
    (hz : ∀ p, z.node? (d :: p) = (f.run E L (before ++ .set i (.glyphs .save) :: after)).fs.node? (d :: p)) :
    ∃ g, readerGlyphSet E.F z 3 (some n) true = .ok g ∧ g.version = 3 ∧ g.dir = [d] ∧
      (∀ m, m ∈ GlyphSet.keys g ↔ (s0 m).history m (record E L i gs.version f before) ≠ .absent) ∧
      ∀ m, Spec.GlyphSet.Expects (GlyphSet.getGLIF (g, z) m) ((s0 m).history m (record E L i gs.version f before)) := by
  have hA := asciiCasing_of hL
  have ho0 := Orderly.of hf
  have hcanon := hf.canon
  have hops : ∀ op ∈ (before.filterMap (onSet i)).filterMap glyphCall, ∀ v, op ≠ .rebuild v := by
    rintro op hop v rfl
    exact hrebuild v (mem_onSet hop)
  have hn : ∀ op ∈ (before.filterMap (onSet i)).filterMap glyphCall, ∀ naming m fv data, op = .write naming m fv data → naming = GlyphSet.defaultNaming L ∧ N m := by
    rintro op hop naming m fv data rfl
    exact hwrites naming m fv data (mem_onSet hop)
  have hnamed := fun pre hpre => named_prefix (F := E.F) (w := (gs, f.fs)) hops (fun op ho naming m fv data hop => by
      obtain ⟨h1, h2⟩ := hn op ho naming m fv data hop
      rw [h1]; exact GlyphSet.admissible_placed hC hN he h2) (GlyphSet.named_edit (L := L) hw hfresh he) pre hpre
  have hcl : f.fs.canon GlyphSet.contentsName ≠ f.fs.canon GlyphSet.layerinfoName := by
    intro e
    have := hcanon _ _ e
    rw [hA _ (by decide), hA _ (by decide)] at this
    exact absurd this (by decide)
  obtain ⟨s1, s2, ⟨data, s3, s4⟩, s5, s6, s7⟩ := saved_layer hL E ho0.sound ho hgs hcalls hafter hsave hcl hops
    (fun pre hpre m x hx e => GlyphSet.placed_layerinfo hC he ((hnamed pre hpre).good m x hx) (hcanon _ _ e))
    (fun m x hx e => GlyphSet.placed_contents hC he ((hnamed _ (List.prefix_refl _)).good m x hx) (hcanon _ _ e))
  have hst := fun m => C51_history_partial L E.F (gs, f.fs) _ hops (fun pre hpre =>
    ⟨fun a b f g ha hb hab => (hnamed pre hpre).distinct a b f g ha hb (hcanon _ _ hab),
      fun m g hm h => GlyphSet.placed_contents hC he ((hnamed pre hpre).good m g hm) (hcanon _ _ h)⟩) m (s0 m) (hs0 m)
  generalize hg : f.run E L (before ++ .set i (.glyphs .save) :: after) = g at *
  exact saved_read hF hlayers hnd hmem (by rw [hz]; exact s2.dir)
    (w := GlyphSet.run L E.F (gs, f.fs) ((before.filterMap (onSet i)).filterMap glyphCall)) (hnamed _ (List.prefix_refl _)).sound.wf s6 (fun m x hx => by
      rcases (hnamed _ (List.prefix_refl _)).good m x hx with h | ⟨h1, rfl⟩
      · exact ht m x h
      · exact ⟨hT m h1, GlyphSet.ownFile_text (hT m h1)⟩) s3
    (by unfold getbytes; rw [hz [GlyphSet.contentsName]]; exact s4) (fun m x hx => by rw [hz [x]]; exact s5 m x hx) (fun m => by rw [s7]; exact hst m) hknown

/-- A writer that was just opened on a UFO 3 that is there is a state to start from: it has the layers that a reader finds, and nothing was changed but the file about the format. -/
theorem C114_open (L : Casing) (hL : AsciiPrefix L) (E : FontInfo.Env) (fs fs' : FS) (hcanon : ∀ a b, fs.canon a = fs.canon b → L.lower a = L.lower b)
    (hnodes : Dict.WF fs.nodes) (creator : PyVal) (w : Writer) (h : openWriter E.F true fs 3 creator true = (fs', .ok w)) (hmeta : readMetaInfo E.F fs true = .ok 3)
    (t : List (Str × Str)) (ht : readLayers E.F fs 3 true = .ok t) (hapart : ApartDirs L t) :
    Consistent L { writer := w, fs := fs', sets := [] } ∧ w.layers = t ∧ ∀ p, fs.key p ≠ fs.key [c!"metainfo.plist"] → fs'.node? p = fs.node? p := by
  have ht' : readLayerTable E.F fs true = .ok t := by
    unfold readLayers at ht
    rw [if_neg (by decide)] at ht
    exact ht
  have hv := readLayerTable_valid ht'
  have hlay := openWriter_existing h (readMetaInfo_true hmeta).2.1 ht'
  obtain ⟨-, -, hwp, hver, -, -⟩ := openWriter_ok h
  obtain ⟨hc, hn, -⟩ := writePlist_spec hwp
  have hmem : ∀ n d, Dict.get? t n = some d → (n, d) ∈ t := fun n d hd => Dict.mem_of_get? hd
  refine ⟨⟨hver, by simpa [hc] using hcanon, ?_, ?_, ?_, ?_, ?_, by simp⟩, hlay, hn⟩
  · have := (writePlist_acts E.F true fs [metainfoName] (metaInfo creator 3)).wf hnodes
    rw [hwp] at this
    exact this
  · show Dict.WF w.layers
    rw [hlay]; exact hv.names
  · show LayerDirs w.layers
    rw [hlay]; exact fun n d hd => hv.dirNames _ (hmem n d hd)
  · show ApartDirs L w.layers
    rw [hlay]; exact hapart
  · show ∀ n d, Dict.get? w.layers n = some d → fs'.exists [d] = true
    rw [hlay]
    intro n d hd
    have hx := hv.exist _ (hmem n d hd)
    simp only [dirExists, Except.ok.injEq] at hx
    unfold «exists» at hx ⊢
    rw [hn]
    · exact hx
    · intro e
      simp only [FS.key, List.map_cons, List.map_nil, List.cons.injEq, and_true] at e
      exact lower_apart hL (hv.dirNames _ (hmem n d hd)) (by decide : metainfoName ∈ standardNames) (hcanon _ _ e)

/-- `getGlyphSet` for a layer that is there: the glyph set that is found in its directory, and nothing is changed. -/
theorem C114_layer (L : Casing) (E : FontInfo.Env) (f : Font) (hf : Consistent L f) (n d : Str) (b v : Bool) (hn : Dict.get? f.writer.layers n = some d)
    (hd : f.fs.node? [d] = some .dir) (hb : b = true → d = c!"glyphs") (gs : GlyphSet.GlyphSet) (hgs : GlyphSet.openGlyphSet E.F f.fs [d] 3 v = .ok gs) :
    f.step E L (.getGlyphSet (some n) b v) = ({ f with sets := f.sets ++ [gs] }, .ok ()) ∧ OwnsLayer { f with sets := f.sets ++ [gs] } f.sets.length n d ∧
      Consistent L { f with sets := f.sets ++ [gs] } ∧ gs.version = 3 := by
  obtain ⟨g1, g2, -, -⟩ := openGlyphSet_dir hgs
  have hconf : (b && defaultConflict f.writer.layers n) = false := by
    cases b with
    | false => rfl
    | true =>
      have hd' := hb rfl
      subst hd'
      rw [Bool.true_and, ← Bool.not_eq_true, defaultConflict, List.any_eq_true]
      rintro ⟨⟨m, y⟩, he, hx⟩
      have hm := Dict.get?_of_mem hf.layers he
      dsimp only at hx
      split at hx
      · rename_i hy
        simp only [decide_eq_true_eq] at hx
        subst hy
        exact hf.apart m n _ _ hm hn hx rfl
      · rename_i hy
        simp only [decide_eq_true_eq] at hx
        subst hx
        rw [hn] at hm
        cases hm
        exact hy rfl
  have hmk : f.fs.makedir [d] = .ok f.fs := by unfold makedir; rw [hd]
  have hset : Dict.set f.writer.layers n d = f.writer.layers := dict_set_same hn
  have h3 : getGlyphSet L E.F f.world (some n) b v = (f.world, .ok gs) := by
    unfold getGlyphSet
    rw [if_neg (by simp [Font.world, hf.version]), if_neg (by simp), if_neg (by simp [Font.world, hf.version])]
    show getGlyphSet3 L E.F f.world n b v = _
    unfold getGlyphSet3
    rw [show f.world.1 = f.writer from rfl, show f.world.2 = f.fs from rfl, hconf]
    simp only [Bool.false_eq_true, if_false, layerDirectory, hn, hmk, hset, hgs]
    rfl
  refine ⟨?_, ⟨⟨gs, by simp, g1⟩, hn, hd⟩, ⟨hf.version, hf.canon, hf.nodes, hf.layers, hf.dirs, hf.apart, hf.present, ?_⟩, g2⟩
  · simp only [Font.step, Font.getGlyphSet, h3]
    rfl
  · intro x hx
    rcases List.mem_append.1 hx with hx | hx
    · exact hf.sets x hx
    · simp only [List.mem_singleton] at hx
      subst hx
      rw [g1]; simp

theorem set_run_frame (E : FontInfo.Env) (L : Casing) (i : Nat) (d : Str) (q : Path) : ∀ (calls : List FontCall) (f : Font), (∀ c ∈ calls, ∃ s, c = .set i s) →
    (∃ gs, f.sets[i]? = some gs ∧ gs.dir = [d]) → (∀ x, ¬ f.fs.key [d, x] <+: f.fs.key q) →
    (f.run E L calls).fs.node? q = f.fs.node? q ∧ (f.run E L calls).fs.canon = f.fs.canon ∧ (f.run E L calls).writer = f.writer := by
  intro calls
  induction calls with
  | nil => exact fun f _ _ _ => ⟨rfl, rfl, rfl⟩
  | cons c calls ih =>
    rintro f hc ⟨gs, hgs, hdir⟩ hq
    obtain ⟨s, rfl⟩ := hc c (by simp)
    have hacts := GlyphSet.setStep_acts L E.F (gs, f.fs) s
    have hstep : (f.step E L (.set i s)).1 = { f with fs := (GlyphSet.setStep L E.F (gs, f.fs) s).1.2, sets := f.sets.set i (GlyphSet.setStep L E.F (gs, f.fs) s).1.1 } := by
      simp only [Font.step, Font.callSet, hgs]
    have hkey : ∀ p, (f.step E L (.set i s)).1.fs.key p = f.fs.key p := by
      rw [hstep]; exact hacts.key
    obtain ⟨h1, h2, h3⟩ := ih (f.step E L (.set i s)).1 (fun c hc' => hc c (by simp [hc'])) (by
      rw [hstep]
      exact ⟨_, List.getElem?_set_self (List.getElem?_eq_some_iff.1 hgs).1, (GlyphSet.setStep_dir _ _ _ _).trans hdir⟩) (fun x => by rw [hkey, hkey]; exact hq x)
    refine ⟨h1.trans ?_, h2.trans ?_, h3.trans ?_⟩
    · rw [hstep]
      refine hacts.node? q ?_
      rintro p ⟨x, rfl⟩
      rw [hdir]
      exact hq x
    · rw [hstep]; exact hacts.canon
    · rw [hstep]

theorem find_layer {layers : List (Str × Str)} (hnd : (layers.map Prod.fst).Nodup) {n : Str} {e : Str × Str} (h : layers.find? (fun e => decide (e.1 = n)) = some e) :
    Dict.get? layers n = some e.2 := by
  have h1 := List.find?_some h
  simp only [decide_eq_true_eq] at h1
  subst h1
  exact Dict.get?_of_mem hnd (List.mem_of_find?_eq_some h)

/-- Opening a UFO 3 that is there, getting the glyph set of one of its layers, writing and deleting glyphs, and writing the contents: then a reader finds in the layer the glyphs that it would have found before, with the changes
that were made; and the other parts of the UFO are as they were, but for the file about the format. Missing from the full claim: tables of files that are not `Editable` (`C114_refuted_case`, `C114_refuted_shared`), layers in
directories that are the same ignoring case, and histories in which a glyph is in an unknown state after a failed call (`C53_refuted`). -/
theorem C114_edit_partial (L : Casing) (hL : AsciiPrefix L) (hC : Spec.GlyphSet.CaseLaws L.lower) (E : FontInfo.Env) (hF : E.F.Lawful) (N : Str → Prop) (hN : Spec.GlyphSet.OwnFiles L.lower N)
    (hT : ∀ m, N m → FileText m) (fs fs' : FS) (hcanon : ∀ a b, fs.canon a = fs.canon b → L.lower a = L.lower b) (hnodes : Dict.WF fs.nodes) (creator : PyVal) (w : Writer)
    (h : openWriter E.F true fs 3 creator true = (fs', .ok w)) (hmeta : readMetaInfo E.F fs true = .ok 3) (t : List (Str × Str)) (ht : readLayers E.F fs 3 true = .ok t)
    (hapart : ApartDirs L t) (n d : Str) (hnd : (n, d) ∈ t) (b : Bool) (hb : b = true → d = c!"glyphs") (g0 : GlyphSet.GlyphSet) (hg0 : readerGlyphSet E.F fs 3 (some n) true = .ok g0)
    (he : Spec.GlyphSet.Editable L.lower N g0.contents) (htext : ∀ m x, Dict.get? g0.contents m = some x → FileText m ∧ FileText x)
    (calls : List GlyphSet.SetCall) (hwrites : ∀ naming m fv data, .glyphs (.write naming m fv data) ∈ calls → naming = GlyphSet.defaultNaming L ∧ N m)
    (hrebuild : ∀ v, .glyphs (.rebuild v) ∉ calls) :
    let f := Font.step E L { writer := w, fs := fs', sets := [] } (.getGlyphSet (some n) b true)
    let f1 := f.1.run E L (calls.map (.set 0))
    let f2 := f1.step E L (.set 0 (.glyphs .save))
    let status := fun m => (Spec.GlyphSet.now (GlyphSet.getGLIF (g0, fs) m)).history m (record E L 0 3 f.1 (calls.map (.set 0)))
    f.2 = .ok () ∧ (f2.2 = .ok () → (∀ m, status m ≠ .unknown) →
      (∃ g, readerGlyphSet E.F f2.1.fs 3 (some n) true = .ok g ∧ (∀ m, m ∈ GlyphSet.keys g ↔ status m ≠ .absent) ∧ ∀ m, Spec.GlyphSet.Expects (GlyphSet.getGLIF (g, f2.1.fs) m) (status m)) ∧
      readLayers E.F f2.1.fs 3 true = .ok t ∧
      ∀ e p, fs.canon e ≠ fs.canon d → fs.canon e ≠ fs.canon c!"metainfo.plist" → f2.1.fs.node? (e :: p) = fs.node? (e :: p)) := by
  intro f f1 f2 status
  obtain ⟨c1, c2, c3⟩ := C114_open L hL E fs fs' hcanon hnodes creator w h hmeta t ht hapart
  have ht' : readLayerTable E.F fs true = .ok t := by
    unfold readLayers at ht
    rw [if_neg (by decide)] at ht
    exact ht
  have hv := readLayerTable_valid ht'
  have hget : Dict.get? t n = some d := Dict.get?_of_mem hv.names hnd
  have hgd := hv.dirNames _ hnd
  have hcan' : fs'.canon = fs.canon := (writePlist_spec (openWriter_ok h).2.2.1).1
  -- the directories are those before
  have hdirs : ∀ x, GlyphsDir x → ∀ p, fs'.node? (x :: p) = fs.node? (x :: p) := fun x hx p => c3 _ fun e => by
    simp only [FS.key, List.map_cons, List.map_nil, List.cons.injEq] at e
    exact lower_apart hL hx (by decide : metainfoName ∈ standardNames) (hcanon _ _ e.1)
  -- what the reader found
  have hopen : fs.node? [d] = some .dir ∧ GlyphSet.openGlyphSet E.F fs [d] 3 true = .ok g0 := by
    simp only [readerGlyphSet, resolveLayer, ht] at hg0
    split at hg0
    · cases hg0
    · rename_i e hfind
      have := find_layer hv.names hfind
      rw [hget] at this
      cases this
      split at hg0
      · cases hg0
      · cases hg0
      · rename_i hd
        exact ⟨hd, hg0⟩
  have hopen' : GlyphSet.openGlyphSet E.F fs' [d] 3 true = .ok g0 := by
    rw [Crash.openGlyphSet_congr E.F (hdirs d hgd)]; exact hopen.2
  obtain ⟨l1, l2, l3, l4⟩ := C114_layer L E { writer := w, fs := fs', sets := [] } c1 n d b true (by show Dict.get? w.layers n = _; rw [c2]; exact hget)
    (by show fs'.node? [d] = _; rw [hdirs d hgd]; exact hopen.1) hb g0 hopen'
  have hfeq : f = ({ writer := w, fs := fs', sets := [] ++ [g0] }, .ok ()) := l1
  refine ⟨by rw [hfeq], fun hsave hknown => ?_⟩
  have hf1 : f.1 = { writer := w, fs := fs', sets := [] ++ [g0] } := by rw [hfeq]
  obtain ⟨gdir, -, gfresh⟩ := openGlyphSet_dir hopen'
  have hall : ∀ c ∈ calls.map (FontCall.set 0) ++ [.set 0 (.glyphs .save)], ∃ s, c = FontCall.set 0 s := by
    intro c hc
    rcases List.mem_append.1 hc with hc | hc
    · obtain ⟨s, -, rfl⟩ := List.mem_map.1 hc
      exact ⟨s, rfl⟩
    · exact ⟨_, by simpa using hc⟩
  have hf2 : f2.1 = f.1.run E L (calls.map (.set 0) ++ [.set 0 (.glyphs .save)]) := by rw [font_run_append]; rfl
  have hset : ∃ gs, f.1.sets[0]? = some gs ∧ gs.dir = [d] := ⟨g0, by rw [hf1]; rfl, gdir⟩
  have hframe := fun q => set_run_frame E L 0 d q _ f.1 hall hset
  have hfs : f.1.fs = fs' := by rw [hf1]
  have hone : ∀ x, f2.1.fs.node? [x] = fs'.node? [x] := fun x => by
    rw [hf2, (hframe [x] fun y => by
      intro hp
      have := hp.length_le
      simp [FS.key] at this).1, hfs]
  have hother : ∀ e p, fs.canon e ≠ fs.canon d → f2.1.fs.node? (e :: p) = fs'.node? (e :: p) := fun e p hne => by
    rw [hf2, (hframe (e :: p) fun y => by
      rw [hfs]
      intro hp
      simp only [FS.key, List.map_cons, List.map_nil, List.cons_prefix_cons] at hp
      rw [hcan'] at hp
      exact hne hp.1.symm).1, hfs]
  have hlay : readLayers E.F f2.1.fs 3 true = .ok t := by
    unfold readLayers
    rw [if_neg (by decide)]
    refine Crash.readLayerTable_mono (a := fs) ?_ (fun x hx hex => ?_) ht'
    · rw [hone, c3]
      intro e
      simp only [FS.key, List.map_cons, List.map_nil, List.cons.injEq, and_true] at e
      have := hcanon _ _ e
      rw [asciiCasing_of hL _ (by decide), asciiCasing_of hL _ (by decide)] at this
      exact absurd this (by decide)
    · unfold «exists» at hex ⊢
      rw [hone, hdirs x hx]
      exact hex
  refine ⟨?_, hlay, fun e p h1 h2 => ?_⟩
  · have := edited_read L hL hC E hF N hN hT f.1 (by rw [hf1]; exact l3) 0 n d (by rw [hf1]; exact l2) g0 (by rw [hf1]; rfl) (GlyphSet.openGlyphSet_table hopen') gfresh he htext
      (calls.map (.set 0)) [] (fun pre c post hx => by
        obtain ⟨s, rfl⟩ := hall c (by rw [hx]; simp)
        exact ⟨.inl rfl, fun op ho => nomatch ho⟩) (by simp) hsave (fun naming m fv data hm => hwrites naming m fv data (by simpa using hm)) (fun v hm => hrebuild v (by simpa using hm))
      (fun m => Spec.GlyphSet.now (GlyphSet.getGLIF (g0, fs) m)) (fun m => by
        have : GlyphSet.getGLIF (g0, f.1.fs) m = GlyphSet.getGLIF (g0, fs) m := by
          rw [hfs]
          unfold GlyphSet.getGLIF
          dsimp only
          split
          · rfl
          · unfold getbytes
            rw [gdir, List.singleton_append, hdirs d hgd]
        rw [this]
        exact GlyphSet.expects_now _)
      (by rw [l4]; exact hknown) f2.1.fs t hlay hv.names hnd (fun p => by rw [hf2])
    obtain ⟨g, r1, -, -, r3, r4⟩ := this
    rw [l4] at r3 r4
    exact ⟨g, r1, r3, r4⟩
  · rw [hother e p h1, c3]
    intro e'
    simp only [FS.key, List.map_cons, List.map_nil, List.cons.injEq] at e'
    exact h2 e'.1

/-- The same interleaved with other work on other parts of the UFO, also other layers, when the layer contents are written at the end (as in `C76_saved_partial`, but the layer need not be new). -/
theorem C114_saved_partial (L : Casing) (hL : AsciiPrefix L) (hC : Spec.GlyphSet.CaseLaws L.lower) (E : FontInfo.Env) (hF : E.F.Lawful) (N : Str → Prop) (hN : Spec.GlyphSet.OwnFiles L.lower N)
    (hT : ∀ m, N m → FileText m) (f : Font) (hf : Consistent L f) (i : Nat) (n d : Str) (ho : OwnsLayer f i n d) (v : Bool)
    (gs : GlyphSet.GlyphSet) (hgs : f.sets[i]? = some gs) (hopen : GlyphSet.openGlyphSet E.F f.fs [d] 3 v = .ok gs)
    (he : Spec.GlyphSet.Editable L.lower N gs.contents) (ht : ∀ m x, Dict.get? gs.contents m = some x → FileText m ∧ FileText x)
    (before after : List FontCall) (hcalls : LeavesLayerRun E L i n d f (before ++ .set i (.glyphs .save) :: after))
    (hkeep : ∀ op, .ufo op ∈ before ++ after → ((∃ n b v, op = .glyphSet n b v) ∨ (∃ n m b, op = .rename n m b) ∨ ∃ n, op = .delete (some n)) ∨
      (∀ d, GlyphsDir d → Spares f.fs.canon d op) ∨ InGlyphSet op)
    (hafter : ∀ c ∈ after, onSet i c = none) (hsave : ((f.run E L before).step E L (.set i (.glyphs .save))).2 = .ok ())
    (hwrites : ∀ naming m fv data, .set i (.glyphs (.write naming m fv data)) ∈ before → naming = GlyphSet.defaultNaming L ∧ N m)
    (hrebuild : ∀ v, .set i (.glyphs (.rebuild v)) ∉ before)
    (hknown : ∀ m, (Spec.GlyphSet.now (GlyphSet.getGLIF (gs, f.fs) m)).history m (record E L i 3 f before) ≠ .unknown)
    (order : Option (List (Option Str))) (w' : World)
    (hwrite : writeLayerContents E.F (f.run E L (before ++ .set i (.glyphs .save) :: after)).world order true = (w', .ok ()))
    (hdup : (orderNames (f.run E L (before ++ .set i (.glyphs .save) :: after)).writer.layers order).Nodup)
    (hdefault : ∃ n, Dict.get? (f.run E L (before ++ .set i (.glyphs .save) :: after)).writer.layers n = some c!"glyphs")
    (hlayers : ∀ n d, Dict.get? (f.run E L (before ++ .set i (.glyphs .save) :: after)).writer.layers n = some d →
      n ≠ [] ∧ FileText n ∧ FileText d ∧ (n = c!"public.default" → d = c!"glyphs")) :
    ∃ g, readerGlyphSet E.F w'.2 3 (some n) true = .ok g ∧ g.dir = [d] ∧
      (∀ m, m ∈ GlyphSet.keys g ↔ (Spec.GlyphSet.now (GlyphSet.getGLIF (gs, f.fs) m)).history m (record E L i 3 f before) ≠ .absent) ∧
      ∀ m, Spec.GlyphSet.Expects (GlyphSet.getGLIF (g, w'.2) m) ((Spec.GlyphSet.now (GlyphSet.getGLIF (gs, f.fs) m)).history m (record E L i 3 f before)) := by
  have ho0 := Orderly.of hf
  obtain ⟨-, hver, hfresh⟩ := openGlyphSet_dir hopen
  have hread := edited_read L hL hC E hF N hN hT f hf i n d ho gs hgs (GlyphSet.openGlyphSet_table hopen) hfresh he ht before after hcalls hafter hsave hwrites hrebuild
    (fun m => Spec.GlyphSet.now (GlyphSet.getGLIF (gs, f.fs) m)) (fun m => GlyphSet.expects_now _) (by rw [hver]; exact hknown)
  have hown : OwnsLayer (f.run E L (before ++ .set i (.glyphs .save) :: after)) i n d := (font_run_layer hL E _ ho0.sound ho hcalls hgs (Agree.refl _ _)).2.1
  have hord : Orderly L (f.run E L (before ++ .set i (.glyphs .save) :: after)) := by
    refine orderly_run hL E _ ho0 (fun pre c post e => (hcalls pre c post e).2) (fun c hc op h => ?_)
    subst h
    refine hkeep op ?_
    simpa using hc
  have hv : (f.run E L (before ++ .set i (.glyphs .save) :: after)).writer.version = 3 := by
    have : (run E L f.world (f.asOps E L (before ++ .set i (.glyphs .save) :: after))).1.version = 3 := (run_spec E L _ f.world ho0.sound.layered).1.version.trans hf.version
    rw [← font_run_world] at this
    exact this
  generalize f.run E L (before ++ .set i (.glyphs .save) :: after) = g at *
  have horder : layerOrderOf g.writer.layers order = orderNames g.writer.layers order := by cases order <;> rfl
  have hapart : ∀ x, GlyphsDir x → g.fs.canon x ≠ g.fs.canon layercontentsName := fun x hx e => lower_apart hL hx (by decide) (hord.sound.canon _ _ e)
  obtain ⟨t, t1, t2, t3⟩ := written_layers hF hord.good hv hwrite (by rw [show g.world.1.layers = g.writer.layers from rfl, horder]; exact hdup) hdefault hapart hlayers
  obtain ⟨u1, u2, u3⟩ := writeLayerContents_all hv hwrite
  have hdd : g.fs.canon d ≠ g.fs.canon layercontentsName := hapart d (hord.sound.layered.dirs n d hown.layer)
  have hnode : ∀ p, w'.2.node? (d :: p) = g.fs.node? (d :: p) := fun p => u3 _ fun e => by
    simp only [FS.key, List.map_cons, List.map_nil, List.cons.injEq] at e
    exact hdd e.1
  have hmemt : (n, d) ∈ t := by
    have : n ∈ t.map Prod.fst := by
      rw [t2]
      exact u1 n (Dict.mem_keys_of_mem (Dict.mem_of_get? hown.layer))
    obtain ⟨e, he', rfl⟩ := List.mem_map.1 this
    have h' := t3 e he'
    rw [show g.world.1.layers = g.writer.layers from rfl, hown.layer] at h'
    cases h'
    exact he'
  obtain ⟨g', r1, -, r2, r3, r4⟩ := hread w'.2 t t1 (by rw [t2, show g.world.1.layers = g.writer.layers from rfl, horder]; exact hdup) hmemt hnode
  rw [hver] at r3 r4
  exact ⟨g', r1, r2, r3, r4⟩

/-! ### examples and counterexamples -/

theorem editable_list {lower : Str → Str} {names : List Str} {t : Dict Str Str} (h1 : ∀ a ∈ t, ∀ b ∈ t, lower a.2 = lower b.2 → a.1 = b.1)
    (h2 : ∀ a ∈ t, lower a.2 ≠ lower c!"contents.plist" ∧ lower a.2 ≠ lower c!"layerinfo.plist")
    (h3 : ∀ n ∈ names, ∀ a ∈ t, lower a.2 = lower (Spec.GlyphSet.ownFile lower n) → a.1 = n) : Spec.GlyphSet.Editable lower (· ∈ names) t :=
  ⟨fun _ _ _ _ hn hm e => h1 _ (Dict.mem_of_get? hn) _ (Dict.mem_of_get? hm) e, fun _ _ hn => (h2 _ (Dict.mem_of_get? hn)).1, fun _ _ hn => (h2 _ (Dict.mem_of_get? hn)).2,
    fun n hn _ _ hm e => h3 n hn _ (Dict.mem_of_get? hm) e⟩

/-- Files that are not named by the library are no problem. -/
example : Spec.GlyphSet.Editable asciiCasing.lower (· ∈ [c!"a", c!"A", c!"B"]) [(c!"a", c!"a.glif"), (c!"B", c!"file 17.XML"), (c!"odd", c!"UPPER.glif")] :=
  editable_list (by decide +kernel) (by decide +kernel) (by decide +kernel)

/-- A UFO that was saved before: the glyphs `a` and `B` in the default layer. -/
def ufo114 : FS := (Font.run env57 asciiCasing { writer := new60.1, fs := new60.2, sets := [] } [.getGlyphSet (some c!"public.default") true true, .getGlyphSet (some c!"fore") false true,
  .set 0 (.glyphs (put51 c!"a" [1])), .set 0 (.glyphs (put51 c!"B" [2])), .set 1 (.glyphs (put51 c!"a" [3])), .set 0 (.glyphs .save), .set 1 (.glyphs .save), .ufo (.layerContents none true)]).fs

/-- What a reader finds for the glyph `m` of the layer `n`. -/
def read114 (fs : FS) (n : Str) (m : Str) : Option (Option Bytes) := match readerGlyphSet fractionCodec fs 3 (some n) true with
  | .error _ => none
  | .ok g => some (GlyphSet.getGLIF (g, fs) m).toOption

/-- The UFO after it was opened again, `a` written, `B` deleted and `A` added. -/
def edited114 : FS := (Font.run env57 asciiCasing { writer := (again60 ufo114).1, fs := (again60 ufo114).2, sets := [] } [.getGlyphSet (some c!"public.default") true true,
  .set 0 (.glyphs (put51 c!"a" [4])), .set 0 (.glyphs (.delete c!"B")), .set 0 (.glyphs (put51 c!"A" [5])), .set 0 (.glyphs .save)]).fs

example : (readMetaInfo fractionCodec ufo114 true).toOption = some 3 ∧ (readLayers fractionCodec ufo114 3 true).toOption = some [(c!"public.default", c!"glyphs"), (c!"fore", c!"glyphs.fore")] := by decide +kernel

example : [c!"a", c!"A", c!"B"].map (read114 ufo114 c!"public.default") = [some (some [1]), some none, some (some [2])] := by decide +kernel

example : [c!"a", c!"A", c!"B"].map (read114 edited114 c!"public.default") = [some (some [4]), some (some [5]), some none] := by decide +kernel

example : read114 edited114 c!"fore" c!"a" = some (some [3]) := by decide +kernel

/-- A glyph directory with this table and these files. -/
def dir114 (canon : Str → Str) (t : Dict Str Str) (files : List (Str × Bytes)) : FS := (GlyphSet.writeContents fractionCodec ({ new51.1 with contents := t },
  { canon := canon, nodes := ([c!"glyphs"], .dir) :: files.map fun e => ([c!"glyphs", canon e.1], .file e.2), log := [] })).1.2

/-- What `getGLIF` gives for `x` before and after calls on a glyph set of the directory. -/
def reads114 (fs : FS) (x : Str) (ops : List GlyphSet.Op) : Option (Option Bytes × Option Bytes) := match GlyphSet.openGlyphSet fractionCodec fs [c!"glyphs"] 3 true with
  | .error _ => none
  | .ok gs => some ((GlyphSet.getGLIF (gs, fs) x).toOption, (GlyphSet.getGLIF (GlyphSet.run asciiCasing fractionCodec (gs, fs) ops) x).toOption)

/-- On a file system that ignores case: a glyph in a file whose name has capitals is overwritten by a new glyph with another name. -/
theorem C114_refuted_case : reads114 (dir114 asciiCasing.lower [(c!"x", c!"A.glif")] [(c!"A.glif", [1])]) c!"x" [put51 c!"a" [2]] = some (some [1], some [2]) := by decide +kernel

/-- A table with two glyphs in one file is accepted; writing one changes the other. -/
theorem C114_refuted_shared : reads114 (dir114 id [(c!"x", c!"x.glif"), (c!"y", c!"x.glif")] [(c!"x.glif", [1])]) c!"x" [put51 c!"y" [2]] = some (some [1], some [2]) := by decide +kernel

/-- A table with a glyph in `contents.plist` is accepted; writing the contents changes the glyph. -/
theorem C114_refuted_table : (reads114 (dir114 id [(c!"x", c!"contents.plist")] []) c!"x" [put51 c!"y" [2], .save]).map (fun r => decide (r.1 = r.2)) = some false := by decide +kernel
