import Verif.Spec.UfoCopy
import Verif.Props.Copy
import Verif.Props.UfoFont
import Verif.Props.UfoUpgrade
import Verif.Proofs.CrashGlyphs
/-! Saving a whole font: one layer on its own. -/
namespace Verif.Props
open Verif Verif.FS Verif.IO Verif.GlyphSet Verif.Spec.GlyphSet Verif.Spec.Copy Verif.Spec.Plist Verif.Spec.LayerInfo Verif.Spec.Ufo

/-- Layer info that was read can be stored again. -/
theorem info_stored {F : FloatCodec} {w : World} {info : List (PyVal × PyVal)} (h : readLayerInfo F w true = .ok info) (hf : ∀ e ∈ info, Fits e.2) :
    (∀ attr ∈ [c!"color", c!"lib"], ∀ v, Stores (infoObject info) attr v → Storable v) ∧ Valid F (infoObject info) := by
  unfold readLayerInfo at h
  split at h
  · cases h
  · rename_i d hd
    rw [if_pos rfl] at h
    cases hv : validateLayerInfo F d with
    | error e => rw [hv] at h; cases h
    | ok u =>
      rw [hv] at h
      cases h
      obtain ⟨hr, -⟩ := Ufo.getPlist_readable hd
      have hr : Readable (.dict d) := hr.resolve_left (by simp)
      refine ⟨fun attr _ v hs => ?_, valid_iff.1 (validateLayerInfo_iff.2 fun e he => ?_)⟩
      · have hm := Dict.mem_of_get? hs.1
        exact Ufo.storable_of ((Plist.readableItems_iff.1 hr.2) _ hm).2 (hf _ hm)
      · obtain ⟨attr, ha, hk, hs⟩ := gather_mem.1 (show (e.1, e.2) ∈ _ from he)
        obtain ⟨a, h1, h2, h3⟩ := validateLayerInfo_iff.1 hv _ (Dict.mem_of_get? hs.1)
        cases h2
        exact ⟨attr, ha, hk, h3⟩
  · cases h

theorem setRun_append (L : Casing) (F : FloatCodec) (a b : List SetCall) : ∀ w, setRun L F w (a ++ b) =
    ((setRun L F (setRun L F w a).1 b).1, (setRun L F w a).2 ++ (setRun L F (setRun L F w a).1 b).2) := by
  induction a with
  | nil => intro w; rfl
  | cons c a ih =>
    intro w
    simp only [List.cons_append, Ufo.setRun_cons, ih]

/-- Calls about glyphs that all return. -/
theorem setRun_writes (L : Casing) (F : FloatCodec) (ops : List Op) : ∀ w, AllReturn L F w ops →
    (setRun L F w (ops.map .glyphs)).1 = run L F w ops ∧ ∀ x ∈ (setRun L F w (ops.map .glyphs)).2, x = .ok () := by
  induction ops with
  | nil => intro w _; exact ⟨rfl, by simp [setRun]⟩
  | cons op ops ih =>
    intro w h
    obtain ⟨h1, h2⟩ := ih (step L F w op).1 fun pre o hp => h (op :: pre) o (by simpa using hp)
    refine ⟨?_, ?_⟩
    · rw [List.map_cons, Ufo.setRun_cons]
      exact h1
    · rw [List.map_cons, Ufo.setRun_cons]
      intro x hx
      rcases List.mem_cons.1 hx with rfl | hx
      · exact h [] op (by simp)
      · exact h2 x hx

/-- Writing glyphs leaves a file alone that is not the file of a glyph. -/
theorem writes_file {L : Casing} {F : FloatCodec} {f : Str} (ops : List Op) : ∀ {w : World}, (∀ op ∈ ops, ∃ naming n fv data, op = .write naming n fv data) →
    (∀ pre, pre <+: ops → Avoids w.2.canon f (run L F w pre).1.contents) → (run L F w ops).2.node? (w.1.dir ++ [f]) = w.2.node? (w.1.dir ++ [f]) := by
  induction ops with
  | nil => intro w _ _; rfl
  | cons op ops ih =>
    intro w hw ha
    obtain ⟨naming, n, fv, data, rfl⟩ := hw op (by simp)
    have h1 := ha [.write naming n fv data] (by simp)
    have hc := step_canon (L := L) (F := F) (w := w) (op := .write naming n fv data)
    have hi := ih (w := (step L F w (.write naming n fv data)).1) (fun o ho => hw o (by simp [ho])) (fun pre hp => by
      rw [hc]
      exact ha (.write naming n fv data :: pre) (by simpa using hp))
    simp only [run] at h1 ⊢
    cases hs : step L F w (.write naming n fv data) with
    | mk w' r =>
    rw [hs] at h1 hi
    dsimp only at h1 hi ⊢
    obtain ⟨d1, -, -, -, -, h6⟩ := writeGlyph_spec (show writeGlyph L naming w n fv data = (w', r) from hs)
    rw [d1] at hi
    rw [hi]
    rcases h6 with ⟨-, g, d, -, hg, -, -, h⟩ | ⟨-, h, -⟩
    · refine h _ ?_
      rw [Ne, key_snoc]
      exact fun he => h1 n g hg he.symm
    · simp only [h]

/-- The file of the layer info is as writing the info leaves it. -/
def InfoFile (F : FloatCodec) (fs : FS) (p : Path) (info : Str → Option PyVal) : Prop :=
  (gatherLayerInfo info layerInfoAttrs = [] ∧ fs.node? p = none) ∨
  (gatherLayerInfo info layerInfoAttrs ≠ [] ∧ ∃ b, dumpBytes F (.dict (gatherLayerInfo info layerInfoAttrs)) = .ok b ∧ fs.node? p = some (.file b))

theorem infoFile_written {F : FloatCodec} {w : World} {info : Str → Option PyVal} {v : Bool} (hv : w.1.version = 3) (h : (writeLayerInfo F w info v).2 = .ok ())
    (hn : w.2.node? (w.1.dir ++ [layerinfoName]) = none) : InfoFile F (writeLayerInfo F w info v).1.2 (w.1.dir ++ [layerinfoName]) info := by
  rw [writeLayerInfo, if_neg (by omega), storeLayerInfo] at h ⊢
  by_cases he : gatherLayerInfo info layerInfoAttrs = []
  · refine .inl ⟨he, ?_⟩
    have hx : w.2.exists (w.1.dir ++ [layerinfoName]) = false := by unfold FS.exists; rw [hn]; rfl
    simp only [he, List.isEmpty_nil, Bool.not_true, Bool.false_eq_true, if_false, hx, Bool.and_false]
    exact hn
  · refine .inr ⟨he, ?_⟩
    have hb : (!(gatherLayerInfo info layerInfoAttrs).isEmpty) = true := by simp [he]
    rw [if_pos hb] at h ⊢
    split at h
    · cases h
    · rename_i hx
      dsimp only at h ⊢
      obtain ⟨b, h1, h2⟩ := (writePlist_spec (F := F) (hp := w.1.havePrevious) (fs := w.2) (p := w.1.dir ++ [layerinfoName]) (v := .dict (gatherLayerInfo info layerInfoAttrs)) rfl).2.2 h
      exact ⟨b, h1, getbytes_ok.1 h2⟩

/-- What is in the directory of a layer that was saved, in bytes. -/
structure SettledIn (G : Glif.Env) (l : Layer) (fs : FS) (gs : GlyphSet) : Prop where
  version : gs.version = 3
  previous : gs.havePrevious = true
  texts : ∀ g ∈ l.glyphs, getGLIF (gs, fs) g.1 = .ok (bytesOf G g)
  table : ∃ b, dumpBytes G.F (contentsVal gs.contents) = .ok b ∧ fs.node? (gs.dir ++ [contentsName]) = some (.file b)
  info : InfoFile G.F fs (gs.dir ++ [layerinfoName]) (infoObject l.info)

/-- The calls that save a layer, on a new glyph set: they return, and the layer is read from the directory. -/
theorem layer_saved {G : Glif.Env} (hG : Spec.Glif.ReprLaws G) {L : Casing} (hA : AsciiCasing L) (hL : CaseLaws L.lower) {src : World} {l : Layer} {fs : FS} {gs : GlyphSet}
    (hcanon : ∀ a b, fs.canon a = fs.canon b → L.lower a = L.lower b) (hempty : gs.contents = [] ∧ gs.existing = none ∧ gs.reverse = none) (hv : gs.version = 3)
    (hdir : fs.node? gs.dir = some .dir) (hnone : ∀ f, fs.node? (gs.dir ++ [f]) = none) (hnd : (l.glyphs.map Prod.fst).Nodup) (hload : LoadedFrom G src l.glyphs)
    (hfit : l.Fits L.lower) (hinfo : readLayerInfo G.F src true = .ok l.info) :
    let r := setRun L G.F (gs, fs) (layerCalls L G l)
    (∀ x ∈ r.2, x = .ok ()) ∧ ∃ gs', openGlyphSet G.F r.1.2 gs.dir 3 true = .ok gs' ∧ (∀ n, n ∈ keys gs' ↔ n ∈ l.glyphs.map Prod.fst) ∧ Dict.WF gs'.contents ∧
      (∀ g ∈ l.glyphs, HoldsGlyph G (gs', r.1.2) g) ∧ (∃ x, readLayerInfo G.F (gs', r.1.2) true = .ok x ∧ SameInfo (infoObject l.info) x) ∧ SettledIn G l r.1.2 gs' := by
  have hflat : Flat fs gs.dir := ⟨hdir, fun f => by rw [hnone]; simp⟩
  obtain ⟨h1, h2, h3, h4, h5, h6⟩ := copy_core hG (Good := fun m f => m ∈ l.glyphs.map Prod.fst ∧ f = ownFile L.lower m) hcanon hempty hv hflat hnd hload hfit.glyphs
    (fun g hg => ⟨hfit.names.nonempty _ (List.mem_map_of_mem hg), hfit.texts g hg, total_own hL hfit.names (List.mem_map_of_mem hg), admissible_own hL hfit.names (List.mem_map_of_mem hg)⟩)
    (own_avoids hL)
  obtain ⟨k1, gs', k2, k3, k4, k5⟩ := saved_copy hG hL hcanon hempty hv hflat hnd hload hfit.glyphs hfit.names hfit.texts true
  have hwr : ∀ op ∈ writes G (defaultNaming L) l.glyphs, ∃ naming n fv data, op = .write naming n fv data := by
    intro op ho
    obtain ⟨e, -, rfl⟩ := List.mem_map.1 ho
    exact ⟨_, _, _, _, rfl⟩
  have hnamed := named_prefix (F := G.F) (w := (gs, fs)) (ops := writes G (defaultNaming L) l.glyphs) (fun op ho v => by
      obtain ⟨_, _, _, _, rfl⟩ := hwr op ho; simp) (fun op ho naming' m fv data he => by
        obtain ⟨e, he', rfl⟩ := List.mem_map.1 ho
        cases he
        exact admissible_own hL hfit.names (List.mem_map_of_mem he')) (named_new hempty)
  have hav : ∀ pre, pre <+: writes G (defaultNaming L) l.glyphs → Avoids fs.canon layerinfoName (run L G.F (gs, fs) pre).1.contents := by
    intro pre hp m x hx e
    obtain ⟨e1, rfl⟩ := (hnamed pre hp).good m x hx
    exact own_lower hL (p := layerinfoName) (by decide) (hcanon _ _ e)
  have hn1 := writes_file (L := L) (F := G.F) (f := layerinfoName) _ hwr hav
  have hav := hav _ (List.prefix_refl _)
  rw [show ((gs, fs) : World).1.dir = gs.dir from rfl, hnone] at hn1
  obtain ⟨s1, s2⟩ := setRun_writes L G.F _ _ h1
  have hc : (run L G.F (gs, fs) (writes G (defaultNaming L) l.glyphs)).2.canon = fs.canon := run_canon L G.F (gs, fs) _
  have hver : (run L G.F (gs, fs) (writes G (defaultNaming L) l.glyphs)).1.version = 3 := by rw [run_version]; exact hv
  have hlc : fs.canon layerinfoName ≠ fs.canon contentsName := by
    intro e
    have := hcanon _ _ e
    rw [hA _ (by decide), hA _ (by decide)] at this
    exact absurd this (by decide)
  generalize run L G.F (gs, fs) (writes G (defaultNaming L) l.glyphs) = w at *
  -- the table
  have hwp : writePlist G.F w.1.havePrevious w.2 (w.1.dir ++ [contentsName]) (contentsVal w.1.contents) = ((writeContents G.F w).1.2, .ok ()) := Prod.ext rfl k1
  obtain ⟨c1, c2, -⟩ := writePlist_spec hwp
  have hu1 : (writeContents G.F w).1.1 = w.1 := rfl
  generalize hu : writeContents G.F w = u at *
  have hn2 : u.1.2.node? (gs.dir ++ [layerinfoName]) = none := by
    rw [c2 _ (by rw [h5, Ne, key_snoc, hc]; exact hlc)]
    exact hn1
  have hd2 : u.1.2.node? gs.dir = some .dir := by
    rw [c2 _ (by
      intro hk
      have := congrArg List.length hk
      simp [FS.key, h5] at this)]
    exact h4.1
  -- the layer info
  obtain ⟨i1, i2⟩ := info_stored hinfo hfit.info
  have j1 := C72_succeeds G.F hG.lawful u.1 (infoObject l.info) true (by rw [hu1, hver]) i1 (fun _ => i2) (by rw [hu1, h5]; exact hd2) (by rw [hu1, h5]; erw [hn2]; simp)
  obtain ⟨x, j2, j3⟩ := C72_roundtrip_partial L G.F hG.lawful u.1 (infoObject l.info) true true [] i1 j1 id
    (.inr (.inr (by rw [hu1, h5]; unfold FS.exists; erw [hn2]; rfl))) (by rw [c1, hc, hu1]; exact hav) (by rw [c1, hc]; exact hlc) (by simp)
  obtain ⟨f1, f2⟩ := writeLayerInfo_frame G.F u.1 (infoObject l.info) true
  have hfile : ∀ f, fs.canon f ≠ fs.canon layerinfoName → (writeLayerInfo G.F u.1 (infoObject l.info) true).1.2.node? (gs.dir ++ [f]) = u.1.2.node? (gs.dir ++ [f]) := by
    intro f hf
    refine f2.node? _ ?_
    rintro k rfl hp
    rw [hu1, h5] at hp
    obtain ⟨t, ht⟩ := hp
    simp only [FS.key, List.map_append, List.map_cons, List.map_nil, List.append_assoc, c1, hc] at ht
    have := List.append_cancel_left ht
    simp only [List.cons_append, List.nil_append, List.cons.injEq] at this
    exact hf this.1.symm
  have hcalls : setRun L G.F (gs, fs) (layerCalls L G l) = ((writeLayerInfo G.F u.1 (infoObject l.info) true).1, (setRun L G.F (gs, fs) ((writes G (defaultNaming L) l.glyphs).map .glyphs)).2 ++ [.ok (), .ok ()]) := by
    unfold layerCalls
    rw [setRun_append, s1]
    simp only [setRun, setStep, step, hu, k1, j1]
  rw [hcalls]
  dsimp only
  have hd : gs'.dir = gs.dir := k3.dir.trans h5
  have htexts : ∀ g ∈ l.glyphs, getGLIF (gs', (writeLayerInfo G.F u.1 (infoObject l.info) true).1.2) g.1 = .ok (bytesOf G g) := by
    intro g hg
    obtain ⟨f, hf, hb⟩ := (expects_iff (s := .holds (bytesOf G g))).1 (k5 g hg)
    refine (expects_iff (s := .holds (bytesOf G g))).2 ⟨f, hf, ?_⟩
    dsimp only at hb hf ⊢
    rw [hd] at hb ⊢
    rw [getbytes_of_node? (hfile f (hav g.1 f (by rw [← k3.table]; exact hf)))]
    exact hb
  refine ⟨fun y hy => ?_, gs', ?_, k4, openGlyphSet_wf k2, fun g hg => ?_, ⟨x, ?_, j3⟩, k3.version, k3.previous, htexts, ?_, ?_⟩
  · rcases List.mem_append.1 hy with hy | hy
    · exact s2 y hy
    · simp at hy; exact hy
  · refine Crash.openGlyphSet_mono (hfile _ hlc.symm) (fun f hf => ?_) k2
    by_cases hq : fs.canon f = fs.canon layerinfoName
    · exfalso
      rw [FS.exists, node?_eq (q := gs.dir ++ [layerinfoName]) (by rw [key_snoc, c1, hc]; exact hq), hn2] at hf
      cases hf
    · unfold FS.exists at hf ⊢
      rw [hfile f hq]; exact hf
  · obtain ⟨b, attrs, calls, l1, l2, l3, l4, -⟩ := loaded_writes hG (hload g hg) (hfit.glyphs g hg) (hfit.names.nonempty _ (List.mem_map_of_mem hg)) (hfit.texts g hg)
    refine ⟨attrs, calls, bytes_readGlyph k3.version ?_ l2, l3, l4⟩
    rw [← bytesOf_eq l1]
    exact htexts g hg
  · rw [← j2]
    unfold readLayerInfo
    simp only [run]
    rw [f1, hu1, k3.dir]
  · have ha : (writeContents G.F (gs', u.1.2)).2 = .ok () := by rw [k3.again]
    obtain ⟨b, b1, b2⟩ := (writePlist_spec (F := G.F) (hp := gs'.havePrevious) (fs := u.1.2) (p := gs'.dir ++ [contentsName]) (v := contentsVal gs'.contents) rfl).2.2 ha
    have b2' : (writeContents G.F (gs', u.1.2)).1.2.getbytes (gs'.dir ++ [contentsName]) = .ok b := b2
    rw [k3.again] at b2'
    refine ⟨b, b1, ?_⟩
    rw [hd, hfile _ hlc.symm, ← hd]
    exact getbytes_ok.1 b2'
  · rw [hd, ← h5, ← hu1]
    exact infoFile_written (by rw [hu1, hver]) j1 (by rw [hu1, h5]; exact hn2)

end Verif.Props
