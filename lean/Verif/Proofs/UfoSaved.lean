import Verif.Proofs.UfoFont
import Verif.Proofs.UfoLayersWrite
import Verif.Proofs.GlyphSetReopen
/-! What was saved is read. -/
namespace Verif.GlyphSet
open Verif Verif.FS Verif.IO Verif.Spec.GlyphSet Verif.Spec.Ufo

/-- The paths of a directory apart from layerinfo.plist. -/
def Inside (canon : Str → Str) (dir : Path) (q : Path) : Prop := dir <+: q ∧ ¬ (dir ++ [layerinfoName]).map canon <+: q.map canon

theorem inside_dir (canon : Str → Str) (dir : Path) : Inside canon dir dir := ⟨List.prefix_refl _, fun h => by
  have := h.length_le
  simp at this⟩

theorem inside_file {canon : Str → Str} {dir : Path} {f : Str} (h : canon f ≠ canon layerinfoName) : Inside canon dir (dir ++ [f]) :=
  ⟨List.prefix_append _ _, fun ⟨t, e⟩ => h (by
    simp only [List.map_append, List.map_cons, List.map_nil, List.append_assoc] at e
    have := List.append_cancel_left e
    simp only [List.cons_append, List.nil_append, List.cons.injEq] at this
    exact this.1.symm)⟩

theorem layerInfo_inside (F : FloatCodec) (gs : GlyphSet) (a : FS) (info : Str → Option PyVal) (v : Bool) :
    Agree (Inside a.canon gs.dir) (writeLayerInfo F (gs, a) info v).1.2 a := by
  have h := (writeLayerInfo_frame F (gs, a) info v).2
  refine Agree.mk h.canon fun q hq => h.node? _ ?_
  rintro k rfl
  exact hq.2

theorem observed_glyphs (version : Nat) (op : Op) (r : Except Exc Unit) (w : World) (h : w.1.version = version) : observed version (.glyphs op) r = call w op r := by
  subst h
  cases op <;> cases r <;> rfl

theorem step_version (L : Casing) (F : FloatCodec) (w : World) (op : Op) : (step L F w op).1.1.version = w.1.version := by
  cases op with
  | write naming n fv data => exact (writeGlyph_spec (L := L) (naming := naming) (w := w) (n := n) (fv := fv) (data := data) rfl).2.2.1
  | delete n => exact (deleteGlyph_spec (L := L) (w := w) (n := n) rfl).2.2.1
  | reverse =>
    show (getReverseContents L w.1).1.version = _
    rw [getReverseContents]
    split <;> rfl
  | save => rfl
  | rebuild v =>
    simp only [step]
    split
    · rfl
    · rename_i gs h
      unfold rebuildContents at h
      split at h
      · cases h
      · split at h
        · cases h
        · cases h; rfl

/-- The file that a write has chosen is in the table afterwards. -/
theorem touched_write {L : Casing} {F : FloatCodec} {gs : GlyphSet} {b : FS} {naming : Naming} {n f : Str} {fv : Option Int} {data : Int → Except Exc Bytes}
    (h : Touches L gs f (.write naming n fv data)) : Dict.get? (step L F (gs, b) (.write naming n fv data)).1.1.contents n = some f := by
  obtain ⟨⟨v, hv⟩, hf⟩ := h
  have hc : Dict.get? (assignFile L naming gs n).1.contents n = some f := by
    revert hf
    unfold assignFile
    split
    · rename_i g hg
      rintro h; cases h; exact hg
    · dsimp only
      split
      · rintro h; cases h
      · rintro h; cases h; exact Dict.get?_set_self _ _ _
  simp only [step, writeGlyph, hv]
  rcases ha : assignFile L naming gs n with ⟨gs', r⟩
  rw [ha] at hf hc
  subst hf
  dsimp only
  split <;> exact hc

/-- Calls about layer info do not matter for glyphs. -/
theorem setRun_glyphs (L : Casing) (F : FloatCodec) (cs : List SetCall) : ∀ (gs : GlyphSet) (a b : FS), Agree (Inside b.canon gs.dir) a b →
    b.canon contentsName ≠ b.canon layerinfoName → (∀ op ∈ cs.filterMap glyphCall, ∀ v, op ≠ .rebuild v) →
    (∀ pre, pre <+: cs.filterMap glyphCall → Avoids b.canon layerinfoName (run L F (gs, b) pre).1.contents) →
    (setRun L F (gs, a) cs).1.1 = (run L F (gs, b) (cs.filterMap glyphCall)).1 ∧
    Agree (Inside b.canon gs.dir) (setRun L F (gs, a) cs).1.2 (run L F (gs, b) (cs.filterMap glyphCall)).2 ∧
    ∀ n s, Status.history n s (List.zipWith (observed gs.version) cs (setRun L F (gs, a) cs).2) = Status.history n s (calls L F (gs, b) (cs.filterMap glyphCall)) := by
  induction cs with
  | nil => intro gs a b h _ _ _; exact ⟨rfl, h, fun _ _ => rfl⟩
  | cons c cs ih =>
    intro gs a b h hcl hops hav
    cases c with
    | layerInfo info v =>
      have hf : (SetCall.layerInfo info v :: cs).filterMap glyphCall = cs.filterMap glyphCall := rfl
      rw [hf] at hops hav ⊢
      have h1 := (writeLayerInfo_frame F (gs, a) info v).1
      have h2 := layerInfo_inside F gs a info v
      rw [h.canon] at h2
      have := ih gs (writeLayerInfo F (gs, a) info v).1.2 b (h2.trans h) hcl hops hav
      have e : setStep L F (gs, a) (.layerInfo info v) = ((gs, (writeLayerInfo F (gs, a) info v).1.2), (writeLayerInfo F (gs, a) info v).2) := by
        refine Prod.ext (Prod.ext h1 rfl) rfl
      rw [Ufo.setRun_cons, e]
      refine ⟨this.1, this.2.1, fun n s => ?_⟩
      rw [List.zipWith_cons_cons]
      exact this.2.2 n s
    | glyphs op =>
      have hf : (SetCall.glyphs op :: cs).filterMap glyphCall = op :: cs.filterMap glyphCall := rfl
      rw [hf] at hops hav ⊢
      have h0 := hav [] List.nil_prefix
      have h1 := hav [op] (by simp)
      have hag := agree_step L F gs h (inside_dir _ _) (inside_file hcl) op fun f ht => inside_file (by
        cases op with
        | write naming n fv data => exact h1 n f (touched_write (F := F) (b := b) ht)
        | delete n => exact h0 n f ht
        | reverse => cases ht
        | save => cases ht
        | rebuild v => exact absurd rfl (hops _ (by simp) v))
      obtain ⟨e1, e2, e3⟩ := hag
      have hdir : (step L F (gs, b) op).1.1.dir = gs.dir := setStep_dir L F (gs, b) (.glyphs op)
      have hcan : (step L F (gs, b) op).1.2.canon = b.canon := (step_acts L F (gs, b) op).canon
      have hver : (step L F (gs, b) op).1.1.version = gs.version := step_version L F (gs, b) op
      have := ih (step L F (gs, b) op).1.1 (step L F (gs, a) op).1.2 (step L F (gs, b) op).1.2 (by rw [hdir, hcan]; exact e2) (by rw [hcan]; exact hcl)
        (fun o ho => hops o (by simp [ho])) (fun pre hp => by
          rw [hcan]
          exact hav (op :: pre) (by simpa using hp))
      have e : setStep L F (gs, a) (.glyphs op) = (((step L F (gs, b) op).1.1, (step L F (gs, a) op).1.2), (step L F (gs, b) op).2) :=
        Prod.ext (Prod.ext e1 rfl) e3
      rw [Ufo.setRun_cons, e]
      rw [hdir, hcan, hver] at this
      refine ⟨this.1, this.2.1, fun n s => ?_⟩
      rw [List.zipWith_cons_cons, observed_glyphs gs.version op _ (gs, b) rfl]
      exact this.2.2 n _

theorem setRun_append (L : Casing) (F : FloatCodec) (w : World) (a b : List SetCall) :
    setRun L F w (a ++ b) = ((setRun L F (setRun L F w a).1 b).1, (setRun L F w a).2 ++ (setRun L F (setRun L F w a).1 b).2) := by
  induction a generalizing w with
  | nil => rfl
  | cons c a ih =>
    rw [List.cons_append, Ufo.setRun_cons, ih, Ufo.setRun_cons]
    rfl

theorem run_canon (L : Casing) (F : FloatCodec) (w : World) (ops : List Op) : (run L F w ops).2.canon = w.2.canon := by
  induction ops generalizing w with
  | nil => rfl
  | cons op ops ih => rw [run, ih]; exact (step_acts L F w op).canon

theorem run_dir (L : Casing) (F : FloatCodec) (w : World) (ops : List Op) : (run L F w ops).1.dir = w.1.dir := by
  induction ops generalizing w with
  | nil => rfl
  | cons op ops ih => rw [run, ih]; exact setStep_dir L F w (.glyphs op)

theorem getGLIF_of {w w' : World} {m : Str} (h1 : Dict.get? w.1.contents m = Dict.get? w'.1.contents m)
    (h2 : ∀ f, Dict.get? w'.1.contents m = some f → w.2.node? (w.1.dir ++ [f]) = w'.2.node? (w'.1.dir ++ [f])) : getGLIF w m = getGLIF w' m := by
  unfold getGLIF
  rw [h1]
  split
  · rfl
  · rename_i f hf
    have := h2 f hf
    unfold getbytes
    rw [this]

end Verif.GlyphSet

namespace Verif.Ufo
open Verif Verif.FS Verif.IO Verif.Spec.Ufo Verif.Spec.GlyphSet Verif.Spec.Plist Verif.GlyphSet

theorem filterMap_none {α β : Type} {p : α → Option β} : ∀ {l : List α}, (∀ x ∈ l, p x = none) → l.filterMap p = []
  | [], _ => rfl
  | x :: l, h => by
    rw [List.filterMap_cons_none (h x (by simp))]
    exact filterMap_none fun y hy => h y (by simp [hy])

theorem leavesRun_append {E : FontInfo.Env} {L : Casing} {i : Nat} {n d : Str} {f : Font} {a b : List FontCall} (h : LeavesLayerRun E L i n d f (a ++ b)) :
    LeavesLayerRun E L i n d f a ∧ LeavesLayerRun E L i n d (f.run E L a) b :=
  ⟨fun pre c post e => h pre c (post ++ b) (by rw [e]; simp), fun pre c post e => by
    rw [← font_run_append]
    exact h (a ++ pre) c post (by rw [e]; simp)⟩

/-- The directory of a layer after its glyph set was saved. -/
theorem saved_layer {L : Casing} (hL : AsciiPrefix L) (E : FontInfo.Env) {i : Nat} {n d : Str} {f : Font} (h : Sound L f) (ho : OwnsLayer f i n d)
    {gs : GlyphSet.GlyphSet} (hgs : f.sets[i]? = some gs) {before after : List FontCall}
    (hcalls : LeavesLayerRun E L i n d f (before ++ .set i (.glyphs .save) :: after)) (hafter : ∀ c ∈ after, onSet i c = none)
    (hsave : ((f.run E L before).step E L (.set i (.glyphs .save))).2 = .ok ())
    (hcl : f.fs.canon contentsName ≠ f.fs.canon layerinfoName)
    (hops : ∀ op ∈ (before.filterMap (onSet i)).filterMap glyphCall, ∀ v, op ≠ .rebuild v)
    (hav : ∀ pre, pre <+: (before.filterMap (onSet i)).filterMap glyphCall → Avoids f.fs.canon layerinfoName (GlyphSet.run L E.F (gs, f.fs) pre).1.contents)
    (hcon : Avoids f.fs.canon contentsName (GlyphSet.run L E.F (gs, f.fs) ((before.filterMap (onSet i)).filterMap glyphCall)).1.contents) :
    let w := GlyphSet.run L E.F (gs, f.fs) ((before.filterMap (onSet i)).filterMap glyphCall)
    let g := f.run E L (before ++ .set i (.glyphs .save) :: after)
    Sound L g ∧ OwnsLayer g i n d ∧ (∃ data, dumpBytes E.F (contentsVal w.1.contents) = .ok data ∧ g.fs.getbytes [d, contentsName] = .ok data) ∧
    (∀ m x, Dict.get? w.1.contents m = some x → g.fs.node? [d, x] = w.2.node? [d, x]) ∧ w.1.dir = [d] ∧
    ∀ m s, Status.history m s (record E L i gs.version f before) = Status.history m s (calls L E.F (gs, f.fs) ((before.filterMap (onSet i)).filterMap glyphCall)) := by
  obtain ⟨gs0, hgs0, hdir⟩ := ho.set
  rw [hgs] at hgs0
  cases hgs0
  obtain ⟨hb, hr⟩ := leavesRun_append hcalls
  obtain ⟨hs, ha⟩ := leavesRun_cons hr
  obtain ⟨k1, k2, k3, k4, k5⟩ := font_run_layer hL E before h ho hb hgs (Agree.refl _ _)
  obtain ⟨m1, m2, m3⟩ := setRun_glyphs L E.F (before.filterMap (onSet i)) gs f.fs f.fs (Agree.refl _ _) hcl hops hav
  rw [m1] at k3
  have hcan1 : (f.run E L before).fs.canon = f.fs.canon := by
    rw [k4.canon, m2.canon]
    exact run_canon L E.F (gs, f.fs) _
  have hwdir : (GlyphSet.run L E.F (gs, f.fs) ((before.filterMap (onSet i)).filterMap glyphCall)).1.dir = [d] := by
    rw [← hdir]; exact run_dir L E.F (gs, f.fs) _
  generalize hw : GlyphSet.run L E.F (gs, f.fs) ((before.filterMap (onSet i)).filterMap glyphCall) = w at *
  have hst : (f.run E L before).step E L (.set i (.glyphs .save)) =
      ({ f.run E L before with fs := (writeContents E.F (w.1, (f.run E L before).fs)).1.2, sets := (f.run E L before).sets.set i w.1 },
        (writeContents E.F (w.1, (f.run E L before).fs)).2) := by
    simp only [Font.step, Font.callSet, k3]
    rfl
  rw [hst] at hsave
  have hwp : writePlist E.F w.1.havePrevious (f.run E L before).fs [d, contentsName] (contentsVal w.1.contents) =
      ((writeContents E.F (w.1, (f.run E L before).fs)).1.2, .ok ()) := by
    have h2 : writePlist E.F w.1.havePrevious (f.run E L before).fs (w.1.dir ++ [contentsName]) (contentsVal w.1.contents) =
      ((writeContents E.F (w.1, (f.run E L before).fs)).1.2, .ok ()) := Prod.ext rfl hsave
    rwa [hwdir] at h2
  obtain ⟨p1, p2, p3⟩ := writePlist_spec hwp
  obtain ⟨data, p4, p5⟩ := p3 rfl
  obtain ⟨s1, -⟩ := sound_step hL E k1 (.set i (.glyphs .save)) hs.2
  obtain ⟨s3, -⟩ := font_step_layer hL E k1 k2 (.set i (.glyphs .save)) hs.1 hs.2
  obtain ⟨gs2, hgs2, -⟩ := s3.set
  obtain ⟨q1, q2, -, q4, -⟩ := font_run_layer hL E after s1 s3 ha hgs2 (Agree.refl _ _)
  rw [filterMap_none hafter] at q4
  have hrun : f.run E L (before ++ .set i (.glyphs .save) :: after) = Font.run E L ((f.run E L before).step E L (.set i (.glyphs .save))).1 after := by
    rw [font_run_append]; rfl
  have hfs : ((f.run E L before).step E L (.set i (.glyphs .save))).1.fs = (writeContents E.F (w.1, (f.run E L before).fs)).1.2 := by rw [hst]
  intro w' g
  have hg : ∀ p, g.fs.node? (d :: p) = (writeContents E.F (w.1, (f.run E L before).fs)).1.2.node? (d :: p) := by
    intro p
    show (f.run E L _).fs.node? _ = _
    rw [hrun, q4.at p]
    show ((f.run E L before).step E L (.set i (.glyphs .save))).1.fs.node? _ = _
    rw [hfs]
  refine ⟨?_, ?_, ⟨data, p4, ?_⟩, fun m x hx => ?_, hwdir, fun m s => ?_⟩
  · show Sound L (f.run E L _)
    rw [hrun]; exact q1
  · show OwnsLayer (f.run E L _) i n d
    rw [hrun]; exact q2
  · rw [← p5]
    unfold getbytes
    rw [hg [contentsName]]
  · rw [hg [x], p2 [d, x]]
    · rw [k4.at [x]]
      have := m2.node [d, x] (by
        have := inside_file (canon := f.fs.canon) (dir := gs.dir) (f := x) (by
          have := hav _ (List.prefix_refl _)
          rw [hw] at this
          exact this m x hx)
        rw [hdir] at this ⊢
        exact this)
      exact this
    · intro e
      simp only [FS.key, List.map_cons, List.map_nil, List.cons.injEq, and_true, true_and] at e
      rw [hcan1] at e
      exact hcon m x hx e
  · unfold record
    rw [k5]
    exact m3 m s

theorem getGlyphSet_dir {L : Casing} {F : FloatCodec} {w : World} {n : Option Str} {b v : Bool} {gs : GlyphSet.GlyphSet}
    (h : (getGlyphSet L F w n b v).2 = .ok gs) : gs.dir ≠ [] := by
  unfold getGlyphSet at h
  split at h
  · cases h
  · split at h
    · cases h
    · split at h
      · unfold getGlyphSet12 at h
        split at h
        · cases h
        · split at h
          · cases h
          · rename_i fs _ _
            rw [(openGlyphSet_dir (F := F) (fs := fs) (dir := [glyphsName]) (version := 2) (v := v) h).1]; simp
      · unfold getGlyphSet3 at h
        split at h
        · cases h
        · split at h
          · cases h
          · rename_i d _
            split at h
            · cases h
            · rename_i fs _
              rw [(openGlyphSet_dir (F := F) (fs := fs) (dir := [d]) (version := 3) (v := v) h).1]; simp

/-- The layers of a program are in order. -/
structure Orderly (L : Casing) (f : Font) : Prop where
  sound : Sound L f
  present : Present f.world
  dirs : ∀ gs ∈ f.sets, gs.dir ≠ []

theorem Orderly.good {L : Casing} {f : Font} (h : Orderly L f) : Good L f.world := ⟨h.sound.layered, h.sound.apart, h.sound.wf, h.present⟩

theorem orderly_step {L : Casing} (hL : AsciiPrefix L) (E : FontInfo.Env) {f : Font} (h : Orderly L f) (c : FontCall)
    (hh : ∀ op, c = .ufo op → Harmless f.writer.layers op ∧ KeepsLayers f.fs.canon op) : Orderly L (f.step E L c).1 := by
  obtain ⟨h1, -⟩ := sound_step hL E h.sound c fun op ho => (hh op ho).1
  refine ⟨h1, ?_, ?_⟩
  · rw [font_step_world]
    cases ho : f.asOp c with
    | none => exact h.present
    | some op =>
      show Present (step E L f.world op).1
      have : Harmless f.writer.layers op ∧ KeepsLayers f.fs.canon op := by
        cases c with
        | getGlyphSet n b v => cases ho; exact ⟨(by rintro k hk; cases hk), .inl (.inl ⟨_, _, _, rfl⟩)⟩
        | ufo o => cases ho; exact hh _ rfl
        | set i c =>
          cases c with
          | glyphs o =>
            simp only [Font.asOp, Option.map_eq_some_iff] at ho
            obtain ⟨gs, hg, rfl⟩ := ho
            exact ⟨(by rintro k hk; cases hk), .inr (.inr (.glyph (h.dirs gs (List.mem_of_getElem? hg))))⟩
          | layerInfo info v =>
            simp only [Font.asOp, Option.map_eq_some_iff] at ho
            obtain ⟨gs, hg, rfl⟩ := ho
            exact ⟨(by rintro k hk; cases hk), .inr (.inr (.layerInfo (h.dirs gs (List.mem_of_getElem? hg))))⟩
      exact step_present hL E f.world h.sound.canon h.sound.wf h.sound.layered h.sound.apart h.present op this.1 this.2
  · cases c with
    | getGlyphSet n b v =>
      simp only [Font.step, Font.getGlyphSet]
      split
      · exact h.dirs
      · rename_i gs hgs
        intro g hg
        rcases List.mem_append.1 hg with hg | hg
        · exact h.dirs g hg
        · rw [List.mem_singleton.1 hg]; exact getGlyphSet_dir hgs
    | ufo op => exact h.dirs
    | set i c =>
      simp only [Font.step, Font.callSet]
      split
      · exact h.dirs
      · rename_i gs hgs
        intro g hg
        rcases List.mem_or_eq_of_mem_set hg with hg | hg
        · exact h.dirs g hg
        · rw [hg, setStep_dir]; exact h.dirs gs (List.mem_of_getElem? hgs)

theorem orderly_run {L : Casing} (hL : AsciiPrefix L) (E : FontInfo.Env) (cs : List FontCall) : ∀ {f : Font}, Orderly L f →
    (∀ pre c post, cs = pre ++ c :: post → ∀ op, c = .ufo op → Harmless (f.run E L pre).writer.layers op) →
    (∀ c ∈ cs, ∀ op, c = .ufo op → KeepsLayers f.fs.canon op) → Orderly L (f.run E L cs) := by
  induction cs with
  | nil => exact fun h _ _ => h
  | cons c cs ih =>
    intro f h hh hk
    have hc : (f.step E L c).1.fs.canon = f.fs.canon := (sound_step hL E h.sound c fun op ho => hh [] c cs rfl op ho).2
    refine ih (orderly_step hL E h c fun op ho => ⟨hh [] c cs rfl op ho, hk c (by simp) op ho⟩) (fun pre o post e => hh (c :: pre) o post (by rw [e]; rfl)) (fun o ho => ?_)
    rw [hc]
    exact hk o (by simp [ho])

/-- What is read from a layer that was saved. -/
theorem saved_read {F : FloatCodec} (hF : F.Lawful) {fs : FS} {n d : Str} {layers : List (Str × Str)} (hread : readLayers F fs 3 true = .ok layers) (hnd : (layers.map Prod.fst).Nodup)
    (hmem : (n, d) ∈ layers) (hdir : fs.node? [d] = some .dir) {w : GlyphSet.World} (hw : Dict.WF w.1.contents) (hwd : w.1.dir = [d])
    (ht : ∀ m x, Dict.get? w.1.contents m = some x → FileText m ∧ FileText x)
    {data : Bytes} (hdata : dumpBytes F (contentsVal w.1.contents) = .ok data) (hfile : fs.getbytes [d, contentsName] = .ok data)
    (hsame : ∀ m x, Dict.get? w.1.contents m = some x → fs.node? [d, x] = w.2.node? [d, x])
    {s : Str → Status} (hs : ∀ m, Expects (getGLIF w m) (s m)) (hknown : ∀ m, s m ≠ .unknown) :
    ∃ g, readerGlyphSet F fs 3 (some n) true = .ok g ∧ g.version = 3 ∧ g.dir = [d] ∧ (∀ m, m ∈ GlyphSet.keys g ↔ s m ≠ .absent) ∧ ∀ m, Expects (getGLIF (g, fs) m) (s m) := by
  have hholds : ∀ m x, Dict.get? w.1.contents m = some x → ∃ b, s m = .holds b ∧ w.2.node? [d, x] = some (.file b) := by
    intro m x hx
    have := hs m
    cases hm : s m with
    | absent =>
      rw [hm] at this
      simp only [Expects, getGLIF, hx] at this
      split at this
      · cases this
      · rename_i hr hn
        unfold getbytes at this
        split at this <;> cases this
    | unknown => exact absurd hm (hknown m)
    | holds b =>
      rw [hm] at this
      refine ⟨b, rfl, ?_⟩
      simp only [Expects, getGLIF, hx, hwd] at this
      split at this
      · cases this
      · unfold getbytes at this
        split at this
        · rename_i h; cases this; exact h
        · cases this
        · cases this
  have hnone : ∀ m, Dict.get? w.1.contents m = none → s m = .absent := by
    intro m hm
    have := hs m
    cases hx : s m with
    | absent => rfl
    | unknown => exact absurd hx (hknown m)
    | holds b =>
      rw [hx] at this
      simp only [Expects, getGLIF, hm] at this
      cases this
  obtain ⟨g, hg, heq⟩ := open_saved F hF fs [d] w.1.contents hw ht data hdata hfile (fun m x hx => by
    obtain ⟨b, -, hb⟩ := hholds m x hx
    unfold «exists»
    rw [show [d] ++ [x] = [d, x] from rfl, hsame m x hx, hb]
    rfl) 3 (.inr (.inr rfl)) true
  obtain ⟨g1, g2, -, -⟩ := openGlyphSet_dir hg
  refine ⟨g, ?_, g2, g1, fun m => ?_, fun m => ?_⟩
  · unfold readerGlyphSet
    simp only [resolveLayer, hread]
    have hfind : layers.find? (fun e => decide (e.1 = n)) = some (n, d) := by
      clear hread
      induction layers with
      | nil => cases hmem
      | cons e l ih =>
        rw [List.find?_cons]
        rcases List.mem_cons.1 hmem with rfl | hmem
        · simp
        · simp only [List.map_cons, List.nodup_cons] at hnd
          have : e.1 ≠ n := by rintro rfl; exact hnd.1 (List.mem_map.2 ⟨_, hmem, rfl⟩)
          simp only [this, decide_false]
          exact ih hnd.2 hmem
    rw [hfind]
    dsimp only
    rw [hdir]
    exact hg
  · unfold GlyphSet.keys
    constructor
    · intro hm h
      cases hx : Dict.get? g.contents m with
      | none => exact Dict.get?_eq_none_iff.1 hx hm
      | some x =>
        rw [heq m] at hx
        obtain ⟨b, hb, -⟩ := hholds m x hx
        rw [h] at hb
        cases hb
    · intro h
      by_contra hm
      exact h (hnone m (by rw [← heq m]; exact Dict.get?_eq_none_iff.2 hm))
  · have : getGLIF (g, fs) m = getGLIF w m := by
      refine getGLIF_of (heq m) fun x hx => ?_
      rw [hwd]
      show fs.node? (g.dir ++ [x]) = _
      rw [g1]
      exact hsame m x hx
    rw [this]
    exact hs m

theorem Orderly.of {L : Casing} {f : Font} (h : Consistent L f) : Orderly L f :=
  ⟨⟨⟨h.layers, h.dirs⟩, h.apart, h.nodes, h.canon⟩, fun n d hd => by
    have := h.present n d hd
    show f.fs.node? [d] ≠ none
    simpa [«exists», Option.isSome_iff_ne_none] using this, h.sets⟩

/-- Layer contents that were written with validation name every layer. -/
theorem writeLayerContents_all {F : FloatCodec} {w w' : World} (hv : w.1.version = 3) {order : Option (List (Option Str))}
    (hw : writeLayerContents F w order true = (w', .ok ())) :
    (∀ n ∈ Dict.keys w.1.layers, n ∈ layerOrderOf w.1.layers order) ∧ w'.2.canon = w.2.canon ∧
    ∀ q, w.2.key q ≠ w.2.key [layercontentsName] → w'.2.node? q = w.2.node? q := by
  unfold writeLayerContents at hw
  simp only [hv, show ¬ (3 : Int) < 3 by decide, if_false, Bool.true_and] at hw
  split at hw
  · cases hw
  · rename_i hall
    simp only [Bool.not_eq_true', Bool.not_eq_false, Bool.and_eq_true, List.all_eq_true, decide_eq_true_eq] at hall
    split at hw
    · cases hw
    · rename_i t ht
      simp only [Prod.mk.injEq] at hw
      obtain ⟨rfl, hw⟩ := hw
      obtain ⟨h1, h2, -⟩ := writePlist_spec (F := F) (hp := w.1.havePrevious) (fs := w.2) (p := [layercontentsName]) (v := layersVal t) rfl
      exact ⟨hall.2, h1, h2⟩

theorem asciiCasing_of {L : Casing} (h : AsciiPrefix L) : AsciiCasing L := by
  intro s hs
  obtain ⟨t, h1, h2⟩ := h s [] hs
  rw [h2 rfl, List.append_nil, List.append_nil] at h1
  exact h1

/-- Without calls about layer info there are only calls about glyphs. -/
theorem setRun_run (L : Casing) (F : FloatCodec) (cs : List SetCall) : ∀ (w : GlyphSet.World), (∀ info v, .layerInfo info v ∉ cs) →
    (setRun L F w cs).1 = GlyphSet.run L F w (cs.filterMap glyphCall) := by
  induction cs with
  | nil => exact fun w _ => rfl
  | cons c cs ih =>
    intro w h
    cases c with
    | layerInfo info v => exact absurd (by simp) (h info v)
    | glyphs op =>
      rw [setRun_cons]
      exact ih _ fun info v hm => h info v (by simp [hm])

end Verif.Ufo
