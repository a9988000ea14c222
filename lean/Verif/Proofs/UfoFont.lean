import Verif.Proofs.Agree
import Verif.Proofs.UfoLayers
import Verif.Spec.UfoFont
/-! The layers of a font do not disturb each other. -/
namespace Verif.Ufo
open Verif Verif.FS Verif.IO Verif.Spec.Ufo Verif.Filenames

/-- The call on the writer and its file system that a call of the program amounts to. -/
def Font.asOp (f : Font) : FontCall → Option Op
  | .getGlyphSet n b v => some (.glyphSet n b v)
  | .ufo op => some op
  | .set i (.glyphs op) => (f.sets[i]?).map fun gs => .glyph gs op
  | .set i (.layerInfo info v) => (f.sets[i]?).map fun gs => .layerInfo gs info v

theorem font_step_world (E : FontInfo.Env) (L : Casing) (f : Font) (c : FontCall) :
    (f.step E L c).1.world = run E L f.world (f.asOp c).toList := by
  cases c with
  | getGlyphSet n b v =>
    simp only [Font.step, Font.getGlyphSet, Font.asOp, Option.toList]
    split <;> rfl
  | ufo op => rfl
  | set i c =>
    simp only [Font.step, Font.callSet]
    cases h : f.sets[i]? with
    | none => cases c <;> simp [Font.asOp, h, run, Font.world]
    | some gs => cases c <;> simp [Font.asOp, h, run, Font.world, step, GlyphSet.setStep]

/-- The calls on the writer and its file system that a history amounts to. -/
def Font.asOps (E : FontInfo.Env) (L : Casing) (f : Font) : List FontCall → List Op
  | [] => []
  | c :: cs => (f.asOp c).toList ++ Font.asOps E L (f.step E L c).1 cs

theorem font_run_world (E : FontInfo.Env) (L : Casing) (f : Font) (cs : List FontCall) : (f.run E L cs).world = run E L f.world (f.asOps E L cs) := by
  induction cs generalizing f with
  | nil => rfl
  | cons c cs ih =>
    simp only [Font.run, Font.asOps]
    rw [run_append, ih, font_step_world]

theorem font_run_append (E : FontInfo.Env) (L : Casing) (f : Font) (a b : List FontCall) : f.run E L (a ++ b) = (f.run E L a).run E L b := by
  induction a generalizing f with
  | nil => rfl
  | cons x a ih => exact ih _

/-- What is kept by the calls on the writer. -/
structure Sound (L : Casing) (f : Font) : Prop where
  layered : Layered f.writer
  apart : ApartDirs L f.writer.layers
  wf : Dict.WF f.fs.nodes
  canon : ∀ a b, f.fs.canon a = f.fs.canon b → L.lower a = L.lower b

theorem sound_step {L : Casing} (hL : AsciiPrefix L) (E : FontInfo.Env) {f : Font} (h : Sound L f) (c : FontCall)
    (hh : ∀ op, c = .ufo op → Harmless f.writer.layers op) : Sound L (f.step E L c).1 ∧ (f.step E L c).1.fs.canon = f.fs.canon := by
  have hw := font_step_world E L f c
  have hx : ∀ op, f.asOp c = some op → Harmless f.writer.layers op := by
    intro op ho
    cases c with
    | getGlyphSet n b v => simp only [Font.asOp] at ho; cases ho; rintro k hk; cases hk
    | ufo o => simp only [Font.asOp] at ho; cases ho; exact hh _ rfl
    | set i c =>
      cases c with
      | glyphs o =>
        simp only [Font.asOp, Option.map_eq_some_iff] at ho
        obtain ⟨gs, -, rfl⟩ := ho
        rintro k hk; cases hk
      | layerInfo info v =>
        simp only [Font.asOp, Option.map_eq_some_iff] at ho
        obtain ⟨gs, -, rfl⟩ := ho
        rintro k hk; cases hk
  cases ho : f.asOp c with
  | none =>
    rw [ho] at hw
    have h1 : (f.step E L c).1.writer = f.writer := congrArg Prod.fst hw
    have h2 : (f.step E L c).1.fs = f.fs := congrArg Prod.snd hw
    exact ⟨⟨by rw [h1]; exact h.layered, by rw [h1]; exact h.apart, by rw [h2]; exact h.wf, by rw [h2]; exact h.canon⟩, by rw [h2]⟩
  | some op =>
    rw [ho] at hw
    have h1 : (f.step E L c).1.writer = (step E L f.world op).1.1 := congrArg Prod.fst hw
    have h2 : (f.step E L c).1.fs = (step E L f.world op).1.2 := congrArg Prod.snd hw
    obtain ⟨-, -, g1, g2⟩ := step_spec E L f.world h.layered op
    have hc : (f.step E L c).1.fs.canon = f.fs.canon := by rw [h2]; exact g2.canon
    exact ⟨⟨by rw [h1]; exact g1, by rw [h1]; exact step_apart hL E f.world h.layered h.apart op (hx op ho), by rw [h2]; exact g2.wf h.wf,
      by rw [hc]; exact h.canon⟩, hc⟩

/-- What is in a directory is as before. -/
abbrev Same (d : Str) (a b : FS) : Prop := Agree (fun q => [d] <+: q) a b

theorem same_of {d : Str} {a b : FS} (hc : a.canon = b.canon) (h : ∀ p, a.node? (d :: p) = b.node? (d :: p)) : Same d a b :=
  Agree.mk hc (by rintro q ⟨t, rfl⟩; exact h t)

theorem Same.at {d : Str} {a b : FS} (h : Same d a b) (p : Path) : a.node? (d :: p) = b.node? (d :: p) := h.node _ ⟨p, rfl⟩

theorem makedir_same {a b : FS} {e d : Str} (h : a.makedir [e] = .ok b) (hd : a.node? [d] = some .dir) : Same d b a := by
  obtain ⟨h1, h2, h3, h4, h5⟩ := makedir_ok h
  refine same_of h1 fun p => ?_
  by_cases hk : a.key (d :: p) = a.key [e]
  · have hp : p = [] := by
      have := congrArg List.length hk
      simp only [FS.key, List.map_cons, List.length_cons, List.length_map, List.map_nil, List.length_nil] at this
      exact List.length_eq_zero_iff.1 (by omega)
    subst hp
    rw [h4 _ _ hd, hd]
  · exact h3 _ hk

/-- A call on the writer that leaves a layer alone. -/
theorem foreign_op {L : Casing} (hL : AsciiPrefix L) (E : FontInfo.Env) {w : World} (hl : Layered w.1) (ha : ApartDirs L w.1.layers) (hw : Dict.WF w.2.nodes)
    (hcanon : ∀ a b, w.2.canon a = w.2.canon b → L.lower a = L.lower b) {n d : Str} (hn : Dict.get? w.1.layers n = some d) (hd : w.2.node? [d] = some .dir)
    (op : Op) (hh : Harmless w.1.layers op)
    (hop : Spares w.2.canon d op ∨ (∃ m b v, op = .glyphSet m b v) ∨ (∃ m k b, op = .rename m k b ∧ m ≠ some n) ∨ ∃ m, op = .delete (some m) ∧ m ≠ n) :
    Same d (step E L w op).1.2 w.2 ∧ Dict.get? (step E L w op).1.1.layers n = some d := by
  have hgd := hl.dirs n d hn
  have hcan := (step_spec E L w hl op).2.2.2.canon
  rcases hop with hop | ⟨m, b, v, rfl⟩ | ⟨m, k, b, rfl, hmn⟩ | ⟨m, rfl, hmn⟩
  · have hsp := step_spec E L w hl op
    refine ⟨same_of hcan fun p => acts_node? hsp.2.2.2 (S := Concerns op) (fun k hk => hk) hop p, ?_⟩
    rcases step_layers E L w op with h | ⟨n, b, v, rfl⟩ | ⟨n, m, b, rfl⟩ | ⟨n, rfl⟩
    · rw [h]; exact hn
    · exact absurd rfl (hop d (.glyphSet hgd))
    · exact absurd rfl (hop d (.rename hgd))
    · exact absurd rfl (hop d (.delete hgd))
  · show Same d (getGlyphSet L E.F w m b v).1.2 w.2 ∧ Dict.get? (getGlyphSet L E.F w m b v).1.1.layers n = some d
    rcases getGlyphSet_layers L E.F w m b v with ⟨h, h'⟩ | ⟨x, fs, h1, h2, h3, h4⟩
    · rw [h]
      refine ⟨?_, hn⟩
      rcases h' with h' | ⟨fs, h', h''⟩
      · rw [h']; exact Agree.refl _ _
      · rw [h'']; exact makedir_same h' hd
    · rw [h4]
      refine ⟨makedir_same h3 hd, ?_⟩
      show Dict.get? (Dict.set w.1.layers _ x) n = some d
      rw [Dict.get?_set]
      split
      · rename_i he
        have he : m.getD (defaultLayerOf w.1.layers) = n := by simpa using he
        rw [he] at h2
        unfold layerDirectory at h2
        rw [hn] at h2
        cases h2
        rfl
      · exact hn
  · show Same d (renameGlyphSet L w m k b).1.2 w.2 ∧ Dict.get? (renameGlyphSet L w m k b).1.1.layers n = some d
    rcases renameGlyphSet_layers L w hl m k b with h | ⟨old, oldDir, new, newDir, h1, h2, h3, h4, h5⟩
    · rw [h]; exact ⟨Agree.refl _ _, hn⟩
    · have hno : n ≠ old := by rintro rfl; exact hmn h1
      have hne : L.lower oldDir ≠ L.lower newDir := by
        unfold renameDirectory at h4
        split at h4
        · rename_i hb
          cases h4
          refine lower_glyphs hL (hl.dirs old oldDir h3) ?_
          rintro rfl
          rcases h2 with ⟨-, -, -, h⟩ | ⟨-, -, h⟩
          · exact h hb (mem_values h3)
          · exact h hb rfl
        · exact fresh_dir h4 h3
      obtain ⟨-, g2, -⟩ := movedir_node hw (a := oldDir) (b := newDir) (fun e => hne (hcanon _ _ e))
      have hnn : new ≠ n := by
        rintro rfl
        rcases h2 with ⟨-, -, h, -⟩ | ⟨-, h, -⟩
        · rw [hn] at h; cases h
        · exact hno h
      rw [show (step E L w (.rename m k b)).1 = (renameGlyphSet L w m k b).1 from rfl] at hcan
      rw [h5] at hcan ⊢
      refine ⟨same_of hcan fun p => g2 d p (fun e => ha n old d oldDir hn h3 hno (hcanon _ _ e)) fun e => rename_fresh hL hl h1 h2 hh h4 hno hn (hcanon _ _ e), ?_⟩
      show Dict.get? (Dict.set (Dict.erase w.1.layers old) new newDir) n = some d
      rw [Dict.get?_set, if_neg (by simpa using hnn), Dict.get?_erase, if_neg (by simpa using fun e : old = n => hno e.symm)]
      exact hn
  · show Same d (deleteGlyphSet w (some m)).1.2 w.2 ∧ Dict.get? (deleteGlyphSet w (some m)).1.1.layers n = some d
    unfold deleteGlyphSet
    split
    · exact ⟨Agree.refl _ _, hn⟩
    · split
      · exact ⟨Agree.refl _ _, hn⟩
      · rename_i dir hdir
        obtain ⟨k, hk, hk'⟩ := findDirectory_mem hdir
        have hkn : k = m := by
          rcases hk' with ⟨h, -⟩ | h
          · cases h
          · cases h; rfl
        subst hkn
        have hget := Dict.get?_of_mem hl.wf hk
        have hacts := removeNode_acts w.2 [dir] false
        split
        · rename_i fs e he
          rw [removePath_false] at he
          rw [removeNode_error he]
          exact ⟨Agree.refl _ _, hn⟩
        · rename_i fs he
          rw [removePath_false] at he
          have hfs : (removeNode w.2 [dir] false).1 = fs := by rw [he]
          simp only [Dict.has_iff.2 (Dict.mem_keys_of_mem hk), if_true]
          refine ⟨?_, ?_⟩
          · rw [← hfs]
            refine same_of hacts.canon fun p => hacts.node? _ ?_
            rintro _ rfl ⟨t, ht⟩
            simp only [FS.key, List.map_cons, List.map_nil, List.cons_append, List.cons.injEq] at ht
            exact ha n k d dir hn hget (Ne.symm hmn) (hcanon _ _ ht.1.symm)
          · show Dict.get? (Dict.erase w.1.layers k) n = some d
            rw [Dict.get?_erase, if_neg (by simpa using hmn)]
            exact hn

theorem setRun_cons (L : Casing) (F : FloatCodec) (w : GlyphSet.World) (c : GlyphSet.SetCall) (cs : List GlyphSet.SetCall) :
    GlyphSet.setRun L F w (c :: cs) = ((GlyphSet.setRun L F (GlyphSet.setStep L F w c).1 cs).1, (GlyphSet.setStep L F w c).2 :: (GlyphSet.setRun L F (GlyphSet.setStep L F w c).1 cs).2) := rfl

/-- A call of another glyph set changes nothing in the directory. -/
theorem foreign_set (L : Casing) (F : FloatCodec) {d e : Str} {gs : GlyphSet.GlyphSet} {fs : FS} (hgs : gs.dir = [e]) (he : fs.canon e ≠ fs.canon d) (c : GlyphSet.SetCall) :
    Same d (GlyphSet.setStep L F (gs, fs) c).1.2 fs := by
  have h := GlyphSet.setStep_acts L F (gs, fs) c
  refine same_of h.canon fun p => h.node? _ ?_
  rintro k ⟨f, rfl⟩ ⟨t, ht⟩
  simp only [hgs, FS.key, List.map_cons, List.map_nil, List.cons_append, List.nil_append, List.cons.injEq] at ht
  exact he ht.1

theorem own_set_dir (L : Casing) (F : FloatCodec) {d : Str} {gs : GlyphSet.GlyphSet} {fs : FS} (hgs : gs.dir = [d]) (c : GlyphSet.SetCall) :
    (GlyphSet.setStep L F (gs, fs) c).1.2.node? [d] = fs.node? [d] := by
  refine (GlyphSet.setStep_acts L F (gs, fs) c).node? _ ?_
  rintro k ⟨f, rfl⟩ hp
  have := hp.length_le
  simp [FS.key, hgs] at this

/-- One call of a program, seen from a layer. -/
theorem font_step_layer {L : Casing} (hL : AsciiPrefix L) (E : FontInfo.Env) {i : Nat} {n d : Str} {f : Font} (h : Sound L f) (ho : OwnsLayer f i n d) (c : FontCall)
    (hc : LeavesLayer i n d f c) (hh : ∀ op, c = .ufo op → Harmless f.writer.layers op) :
    OwnsLayer (f.step E L c).1 i n d ∧ (onSet i c = none → Same d (f.step E L c).1.fs f.fs ∧ (f.step E L c).1.sets[i]? = f.sets[i]?) := by
  obtain ⟨gs, hgs, hdir⟩ := ho.set
  cases c with
  | getGlyphSet m b v =>
    obtain ⟨h1, h2⟩ := foreign_op hL E (w := f.world) h.layered h.apart h.wf h.canon ho.layer ho.dir (.glyphSet m b v) (by rintro k hk; cases hk) (.inr (.inl ⟨m, b, v, rfl⟩))
    have hw := font_step_world E L f (.getGlyphSet m b v)
    have hw1 : (f.step E L (.getGlyphSet m b v)).1.writer = (step E L f.world (.glyphSet m b v)).1.1 := congrArg Prod.fst hw
    have hw2 : (f.step E L (.getGlyphSet m b v)).1.fs = (step E L f.world (.glyphSet m b v)).1.2 := congrArg Prod.snd hw
    have hs : (f.step E L (.getGlyphSet m b v)).1.sets[i]? = f.sets[i]? := by
      simp only [Font.step, Font.getGlyphSet]
      split
      · rfl
      · simp only
        rw [List.getElem?_append_left]
        rw [List.getElem?_eq_some_iff] at hgs
        exact hgs.1
    exact ⟨⟨⟨gs, hs.trans hgs, hdir⟩, by rw [hw1]; exact h2, by rw [hw2, h1.at]; exact ho.dir⟩, fun _ => ⟨by rw [hw2]; exact h1, hs⟩⟩
  | ufo op =>
    obtain ⟨h1, h2⟩ := foreign_op hL E (w := f.world) h.layered h.apart h.wf h.canon ho.layer ho.dir op (hh op rfl) hc
    exact ⟨⟨⟨gs, hgs, hdir⟩, h2, (h1.at []).trans ho.dir⟩, fun _ => ⟨h1, rfl⟩⟩
  | set j c =>
    by_cases hj : j = i
    · subst hj
      have hr : (f.step E L (.set j c)).1 = { f with fs := (GlyphSet.setStep L E.F (gs, f.fs) c).1.2, sets := f.sets.set j (GlyphSet.setStep L E.F (gs, f.fs) c).1.1 } := by
        simp only [Font.step, Font.callSet, hgs]
      rw [hr]
      refine ⟨⟨⟨(GlyphSet.setStep L E.F (gs, f.fs) c).1.1, ?_, ?_⟩, ho.layer, ?_⟩, fun hx => ?_⟩
      · simp only [List.getElem?_set_self (List.getElem?_eq_some_iff.1 hgs).1]
      · rw [GlyphSet.setStep_dir]; exact hdir
      · simp only
        rw [own_set_dir L E.F hdir]
        exact ho.dir
      · simp [onSet] at hx
    · rcases hc with hc | hc
      · exact absurd hc hj
      · cases hg : f.sets[j]? with
        | none =>
          have hr : (f.step E L (.set j c)).1 = f := by simp only [Font.step, Font.callSet, hg]
          rw [hr]
          exact ⟨ho, fun _ => ⟨Agree.refl _ _, rfl⟩⟩
        | some gs' =>
          obtain ⟨e, he, hne⟩ := hc gs' hg
          have hr : (f.step E L (.set j c)).1 = { f with fs := (GlyphSet.setStep L E.F (gs', f.fs) c).1.2, sets := f.sets.set j (GlyphSet.setStep L E.F (gs', f.fs) c).1.1 } := by
            simp only [Font.step, Font.callSet, hg]
          have hsame := foreign_set L E.F he hne c
          have hs : (f.sets.set j (GlyphSet.setStep L E.F (gs', f.fs) c).1.1)[i]? = f.sets[i]? := by
            rw [List.getElem?_set_ne hj]
          rw [hr]
          exact ⟨⟨⟨gs, hs.trans hgs, hdir⟩, ho.layer, (hsame.at []).trans ho.dir⟩, fun _ => ⟨hsame, hs⟩⟩

theorem leavesRun_cons {E : FontInfo.Env} {L : Casing} {i : Nat} {n d : Str} {f : Font} {c : FontCall} {cs : List FontCall} (h : LeavesLayerRun E L i n d f (c :: cs)) :
    (LeavesLayer i n d f c ∧ ∀ op, c = .ufo op → Harmless f.writer.layers op) ∧ LeavesLayerRun E L i n d (f.step E L c).1 cs :=
  ⟨h [] c cs rfl, fun pre o post e => h (c :: pre) o post (by rw [e]; rfl)⟩

theorem outcomes_cons_own (E : FontInfo.Env) (L : Casing) (i : Nat) (f : Font) (c : GlyphSet.SetCall) (cs : List FontCall) :
    f.outcomes E L i (.set i c :: cs) = (f.step E L (.set i c)).2 :: (f.step E L (.set i c)).1.outcomes E L i cs := by
  simp [Font.outcomes]

theorem outcomes_cons_other (E : FontInfo.Env) (L : Casing) (i : Nat) (f : Font) (c : FontCall) (cs : List FontCall) (hc : onSet i c = none) :
    f.outcomes E L i (c :: cs) = (f.step E L c).1.outcomes E L i cs := by
  cases c with
  | getGlyphSet m b v => rfl
  | ufo op => rfl
  | set j c =>
    simp only [onSet] at hc
    split at hc
    · cases hc
    · rename_i h
      simp only [Font.outcomes, if_neg h]

/-- A history of a program, seen from a layer: as if only its own calls were made. -/
theorem font_run_layer {L : Casing} (hL : AsciiPrefix L) (E : FontInfo.Env) {i : Nat} {n d : Str} (cs : List FontCall) : ∀ {f : Font} {gs : GlyphSet.GlyphSet} {fs : FS},
    Sound L f → OwnsLayer f i n d → LeavesLayerRun E L i n d f cs → f.sets[i]? = some gs → Same d f.fs fs →
    Sound L (f.run E L cs) ∧ OwnsLayer (f.run E L cs) i n d ∧
    (f.run E L cs).sets[i]? = some (GlyphSet.setRun L E.F (gs, fs) (cs.filterMap (onSet i))).1.1 ∧
    Same d (f.run E L cs).fs (GlyphSet.setRun L E.F (gs, fs) (cs.filterMap (onSet i))).1.2 ∧
    f.outcomes E L i cs = (GlyphSet.setRun L E.F (gs, fs) (cs.filterMap (onSet i))).2 := by
  induction cs with
  | nil => intro f gs fs h ho _ hg hs; exact ⟨h, ho, hg, hs, rfl⟩
  | cons c cs ih =>
    intro f gs fs h ho hr hg hs
    obtain ⟨⟨h1, h2⟩, h3⟩ := leavesRun_cons hr
    obtain ⟨g1, -⟩ := sound_step hL E h c h2
    obtain ⟨g3, g4⟩ := font_step_layer hL E h ho c h1 h2
    cases hc : onSet i c with
    | none =>
      obtain ⟨g5, g6⟩ := g4 hc
      have := ih g1 g3 h3 (g6.trans hg) (g5.trans hs)
      rw [List.filterMap_cons_none hc, outcomes_cons_other E L i f c cs hc]
      exact this
    | some c' =>
      have hcc : c = .set i c' := by
        cases c with
        | getGlyphSet m b v => cases hc
        | ufo op => cases hc
        | set j c =>
          simp only [onSet] at hc
          split at hc
          · cases hc; rename_i e; rw [e]
          · cases hc
      subst hcc
      obtain ⟨gs0, hgs0, hdir⟩ := ho.set
      rw [hg] at hgs0
      cases hgs0
      have hst : f.step E L (.set i c') = ({ f with fs := (GlyphSet.setStep L E.F (gs, f.fs) c').1.2, sets := f.sets.set i (GlyphSet.setStep L E.F (gs, f.fs) c').1.1 },
          (GlyphSet.setStep L E.F (gs, f.fs) c').2) := by
        simp only [Font.step, Font.callSet, hg]
      have hag := GlyphSet.agree_setStep L E.F gs (a := f.fs) (b := fs) (by rw [hdir]; exact hs) c'
      obtain ⟨e1, e2, e3⟩ := hag
      rw [hdir] at e2
      have hset : (f.step E L (.set i c')).1.sets[i]? = some (GlyphSet.setStep L E.F (gs, fs) c').1.1 := by
        rw [hst, ← e1]
        simp only [List.getElem?_set_self (List.getElem?_eq_some_iff.1 hg).1]
      have := ih g1 g3 h3 hset (fs := (GlyphSet.setStep L E.F (gs, fs) c').1.2) (by rw [hst]; exact e2)
      rw [List.filterMap_cons_some hc, setRun_cons, outcomes_cons_own]
      obtain ⟨k1, k2, k3, k4, k5⟩ := this
      refine ⟨k1, k2, k3, k4, ?_⟩
      rw [k5]
      rw [hst]
      simp only
      rw [e3]

theorem openGlyphSet_dir {F : FloatCodec} {fs : FS} {dir : Path} {version : Nat} {v : Bool} {gs : GlyphSet.GlyphSet} (h : GlyphSet.openGlyphSet F fs dir version v = .ok gs) :
    gs.dir = dir ∧ gs.version = version ∧ gs.existing = none ∧ gs.reverse = none := by
  unfold GlyphSet.openGlyphSet at h
  split at h
  · unfold GlyphSet.rebuildContents at h
    split at h
    · cases h
    · split at h
      · cases h
      · cases h; exact ⟨rfl, rfl, rfl, rfl⟩
  · cases h

/-- The glyph set that `getGlyphSet` returns owns its layer. -/
theorem getGlyphSet_owner {L : Casing} {F : FloatCodec} {w : World} (h3 : w.1.version = 3) {n : Str} {b v : Bool} {gs : GlyphSet.GlyphSet}
    (h : (getGlyphSet L F w (some n) b v).2 = .ok gs) :
    ∃ d, gs.dir = [d] ∧ gs.version = 3 ∧ Dict.get? (getGlyphSet L F w (some n) b v).1.1.layers n = some d ∧ (getGlyphSet L F w (some n) b v).1.2.node? [d] = some .dir := by
  have hs : getGlyphSet L F w (some n) b v = getGlyphSet3 L F w n b v := by
    unfold getGlyphSet
    rw [if_neg (by rw [h3]; simp), if_neg (by simp), if_neg (by rw [h3]; simp)]
    rfl
  rw [hs] at h ⊢
  unfold getGlyphSet3 at h ⊢
  split at h
  · cases h
  · split at h
    · cases h
    · split at h
      · cases h
      · rename_i hx _ d hd _ fs hfs
        obtain ⟨h1, h2, -, -⟩ := openGlyphSet_dir (F := F) (fs := fs) (dir := [d]) (version := 3) (v := v) h
        rw [if_neg hx]
        simp only [hd, hfs]
        exact ⟨d, h1, h2, Dict.get?_set_self _ _ _, (makedir_ok hfs).2.1⟩

theorem font_owner {L : Casing} (E : FontInfo.Env) {f : Font} (h3 : f.writer.version = 3) {n : Str} {b v : Bool} (h : (f.step E L (.getGlyphSet (some n) b v)).2 = .ok ()) :
    ∃ d gs, OwnsLayer (f.step E L (.getGlyphSet (some n) b v)).1 f.sets.length n d ∧
      (f.step E L (.getGlyphSet (some n) b v)).1.sets = f.sets ++ [gs] ∧ gs.dir = [d] ∧ gs.version = 3 := by
  simp only [Font.step, Font.getGlyphSet] at h ⊢
  split at h
  · cases h
  · rename_i gs hgs
    obtain ⟨d, h1, h2, h4, h5⟩ := getGlyphSet_owner (w := f.world) h3 hgs
    refine ⟨d, gs, ?_⟩
    simp only
    exact ⟨⟨⟨gs, by simp, h1⟩, h4, h5⟩, trivial, h1, h2⟩

end Verif.Ufo
