import Verif.Proofs.UfoCopyRun
/-! Saving a whole font: the program. -/
namespace Verif.Props
open Verif Verif.FS Verif.IO Verif.Ufo Verif.Spec.Ufo Verif.Spec.Plist Verif.Spec.Copy

/-- A program that saves layers, when glyph sets of the first `k` layers were obtained. -/
def Follows (canon : Str → Str) (layers : List Layer) : Nat → List FontCall → Prop
  | _, [] => True
  | k, .getGlyphSet n b _ :: cs => (∃ l, layers[k]? = some l ∧ n = some l.name ∧ b = l.default) ∧ Follows canon layers (k + 1) cs
  | k, .set i _ :: cs => i < k ∧ Follows canon layers k cs
  | k, .ufo op :: cs => (∀ d, GlyphsDir d → Spares canon d op) ∧ Follows canon layers k cs

/-- The number of glyph sets that are obtained. -/
def gets (cs : List FontCall) : Nat := (cs.filterMap getCall).length

theorem gets_cons (c : FontCall) (cs : List FontCall) : gets (c :: cs) = gets [c] + gets cs := by
  unfold gets
  rw [show c :: cs = [c] ++ cs from rfl, List.filterMap_append, List.length_append]

theorem follows_append {canon : Str → Str} {layers : List Layer} (a b : List FontCall) : ∀ {k : Nat}, Follows canon layers k (a ++ b) →
    Follows canon layers k a ∧ Follows canon layers (k + gets a) b := by
  induction a with
  | nil => exact fun h => ⟨trivial, h⟩
  | cons c a ih =>
    intro k h
    rw [gets_cons, ← Nat.add_assoc]
    cases c with
    | getGlyphSet n b v =>
      obtain ⟨h1, h2⟩ := h
      obtain ⟨h3, h4⟩ := ih h2
      exact ⟨⟨h1, h3⟩, h4⟩
    | set i s =>
      obtain ⟨h1, h2⟩ := h
      obtain ⟨h3, h4⟩ := ih h2
      exact ⟨⟨h1, h3⟩, h4⟩
    | ufo op =>
      obtain ⟨h1, h2⟩ := h
      obtain ⟨h3, h4⟩ := ih h2
      exact ⟨⟨h1, h3⟩, h4⟩

/-- What is in the directory of a layer that was saved. -/
structure SavedIn (G : Glif.Env) (l : Layer) (fs : FS) (d : Str) (gs : GlyphSet.GlyphSet) : Prop where
  opened : GlyphSet.openGlyphSet G.F fs [d] 3 true = .ok gs
  keys : ∀ n, n ∈ GlyphSet.keys gs ↔ n ∈ l.glyphs.map Prod.fst
  wf : Dict.WF gs.contents
  glyphs : ∀ g ∈ l.glyphs, HoldsGlyph G (gs, fs) g
  info : ∃ x, GlyphSet.readLayerInfo G.F (gs, fs) true = .ok x ∧ Spec.LayerInfo.SameInfo (infoObject l.info) x
  settled : SettledIn G l fs gs

theorem SavedIn.congr {G : Glif.Env} {l : Layer} {a b : FS} {d : Str} {gs : GlyphSet.GlyphSet} (hn : ∀ p, a.node? (d :: p) = b.node? (d :: p)) (h : SavedIn G l b d gs) : SavedIn G l a d gs := by
  have hd := (openGlyphSet_dir h.opened).1
  refine ⟨?_, h.keys, h.wf, fun g hg => ?_, ?_, h.settled.version, h.settled.previous, fun g hg => ?_, ?_, ?_⟩
  · rw [Crash.openGlyphSet_congr G.F hn]; exact h.opened
  · obtain ⟨attrs, calls, h1, h2, h3⟩ := h.glyphs g hg
    refine ⟨attrs, calls, ?_, h2, h3⟩
    rw [← h1]
    unfold GlyphSet.readGlyph GlyphSet.getGLIF FS.getbytes
    dsimp only
    rw [hd]
    simp only [List.cons_append, List.nil_append, hn]
  · obtain ⟨x, h1, h2⟩ := h.info
    refine ⟨x, ?_, h2⟩
    rw [← h1]
    unfold GlyphSet.readLayerInfo
    dsimp only
    rw [hd]
    simp only [List.cons_append, List.nil_append]
    rw [getPlist_congr (hn [GlyphSet.layerinfoName])]
  · rw [← h.settled.texts g hg]
    unfold GlyphSet.getGLIF FS.getbytes
    dsimp only
    rw [hd]
    simp only [List.cons_append, List.nil_append, hn]
  · obtain ⟨x, h1, h2⟩ := h.settled.table
    refine ⟨x, h1, ?_⟩
    rw [hd] at h2 ⊢
    exact (hn _).trans h2
  · have := h.settled.info
    rw [hd] at this ⊢
    unfold InfoFile at this ⊢
    rw [show a.node? ([d] ++ [GlyphSet.layerinfoName]) = b.node? ([d] ++ [GlyphSet.layerinfoName]) from hn _]
    exact this

section
variable {L : Casing} (hL : AsciiPrefix L) (hlaw : L.Lawful) (E : FontInfo.Env) {canon : Str → Str} {layers : List Layer} (hok : LayersOK layers)
include hL hlaw hok

theorem progress_step {k : Nat} {f : Font} {c : FontCall} {cs : List FontCall} (h : Progress L canon layers k f) (hk : k ≤ layers.length) (hf : Follows canon layers k (c :: cs)) :
    ∃ k', k' = k + gets [c] ∧ k' ≤ layers.length ∧ Progress L canon layers k' (f.step E L c).1 ∧ Follows canon layers k' cs ∧
      ((∀ op, c ≠ .ufo op) → (∀ i s, c ≠ .set i s) → (f.step E L c).2 = .ok ()) ∧
      (∀ op, c = .ufo op → Harmless f.writer.layers op) ∧
      ∀ i l d, i < k → layers[i]? = some l → OwnsLayer f i l.name d → LeavesLayer i l.name d f c := by
  cases c with
  | getGlyphSet n b v =>
    obtain ⟨⟨l, hl, rfl, rfl⟩, hf⟩ := hf
    obtain ⟨h1, h2, -⟩ := progress_get hL hlaw E h hok hl v
    have := (List.getElem?_eq_some_iff.1 hl).1
    exact ⟨k + 1, rfl, by omega, h2, hf, fun _ _ => h1, (by rintro op ho; cases ho), fun _ _ _ _ _ _ => trivial⟩
  | set i s =>
    obtain ⟨hi, hf⟩ := hf
    obtain ⟨h1, h2⟩ := progress_set hL E h hok.nodup hk i hi s
    exact ⟨k, rfl, hk, h1, hf, fun _ hx => absurd rfl (hx i s), (by rintro op ho; cases ho), h2⟩
  | ufo op =>
    obtain ⟨hs, hf⟩ := hf
    refine ⟨k, rfl, hk, progress_ufo hL E h op hs, hf, fun hx => absurd rfl (hx op), ?_, fun i l d _ _ ho => ?_⟩
    · rintro o ho
      cases ho
      rintro n rfl
      exact absurd rfl (hs c!"glyphs" (.inl rfl) _ (.rename (.inl rfl)))
    · exact .inl (by rw [h.canon_eq]; exact hs d (h.orderly.sound.layered.dirs _ _ ho.layer))

theorem progress_run (cs : List FontCall) : ∀ {k : Nat} {f : Font}, Progress L canon layers k f → k ≤ layers.length → Follows canon layers k cs →
    Progress L canon layers (k + gets cs) (f.run E L cs) ∧ k + gets cs ≤ layers.length := by
  induction cs with
  | nil => exact fun h hk _ => ⟨h, hk⟩
  | cons c cs ih =>
    intro k f h hk hf
    obtain ⟨k', e, hk', h', hf', -⟩ := progress_step hL hlaw E hok h hk hf
    have hg : gets (c :: cs) = gets [c] + gets cs := by
      unfold gets
      rw [show c :: cs = [c] ++ cs from rfl, List.filterMap_append, List.length_append]
    rw [hg, ← Nat.add_assoc, ← e]
    exact ih h' hk' hf'

/-- The other calls leave a layer alone. -/
theorem leaves_run (cs : List FontCall) : ∀ {k : Nat} {f : Font}, Progress L canon layers k f → k ≤ layers.length → Follows canon layers k cs →
    ∀ {i : Nat} {l : Layer} {d : Str}, i < k → layers[i]? = some l → OwnsLayer f i l.name d → LeavesLayerRun E L i l.name d f cs := by
  induction cs with
  | nil => exact fun _ _ _ _ _ _ _ _ _ => leaves_nil
  | cons c cs ih =>
    intro k f h hk hf i l d hi hl ho
    obtain ⟨k', e, hk', h', hf', -, hh, hl'⟩ := progress_step hL hlaw E hok h hk hf
    have h1 := hl' i l d hi hl ho
    exact leaves_cons h1 hh (ih h' hk' hf' (by omega) hl (font_step_layer hL E h.orderly.sound ho c h1 hh).1)

/-- One layer in the whole program. -/
theorem layer_run (hC : Spec.GlyphSet.CaseLaws L.lower) {G : Glif.Env} (hG : Spec.Glif.ReprLaws G) (hGE : G.F = E.F) {src : GlyphSet.World} {i : Nat} {l : Layer} (hl : layers[i]? = some l)
    (hnd : (l.glyphs.map Prod.fst).Nodup) (hload : LoadedFrom G src l.glyphs) (hfit : l.Fits L.lower) (hinfo : GlyphSet.readLayerInfo G.F src true = .ok l.info)
    (cs : List FontCall) : ∀ {k : Nat} {f : Font}, Progress L canon layers k f → k ≤ layers.length → Follows canon layers k cs → k ≤ i → i < k + gets cs →
    cs.filterMap (onSet i) = layerCalls L G l →
    (∀ x ∈ f.outcomes E L i cs, x = .ok ()) ∧ ∃ d gs, OwnsLayer (f.run E L cs) i l.name d ∧ SavedIn G l (f.run E L cs).fs d gs := by
  induction cs with
  | nil => intro k f _ _ _ h1 h2; simp [gets] at h2; omega
  | cons c cs ih =>
    intro k f h hk hf hki hik hon
    obtain ⟨k', e, hk', h', hf', -⟩ := progress_step hL hlaw E hok h hk hf
    rw [gets_cons, ← Nat.add_assoc, ← e] at hik
    have hstep : onSet i c = none → k' ≤ i → (∀ x ∈ f.outcomes E L i (c :: cs), x = .ok ()) ∧ ∃ d gs, OwnsLayer (f.run E L (c :: cs)) i l.name d ∧ SavedIn G l (f.run E L (c :: cs)).fs d gs := by
      intro hc hk2
      rw [outcomes_cons_other E L i f c cs hc]
      refine ih h' hk' hf' hk2 hik ?_
      rw [← hon, List.filterMap_cons_none hc]
    cases c with
    | set j s => exact hstep (by simp only [onSet]; rw [if_neg (by have := hf.1; omega)]) (by rw [e]; exact hki)
    | ufo op => exact hstep rfl (by rw [e]; exact hki)
    | getGlyphSet n b v =>
      rcases Nat.lt_or_ge k i with hlt | hge
      · exact hstep rfl (by rw [e]; simp [gets, getCall]; omega)
      · have hik : i = k := by omega
        subst hik
        obtain ⟨⟨l', hl', rfl, rfl⟩, -⟩ := hf
        rw [hl] at hl'
        cases hl'
        obtain ⟨-, -, d, gs, g1, g2, g3, g4, g5, g6⟩ := progress_get hL hlaw E h hok hl v
        have hon' : cs.filterMap (onSet i) = layerCalls L G l := by rw [← hon, List.filterMap_cons_none rfl]
        have hlr := leaves_run hL hlaw E hok cs h' hk' hf' (by rw [e]; simp [gets, getCall]) hl g1
        obtain ⟨-, r2, -, r4, r5⟩ := font_run_layer hL E cs h'.orderly.sound g1 hlr g2 (Agree.refl _ _)
        rw [hon', ← hGE] at r4 r5
        obtain ⟨s1, gs', s2, s3, s4, s5, s6, s7⟩ := layer_saved hG (asciiCasing_of hL) hC (l := l) (fs := (f.step E L (.getGlyphSet (some l.name) l.default v)).1.fs) (gs := gs)
          h'.orderly.sound.canon g5 g4 (by rw [g3]; exact g1.dir) (by rw [g3]; exact g6) hnd hload hfit hinfo
        rw [outcomes_cons_other E L i f _ cs rfl, r5]
        rw [g3] at s2
        exact ⟨s1, d, gs', r2, SavedIn.congr r4.at ⟨s2, s3, s4, s5, s6, s7⟩⟩

end

/-- The outcome of one call. -/
theorem outcome_at (E : FontInfo.Env) (L : Casing) (i : Nat) (pre : List FontCall) : ∀ {f : Font} {c : GlyphSet.SetCall} {post : List FontCall},
    (∀ x ∈ f.outcomes E L i (pre ++ .set i c :: post), x = .ok ()) → ((f.run E L pre).step E L (.set i c)).2 = .ok () := by
  induction pre with
  | nil =>
    intro f c post h
    rw [List.nil_append, outcomes_cons_own] at h
    exact h _ List.mem_cons_self
  | cons p pre ih =>
    intro f c post h
    refine ih (f := (f.step E L p).1) (post := post) fun x hx => h x ?_
    rw [List.cons_append]
    cases hp : onSet i p with
    | none => rw [outcomes_cons_other E L i f p _ hp]; exact hx
    | some s =>
      cases p with
      | getGlyphSet n b v => cases hp
      | ufo op => cases hp
      | set j t =>
        simp only [onSet] at hp
        split at hp
        · rename_i hj
          subst hj
          rw [outcomes_cons_own]
          exact List.mem_cons_of_mem _ hx
        · cases hp

end Verif.Props
