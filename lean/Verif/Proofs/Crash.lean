import Verif.Proofs.UfoFrame
import Verif.Proofs.UfoData
import Verif.Proofs.UfoOpen
import Verif.Spec.Crash
/-! What can have changed when a process stops in the middle of a call. -/
namespace Verif.Crash
open Verif Verif.FS Verif.Ufo Verif.Spec.FS Verif.Spec.Ufo Verif.Spec.Crash

theorem halfway_frame {nodes nodes' : Dict Path Node} {a : Prim} (h : Halfway nodes a nodes') (k : Path) (hk : ∀ p ∈ a.paths, ¬ p <+: k) :
    Dict.get? nodes' k = Dict.get? nodes k := by
  cases h with
  | write _ rest => exact rest k fun e => hk k (by simp [Prim.paths, e]) (List.prefix_refl _)
  | rmtree _ rest => exact rest k (hk _ (by simp [Prim.paths]))
  | move rest => exact rest k (hk _ (by simp [Prim.paths])) (hk _ (by simp [Prim.paths]))

theorem performAll_log (fs : FS) (acts : List Prim) : (performAll fs acts).log = fs.log ++ acts := by
  induction acts generalizing fs with
  | nil => simp [performAll]
  | cons a acts ih =>
    show (performAll (fs.perform a) acts).log = _
    rw [ih]; simp [FS.perform]

theorem performAll_canon (fs : FS) (acts : List Prim) : (performAll fs acts).canon = fs.canon :=
  Acts.canon (P := fun _ => True) ⟨acts, rfl, by simp⟩

/-- The mutations between two states are those of the log. -/
theorem stoppedBetween_acts {P : Path → Prop} {fs fs' left : FS} (h : Acts P fs fs') (hs : StoppedBetween fs fs' left) :
    ∃ acts, fs' = performAll fs acts ∧ (∀ a ∈ acts, ∀ p ∈ a.paths, P p) ∧ StoppedIn fs acts left := by
  obtain ⟨l, rfl, hl⟩ := h
  obtain ⟨acts, h1, h2⟩ := hs
  rw [performAll_log, List.append_cancel_left_eq] at h1
  subst h1
  exact ⟨l, rfl, hl, h2⟩

theorem stopped_canon {fs left : FS} {acts : List Prim} (h : StoppedIn fs acts left) : left.canon = fs.canon := by
  cases h with
  | between k => exact performAll_canon _ _
  | during k h hc hn => exact hc

theorem stopped_get? {P : Path → Prop} {fs fs' left : FS} (h : Acts P fs fs') (hs : StoppedBetween fs fs' left) (k : Path)
    (hk : ∀ p, P p → ¬ p <+: k) : Dict.get? left.nodes k = Dict.get? fs.nodes k := by
  obtain ⟨acts, -, hl, hst⟩ := stoppedBetween_acts h hs
  have htake : ∀ n, Dict.get? (performAll fs (acts.take n)).nodes k = Dict.get? fs.nodes k := fun n =>
    Acts.get? (P := P) ⟨acts.take n, rfl, fun a ha => hl a (List.mem_of_mem_take ha)⟩ k hk
  cases hst with
  | between n => exact htake n
  | during n h hc hn => exact (halfway_frame hn k fun p hp => hk p (hl _ (List.mem_of_getElem? h) p hp)).trans (htake n)

theorem stopped_node? {P : Path → Prop} {fs fs' left : FS} (h : Acts P fs fs') (hs : StoppedBetween fs fs' left) (q : Path)
    (hq : ∀ p, P p → ¬ p <+: fs.key q) : left.node? q = fs.node? q := by
  have hc : left.canon = fs.canon := by
    obtain ⟨acts, -, -, hst⟩ := stoppedBetween_acts h hs
    exact stopped_canon hst
  unfold FS.node? FS.key
  rw [hc]
  split
  · rfl
  · exact stopped_get? h hs _ hq

/-- Directories are only ever made. -/
theorem stopped_mkdirs {fs fs' left : FS} (h : ∃ acts, fs' = performAll fs acts ∧ ∀ a ∈ acts, ∃ p, a = .mkdir p) (hs : StoppedBetween fs fs' left)
    (k : Path) (hk : (Dict.get? fs.nodes k).isSome) : (Dict.get? left.nodes k).isSome := by
  obtain ⟨l, rfl, hl⟩ := h
  obtain ⟨acts, h1, h2⟩ := hs
  rw [performAll_log, List.append_cancel_left_eq] at h1
  subst h1
  have htake : ∀ (m : List Prim) (fs : FS), (∀ a ∈ m, ∃ p, a = .mkdir p) → (Dict.get? fs.nodes k).isSome → (Dict.get? (performAll fs m).nodes k).isSome := by
    intro m
    induction m with
    | nil => exact fun _ _ h => h
    | cons a m ih =>
      intro fs hm hf
      refine ih (fs.perform a) (fun b hb => hm b (by simp [hb])) ?_
      obtain ⟨p, rfl⟩ := hm a (by simp)
      show (Dict.get? (Dict.set fs.nodes p .dir) k).isSome
      rw [Dict.get?_set]
      split
      · rfl
      · exact hf
  cases h2 with
  | between n => exact htake _ _ (fun a ha => hl a (List.mem_of_mem_take ha)) hk
  | during n h hc hn =>
    obtain ⟨p, rfl⟩ := hl _ (List.mem_of_getElem? h)
    cases hn

/-- Obtaining a glyph set does nothing but make a directory. -/
theorem getGlyphSet_mkdirs (L : Casing) (F : FloatCodec) (w : World) (n : Option Str) (d v : Bool) :
    ∃ acts, (getGlyphSet L F w n d v).1.2 = performAll w.2 acts ∧ ∀ a ∈ acts, ∃ p, a = .mkdir p := by
  have hmk : ∀ {fs fs' : FS} {p : Path}, fs.makedir p = .ok fs' → ∃ acts, fs' = performAll fs acts ∧ ∀ a ∈ acts, ∃ p, a = .mkdir p := by
    intro fs fs' p h
    unfold FS.makedir at h
    split at h
    · cases h; exact ⟨[], rfl, by simp⟩
    · cases h
    · split at h
      · cases h
      · cases h
      · cases h; exact ⟨[_], rfl, by simp⟩
  have hnil : ∃ acts, w.2 = performAll w.2 acts ∧ ∀ a ∈ acts, ∃ p, a = .mkdir p := ⟨[], rfl, by simp⟩
  unfold getGlyphSet getGlyphSet12 getGlyphSet3
  repeat' split
  all_goals first
    | exact hnil
    | (rename_i h; exact hmk h)
    | (rename_i h _; exact hmk h)

/-- The file systems agree below an entry that the call is not about. -/
theorem stopped_entry {E : FontInfo.Env} {L : Casing} {w : World} (hl : Layered w.1) {op : Op} {left : FS}
    (hs : StoppedBetween w.2 (step E L w op).1.2 left) {c : Str} (hc : Spares w.2.canon c op) (p : Path) : left.node? (c :: p) = w.2.node? (c :: p) := by
  obtain ⟨-, -, -, ha⟩ := step_spec E L w hl op
  refine stopped_node? ha hs _ ?_
  rintro k hk ⟨t, ht⟩
  rcases hk with ⟨d, r, hd, rfl⟩ | h
  · simp only [FS.key, List.map_cons, List.cons_append, List.cons.injEq] at ht
    exact hc d hd ht.1
  · exact hc c (h c) rfl

theorem openGlyphSet_congr (F : FloatCodec) {a b : FS} {d : Str} (h : ∀ p, a.node? (d :: p) = b.node? (d :: p)) (version : Nat) (validate : Bool) :
    GlyphSet.openGlyphSet F a [d] version validate = GlyphSet.openGlyphSet F b [d] version validate := by
  unfold GlyphSet.openGlyphSet GlyphSet.rebuildContents GlyphSet.checkContents FS.exists
  simp only [List.cons_append, h, getPlist_congr (F := F) (h [GlyphSet.contentsName]), List.nil_append]

/-- The directories of layers are still there. -/
theorem stopped_layerDir {E : FontInfo.Env} {L : Casing} {w : World} (hl : Layered w.1) {op : Op} {left : FS}
    (hs : StoppedBetween w.2 (step E L w op).1.2 left) (hk : KeepsLayers w.2.canon op) {d : Str} (hd : GlyphsDir d) (he : w.2.exists [d] = true) :
    left.exists [d] = true := by
  have hshort : ∀ {dir : Path}, dir ≠ [] → Acts (fun k => ∃ f, k = w.2.key (dir ++ [f])) w.2 (step E L w op).1.2 → left.exists [d] = true := by
    intro dir hdir ha
    unfold FS.exists at he ⊢
    rw [stopped_node? ha hs [d], he]
    rintro k ⟨f, rfl⟩ hp
    have := hp.length_le
    simp only [FS.key, List.length_map, List.length_append, List.length_cons, List.length_nil] at this
    exact hdir (List.eq_nil_of_length_eq_zero (by omega))
  cases hk with
  | aside table dirs =>
    unfold FS.exists at he ⊢
    rw [stopped_entry hl hs (dirs d hd) [], he]
  | within h table =>
    cases h with
    | @glyph gs o hdir => exact hshort hdir (GlyphSet.step_acts L E.F (gs, w.2) o)
    | @layerInfo gs i v hdir => exact hshort hdir ((GlyphSet.writeLayerInfo_frame E.F (gs, w.2) i v).2.mono fun k hk => ⟨_, hk⟩)
  | @glyphSet n b v table =>
    have hc : left.canon = w.2.canon := by
      obtain ⟨-, -, -, ha⟩ := step_spec E L w hl (.glyphSet n b v)
      obtain ⟨acts, -, -, hst⟩ := stoppedBetween_acts ha hs
      exact stopped_canon hst
    have := stopped_mkdirs (getGlyphSet_mkdirs L E.F w n b v) hs (w.2.key [d])
    unfold FS.exists FS.node? at he ⊢
    rw [if_neg (by simp)] at he ⊢
    unfold FS.key at he this ⊢
    rw [hc]
    exact this he

theorem layerTable_mono {f g : Str → Except Exc Bool} {t : List (Str × Str)} (h : Spec.Validators.LayerTable f t)
    (hg : ∀ d, GlyphsDir d → f d = .ok true → g d = .ok true) : Spec.Validators.LayerTable g t :=
  ⟨h.names, h.dirs, h.named, h.dirNames, fun p hp => hg p.2 (h.dirNames p hp) (h.exist p hp), h.default, h.publicName⟩

/-- The table of layers can be read as before. -/
theorem readLayerTable_mono {F : FloatCodec} {a b : FS} (hn : b.node? [layercontentsName] = a.node? [layercontentsName])
    (hd : ∀ d, GlyphsDir d → a.exists [d] = true → b.exists [d] = true) {validate : Bool} {t : List (Str × Str)}
    (h : readLayerTable F a validate = .ok t) : readLayerTable F b validate = .ok t := by
  unfold readLayerTable at h ⊢
  rw [getPlist_congr hn]
  cases hp : IO.getPlist F a [layercontentsName] none with
  | error e => rw [hp] at h; cases h
  | ok v =>
    rw [hp] at h
    dsimp only at h ⊢
    cases validate with
    | false => exact h
    | true =>
      simp only [if_true] at h ⊢
      have hv : Validators.layerContentsValidator (dirExists a) v = .ok true := by
        cases hx : Validators.layerContentsValidator (dirExists a) v with
        | error e => rw [hx] at h; cases h
        | ok x =>
          rw [hx] at h
          cases x with
          | false => cases h
          | true => rfl
      obtain ⟨t', rfl, ht⟩ := Validators.layerContents_iff.1 hv
      have hv' : Validators.layerContentsValidator (dirExists b) (.list (Validators.tableVal t')) = .ok true := by
        refine Validators.layerContents_iff.2 ⟨t', rfl, layerTable_mono ht fun d hd' he => ?_⟩
        simp only [dirExists, Except.ok.injEq] at he ⊢
        exact hd d hd' he
      rw [hv] at h
      rw [hv']
      exact h

end Verif.Crash
