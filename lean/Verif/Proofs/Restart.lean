import Verif.Proofs.InterruptAgain
import Verif.Proofs.UfoSettled
import Verif.Proofs.UfoCopyRun
import Verif.Proofs.GlyphSetReopen
import Verif.Proofs.Edit
import Verif.Props.Cut
import Verif.Spec.Restart
/-! A program that is started again: the glyph sets. -/
namespace Verif.Filenames
open Verif

theorem clashLoop_congr {L : Casing} {a b : List Str} (h : ∀ x, x ∈ a ↔ x ∈ b) (mk : Nat → Str) : ∀ tries c, clashLoop L a mk tries c = clashLoop L b mk tries c
  | 0, _ => rfl
  | t + 1, c => by
    simp only [clashLoop, h]
    rw [clashLoop_congr h mk t (c + 1)]

theorem handleClash2_congr {L : Casing} {a b : List Str} (h : ∀ x, x ∈ a ↔ x ∈ b) (pre suf : Str) : handleClash2 L a pre suf = handleClash2 L b pre suf := by
  unfold handleClash2
  dsimp only
  generalize max 1 (10 ^ (maxFileNameLength - pre.length - suf.length) - 1 - 1) = N
  rw [clashLoop_congr h]

theorem handleClash1_congr {L : Casing} {a b : List Str} (h : ∀ x, x ∈ a ↔ x ∈ b) (u pre suf : Str) : handleClash1 L u a pre suf = handleClash1 L u b pre suf := by
  unfold handleClash1
  dsimp only
  rw [handleClash2_congr h]
  generalize (999999999999998 : Nat) = N
  rw [clashLoop_congr h]

/-- The file name depends on which names are taken only. -/
theorem userNameToFileName_congr {L : Casing} {a b : List Str} (h : ∀ x, x ∈ a ↔ x ∈ b) (u pre suf : Str) : userNameToFileName L u a pre suf = userNameToFileName L u b pre suf := by
  unfold userNameToFileName
  cases fixLeadingPeriod u pre with
  | error e => rfl
  | ok v =>
    dsimp only
    generalize pySliceTo _ _ = w
    rw [handleClash1_congr h]
    by_cases hm : L.lower (pre ++ fixReserved L w ++ suf) ∈ a
    · rw [if_pos hm, if_pos ((h _).1 hm)]
    · rw [if_neg hm, if_neg (fun hb => hm ((h _).2 hb))]

end Verif.Filenames

namespace Verif.Restart
open Verif Verif.FS Verif.Ufo Verif.IO Verif.GlyphSet Verif.Interrupt Verif.Spec.Interrupt Verif.Spec.Restart Verif.Spec.Plist

/-- What a call makes of a glyph set; it does not depend on the files. -/
def after (L : Casing) (gs : GlyphSet) : SetCall → GlyphSet
  | .glyphs (.write naming n fv _) => match glifVersion gs fv with
    | .error _ => gs
    | .ok _ => (assignFile L naming gs n).1
  | .glyphs .reverse => (getReverseContents L gs).1
  | _ => gs

def afterAll (L : Casing) (gs : GlyphSet) (cs : List SetCall) : GlyphSet := cs.foldl (after L) gs

theorem setStep_after {L : Casing} (F : FloatCodec) (gs : GlyphSet) (fs : FS) {c : SetCall} (h : AddsGlyphs L c) : (setStep L F (gs, fs) c).1.1 = after L gs c := by
  cases h with
  | @write n fv data h =>
    simp only [setStep, GlyphSet.step, writeGlyph, after]
    cases glifVersion gs fv with
    | error e => rfl
    | ok v =>
      dsimp only
      generalize assignFile L (defaultNaming L) gs n = z
      rcases z with ⟨gs', e | f⟩
      · rfl
      · dsimp only
        cases data v <;> rfl
  | reverse => rfl
  | save => rfl
  | layerInfo =>
    simp only [setStep, writeLayerInfo, storeLayerInfo, after]
    repeat' (first | rfl | split)

theorem assignFile_same (L : Casing) (naming : Naming) (gs : GlyphSet) (n : Str) :
    (assignFile L naming gs n).1.dir = gs.dir ∧ (assignFile L naming gs n).1.version = gs.version ∧ (assignFile L naming gs n).1.havePrevious = gs.havePrevious := by
  unfold assignFile
  split
  · exact ⟨rfl, rfl, rfl⟩
  · dsimp only
    split <;> exact ⟨rfl, rfl, rfl⟩

theorem after_same (L : Casing) (gs : GlyphSet) (c : SetCall) : (after L gs c).dir = gs.dir ∧ (after L gs c).version = gs.version ∧ (after L gs c).havePrevious = gs.havePrevious := by
  unfold after
  split
  · split
    · exact ⟨rfl, rfl, rfl⟩
    · exact assignFile_same L _ gs _
  · unfold getReverseContents
    split <;> exact ⟨rfl, rfl, rfl⟩
  · exact ⟨rfl, rfl, rfl⟩

/-- What a call does to the files. -/
def planOf (L : Casing) (F : FloatCodec) (gs : GlyphSet) : SetCall → Plan
  | .glyphs (.write naming n fv data) => match glifVersion gs fv with
    | .error _ => .nothing
    | .ok v => match (assignFile L naming gs n).2 with
      | .error _ => .nothing
      | .ok f => match data v with
        | .error _ => .nothing
        | .ok d => .put (gs.dir ++ [f]) d
  | .glyphs .save => match dumpBytes F (contentsVal gs.contents) with
    | .error _ => .nothing
    | .ok d => .put (gs.dir ++ [contentsName]) d
  | .layerInfo info validate =>
    if gs.version < 3 then .nothing
    else if !(gatherLayerInfo info layerInfoAttrs).isEmpty then
      match (if validate then validateLayerInfo F (gatherLayerInfo info layerInfoAttrs) else .ok ()) with
      | .error _ => .nothing
      | .ok _ => match dumpBytes F (.dict (gatherLayerInfo info layerInfoAttrs)) with
        | .error _ => .nothing
        | .ok d => .put (gs.dir ++ [layerinfoName]) d
    else .drop (gs.dir ++ [layerinfoName])
  | _ => .nothing

theorem writePlist_done (F : FloatCodec) (fs : FS) (p : Path) (v : PyVal) :
    Done fs (match dumpBytes F v with | .error _ => .nothing | .ok d => .put p d) (writePlist F true fs p v).1 := by
  unfold writePlist
  simp only [if_true]
  cases hd : dumpBytes F v with
  | error e => exact .nothing
  | ok d =>
    dsimp only
    split
    · next h => exact .same (unchanged_node h)
    · split
      · next h => exact .cannot (setbytes_error h)
      · next h => exact setbytes_done h

theorem planOf_done {L : Casing} (F : FloatCodec) {gs : GlyphSet} (hp : gs.havePrevious = true) (fs : FS) {c : SetCall} (h : AddsGlyphs L c) :
    Done fs (planOf L F gs c) (setStep L F (gs, fs) c).1.2 := by
  cases h with
  | @write n fv data h =>
    simp only [setStep, GlyphSet.step, writeGlyph, planOf]
    cases glifVersion gs fv with
    | error e => exact .nothing
    | ok v =>
      dsimp only
      have hd := (assignFile_same L (defaultNaming L) gs n).1
      generalize assignFile L (defaultNaming L) gs n = z at hd
      rcases z with ⟨gs', e | f⟩
      · exact .nothing
      · dsimp only at hd ⊢
        cases data v with
        | error e => exact .nothing
        | ok d =>
          rw [hd]
          dsimp only
          unfold GlyphSet.storeGlyph
          split
          · next hu => exact .same (unchanged_node (by simp only [Bool.and_eq_true] at hu; exact hu.2))
          · split
            · next h => exact .cannot (setbytes_error h)
            · next h => exact setbytes_done h
  | reverse => exact .nothing
  | save =>
    simp only [setStep, GlyphSet.step, writeContents, planOf, hp]
    exact writePlist_done F fs _ _
  | @layerInfo info v =>
    simp only [setStep, writeLayerInfo, planOf, storeLayerInfo, hp]
    by_cases hv : gs.version < 3
    · rw [if_pos hv, if_pos hv]; exact .nothing
    · rw [if_neg hv, if_neg hv]
      by_cases he : (!(gatherLayerInfo info layerInfoAttrs).isEmpty) = true
      · simp only [if_pos he]
        generalize (if v then validateLayerInfo F (gatherLayerInfo info layerInfoAttrs) else .ok ()) = z
        cases z with
        | error e => exact .nothing
        | ok _ => exact writePlist_done F fs _ _
      · simp only [if_neg he, Bool.true_and]
        split
        · split
          · next h => exact remove_absent h
          · next h => exact remove_done h
        · next h =>
          refine .absent fun b hb => h ?_
          unfold FS.exists
          rw [hb]; rfl

/-- Glyph sets with the same table, up to the order. -/
structure Level (gs gs' : GlyphSet) : Prop where
  dir : gs'.dir = gs.dir
  version : gs'.version = gs.version
  wf : Dict.WF gs.contents
  wf' : Dict.WF gs'.contents
  cache : CacheOk gs
  cache' : CacheOk gs'
  same : Dict.Equiv gs.contents gs'.contents

theorem equiv_dump (F : FloatCodec) {t t' : Dict Str Str} (h : Dict.WF t) (h' : Dict.WF t') (he : Dict.Equiv t t') : dumpBytes F (contentsVal t') = dumpBytes F (contentsVal t) := by
  refine Props.same_dumpBytes F (wellFormed_strings t h) (.dict _ _ (Plist.sameItems_of_perm ?_))
  exact (perm_of_get? h h' he).map _

theorem taken {L : Casing} {gs : GlyphSet} (hw : Dict.WF gs.contents) (hc : CacheOk gs) (f : Str) :
    f ∈ Dict.keys (gs.existing.getD (existingOf L gs.contents)) ↔ ∃ n, Dict.get? gs.contents n = some f := by
  cases he : gs.existing with
  | none => exact mem_existingOf hw
  | some ex => exact hc ex he f

/-- The same file is found or chosen. -/
theorem assignFile_level {L : Casing} {gs gs' : GlyphSet} (h : Level gs gs') (n : Str) :
    (assignFile L (defaultNaming L) gs' n).2 = (assignFile L (defaultNaming L) gs n).2 ∧ Level (assignFile L (defaultNaming L) gs n).1 (assignFile L (defaultNaming L) gs' n).1 := by
  have hex : defaultNaming L n (gs'.existing.getD (existingOf L gs'.contents)) = defaultNaming L n (gs.existing.getD (existingOf L gs.contents)) := by
    unfold defaultNaming
    refine Filenames.userNameToFileName_congr (fun f => ?_) _ _ _
    rw [taken h.wf' h.cache', taken h.wf h.cache]
    simp only [h.same _]
  have key : (assignFile L (defaultNaming L) gs' n).2 = (assignFile L (defaultNaming L) gs n).2 ∧
      Dict.Equiv (assignFile L (defaultNaming L) gs n).1.contents (assignFile L (defaultNaming L) gs' n).1.contents := by
    unfold assignFile
    rw [← h.same n]
    cases Dict.get? gs.contents n with
    | some f => exact ⟨rfl, h.same⟩
    | none =>
      dsimp only
      rw [hex]
      cases defaultNaming L n (gs.existing.getD (existingOf L gs.contents)) with
      | error e => exact ⟨rfl, h.same⟩
      | ok f =>
        refine ⟨rfl, fun k => ?_⟩
        dsimp only
        by_cases hk : k = n
        · subst hk; rw [Dict.get?_set_self, Dict.get?_set_self]
        · rw [Dict.get?_set_ne _ _ (fun e => hk e.symm), Dict.get?_set_ne _ _ (fun e => hk e.symm)]; exact h.same k
  obtain ⟨a1, a2⟩ := assignFile_cache (L := L) (naming := defaultNaming L) n h.wf h.cache
  obtain ⟨b1, b2⟩ := assignFile_cache (L := L) (naming := defaultNaming L) n h.wf' h.cache'
  obtain ⟨c1, c2, -⟩ := assignFile_same L (defaultNaming L) gs n
  obtain ⟨d1, d2, -⟩ := assignFile_same L (defaultNaming L) gs' n
  exact ⟨key.1, ⟨by rw [c1, d1, h.dir], by rw [c2, d2, h.version], a1, b1, a2, b2, key.2⟩⟩

theorem glifVersion_congr {gs gs' : GlyphSet} (h : gs'.version = gs.version) (fv : Option Int) : glifVersion gs' fv = glifVersion gs fv := by
  unfold glifVersion
  rw [h]

theorem reverse_level {L : Casing} {gs gs' : GlyphSet} (h : Level gs gs') : Level (getReverseContents L gs).1 gs' ∧ Level gs (getReverseContents L gs').1 := by
  unfold getReverseContents
  constructor
  · split
    · exact h
    · exact ⟨h.dir, h.version, h.wf, h.wf', h.cache, h.cache', h.same⟩
  · split
    · exact h
    · exact ⟨h.dir, h.version, h.wf, h.wf', h.cache, h.cache', h.same⟩

theorem level_step {L : Casing} (F : FloatCodec) {gs gs' : GlyphSet} (h : Level gs gs') {c : SetCall} (hc : AddsGlyphs L c) :
    Level (after L gs c) (after L gs' c) ∧ planOf L F gs' c = planOf L F gs c := by
  cases hc with
  | @write n fv data ht =>
    obtain ⟨h1, h2⟩ := assignFile_level (L := L) h n
    simp only [after, planOf, glifVersion_congr h.version, h1, h.dir]
    cases glifVersion gs fv with
    | error e => exact ⟨h, trivial⟩
    | ok v => exact ⟨h2, trivial⟩
  | reverse => exact ⟨(reverse_level (reverse_level h).1).2, rfl⟩
  | save => exact ⟨h, by simp only [planOf, equiv_dump F h.wf h.wf' h.same, h.dir]⟩
  | layerInfo => exact ⟨h, by simp only [planOf, h.dir, h.version]⟩

/-- The names of the glyphs that are written can be given file names. -/
def Named (L : Casing) : GlyphSet → List SetCall → Prop
  | _, [] => True
  | gs, c :: cs => (∀ naming n fv data, c = .glyphs (.write naming n fv data) → (∃ v, glifVersion gs fv = .ok v) ∧ ∃ f, (assignFile L naming gs n).2 = .ok f) ∧ Named L (after L gs c) cs

/-- The table of `gs'` is the one that `gs` will have at some later time when it is saved. -/
def Ahead (L : Casing) (gs gs' : GlyphSet) (cs : List SetCall) : Prop :=
  ∃ pre post, cs = pre ++ .glyphs .save :: post ∧ Level (afterAll L gs pre) gs'

theorem after_keeps {L : Casing} {gs : GlyphSet} {c : SetCall} {n f : Str} (h : Dict.get? gs.contents n = some f) : Dict.get? (after L gs c).contents n = some f := by
  unfold after
  split
  · split
    · exact h
    · unfold assignFile
      split
      · exact h
      · next hn =>
        dsimp only
        split
        · exact h
        · dsimp only
          rw [Dict.get?_set_ne _ _ (fun e => by subst e; rw [h] at hn; cases hn)]
          exact h
  · unfold getReverseContents
    split <;> exact h
  · exact h

theorem afterAll_keeps {L : Casing} : ∀ (cs : List SetCall) {gs : GlyphSet} {n f : Str}, Dict.get? gs.contents n = some f → Dict.get? (afterAll L gs cs).contents n = some f
  | [], _, _, _, h => h
  | c :: cs, _, _, _, h => afterAll_keeps cs (gs := after L _ c) (after_keeps h)

theorem assignFile_found {L : Casing} {naming : Naming} {gs : GlyphSet} {n f : Str} (h : (assignFile L naming gs n).2 = .ok f) : Dict.get? (assignFile L naming gs n).1.contents n = some f := by
  unfold assignFile at h ⊢
  split
  · next hn => rw [hn] at h; cases h; exact hn
  · next hn =>
    rw [hn] at h
    dsimp only at h ⊢
    split at h
    · cases h
    · next hf => cases h; exact Dict.get?_set_self _ _ _

/-- The two programs: the second is level with the first or ahead of it. -/
def Follows (L : Casing) (gs gs' : GlyphSet) (cs : List SetCall) : Prop := Level gs gs' ∨ Ahead L gs gs' cs

theorem afterAll_dir (L : Casing) : ∀ (cs : List SetCall) (gs : GlyphSet), (afterAll L gs cs).dir = gs.dir ∧ (afterAll L gs cs).version = gs.version
  | [], _ => ⟨rfl, rfl⟩
  | c :: cs, gs => by
    obtain ⟨h1, h2⟩ := afterAll_dir L cs (after L gs c)
    obtain ⟨h3, h4, -⟩ := after_same L gs c
    exact ⟨h1.trans h3, h2.trans h4⟩

theorem follows_step {L : Casing} (F : FloatCodec) {gs gs' : GlyphSet} {c : SetCall} {cs : List SetCall} (h : Follows L gs gs' (c :: cs)) (hc : AddsGlyphs L c) (hn : Named L gs (c :: cs)) :
    Follows L (after L gs c) (after L gs' c) cs ∧ (planOf L F gs' c = planOf L F gs c ∨ (c = .glyphs .save ∧ .glyphs .save ∈ cs)) := by
  rcases h with h | ⟨pre, post, he, h⟩
  · obtain ⟨h1, h2⟩ := level_step F h hc
    exact ⟨.inl h1, .inl h2⟩
  · cases pre with
    | nil =>
      cases he
      obtain ⟨h1, h2⟩ := level_step F (L := L) (gs := gs) h .save
      exact ⟨.inl h1, .inl h2⟩
    | cons c' pre =>
      obtain ⟨rfl, rfl⟩ : c = c' ∧ cs = pre ++ .glyphs .save :: post := by cases he; exact ⟨rfl, rfl⟩
      have h' : Level (afterAll L (after L gs c) pre) gs' := h
      obtain ⟨d1, d2⟩ := afterAll_dir L pre (after L gs c)
      obtain ⟨d3, d4, -⟩ := after_same L gs c
      have hdir : gs'.dir = gs.dir := by rw [h'.dir, d1, d3]
      have hver : gs'.version = gs.version := by rw [h'.version, d2, d4]
      cases hc with
      | @write n fv data ht =>
        obtain ⟨⟨v, hv⟩, f, hf⟩ := hn.1 _ _ _ _ rfl
        have hget : Dict.get? gs'.contents n = some f := by
          rw [← h'.same n]
          refine afterAll_keeps pre ?_
          simp only [after, hv]
          exact assignFile_found hf
        have hass : assignFile L (defaultNaming L) gs' n = (gs', .ok f) := by
          unfold assignFile
          rw [hget]
        have haft : after L gs' (.glyphs (.write (defaultNaming L) n fv data)) = gs' := by
          simp only [after, glifVersion_congr hver, hv, hass]
        refine ⟨.inr ⟨pre, post, rfl, ?_⟩, .inl ?_⟩
        · rw [haft]; exact h'
        · simp only [planOf, glifVersion_congr hver, hv, hass, hf, hdir]
      | reverse => exact ⟨.inr ⟨pre, post, rfl, (reverse_level h').2⟩, .inl rfl⟩
      | save => exact ⟨.inr ⟨pre, post, rfl, h'⟩, .inr ⟨rfl, by simp⟩⟩
      | layerInfo => exact ⟨.inr ⟨pre, post, rfl, h'⟩, .inl (by simp only [planOf, hdir, hver])⟩

/-! ### plans -/

/-- The plans of the two programs: where they differ, the same file is written once more later. -/
inductive Matches : List Plan → List Plan → Prop
  | nil : Matches [] []
  | same {p ps ps'} (h : Matches ps ps') : Matches (p :: ps) (p :: ps')
  | later {P d d' d'' ps ps'} (hl : Plan.put P d'' ∈ ps) (h : Matches ps ps') : Matches (.put P d :: ps) (.put P d' :: ps')

theorem apart_symm {K : Path → Prop} {a b : FS} (h : Apart K a b) : Apart K b a := by
  refine ⟨h.canon.symm, fun q => ?_⟩
  have hk : b.key q = a.key q := by unfold FS.key; rw [h.canon]
  rcases h.node q with e | ⟨h1, h2, h3⟩
  · exact .inl e.symm
  · exact .inr ⟨hk ▸ h1, h3, h2⟩

theorem runs_matches {ps ps' : List Plan} (hm : Matches ps ps') : ∀ {a a' b b' : FS} {K : Path → Prop}, Runs ps a a' → Runs ps' b b' → Apart K a b → (∀ k, K k → TouchedBy a ps k) → ∀ q, b'.node? q = a'.node? q := by
  induction hm with
  | nil =>
    intro a a' b b' K ha hb hK ht q
    cases ha; cases hb
    rcases hK.node q with e | ⟨h, -⟩
    · exact e
    · obtain ⟨pl, hp, -⟩ := ht _ h; cases hp
  | @same p ps ps' h ih =>
    intro a a' b b' K ha hb hK ht
    cases ha with
    | cons da ra => cases hb with
      | cons db rb =>
        refine ih ra rb (done_both hK da db) fun k hk => ?_
        obtain ⟨pl, hp, htp⟩ := ht k hk.1
        rcases List.mem_cons.1 hp with rfl | hp
        · exact absurd htp hk.2
        · exact ⟨pl, hp, ((done_apart da).dirs.touches _ _).2 htp⟩
  | @later P d d' d'' ps ps' hl h ih =>
    intro a a' b b' K ha hb hK ht
    cases ha with
    | cons da ra => cases hb with
      | cons db rb =>
        have h1 := done_apart da
        have h2 := done_apart db
        have h3 : Apart (fun k => K k ∨ Touches a (.put P d) k) _ _ :=
          ((apart_symm h1).mono fun k hk => .inr hk).trans ((hK.mono fun k hk => .inl hk).trans (h2.mono fun k hk => .inr ((hK.dirs.touches (.put P d') k).1 hk)))
        refine ih ra rb h3 fun k hk => ?_
        have key : Touches a (.put P d'') k → TouchedBy _ ps k := fun h => ⟨_, hl, (h1.dirs.touches _ _).2 h⟩
        rcases hk with hk | hk
        · obtain ⟨pl, hp, htp⟩ := ht k hk
          rcases List.mem_cons.1 hp with rfl | hp
          · exact key htp
          · exact ⟨pl, hp, (h1.dirs.touches _ _).2 htp⟩
        · exact key hk

end Verif.Restart
