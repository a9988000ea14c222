import Verif.Proofs.CrashGlyphs
import Verif.Spec.Interrupt
/-! What is left when a process stops in the middle of a call that writes or removes one file. -/
namespace Verif.Interrupt
open Verif Verif.FS Verif.Ufo Verif.Spec.FS Verif.Spec.Cut Verif.Spec.Interrupt Verif.IO

/-- Mutations of one go: a file is written, or emptied and then written, or removed, or a directory is made. -/
inductive One (fs : FS) : FS → Prop
  | nothing : One fs fs
  | write (p d) : One fs (fs.perform (.write p d))
  | twice (p d) : One fs ((fs.perform (.write p [])).perform (.write p d))
  | remove (p) : One fs (fs.perform (.remove p))
  | mkdir (p) : One fs (fs.perform (.mkdir p))

theorem oneCut_refl (fs : FS) : OneCut fs fs := ⟨rfl, [], fun _ => .inl rfl⟩

theorem OneCut.cutOff {fs left : FS} (h : OneCut fs left) : CutOff fs left := by
  obtain ⟨hc, k, hk⟩ := h
  exact ⟨hc, fun p => (hk p).imp id fun h => h.2⟩

theorem oneCut_write (fs : FS) (p : Path) (d : Bytes) (j : Nat) : OneCut (fs.perform (.write p d)) (fs.perform (.write p (d.take j))) := by
  refine ⟨rfl, p, fun q => ?_⟩
  unfold FS.node? FS.perform Prim.apply FS.key
  dsimp only
  by_cases hq : q = []
  · left; rw [if_pos hq, if_pos hq]
  · rw [if_neg hq, if_neg hq, Dict.get?_set, Dict.get?_set]
    by_cases he : List.map fs.canon q = p
    · right; exact ⟨he, d, j, by simp [he], by simp [he]⟩
    · left; rw [if_neg (fun e => he e.symm), if_neg (fun e => he e.symm)]

theorem perform_twice (fs : FS) (p : Path) (d e : Bytes) (q : Path) : ((fs.perform (.write p d)).perform (.write p e)).node? q = (fs.perform (.write p e)).node? q := by
  unfold FS.node? FS.perform Prim.apply FS.key
  dsimp only
  split
  · rfl
  · rw [Dict.get?_set, Dict.get?_set, Dict.get?_set]; split <;> rfl

theorem oneCut_congr {fs left fs' left' : FS} (h : OneCut fs left) (hc : fs'.canon = fs.canon) (hc' : left'.canon = left.canon)
    (hn : ∀ q, fs'.node? q = fs.node? q) (hn' : ∀ q, left'.node? q = left.node? q) : OneCut fs' left' := by
  obtain ⟨h1, k, h2⟩ := h
  refine ⟨by rw [hc, hc', h1], k, fun p => ?_⟩
  rw [hn, hn']
  unfold FS.key
  rw [hc]
  exact h2 p

/-- Whatever is left is as before, or as afterwards but for the file that is being written. -/
theorem one_stopped {fs fs' left : FS} (h : One fs fs') (hs : StoppedBetween fs fs' left) : left = fs ∨ OneCut fs' left := by
  obtain ⟨acts, h1, h2⟩ := hs
  cases h with
  | nothing =>
    have : acts = [] := by simpa using h1
    subst this
    cases h2 with
    | between k => left; simp [performAll]
    | writing k j h => simp at h
    | during k h => simp at h
  | write p d =>
    have : acts = [.write p d] := by simpa [FS.perform] using h1.symm
    subst this
    cases h2 with
    | between k =>
      rcases k with - | k
      · left; rfl
      · right; simpa [performAll] using oneCut_refl _
    | writing k j h =>
      rcases k with - | k
      · simp only [List.getElem?_cons_zero, Option.some.injEq, Prim.write.injEq] at h
        obtain ⟨rfl, rfl⟩ := h
        right; exact oneCut_write _ _ _ _
      · simp at h
    | during k h hw =>
      rcases k with - | k
      · simp only [List.getElem?_cons_zero, Option.some.injEq] at h
        exact absurd h.symm (hw _ _)
      · simp at h
  | twice p d =>
    have : acts = [.write p [], .write p d] := by simpa [FS.perform] using h1.symm
    subst this
    have key : ∀ j, OneCut ((fs.perform (.write p [])).perform (.write p d)) (fs.perform (.write p (d.take j))) := fun j =>
      oneCut_congr (oneCut_write fs p d j) rfl rfl (fun q => perform_twice _ _ _ _ _) (fun q => rfl)
    cases h2 with
    | between k =>
      rcases k with - | - | k
      · left; rfl
      · right; exact key 0
      · right; simpa [performAll] using oneCut_refl _
    | writing k j h =>
      rcases k with - | - | k
      · simp only [List.getElem?_cons_zero, Option.some.injEq, Prim.write.injEq] at h
        obtain ⟨rfl, rfl⟩ := h
        right; simpa [performAll] using key 0
      · simp only [List.getElem?_cons_succ, List.getElem?_cons_zero, Option.some.injEq, Prim.write.injEq] at h
        obtain ⟨rfl, rfl⟩ := h
        right; exact oneCut_write _ _ _ _
      · simp at h
    | during k h hw =>
      rcases k with - | - | k
      · simp only [List.getElem?_cons_zero, Option.some.injEq] at h
        exact absurd h.symm (hw _ _)
      · simp only [List.getElem?_cons_succ, List.getElem?_cons_zero, Option.some.injEq] at h
        exact absurd h.symm (hw _ _)
      · simp at h
  | remove p =>
    have : acts = [.remove p] := by simpa [FS.perform] using h1.symm
    subst this
    cases h2 with
    | between k =>
      rcases k with - | k
      · left; rfl
      · right; simpa [performAll] using oneCut_refl _
    | writing k j h => rcases k with - | k <;> simp at h
    | during k h hw hc hn =>
      rcases k with - | k
      · simp only [List.getElem?_cons_zero, Option.some.injEq] at h
        subst h; cases hn
      · simp at h
  | mkdir p =>
    have : acts = [.mkdir p] := by simpa [FS.perform] using h1.symm
    subst this
    cases h2 with
    | between k =>
      rcases k with - | k
      · left; rfl
      · right; simpa [performAll] using oneCut_refl _
    | writing k j h => rcases k with - | k <;> simp at h
    | during k h hw hc hn =>
      rcases k with - | k
      · simp only [List.getElem?_cons_zero, Option.some.injEq] at h
        subst h; cases hn
      · simp at h

theorem setbytes_one {fs fs' : FS} {p : Path} {d : Bytes} (h : fs.setbytes p d = .ok fs') : One fs fs' := by
  obtain ⟨rfl, -⟩ := setbytes_ok h
  exact .write _ _

theorem remove_one {fs fs' : FS} {p : Path} (h : fs.remove p = .ok fs') : One fs fs' := by
  obtain ⟨rfl, -⟩ := remove_ok h
  exact .remove _

theorem makedir_one {fs fs' : FS} {p : Path} (h : fs.makedir p = .ok fs') : One fs fs' := by
  unfold FS.makedir at h
  split at h
  · cases h; exact .nothing
  · cases h
  · split at h
    · cases h
    · cases h
    · cases h; exact .mkdir _

theorem writePlist_one (F : FloatCodec) (hp : Bool) (fs : FS) (p : Path) (v : PyVal) : One fs (writePlist F hp fs p v).1 := by
  unfold writePlist
  cases hp
  · simp only [Bool.false_eq_true, if_false]
    split
    · exact .nothing
    · next fs1 h1 =>
      split
      · exact setbytes_one h1
      · split
        · exact setbytes_one h1
        · next fs2 h2 =>
          obtain ⟨rfl, -⟩ := setbytes_ok h1
          obtain ⟨rfl, -⟩ := setbytes_ok h2
          exact .twice _ _
  · simp only [if_true]
    split
    · exact .nothing
    · split
      · exact .nothing
      · split
        · exact .nothing
        · next h1 => exact setbytes_one h1

theorem removePath_one {fs : FS} {p : Path} (hd : fs.node? p ≠ some .dir) (force : Bool) : One fs (removePath fs p force false).1 := by
  have h : One fs (removeNode fs p force).1 := by
    unfold removeNode
    split
    · next h => exact remove_one h
    · next h =>
      unfold FS.remove at h
      split at h
      · cases h
      · next h' => exact absurd h' hd
      · cases h
    · split <;> exact .nothing
    · exact .nothing
  unfold removePath
  split
  · next hr => rw [hr] at h; exact h
  · next hr => rw [hr] at h; exact h

theorem writeOrRemove_one (F : FloatCodec) (w : World) (name : Str) (hd : w.2.node? [name] ≠ some .dir) (empty : Bool) (v : PyVal) :
    One w.2 (writeOrRemove F w name empty v).1.2 := by
  unfold writeOrRemove
  split
  · exact writePlist_one _ _ _ _ _
  · split
    · exact removePath_one hd _
    · exact .nothing

theorem writeBytesToPath_one {fs : FS} {p : Path} (hd : fs.node? p.dropLast = some .dir) (hp : Bool) (d : Bytes) : One fs (writeBytesToPath hp fs p d).1 := by
  unfold writeBytesToPath
  split
  · exact .nothing
  · split
    · next h => exact setbytes_one h
    · exact .nothing
    · next h =>
      unfold FS.setbytes at h
      rw [hd] at h
      dsimp only at h
      split at h <;> cases h
    · exact .nothing

theorem getGlyphSet_one (L : Casing) (F : FloatCodec) (w : World) (n : Option Str) (d v : Bool) : One w.2 (getGlyphSet L F w n d v).1.2 := by
  unfold getGlyphSet getGlyphSet12 getGlyphSet3
  repeat' split
  all_goals first
    | exact .nothing
    | (rename_i h; exact makedir_one h)
    | (rename_i h _; exact makedir_one h)

theorem copyImage_one {src : FS} {w : World} {n m : Str} {d : Bytes} (hd : w.2.node? [imagesName] = some .dir) (hs : src.node? [imagesName, n] = some (.file d)) :
    One w.2 (copyImageFromReader src w n m).1.2 := by
  have hm : w.2.makedirs [imagesName] = .ok w.2 := by
    unfold FS.makedirs FS.makedirsFrom
    have : w.2.makedir ([] ++ [imagesName]) = .ok w.2 := by
      unfold FS.makedir
      rw [List.nil_append, hd]
    rw [this]
    rfl
  unfold copyImageFromReader
  split
  · exact .nothing
  · dsimp only
    unfold copyFromReader
    split
    · exact .nothing
    · split
      · exact .nothing
      · rw [show ([imagesName, m] : Path).dropLast = [imagesName] from rfl, hm, hs]
        dsimp only
        split
        · exact .nothing
        · next h => exact setbytes_one h

theorem glyphs_one (L : Casing) (F : FloatCodec) (w : GlyphSet.World) (op : GlyphSet.Op) : One w.2 (GlyphSet.step L F w op).1.2 := by
  cases op with
  | write naming n fv data =>
    simp only [GlyphSet.step, GlyphSet.writeGlyph]
    split
    · exact .nothing
    · split
      · exact .nothing
      · split
        · exact .nothing
        · unfold GlyphSet.storeGlyph
          split
          · exact .nothing
          · split
            · exact .nothing
            · next h => exact setbytes_one h
  | delete n =>
    simp only [GlyphSet.step, GlyphSet.deleteGlyph]
    repeat' split
    all_goals first
      | exact .nothing
      | (rename_i h _ _ _; exact remove_one h)
      | (rename_i h _ _; exact remove_one h)
      | (rename_i h _ _ _ _; exact remove_one h)
      | (rename_i h _ _ _ _ _; exact remove_one h)
      | (rename_i h _ _ _ _ _ _; exact remove_one h)
  | reverse => exact .nothing
  | save => exact writePlist_one _ _ _ _ _
  | rebuild v =>
    simp only [GlyphSet.step]
    split <;> exact .nothing

theorem layerInfo_one (F : FloatCodec) (w : GlyphSet.World) (info : Str → Option PyVal) (validate : Bool) : One w.2 (GlyphSet.writeLayerInfo F w info validate).1.2 := by
  unfold GlyphSet.writeLayerInfo
  split
  · exact .nothing
  · unfold GlyphSet.storeLayerInfo
    split
    · split
      · exact .nothing
      · exact writePlist_one _ _ _ _ _
    · split
      · split
        · exact .nothing
        · next h => exact remove_one h
      · exact .nothing

theorem step_one {E : FontInfo.Env} {L : Casing} {w : World} {op : Op} (h : OneFile w.2 op) : One w.2 (step E L w op).1.2 := by
  cases h with
  | maps =>
    show One w.2 (setMaps w _ _).2
    unfold setMaps
    split <;> exact .nothing
  | info =>
    show One w.2 (Ufo.writeInfo E w _ _).1.2
    unfold Ufo.writeInfo
    split
    · exact .nothing
    · exact writePlist_one _ _ _ _ _
  | lib h =>
    show One w.2 (writeLib E.F w _ _).1.2
    unfold writeLib
    split
    · exact .nothing
    · exact writeOrRemove_one _ _ _ h _ _
  | groups h =>
    show One w.2 (writeGroups E.F w _ _).1.2
    unfold writeGroups
    split
    · exact .nothing
    · exact writeOrRemove_one _ _ _ h _ _
  | kerning h =>
    show One w.2 (writeKerning E.F w _ _).1.2
    unfold writeKerning
    split
    · exact .nothing
    · exact writeOrRemove_one _ _ _ h _ _
  | features h =>
    show One w.2 (writeFeatures w _).1.2
    unfold writeFeatures
    split
    · exact .nothing
    · split
      · exact writeBytesToPath_one rfl _ _
      · split
        · exact removePath_one h _
        · exact .nothing
  | glyphSet => exact getGlyphSet_one L E.F w _ _ _
  | layerContents =>
    show One w.2 (writeLayerContents E.F w _ _).1.2
    unfold writeLayerContents
    split
    · exact .nothing
    · dsimp only
      split
      · exact .nothing
      · split
        · exact .nothing
        · exact writePlist_one _ _ _ _ _
  | image h =>
    show One w.2 (writeImage w _ _ _).1.2
    unfold writeImage
    split
    · exact .nothing
    · split
      · exact .nothing
      · exact writeBytesToPath_one h _ _
  | copyImage h hs => exact copyImage_one h hs
  | bytes h => exact writeBytesToPath_one h _ _
  | remove h => exact removePath_one h _
  | glyph => exact glyphs_one L E.F (_, w.2) _
  | layerInfo => exact layerInfo_one E.F (_, w.2) _ _

theorem openWriter_one (F : FloatCodec) (hp : Bool) (fs : FS) (version : Int) (creator : PyVal) (validate : Bool) :
    One fs (openWriter F hp fs version creator validate).1 := by
  unfold openWriter
  split
  · exact .nothing
  · split
    · exact .nothing
    · split
      · exact .nothing
      · split
        · exact .nothing
        · have := writePlist_one F hp fs [metainfoName] (metaInfo creator version)
          split
          · next h => rw [h] at this; exact this
          · next h => rw [h] at this; exact this

theorem one_log {fs fs' : FS} (h : One fs fs') : ∃ acts, fs' = performAll fs acts := by
  cases h with
  | nothing => exact ⟨[], rfl⟩
  | write p d => exact ⟨[.write p d], rfl⟩
  | twice p d => exact ⟨[.write p [], .write p d], rfl⟩
  | remove p => exact ⟨[.remove p], rfl⟩
  | mkdir p => exact ⟨[.mkdir p], rfl⟩

theorem performAll_take (fs : FS) (a b : List Prim) (k : Nat) (h : a.length ≤ k) : performAll fs ((a ++ b).take k) = performAll (performAll fs a) (b.take (k - a.length)) := by
  rw [List.take_append, List.take_of_length_le h]
  simp [performAll]

/-- A process that is stopped in the middle of two stretches is stopped in the middle of the first or of the second. -/
theorem stopped_split {fs left : FS} {a b : List Prim} (h : StoppedIn fs (a ++ b) left) : StoppedIn fs a left ∨ StoppedIn (performAll fs a) b left := by
  cases h with
  | between k =>
    by_cases hk : k ≤ a.length
    · left; rw [List.take_append_of_le_length hk]; exact .between k
    · right; rw [performAll_take _ _ _ _ (by omega)]; exact .between _
  | writing k j h =>
    by_cases hk : k < a.length
    · left
      rw [List.take_append_of_le_length (by omega)]
      exact .writing k j (by rwa [List.getElem?_append_left hk] at h)
    · right
      rw [performAll_take _ _ _ _ (by omega)]
      exact .writing _ j (by rwa [List.getElem?_append_right (by omega)] at h)
  | during k h hw hc hn =>
    by_cases hk : k < a.length
    · left
      rw [List.take_append_of_le_length (by omega)] at hn
      exact .during k (by rwa [List.getElem?_append_left hk] at h) hw hc hn
    · right
      rw [performAll_take _ _ _ _ (by omega)] at hn
      exact .during _ (by rwa [List.getElem?_append_right (by omega)] at h) hw (by rw [hc]; exact (Crash.performAll_canon _ _).symm) hn

theorem run_log {E : FontInfo.Env} {L : Casing} (ops : List Op) : ∀ (w : World), OneFileEach E L w ops → ∃ acts, (run E L w ops).2 = performAll w.2 acts := by
  induction ops with
  | nil => exact fun w _ => ⟨[], rfl⟩
  | cons op ops ih =>
    intro w h
    obtain ⟨a, ha⟩ := one_log (step_one (E := E) (L := L) (w := w) (h [] op ops rfl))
    obtain ⟨b, hb⟩ := ih (step E L w op).1 fun pre o post e => h (op :: pre) o post (by rw [e]; rfl)
    refine ⟨a ++ b, ?_⟩
    show (run E L (step E L w op).1 ops).2 = _
    rw [hb, ha]
    simp [performAll]

theorem run_stopped {E : FontInfo.Env} {L : Casing} (ops : List Op) : ∀ (w : World) (left : FS), OneFileEach E L w ops →
    StoppedBetween w.2 (run E L w ops).2 left → ∃ pre, pre <+: ops ∧ OneCut (run E L w pre).2 left := by
  induction ops with
  | nil =>
    intro w left _ hs
    refine ⟨[], List.prefix_refl _, ?_⟩
    rcases one_stopped (.nothing) hs with rfl | h
    · exact oneCut_refl _
    · exact h
  | cons op ops ih =>
    intro w left h hs
    have h1 := step_one (E := E) (L := L) (w := w) (h [] op ops rfl)
    have h2 : OneFileEach E L (step E L w op).1 ops := fun pre o post e => h (op :: pre) o post (by rw [e]; rfl)
    obtain ⟨a, ha⟩ := one_log h1
    obtain ⟨b, hb⟩ := run_log ops (step E L w op).1 h2
    obtain ⟨acts, hl, hst⟩ := hs
    have hrun : (run E L w (op :: ops)).2 = (run E L (step E L w op).1 ops).2 := rfl
    rw [hrun, hb, ha, Crash.performAll_log, Crash.performAll_log, List.append_assoc, List.append_cancel_left_eq] at hl
    subst hl
    rcases stopped_split hst with hst | hst
    · rcases one_stopped h1 ⟨a, by rw [ha, Crash.performAll_log], hst⟩ with rfl | h
      · exact ⟨[], List.nil_prefix, oneCut_refl _⟩
      · exact ⟨[op], ⟨ops, rfl⟩, h⟩
    · rw [← ha] at hst
      obtain ⟨pre, hp, hc⟩ := ih (step E L w op).1 left h2 ⟨b, by rw [hb, Crash.performAll_log], hst⟩
      exact ⟨op :: pre, List.cons_prefix_cons.2 ⟨rfl, hp⟩, hc⟩

end Verif.Interrupt
