import Verif.Props.UfoImages
import Verif.Props.GlyphSet
/-! Writing the same data again: the part of C56 about UFO writers. -/
namespace Verif.Props
open Verif Verif.FS Verif.IO Verif.Ufo Verif.Spec.Ufo

/-- The calls that store the value they are given in one file. -/
inductive Stores : Op → Path → Prop
  | info {i v} : Stores (.info i v) [c!"fontinfo.plist"]
  | lib {l v} : Stores (.lib l v) [c!"lib.plist"]
  | groups {g v} : Stores (.groups g v) [c!"groups.plist"]
  | kerning {k v} : Stores (.kerning k v) [c!"kerning.plist"]
  | features {s} : Stores (.features s) [c!"features.fea"]
  | layerContents {o v} : Stores (.layerContents o v) [c!"layercontents.plist"]
  | image {n d v} : Stores (.image n d v) [c!"images", n]
  | bytes {p d} : p ≠ [] → Stores (.bytes p d) p

theorem writePlist_again {F : FloatCodec} {fs g : FS} {p : Path} {v : PyVal} (h : (writePlist F true fs p v).2 = .ok ())
    (hg : g.node? p = (writePlist F true fs p v).1.node? p) : writePlist F true g p v = (g, .ok ()) := by
  obtain ⟨data, h1, h2⟩ := (writePlist_spec (F := F) (hp := true) (fs := fs) (p := p) (v := v) (fs' := (writePlist F true fs p v).1) (r := (writePlist F true fs p v).2) rfl).2.2 h
  rw [getbytes_ok, ← hg, ← getbytes_ok] at h2
  exact C56_plist F g p v data h1 h2

theorem writeBytes_again {fs g : FS} {p : Path} {d : Bytes} (h : (writeBytesToPath true fs p d).2 = .ok ())
    (hg : g.node? p = (writeBytesToPath true fs p d).1.node? p) : writeBytesToPath true g p d = (g, .ok ()) := by
  have := (writeBytesToPath_spec true fs p d).2.1 h
  rw [getbytes_ok, ← hg, ← getbytes_ok] at this
  simp [writeBytesToPath, unchanged_iff.2 this]

theorem removePath_again {fs g : FS} {p : Path} (hp : p ≠ []) (h : (removePath fs p true false).2 = .ok ())
    (hg : g.node? p = (removePath fs p true false).1.node? p) : removePath g p true false = (g, .ok ()) := by
  have := (removePath_spec fs p hp true false).2.1 h
  rw [← hg] at this
  have hr : g.remove p = .error .resourceNotFound := by unfold FS.remove; rw [this]
  simp [removePath, removeNode, hr]

/-- If a call that stores a value succeeds on a UFO that existed when it was opened, then the same call, made later when the writer and the file are
as the first call left them, succeeds and performs no operation on the file system at all. -/
theorem C56_again (E : FontInfo.Env) (L : Casing) (w : World) (hp : w.1.havePrevious = true) (op : Op) (p : Path) (hs : Stores op p)
    (h : (step E L w op).2 = .ok ()) (g : FS) (hg : g.node? p = (step E L w op).1.2.node? p) : step E L (w.1, g) op = ((w.1, g), .ok ()) := by
  have hor : ∀ {F name empty v}, (writeOrRemove F w name empty v).2 = .ok () → g.node? [name] = (writeOrRemove F w name empty v).1.2.node? [name] →
      writeOrRemove F (w.1, g) name empty v = ((w.1, g), .ok ()) := by
    intro F name empty v h hg
    unfold writeOrRemove at h hg ⊢
    cases empty with
    | false =>
      simp only [Bool.not_false, if_true, hp] at h hg ⊢
      rw [writePlist_again h hg]
    | true =>
      simp only [Bool.not_true, if_false, hp, if_true, Bool.false_eq_true] at h hg ⊢
      rw [removePath_again (by simp) h hg]
  cases hs with
  | info =>
    simp only [step, Ufo.writeInfo] at h hg ⊢
    split at h
    · cases h
    · rename_i d hd
      rw [hd] at hg
      dsimp only at h hg ⊢
      rw [hp] at h hg ⊢
      rw [writePlist_again h hg]
  | lib =>
    simp only [step, writeLib] at h hg ⊢
    split at h
    · cases h
    · rename_i hv
      rw [if_neg hv] at hg ⊢
      exact hor h hg
  | groups =>
    simp only [step, writeGroups] at h hg ⊢
    split at h
    · cases h
    · rename_i hv
      rw [if_neg hv] at hg ⊢
      exact hor h hg
  | kerning =>
    simp only [step, writeKerning] at h hg ⊢
    split at h
    · cases h
    · rename_i hv
      rw [if_neg hv] at hg ⊢
      exact hor h hg
  | features =>
    simp only [step, writeFeatures] at h hg ⊢
    split at h
    · cases h
    · rename_i hv
      rw [if_neg hv] at hg ⊢
      split at h
      · rename_i hf
        rw [if_pos hf] at hg ⊢
        rw [hp] at h hg ⊢
        rw [writeBytes_again h hg]
      · rename_i hf
        rw [if_neg hf] at hg ⊢
        simp only [hp, if_true] at h hg ⊢
        rw [removePath_again (by simp) h hg]
  | layerContents =>
    simp only [step, writeLayerContents] at h hg ⊢
    split at h
    · rename_i hv; rw [if_pos hv]
    · rename_i hv
      rw [if_neg hv] at hg ⊢
      split at h
      · cases h
      · rename_i hv
        rw [if_neg hv] at hg ⊢
        split at h
        · cases h
        · rename_i t ht
          rw [ht] at hg
          dsimp only at h hg ⊢
          rw [hp] at h hg ⊢
          rw [writePlist_again h hg]
  | image =>
    simp only [step, writeImage] at h hg ⊢
    split at h
    · cases h
    · rename_i hv
      rw [if_neg hv] at hg ⊢
      split at h
      · cases h
      · rename_i hv
        rw [if_neg hv] at hg ⊢
        dsimp only at h hg ⊢
        rw [hp] at h hg ⊢
        rw [writeBytes_again h hg]
  | bytes _ =>
    simp only [step] at h hg ⊢
    rw [hp] at h hg ⊢
    rw [writeBytes_again h hg]

theorem step_keeps (E : FontInfo.Env) (L : Casing) (w : World) (op : Op) (h : (∀ a b, op ≠ .maps a b) ∧ (∀ a b c, op ≠ .glyphSet a b c) ∧
    (∀ a b c, op ≠ .rename a b c) ∧ ∀ a, op ≠ .delete a) : (step E L w op).1.1 = w.1 := by
  have hor : ∀ {F name empty v}, (writeOrRemove F w name empty v).1.1 = w.1 := by
    intro F name empty v
    unfold writeOrRemove
    repeat' split
    all_goals rfl
  cases op with
  | maps => exact absurd rfl (h.1 _ _)
  | glyphSet => exact absurd rfl (h.2.1 _ _ _)
  | rename => exact absurd rfl (h.2.2.1 _ _ _)
  | delete => exact absurd rfl (h.2.2.2 _)
  | info => simp only [step, Ufo.writeInfo]; split <;> rfl
  | lib => simp only [step, writeLib]; split <;> first | rfl | exact hor
  | groups => simp only [step, writeGroups]; split <;> first | rfl | exact hor
  | kerning => simp only [step, writeKerning]; split <;> first | rfl | exact hor
  | features => simp only [step, writeFeatures]; repeat' split
                all_goals rfl
  | layerContents => simp only [step, writeLayerContents]; repeat' split
                     all_goals rfl
  | image => simp only [step, writeImage]; repeat' split
             all_goals rfl
  | removeImage => simp only [step, Ufo.removeImage]; split <;> rfl
  | copyImage => simp only [step, copyImageFromReader]; split <;> rfl
  | bytes => rfl
  | remove => rfl
  | copy => rfl
  | glyph => rfl
  | layerInfo => rfl

/-- A whole history: after a successful call that stores a value, and any calls that spare the entry of the root directory it is kept in and do not change
the layers or the conversion maps of the writer, the same call again succeeds and changes nothing. -/
theorem C56_history (E : FontInfo.Env) (L : Casing) (w : World) (hl : Layered w.1) (hp : w.1.havePrevious = true) (op : Op) (c : Str) (p : Path)
    (hs : Stores op (c :: p)) (h : (step E L w op).2 = .ok ()) (ops : List Op) (hops : ∀ o ∈ ops, Spares w.2.canon c o)
    (hmaps : ∀ o ∈ ops, (∀ a b, o ≠ .maps a b) ∧ (∀ a b c, o ≠ .glyphSet a b c) ∧ (∀ a b c, o ≠ .rename a b c) ∧ ∀ a, o ≠ .delete a) :
    let w' := run E L (step E L w op).1 ops
    step E L w' op = (w', .ok ()) := by
  obtain ⟨-, -, hl', ha⟩ := step_spec E L w hl op
  have hkeep : ∀ (ops : List Op) (x : World), (∀ o ∈ ops, (∀ a b, o ≠ .maps a b) ∧ (∀ a b c, o ≠ .glyphSet a b c) ∧ (∀ a b c, o ≠ .rename a b c) ∧
      ∀ a, o ≠ .delete a) → (run E L x ops).1 = x.1 := by
    intro ops
    induction ops with
    | nil => exact fun _ _ => rfl
    | cons o ops ih =>
      intro x hx
      show (run E L (step E L x o).1 ops).1 = x.1
      rw [ih _ fun o ho => hx o (by simp [ho]), step_keeps E L x o (hx o (by simp))]
  have hop : (step E L w op).1.1 = w.1 := by
    refine step_keeps E L w op ?_
    cases hs <;> simp
  intro w'
  have h1 : w'.1 = w.1 := (hkeep ops _ hmaps).trans hop
  have h2 := run_node? E L (step E L w op).1 hl' ops (c := c) (fun o ho => by rw [ha.canon]; exact hops o ho) p
  have := C56_again E L w hp op (c :: p) hs h w'.2 h2
  rw [← h1] at this
  exact this

/-- An image, features and groups written again to a UFO that existed: not a single operation more. -/
example : let ops : List Op := [.image c!"a.png" png63 true, .features c!"x", .groups [(c!"a", [c!"b"])] true, .lib (.dict []) true]
    let w0 := again60 (run env57 asciiCasing new60 [.glyphSet none true true, .layerContents none true]).2
    let w := (run env57 asciiCasing w0 ops); let w' := (run env57 asciiCasing w ops);
    w0.1.havePrevious = true ∧ w.2.log.length > w0.2.log.length ∧ w'.2.log = w.2.log := by decide +kernel

end Verif.Props
