import Verif.Proofs.TreeCalls
import Verif.Spec.Tree
import Verif.Props.UfoMethods
/-! The files of a UFO stay a tree: C104. -/
namespace Verif.Props
open Verif Verif.FS Verif.IO Verif.Ufo Verif.Spec.Ufo Verif.Spec.Tree

/-! ### C104 -/

theorem isdir_iff {fs : FS} {p : Path} : fs.isdir p = true ↔ fs.node? p = some .dir := by
  unfold isdir
  split <;> simp_all

theorem isfile_iff {fs : FS} {p : Path} : fs.isfile p = true ↔ ∃ d, fs.node? p = some (.file d) := by
  unfold isfile
  split <;> simp_all

/-- A file system of which every entry is stored once, under its canonical name, and in a directory, is a tree. -/
theorem tree_of_tidy {fs : FS} (ht : Tidy fs) : Tree fs := fun _ _ hp hq hne => isdir_iff.2 (tidy_above ht hp hq hne)

/-- What a call needs so that the model moves and copies directories as a file system does: a renamed layer has no file where its new directory has a directory, and a
source is a tree whose names the UFO tells apart. -/
def Fits (E : FontInfo.Env) (L : Casing) (f : Font) : FontCall → Prop
  | .ufo (.rename n m d) => ∀ a ∈ Dict.values f.writer.layers, ∀ b ∈ Dict.values (f.step E L (.ufo (.rename n m d))).1.writer.layers, NoClash f.fs a b
  | .ufo (.copy src p _) => Tidy src ∧ ToldApart src f.fs p
  | .ufo (.copyImage src n _) => Tidy src ∧ ToldApart src f.fs [c!"images", n]
  | _ => True

/-- Every call of a history fits where it is made. -/
def AllFit (E : FontInfo.Env) (L : Casing) (f : Font) : List FontCall → Prop
  | [] => True
  | c :: cs => Fits E L f c ∧ AllFit E L (f.step E L c).1 cs

theorem tidy_rename (E : FontInfo.Env) (L : Casing) (f : Font) (ht : Tidy f.fs) (n m : Option Str) (d : Bool) (h : Fits E L f (.ufo (.rename n m d))) :
    Tidy (f.step E L (.ufo (.rename n m d))).1.fs := by
  have h' : ∀ a ∈ Dict.values f.writer.layers, ∀ b ∈ Dict.values (renameGlyphSet L (f.writer, f.fs) n m d).1.1.layers, NoClash f.fs a b := h
  show Tidy (renameGlyphSet L (f.writer, f.fs) n m d).1.2
  unfold renameGlyphSet at h' ⊢
  split
  · exact ht
  · rename_i hv
    dsimp only at h' ⊢
    rw [if_neg hv] at h'
    split
    · exact ht
    · exact ht
    · rename_i newName hn
      rw [hn] at h'
      dsimp only at h'
      split
      · exact ht
      · rename_i old hold
        rw [hold] at h'
        dsimp only at h'
        split
        · exact ht
        · rename_i new hnew
          rw [hnew] at h'
          dsimp only at h'
          split
          · exact ht
          · rename_i k
            dsimp only at h' ⊢
            refine tidy_movedir ht (by simp) fun r dat hr hr' => ?_
            have hmem : old ∈ Dict.values f.writer.layers := by
              unfold findDirectory at hold
              split at hold
              · cases hold
              · rename_i e he
                split at hold
                · cases hold
                · cases hold
                  exact List.mem_map.2 ⟨e, List.mem_of_find?_eq_some he, rfl⟩
            have hmem' : new ∈ Dict.values (Dict.set (Dict.erase f.writer.layers k) newName new) :=
              List.mem_map.2 ⟨(newName, new), Dict.mem_of_get? (by rw [Dict.get?_set, if_pos rfl]), rfl⟩
            have := h' old hmem new hmem' r (isfile_iff.2 ⟨dat, hr⟩)
            exact absurd ((isdir_iff (p := new :: r)).2 hr') (by rw [this]; simp)

theorem tidy_step (E : FontInfo.Env) (L : Casing) (f : Font) (ht : Tidy f.fs) (c : FontCall) (h : Fits E L f c) : Tidy (f.step E L c).1.fs := by
  cases c with
  | getGlyphSet n b v => exact tidy_small E L f ht _ trivial
  | set i c => exact tidy_small E L f ht _ trivial
  | ufo op =>
    cases op with
    | rename n m d => exact tidy_rename E L f ht n m d h
    | copy src p q => exact tidy_copy h.1 ht p q h.2
    | copyImage src n m =>
      show Tidy (copyImageFromReader src (f.writer, f.fs) n m).1.2
      unfold copyImageFromReader
      split
      · exact ht
      · exact tidy_copy h.1 ht _ _ h.2
    | _ => exact tidy_small E L f ht _ trivial

/-- Whatever calls are made on a writer and its glyph sets, and whether they return or raise: the files of the UFO are a tree afterwards if they were one before. -/
theorem C104_history (E : FontInfo.Env) (L : Casing) : ∀ (calls : List FontCall) (f : Font), Tidy f.fs → AllFit E L f calls → Tidy (f.run E L calls).fs ∧ Tree (f.run E L calls).fs
  | [], _, ht, _ => ⟨ht, tree_of_tidy ht⟩
  | c :: cs, f, ht, h => C104_history E L cs _ (tidy_step E L f ht c h.1) h.2

/-- At every moment, however many programs are at work on the UFO and wherever any of them has stopped, also in the middle of a call: the files are a tree. The calls are all
but renaming a layer and copying a directory. -/
theorem C104_moments_partial (E : FontInfo.Env) (L : Casing) (s : Running) (ht : Tidy s.fs) (hp : ∀ p ∈ s.procs, p.running = none ∧ ∀ c ∈ p.todo, c.Small) (sched : List Nat) :
    Tidy (s.run E L sched).fs ∧ Tree (s.run E L sched).fs := by
  have h := (small_run E L sched s (fun p h => ⟨by simp [(hp p h).1], (hp p h).2⟩) ht).2
  exact ⟨h, tree_of_tidy h⟩

/-- Opening a writer keeps the files a tree, also when it raises. -/
theorem C104_open (F : FloatCodec) (havePrevious : Bool) (fs : FS) (ht : Tidy fs) (version : Int) (creator : PyVal) (validate : Bool) :
    Tidy (openWriter F havePrevious fs version creator validate).1 ∧ Tree (openWriter F havePrevious fs version creator validate).1 := by
  suffices h : Tidy (openWriter F havePrevious fs version creator validate).1 from ⟨h, tree_of_tidy h⟩
  have hw : Tidy (writePlist F havePrevious fs [metainfoName] (metaInfo creator version)).1 := by
    rw [← writePlistP_run]
    exact tame_run (writePlistP_tame F _ _ _) ht
  unfold openWriter
  split
  · exact ht
  · split
    · exact ht
    · split
      · exact ht
      · split
        · exact ht
        · split
          · rename_i fs' e h
            rw [h] at hw; exact hw
          · rename_i fs' h
            rw [h] at hw; exact hw

/-- So everything a history leaves in the data directory is in its listing, and nothing else. -/
theorem C104_listed (fs : FS) (ht : Tidy fs) (x : Path) (hx : x ≠ []) :
    x.map fs.canon ∈ getDataDirectoryListing fs ↔ fs.isfile (c!"data" :: x) = true := by
  unfold getDataDirectoryListing
  have hk : fs.key (c!"data" :: x) = fs.key [c!"data"] ++ x.map fs.canon := by simp [FS.key]
  constructor
  · intro h
    split at h
    · rw [List.mem_filterMap] at h
      obtain ⟨⟨k, n⟩, hm, h⟩ := h
      cases n with
      | dir => cases h
      | file d =>
        dsimp only at h
        split at h
        · rename_i hp
          obtain ⟨t, rfl⟩ := List.isPrefixOf_iff_prefix.1 hp
          have ht' : t = x.map fs.canon := by simpa [FS.key] using h
          refine isfile_iff.2 ⟨d, ?_⟩
          rw [node?_of_ne (by simp), hk, ← ht']
          exact Dict.get?_of_mem ht.once hm
        · cases h
    · cases h
  · intro h
    obtain ⟨d, hd⟩ := isfile_iff.1 h
    have hdir : fs.node? [dataName] = some .dir := tidy_above ht (p := c!"data" :: x) (by rw [hd]; rfl) ⟨x, rfl⟩ (fun e => hx (List.cons.inj e).2.symm)
    rw [hdir]
    dsimp only
    rw [List.mem_filterMap]
    rw [node?_of_ne (by simp), hk] at hd
    refine ⟨_, Dict.mem_of_get? hd, ?_⟩
    dsimp only
    rw [if_pos (List.isPrefixOf_iff_prefix.2 (show fs.key [dataName] <+: fs.key [c!"data"] ++ x.map fs.canon from ⟨_, rfl⟩))]
    simp [FS.key]

/-! Cases that meet the hypotheses. -/

/-- A UFO with two layers, of which the second has a glyph. -/
def font104 : Font :=
  ⟨⟨3, [(c!"fg", c!"glyphs"), (c!"bg", c!"glyphs.bg")], true, true, none⟩,
    ⟨fun s => s.map Char.toLower, [([c!"glyphs"], .dir), ([c!"glyphs.bg"], .dir), ([c!"glyphs.bg", c!"a.glif"], .file [1]), ([c!"lib.plist"], .file [2])], []⟩, []⟩

theorem tidy_font104 : Tidy font104.fs := tidy_of (by decide +kernel) (by decide +kernel) (by decide +kernel)

/-- Without directories inside the directories of the UFO nothing clashes. -/
theorem noClash_flat {fs : FS} (h : ∀ e ∈ fs.nodes, e.2 = .dir → e.1.length = 1) {a b : Str} (ha : fs.isfile [a] = false) : NoClash fs a b := by
  intro r hr
  cases r with
  | nil => rw [ha] at hr; cases hr
  | cons c r =>
    by_contra hd
    rw [Bool.not_eq_false, isdir_iff, node?_of_ne (by simp)] at hd
    have := h _ (Dict.mem_of_get? hd) rfl
    simp [FS.key] at this

/-- Renaming the layer moves its glyph; a write below a file and a write to a directory raise; a removal takes the empty directories along. -/
def calls104 : List FontCall :=
  [.ufo (.rename (some c!"bg") (some c!"Bg2") false), .ufo (.bytes [c!"data", c!"x", c!"y.txt"] [1, 2]), .ufo (.bytes [c!"data", c!"x"] [3]),
    .ufo (.bytes [c!"data", c!"x", c!"y.txt", c!"z"] [3]), .ufo (.lib (.dict []) true), .ufo (.remove [c!"data", c!"x", c!"y.txt"] false true), .getGlyphSet none true false]

theorem fit104 : AllFit env57 asciiCasing font104 calls104 := by
  refine ⟨fun a ha b _ => noClash_flat (by decide +kernel) ?_, trivial, trivial, trivial, trivial, trivial, trivial, trivial⟩
  revert ha a
  decide +kernel

/-- All of these calls do something or raise, and the UFO is as it should be: the glyph is in its new directory. -/
example : Tree (font104.run env57 asciiCasing calls104).fs := (C104_history _ _ _ _ tidy_font104 fit104).2
example : (font104.run env57 asciiCasing calls104).fs.nodes.map (fun e => (e.1, decide (e.2 = .dir))) =
    [([c!"glyphs"], true), ([c!"glyphs.b_g2"], true), ([c!"glyphs.b_g2", c!"a.glif"], false)] := by decide +kernel

/-- Copying a directory of another UFO. -/
example : Fits env57 asciiCasing ⟨new60.1, new60.2, []⟩ (.ufo (.copy src95 [c!"data"] [c!"data", c!"old"])) :=
  ⟨tidy_src95, fun x y _ _ h => by
    have e : ∀ l : Path, l.map new60.2.canon = l := fun l => by
      rw [show new60.2.canon = id by rfl, List.map_id]
    rw [e, e] at h
    exact h⟩

/-- Two programs, of which one removes the directory into which the other writes, stopped in the middle of their calls. -/
example : let s : Running := { procs := [⟨⟨font104.writer, []⟩, none, [.ufo (.bytes [c!"data", c!"x", c!"y.txt"] [1, 2])], []⟩,
      ⟨⟨font104.writer, []⟩, none, [.ufo (.remove [c!"data"] true false), .ufo (.delete (some c!"bg"))], []⟩], fs := font104.fs }
    ∀ sched, Tree (s.run env57 asciiCasing sched).fs := by
  intro s sched
  refine (C104_moments_partial env57 asciiCasing s tidy_font104 ?_ sched).2
  intro p hp
  simp only [s, List.mem_cons, List.not_mem_nil, or_false] at hp
  rcases hp with rfl | rfl <;> refine ⟨rfl, fun c hc => ?_⟩ <;> simp only [List.mem_cons, List.not_mem_nil, or_false] at hc
  · subst hc; trivial
  · rcases hc with rfl | rfl <;> trivial

example : [c!"x", c!"y.txt"] ∈ getDataDirectoryListing (font104.run env57 asciiCasing (calls104.take 2)).fs :=
  (C104_listed _ (C104_history env57 asciiCasing (calls104.take 2) font104 tidy_font104 ⟨fit104.1, fit104.2.1, trivial⟩).1 [c!"x", c!"y.txt"] (by simp)).2 (by decide +kernel)

end Verif.Props
