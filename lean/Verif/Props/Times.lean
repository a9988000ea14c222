import Verif.Proofs.Times
import Verif.Props.Crash
import Verif.Props.UfoShared
import Verif.Props.Restart
/-! C119: modification times. -/
namespace Verif.Props
open Verif Verif.FS Verif.Spec.FS Verif.Spec.Times Verif.Spec.Crash Verif.Spec.Ufo Verif.Times Verif.Ufo

/-- C119. There is no time exactly if there is nothing at the path; a glyph that is not in the table is a KeyError. -/
theorem C119_missing (c : Clock) (fs : FS) (p : Path) (gs : GlyphSet.GlyphSet) (n : Str) :
    (getFileModificationTime c fs p = none ↔ fs.exists p = false) ∧
    (GlyphSet.getGLIFModificationTime c (gs, fs) n = .error .keyError ↔ n ∉ Dict.keys gs.contents) ∧
    ∀ e, GlyphSet.getGLIFModificationTime c (gs, fs) n = .error e → e = .keyError := by
  refine ⟨?_, ?_, ?_⟩
  · unfold getFileModificationTime FS.exists
    cases fs.node? p <;> simp
  · rw [← Dict.get?_eq_none_iff]
    unfold GlyphSet.getGLIFModificationTime
    dsimp only
    cases Dict.get? gs.contents n <;> simp
  · intro e h
    unfold GlyphSet.getGLIFModificationTime at h
    dsimp only at h
    cases h1 : Dict.get? gs.contents n with
    | none => rw [h1] at h; cases h; rfl
    | some f => rw [h1] at h; cases h

/-- C119. Whatever mutations anybody makes, the time of a path does not go back, and it is later if what is there has changed. -/
theorem C119_later (c : Clock) (hc : Fine c) (fs : FS) (acts : List Prim) (p : Path) (t t' : Rat) (h : getFileModificationTime c fs p = some t)
    (h' : getFileModificationTime c (performAll fs acts) p = some t') : t ≤ t' ∧ ((performAll fs acts).node? p ≠ fs.node? p → t < t') := by
  unfold getFileModificationTime at h h'
  split at h
  · cases h
  · split at h'
    · cases h'
    · have hk : (performAll fs acts).key p = fs.key p := by unfold FS.key; rw [performAll_canon]
      obtain ⟨h1, h2⟩ := stamp_late hc fs acts (fs.key p)
      rw [hk] at h'
      cases h; cases h'
      refine ⟨h1, fun hne => h2 ?_⟩
      by_contra hno
      refine hne ?_
      unfold FS.node?
      rw [hk]
      split
      · rfl
      · exact unmarked_all acts fs fun a ha => by
          cases hm : a.marks (fs.key p) with
          | false => rfl
          | true => exact absurd ⟨a, ha, hm⟩ hno

/-- C119. So a file with the same time has the same contents. -/
theorem C119_same (c : Clock) (hc : Fine c) (fs : FS) (acts : List Prim) (p : Path) (t : Rat) (h : getFileModificationTime c fs p = some t)
    (h' : getFileModificationTime c (performAll fs acts) p = some t) : (performAll fs acts).node? p = fs.node? p := by
  by_contra hne
  exact lt_irrefl _ ((C119_later c hc fs acts p t t h h').2 hne)

/-- C119. A program that keeps the data of glyphs and reads a glyph again only when the time of its file has changed has the data that reading would give, whatever was done to the files in the meantime,
if the glyph is still in the same file. -/
theorem C119_cache (c : Clock) (hc : Fine c) (fs : FS) (gs gs' : GlyphSet.GlyphSet) (n : Str) (r : Remembered) (hd : GlyphSet.getGLIF (gs, fs) n = .ok r.data)
    (ht : GlyphSet.getGLIFModificationTime c (gs, fs) n = .ok (some r.time)) (acts : List Prim) (hdir : gs'.dir = gs.dir) (hn : Dict.get? gs'.contents n = Dict.get? gs.contents n) :
    recall c (gs', performAll fs acts) n r = GlyphSet.getGLIF (gs', performAll fs acts) n := by
  unfold recall
  unfold GlyphSet.getGLIFModificationTime at ht ⊢
  unfold GlyphSet.getGLIF at hd ⊢
  dsimp only at hd ht ⊢
  rw [hn, hdir]
  cases hf : Dict.get? gs.contents n with
  | none => rfl
  | some f =>
    rw [hf] at ht hd
    dsimp only at ht hd ⊢
    split
    · next h =>
      have hs := C119_same c hc fs acts _ r.time (Except.ok.inj ht) h
      unfold FS.getbytes at hd ⊢
      rw [hs]
      exact hd.symm
    · rfl

/-- C119. The calls of a program, on the writer and on glyph sets, keep the times of the files they are not about. -/
theorem C119_spared (E : FontInfo.Env) (L : Casing) (c : Clock) (w : World) (hw : Dict.WF w.1.layers) (hl : LayerDirs w.1.layers) (ops : List Op) (d : Str) (p : Path)
    (hs : ∀ op ∈ ops, Spares w.2.canon d op) : getFileModificationTime c (run E L w ops).2 (d :: p) = getFileModificationTime c w.2 (d :: p) := by
  obtain ⟨-, -, ha⟩ := run_spec E L ops w ⟨hw, hl⟩
  refine acts_time c ha _ ?_
  rintro k ⟨op, hop, ⟨x, r, hx, rfl⟩ | hall⟩
  · have hne := hs op hop x hx
    refine ⟨fun h => ?_, fun h => ?_⟩
    · simp only [FS.key, List.map_cons, List.cons_prefix_cons] at h
      exact hne h.1
    · cases r with
      | nil => simp [FS.key] at h
      | cons y r =>
        simp only [FS.key, List.map_cons, List.dropLast_cons_cons, List.cons.injEq] at h
        exact hne h.1
  · exact absurd rfl (hs op hop d (hall d))

/-- C119. A program that makes any calls: a file that has the same time afterwards has the same contents. -/
theorem C119_session (E : FontInfo.Env) (L : Casing) (c : Clock) (hc : Fine c) (w : World) (hw : Dict.WF w.1.layers) (hl : LayerDirs w.1.layers) (ops : List Op) (p : Path) (t : Rat)
    (h : getFileModificationTime c w.2 p = some t) (h' : getFileModificationTime c (run E L w ops).2 p = some t) : (run E L w ops).2.node? p = w.2.node? p := by
  obtain ⟨-, -, acts, ha, -⟩ := run_spec E L ops w ⟨hw, hl⟩
  rw [ha] at h' ⊢
  exact C119_same c hc w.2 acts p t h h'

/-- C119. Writing a glyph that is there, in a layer that existed before: the time of the glyph stays as it is exactly if the data are the same. -/
theorem C119_glyph (L : Casing) (c : Clock) (hc : Fine c) (naming : GlyphSet.Naming) (w : GlyphSet.World) (hp : w.1.havePrevious = true) (n : Str) (fv : Option Int) (data : Int → Except Exc Bytes)
    (old new : Bytes) (ho : GlyphSet.getGLIF w n = .ok old) (hok : (GlyphSet.writeGlyph L naming w n fv data).2 = .ok ()) (hn : GlyphSet.getGLIF (GlyphSet.writeGlyph L naming w n fv data).1 n = .ok new) :
    GlyphSet.getGLIFModificationTime c (GlyphSet.writeGlyph L naming w n fv data).1 n = GlyphSet.getGLIFModificationTime c w n ↔ new = old := by
  obtain ⟨gs, fs⟩ := w
  cases hf : Dict.get? gs.contents n with
  | none =>
    unfold GlyphSet.getGLIF at ho
    dsimp only at ho
    rw [hf] at ho; cases ho
  | some f =>
    have hb : fs.getbytes (gs.dir ++ [f]) = .ok old := by
      unfold GlyphSet.getGLIF at ho
      dsimp only at ho
      rw [hf] at ho
      dsimp only at ho
      split at ho
      · cases ho
      · exact ho
    have hassign : GlyphSet.assignFile L naming gs n = (gs, .ok f) := by
      unfold GlyphSet.assignFile
      rw [hf]
    unfold GlyphSet.writeGlyph at hok hn ⊢
    dsimp only at hok hn ⊢
    cases hv : GlyphSet.glifVersion gs fv with
    | error e => simp only [hv] at hok; cases hok
    | ok v =>
      simp only [hv, hassign] at hok hn ⊢
      cases hd : data v with
      | error e => simp only [hd] at hok; cases hok
      | ok d =>
        simp only [hd] at hok hn hp ⊢
        rw [hp] at hok hn ⊢
        have hacts := GlyphSet.storeGlyph_acts true fs (gs.dir ++ [f]) d
        have hnew : (GlyphSet.storeGlyph true fs (gs.dir ++ [f]) d).1.getbytes (gs.dir ++ [f]) = .ok new := by
          unfold GlyphSet.getGLIF at hn
          dsimp only at hn
          rw [hf] at hn
          dsimp only at hn
          split at hn
          · cases hn
          · exact hn
        have hstored : new = d ∧ (d = old → (GlyphSet.storeGlyph true fs (gs.dir ++ [f]) d).1 = fs) := by
          unfold GlyphSet.storeGlyph at hnew hok ⊢
          split at hnew
          · next hu =>
            rw [if_pos hu]
            simp only [Bool.true_and] at hu
            have := IO.unchanged_iff.1 hu
            rw [this] at hnew
            exact ⟨(Except.ok.inj hnew).symm, fun _ => rfl⟩
          · next hu =>
            rw [if_neg hu] at hok ⊢
            split at hnew
            · next he => rw [he] at hok; cases hok
            · next fs' he =>
              rw [(setbytes_files he).2.1] at hnew
              refine ⟨(Except.ok.inj hnew).symm, fun e => ?_⟩
              subst e
              exact absurd (by simp only [Bool.true_and]; exact IO.unchanged_iff.2 hb) hu
        unfold GlyphSet.getGLIFModificationTime
        dsimp only
        rw [hf]
        dsimp only
        constructor
        · intro h
          obtain ⟨acts, ha, -⟩ := hacts
          rw [ha] at h hnew
          have hex : ∃ t, getFileModificationTime c fs (gs.dir ++ [f]) = some t := by
            unfold getFileModificationTime
            rw [getbytes_ok.1 hb]
            exact ⟨_, rfl⟩
          obtain ⟨t, ht⟩ := hex
          have hsame := C119_same c hc fs acts _ t ht ((Except.ok.inj h).trans ht)
          unfold FS.getbytes at hnew hb
          rw [hsame, hb] at hnew
          exact (Except.ok.inj hnew).symm
        · intro h
          rw [hstored.2 (hstored.1.symm.trans h)]

/-- C119. Writing or deleting one glyph keeps the times of all the others, as long as the file system keeps the files of the glyphs apart; saving the table keeps the times of the glyphs. -/
theorem C119_others (L : Casing) (F : FloatCodec) (c : Clock) (w : GlyphSet.World) (m : Str) :
    (∀ op n, IsAbout n op → m ≠ n → Spec.GlyphSet.Distinct w.2.canon w.1.contents → Spec.GlyphSet.Distinct w.2.canon (GlyphSet.step L F w op).1.1.contents →
      GlyphSet.getGLIFModificationTime c (GlyphSet.step L F w op).1 m = GlyphSet.getGLIFModificationTime c w m) ∧
    (Spec.GlyphSet.Avoids w.2.canon c!"contents.plist" w.1.contents →
      GlyphSet.getGLIFModificationTime c (GlyphSet.step L F w .save).1 m = GlyphSet.getGLIFModificationTime c w m) := by
  have key : ∀ {P : Path → Prop} {w' : GlyphSet.World}, Acts P w.2 w'.2 → w'.1.dir = w.1.dir → Dict.get? w'.1.contents m = Dict.get? w.1.contents m →
      (∀ g, Dict.get? w.1.contents m = some g → ∀ k, P k → ∃ f, k = w.2.key (w.1.dir ++ [f]) ∧ w.2.canon f ≠ w.2.canon g) →
      GlyphSet.getGLIFModificationTime c w' m = GlyphSet.getGLIFModificationTime c w m := by
    intro P w' ha hdir hm hk
    unfold GlyphSet.getGLIFModificationTime
    rw [hm, hdir]
    cases hg : Dict.get? w.1.contents m with
    | none => rfl
    | some g =>
      dsimp only
      rw [acts_time c ha]
      intro k hPk
      obtain ⟨f, rfl, hne⟩ := hk g hg k hPk
      refine ⟨fun h => hne (Crash.key_snoc_prefix h), fun h => ?_⟩
      have := congrArg List.length h
      simp [FS.key] at this
  refine ⟨fun op n hop hm hd hd' => ?_, fun hav => ?_⟩
  · refine key (Crash.about_acts (L := L) (F := F) hop) ?_ (Crash.about_contents hop m hm) ?_
    · cases hop with
      | @write naming fv data => exact (GlyphSet.writeGlyph_spec (w' := (GlyphSet.writeGlyph L naming w n fv data).1) (r := (GlyphSet.writeGlyph L naming w n fv data).2) rfl).1
      | delete => exact (GlyphSet.deleteGlyph_spec (w' := (GlyphSet.deleteGlyph L w n).1) (r := (GlyphSet.deleteGlyph L w n).2) rfl).1
    · rintro g hg k ⟨f, hf, rfl⟩
      refine ⟨f, rfl, fun e => ?_⟩
      rcases hf with hf | hf
      · exact hm (hd m n g f hg hf e.symm)
      · exact hm (hd' m n g f ((Crash.about_contents hop m hm).trans hg) hf e.symm)
  · refine key (P := (· = w.2.key (w.1.dir ++ [GlyphSet.contentsName]))) (IO.writePlist_acts F _ _ _ _) rfl rfl ?_
    rintro g hg k rfl
    exact ⟨_, rfl, fun e => hav m g hg e.symm⟩

/-! ### examples -/

/-- A clock that goes on by one second with every mutation. -/
def clock119 : Clock := { tick := fun n => n + 1, start := fun _ => 0 }

theorem fine119 : Fine clock119 := ⟨fun n m h => by simp only [clock119]; exact_mod_cast Nat.succ_lt_succ h, fun k n => by simp only [clock119]; positivity⟩

/-- The first glyph set of the UFO of C117. -/
def world119 : GlyphSet.World := (set117 c!"glyphs", fs117)

/-- What a program remembers of the glyph `a`. -/
def remembered119 : Remembered := ⟨0, (GlyphSet.getGLIF world119 c!"a").toOption.getD []⟩

/-- The mutations of another program. -/
def acts119 : List Prim := [.write [c!"glyphs", c!"B_.glif"] [9], .mkdir [c!"images"], .write [c!"glyphs", c!"a.glif"] [8]]

/-- The glyph `a` was written, and its time has changed; `b` is as it was. -/
example : getFileModificationTime clock119 fs117 [c!"glyphs", c!"a.glif"] = some 0 ∧ getFileModificationTime clock119 (performAll fs117 acts119) [c!"glyphs", c!"a.glif"] = some 3 ∧
    getFileModificationTime clock119 (performAll fs117 acts119) [c!"features.fea"] = none := by decide +kernel

example : (performAll fs117 acts119).node? [c!"glyphs", c!"a.glif"] ≠ fs117.node? [c!"glyphs", c!"a.glif"] → (0 : Rat) < 3 :=
  (C119_later clock119 fine119 fs117 acts119 [c!"glyphs", c!"a.glif"] 0 3 (by decide +kernel) (by decide +kernel)).2

example : (performAll fs117 (acts119.take 2)).node? [c!"glyphs", c!"a.glif"] = fs117.node? [c!"glyphs", c!"a.glif"] :=
  C119_same clock119 fine119 fs117 _ _ 0 (by decide +kernel) (by decide +kernel)

/-- The program that remembers the glyph `a` gets the new data. -/
example : recall clock119 ((set117 c!"glyphs"), performAll fs117 acts119) c!"a" remembered119 = GlyphSet.getGLIF (set117 c!"glyphs", performAll fs117 acts119) c!"a" ∧
    (GlyphSet.getGLIF (set117 c!"glyphs", performAll fs117 acts119) c!"a").toOption = some [8] ∧ remembered119.data ≠ [8] := by
  refine ⟨C119_cache clock119 fine119 fs117 (set117 c!"glyphs") _ c!"a" remembered119 ?_ ?_ acts119 rfl rfl, by decide +kernel, by decide +kernel⟩
  · decide +kernel
  · decide +kernel

/-- Writing features and a glyph keeps the time of the other layer, and that of `metainfo.plist`. -/
example (p : Path) : getFileModificationTime clock119 (run env57 asciiCasing ((again60 ufo114).1, fs117) [.features c!"f", .glyph (set117 c!"glyphs") (put51 c!"a" [7])]).2 (c!"glyphs.fore" :: p) =
    getFileModificationTime clock119 fs117 (c!"glyphs.fore" :: p) := by
  refine C119_spared env57 asciiCasing clock119 ((again60 ufo114).1, fs117) (by unfold Dict.WF; decide +kernel) dirs117 _ _ p ?_
  intro op hop
  simp only [List.mem_cons, List.not_mem_nil, or_false] at hop
  rcases hop with rfl | rfl
  · intro x hx; cases hx; decide
  · intro x hx
    have hdir : (set117 c!"glyphs").dir = [c!"glyphs"] := by decide +kernel
    generalize set117 c!"glyphs" = gs at hdir hx
    cases hx with
    | glyph h => rw [hdir] at h; cases h; decide
    | glyphRoot h => rw [hdir] at h; cases h

example : (run env57 asciiCasing ((again60 ufo114).1, fs117) [.features c!"f", .glyph (set117 c!"glyphs") (put51 c!"B" [7])]).2.node? [c!"glyphs", c!"a.glif"] = fs117.node? [c!"glyphs", c!"a.glif"] :=
  C119_session env57 asciiCasing clock119 fine119 ((again60 ufo114).1, fs117) (by unfold Dict.WF; decide +kernel) dirs117 _ _ 0 (by decide +kernel) (by decide +kernel)

/-- The call with the same data keeps the time of the glyph, another call does not. -/
example : GlyphSet.getGLIFModificationTime clock119 (GlyphSet.step asciiCasing fractionCodec world119 (put51 c!"a" remembered119.data)).1 c!"a" = .ok (some 0) ∧
    GlyphSet.getGLIFModificationTime clock119 (GlyphSet.step asciiCasing fractionCodec world119 (put51 c!"a" [7])).1 c!"a" = .ok (some 1) ∧
    GlyphSet.getGLIFModificationTime clock119 (GlyphSet.step asciiCasing fractionCodec world119 (put51 c!"a" [7])).1 c!"B" = .ok (some 0) := by decide +kernel

example : GlyphSet.getGLIFModificationTime clock119 (GlyphSet.writeGlyph asciiCasing (GlyphSet.defaultNaming asciiCasing) world119 c!"a" none (fun _ => .ok [7])).1 c!"a" =
    GlyphSet.getGLIFModificationTime clock119 world119 c!"a" ↔ [7] = remembered119.data :=
  C119_glyph asciiCasing clock119 fine119 _ world119 (by decide +kernel) c!"a" none _ remembered119.data [7] (by decide +kernel) (by decide +kernel) (by decide +kernel)

/-- The conditions of `C119_others` hold in this layer, before and after the call. -/
example : GlyphSet.getGLIFModificationTime clock119 (GlyphSet.step asciiCasing fractionCodec world119 (put51 c!"a" [7])).1 c!"B" = GlyphSet.getGLIFModificationTime clock119 world119 c!"B" ∧
    GlyphSet.getGLIFModificationTime clock119 (GlyphSet.step asciiCasing fractionCodec world119 .save).1 c!"B" = GlyphSet.getGLIFModificationTime clock119 world119 c!"B" := by
  have hall : ∀ e ∈ world119.1.contents, e.2 ≠ c!"contents.plist" ∧ ∀ e' ∈ world119.1.contents, e.2 = e'.2 → e.1 = e'.1 := by decide +kernel
  have hsame : (GlyphSet.step asciiCasing fractionCodec world119 (put51 c!"a" [7])).1.1.contents = world119.1.contents := by decide +kernel
  have hd : Spec.GlyphSet.Distinct world119.2.canon world119.1.contents := fun n m f g hf hg he => (hall _ (Dict.mem_of_get? hf)).2 _ (Dict.mem_of_get? hg) he
  obtain ⟨h1, h2⟩ := C119_others asciiCasing fractionCodec clock119 world119 c!"B"
  exact ⟨h1 _ c!"a" .write (by decide) hd (by rw [hsame]; exact hd), h2 fun n g hg => (hall _ (Dict.mem_of_get? hg)).1⟩

/-- With a clock that is too coarse (here one that stands still) a file can change and keep its time: the condition on the clock is needed. -/
theorem C119_coarse : ∃ c : Clock, getFileModificationTime c (performAll fs117 acts119) [c!"glyphs", c!"a.glif"] = getFileModificationTime c fs117 [c!"glyphs", c!"a.glif"] ∧
    (performAll fs117 acts119).node? [c!"glyphs", c!"a.glif"] ≠ fs117.node? [c!"glyphs", c!"a.glif"] :=
  ⟨⟨fun _ => 0, fun _ => 0⟩, by decide +kernel, by decide +kernel⟩

end Verif.Props
