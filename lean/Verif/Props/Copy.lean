import Verif.Proofs.Copy
import Verif.Props.GlifRewrite
import Verif.Props.UfoGlyphs
import Verif.Proofs.UfoSaved
/-! Copying the glyphs of a layer: C84, C85. -/
namespace Verif.Props
open Verif Verif.Glif Verif.FS Verif.IO Verif.GlyphSet Verif.Spec.GlyphSet Verif.Spec.Glif Verif.Spec.Copy Verif.GlifFile Verif.Spec.Plist

theorem read_bytes {E : Env} {w : World} {n : Str} {r : Dict Str PyVal × List Glif.Call} (h : readGlyph E w n true true true = .ok r) :
    ∃ b, getGLIF w n = .ok b ∧ readGlyphFromBytes E true true true (if w.1.version < 3 then [1] else [1, 2]) b = .ok r := by
  unfold readGlyph at h
  split at h
  · cases h
  next b hb => exact ⟨b, hb, h⟩

theorem bytes_readGlyph {E : Env} {w : World} {n : Str} {r : Dict Str PyVal × List Glif.Call} {b : Bytes} (hv : w.1.version = 3) (hb : getGLIF w n = .ok b)
    (h : readGlyphFromBytes E true true true [1, 2] b = .ok r) : readGlyph E w n true true true = .ok r := by
  rw [readGlyph, hb]
  dsimp only
  rw [if_neg (by omega)]
  exact h

/-- A glyph that was read is written under any name, and what is read from the bytes is the same glyph, and gives the same bytes again. -/
theorem loaded_writes {E : Env} (hE : ReprLaws E) {src : World} {g : Loaded} {m : Str} (hr : readGlyph E src m true true true = .ok g.2) (hc : Spec.Glif.Clean g.2.1 g.2.2)
    (hn : g.1 ≠ []) (ht : AttrText g.1) :
    ∃ b attrs calls, writeGlyphToBytes E true 2 (.str g.1) (asObj g.2.1) (some g.2.2) = .ok b ∧ readGlyphFromBytes E true true true [1, 2] b = .ok (attrs, calls) ∧
      List.Forall₂ SameCall g.2.2 calls ∧ SameGlyph (.str g.1) (asObj g.2.1) attrs ∧
      writeGlyphToBytes E true 2 (.str g.1) (asObj attrs) (some calls) = .ok b := by
  obtain ⟨n, attrs, calls⟩ := g
  dsimp only at hr hc hn ht ⊢
  obtain ⟨b0, -, h0⟩ := read_bytes hr
  have hf := fine_renamed (readBytes_fine h0) hn ht.1.1
  have hc' := clean_renamed hc ht
  have hL := fine_legible hf hc'
  rw [delivered_renamed_name] at hL
  have hE0 : ReprLaws { E with lxml := false } := ⟨hE.lawful, hE.other⟩
  obtain ⟨b, hb⟩ : ∃ b, writeGlyphToBytes E true 2 (.str n) (asObj (renamed attrs n)) (some calls) = .ok b := by
    obtain ⟨tree, htree⟩ := write_succeeds (E := { E with lxml := false }) rfl hE.lawful hf hc'.lib
    rw [delivered_renamed_name] at htree
    obtain ⟨b0, tree', h1, h2, -⟩ := bytes_read hE0 hL htree
    rcases env_lxml E with he | he
    · rw [he]
      exact ⟨b0, h1⟩
    · rw [← he] at h2
      exact C71_writes E hE true 2 _ _ _ hL _ h2
  obtain ⟨d, hd, hi⟩ := hf.drawn
  subst hd
  obtain ⟨a1, c1, h1, h2, h3⟩ := C71_bytes_partial E hE _ _ d [1, 2] (by simp) hL (fine_plain hf) (fun it hit => fineItem_readable (hi it hit)) b hb
  obtain ⟨a2, c2, k1, k2⟩ := C81_same_partial E hE _ _ d [1, 2] (by simp) hL (fine_plain hf) (fun it hit => fineItem_readable (hi it hit)) hf.tidy b hb
  rw [h1] at k1
  cases k1
  rw [h3.name] at k2
  rw [write_renamed] at hb
  exact ⟨b, a1, c1, hb, h1, h2, same_renamed h3, k2⟩

/-- The bytes of a glyph. -/
def bytesOf (E : Env) (g : Loaded) : Bytes := ((writeGlyphToBytes E true 2 (.str g.1) (asObj g.2.1) (some g.2.2)).toOption).getD []

theorem bytesOf_eq {E : Env} {g : Loaded} {b : Bytes} (h : writeGlyphToBytes E true 2 (.str g.1) (asObj g.2.1) (some g.2.2) = .ok b) : bytesOf E g = b := by
  unfold bytesOf
  rw [h]
  rfl

theorem writes_eq (E : Env) (naming : Naming) (glyphs : List Loaded) : writes E naming glyphs =
    (glyphs.map fun g => ((g.1, (fun (v : Int) => writeGlyphToBytes E true v.toNat (.str g.1) (asObj g.2.1) (some g.2.2)), bytesOf E g) : Str × (Int → Except Exc Bytes) × Bytes)).map
      fun g => Op.write naming g.1 none g.2.1 := by
  unfold writes
  rw [List.map_map]
  rfl

theorem copy_core {E : Env} (hE : ReprLaws E) {L : Casing} {Good : Str → Str → Prop} {naming : Naming} {src : World} {fs : FS} {gs : GlyphSet} {glyphs : List Loaded}
    (hcanon : ∀ a b, fs.canon a = fs.canon b → L.lower a = L.lower b) (hempty : gs.contents = [] ∧ gs.existing = none ∧ gs.reverse = none) (hv : gs.version = 3)
    (hflat : Flat fs gs.dir) (hnd : (glyphs.map Prod.fst).Nodup) (hload : LoadedFrom E src glyphs) (hclean : ∀ g ∈ glyphs, Spec.Glif.Clean g.2.1 g.2.2)
    (hname : ∀ g ∈ glyphs, g.1 ≠ [] ∧ AttrText g.1 ∧ Total Good naming g.1 ∧ Admissible L Good naming g.1)
    (hgood : ∀ m f, Good m f → L.lower f ≠ L.lower c!"contents.plist") :
    let w := run L E.F (gs, fs) (writes E naming glyphs)
    AllReturn L E.F (gs, fs) (writes E naming glyphs) ∧ keys w.1 = glyphs.map Prod.fst ∧ Named L Good w.1 ∧ Flat w.2 gs.dir ∧ w.1.dir = gs.dir ∧
      ∀ g ∈ glyphs, getGLIF w g.1 = .ok (bytesOf E g) := by
  have hdata : ∀ g ∈ glyphs, writeGlyphToBytes E true 2 (.str g.1) (asObj g.2.1) (some g.2.2) = .ok (bytesOf E g) := by
    intro g hg
    obtain ⟨b, -, -, h, -⟩ := loaded_writes hE (hload g hg) (hclean g hg) (hname g hg).1 (hname g hg).2.1
    rw [bytesOf_eq h, h]
  have hnames : (glyphs.map fun g => ((g.1, (fun (v : Int) => writeGlyphToBytes E true v.toNat (.str g.1) (asObj g.2.1) (some g.2.2)), bytesOf E g) : Str × (Int → Except Exc Bytes) × Bytes)).map Prod.fst =
      glyphs.map Prod.fst := by
    rw [List.map_map]
    rfl
  have h0 : Named L Good gs := named_new hempty
  intro w
  have hok := writes_ok (L := L) (F := E.F) (naming := naming) _ (gs, fs) hv h0 hflat (by rw [hnames]; exact hnd) (fun g hg => by
    obtain ⟨e, he, rfl⟩ := List.mem_map.1 hg
    exact ⟨by show Dict.get? gs.contents e.1 = none; rw [hempty.1]; rfl, hdata e he, (hname e he).2.2⟩)
  rw [← writes_eq] at hok
  obtain ⟨h1, h2, h3, h4, h5⟩ := hok
  refine ⟨h1, ?_, h3, h4, h5, fun g hg => ?_⟩
  · show keys w.1 = _
    rw [h2, hnames]
    simp [keys, hempty.1, Dict.keys]
  · have hops : ∀ op ∈ writes E naming glyphs, ∀ v, op ≠ .rebuild v := by
      intro op ho v
      obtain ⟨e, -, rfl⟩ := List.mem_map.1 ho
      simp
    have hhist := (writes_history (L := L) (F := E.F) (naming := naming)
      (glyphs.map fun g => ((g.1, (fun (v : Int) => writeGlyphToBytes E true v.toNat (.str g.1) (asObj g.2.1) (some g.2.2)), bytesOf E g) : Str × (Int → Except Exc Bytes) × Bytes))
      (gs, fs) g.1 .absent hv (by rw [← writes_eq]; exact h1) (fun e he => by
        obtain ⟨e', he', rfl⟩ := List.mem_map.1 he
        exact hdata e' he')).2 (by rw [hnames]; exact hnd) _ (List.mem_map_of_mem hg) rfl
    rw [← writes_eq] at hhist
    have := C51_history_partial L E.F (gs, fs) (writes E naming glyphs) hops (fun pre hpre => by
      have := named_prefix (F := E.F) (w := (gs, fs)) hops (fun op ho naming' m fv data he => by
        obtain ⟨e, he', rfl⟩ := List.mem_map.1 ho
        cases he
        exact (hname e he').2.2.2) h0 pre hpre
      exact ⟨fun a b f g ha hb hab => this.distinct a b f g ha hb (hcanon _ _ hab), fun m g hm h => hgood m g (this.good m g hm) (hcanon _ _ h)⟩) g.1 .absent
      (expects_iff.2 (by show Dict.get? gs.contents g.1 = none; rw [hempty.1]; rfl))
    rw [hhist] at this
    exact this

/-- Glyphs read with validation from a glyph set of any UFO, and written to a new glyph set of UFO 3: every call returns, the new glyph set has the same names in the
order of writing, and every glyph can be read from it and is the same. Missing from the full claim: names whose own files are not different ignoring case,
for which files may clash (C52), and what no file keeps (C80). -/
theorem C84_copy_partial (E : Env) (hE : ReprLaws E) (L : Casing) (hL : CaseLaws L.lower) (src : World) (fs : FS) (gs : GlyphSet) (glyphs : List Loaded)
    (hcanon : ∀ a b, fs.canon a = fs.canon b → L.lower a = L.lower b) (hempty : gs.contents = [] ∧ gs.existing = none ∧ gs.reverse = none) (hv : gs.version = 3)
    (hflat : Flat fs gs.dir) (hnd : (glyphs.map Prod.fst).Nodup) (hload : LoadedFrom E src glyphs) (hclean : ∀ g ∈ glyphs, Spec.Glif.Clean g.2.1 g.2.2)
    (hname : OwnFiles L.lower (· ∈ glyphs.map Prod.fst)) (htext : ∀ g ∈ glyphs, AttrText g.1) :
    let w := run L E.F (gs, fs) (writes E (defaultNaming L) glyphs)
    AllReturn L E.F (gs, fs) (writes E (defaultNaming L) glyphs) ∧ keys w.1 = glyphs.map Prod.fst ∧ ∀ g ∈ glyphs, HoldsGlyph E w g := by
  obtain ⟨h1, h2, -, -, -, h6⟩ := copy_core hE (Good := fun m f => m ∈ glyphs.map Prod.fst ∧ f = ownFile L.lower m) hcanon hempty hv hflat hnd hload hclean
    (fun g hg => ⟨hname.nonempty _ (List.mem_map_of_mem hg), htext g hg, total_own hL hname (List.mem_map_of_mem hg), admissible_own hL hname (List.mem_map_of_mem hg)⟩)
    (own_avoids hL)
  refine ⟨h1, h2, fun g hg => ?_⟩
  obtain ⟨b, attrs, calls, k1, k2, k3, k4, -⟩ := loaded_writes hE (hload g hg) (hclean g hg) (hname.nonempty _ (List.mem_map_of_mem hg)) (htext g hg)
  refine ⟨attrs, calls, bytes_readGlyph (by rw [run_version]; exact hv) (by rw [h6 g hg, bytesOf_eq k1]) k2, k3, k4⟩

/-- The same with a naming function of the caller that always gives a name that is not taken. -/
theorem C84_named_partial (E : Env) (hE : ReprLaws E) (L : Casing) (naming : Naming) (hfresh : FreshNaming L.lower naming) (htotal : ∀ n ex, ∃ f, naming n ex = .ok f)
    (src : World) (fs : FS) (gs : GlyphSet) (glyphs : List Loaded)
    (hcanon : ∀ a b, fs.canon a = fs.canon b → L.lower a = L.lower b) (hempty : gs.contents = [] ∧ gs.existing = none ∧ gs.reverse = none) (hv : gs.version = 3)
    (hflat : Flat fs gs.dir) (hnd : (glyphs.map Prod.fst).Nodup) (hload : LoadedFrom E src glyphs) (hclean : ∀ g ∈ glyphs, Spec.Glif.Clean g.2.1 g.2.2)
    (hname : ∀ g ∈ glyphs, g.1 ≠ [] ∧ AttrText g.1) :
    let w := run L E.F (gs, fs) (writes E naming glyphs)
    AllReturn L E.F (gs, fs) (writes E naming glyphs) ∧ keys w.1 = glyphs.map Prod.fst ∧ ∀ g ∈ glyphs, HoldsGlyph E w g := by
  obtain ⟨h1, h2, -, -, -, h6⟩ := copy_core hE (Good := fun _ f => L.lower f ≠ L.lower c!"contents.plist") hcanon hempty hv hflat hnd hload hclean
    (fun g hg => ⟨(hname g hg).1, (hname g hg).2, fun _ ex _ _ _ => htotal _ ex, admissible_fresh hfresh _⟩) (fun _ _ h => h)
  refine ⟨h1, h2, fun g hg => ?_⟩
  obtain ⟨b, attrs, calls, k1, k2, k3, k4, -⟩ := loaded_writes hE (hload g hg) (hclean g hg) (hname g hg).1 (hname g hg).2
  refine ⟨attrs, calls, bytes_readGlyph (by rw [run_version]; exact hv) (by rw [h6 g hg, bytesOf_eq k1]) k2, k3, k4⟩

theorem run_append_ops (L : Casing) (F : FloatCodec) : ∀ (a b : List Op) (w : World), run L F w (a ++ b) = run L F (run L F w a) b
  | [], _, _ => rfl
  | op :: a, b, w => run_append_ops L F a b (step L F w op).1

/-- What is there after saving and opening the directory again. -/
structure Reopened (F : FloatCodec) (w : World) (gs : GlyphSet) (fs : FS) : Prop where
  dir : gs.dir = w.1.dir
  version : gs.version = 3
  previous : gs.havePrevious = true
  table : Dict.Equiv gs.contents w.1.contents
  wf : Dict.WF gs.contents
  texts : ∀ n d, getGLIF w n = .ok d → getGLIF (gs, fs) n = .ok d
  again : writeContents F (gs, fs) = ((gs, fs), .ok ())

theorem save_reopen {F : FloatCodec} (hF : F.Lawful) {L : Casing} {Good : Str → Str → Prop} {w : World} (hcanon : ∀ a b, w.2.canon a = w.2.canon b → L.lower a = L.lower b)
    (hn : Named L Good w.1) (hgood : ∀ m f, Good m f → L.lower f ≠ L.lower c!"contents.plist") (ht : ∀ n f, Dict.get? w.1.contents n = some f → FileText n ∧ FileText f)
    (hread : ∀ n ∈ keys w.1, ∃ d, getGLIF w n = .ok d) (hflat : Flat w.2 w.1.dir) (validate : Bool) :
    (writeContents F w).2 = .ok () ∧ ∃ gs, openGlyphSet F (writeContents F w).1.2 w.1.dir 3 validate = .ok gs ∧ Reopened F w gs (writeContents F w).1.2 := by
  have hisdir : w.2.isdir w.1.dir = true := by
    unfold isdir
    rw [hflat.1]
  have hnotdir : w.2.isdir (w.1.dir ++ [c!"contents.plist"]) = false := by
    have := hflat.2 c!"contents.plist"
    unfold isdir
    split <;> simp_all
  obtain ⟨h1, gs, h2, h3⟩ := C55_reopen_partial F hF w hn.sound.wf ht hread hisdir hnotdir 3 (by simp) validate
  refine ⟨h1, gs, h2, ?_⟩
  have hwp : writePlist F w.1.havePrevious w.2 (w.1.dir ++ [contentsName]) (contentsVal w.1.contents) = ((writeContents F w).1.2, .ok ()) := Prod.ext rfl h1
  obtain ⟨hc, hother, hdata⟩ := writePlist_spec hwp
  obtain ⟨data, hd1, hd2⟩ := hdata rfl
  have hwf := openGlyphSet_wf h2
  have hfields : gs.dir = w.1.dir ∧ gs.version = 3 ∧ gs.havePrevious = (writeContents F w).1.2.exists (w.1.dir ++ [contentsName]) := by
    unfold openGlyphSet rebuildContents at h2
    rw [if_pos (by simp)] at h2
    split at h2
    · cases h2
    · split at h2
      · cases h2
      · cases h2
        exact ⟨rfl, rfl, rfl⟩
  have hprev : gs.havePrevious = true := by rw [hfields.2.2]; exact exists_of_getbytes hd2
  have hperm := Ufo.perm_of_get? hn.sound.wf hwf (fun k => (h3 k).symm)
  have hdump : dumpBytes F (contentsVal gs.contents) = .ok data := by
    have hw : WellFormed (contentsVal w.1.contents) := wellFormed_strings w.1.contents hn.sound.wf
    have hs : Same (contentsVal w.1.contents) (contentsVal gs.contents) := .dict _ _ (Plist.sameItems_of_perm (hperm.map _))
    rw [← hd1]
    unfold dumpBytes Plist.dumps
    rw [show Plist.totree F false true 1 (contentsVal w.1.contents) = Plist.totree F false true 1 (contentsVal gs.contents) from (Plist.same_tree F false true hs hw).2 1]
  refine ⟨hfields.1, hfields.2.1, hprev, h3, hwf, fun n d hg => ?_, ?_⟩
  · obtain ⟨f, hf, hb⟩ := (expects_iff (s := .holds d)).1 hg
    refine (expects_iff (s := .holds d)).2 ⟨f, by show Dict.get? gs.contents n = some f; rw [h3 n, hf], ?_⟩
    show (writeContents F w).1.2.getbytes (gs.dir ++ [f]) = .ok d
    rw [hfields.1, getbytes_of_node? (hother _ ?_)]
    · exact hb
    · intro hk
      unfold FS.key at hk
      rw [List.map_append, List.map_append] at hk
      have := List.append_cancel_left hk
      simp at this
      exact hgood n f (hn.good n f hf) (hcanon _ _ this)
  · have : writePlist F gs.havePrevious (writeContents F w).1.2 (gs.dir ++ [contentsName]) (contentsVal gs.contents) = ((writeContents F w).1.2, .ok ()) := by
      rw [hprev, hfields.1]
      exact C56_plist F _ _ _ data hdump hd2
    generalize (writeContents F w).1.2 = x at this ⊢
    unfold writeContents
    dsimp only
    rw [this]

/-- Writing glyphs again with the texts they have changes nothing. -/
theorem writes_again {L : Casing} {E : Env} {naming : Naming} {w : World} (hp : w.1.havePrevious = true) (hv : w.1.version = 3) {glyphs : List Loaded}
    (h : ∀ g ∈ glyphs, ∃ b, getGLIF w g.1 = .ok b ∧ writeGlyphToBytes E true 2 (.str g.1) (asObj g.2.1) (some g.2.2) = .ok b) :
    run L E.F w (writes E naming glyphs) = w ∧ AllReturn L E.F w (writes E naming glyphs) := by
  induction glyphs with
  | nil =>
    refine ⟨rfl, fun pre op h => ?_⟩
    simp [writes] at h
  | cons g glyphs ih =>
    obtain ⟨b, hg, hb⟩ := h g (by simp)
    obtain ⟨f, hf, hfb⟩ := (expects_iff (s := .holds b)).1 hg
    obtain ⟨i1, i2⟩ := ih fun g hg => h g (by simp [hg])
    have hstep : step L E.F w (.write naming g.1 none fun v => writeGlyphToBytes E true v.toNat (.str g.1) (asObj g.2.1) (some g.2.2)) = (w, .ok ()) := by
      show GlyphSet.writeGlyph L naming w g.1 none _ = _
      have ha : assignFile L naming w.1 g.1 = (w.1, .ok f) := by simp [assignFile, hf]
      have hgv : glifVersion w.1 none = .ok 2 := by simp [glifVersion, hv]
      unfold GlyphSet.writeGlyph
      rw [hgv]
      dsimp only
      rw [ha]
      dsimp only
      rw [show (2 : Int).toNat = 2 from rfl, hb]
      simp [storeGlyph, hp, unchanged_iff.2 hfb]
    refine ⟨?_, fun pre op hpre => ?_⟩
    · rw [writes, List.map_cons, run, hstep]
      exact i1
    · rw [writes, List.map_cons] at hpre
      cases pre with
      | nil =>
        obtain ⟨t, ht⟩ := hpre
        simp at ht
        rw [ht.1, run, hstep]
      | cons p pre =>
        rw [List.cons_append, List.cons_prefix_cons] at hpre
        obtain ⟨rfl, hpre⟩ := hpre
        rw [run, hstep]
        exact i2 pre op hpre

/-- The copy after `writeContents`: it can be opened, has the same glyph names, every glyph is the same; and what is loaded from it and written to it again, under any
naming function and in any order, changes no file. -/
theorem saved_copy {E : Env} (hE : ReprLaws E) {L : Casing} (hL : CaseLaws L.lower) {src : World} {fs : FS} {gs : GlyphSet} {glyphs : List Loaded}
    (hcanon : ∀ a b, fs.canon a = fs.canon b → L.lower a = L.lower b) (hempty : gs.contents = [] ∧ gs.existing = none ∧ gs.reverse = none) (hv : gs.version = 3)
    (hflat : Flat fs gs.dir) (hnd : (glyphs.map Prod.fst).Nodup) (hload : LoadedFrom E src glyphs) (hclean : ∀ g ∈ glyphs, Spec.Glif.Clean g.2.1 g.2.2)
    (hname : OwnFiles L.lower (· ∈ glyphs.map Prod.fst)) (htext : ∀ g ∈ glyphs, AttrText g.1) (validate : Bool) :
    let w := run L E.F (gs, fs) (writes E (defaultNaming L) glyphs)
    (writeContents E.F w).2 = .ok () ∧ ∃ gs', openGlyphSet E.F (writeContents E.F w).1.2 gs.dir 3 validate = .ok gs' ∧ Reopened E.F w gs' (writeContents E.F w).1.2 ∧
      (∀ n, n ∈ keys gs' ↔ n ∈ glyphs.map Prod.fst) ∧ ∀ g ∈ glyphs, getGLIF (gs', (writeContents E.F w).1.2) g.1 = .ok (bytesOf E g) := by
  obtain ⟨h1, h2, h3, h4, h5, h6⟩ := copy_core hE (Good := fun m f => m ∈ glyphs.map Prod.fst ∧ f = ownFile L.lower m) hcanon hempty hv hflat hnd hload hclean
    (fun g hg => ⟨hname.nonempty _ (List.mem_map_of_mem hg), htext g hg, total_own hL hname (List.mem_map_of_mem hg), admissible_own hL hname (List.mem_map_of_mem hg)⟩)
    (own_avoids hL)
  intro w
  have hc : w.2.canon = fs.canon := run_canon L E.F (gs, fs) _
  obtain ⟨k1, gs', k2, k3⟩ := save_reopen (F := E.F) hE.lawful (w := w) (by rw [hc]; exact hcanon) h3 (own_avoids hL)
    (fun n f hf => by
      obtain ⟨e1, rfl⟩ := h3.good n f hf
      obtain ⟨g, hg, rfl⟩ := List.mem_map.1 e1
      exact ⟨(htext g hg).1, ownFile_text (htext g hg).1⟩)
    (fun n hn => by
      rw [h2] at hn
      obtain ⟨g, hg, rfl⟩ := List.mem_map.1 hn
      exact ⟨_, h6 g hg⟩) (by rw [h5]; exact h4) validate
  rw [h5] at k2
  refine ⟨k1, gs', k2, k3, fun n => ?_, fun g hg => k3.texts _ _ (h6 g hg)⟩
  rw [← h2]
  show n ∈ Dict.keys gs'.contents ↔ n ∈ Dict.keys w.1.contents
  rw [← not_iff_not, ← Dict.get?_eq_none_iff, ← Dict.get?_eq_none_iff, k3.table n]

/-- The copy after `writeContents`: it can be opened, has the same glyph names, and every glyph is the same. -/
theorem C84_saved_partial (E : Env) (hE : ReprLaws E) (L : Casing) (hL : CaseLaws L.lower) (src : World) (fs : FS) (gs : GlyphSet) (glyphs : List Loaded)
    (hcanon : ∀ a b, fs.canon a = fs.canon b → L.lower a = L.lower b) (hempty : gs.contents = [] ∧ gs.existing = none ∧ gs.reverse = none) (hv : gs.version = 3)
    (hflat : Flat fs gs.dir) (hnd : (glyphs.map Prod.fst).Nodup) (hload : LoadedFrom E src glyphs) (hclean : ∀ g ∈ glyphs, Spec.Glif.Clean g.2.1 g.2.2)
    (hname : OwnFiles L.lower (· ∈ glyphs.map Prod.fst)) (htext : ∀ g ∈ glyphs, AttrText g.1) (validate : Bool) :
    let r := writeContents E.F (run L E.F (gs, fs) (writes E (defaultNaming L) glyphs))
    r.2 = .ok () ∧ ∃ gs', openGlyphSet E.F r.1.2 gs.dir 3 validate = .ok gs' ∧ (∀ n, n ∈ keys gs' ↔ n ∈ glyphs.map Prod.fst) ∧ ∀ g ∈ glyphs, HoldsGlyph E (gs', r.1.2) g := by
  obtain ⟨h1, gs', h2, h3, h4, h5⟩ := saved_copy hE hL hcanon hempty hv hflat hnd hload hclean hname htext validate
  refine ⟨h1, gs', h2, h4, fun g hg => ?_⟩
  obtain ⟨b, attrs, calls, k1, k2, k3, k4, -⟩ := loaded_writes hE (hload g hg) (hclean g hg) (hname.nonempty _ (List.mem_map_of_mem hg)) (htext g hg)
  exact ⟨attrs, calls, bytes_readGlyph h3.version (by rw [h5 g hg, bytesOf_eq k1]) k2, k3, k4⟩

/-- Once copied and saved, a layer is settled: whatever is loaded from it and written to it again, in any order and with any naming function, and saved, every call
returns and no file is touched. -/
theorem C85_settled_partial (E : Env) (hE : ReprLaws E) (L : Casing) (hL : CaseLaws L.lower) (src : World) (fs : FS) (gs : GlyphSet) (glyphs : List Loaded)
    (hcanon : ∀ a b, fs.canon a = fs.canon b → L.lower a = L.lower b) (hempty : gs.contents = [] ∧ gs.existing = none ∧ gs.reverse = none) (hv : gs.version = 3)
    (hflat : Flat fs gs.dir) (hnd : (glyphs.map Prod.fst).Nodup) (hload : LoadedFrom E src glyphs) (hclean : ∀ g ∈ glyphs, Spec.Glif.Clean g.2.1 g.2.2)
    (hname : OwnFiles L.lower (· ∈ glyphs.map Prod.fst)) (htext : ∀ g ∈ glyphs, AttrText g.1) (validate : Bool) (gs' : GlyphSet) (naming : Naming) (again : List Loaded) :
    let fs' := (writeContents E.F (run L E.F (gs, fs) (writes E (defaultNaming L) glyphs))).1.2
    openGlyphSet E.F fs' gs.dir 3 validate = .ok gs' → LoadedFrom E (gs', fs') again →
      AllReturn L E.F (gs', fs') (writes E naming again ++ [.save]) ∧ (run L E.F (gs', fs') (writes E naming again ++ [.save])).2 = fs' := by
  obtain ⟨h1, gs1, h2, h3, h4, h5⟩ := saved_copy hE hL hcanon hempty hv hflat hnd hload hclean hname htext validate
  intro fs' hopen hagain
  have hgs : gs1 = gs' := by
    have : openGlyphSet E.F fs' gs.dir 3 validate = .ok gs1 := h2
    rw [hopen] at this
    injection this with this
    exact this.symm
  subst hgs
  obtain ⟨k1, k2⟩ := writes_again (L := L) (E := E) (naming := naming) (w := (gs1, fs')) h3.previous h3.version (glyphs := again) (fun g hg => by
    obtain ⟨b, hb, hr⟩ := read_bytes (hagain g hg)
    have hmem : g.1 ∈ keys gs1 := by
      obtain ⟨f, hf, -⟩ := (expects_iff (s := .holds b)).1 hb
      exact Dict.mem_keys_of_mem (Dict.mem_of_get? hf)
    obtain ⟨g0, hg0, he⟩ := List.mem_map.1 ((h4 _).1 hmem)
    obtain ⟨b0, attrs, calls, l1, l2, l3, l4, l5⟩ := loaded_writes hE (hload g0 hg0) (hclean g0 hg0) (hname.nonempty _ (List.mem_map_of_mem hg0)) (htext g0 hg0)
    have hb0 : getGLIF (gs1, fs') g0.1 = .ok b0 := by rw [← bytesOf_eq l1]; exact h5 g0 hg0
    rw [he, hb] at hb0
    injection hb0 with hb0
    subst hb0
    rw [show ((gs1, fs') : World).1.version = 3 from h3.version, if_neg (by omega), l2] at hr
    injection hr with hr
    refine ⟨b, hb, ?_⟩
    rw [← hr, ← he]
    exact l5)
  have hsave : step L E.F (gs1, fs') .save = ((gs1, fs'), .ok ()) := h3.again
  refine ⟨fun pre op hpre => ?_, ?_⟩
  · rcases List.prefix_concat_iff.1 hpre with hpre | hpre
    · have := List.append_inj' hpre rfl
      obtain ⟨rfl, hop⟩ := this
      simp at hop
      subst hop
      rw [k1, hsave]
    · exact k2 pre op hpre
  · rw [run_append_ops, k1]
    show (step L E.F (gs1, fs') .save).1.2 = fs'
    rw [hsave]

/-! ### an example -/

/-- A glyph set of UFO 1, and the directory of a new UFO 3. The file of `A.alt` says `A&B`. -/
def src84 : World :=
  ({ dir := [c!"glyphs"], contents := [(c!"A.alt", c!"x.glif"), (c!"a", c!"y.glif")], existing := none, reverse := none, havePrevious := true, version := 1, validateRead := true },
   { canon := id, log := [], nodes := [([c!"glyphs"], .dir), ([c!"glyphs", c!"x.glif"], .file (utf8 text80)),
       ([c!"glyphs", c!"y.glif"], .file (utf8 c!"<glyph name='a' format='1'><advance width='50'/></glyph>"))] })

/-- What is loaded from it. -/
def loaded84 : List Loaded := [c!"a", c!"A.alt"].filterMap fun n => (readGlyph env71 src84 n true true true).toOption.map fun r => (n, r)

theorem toOption_some {α : Type} {x : Except Exc α} {a : α} (h : x.toOption = some a) : x = .ok a := by
  cases x with
  | error e => cases h
  | ok b => cases h; rfl

theorem loaded84_from : LoadedFrom env71 src84 loaded84 := by
  intro g hg
  obtain ⟨n, -, h⟩ := List.mem_filterMap.1 hg
  cases hr : (readGlyph env71 src84 n true true true).toOption with
  | none => rw [hr] at h; cases h
  | some r =>
    rw [hr] at h
    cases h
    exact toOption_some hr

example : loaded84.map (fun g => (g.1, delivered g.2.1 c!"name")) = [(c!"a", .str c!"a"), (c!"A.alt", .str c!"A&B")] := by decide +kernel

theorem clean84 : ∀ g ∈ loaded84, Spec.Glif.Clean g.2.1 g.2.2 := by
  have h1 : ∀ g ∈ loaded84, ∀ k ∈ [c!"name", c!"image", c!"guidelines", c!"anchors"], ∀ s ∈ strings (delivered g.2.1 k), '\r' ∉ s ∧ '\t' ∉ s := by decide +kernel
  have h2 : ∀ g ∈ loaded84, ∀ c ∈ g.2.2, ∀ s ∈ callStrings c, '\r' ∉ s ∧ '\t' ∉ s := by decide +kernel
  have h3 : ∀ g ∈ loaded84, ∀ s ∈ strings (delivered g.2.1 c!"note"), '\r' ∉ s := by decide +kernel
  have h4 : ∀ g ∈ loaded84, delivered g.2.1 c!"lib" = .none ∨ delivered g.2.1 c!"lib" = .dict [(.str c!"b", .int 2), (.str c!"a", .str c!"x < y")] := by decide +kernel
  intro g hg
  refine ⟨h1 g hg, h2 g hg, h3 g hg, ?_⟩
  rcases h4 g hg with h | h <;> rw [h] <;> simp [Spec.Plist.Fits, Spec.Plist.FitsItems]

/-- The hypotheses of the theorems hold: both glyphs are copied to a new glyph set. -/
example : ∃ gs', openGlyphSet env71.F (writeContents env71.F (run asciiCasing env71.F (new51.1, new51.2) (writes env71 (defaultNaming asciiCasing) loaded84))).1.2 new51.1.dir 3 true = .ok gs' ∧
    (∀ n, n ∈ keys gs' ↔ n ∈ [c!"a", c!"A.alt"]) ∧
    ∀ g ∈ loaded84, HoldsGlyph env71 (gs', (writeContents env71.F (run asciiCasing env71.F (new51.1, new51.2) (writes env71 (defaultNaming asciiCasing) loaded84))).1.2) g := by
  have hn : loaded84.map Prod.fst = [c!"a", c!"A.alt"] := by decide +kernel
  have := C84_saved_partial env71 reprLaws71 asciiCasing asciiCasing_laws src84 new51.2 new51.1 loaded84 (fun a b h => congrArg asciiCasing.lower h)
    ⟨rfl, rfl, rfl⟩ rfl ⟨by decide +kernel, fun f => by
      unfold new51 fs51
      simp [FS.node?, FS.key, Dict.get?]⟩ (by rw [hn]; decide) loaded84_from clean84
    (hn ▸ own_list asciiCasing_ascii (by decide +kernel) (by decide +kernel)) (by unfold AttrText FileText XmlText; decide +kernel) true
  rw [hn] at this
  exact this.2

/-- Two glyphs whose names the default naming function maps to the same file. -/
def clash84 : List Loaded := [(c!"A*", [(c!"name", .str c!"A*"), (c!"width", .int 1)], []), (c!"A_", [(c!"name", .str c!"A_"), (c!"width", .int 2)], [])]

/-- The full claim fails for other names: both calls return, but the first glyph of the copy is the second one. -/
theorem C84_refuted : let w := run asciiCasing fractionCodec new51 (writes env71 (defaultNaming asciiCasing) clash84)
    keys w.1 = [c!"A*", c!"A_"] ∧ ((readGlyph env71 w c!"A*" true true true).toOption.map fun r => (delivered r.1 c!"name", delivered r.1 c!"width")) = some (.str c!"A_", .int 2) := by
  decide +kernel

end Verif.Props
