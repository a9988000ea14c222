import Verif.Proofs.RestartFiles
import Verif.Props.InterruptAgain
import Verif.Props.Edit
/-! C117: starting a program again after it was interrupted. -/
namespace Verif.Props
open Verif Verif.FS Verif.Ufo Verif.Spec.Interrupt Verif.Spec.Ufo Verif.Spec.Restart Verif.Restart

theorem forall₂_at {α β : Type} {R : α → β → Prop} {a : List α} {b : List β} (h : List.Forall₂ R a b) : ∀ i : Nat, (a[i]? = none ∧ b[i]? = none) ∨ ∃ x y, a[i]? = some x ∧ b[i]? = some y ∧ R x y := by
  induction h with
  | nil => exact fun i => .inl ⟨rfl, rfl⟩
  | @cons x y a b hr _ ih =>
    intro i
    cases i with
    | zero => exact .inr ⟨x, y, rfl, rfl, hr⟩
    | succ i => simpa using ih i

/-- C117. A program that adds and replaces glyphs in layers that are there, saves the tables, and writes other files of the UFO, is stopped at any moment. When it obtains the glyph sets again from
what is left and makes the calls again, from the first one, every file and directory is as if it had not been stopped. Missing from the full claim: glyphs that are deleted (`C117_refuted_delete`); the
glyph sets cannot be obtained when the program was stopped while a table was being written (`C117_refuted_table`). -/
theorem C117_restart_partial (E : FontInfo.Env) (hF : E.F.Lawful) (L : Casing) (hL : Spec.GlyphSet.CaseLaws L.lower) (f : Font) (hw : Dict.WF f.writer.layers) (hd : LayerDirs f.writer.layers)
    (hcanon : ∀ a b, f.fs.canon a = f.fs.canon b → L.lower a = L.lower b) (hown : f.fs.canon c!"layerinfo.plist" ≠ f.fs.canon c!"contents.plist") (dirs : List Str)
    (ho : Obtained E.F L.lower f dirs) (calls : List FontCall) (hs : Saves E L f dirs calls) (hok : ∀ i, ∀ r ∈ f.outcomes E L i calls, r = .ok ())
    (left : FS) (hst : StoppedBetween f.fs (f.run E L calls).fs left) (again : List GlyphSet.GlyphSet) (hag : ObtainedAgain E.F left f.sets again) (p : Path) :
    (Font.run E L { writer := f.writer, fs := left, sets := again } calls).fs.node? p = (f.run E L calls).fs.node? p := by
  have htable : ∀ (i : Nat) gs, f.sets[i]? = some gs → ∃ d v, dirs[i]? = some d ∧ gs.dir = [d] ∧ GlyphSet.openGlyphSet E.F f.fs [d] gs.version v = .ok gs ∧
      ∃ b, f.fs.node? [d, c!"contents.plist"] = some (.file b) := by
    intro i gs hi
    rcases forall₂_at ho.opened i with ⟨h1, -⟩ | ⟨g, d, h1, h2, v, h3⟩
    · rw [hi] at h1; cases h1
    · rw [hi] at h1; cases h1
      exact ⟨d, v, h2, (open_ok h3).2.1, h3, ho.tables d (List.mem_of_getElem? h2)⟩
  have hgood : ∀ (i : Nat) gs, f.sets[i]? = some gs → gs.havePrevious = true ∧ Good L gs := by
    intro i gs hi
    obtain ⟨d, v, h1, h2, h3, b, h4⟩ := htable i gs hi
    obtain ⟨a1, a2, a3, a4, a5, -⟩ := open_ok h3
    refine ⟨?_, a5, cache_none a1, ho.text gs (List.mem_of_getElem? hi), ho.avoids gs (List.mem_of_getElem? hi)⟩
    rw [a4]
    unfold FS.exists
    rw [show [d] ++ [GlyphSet.contentsName] = [d, c!"contents.plist"] from rfl, h4]; rfl
  have htidy : Restart.Tidy L dirs f := ⟨⟨hw, hd⟩, hcanon, hown, ho.apart, fun i gs hi => by
    obtain ⟨d, v, h1, h2, -⟩ := htable i gs hi
    exact ⟨(hgood i gs hi).1, (hgood i gs hi).2, d, h1, h2⟩⟩
  have hfine : ∀ c ∈ calls, Fine L f.fs.canon dirs c := by
    intro c hc
    cases c with
    | getGlyphSet n b v => exact absurd hc (hs.known n b v)
    | ufo op => exact .ufo (hs.others op hc).spares
    | set i c => exact .set (hs.sets i c hc)
  have hadds : ∀ i, ∀ c ∈ calls.filterMap (onSet i), AddsGlyphs L c := by
    intro i c hc
    obtain ⟨x, hx, hxc⟩ := List.mem_filterMap.1 hc
    cases x with
    | getGlyphSet n b v => cases hxc
    | ufo op => cases hxc
    | set j c' =>
      simp only [onSet] at hxc
      split at hxc
      · cases hxc; exact hs.sets _ _ hx
      · cases hxc
  have hrep : ∀ op, .ufo op ∈ calls → Repeatable op := fun op h => (hs.others op h).repeatable
  -- the session that is not stopped
  have hself : Pair L f f calls := by
    refine ⟨rfl, ⟨rfl, fun _ => Iff.rfl⟩, fun i => ?_⟩
    cases hi : f.sets[i]? with
    | none => exact .inl ⟨rfl, rfl⟩
    | some gs =>
      obtain ⟨g1, g2⟩ := hgood i gs hi
      exact .inr ⟨gs, gs, rfl, rfl, g1, g1, g2, g2, hadds i, named_run E L i calls f gs hi hs.sets hs.known (hok i), .inl ⟨rfl, rfl, g2.wf, g2.wf, g2.cache, g2.cache, fun _ => rfl⟩⟩
  obtain ⟨ps0, -, hr0, -, -, -⟩ := pair_run hF hL calls f f hself hrep hs.known hs.oneFile
  have hsame := (Interrupt.runs_stopped hr0 left hst).dirs
  -- the program that is started again
  have hpair : Pair L f { writer := f.writer, fs := left, sets := again } calls := by
    refine ⟨rfl, hsame, fun i => ?_⟩
    rcases forall₂_at hag i with h | ⟨gs, gs', hi, hi', v', hopen⟩
    · exact .inl h
    · obtain ⟨g1, g2⟩ := hgood i gs hi
      obtain ⟨d, v, hdi, hdir, ho0, b, hb⟩ := htable i gs hi
      have hpath : gs.dir ++ [GlyphSet.contentsName] = [d, c!"contents.plist"] := by rw [hdir]; rfl
      have hfol : Restart.Follows L gs gs' (calls.filterMap (onSet i)) ∧ gs'.havePrevious = true := by
        obtain ⟨-, -, -, b4, -⟩ := open_ok hopen
        have hprev : ∀ x, left.node? (gs.dir ++ [GlyphSet.contentsName]) = some (.file x) → gs'.havePrevious = true := by
          intro x hx
          rw [b4]
          unfold FS.exists
          rw [hx]; rfl
        rcases table_run hL calls f htidy hfine i gs hi left hst with e | ⟨pre, post, e, D, j, hD, hn⟩
        · refine ⟨.inl (open_same (by rw [hdir]; exact ho0) hopen e), hprev b ?_⟩
          rw [e, hpath, hb]
        · refine ⟨.inr ⟨pre, post, e, ?_⟩, hprev _ hn⟩
          have hg : Good L (afterAll L gs pre) := good_afterAll hL pre g2 fun c hc => hadds i c (by rw [e]; simp [hc])
          obtain ⟨k1, k2⟩ := afterAll_dir L pre gs
          exact open_cut hF hg hD (by rw [k1, k2]; exact hopen) (by rw [k1]; exact hn)
      have hgood' : Good L gs' := by
        have key : ∀ g : GlyphSet.GlyphSet, Restart.Good L g → Level g gs' → Good L gs' := fun g hg hl =>
          ⟨hl.wf', hl.cache', fun m x h => hg.text m x (by rw [hl.same m]; exact h), fun m x h => hg.avoids m x (by rw [hl.same m]; exact h)⟩
        rcases hfol.1 with h | ⟨pre, post, e, h⟩
        · exact key _ g2 h
        · exact key _ (good_afterAll hL pre g2 fun c hc => hadds i c (by rw [e]; simp [hc])) h
      exact .inr ⟨gs, gs', hi, hi', g1, hfol.2, g2, hgood', hadds i, named_run E L i calls f gs hi hs.sets hs.known (hok i), hfol.1⟩
  obtain ⟨ps, ps', hr, hr', hm, -⟩ := pair_run hF hL calls f _ hpair hrep hs.known hs.oneFile
  exact runs_matches hm hr hr' (Interrupt.runs_stopped hr left hst) (fun _ h => h) p

/-- The glyph sets can be opened in what is left, when the tables can be read there. -/
theorem obtained_opens (E : FontInfo.Env) (hF : E.F.Lawful) (L : Casing) (hL : Spec.GlyphSet.CaseLaws L.lower) (f : Font) (hw : Dict.WF f.writer.layers) (hd : LayerDirs f.writer.layers)
    (hcanon : ∀ a b, f.fs.canon a = f.fs.canon b → L.lower a = L.lower b) (hown : f.fs.canon c!"layerinfo.plist" ≠ f.fs.canon c!"contents.plist") (dirs : List Str)
    (ho : Obtained E.F L.lower f dirs) (hfiles : ∀ gs ∈ f.sets, FilesThere L.lower f.fs gs) (calls : List FontCall) (hs : Saves E L f dirs calls) (hok : ∀ i, ∀ r ∈ f.outcomes E L i calls, r = .ok ())
    (left : FS) (hst : StoppedBetween f.fs (f.run E L calls).fs left) (hread : ∀ gs ∈ f.sets, TableReadable E.F left gs) (gs : GlyphSet.GlyphSet) (hgs : gs ∈ f.sets) (v : Bool) :
    ∃ gs', GlyphSet.openGlyphSet E.F left gs.dir gs.version v = .ok gs' := by
  have htable : ∀ (i : Nat) gs, f.sets[i]? = some gs → ∃ d v, dirs[i]? = some d ∧ gs.dir = [d] ∧ GlyphSet.openGlyphSet E.F f.fs [d] gs.version v = .ok gs ∧
      ∃ b, f.fs.node? [d, c!"contents.plist"] = some (.file b) := by
    intro i gs hi
    rcases forall₂_at ho.opened i with ⟨h1, -⟩ | ⟨g, d, h1, h2, v, h3⟩
    · rw [hi] at h1; cases h1
    · rw [hi] at h1; cases h1
      exact ⟨d, v, h2, (open_ok h3).2.1, h3, ho.tables d (List.mem_of_getElem? h2)⟩
  have htidy : Restart.Tidy L dirs f := by
    refine ⟨⟨hw, hd⟩, hcanon, hown, ho.apart, fun i gs hi => ?_⟩
    obtain ⟨d, v, h1, h2, h3, b, h4⟩ := htable i gs hi
    obtain ⟨a1, a2, a3, a4, a5, -⟩ := open_ok h3
    refine ⟨?_, ⟨a5, cache_none a1, ho.text gs (List.mem_of_getElem? hi), ho.avoids gs (List.mem_of_getElem? hi)⟩, d, h1, h2⟩
    rw [a4]
    unfold FS.exists
    rw [show [d] ++ [GlyphSet.contentsName] = [d, c!"contents.plist"] from rfl, h4]; rfl
  have hfine : ∀ c ∈ calls, Fine L f.fs.canon dirs c := by
    intro c hc
    cases c with
    | getGlyphSet n b v => exact absurd hc (hs.known n b v)
    | ufo op => exact .ufo (hs.others op hc).spares
    | set i c => exact .set (hs.sets i c hc)
  obtain ⟨i, hi⟩ := List.mem_iff_getElem?.1 hgs
  obtain ⟨d, v', h1, h2, h3, -⟩ := htable i gs hi
  obtain ⟨hth, htf⟩ := fine_opened (L := L) h3 (fun m x hx => by have := hfiles gs hgs m x hx; rw [h2] at this; exact this)
  have hl := fine_run hF hL i d (List.mem_of_getElem? h1) calls f gs htidy hfine hi h2 htf hth (hok i) left hst
  obtain ⟨x, hx⟩ := hread gs hgs
  rw [h2] at hx ⊢
  exact open_fine hl hx (open_version h3) v

/-- C117. The glyph sets can be obtained from what is left when their tables can be read there: every file that such a table names exists. So the program can be started again. Missing from the full
claim: the table in a file that was being written cannot be read (`C117_refuted_table`). -/
theorem C117_obtains_partial (E : FontInfo.Env) (hF : E.F.Lawful) (L : Casing) (hL : Spec.GlyphSet.CaseLaws L.lower) (f : Font) (hw : Dict.WF f.writer.layers) (hd : LayerDirs f.writer.layers)
    (hcanon : ∀ a b, f.fs.canon a = f.fs.canon b → L.lower a = L.lower b) (hown : f.fs.canon c!"layerinfo.plist" ≠ f.fs.canon c!"contents.plist") (dirs : List Str)
    (ho : Obtained E.F L.lower f dirs) (hfiles : ∀ gs ∈ f.sets, FilesThere L.lower f.fs gs) (calls : List FontCall) (hs : Saves E L f dirs calls) (hok : ∀ i, ∀ r ∈ f.outcomes E L i calls, r = .ok ())
    (left : FS) (hst : StoppedBetween f.fs (f.run E L calls).fs left) (hread : ∀ gs ∈ f.sets, TableReadable E.F left gs) :
    ∃ again, ObtainedAgain E.F left f.sets again ∧
      ∀ p, (Font.run E L { writer := f.writer, fs := left, sets := again } calls).fs.node? p = (f.run E L calls).fs.node? p := by
  have hopen := obtained_opens E hF L hL f hw hd hcanon hown dirs ho hfiles calls hs hok left hst hread
  have key : ∀ sets : List GlyphSet.GlyphSet, (∀ gs ∈ sets, ∃ gs', GlyphSet.openGlyphSet E.F left gs.dir gs.version true = .ok gs') → ∃ again, ObtainedAgain E.F left sets again := by
    intro sets
    induction sets with
    | nil => exact fun _ => ⟨[], .nil⟩
    | cons gs sets ih =>
      intro h
      obtain ⟨gs', h1⟩ := h gs (by simp)
      obtain ⟨again, h2⟩ := ih fun g hg => h g (by simp [hg])
      exact ⟨gs' :: again, .cons ⟨true, h1⟩ h2⟩
  obtain ⟨again, hag⟩ := key f.sets fun gs hgs => hopen gs hgs true
  exact ⟨again, hag, fun p => C117_restart_partial E hF L hL f hw hd hcanon hown dirs ho calls hs hok left hst again hag p⟩

/-! ### with the opening of the UFO -/

/-- What `getGlyphSet` does for a layer that is there. -/
theorem get_eq {E : FontInfo.Env} {L : Casing} {f : Font} {n d : Str} {b v : Bool} (hv : f.writer.version = 3) (hn : Dict.get? f.writer.layers n = some d) (hd : f.fs.node? [d] = some .dir) :
    getGlyphSet L E.F f.world (some n) b v = if b && defaultConflict f.writer.layers n then (f.world, .error .ufoLibError) else (f.world, GlyphSet.openGlyphSet E.F f.fs [d] 3 v) := by
  have hmk : f.fs.makedir [d] = .ok f.fs := by unfold makedir; rw [hd]
  have hset : Dict.set f.writer.layers n d = f.writer.layers := dict_set_same hn
  unfold getGlyphSet
  rw [if_neg (by simp [Font.world, hv]), if_neg (by simp), if_neg (by simp [Font.world, hv])]
  show getGlyphSet3 L E.F f.world n b v = _
  unfold getGlyphSet3
  rw [show f.world.1 = f.writer from rfl, show f.world.2 = f.fs from rfl]
  simp only [layerDirectory, hn, hmk, hset]
  rfl

theorem get_known {E : FontInfo.Env} {L : Casing} {f : Font} {n d : Str} {b v : Bool} (hv : f.writer.version = 3) (hn : Dict.get? f.writer.layers n = some d) (hd : f.fs.node? [d] = some .dir)
    (hok : (f.step E L (.getGlyphSet (some n) b v)).2 = .ok ()) :
    ∃ gs, GlyphSet.openGlyphSet E.F f.fs [d] 3 v = .ok gs ∧ (f.step E L (.getGlyphSet (some n) b v)).1 = { f with sets := f.sets ++ [gs] } := by
  have h3 := get_eq (E := E) (L := L) (b := b) (v := v) hv hn hd
  simp only [Font.step, Font.getGlyphSet, h3] at hok ⊢
  split at hok
  · next h =>
    split at h
    · cases hok
    · cases hok
  · next gs h =>
    split at h
    · cases h
    · next hc =>
      rw [if_neg hc]
      dsimp only at h ⊢
      rw [h]
      exact ⟨gs, rfl, rfl⟩

theorem get_all {E : FontInfo.Env} {L : Casing} (gets : List Get) : ∀ (f : Font), f.writer.version = 3 → (∀ g ∈ gets, Dict.get? f.writer.layers g.layer = some g.dir ∧ f.fs.node? [g.dir] = some .dir) →
    (∀ r ∈ f.results E L (getAll gets), r = .ok ()) →
    ∃ sets, f.run E L (getAll gets) = { f with sets := f.sets ++ sets } ∧ List.Forall₂ (fun gs g => GlyphSet.openGlyphSet E.F f.fs [g.dir] 3 g.validate = .ok gs) sets gets := by
  induction gets with
  | nil => exact fun f _ _ _ => ⟨[], by simp [getAll, Font.run], .nil⟩
  | cons g gets ih =>
    intro f hv hg hr
    have hr0 : (f.step E L g.call).2 = .ok () := hr _ (by simp [getAll, Font.results])
    obtain ⟨gs, h1, h2⟩ := get_known hv (hg g (by simp)).1 (hg g (by simp)).2 hr0
    have h2' : (f.step E L g.call).1 = { f with sets := f.sets ++ [gs] } := h2
    obtain ⟨sets, h3, h4⟩ := ih { f with sets := f.sets ++ [gs] } hv (fun g h => hg g (by simp [h])) (fun r h => hr r (by
      simp only [getAll, List.map_cons, Font.results, List.mem_cons]
      right
      rw [h2']; exact h))
    refine ⟨gs :: sets, ?_, .cons h1 h4⟩
    show (f.step E L g.call).1.run E L (getAll gets) = _
    rw [h2', h3]
    simp

theorem asOps_tidy {E : FontInfo.Env} {L : Casing} (hL : Spec.GlyphSet.CaseLaws L.lower) {dirs : List Str} (calls : List FontCall) : ∀ (f : Font), Restart.Tidy L dirs f → (∀ c ∈ calls, Fine L f.fs.canon dirs c) →
    ∀ op ∈ f.asOps E L calls, .ufo op ∈ calls ∨ ∃ gs : GlyphSet.GlyphSet, (∃ d ∈ dirs, gs.dir = [d]) ∧ ((∃ o, op = .glyph gs o) ∨ ∃ i v, op = .layerInfo gs i v) := by
  induction calls with
  | nil => intro f _ _ op h; cases h
  | cons c calls ih =>
    intro f ht hc op hop
    obtain ⟨ht', hcan, -⟩ := tidy_step (E := E) hL ht (hc c (by simp))
    simp only [Font.asOps, List.mem_append] at hop
    rcases hop with hop | hop
    · cases hc c (by simp) with
      | ufo h => left; simp only [Font.asOp, Option.toList, List.mem_singleton] at hop; simp [hop]
      | @set i c hadd =>
        right
        cases hi : f.sets[i]? with
        | none => cases c <;> simp [Font.asOp, hi] at hop
        | some gs =>
          obtain ⟨-, -, d, hd, hdir⟩ := ht.sets i gs hi
          refine ⟨gs, ⟨d, List.mem_of_getElem? hd, hdir⟩, ?_⟩
          cases c with
          | glyphs o => simp [Font.asOp, hi] at hop; exact .inl ⟨o, hop⟩
          | layerInfo a b => simp [Font.asOp, hi] at hop; exact .inr ⟨a, b, hop⟩
    · rcases ih _ ht' (fun c h => by rw [hcan]; exact hc c (by simp [h])) op hop with h | h
      · exact .inl (by simp [h])
      · exact .inr h

theorem asOps_one {E : FontInfo.Env} {L : Casing} (calls : List FontCall) : ∀ (f : Font), (∀ n b v, .getGlyphSet n b v ∉ calls) →
    (∀ pre op post, calls = pre ++ .ufo op :: post → OneFile (f.run E L pre).fs op) → OneFileEach E L f.world (f.asOps E L calls) := by
  induction calls with
  | nil => intro f _ _ pre op post e; simp [Font.asOps] at e
  | cons c calls ih =>
    intro f hk ho
    have h' := ih (f.step E L c).1 (fun n b v h => hk n b v (by simp [h])) (fun pre op post e => ho (c :: pre) op post (by rw [e]; rfl))
    have hw := font_step_world E L f c
    have hcase : f.asOp c = none ∨ ∃ op, f.asOp c = some op ∧ OneFile f.fs op := by
      cases c with
      | getGlyphSet n b v => exact absurd (by simp) (hk n b v)
      | ufo op => exact .inr ⟨op, rfl, ho [] op calls rfl⟩
      | set i c =>
        cases hi : f.sets[i]? with
        | none => cases c <;> exact .inl (by simp [Font.asOp, hi])
        | some gs => cases c with
          | glyphs o => exact .inr ⟨.glyph gs o, by simp [Font.asOp, hi], .glyph⟩
          | layerInfo a b => exact .inr ⟨.layerInfo gs a b, by simp [Font.asOp, hi], .layerInfo⟩
    simp only [Font.asOps]
    rcases hcase with e | ⟨op, e, hop⟩
    · rw [e] at hw ⊢
      rw [show f.world = (f.step E L c).1.world from hw.symm]
      exact h'
    · rw [e] at hw ⊢
      intro pre o post hx
      cases pre with
      | nil =>
        simp only [Option.toList, List.singleton_append, List.nil_append, List.cons.injEq] at hx
        rw [← hx.1]; exact hop
      | cons a pre =>
        simp only [Option.toList, List.cons_append, List.cons.injEq] at hx
        have := h' pre o post hx.2
        rw [hw] at this
        rw [← hx.1]
        exact this

/-- The program that is started again, up to the opening of the glyph sets. -/
theorem program_core (E : FontInfo.Env) (hF : E.F.Lawful) (L : Casing) (hL : Spec.GlyphSet.CaseLaws L.lower) (fs fs' : FS) (creator : PyVal) (hcr : Storable creator) (w : Writer)
    (hm : readMetaInfo E.F fs true = .ok 3) (h : openWriter E.F true fs 3 creator true = (fs', .ok w)) (hk : KeepsApart fs.canon)
    (hdirs : ∀ d, GlyphsDir d → fs.exists [d] = true → fs.node? [d] = some .dir)
    (hcanon : ∀ a b, fs'.canon a = fs'.canon b → L.lower a = L.lower b) (hown : fs'.canon c!"layerinfo.plist" ≠ fs'.canon c!"contents.plist")
    (gets : List Get) (hgets : ∀ g ∈ gets, Dict.get? w.layers g.layer = some g.dir ∧ fs'.node? [g.dir] = some .dir)
    (hgot : ∀ r ∈ Font.results E L { writer := w, fs := fs', sets := [] } (getAll gets), r = .ok ())
    (htab : ∀ g ∈ gets, ∃ b, fs'.node? [g.dir, c!"contents.plist"] = some (.file b)) (hap : (gets.map fun g => fs'.canon g.dir).Nodup)
    (f : Font) (hf : f = Font.run E L { writer := w, fs := fs', sets := [] } (getAll gets))
    (htext : ∀ gs ∈ f.sets, ∀ m x, Dict.get? gs.contents m = some x → Spec.Plist.FileText m ∧ Spec.Plist.FileText x ∧ L.lower x ≠ L.lower c!"contents.plist")
    (calls : List FontCall) (hs : Saves E L f (gets.map Get.dir) calls) (hok : ∀ i, ∀ r ∈ f.outcomes E L i calls, r = .ok ())
    (hmeta : ∀ op, .ufo op ∈ calls → Spares fs.canon c!"metainfo.plist" op) (hlay : ∀ op, .ufo op ∈ calls → Spares fs.canon c!"layercontents.plist" op)
    (left : FS) (hst : StoppedBetween fs' (f.run E L calls).fs left) :
    openWriter E.F true left 3 creator true = (left, .ok w) ∧ (∀ g ∈ gets, left.node? [g.dir] = some .dir) ∧
      (∃ sets, f = { writer := w, fs := fs', sets := sets } ∧ List.Forall₂ (fun gs g => GlyphSet.openGlyphSet E.F fs' [g.dir] 3 g.validate = .ok gs) sets gets) ∧
      Layered w ∧ w.version = 3 ∧ Obtained E.F L.lower f (gets.map Get.dir) ∧
      ((∀ r ∈ Font.results E L { writer := w, fs := left, sets := [] } (getAll gets), r = .ok ()) →
        ∀ p, (Font.run E L { writer := w, fs := left, sets := [] } (getAll gets ++ calls)).fs.node? p =
          (Font.run E L { writer := w, fs := fs', sets := [] } (getAll gets ++ calls)).fs.node? p) := by
  obtain ⟨hsup, ⟨previous, hprev, hlow, hlays⟩, hwp, hv, -, -, -⟩ := openWriter_ok h
  have hl : Layered w := ⟨(initialLayers_ok hlays).1, (initialLayers_ok hlays).2⟩
  have hcan : fs'.canon = fs.canon := (Verif.IO.writePlist_spec hwp).1
  obtain ⟨sets, hrun, hfa⟩ := get_all (E := E) (L := L) gets { writer := w, fs := fs', sets := [] } hv hgets hgot
  have hfeq : f = { writer := w, fs := fs', sets := sets } := by rw [hf, hrun]; simp

  subst hfeq
  have hob : Obtained E.F L.lower { writer := w, fs := fs', sets := sets } (gets.map Get.dir) := by
    refine ⟨?_, ?_, ?_, fun gs hg m x hx => ⟨(htext gs hg m x hx).1, (htext gs hg m x hx).2.1⟩, fun gs hg m x hx => (htext gs hg m x hx).2.2⟩
    · rw [List.forall₂_map_right_iff]
      refine hfa.imp fun gs g hg => ⟨g.validate, ?_⟩
      rw [(open_ok hg).2.2.1]; exact hg
    · intro d hd
      obtain ⟨g, hg, rfl⟩ := List.mem_map.1 hd
      exact htab g hg
    · rw [List.map_map]; exact hap
  have htidy : Restart.Tidy L (gets.map Get.dir) { writer := w, fs := fs', sets := sets } := by
    refine ⟨hl, hcanon, hown, hob.apart, fun i gs hi => ?_⟩
    rcases forall₂_at hob.opened i with ⟨h1, -⟩ | ⟨g, d, h1, h2, v, h3⟩
    · rw [hi] at h1; cases h1
    · rw [hi] at h1; cases h1
      obtain ⟨a1, a2, a3, a4, a5, -⟩ := open_ok h3
      obtain ⟨b, hb⟩ := hob.tables d (List.mem_of_getElem? h2)
      have hmem : gs ∈ sets := List.mem_of_getElem? (show sets[i]? = some gs from hi)
      refine ⟨?_, ⟨a5, cache_none a1, hob.text gs hmem, hob.avoids gs hmem⟩, d, h2, a2⟩
      rw [a4]
      unfold FS.exists
      rw [show [d] ++ [GlyphSet.contentsName] = [d, c!"contents.plist"] from rfl, hb]; rfl
  have hfine : ∀ c ∈ calls, Fine L fs'.canon (gets.map Get.dir) c := by
    intro c hc
    cases c with
    | getGlyphSet n b v => exact absurd hc (hs.known n b v)
    | ufo op => exact .ufo (hs.others op hc).spares
    | set i c => exact .set (hs.sets i c hc)
  have hmem := asOps_tidy (E := E) hL calls _ htidy hfine
  have hgd : ∀ d ∈ gets.map Get.dir, GlyphsDir d := by
    intro d hd
    obtain ⟨g, hg, rfl⟩ := List.mem_map.1 hd
    exact hl.dirs _ _ (hgets g hg).1
  have hsp : ∀ a ∈ standardNames, (∀ op, .ufo op ∈ calls → Spares fs.canon a op) → ∀ op ∈ Font.asOps E L { writer := w, fs := fs', sets := sets } calls, Spares fs.canon a op := by
    intro a ha hops op hop
    rcases hmem op hop with h | ⟨gs, ⟨d, hd, hdir⟩, ⟨o, rfl⟩ | ⟨i, v, rfl⟩⟩
    · exact hops op h
    · intro c hc
      cases hc with
      | glyph h => rw [hdir] at h; cases h; exact hk.dirs a ha _ (hgd _ hd)
      | glyphRoot h => rw [hdir] at h; cases h
    · intro c hc
      cases hc with
      | layerInfo h => rw [hdir] at h; cases h; exact hk.dirs a ha _ (hgd _ hd)
      | layerInfoRoot h => rw [hdir] at h; cases h
  have hworld := font_run_world E L { writer := w, fs := fs', sets := sets } calls
  have hre := C113_reopen_partial E hF L fs fs' creator hcr w hm h hk hdirs (Font.asOps E L { writer := w, fs := fs', sets := sets } calls)
    (fun op hop => by
      rcases hmem op hop with h | ⟨gs, -, ⟨o, rfl⟩ | ⟨i, v, rfl⟩⟩
      · exact (hs.others op h).repeatable
      · exact .glyph
      · exact .layerInfo)
    (asOps_one calls _ hs.known hs.oneFile) (hsp _ (by simp [standardNames]) hmeta) (hsp _ (by simp [standardNames]) hlay) left (by
      rw [show run E L (w, fs') _ = _ from hworld.symm]; exact hst)
  have hdir2 : ∀ g ∈ gets, left.node? [g.dir] = some .dir := by
    intro g hg
    obtain ⟨pls, hp, -⟩ := Interrupt.run_plan E L (Font.asOps E L { writer := w, fs := fs', sets := sets } calls) w fs' fs' (fun op hop => by
      rcases hmem op hop with h | ⟨gs, -, ⟨o, rfl⟩ | ⟨i, v, rfl⟩⟩
      · exact (hs.others op h).repeatable
      · exact .glyph
      · exact .layerInfo) (asOps_one calls _ hs.known hs.oneFile) ⟨rfl, fun _ => Iff.rfl⟩
    rw [show run E L (w, fs') _ = _ from hworld.symm] at hp
    exact ((Interrupt.runs_stopped hp left hst).dirs.2 _).2 (hgets g hg).2
  refine ⟨hre, hdir2, ⟨sets, rfl, hfa⟩, hl, hv, hob, fun hgot' p => ?_⟩
  obtain ⟨sets', hrun', hfa'⟩ := get_all (E := E) (L := L) gets { writer := w, fs := left, sets := [] } hv (fun g hg => ⟨(hgets g hg).1, hdir2 g hg⟩) hgot'
  have hag : ObtainedAgain E.F left sets sets' := by
    have hrev : List.Forall₂ (fun g gs' => GlyphSet.openGlyphSet E.F left [g.dir] 3 g.validate = .ok gs') gets sets' := hfa'.flip
    clear * - hfa hrev
    unfold ObtainedAgain
    induction hfa generalizing sets' with
    | nil => cases hrev; exact .nil
    | @cons gs g sets gets h1 _ ih =>
      cases hrev with
      | cons h2 hr =>
        refine .cons ⟨g.validate, ?_⟩ (ih _ hr)
        rw [(open_ok h1).2.1, (open_ok h1).2.2.1]; exact h2
  rw [font_run_append, font_run_append, hrun', hrun]
  exact C117_restart_partial E hF L hL _ hl.wf hl.dirs hcanon hown (gets.map Get.dir) hob calls hs hok left hst sets' hag p

/-- The glyph sets can be obtained again when they can be opened. -/
theorem get_again {E : FontInfo.Env} {L : Casing} {w : Writer} (hv : w.version = 3) (gets : List Get) : ∀ (f f' : Font), f.writer = w → f'.writer = w →
    (∀ g ∈ gets, Dict.get? w.layers g.layer = some g.dir ∧ f.fs.node? [g.dir] = some .dir) → (∀ g ∈ gets, f'.fs.node? [g.dir] = some .dir) →
    (∀ g ∈ gets, ∃ gs, GlyphSet.openGlyphSet E.F f'.fs [g.dir] 3 g.validate = .ok gs) → (∀ r ∈ f.results E L (getAll gets), r = .ok ()) → ∀ r ∈ f'.results E L (getAll gets), r = .ok () := by
  induction gets with
  | nil => intro f f' _ _ _ _ _ _ r hr; simp [getAll, Font.results] at hr
  | cons g gets ih =>
    intro f f' hw hw' hg hg' ho hr
    obtain ⟨hn, hd⟩ := hg g (by simp)
    have h0 : (f.step E L g.call).2 = .ok () := hr _ (by simp [getAll, Font.results])
    have e := get_eq (E := E) (L := L) (f := f) (b := g.default) (v := g.validate) (by rw [hw]; exact hv) (by rw [hw]; exact hn) hd
    have e' := get_eq (E := E) (L := L) (f := f') (b := g.default) (v := g.validate) (by rw [hw']; exact hv) (by rw [hw']; exact hn) (hg' g (by simp))
    obtain ⟨gs', hgs'⟩ := ho g (by simp)
    obtain ⟨gs, k1, k2⟩ := get_known (by rw [hw]; exact hv) (by rw [hw]; exact hn) hd h0
    have hc : (g.default && defaultConflict w.layers g.layer) = false := by
      by_contra hc
      rw [Bool.not_eq_false] at hc
      rw [hw, hc] at e
      simp only [Get.call, Font.step, Font.getGlyphSet, e, if_true] at h0
      cases h0
    rw [hw', hc, hgs'] at e'
    have s' : f'.step E L g.call = ({ f' with sets := f'.sets ++ [gs'] }, .ok ()) := by
      simp only [Get.call, Font.step, Font.getGlyphSet, e']
      rfl
    have k2' : (f.step E L g.call).1 = { f with sets := f.sets ++ [gs] } := k2
    have := ih { f with sets := f.sets ++ [gs] } { f' with sets := f'.sets ++ [gs'] } hw hw' (fun g h => hg g (by simp [h])) (fun g h => hg' g (by simp [h])) (fun g h => ho g (by simp [h]))
      (fun r h => hr r (by
        simp only [getAll, List.map_cons, Font.results, List.mem_cons]
        right
        rw [k2']; exact h))
    intro r hr'
    simp only [getAll, List.map_cons, Font.results, List.mem_cons] at hr'
    rcases hr' with rfl | hr'
    · rw [s']
    · rw [s'] at hr'
      exact this r hr'

/-- C117. The whole program: it opens the UFO, gets the glyph sets of layers that are there, and makes its calls. Wherever it is stopped, the UFO can be opened again; when the glyph sets can be
obtained from it, the program that makes the same calls gives the files of the program that was not stopped. -/
theorem C117_program_partial (E : FontInfo.Env) (hF : E.F.Lawful) (L : Casing) (hL : Spec.GlyphSet.CaseLaws L.lower) (fs fs' : FS) (creator : PyVal) (hcr : Storable creator) (w : Writer)
    (hm : readMetaInfo E.F fs true = .ok 3) (h : openWriter E.F true fs 3 creator true = (fs', .ok w)) (hk : KeepsApart fs.canon)
    (hdirs : ∀ d, GlyphsDir d → fs.exists [d] = true → fs.node? [d] = some .dir)
    (hcanon : ∀ a b, fs'.canon a = fs'.canon b → L.lower a = L.lower b) (hown : fs'.canon c!"layerinfo.plist" ≠ fs'.canon c!"contents.plist")
    (gets : List Get) (hgets : ∀ g ∈ gets, Dict.get? w.layers g.layer = some g.dir ∧ fs'.node? [g.dir] = some .dir)
    (hgot : ∀ r ∈ Font.results E L { writer := w, fs := fs', sets := [] } (getAll gets), r = .ok ())
    (htab : ∀ g ∈ gets, ∃ b, fs'.node? [g.dir, c!"contents.plist"] = some (.file b)) (hap : (gets.map fun g => fs'.canon g.dir).Nodup)
    (f : Font) (hf : f = Font.run E L { writer := w, fs := fs', sets := [] } (getAll gets))
    (htext : ∀ gs ∈ f.sets, ∀ m x, Dict.get? gs.contents m = some x → Spec.Plist.FileText m ∧ Spec.Plist.FileText x ∧ L.lower x ≠ L.lower c!"contents.plist")
    (calls : List FontCall) (hs : Saves E L f (gets.map Get.dir) calls) (hok : ∀ i, ∀ r ∈ f.outcomes E L i calls, r = .ok ())
    (hmeta : ∀ op, .ufo op ∈ calls → Spares fs.canon c!"metainfo.plist" op) (hlay : ∀ op, .ufo op ∈ calls → Spares fs.canon c!"layercontents.plist" op)
    (left : FS) (hst : StoppedBetween fs' (f.run E L calls).fs left) :
    ∃ fs2 w2, openWriter E.F true left 3 creator true = (fs2, .ok w2) ∧
      ((∀ r ∈ Font.results E L { writer := w2, fs := fs2, sets := [] } (getAll gets), r = .ok ()) →
        ∀ p, (Font.run E L { writer := w2, fs := fs2, sets := [] } (getAll gets ++ calls)).fs.node? p =
          (Font.run E L { writer := w, fs := fs', sets := [] } (getAll gets ++ calls)).fs.node? p) := by
  obtain ⟨h1, -, -, -, -, -, h2⟩ := program_core E hF L hL fs fs' creator hcr w hm h hk hdirs hcanon hown gets hgets hgot htab hap f hf htext calls hs hok hmeta hlay left hst
  exact ⟨left, w, h1, h2⟩

/-- C117. The whole program again: wherever it is stopped, when the tables of the layers can be read in what is left, all its calls up to the glyph sets succeed again, and making the other calls again
gives the files of the program that was not stopped. -/
theorem C117_rerun_partial (E : FontInfo.Env) (hF : E.F.Lawful) (L : Casing) (hL : Spec.GlyphSet.CaseLaws L.lower) (fs fs' : FS) (creator : PyVal) (hcr : Storable creator) (w : Writer)
    (hm : readMetaInfo E.F fs true = .ok 3) (h : openWriter E.F true fs 3 creator true = (fs', .ok w)) (hk : KeepsApart fs.canon)
    (hdirs : ∀ d, GlyphsDir d → fs.exists [d] = true → fs.node? [d] = some .dir)
    (hcanon : ∀ a b, fs'.canon a = fs'.canon b → L.lower a = L.lower b) (hown : fs'.canon c!"layerinfo.plist" ≠ fs'.canon c!"contents.plist")
    (gets : List Get) (hgets : ∀ g ∈ gets, Dict.get? w.layers g.layer = some g.dir ∧ fs'.node? [g.dir] = some .dir)
    (hgot : ∀ r ∈ Font.results E L { writer := w, fs := fs', sets := [] } (getAll gets), r = .ok ())
    (htab : ∀ g ∈ gets, ∃ b, fs'.node? [g.dir, c!"contents.plist"] = some (.file b)) (hap : (gets.map fun g => fs'.canon g.dir).Nodup)
    (f : Font) (hf : f = Font.run E L { writer := w, fs := fs', sets := [] } (getAll gets))
    (htext : ∀ gs ∈ f.sets, ∀ m x, Dict.get? gs.contents m = some x → Spec.Plist.FileText m ∧ Spec.Plist.FileText x ∧ L.lower x ≠ L.lower c!"contents.plist")
    (calls : List FontCall) (hs : Saves E L f (gets.map Get.dir) calls) (hok : ∀ i, ∀ r ∈ f.outcomes E L i calls, r = .ok ())
    (hmeta : ∀ op, .ufo op ∈ calls → Spares fs.canon c!"metainfo.plist" op) (hlay : ∀ op, .ufo op ∈ calls → Spares fs.canon c!"layercontents.plist" op)
    (hfiles : ∀ gs ∈ f.sets, FilesThere L.lower f.fs gs) (left : FS) (hst : StoppedBetween fs' (f.run E L calls).fs left) (hread : ∀ gs ∈ f.sets, TableReadable E.F left gs) :
    ∃ fs2 w2, openWriter E.F true left 3 creator true = (fs2, .ok w2) ∧ (∀ r ∈ Font.results E L { writer := w2, fs := fs2, sets := [] } (getAll gets), r = .ok ()) ∧
      ∀ p, (Font.run E L { writer := w2, fs := fs2, sets := [] } (getAll gets ++ calls)).fs.node? p =
        (Font.run E L { writer := w, fs := fs', sets := [] } (getAll gets ++ calls)).fs.node? p := by
  obtain ⟨h1, h2, ⟨sets, he, hfa⟩, hl, hv, hob, h3⟩ := program_core E hF L hL fs fs' creator hcr w hm h hk hdirs hcanon hown gets hgets hgot htab hap f hf htext calls hs hok hmeta hlay left hst
  subst he
  have hopen := obtained_opens E hF L hL _ hl.wf hl.dirs hcanon hown _ hob hfiles calls hs hok left hst hread
  have hopen' : ∀ g ∈ gets, ∃ gs', GlyphSet.openGlyphSet E.F left [g.dir] 3 g.validate = .ok gs' := by
    intro g hg
    obtain ⟨i, hi⟩ := List.mem_iff_getElem?.1 hg
    rcases forall₂_at hfa i with ⟨-, h⟩ | ⟨gs, g', ha, hb, ho⟩
    · rw [hi] at h; cases h
    · rw [hi] at hb; cases hb
      have := hopen gs (List.mem_of_getElem? ha) g.validate
      rw [(open_ok ho).2.1, (open_ok ho).2.2.1] at this
      exact this
  have hres := get_again hv gets { writer := w, fs := fs', sets := [] } { writer := w, fs := left, sets := [] } rfl rfl hgets h2 hopen' hgot
  exact ⟨left, w, h1, hres, h3 hres⟩

/-! ### examples and counterexamples -/

/-- The UFO of C114, opened again. -/
def fs117 : FS := { canon := id, nodes := (again60 ufo114).2.nodes, log := [] }

/-- The glyph set of one of its directories. -/
def set117 (d : Str) : GlyphSet.GlyphSet := match GlyphSet.openGlyphSet fractionCodec fs117 [d] 3 true with
  | .ok gs => gs
  | .error _ => new51.1

/-- A program on the UFO of C114, with the glyph sets of both layers. -/
def font117 : Font := { writer := (again60 ufo114).1, fs := fs117, sets := [set117 c!"glyphs", set117 c!"glyphs.fore"] }

/-- It replaces the glyph `a`, adds `A`, saves the table, writes features, adds `b` and saves the table again; in the other layer it adds a glyph. -/
def calls117 : List FontCall := [.set 0 (.glyphs (put51 c!"a" [4])), .set 0 (.glyphs (put51 c!"A" [5])), .set 0 (.glyphs .save), .ufo (.features c!"f"), .set 1 (.glyphs (put51 c!"x" [6])),
  .set 0 (.glyphs (put51 c!"b" [7])), .set 1 (.layerInfo (fun _ => none) true), .set 1 (.glyphs .save), .set 0 (.glyphs .save)]

theorem open117 : ∀ d ∈ [c!"glyphs", c!"glyphs.fore"], GlyphSet.openGlyphSet fractionCodec fs117 [d] 3 true = .ok (set117 d) := by
  intro d hd
  have h : (GlyphSet.openGlyphSet fractionCodec fs117 [d] 3 true).toOption.isSome = true := by
    simp only [List.mem_cons, List.not_mem_nil, or_false] at hd
    rcases hd with rfl | rfl <;> decide +kernel
  unfold set117
  generalize GlyphSet.openGlyphSet fractionCodec fs117 [d] 3 true = z at h
  cases z with
  | ok gs => rfl
  | error e => cases h

theorem obtained117 : Obtained fractionCodec asciiCasing.lower font117 [c!"glyphs", c!"glyphs.fore"] := by
  have h0 := open117 _ (by simp : c!"glyphs" ∈ [c!"glyphs", c!"glyphs.fore"])
  have h1 := open117 _ (by simp : c!"glyphs.fore" ∈ [c!"glyphs", c!"glyphs.fore"])
  have hall : ∀ gs ∈ font117.sets, ∀ e ∈ gs.contents, (Spec.Plist.FileText e.1 ∧ Spec.Plist.FileText e.2) ∧ asciiCasing.lower e.2 ≠ asciiCasing.lower c!"contents.plist" := by
    unfold Spec.Plist.FileText Spec.Plist.XmlText
    decide +kernel
  refine ⟨.cons ⟨true, ?_⟩ (.cons ⟨true, ?_⟩ .nil), ?_, by decide +kernel, fun gs hg m x hx => (hall gs hg _ (Dict.mem_of_get? hx)).1, fun gs hg m x hx => (hall gs hg _ (Dict.mem_of_get? hx)).2⟩
  · rw [(open_ok h0).2.2.1]; exact h0
  · rw [(open_ok h1).2.2.1]; exact h1
  · have : ∀ d ∈ [c!"glyphs", c!"glyphs.fore"], (font117.fs.getbytes [d, c!"contents.plist"]).toOption.isSome = true := by decide +kernel
    intro d hd
    have := this d hd
    unfold FS.getbytes at this
    split at this
    · next b hb => exact ⟨b, hb⟩
    · cases this
    · cases this

theorem saves117 : Saves env57 asciiCasing font117 [c!"glyphs", c!"glyphs.fore"] calls117 := by
  have ht : ∀ n ∈ [c!"a", c!"A", c!"b", c!"x"], Spec.Plist.FileText n := by unfold Spec.Plist.FileText Spec.Plist.XmlText; decide
  have hcan : font117.fs.canon = id := rfl
  refine ⟨fun i c hc => ?_, fun op hop => ?_, fun n b v hm => ?_, fun pre op post e => ?_⟩
  · simp only [calls117, List.mem_cons, List.not_mem_nil, or_false, FontCall.set.injEq, reduceCtorEq, false_or] at hc
    rcases hc with ⟨-, rfl⟩ | ⟨-, rfl⟩ | ⟨-, rfl⟩ | ⟨-, rfl⟩ | ⟨-, rfl⟩ | ⟨-, rfl⟩ | ⟨-, rfl⟩ | ⟨-, rfl⟩
    · exact .write (ht _ (by simp))
    · exact .write (ht _ (by simp))
    · exact .save
    · exact .write (ht _ (by simp))
    · exact .write (ht _ (by simp))
    · exact .layerInfo
    · exact .save
    · exact .save
  · simp only [calls117, List.mem_cons, List.not_mem_nil, or_false, FontCall.ufo.injEq, reduceCtorEq, false_or] at hop
    subst hop
    refine ⟨.features, fun d hd c hc => ?_⟩
    cases hc
    rw [hcan]
    simp only [List.mem_cons, List.not_mem_nil, or_false] at hd
    rcases hd with rfl | rfl <;> decide
  · simp [calls117] at hm
  · rcases pre with - | ⟨o1, - | ⟨o2, - | ⟨o3, - | ⟨o4, pre⟩⟩⟩⟩ <;> simp only [calls117, List.nil_append, List.cons_append, List.cons.injEq] at e
    · cases e.1
    · cases e.2.1
    · cases e.2.2.1
    · obtain ⟨rfl, rfl, rfl, e, -⟩ := e
      cases e
      exact .features (by decide +kernel)
    · exfalso
      obtain ⟨-, -, -, -, e⟩ := e
      have : FontCall.ufo op ∈ pre ++ FontCall.ufo op :: post := by simp
      rw [← e] at this
      simp at this

theorem dirs117 : LayerDirs font117.writer.layers := by
  intro n d h
  have hall : ∀ e ∈ font117.writer.layers, e.2 = c!"glyphs" ∨ e.2 = c!"glyphs." ++ e.2.drop 7 := by decide +kernel
  rcases hall _ (Dict.mem_of_get? h) with h | h
  · exact .inl h
  · exact .inr ⟨_, h⟩

theorem outcomes117 : ∀ i, ∀ r ∈ font117.outcomes env57 asciiCasing i calls117, r = .ok () := by
  intro i
  have h0 : (font117.outcomes env57 asciiCasing 0 calls117).all (fun r => r.toOption.isSome) = true := by decide +kernel
  have h1 : (font117.outcomes env57 asciiCasing 1 calls117).all (fun r => r.toOption.isSome) = true := by decide +kernel
  have key : ∀ l : List (Except Exc Unit), l.all (fun r => r.toOption.isSome) = true → ∀ r ∈ l, r = .ok () := by
    intro l hl r hr
    have := List.all_eq_true.1 hl r hr
    cases r with
    | ok u => rfl
    | error e => cases this
  match i with
  | 0 => exact key _ h0
  | 1 => exact key _ h1
  | i + 2 => intro r hr; simp [Font.outcomes, calls117] at hr

theorem files117 : ∀ gs ∈ font117.sets, FilesThere asciiCasing.lower font117.fs gs := by
  have hall : ∀ gs ∈ font117.sets, ∀ e ∈ gs.contents, asciiCasing.lower e.2 ≠ asciiCasing.lower c!"layerinfo.plist" ∧ font117.fs.exists (gs.dir ++ [e.2]) = true := by decide +kernel
  exact fun gs hg m x hx => hall gs hg _ (Dict.mem_of_get? hx)

/-- Wherever this program is stopped, it can be started again, when the glyph sets can be obtained. -/
example (left : FS) (hst : StoppedBetween font117.fs (font117.run env57 asciiCasing calls117).fs left) (again : List GlyphSet.GlyphSet) (hag : ObtainedAgain fractionCodec left font117.sets again) (p : Path) :
    (Font.run env57 asciiCasing { writer := font117.writer, fs := left, sets := again } calls117).fs.node? p = (font117.run env57 asciiCasing calls117).fs.node? p :=
  C117_restart_partial env57 fractionCodec_lawful asciiCasing asciiCasing_laws font117 (by unfold Dict.WF; decide +kernel) dirs117 (fun a b h => by rw [show a = b from h]) (by decide) _ obtained117 calls117
    saves117 outcomes117 left hst again hag p

/-- They can be when the tables can be read. -/
example (left : FS) (hst : StoppedBetween font117.fs (font117.run env57 asciiCasing calls117).fs left) (hread : ∀ gs ∈ font117.sets, TableReadable fractionCodec left gs) :
    ∃ again, ObtainedAgain fractionCodec left font117.sets again ∧
      ∀ p, (Font.run env57 asciiCasing { writer := font117.writer, fs := left, sets := again } calls117).fs.node? p = (font117.run env57 asciiCasing calls117).fs.node? p :=
  C117_obtains_partial env57 fractionCodec_lawful asciiCasing asciiCasing_laws font117 (by unfold Dict.WF; decide +kernel) dirs117 (fun a b h => by rw [show a = b from h]) (by decide) _ obtained117
    files117 calls117 saves117 outcomes117 left hst hread

/-- The glyph sets that the program gets. -/
def gets117 : List Get := [⟨c!"public.default", c!"glyphs", true, true⟩, ⟨c!"fore", c!"glyphs.fore", false, true⟩]

theorem canon117 : (again60 fs117).2.canon = id ∧ openWriter fractionCodec true fs117 3 (.str c!"me") true = ((again60 fs117).2, .ok (again60 fs117).1) := by
  have h : (openWriter fractionCodec true fs117 3 (.str c!"me") true).2.toOption.isSome = true := by decide +kernel
  have h2 : openWriter fractionCodec true fs117 3 (.str c!"me") true = ((again60 fs117).2, .ok (again60 fs117).1) := by
    unfold again60
    generalize openWriter fractionCodec true fs117 3 (.str c!"me") true = z at h
    rcases z with ⟨fs, e | w⟩
    · cases h
    · rfl
  exact ⟨(Verif.IO.writePlist_spec (openWriter_ok h2).2.2.1).1, h2⟩

/-- The same for the whole program, and that it succeeds when the tables can be read. -/
example (left : FS) (hst : StoppedBetween (again60 fs117).2 (Font.run env57 asciiCasing { writer := (again60 fs117).1, fs := (again60 fs117).2, sets := [] } (getAll gets117 ++ calls117)).fs left) :
    (∃ fs2 w2, openWriter fractionCodec true left 3 (.str c!"me") true = (fs2, .ok w2) ∧
      ((∀ r ∈ Font.results env57 asciiCasing { writer := w2, fs := fs2, sets := [] } (getAll gets117), r = .ok ()) →
        ∀ p, (Font.run env57 asciiCasing { writer := w2, fs := fs2, sets := [] } (getAll gets117 ++ calls117)).fs.node? p =
          (Font.run env57 asciiCasing { writer := (again60 fs117).1, fs := (again60 fs117).2, sets := [] } (getAll gets117 ++ calls117)).fs.node? p)) ∧
    ((∀ gs ∈ (Font.run env57 asciiCasing { writer := (again60 fs117).1, fs := (again60 fs117).2, sets := [] } (getAll gets117)).sets, TableReadable fractionCodec left gs) →
      ∃ fs2 w2, openWriter fractionCodec true left 3 (.str c!"me") true = (fs2, .ok w2) ∧
        (∀ r ∈ Font.results env57 asciiCasing { writer := w2, fs := fs2, sets := [] } (getAll gets117), r = .ok ()) ∧
        ∀ p, (Font.run env57 asciiCasing { writer := w2, fs := fs2, sets := [] } (getAll gets117 ++ calls117)).fs.node? p =
          (Font.run env57 asciiCasing { writer := (again60 fs117).1, fs := (again60 fs117).2, sets := [] } (getAll gets117 ++ calls117)).fs.node? p) := by
  have ht : ∀ n ∈ [c!"a", c!"A", c!"b", c!"x"], Spec.Plist.FileText n := by unfold Spec.Plist.FileText Spec.Plist.XmlText; decide
  have key : ∀ l : List (Except Exc Unit), l.all (fun r => r.toOption.isSome) = true → ∀ r ∈ l, r = .ok () := by
    intro l hl r hr
    have := List.all_eq_true.1 hl r hr
    cases r with
    | ok u => rfl
    | error e => cases this
  obtain ⟨hcan, hopen⟩ := canon117
  have hfile : ∀ d ∈ [c!"glyphs", c!"glyphs.fore"], ((again60 fs117).2.getbytes [d, c!"contents.plist"]).toOption.isSome = true := by decide +kernel
  have hgets : ∀ g ∈ gets117, Dict.get? (again60 fs117).1.layers g.layer = some g.dir ∧ (again60 fs117).2.node? [g.dir] = some .dir := by decide +kernel
  have hres : (Font.results env57 asciiCasing { writer := (again60 fs117).1, fs := (again60 fs117).2, sets := [] } (getAll gets117)).all (fun r => r.toOption.isSome) = true := by decide +kernel
  have hall : ∀ gs ∈ (Font.run env57 asciiCasing { writer := (again60 fs117).1, fs := (again60 fs117).2, sets := [] } (getAll gets117)).sets, ∀ e ∈ gs.contents,
      Spec.Plist.FileText e.1 ∧ Spec.Plist.FileText e.2 ∧ asciiCasing.lower e.2 ≠ asciiCasing.lower c!"contents.plist" := by
    unfold Spec.Plist.FileText Spec.Plist.XmlText
    decide +kernel
  have hall2 : ∀ gs ∈ (Font.run env57 asciiCasing { writer := (again60 fs117).1, fs := (again60 fs117).2, sets := [] } (getAll gets117)).sets, ∀ e ∈ gs.contents,
      asciiCasing.lower e.2 ≠ asciiCasing.lower c!"layerinfo.plist" ∧
        (Font.run env57 asciiCasing { writer := (again60 fs117).1, fs := (again60 fs117).2, sets := [] } (getAll gets117)).fs.exists (gs.dir ++ [e.2]) = true := by
    decide +kernel
  have hfea : (Font.run env57 asciiCasing (Font.run env57 asciiCasing { writer := (again60 fs117).1, fs := (again60 fs117).2, sets := [] } (getAll gets117)) (calls117.take 3)).fs.node? [c!"features.fea"] ≠ some .dir := by
    decide +kernel
  have hout : ∀ i, i < 2 → ((Font.run env57 asciiCasing { writer := (again60 fs117).1, fs := (again60 fs117).2, sets := [] } (getAll gets117)).outcomes env57 asciiCasing i calls117).all (fun r => r.toOption.isSome) = true := by
    decide +kernel
  have hmeta : (readMetaInfo fractionCodec fs117 true).toOption = some 3 := by decide +kernel
  have hdir : ∀ e ∈ fs117.nodes, ∀ d, e.1 = [d] → d.take 6 = c!"glyphs" → e.2 = .dir := by
    have : ∀ e ∈ fs117.nodes, e.1.length = 1 → (e.1.headD []).take 6 = c!"glyphs" → e.2 = .dir := by decide +kernel
    intro e he d hd hg
    exact this e he (by rw [hd]; rfl) (by rw [hd]; exact hg)
  generalize again60 fs117 = u at *
  obtain ⟨sets, hrun, -⟩ := get_all (E := env57) (L := asciiCasing) gets117 { writer := u.1, fs := u.2, sets := [] } (openWriter_ok hopen).2.2.2.1 hgets (key _ hres)
  rw [Ufo.font_run_append] at hst
  have hm : readMetaInfo fractionCodec fs117 true = .ok 3 := by
    show readMetaInfo fractionCodec fs117 true = _
    generalize readMetaInfo fractionCodec fs117 true = z at hmeta
    cases z with
    | ok v => cases hmeta; rfl
    | error e => cases hmeta
  have hdirs : ∀ d, GlyphsDir d → fs117.exists [d] = true → fs117.node? [d] = some .dir := by
    intro d hd he
    unfold FS.exists at he
    unfold FS.node? at he ⊢
    rw [if_neg (by simp)] at he ⊢
    obtain ⟨x, hx⟩ := Option.isSome_iff_exists.1 he
    rw [hx]
    have hm := Dict.mem_of_get? hx
    exact congrArg some (hdir _ hm d (by simp [FS.key, fs117]) (by rcases hd with rfl | ⟨r, rfl⟩ <;> rfl))
  have htab : ∀ g ∈ gets117, ∃ b, u.2.node? [g.dir, c!"contents.plist"] = some (.file b) := by
    intro g hg
    have := hfile g.dir (by simp only [gets117, List.mem_cons, List.not_mem_nil, or_false] at hg; rcases hg with rfl | rfl <;> simp)
    unfold FS.getbytes at this
    split at this
    · next b hb => exact ⟨b, hb⟩
    · cases this
    · cases this
  have hsv : Saves env57 asciiCasing (Font.run env57 asciiCasing { writer := u.1, fs := u.2, sets := [] } (getAll gets117)) (gets117.map Get.dir) calls117 := by
    refine ⟨fun i c hc => ?_, fun op hop => ?_, fun n b v hm => ?_, fun pre op post e => ?_⟩
    · exact saves117.sets i c hc
    · have := saves117.others op hop
      refine ⟨this.repeatable, fun d hd => ?_⟩
      have h := this.spares d hd
      rw [hrun, show (Font.fs _) = u.2 from rfl, hcan]
      exact h
    · exact saves117.known n b v hm
    · rcases pre with - | ⟨o1, - | ⟨o2, - | ⟨o3, - | ⟨o4, pre⟩⟩⟩⟩ <;> simp only [calls117, List.nil_append, List.cons_append, List.cons.injEq] at e
      · cases e.1
      · cases e.2.1
      · cases e.2.2.1
      · obtain ⟨rfl, rfl, rfl, e, -⟩ := e
        cases e
        exact .features hfea
      · exfalso
        obtain ⟨-, -, -, -, e⟩ := e
        have : FontCall.ufo op ∈ pre ++ FontCall.ufo op :: post := by simp
        rw [← e] at this
        simp at this
  have hoks : ∀ i, ∀ r ∈ (Font.run env57 asciiCasing { writer := u.1, fs := u.2, sets := [] } (getAll gets117)).outcomes env57 asciiCasing i calls117, r = .ok () := by
    intro i
    by_cases hi : i < 2
    · exact key _ (hout i hi)
    · intro r hr
      simp [Font.outcomes, calls117, show (0 : Nat) ≠ i by omega, show (1 : Nat) ≠ i by omega] at hr
  have hme : ∀ op, .ufo op ∈ calls117 → Spares fs117.canon c!"metainfo.plist" op := by
    intro op hop
    simp only [calls117, List.mem_cons, List.not_mem_nil, or_false, FontCall.ufo.injEq, reduceCtorEq, false_or] at hop
    subst hop
    intro c hc; cases hc; decide
  have hla : ∀ op, .ufo op ∈ calls117 → Spares fs117.canon c!"layercontents.plist" op := by
    intro op hop
    simp only [calls117, List.mem_cons, List.not_mem_nil, or_false, FontCall.ufo.injEq, reduceCtorEq, false_or] at hop
    subst hop
    intro c hc; cases hc; decide
  exact ⟨C117_program_partial env57 fractionCodec_lawful asciiCasing asciiCasing_laws fs117 u.2 (.str c!"me") ⟨.str _ ⟨by unfold Spec.Plist.XmlText; decide, by decide⟩, trivial⟩ u.1
    hm hopen keepsApart_id hdirs (fun a b h => by rw [hcan] at h; rw [show a = b from h]) (by rw [hcan]; decide) gets117 hgets (key _ hres) htab (by rw [hcan]; decide) _ rfl
    (fun gs hg m x hx => hall gs hg _ (Dict.mem_of_get? hx)) calls117 hsv hoks hme hla left hst,
    fun hread => C117_rerun_partial env57 fractionCodec_lawful asciiCasing asciiCasing_laws fs117 u.2 (.str c!"me") ⟨.str _ ⟨by unfold Spec.Plist.XmlText; decide, by decide⟩, trivial⟩ u.1
    hm hopen keepsApart_id hdirs (fun a b h => by rw [hcan] at h; rw [show a = b from h]) (by rw [hcan]; decide) gets117 hgets (key _ hres) htab (by rw [hcan]; decide) _ rfl
    (fun gs hg m x hx => hall gs hg _ (Dict.mem_of_get? hx)) calls117 hsv hoks hme hla (fun gs hg m x hx => hall2 gs hg _ (Dict.mem_of_get? hx)) left hst hread⟩

/-- The states in which this program can be stopped: most of them are such that the glyph sets can be obtained again; here all those between two mutations. -/
example : (List.range 12).all (fun k => [c!"glyphs", c!"glyphs.fore"].all fun d => (GlyphSet.openGlyphSet fractionCodec
    (Spec.FS.performAll font117.fs (((font117.run env57 asciiCasing calls117).fs.log.drop font117.fs.log.length).take k)) [d] 3 true).toOption.isSome) = true := by decide +kernel

/-- The full claim fails when a glyph is deleted: when the program is stopped before the table is saved, the glyph set cannot be obtained, as the table has the glyph whose file is missing. -/
theorem C117_refuted_delete : ∃ left, StoppedBetween font117.fs (font117.run env57 asciiCasing [.set 0 (.glyphs (.delete c!"B")), .set 0 (.glyphs .save)]).fs left ∧
    (GlyphSet.openGlyphSet fractionCodec left [c!"glyphs"] 3 true).toOption.isNone = true := by
  refine ⟨_, ⟨(font117.run env57 asciiCasing [.set 0 (.glyphs (.delete c!"B")), .set 0 (.glyphs .save)]).fs.log.drop font117.fs.log.length, ?_, .between 1⟩, ?_⟩ <;> decide +kernel

/-- It also fails when the program is stopped while a table is being written: the table cannot be read, so that no program can get at the glyphs of the layer. -/
theorem C117_refuted_table : ∃ left, StoppedBetween font117.fs (font117.run env57 asciiCasing [.set 0 (.glyphs (put51 c!"A" [5])), .set 0 (.glyphs .save)]).fs left ∧
    (GlyphSet.openGlyphSet fractionCodec left [c!"glyphs"] 3 true).toOption.isNone = true ∧ (GlyphSet.openGlyphSet fractionCodec left [c!"glyphs"] 3 false).toOption.isNone = true := by
  refine ⟨_, ⟨(font117.run env57 asciiCasing [.set 0 (.glyphs (put51 c!"A" [5])), .set 0 (.glyphs .save)]).fs.log.drop font117.fs.log.length, ?_, .writing 1 40 (p := [c!"glyphs", c!"contents.plist"])
    (d := ((font117.run env57 asciiCasing [.set 0 (.glyphs (put51 c!"A" [5])), .set 0 (.glyphs .save)]).fs.getbytes [c!"glyphs", c!"contents.plist"]).toOption.getD []) ?_⟩, ?_, ?_⟩ <;> decide +kernel

end Verif.Props
