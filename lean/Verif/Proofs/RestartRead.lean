import Verif.Proofs.RestartRun
/-! A program that is started again: obtaining the glyph sets from what is left. -/
namespace Verif.Restart
open Verif Verif.FS Verif.Spec.FS Verif.Ufo Verif.IO Verif.GlyphSet Verif.Interrupt Verif.Spec.Interrupt Verif.Spec.Restart Verif.Spec.Plist Verif.Spec.Ufo Verif.Spec.GlyphSet

theorem named_run (E : FontInfo.Env) (L : Casing) (i : Nat) (calls : List FontCall) : ∀ (f : Font) (gs : GlyphSet), f.sets[i]? = some gs →
    (∀ j c, .set j c ∈ calls → AddsGlyphs L c) → (∀ n b v, .getGlyphSet n b v ∉ calls) → (∀ r ∈ f.outcomes E L i calls, r = .ok ()) →
    Named L gs (calls.filterMap (onSet i)) := by
  induction calls with
  | nil => exact fun _ _ _ _ _ _ => trivial
  | cons c calls ih =>
    intro f gs hs ha hk hr
    have ha' : ∀ j c, .set j c ∈ calls → AddsGlyphs L c := fun j c h => ha j c (by simp [h])
    have hk' : ∀ n b v, .getGlyphSet n b v ∉ calls := fun n b v h => hk n b v (by simp [h])
    cases c with
    | getGlyphSet n b v => exact absurd (by simp) (hk n b v)
    | ufo op => exact ih (f.step E L (.ufo op)).1 gs hs ha' hk' hr
    | set j c =>
      by_cases e : j = i
      · subst e
        rw [onSet_eq]
        simp only [Font.outcomes, if_true, List.mem_cons, forall_eq_or_imp] at hr
        have hc := ha j c (by simp)
        have e1 : (f.step E L (.set j c)).1 = { f with fs := (setStep L E.F (gs, f.fs) c).1.2, sets := f.sets.set j (after L gs c) } := by
          simp only [Font.step, Font.callSet, hs, setStep_after E.F gs f.fs hc]
        have e2 : (f.step E L (.set j c)).2 = (setStep L E.F (gs, f.fs) c).2 := by
          simp only [Font.step, Font.callSet, hs]
        refine ⟨?_, ih _ _ (by rw [e1]; exact List.getElem?_set_self (List.getElem?_eq_some_iff.1 hs).1) ha' hk' hr.2⟩
        rintro naming n fv data rfl
        have h := hr.1
        rw [e2] at h
        simp only [setStep, GlyphSet.step, writeGlyph] at h
        cases hv : glifVersion gs fv with
        | error e => rw [hv] at h; cases h
        | ok v =>
          rw [hv] at h
          dsimp only at h
          refine ⟨⟨v, rfl⟩, ?_⟩
          generalize assignFile L naming gs n = z at h ⊢
          rcases z with ⟨gs', e | x⟩
          · cases h
          · exact ⟨x, rfl⟩
      · rw [onSet_ne e]
        simp only [Font.outcomes, if_neg e] at hr
        refine ih _ gs ?_ ha' hk' hr
        simp only [Font.step, Font.callSet]
        split
        · exact hs
        · dsimp only
          rw [List.getElem?_set_ne e]; exact hs

/-! ### stopping -/

theorem stop_split {a m z left : FS} {x y : List Prim} (hm : m = performAll a x) (hz : z = performAll m y) (h : StoppedBetween a z left) : StoppedBetween a m left ∨ StoppedBetween m z left := by
  obtain ⟨acts, h1, h2⟩ := h
  rw [hz, hm, Crash.performAll_log, Crash.performAll_log, List.append_assoc, List.append_cancel_left_eq] at h1
  subst h1
  rcases stopped_split h2 with h2 | h2
  · exact .inl ⟨x, by rw [hm, Crash.performAll_log], h2⟩
  · rw [← hm] at h2
    exact .inr ⟨y, by rw [hz, Crash.performAll_log], h2⟩

theorem stop_end {a m : FS} {x : List Prim} (hm : m = performAll a x) : StoppedBetween a m m := by
  refine ⟨x, by rw [hm, Crash.performAll_log], ?_⟩
  have := StoppedIn.between (fs := a) (acts := x) x.length
  rwa [List.take_length, ← hm] at this

/-- A file that was being written holds the beginning of what is written, or what it held. -/
theorem put_stopped {p : Path} {d : Bytes} {fs fs' left : FS} (h : Done fs (.put p d) fs') (hs : StoppedBetween fs fs' left) :
    left.node? p = fs.node? p ∨ ∃ j, left.node? p = some (.file (d.take j)) := by
  obtain ⟨acts, h1, h2⟩ := hs
  have hnil : fs' = fs → left.node? p = fs.node? p := by
    rintro rfl
    have : acts = [] := by simpa using h1
    subst this
    cases h2 with
    | between k => simp [performAll]
    | writing k j h => simp at h
    | during k h => simp at h
  cases h with
  | same => exact .inl (hnil rfl)
  | cannot => exact .inl (hnil rfl)
  | put h =>
    have : acts = [.write (fs.key p) d] := by simpa [FS.perform] using h1.symm
    subst this
    have key : ∀ x, (fs.perform (.write (fs.key p) x)).node? p = some (.file x) := fun x => by rw [node_write h.ne, if_pos rfl]
    cases h2 with
    | between k =>
      rcases k with - | k
      · exact .inl rfl
      · exact .inr ⟨d.length, by rw [List.take_length]; simpa [performAll] using key d⟩
    | writing k j h3 =>
      rcases k with - | k
      · simp only [List.getElem?_cons_zero, Option.some.injEq, Prim.write.injEq] at h3
        obtain ⟨rfl, rfl⟩ := h3
        exact .inr ⟨j, key _⟩
      · simp at h3
    | during k h3 hw =>
      rcases k with - | k
      · simp only [List.getElem?_cons_zero, Option.some.injEq] at h3
        exact absurd h3.symm (hw _ _)
      · simp at h3
  | twice h =>
    have : acts = [.write (fs.key p) [], .write (fs.key p) d] := by simpa [FS.perform] using h1.symm
    subst this
    have key : ∀ x, (fs.perform (.write (fs.key p) x)).node? p = some (.file x) := fun x => by rw [node_write h.ne, if_pos rfl]
    have key2 : ∀ x, ((fs.perform (.write (fs.key p) [])).perform (.write (fs.key p) x)).node? p = some (.file x) := fun x => by rw [perform_twice, key]
    cases h2 with
    | between k =>
      rcases k with - | - | k
      · exact .inl rfl
      · exact .inr ⟨0, by rw [List.take_zero]; exact key _⟩
      · exact .inr ⟨d.length, by rw [List.take_length]; simpa [performAll] using key2 d⟩
    | writing k j h3 =>
      rcases k with - | - | k
      · simp only [List.getElem?_cons_zero, Option.some.injEq, Prim.write.injEq] at h3
        obtain ⟨rfl, rfl⟩ := h3
        exact .inr ⟨0, by rw [List.take_zero]; simpa [performAll] using key _⟩
      · simp only [List.getElem?_cons_succ, List.getElem?_cons_zero, Option.some.injEq, Prim.write.injEq] at h3
        obtain ⟨rfl, rfl⟩ := h3
        exact .inr ⟨j, key2 _⟩
      · simp at h3
    | during k h3 hw =>
      rcases k with - | - | k
      · simp only [List.getElem?_cons_zero, Option.some.injEq] at h3
        exact absurd h3.symm (hw _ _)
      · simp only [List.getElem?_cons_succ, List.getElem?_cons_zero, Option.some.injEq] at h3
        exact absurd h3.symm (hw _ _)
      · simp at h3

/-- The glyph sets of a session. -/
structure Tidy (L : Casing) (dirs : List Str) (f : Font) : Prop where
  layered : Layered f.writer
  canon : ∀ a b, f.fs.canon a = f.fs.canon b → L.lower a = L.lower b
  own : f.fs.canon c!"layerinfo.plist" ≠ f.fs.canon c!"contents.plist"
  apart : (dirs.map f.fs.canon).Nodup
  sets : ∀ (i : Nat) gs, f.sets[i]? = some gs → gs.havePrevious = true ∧ Good L gs ∧ ∃ d, dirs[i]? = some d ∧ gs.dir = [d]

/-- The calls of a session. -/
inductive Fine (L : Casing) (canon : Str → Str) (dirs : List Str) : FontCall → Prop
  | set {i c} (h : AddsGlyphs L c) : Fine L canon dirs (.set i c)
  | ufo {op} (h : ∀ d ∈ dirs, Spares canon d op) : Fine L canon dirs (.ufo op)

theorem tidy_step {E : FontInfo.Env} {L : Casing} (hL : CaseLaws L.lower) {dirs : List Str} {f : Font} (h : Tidy L dirs f) {c : FontCall} (hc : Fine L f.fs.canon dirs c) :
    Tidy L dirs (f.step E L c).1 ∧ (f.step E L c).1.fs.canon = f.fs.canon ∧ ∃ x, (f.step E L c).1.fs = performAll f.fs x := by
  obtain ⟨h1, x, hx, -⟩ := font_step_acts E L f h.layered c
  have hcanon : (f.step E L c).1.fs.canon = f.fs.canon := by rw [hx, Crash.performAll_canon]
  refine ⟨⟨h1, by rw [hcanon]; exact h.canon, by rw [hcanon]; exact h.own, by rw [hcanon]; exact h.apart, ?_⟩, hcanon, x, hx⟩
  clear hx hcanon h1
  cases hc with
  | ufo _ => exact h.sets
  | @set i c hc =>
    intro j gs hj
    cases hi : f.sets[i]? with
    | none =>
      simp only [Font.step, Font.callSet, hi] at hj
      exact h.sets j gs hj
    | some gi =>
      simp only [Font.step, Font.callSet, hi, setStep_after E.F gi f.fs hc] at hj
      by_cases e : i = j
      · subst e
        rw [List.getElem?_set_self (List.getElem?_eq_some_iff.1 hi).1] at hj
        cases hj
        obtain ⟨a, b, d, hd, hdir⟩ := h.sets i gi hi
        exact ⟨(after_same L gi c).2.2.trans a, good_after hL b hc, d, hd, (after_same L gi c).1.trans hdir⟩
      · rw [List.getElem?_set_ne e] at hj
        exact h.sets j gs hj

theorem tidy_run {E : FontInfo.Env} {L : Casing} (hL : CaseLaws L.lower) {dirs : List Str} : ∀ (calls : List FontCall) {f : Font}, Tidy L dirs f → (∀ c ∈ calls, Fine L f.fs.canon dirs c) →
    ∃ x, (f.run E L calls).fs = performAll f.fs x
  | [], _, _, _ => ⟨[], rfl⟩
  | c :: rest, f, h, hc => by
    obtain ⟨h1, h2, x, hx⟩ := tidy_step (E := E) hL h (hc c (by simp))
    obtain ⟨y, hy⟩ := tidy_run (E := E) hL rest h1 (fun c h => by rw [h2]; exact hc c (by simp [h]))
    exact ⟨x ++ y, by show ((f.step E L c).1.run E L rest).fs = _; rw [hy, hx]; simp [performAll]⟩

/-- What a call that is stopped leaves of a table. -/
theorem table_step {E : FontInfo.Env} {L : Casing} (hL : CaseLaws L.lower) {dirs : List Str} {f : Font} (h : Tidy L dirs f) {c : FontCall} (hc : Fine L f.fs.canon dirs c)
    {i : Nat} {gs : GlyphSet} (hi : f.sets[i]? = some gs) {left : FS} (hs : StoppedBetween f.fs (f.step E L c).1.fs left) :
    left.node? (gs.dir ++ [contentsName]) = f.fs.node? (gs.dir ++ [contentsName]) ∨
      (c = .set i (.glyphs .save) ∧ ∃ D j, dumpBytes E.F (contentsVal gs.contents) = .ok D ∧ left.node? (gs.dir ++ [contentsName]) = some (.file (D.take j))) := by
  obtain ⟨-, -, d, hd, hdir⟩ := h.sets i gs hi
  cases hc with
  | @ufo op hop =>
    left
    rw [hdir]
    exact Crash.stopped_entry (w := f.world) h.layered (stoppedBetween_crash hs) (hop d (List.mem_of_getElem? hd)) [contentsName]
  | @set j c hc =>
    cases hj : f.sets[j]? with
    | none =>
      left
      simp only [Font.step, Font.callSet, hj] at hs
      rcases (done_stopped (.nothing (fs := f.fs)) hs).node (gs.dir ++ [contentsName]) with e | ⟨h, -⟩
      · exact e
      · exact h.elim
    | some gj =>
      simp only [Font.step, Font.callSet, hj] at hs
      obtain ⟨p1, p2, e, he, hedir⟩ := h.sets j gj hj
      have hdone := planOf_done E.F p1 f.fs hc
      have hap := done_stopped hdone hs
      by_cases hij : j = i
      · subst hij
        rw [hi] at hj; cases hj
        rw [hd] at he; cases he
        cases hc with
        | @write n fv data ht =>
          left
          have hg := good_after hL p2 (AddsGlyphs.write (fv := fv) (data := data) ht)
          rcases hap.node (gs.dir ++ [contentsName]) with e | ⟨h', -⟩
          · exact e
          · exfalso
            simp only [planOf] at h'
            split at h'
            · exact h'.elim
            · next v hv =>
              split at h'
              · exact h'.elim
              · next x hx =>
                split at h'
                · exact h'.elim
                · have hk := h'.2
                  simp only [hdir, FS.key, List.cons_append, List.nil_append, List.map_cons, List.map_nil, List.cons.injEq, and_true, true_and] at hk
                  refine hg.avoids n x ?_ (h.canon _ _ hk)
                  simp only [after, hv]
                  exact assignFile_found hx
        | reverse =>
          left
          rcases hap.node (gs.dir ++ [contentsName]) with e | ⟨h, -⟩
          · exact e
          · exact h.elim
        | save =>
          simp only [planOf] at hdone
          cases hD : dumpBytes E.F (contentsVal gs.contents) with
          | error e =>
            left
            rw [hD] at hdone
            rcases (done_stopped hdone hs).node (gs.dir ++ [contentsName]) with e | ⟨h, -⟩
            · exact e
            · exact h.elim
          | ok D =>
            rw [hD] at hdone
            rcases put_stopped hdone hs with e | ⟨j, e⟩
            · exact .inl e
            · exact .inr ⟨rfl, D, j, rfl, e⟩
        | @layerInfo info v =>
          left
          rcases hap.node (gs.dir ++ [contentsName]) with e | ⟨h', -⟩
          · exact e
          · exfalso
            have hk : f.fs.key (gs.dir ++ [layerinfoName]) = f.fs.key (gs.dir ++ [contentsName]) := by
              simp only [planOf] at h'
              repeat' split at h'
              all_goals first | exact h'.elim | exact h'.2
            simp only [hdir, FS.key, List.cons_append, List.nil_append, List.map_cons, List.map_nil, List.cons.injEq, and_true, true_and] at hk
            exact h.own hk
      · left
        rcases hap.node (gs.dir ++ [contentsName]) with e | ⟨h', -⟩
        · exact e
        · exfalso
          have hk : ∃ x, f.fs.key (gj.dir ++ [x]) = f.fs.key (gs.dir ++ [contentsName]) := by
            cases hc with
            | write => 
              simp only [planOf] at h'
              repeat' split at h'
              all_goals first | exact h'.elim | exact ⟨_, h'.2⟩
            | reverse => exact h'.elim
            | save =>
              simp only [planOf] at h'
              repeat' split at h'
              all_goals first | exact h'.elim | exact ⟨_, h'.2⟩
            | layerInfo =>
              simp only [planOf] at h'
              repeat' split at h'
              all_goals first | exact h'.elim | exact ⟨_, h'.2⟩
          obtain ⟨x, hk⟩ := hk
          simp only [hdir, hedir, FS.key, List.cons_append, List.nil_append, List.map_cons, List.map_nil, List.cons.injEq] at hk
          obtain ⟨l1, g1⟩ := List.getElem?_eq_some_iff.1 hd
          obtain ⟨l2, g2⟩ := List.getElem?_eq_some_iff.1 he
          have := (List.Nodup.getElem_inj_iff h.apart (i := j) (j := i) (hi := by simpa using l2) (hj := by simpa using l1)).1 (by simp only [List.getElem_map, g1, g2]; exact hk.1)
          exact hij this

/-- What a session that is stopped leaves of a table: what it was, or the beginning of one that was to be saved. -/
theorem table_run {E : FontInfo.Env} {L : Casing} (hL : CaseLaws L.lower) {dirs : List Str} (calls : List FontCall) : ∀ (f : Font), Tidy L dirs f → (∀ c ∈ calls, Fine L f.fs.canon dirs c) →
    ∀ (i : Nat) (gs : GlyphSet), f.sets[i]? = some gs → ∀ left, StoppedBetween f.fs (f.run E L calls).fs left →
    left.node? (gs.dir ++ [contentsName]) = f.fs.node? (gs.dir ++ [contentsName]) ∨
      ∃ pre post, calls.filterMap (onSet i) = pre ++ .glyphs .save :: post ∧
        ∃ D j, dumpBytes E.F (contentsVal (afterAll L gs pre).contents) = .ok D ∧ left.node? (gs.dir ++ [contentsName]) = some (.file (D.take j)) := by
  induction calls with
  | nil =>
    intro f _ _ i gs _ left hs
    rcases (done_stopped (.nothing (fs := f.fs)) hs).node (gs.dir ++ [contentsName]) with e | ⟨h, -⟩
    · exact .inl e
    · exact h.elim
  | cons c calls ih =>
    intro f ht hc i gs hi left hs
    have hc0 := hc c (by simp)
    obtain ⟨ht', hcan, x, hx⟩ := tidy_step (E := E) hL ht hc0
    have hc' : ∀ c' ∈ calls, Fine L (f.step E L c).1.fs.canon dirs c' := fun c h => by rw [hcan]; exact hc c (by simp [h])
    obtain ⟨y, hy⟩ := tidy_run (E := E) hL calls ht' hc'
    have one : ∀ left, StoppedBetween f.fs (f.step E L c).1.fs left → left.node? (gs.dir ++ [contentsName]) = f.fs.node? (gs.dir ++ [contentsName]) ∨
      ∃ pre post, (c :: calls).filterMap (onSet i) = pre ++ .glyphs .save :: post ∧
        ∃ D j, dumpBytes E.F (contentsVal (afterAll L gs pre).contents) = .ok D ∧ left.node? (gs.dir ++ [contentsName]) = some (.file (D.take j)) := by
      intro left hs
      rcases table_step hL ht hc0 hi hs with e | ⟨rfl, h⟩
      · exact .inl e
      · exact .inr ⟨[], _, by rw [onSet_eq]; rfl, h⟩
    rcases stop_split hx hy hs with hs | hs
    · exact one left hs
    · have hgs : ∃ gs1, (f.step E L c).1.sets[i]? = some gs1 ∧ gs1.dir = gs.dir ∧
          ∀ pre post, calls.filterMap (onSet i) = pre ++ .glyphs .save :: post → ∃ pre', (c :: calls).filterMap (onSet i) = pre' ++ .glyphs .save :: post ∧ afterAll L gs1 pre = afterAll L gs pre' := by
        cases hc0 with
        | ufo _ => exact ⟨gs, hi, rfl, fun pre post e => ⟨pre, e, rfl⟩⟩
        | @set j c hadd =>
          cases hj : f.sets[j]? with
          | none =>
            have hne : j ≠ i := by rintro rfl; rw [hi] at hj; cases hj
            refine ⟨gs, by simp only [Font.step, Font.callSet, hj]; exact hi, rfl, fun pre post e => ⟨pre, by rw [onSet_ne hne]; exact e, rfl⟩⟩
          | some gj =>
            by_cases hne : j = i
            · subst hne
              rw [hi] at hj; cases hj
              refine ⟨after L gs c, ?_, (after_same L gs c).1, fun pre post e => ⟨c :: pre, by rw [onSet_eq, e]; rfl, rfl⟩⟩
              simp only [Font.step, Font.callSet, hi, setStep_after E.F gs f.fs hadd]
              exact List.getElem?_set_self (List.getElem?_eq_some_iff.1 hi).1
            · refine ⟨gs, ?_, rfl, fun pre post e => ⟨pre, by rw [onSet_ne hne]; exact e, rfl⟩⟩
              simp only [Font.step, Font.callSet, hj]
              rw [List.getElem?_set_ne hne]; exact hi
      obtain ⟨gs1, h1, h2, h3⟩ := hgs
      rcases ih _ ht' hc' i gs1 h1 left hs with e | ⟨pre, post, e, D, j, hD, hn⟩
      · rw [h2] at e
        rw [e]
        exact one _ (stop_end hx)
      · obtain ⟨pre', e', ea⟩ := h3 pre post e
        rw [h2] at hn
        exact .inr ⟨pre', post, e', D, j, by rw [← ea]; exact hD, hn⟩

/-! ### obtaining the glyph sets -/

theorem checkContents_table {fs fs' : FS} {dir : Path} {v v' : Bool} {x : PyVal} {t t' : Dict Str Str} (h : checkContents fs dir v x = .ok t) (h' : checkContents fs' dir v' x = .ok t') : t' = t := by
  unfold checkContents at h h'
  split at h
  · split at h
    · cases h
    · next ht =>
      dsimp only at h'
      rw [ht] at h'
      dsimp only at h'
      split at h
      · cases h
      · split at h'
        · cases h'
        · cases h; cases h'; rfl
  · cases h

theorem open_ok {F : FloatCodec} {fs : FS} {dir : Path} {version : Nat} {v : Bool} {gs : GlyphSet} (h : openGlyphSet F fs dir version v = .ok gs) :
    gs.existing = none ∧ gs.dir = dir ∧ gs.version = version ∧ gs.havePrevious = fs.exists (dir ++ [contentsName]) ∧ Dict.WF gs.contents ∧
      ∃ x, getPlist F fs (dir ++ [contentsName]) (some (.dict [])) = .ok x ∧ checkContents fs dir v x = .ok gs.contents := by
  have hw := openGlyphSet_table h
  unfold openGlyphSet at h
  split at h
  · unfold rebuildContents at h
    dsimp only at h
    split at h
    · cases h
    · next x hx =>
      split at h
      · cases h
      · next t ht => cases h; exact ⟨rfl, rfl, rfl, rfl, hw, x, hx, ht⟩
  · cases h

theorem getPlist_congr {F : FloatCodec} {fs fs' : FS} {p : Path} {o : Option PyVal} (h : fs'.node? p = fs.node? p) : getPlist F fs' p o = getPlist F fs p o := by
  unfold getPlist FS.getbytes
  rw [h]

theorem cache_none {gs : GlyphSet} (h : gs.existing = none) : CacheOk gs := by
  intro ex he; rw [h] at he; cases he

/-- The table is as it was. -/
theorem open_same {F : FloatCodec} {fs fs' : FS} {dir : Path} {version : Nat} {v v' : Bool} {gs gs' : GlyphSet} (h : openGlyphSet F fs dir version v = .ok gs)
    (h' : openGlyphSet F fs' dir version v' = .ok gs') (hn : fs'.node? (dir ++ [contentsName]) = fs.node? (dir ++ [contentsName])) : Level gs gs' := by
  obtain ⟨a1, a2, a3, -, a4, x, a5, a6⟩ := open_ok h
  obtain ⟨b1, b2, b3, -, b4, x', b5, b6⟩ := open_ok h'
  rw [getPlist_congr hn, a5] at b5
  cases b5
  refine ⟨by rw [a2, b2], by rw [a3, b3], a4, b4, cache_none a1, cache_none b1, ?_⟩
  rw [checkContents_table a6 b6]
  exact fun _ => rfl

/-- The table is the beginning of one that was to be saved; when it can be read at all it is that one. -/
theorem open_cut {F : FloatCodec} (hF : F.Lawful) {L : Casing} {fs : FS} {v : Bool} {gs gs' : GlyphSet} (hg : Good L gs) {D : Bytes} {j : Nat}
    (hD : dumpBytes F (contentsVal gs.contents) = .ok D) (h' : openGlyphSet F fs gs.dir gs.version v = .ok gs') (hn : fs.node? (gs.dir ++ [contentsName]) = some (.file (D.take j))) : Level gs gs' := by
  obtain ⟨b1, b2, b3, -, b4, x', b5, b6⟩ := open_ok h'
  obtain ⟨D', dd, t', h1, h2, h3, h4⟩ := load_contents F hF gs.contents hg.wf hg.text
  rw [hD] at h1; cases h1
  have hl : loadBytes F (D.take j) = .ok x' := by
    unfold getPlist FS.getbytes at b5
    rw [hn] at b5
    dsimp only at b5
    split at b5
    · cases b5
    · next hh => cases b5; exact hh
  have hx := Cut.load_prefix (List.take_prefix j D) hl h2
  subst hx
  refine ⟨by rw [b2], by rw [b3], hg.wf, b4, hg.cache, cache_none b1, fun k => ?_⟩
  unfold checkContents at b6
  dsimp only at b6
  rw [h3] at b6
  dsimp only at b6
  split at b6
  · cases b6
  · rw [← Except.ok.inj b6, foldl_set_perm t' (Dict.wf_perm hg.wf h4) k]
    exact (Dict.get?_perm hg.wf h4 k)

end Verif.Restart
