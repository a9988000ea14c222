import Verif.Proofs.Restart
import Verif.Proofs.UfoShared
import Verif.Proofs.GlyphSetOwn
/-! A program that is started again: the calls of a session. -/
namespace Verif.Restart
open Verif Verif.FS Verif.Ufo Verif.IO Verif.GlyphSet Verif.Interrupt Verif.Spec.Interrupt Verif.Spec.Restart Verif.Spec.Plist Verif.Spec.Ufo Verif.Spec.GlyphSet

/-- The table can be saved, and no glyph is in its file. -/
structure Good (L : Casing) (gs : GlyphSet) : Prop where
  wf : Dict.WF gs.contents
  cache : CacheOk gs
  text : ∀ m x, Dict.get? gs.contents m = some x → FileText m ∧ FileText x
  avoids : ∀ m x, Dict.get? gs.contents m = some x → L.lower x ≠ L.lower contentsName

theorem default_text {L : Casing} {n f : Str} {ex : Dict Str Str} (h : defaultNaming L n ex = .ok f) (hn : FileText n) : FileText f := by
  have hdig : ∀ c : Char, c.toNat < 128 → isDigit c = true → c ≠ '\r' ∧ XmlText [c] := GlyphSet.ascii_all (P := fun c => isDigit c = true → c ≠ '\r' ∧ XmlText [c]) (by unfold XmlText; decide)
  have hpre : ∀ c ∈ c!"_.glif", c ≠ '\r' ∧ XmlText [c] := by unfold XmlText; decide
  have hall : ∀ c ∈ f, c ≠ '\r' ∧ XmlText [c] := by
    intro c hc
    rcases Filenames.name_chars h c hc with hc | hc | hc | rfl | rfl | hc
    · cases hc
    · exact hpre c (by clear * - hc; revert hc; revert c; decide)
    · refine ⟨fun e => hn.2 (e ▸ hc), ?_⟩
      unfold XmlText
      intro x hx
      rw [List.mem_singleton.1 hx]
      exact hn.1 c hc
    · exact hpre _ (by decide)
    · exact hpre _ (by decide)
    · refine hdig c ?_ hc
      unfold isDigit at hc
      simp only [Bool.and_eq_true, decide_eq_true_eq] at hc
      have h9 : c.toNat ≤ '9'.toNat := hc.2
      exact Nat.lt_of_le_of_lt h9 (by decide)
  refine ⟨fun c hc => ?_, fun hc => (hall _ hc).1 rfl⟩
  have := (hall c hc).2
  unfold XmlText at this
  exact this c (by simp)

theorem default_lower {L : Casing} (hL : CaseLaws L.lower) {n f : Str} {ex : Dict Str Str} (h : defaultNaming L n ex = .ok f) : L.lower f ≠ L.lower contentsName := by
  intro e
  have h1 : ∃ a, f = a ++ ['f'] := by
    obtain ⟨v, -, -, h | ⟨k, -, h⟩ | ⟨k, -, -, h⟩⟩ := Filenames.userNameToFileName_cases h
    all_goals exact ⟨_, h.trans (List.append_assoc _ c!".gli" ['f']).symm⟩
  obtain ⟨a, rfl⟩ := h1
  have h3 := congrArg List.getLast? e
  rw [hL.last _ _ (by decide), show contentsName = c!"contents.plis" ++ ['t'] from rfl, hL.last _ _ (by decide)] at h3
  exact absurd h3 (by decide)

theorem good_after {L : Casing} (hL : CaseLaws L.lower) {gs : GlyphSet} (h : Good L gs) {c : SetCall} (hc : AddsGlyphs L c) : Good L (after L gs c) := by
  cases hc with
  | @write n fv data ht =>
    simp only [after]
    cases glifVersion gs fv with
    | error e => exact h
    | ok v =>
      dsimp only
      obtain ⟨a1, a2⟩ := assignFile_cache (L := L) (naming := defaultNaming L) n h.wf h.cache
      have key : ∀ m x, Dict.get? (assignFile L (defaultNaming L) gs n).1.contents m = some x →
          Dict.get? gs.contents m = some x ∨ (m = n ∧ ∃ ex, defaultNaming L n ex = .ok x) := by
        intro m x hm
        unfold assignFile at hm
        split at hm
        · exact .inl hm
        · dsimp only at hm
          split at hm
          · exact .inl hm
          · next f hf =>
            dsimp only at hm
            by_cases e : n = m
            · subst e
              rw [Dict.get?_set_self] at hm
              cases hm
              exact .inr ⟨rfl, _, hf⟩
            · rw [Dict.get?_set_ne _ _ e] at hm
              exact .inl hm
      refine ⟨a1, a2, fun m x hm => ?_, fun m x hm => ?_⟩
      · rcases key m x hm with h' | ⟨rfl, ex, h'⟩
        · exact h.text m x h'
        · exact ⟨ht, default_text h' ht⟩
      · rcases key m x hm with h' | ⟨rfl, ex, h'⟩
        · exact h.avoids m x h'
        · exact default_lower hL h'
  | reverse =>
    simp only [after]
    unfold getReverseContents
    split
    · exact h
    · exact ⟨h.wf, h.cache, h.text, h.avoids⟩
  | save => exact h
  | layerInfo => exact h

theorem good_afterAll {L : Casing} (hL : CaseLaws L.lower) : ∀ (cs : List SetCall) {gs : GlyphSet}, Good L gs → (∀ c ∈ cs, AddsGlyphs L c) → Good L (afterAll L gs cs)
  | [], _, h, _ => h
  | c :: cs, _, h, hc => good_afterAll hL cs (gs := after L _ c) (good_after hL h (hc c (by simp))) fun c h => hc c (by simp [h])

theorem good_dump {L : Casing} {F : FloatCodec} (hF : F.Lawful) {gs : GlyphSet} (h : Good L gs) : ∃ d, dumpBytes F (contentsVal gs.contents) = .ok d := by
  obtain ⟨d, -, -, h, -⟩ := load_contents F hF gs.contents h.wf h.text
  exact ⟨d, h⟩

/-- A glyph set of the first program and the one of the second. -/
structure Both (L : Casing) (gs gs' : GlyphSet) (cs : List SetCall) : Prop where
  prev : gs.havePrevious = true
  prev' : gs'.havePrevious = true
  good : Good L gs
  good' : Good L gs'
  adds : ∀ c ∈ cs, AddsGlyphs L c
  named : Named L gs cs
  follows : Follows L gs gs' cs

theorem Follows.dir {L : Casing} {gs gs' : GlyphSet} {cs : List SetCall} (h : Follows L gs gs' cs) : gs'.dir = gs.dir := by
  rcases h with h | ⟨pre, post, -, h⟩
  · exact h.dir
  · rw [h.dir, (afterAll_dir L pre gs).1]

theorem Both.tail (F : FloatCodec) {L : Casing} (hL : CaseLaws L.lower) {gs gs' : GlyphSet} {c : SetCall} {cs : List SetCall} (h : Both L gs gs' (c :: cs)) : Both L (after L gs c) (after L gs' c) cs := by
  have hc := h.adds c (by simp)
  refine ⟨(after_same L gs c).2.2.trans h.prev, (after_same L gs' c).2.2.trans h.prev', good_after hL h.good hc, good_after hL h.good' hc, fun c h' => h.adds c (by simp [h']),
    h.named.2, (follows_step F h.follows hc h.named).1⟩

/-- The two programs. -/
structure Pair (L : Casing) (f g : Font) (calls : List FontCall) : Prop where
  writer : g.writer = f.writer
  dirs : SameDirs f.fs g.fs
  sets : ∀ i : Nat, (f.sets[i]? = none ∧ g.sets[i]? = none) ∨ ∃ gs gs', f.sets[i]? = some gs ∧ g.sets[i]? = some gs' ∧ Both L gs gs' (calls.filterMap (onSet i))

theorem onSet_ne {i j : Nat} (h : j ≠ i) (c : SetCall) (cs : List FontCall) : (FontCall.set j c :: cs).filterMap (onSet i) = cs.filterMap (onSet i) := by
  rw [List.filterMap_cons_none]
  simp [onSet, h]

theorem onSet_eq (i : Nat) (c : SetCall) (cs : List FontCall) : (FontCall.set i c :: cs).filterMap (onSet i) = c :: cs.filterMap (onSet i) := by
  rw [List.filterMap_cons_some (b := c)]
  simp [onSet]

theorem pair_run {E : FontInfo.Env} (hF : E.F.Lawful) {L : Casing} (hL : CaseLaws L.lower) (calls : List FontCall) : ∀ (f g : Font), Pair L f g calls →
    (∀ op, .ufo op ∈ calls → Repeatable op) → (∀ n b v, .getGlyphSet n b v ∉ calls) →
    (∀ pre op post, calls = pre ++ .ufo op :: post → OneFile (f.run E L pre).fs op) →
    ∃ ps ps', Runs ps f.fs (f.run E L calls).fs ∧ Runs ps' g.fs (g.run E L calls).fs ∧ Matches ps ps' ∧
      ∀ i gs, f.sets[i]? = some gs → .glyphs .save ∈ calls.filterMap (onSet i) → ∃ d, .put (gs.dir ++ [contentsName]) d ∈ ps := by
  induction calls with
  | nil => exact fun f g _ _ _ _ => ⟨[], [], .nil, .nil, .nil, fun i gs _ h => by cases h⟩
  | cons c calls ih =>
    intro f g hp hr hk ho
    have hr' : ∀ op, .ufo op ∈ calls → Repeatable op := fun op h => hr op (by simp [h])
    have hk' : ∀ n b v, .getGlyphSet n b v ∉ calls := fun n b v h => hk n b v (by simp [h])
    have ho' : ∀ pre op post, calls = pre ++ .ufo op :: post → OneFile ((f.step E L c).1.run E L pre).fs op := fun pre op post e => ho (c :: pre) op post (by rw [e]; rfl)
    cases c with
    | getGlyphSet n b v => exact absurd (by simp) (hk n b v)
    | ufo op =>
      obtain ⟨w', pl, h⟩ := step_plan E L f.writer (hr op (by simp))
      have hoa : OneFile f.fs op := ho [] op calls rfl
      obtain ⟨ea, da⟩ := h f.fs hoa
      obtain ⟨eb, db⟩ := h g.fs (oneFile_congr hp.dirs hoa)
      rw [← hp.writer] at eb db
      obtain ⟨ps, ps', r1, r2, r3, r4⟩ := ih (f.step E L (.ufo op)).1 (g.step E L (.ufo op)).1
        ⟨eb.trans ea.symm, ((done_apart da).dirs.symm.trans hp.dirs).trans (done_apart db).dirs, hp.sets⟩ hr' hk' ho'
      exact ⟨pl :: ps, pl :: ps', .cons da r1, .cons db r2, .same r3, fun i gs h1 h2 => by
        obtain ⟨d, hd⟩ := r4 i gs h1 h2
        exact ⟨d, by simp [hd]⟩⟩
    | set i c =>
      rcases hp.sets i with ⟨h1, h2⟩ | ⟨gs, gs', h1, h2, hb⟩
      · have e1 : (f.step E L (.set i c)).1 = f := by simp only [Font.step, Font.callSet, h1]
        have e2 : (g.step E L (.set i c)).1 = g := by simp only [Font.step, Font.callSet, h2]
        have hp' : Pair L f g calls := by
          refine ⟨hp.writer, hp.dirs, fun j => ?_⟩
          by_cases e : i = j
          · subst e; exact .inl ⟨h1, h2⟩
          · have := hp.sets j
            rwa [onSet_ne e] at this
        rw [e1] at ho'
        obtain ⟨ps, ps', r1, r2, r3, r4⟩ := ih f g hp' hr' hk' ho'
        refine ⟨ps, ps', ?_, ?_, r3, fun j gs g1 g2 => ?_⟩
        · show Runs ps _ ((f.step E L (.set i c)).1.run E L calls).fs
          rw [e1]; exact r1
        · show Runs ps' _ ((g.step E L (.set i c)).1.run E L calls).fs
          rw [e2]; exact r2
        · by_cases e : i = j
          · subst e; rw [h1] at g1; cases g1
          · rw [onSet_ne e] at g2; exact r4 j gs g1 g2
      · rw [onSet_eq] at hb
        have hc := hb.adds c (by simp)
        have e1 : (f.step E L (.set i c)).1 = { f with fs := (setStep L E.F (gs, f.fs) c).1.2, sets := f.sets.set i (after L gs c) } := by
          simp only [Font.step, Font.callSet, h1, setStep_after E.F gs f.fs hc]
        have e2 : (g.step E L (.set i c)).1 = { g with fs := (setStep L E.F (gs', g.fs) c).1.2, sets := g.sets.set i (after L gs' c) } := by
          simp only [Font.step, Font.callSet, h2, setStep_after E.F gs' g.fs hc]
        have da := planOf_done E.F hb.prev f.fs hc
        have db := planOf_done E.F hb.prev' g.fs hc
        have hp' : Pair L (f.step E L (.set i c)).1 (g.step E L (.set i c)).1 calls := by
          rw [e1, e2]
          refine ⟨hp.writer, ((done_apart da).dirs.symm.trans hp.dirs).trans (done_apart db).dirs, fun j => ?_⟩
          dsimp only
          by_cases e : i = j
          · subst e
            have l1 := (List.getElem?_eq_some_iff.1 h1).1
            have l2 := (List.getElem?_eq_some_iff.1 h2).1
            exact .inr ⟨_, _, List.getElem?_set_self l1, List.getElem?_set_self l2, hb.tail E.F hL⟩
          · rw [List.getElem?_set_ne e, List.getElem?_set_ne e]
            have := hp.sets j
            rwa [onSet_ne e] at this
        obtain ⟨ps, ps', r1, r2, r3, r4⟩ := ih _ _ hp' hr' hk' ho'
        have hlater : .glyphs .save ∈ calls.filterMap (onSet i) → ∃ d, .put (gs.dir ++ [contentsName]) d ∈ ps := by
          intro h
          have := r4 i (after L gs c) (by rw [e1]; exact List.getElem?_set_self (List.getElem?_eq_some_iff.1 h1).1) h
          rwa [(after_same L gs c).1] at this
        refine ⟨planOf L E.F gs c :: ps, planOf L E.F gs' c :: ps', .cons da ?_, .cons db ?_, ?_, fun j gs'' g1 g2 => ?_⟩
        · rw [show (setStep L E.F (gs, f.fs) c).1.2 = (f.step E L (.set i c)).1.fs by rw [e1]]; exact r1
        · rw [show (setStep L E.F (gs', g.fs) c).1.2 = (g.step E L (.set i c)).1.fs by rw [e2]]; exact r2
        · rcases (follows_step E.F hb.follows hc hb.named).2 with e | ⟨rfl, hl⟩
          · rw [e]; exact .same r3
          · obtain ⟨d, hd⟩ := good_dump hF hb.good
            obtain ⟨d', hd'⟩ := good_dump hF hb.good'
            obtain ⟨d'', hl⟩ := hlater hl
            simp only [planOf, hd, hd', hb.follows.dir]
            exact .later hl r3
        · by_cases e : i = j
          · subst e
            rw [h1] at g1; cases g1
            rw [onSet_eq] at g2
            rcases List.mem_cons.1 g2 with rfl | g2
            · obtain ⟨d, hd⟩ := good_dump hF hb.good
              exact ⟨d, by simp [planOf, hd]⟩
            · obtain ⟨d, hd⟩ := hlater g2
              exact ⟨d, by simp [hd]⟩
          · rw [onSet_ne e] at g2
            obtain ⟨d, hd⟩ := r4 j gs'' (by rw [e1]; simp only [List.getElem?_set_ne e]; exact g1) g2
            exact ⟨d, by simp [hd]⟩

end Verif.Restart
