import Verif.Proofs.UfoShared
import Verif.Spec.Reorder
/-! Calls in another order. -/
namespace Verif.Ufo
open Verif Verif.FS Verif.IO Verif.Spec.Ufo Verif.Spec.Reorder

theorem step_writer (E : FontInfo.Env) (L : Casing) (w : World) (op : Op) (h : WritesData (.ufo op)) : (step E L w op).1.1 = w.1 := by
  have hw : ∀ (F : FloatCodec) (n : Str) (b : Bool) (v : PyVal), (writeOrRemove F w n b v).1.1 = w.1 := by
    intro F n b v; unfold writeOrRemove; split
    · rfl
    · split <;> rfl
  cases op with
  | maps a b => exact h.elim
  | info i v => simp only [step, writeInfo]; repeat' (first | rfl | split)
  | lib l v => simp only [step, writeLib]; split; rfl; exact hw _ _ _ _
  | groups g v => simp only [step, writeGroups]; split; rfl; exact hw _ _ _ _
  | kerning g v => simp only [step, writeKerning]; split; rfl; exact hw _ _ _ _
  | features s => simp only [step, writeFeatures]; repeat' (first | rfl | split)
  | glyphSet n d v => exact h.elim
  | rename n m d => exact h.elim
  | delete n => exact h.elim
  | layerContents n v => simp only [step, writeLayerContents]; repeat' (first | rfl | split)
  | image n d v => simp only [step, writeImage]; repeat' (first | rfl | split)
  | removeImage n => simp only [step, removeImage]; repeat' (first | rfl | split)
  | bytes p d => rfl
  | remove p f r => rfl
  | copy s p q => rfl
  | copyImage s n m => simp only [step, copyImageFromReader]; repeat' (first | rfl | split)
  | glyph g o => rfl
  | layerInfo g i v => rfl

/-- A call that writes data keeps the writer, and the glyph sets but for the one it is on, which stays in its directory. -/
theorem data_step (E : FontInfo.Env) (L : Casing) (f : Font) (c : FontCall) (h : WritesData c) :
    (f.step E L c).1.writer = f.writer ∧
      ((∃ op, c = .ufo op) ∧ (f.step E L c).1.sets = f.sets ∨ ∃ i s, c = .set i s ∧
        ((f.sets[i]? = none ∧ f.step E L c = (f, .error .indexError)) ∨ ∃ gs, f.sets[i]? = some gs ∧
          f.step E L c = ({ f with fs := (GlyphSet.setStep L E.F (gs, f.fs) s).1.2, sets := f.sets.set i (GlyphSet.setStep L E.F (gs, f.fs) s).1.1 }, (GlyphSet.setStep L E.F (gs, f.fs) s).2))) := by
  cases c with
  | getGlyphSet n d v => exact h.elim
  | ufo op => exact ⟨step_writer E L f.world op h, .inl ⟨⟨op, rfl⟩, rfl⟩⟩
  | set i s =>
    simp only [Font.step, Font.callSet]
    cases hs : f.sets[i]? with
    | none => exact ⟨rfl, .inr ⟨i, s, rfl, .inl ⟨hs, rfl⟩⟩⟩
    | some gs => exact ⟨rfl, .inr ⟨i, s, rfl, .inr ⟨gs, hs, rfl⟩⟩⟩

/-- What the calls are about does not change. -/
theorem about_step (E : FontInfo.Env) (L : Casing) (f : Font) (c : FontCall) (h : WritesData c) (d : FontCall) (e : Str) : About (f.step E L c).1 d e ↔ About f d e := by
  obtain ⟨hw, hs⟩ := data_step E L f c h
  have hdir : ∀ i : Nat, ((f.step E L c).1.sets[i]?).map GlyphSet.GlyphSet.dir = (f.sets[i]?).map GlyphSet.GlyphSet.dir := by
    intro i
    rcases hs with ⟨-, hs⟩ | ⟨j, s, rfl, ⟨-, hs⟩ | ⟨gs, hgs, hs⟩⟩
    · rw [hs]
    · rw [hs]
    · rw [hs]
      dsimp only
      by_cases hij : j = i
      · subst hij
        rw [List.getElem?_set_self (List.getElem?_eq_some_iff.1 hgs).1, hgs, Option.map_some, Option.map_some, GlyphSet.setStep_dir]
      · rw [List.getElem?_set_ne hij]
  cases d with
  | getGlyphSet n b v => cases n with
    | none => exact Iff.rfl
    | some n => simp only [About, hw]
  | ufo op =>
    by_cases hd : ∃ n, op = .delete (some n)
    · obtain ⟨n, rfl⟩ := hd
      simp only [About, hw]
    · rw [about_ufo fun n hn => hd ⟨n, hn⟩, about_ufo fun n hn => hd ⟨n, hn⟩]
  | set i s =>
    have := hdir i
    simp only [About]
    constructor
    · rintro ⟨gs, h1, h2⟩
      rw [h1] at this
      cases h3 : f.sets[i]? with
      | none => rw [h3] at this; cases this
      | some gs' =>
        rw [h3] at this
        have : gs.dir = gs'.dir := Option.some.inj this
        exact ⟨gs', rfl, this ▸ h2⟩
    · rintro ⟨gs, h1, h2⟩
      rw [h1] at this
      cases h3 : (f.step E L c).1.sets[i]? with
      | none => rw [h3] at this; cases this
      | some gs' =>
        rw [h3] at this
        have : gs'.dir = gs.dir := Option.some.inj this
        exact ⟨gs', rfl, this ▸ h2⟩

/-- Everything is the same, for a file system that compares names by `κ`. -/
structure Equal (κ : Str → Str) (f g : Font) : Prop where
  writer : f.writer = g.writer
  sets : f.sets = g.sets
  canon : f.fs.canon = κ
  shares : Shares (fun _ => True) κ f.fs g.fs
  wf : Dict.WF f.fs.nodes
  wf' : Dict.WF g.fs.nodes
  layered : Layered f.writer

namespace Equal
variable {κ : Str → Str} {f g h : Font}

theorem symm (e : Equal κ f g) : Equal κ g f :=
  ⟨e.writer.symm, e.sets.symm, e.shares.canon.symm.trans e.canon, ⟨e.shares.canon.symm, fun q hq => (e.shares.node q hq).symm, fun k hk => (e.shares.raw k hk).symm⟩, e.wf', e.wf, e.writer ▸ e.layered⟩

theorem trans (e : Equal κ f g) (e' : Equal κ g h) : Equal κ f h :=
  ⟨e.writer.trans e'.writer, e.sets.trans e'.sets, e.canon,
    ⟨e.shares.canon.trans e'.shares.canon, fun q hq => (e.shares.node q hq).trans (e'.shares.node q hq), fun k hk => (e.shares.raw k hk).trans (e'.shares.raw k hk)⟩, e.wf, e'.wf', e.layered⟩

theorem same (e : Equal κ f g) : SameState f g := ⟨e.writer, e.sets, e.shares.canon, fun q => e.shares.node q (paths_of_all (fun _ => trivial) q)⟩

theorem step (E : FontInfo.Env) (L : Casing) (e : Equal κ f g) (c : FontCall) : Equal κ (f.step E L c).1 (g.step E L c).1 ∧ (f.step E L c).2 = (g.step E L c).2 := by
  obtain ⟨w, fs, sets⟩ := f
  obtain ⟨w', fs', sets'⟩ := g
  obtain rfl : w = w' := e.writer
  obtain rfl : sets = sets' := e.sets
  obtain ⟨h1, h2, h3, h4⟩ := font_step_shares E L ⟨w, sets⟩ e.layered e.shares e.canon e.wf e.wf' c fun _ _ => trivial
  obtain ⟨l1, l2⟩ := font_step_acts E L ⟨w, fs, sets⟩ e.layered c
  have l3 := (font_step_acts E L ⟨w, fs', sets⟩ e.layered c).2
  exact ⟨⟨h1, h2, l2.canon.trans e.canon, h3, l2.wf e.wf, l3.wf e.wf', l1⟩, h4⟩

theorem run (E : FontInfo.Env) (L : Casing) : ∀ (cs : List FontCall) {f g : Font}, Equal κ f g → Equal κ (f.run E L cs) (g.run E L cs) ∧ f.results E L cs = g.results E L cs
  | [], _, _, e => ⟨e, rfl⟩
  | c :: cs, _, _, e => by
    have h := e.step E L c
    have ih := run E L cs h.1
    exact ⟨ih.1, by simp only [Font.results]; rw [h.2, ih.2]⟩

end Equal

/-- The entries that are, for the file system, those that a call is about. -/
def Reach (f : Font) (c : FontCall) (a : Str) : Prop := ∃ e, About f c e ∧ f.fs.canon a = f.fs.canon e

/-- What a call does not reach stays. -/
theorem stays (E : FontInfo.Env) (L : Casing) (f : Font) (hl : Layered f.writer) (c : FontCall) {a : Str} {r : Path} (h : ¬ Reach f c a) :
    Dict.get? (f.step E L c).1.fs.nodes (f.fs.canon a :: r) = Dict.get? f.fs.nodes (f.fs.canon a :: r) := by
  refine (font_step_acts E L f hl c).2.get? _ fun p hp => ?_
  rintro ⟨t, ht⟩
  rcases hp with ⟨e, r', he, rfl⟩ | hall
  · rw [List.cons_append] at ht
    exact h ⟨e, he, (List.cons.inj ht).1.symm⟩
  · exact h ⟨a, hall a, rfl⟩

/-- The second of two calls, with the glyph sets as before or after the first. -/
theorem second_step (E : FontInfo.Env) (L : Casing) (f : Font) (hl : Layered f.writer) (hwf : Dict.WF f.fs.nodes) {c d : FontCall} (hi : Independent f c d) :
    (((f.step E L c).1.step E L d).2 = (f.step E L d).2) ∧
      (∀ a r, Reach f d a → Dict.get? ((f.step E L c).1.step E L d).1.fs.nodes (f.fs.canon a :: r) = Dict.get? (f.step E L d).1.fs.nodes (f.fs.canon a :: r)) ∧
      (((∃ op, d = .ufo op) ∧ ((f.step E L c).1.step E L d).1.sets = (f.step E L c).1.sets ∧ (f.step E L d).1.sets = f.sets) ∨
        ∃ j s, d = .set j s ∧ (((f.step E L c).1.sets[j]? = none ∧ ((f.step E L c).1.step E L d).1.sets = (f.step E L c).1.sets ∧ (f.step E L d).1.sets = f.sets) ∨
          ∃ gs, f.sets[j]? ≠ none ∧ ((f.step E L c).1.step E L d).1.sets = (f.step E L c).1.sets.set j gs ∧ (f.step E L d).1.sets = f.sets.set j gs)) := by
  have hc := data_step E L f c hi.first
  -- the state after the first call, but with the glyph sets of before
  let g : Font := { f with fs := (f.step E L c).1.fs }
  have hcan : (f.step E L c).1.fs.canon = f.fs.canon := (font_step_acts E L f hl c).2.canon
  have hsh : Shares (Reach f d) f.fs.canon (f.step E L c).1.fs f.fs := by
    refine Shares.of_raw hcan hcan ?_
    rintro k ⟨a, r, ⟨e, he, hae⟩, rfl⟩
    refine stays E L f hl c fun ⟨b, hb, hab⟩ => hi.apart b e hb he (hab.symm.trans hae)
  obtain ⟨-, k2, k3, k4⟩ := font_step_shares E L ⟨f.writer, f.sets⟩ hl hsh hcan ((font_step_acts E L f hl c).2.wf hwf) hwf d fun e he => ⟨e, he, rfl⟩
  have key : ∀ x : Font, x.writer = f.writer → x.fs = g.fs → (∀ j s, d = .set j s → x.sets[j]? = f.sets[j]?) → (x.step E L d).2 = (g.step E L d).2 ∧ (x.step E L d).1.fs = (g.step E L d).1.fs := by
    rintro ⟨w, fs, sets⟩ hw hf hs
    obtain rfl : w = f.writer := hw
    obtain rfl : fs = g.fs := hf
    cases d with
    | getGlyphSet n b v => exact hi.second.elim
    | ufo op => exact ⟨rfl, rfl⟩
    | set j s =>
      have := hs j s rfl
      simp only [Font.step, Font.callSet]
      rw [show g.sets[j]? = sets[j]? from this.symm]
      cases sets[j]? <;> exact ⟨rfl, rfl⟩
  have hsets : ∀ j s, d = .set j s → (f.step E L c).1.sets[j]? = f.sets[j]? := by
    rintro j s rfl
    rcases hc.2 with ⟨-, h⟩ | ⟨i, t, rfl, ⟨-, h⟩ | ⟨gs, hgs, h⟩⟩
    · rw [h]
    · rw [h]
    · rw [h]
      dsimp only
      by_cases hij : i = j
      · subst hij
        exfalso
        cases hd : gs.dir with
        | nil => exact hi.apart [] [] ⟨gs, hgs, .inl hd⟩ ⟨gs, hgs, .inl hd⟩ rfl
        | cons a r => exact hi.apart a a ⟨gs, hgs, .inr (by rw [hd]; rfl)⟩ ⟨gs, hgs, .inr (by rw [hd]; rfl)⟩ rfl
      · rw [List.getElem?_set_ne hij]
  obtain ⟨k5, k6⟩ := key (f.step E L c).1 hc.1 rfl hsets
  refine ⟨k5.trans k4, fun a r ha => ?_, ?_⟩
  · rw [k6]
    exact k3.raw _ ⟨a, r, ha, rfl⟩
  · cases d with
    | getGlyphSet n b v => exact hi.second.elim
    | ufo op => exact .inl ⟨⟨op, rfl⟩, rfl, rfl⟩
    | set j s =>
      have hj := hsets j s rfl
      refine .inr ⟨j, s, rfl, ?_⟩
      cases hs : f.sets[j]? with
      | none =>
        rw [hs] at hj
        refine .inl ⟨hj, ?_, ?_⟩
        · simp only [Font.step, Font.callSet] at hj ⊢
          rw [hj]
        · simp only [Font.step, Font.callSet, hs]
      | some gs =>
        rw [hs] at hj
        have e1 : (f.step E L (.set j s)).1.sets = f.sets.set j (GlyphSet.setStep L E.F (gs, f.fs) s).1.1 := by
          simp only [Font.step, Font.callSet, hs]
        have e2 : ((f.step E L c).1.step E L (.set j s)).1.sets = (f.step E L c).1.sets.set j (GlyphSet.setStep L E.F (gs, (f.step E L c).1.fs) s).1.1 := by
          generalize (f.step E L c).1 = y at hj
          simp only [Font.step, Font.callSet, hj]
        have e3 : (GlyphSet.setStep L E.F (gs, (f.step E L c).1.fs) s).1.1 = (GlyphSet.setStep L E.F (gs, f.fs) s).1.1 := by
          have k2' : f.sets.set j (GlyphSet.setStep L E.F (gs, (f.step E L c).1.fs) s).1.1 = f.sets.set j (GlyphSet.setStep L E.F (gs, f.fs) s).1.1 := by
            have := k2
            simp only [User.on, Font.step, Font.callSet, hs] at this
            exact this
          have := congrArg (fun l : List GlyphSet.GlyphSet => l[j]?) k2'
          simp only [List.getElem?_set_self (List.getElem?_eq_some_iff.1 hs).1] at this
          exact Option.some.inj this
        rw [e3] at e2
        exact .inr ⟨_, by simp, e2, e1⟩

theorem _root_.Verif.Spec.Reorder.Independent.symm {f : Font} {c d : FontCall} (h : Independent f c d) : Independent f d c :=
  ⟨h.second, h.first, fun a b ha hb e => h.apart b a hb ha e.symm⟩

theorem _root_.Verif.Spec.Reorder.Independent.step (E : FontInfo.Env) (L : Casing) {f : Font} (hl : Layered f.writer) {c d x : FontCall} (hx : WritesData x) (h : Independent f c d) : Independent (f.step E L x).1 c d :=
  ⟨h.first, h.second, fun a b ha hb => by
    rw [(font_step_acts E L f hl x).2.canon]
    exact h.apart a b ((about_step E L f x hx c a).1 ha) ((about_step E L f x hx d b).1 hb)⟩

/-- Two independent calls can be exchanged. -/
theorem exchange (E : FontInfo.Env) (L : Casing) (f : Font) (hl : Layered f.writer) (hwf : Dict.WF f.fs.nodes) {c d : FontCall} (hi : Independent f c d) :
    Equal f.fs.canon ((f.step E L c).1.step E L d).1 ((f.step E L d).1.step E L c).1 ∧
      ((f.step E L c).1.step E L d).2 = (f.step E L d).2 ∧ ((f.step E L d).1.step E L c).2 = (f.step E L c).2 := by
  obtain ⟨o1, r1, s1⟩ := second_step E L f hl hwf hi
  obtain ⟨o2, r2, s2⟩ := second_step E L f hl hwf hi.symm
  obtain ⟨lc, ac⟩ := font_step_acts E L f hl c
  obtain ⟨ld, ad⟩ := font_step_acts E L f hl d
  obtain ⟨lcd, acd⟩ := font_step_acts E L (f.step E L c).1 lc d
  obtain ⟨ldc, adc⟩ := font_step_acts E L (f.step E L d).1 ld c
  have wc := (data_step E L f c hi.first).1
  have wd := (data_step E L f d hi.second).1
  have wcd := (data_step E L (f.step E L c).1 d hi.second).1
  have wdc := (data_step E L (f.step E L d).1 c hi.first).1
  -- a call reaches the same entries after the other one
  have reach : ∀ x y a, WritesData x → Reach (f.step E L x).1 y a → Reach f y a := by
    rintro x y a hx ⟨e, he, hae⟩
    rw [(font_step_acts E L f hl x).2.canon] at hae
    exact ⟨e, (about_step E L f x hx y e).1 he, hae⟩
  have raw : ∀ a r, Dict.get? ((f.step E L c).1.step E L d).1.fs.nodes (f.fs.canon a :: r) = Dict.get? ((f.step E L d).1.step E L c).1.fs.nodes (f.fs.canon a :: r) := by
    intro a r
    have sd : ¬ Reach f d a → Dict.get? ((f.step E L c).1.step E L d).1.fs.nodes (f.fs.canon a :: r) = Dict.get? (f.step E L c).1.fs.nodes (f.fs.canon a :: r) := by
      intro h
      have := stays E L (f.step E L c).1 lc d (a := a) (r := r) fun h' => h (reach c d a hi.first h')
      rwa [ac.canon] at this
    have sc : ¬ Reach f c a → Dict.get? ((f.step E L d).1.step E L c).1.fs.nodes (f.fs.canon a :: r) = Dict.get? (f.step E L d).1.fs.nodes (f.fs.canon a :: r) := by
      intro h
      have := stays E L (f.step E L d).1 ld c (a := a) (r := r) fun h' => h (reach d c a hi.second h')
      rwa [ad.canon] at this
    by_cases hd : Reach f d a
    · have hc : ¬ Reach f c a := by
        rintro ⟨e, he, hae⟩
        obtain ⟨e', he', hae'⟩ := hd
        exact hi.apart e e' he he' (hae.symm.trans hae')
      rw [r1 a r hd, sc hc]
    · by_cases hc : Reach f c a
      · rw [sd hd, r2 a r hc]
      · rw [sd hd, sc hc, stays E L f hl c hc, stays E L f hl d hd]
  have sets : ((f.step E L c).1.step E L d).1.sets = ((f.step E L d).1.step E L c).1.sets := by
    rcases s1 with ⟨-, e1, e1'⟩ | ⟨j, t, hj, ⟨-, e1, e1'⟩ | ⟨gs, n1, e1, e1'⟩⟩ <;>
      rcases s2 with ⟨-, e2, e2'⟩ | ⟨i, t', hi', ⟨-, e2, e2'⟩ | ⟨gs', n2, e2, e2'⟩⟩ <;>
      (rw [e1, e2, e1', e2'])
    -- both are on glyph sets
    by_cases hij : i = j
    · subst hij
      exfalso
      subst hj hi'
      cases hg : f.sets[i]? with
      | none => exact n1 hg
      | some g =>
        cases hdir : g.dir with
        | nil => exact hi.apart [] [] ⟨g, hg, .inl hdir⟩ ⟨g, hg, .inl hdir⟩ rfl
        | cons a r => exact hi.apart a a ⟨g, hg, .inr (by rw [hdir]; rfl)⟩ ⟨g, hg, .inr (by rw [hdir]; rfl)⟩ rfl
    · exact List.set_comm _ _ hij
  refine ⟨⟨by rw [wcd, wc, wdc, wd], sets, acd.canon.trans ac.canon, ?_, acd.wf (ac.wf hwf), adc.wf (ad.wf hwf), lcd⟩, o1, o2⟩
  refine Shares.of_raw ((acd.canon.trans ac.canon).trans (adc.canon.trans ad.canon).symm) (acd.canon.trans ac.canon) ?_
  rintro k ⟨a, r, -, rfl⟩
  exact raw a r

theorem Equal.refl {f : Font} (hl : Layered f.writer) (hwf : Dict.WF f.fs.nodes) : Equal f.fs.canon f f :=
  ⟨rfl, rfl, rfl, Shares.of_raw rfl rfl fun _ _ => rfl, hwf, hwf, hl⟩

/-- Calls in another order leave the same, and every call has the outcome it had. -/
theorem reordered (E : FontInfo.Env) (L : Casing) {f : Font} {cs cs' : List FontCall} (h : Reordered E L f cs cs') (hl : Layered f.writer) (hwf : Dict.WF f.fs.nodes) :
    Equal f.fs.canon (f.run E L cs) (f.run E L cs') ∧ (cs.zip (f.results E L cs)).Perm (cs'.zip (f.results E L cs')) := by
  induction h with
  | refl f cs => exact ⟨((Equal.refl hl hwf).run E L cs).1, .refl _⟩
  | cons f c cs cs' _ ih =>
    obtain ⟨lc, ac⟩ := font_step_acts E L f hl c
    obtain ⟨h1, h2⟩ := ih lc (ac.wf hwf)
    rw [ac.canon] at h1
    exact ⟨h1, by simp only [Font.results, List.zip_cons_cons]; exact h2.cons _⟩
  | swap f c d cs hi =>
    obtain ⟨h1, h2, h3⟩ := exchange E L f hl hwf hi
    obtain ⟨h4, h5⟩ := h1.run E L cs
    refine ⟨h4, ?_⟩
    simp only [Font.results, List.zip_cons_cons]
    rw [h2, h3, h5]
    exact .swap _ _ _
  | trans f cs cs' cs'' _ _ ih ih' =>
    obtain ⟨h1, h2⟩ := ih hl hwf
    obtain ⟨h3, h4⟩ := ih' hl hwf
    exact ⟨h1.trans h3, h2.trans h4⟩

/-- Calls that are independent in pairs can be made in any order. -/
theorem reordered_perm (E : FontInfo.Env) (L : Casing) {cs cs' : List FontCall} (h : cs.Perm cs') : ∀ f : Font, Layered f.writer → cs.Pairwise (Independent f) → Reordered E L f cs cs' := by
  induction h with
  | nil => exact fun f _ _ => .refl f []
  | @cons c l l' hp0 ih =>
    intro f hl hp
    cases l with
    | nil => rw [List.nil_perm.1 hp0]; exact .refl _ _
    | cons d l =>
      have hc : WritesData c := ((List.pairwise_cons.1 hp).1 d (by simp)).first
      exact .cons f c _ _ (ih _ (font_step_acts E L f hl c).1 ((List.pairwise_cons.1 hp).2.imp fun h => h.step E L hl hc))
  | swap c d l =>
    intro f hl hp
    exact .swap f d c l ((List.pairwise_cons.1 hp).1 c (by simp))
  | @trans l l' l'' h1 _ ih ih' =>
    intro f hl hp
    exact .trans f _ _ _ (ih f hl hp) (ih' f hl ((h1.pairwise_iff fun h => Independent.symm h).1 hp))

end Verif.Ufo
