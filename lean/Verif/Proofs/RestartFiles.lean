import Verif.Proofs.RestartRead
import Verif.Proofs.UfoUpgrade
import Verif.Proofs.UfoMeaning
import Verif.Proofs.UfoResave
/-! A program that is started again: the glyph sets can be obtained when the tables can be read. -/
namespace Verif.Restart
open Verif Verif.FS Verif.Spec.FS Verif.Ufo Verif.IO Verif.GlyphSet Verif.Interrupt Verif.Spec.Interrupt Verif.Spec.Restart Verif.Spec.Plist Verif.Spec.Ufo Verif.Spec.GlyphSet

/-- The files of a table exist, and none of them is that of the layer info. -/
def There (L : Casing) (fs : FS) (d : Str) (t : Dict Str Str) : Prop :=
  ∀ e ∈ t, L.lower e.2 ≠ L.lower layerinfoName ∧ fs.exists [d, e.2] = true

/-- The table in a directory, if it can be read, is a table of files that exist. -/
def TableFine (L : Casing) (F : FloatCodec) (fs : FS) (d : Str) : Prop :=
  ∀ x, getPlist F fs [d, contentsName] (some (.dict [])) = .ok x → ∃ y t, x = .dict y ∧ tableOf y = some t ∧ There L fs d t

theorem default_info {L : Casing} (hL : CaseLaws L.lower) {n f : Str} {ex : Dict Str Str} (h : defaultNaming L n ex = .ok f) : L.lower f ≠ L.lower layerinfoName := by
  intro e
  have h1 : ∃ a, f = a ++ ['f'] := by
    obtain ⟨v, -, -, h | ⟨k, -, h⟩ | ⟨k, -, -, h⟩⟩ := Filenames.userNameToFileName_cases h
    all_goals exact ⟨_, h.trans (List.append_assoc _ c!".gli" ['f']).symm⟩
  obtain ⟨a, rfl⟩ := h1
  have h3 := congrArg List.getLast? e
  rw [hL.last _ _ (by decide), show layerinfoName = c!"layerinfo.plis" ++ ['t'] from rfl, hL.last _ _ (by decide)] at h3
  exact absurd h3 (by decide)

theorem node_key {fs : FS} {p q : Path} (h : fs.key p = fs.key q) : fs.node? p = fs.node? q := by
  unfold FS.node?
  have hl := congrArg List.length h
  simp only [FS.key, List.length_map] at hl
  by_cases hp : p = []
  · subst hp
    have : q = [] := List.length_eq_zero_iff.1 hl.symm
    rw [if_pos rfl, if_pos this]
  · have : q ≠ [] := by rintro rfl; exact hp (List.length_eq_zero_iff.1 hl)
    rw [if_neg hp, if_neg this, h]

/-- A file of a layer that exists goes on existing. -/
theorem exists_step {E : FontInfo.Env} {L : Casing} {dirs : List Str} {f : Font} (h : Tidy L dirs f) {c : FontCall} (hc : Fine L f.fs.canon dirs c)
    {d x : Str} (hd : d ∈ dirs) (hx : L.lower x ≠ L.lower layerinfoName) {left : FS} (hs : StoppedBetween f.fs (f.step E L c).1.fs left) (he : f.fs.exists [d, x] = true) : left.exists [d, x] = true := by
  unfold FS.exists at he ⊢
  cases hc with
  | @ufo op hop =>
    rw [Crash.stopped_entry (w := f.world) h.layered (stoppedBetween_crash hs) (hop d hd) [x]]
    exact he
  | @set j c hc =>
    cases hj : f.sets[j]? with
    | none =>
      simp only [Font.step, Font.callSet, hj] at hs
      rcases (done_stopped (.nothing (fs := f.fs)) hs).node [d, x] with e | ⟨h, -⟩
      · rw [e]; exact he
      · exact h.elim
    | some gj =>
      simp only [Font.step, Font.callSet, hj] at hs
      obtain ⟨p1, p2, e, -, hedir⟩ := h.sets j gj hj
      have hdone := planOf_done E.F p1 f.fs hc
      have hap := done_stopped hdone hs
      have hcan := hap.canon
      rcases hap.node [d, x] with e1 | ⟨ht, -⟩
      · rw [e1]; exact he
      · cases hpl : planOf L E.F gj c with
        | nothing => rw [hpl] at ht; exact ht.elim
        | put p b =>
          rw [hpl] at ht hdone
          have hk : left.node? [d, x] = left.node? p := node_key (by
            have := ht.2.symm
            simp only [FS.key, hcan] at this ⊢; exact this)
          have hk' : f.fs.node? [d, x] = f.fs.node? p := node_key ht.2.symm
          rw [hk]
          rcases put_stopped hdone hs with e2 | ⟨n, e2⟩
          · rw [e2, ← hk']; exact he
          · rw [e2]; rfl
        | drop p =>
          rw [hpl] at ht
          exfalso
          have hp : p = gj.dir ++ [layerinfoName] := by
            cases hc with
            | write => simp only [planOf] at hpl; repeat' split at hpl
                       all_goals cases hpl
            | reverse => cases hpl
            | save => simp only [planOf] at hpl; repeat' split at hpl
                      all_goals cases hpl
            | layerInfo =>
              simp only [planOf] at hpl
              repeat' split at hpl
              all_goals first | (cases hpl; done) | (cases hpl; rfl)
          have hk := ht.2
          rw [hp, hedir] at hk
          simp only [FS.key, List.cons_append, List.nil_append, List.map_cons, List.map_nil, List.cons.injEq, and_true] at hk
          exact hx (h.canon _ _ hk.2).symm

theorem there_step {E : FontInfo.Env} {L : Casing} {dirs : List Str} {f : Font} (h : Tidy L dirs f) {c : FontCall} (hc : Fine L f.fs.canon dirs c)
    {d : Str} (hd : d ∈ dirs) {left : FS} (hs : StoppedBetween f.fs (f.step E L c).1.fs left) {t : Dict Str Str} (ht : There L f.fs d t) : There L left d t :=
  fun e he => ⟨(ht e he).1, exists_step h hc hd (ht e he).1 hs (ht e he).2⟩

/-- What a call that is stopped leaves is a table of files that exist, if it can be read. -/
theorem fine_step {E : FontInfo.Env} (hF : E.F.Lawful) {L : Casing} (hL : CaseLaws L.lower) {dirs : List Str} {f : Font} (h : Tidy L dirs f) {c : FontCall} (hc : Fine L f.fs.canon dirs c)
    {i : Nat} {gs : GlyphSet} (hi : f.sets[i]? = some gs) {d : Str} (hdir : gs.dir = [d]) (hd : d ∈ dirs) (hfine : TableFine L E.F f.fs d) (hthere : There L f.fs d gs.contents)
    {left : FS} (hs : StoppedBetween f.fs (f.step E L c).1.fs left) : TableFine L E.F left d := by
  intro x hx
  obtain ⟨-, hg, -⟩ := h.sets i gs hi
  have hpath : gs.dir ++ [contentsName] = [d, contentsName] := by rw [hdir]; rfl
  rcases table_step hL h hc hi hs with e | ⟨-, D, j, hD, hn⟩
  · rw [hpath] at e
    rw [getPlist_congr e] at hx
    obtain ⟨y, t, e1, e2, e3⟩ := hfine x hx
    exact ⟨y, t, e1, e2, there_step h hc hd hs e3⟩
  · rw [hpath] at hn
    obtain ⟨D', dd, t', h1, h2, h3, h4⟩ := load_contents E.F hF gs.contents hg.wf hg.text
    rw [hD] at h1; cases h1
    have hl : loadBytes E.F (D.take j) = .ok x := by
      unfold getPlist FS.getbytes at hx
      rw [hn] at hx
      dsimp only at hx
      split at hx
      · cases hx
      · next hh => cases hx; exact hh
    have hx' := Cut.load_prefix (List.take_prefix j D) hl h2
    subst hx'
    exact ⟨dd, t', rfl, h3, there_step h hc hd hs fun e he => hthere e (h4.mem_iff.2 he)⟩

/-- The glyph set after a call that has succeeded. -/
theorem there_after {L : Casing} (hL : CaseLaws L.lower) {F : FloatCodec} {gs : GlyphSet} (hg : Good L gs) {fs : FS} {d : Str} (hdir : gs.dir = [d]) {c : SetCall} (hc : AddsGlyphs L c)
    (hok : (setStep L F (gs, fs) c).2 = .ok ()) (ht : There L (setStep L F (gs, fs) c).1.2 d gs.contents) : There L (setStep L F (gs, fs) c).1.2 d (after L gs c).contents := by
  cases hc with
  | reverse =>
    simp only [after]
    unfold getReverseContents
    split <;> exact ht
  | save => exact ht
  | layerInfo => exact ht
  | @write n fv data hn =>
    simp only [after]
    simp only [setStep, GlyphSet.step, writeGlyph] at hok ht ⊢
    cases hv : glifVersion gs fv with
    | error e => rw [hv] at hok; cases hok
    | ok v =>
      rw [hv] at hok ht
      dsimp only at hok ht ⊢
      obtain ⟨hsame, -⟩ := assignFile_same L (defaultNaming L) gs n
      have hw := (assignFile_cache (L := L) (naming := defaultNaming L) n hg.wf hg.cache).1
      have key : ∀ m x, Dict.get? (assignFile L (defaultNaming L) gs n).1.contents m = some x →
          Dict.get? gs.contents m = some x ∨ (m = n ∧ (assignFile L (defaultNaming L) gs n).2 = .ok x ∧ ∃ ex, defaultNaming L n ex = .ok x) := by
        intro m x hm
        unfold assignFile at hm ⊢
        split at hm
        · exact .inl hm
        · next hnone =>
          dsimp only at hm
          split at hm
          · exact .inl hm
          · next f hf =>
            dsimp only at hm
            by_cases e : n = m
            · subst e
              rw [Dict.get?_set_self] at hm
              cases hm
              refine .inr ⟨rfl, ?_, _, hf⟩
              dsimp only
              rw [hf]
            · rw [Dict.get?_set_ne _ _ e] at hm
              exact .inl hm
      generalize hz : assignFile L (defaultNaming L) gs n = z at *
      rcases z with ⟨gs', e | x⟩
      · cases hok
      · dsimp only at hok ht hw key hsame ⊢
        cases hdt : data v with
        | error e => rw [hdt] at hok; cases hok
        | ok b =>
          rw [hdt] at hok ht
          dsimp only at hok ht ⊢
          intro e he
          rcases key e.1 e.2 (Dict.get?_of_mem hw he) with h' | ⟨h1, h2, ex, h3⟩
          · exact ht e (Dict.mem_of_get? h')
          · refine ⟨default_info hL h3, ?_⟩
            cases h2
            rw [hsame, hdir] at hok ⊢
            show FS.exists _ ([d] ++ [e.2]) = true
            unfold storeGlyph at hok ⊢
            unfold FS.exists
            split at hok
            · next hu =>
              rw [if_pos hu]
              rw [unchanged_node (by simp only [Bool.and_eq_true] at hu; exact hu.2)]; rfl
            · next hu =>
              rw [if_neg hu]
              split at hok
              · cases hok
              · next fs2 hset =>
                dsimp only
                rw [getbytes_ok.1 (setbytes_files hset).2.1]
                rfl

theorem fine_run {E : FontInfo.Env} (hF : E.F.Lawful) {L : Casing} (hL : CaseLaws L.lower) {dirs : List Str} (i : Nat) (d : Str) (hd : d ∈ dirs) (calls : List FontCall) : ∀ (f : Font) (gs : GlyphSet),
    Tidy L dirs f → (∀ c ∈ calls, Fine L f.fs.canon dirs c) → f.sets[i]? = some gs → gs.dir = [d] → TableFine L E.F f.fs d → There L f.fs d gs.contents →
    (∀ r ∈ f.outcomes E L i calls, r = .ok ()) → ∀ left, StoppedBetween f.fs (f.run E L calls).fs left → TableFine L E.F left d := by
  induction calls with
  | nil =>
    intro f gs _ _ _ _ hfine _ _ left hs x hx
    have hn : ∀ q, left.node? q = f.fs.node? q := fun q => by
      rcases (done_stopped (.nothing (fs := f.fs)) hs).node q with e | ⟨h, -⟩
      · exact e
      · exact h.elim
    rw [getPlist_congr (hn _)] at hx
    obtain ⟨y, t, e1, e2, e3⟩ := hfine x hx
    refine ⟨y, t, e1, e2, fun e he => ⟨(e3 e he).1, ?_⟩⟩
    have := (e3 e he).2
    unfold FS.exists at this ⊢
    rw [hn]; exact this
  | cons c calls ih =>
    intro f gs ht hc hi hdir hfine hthere hok left hs
    have hc0 := hc c (by simp)
    obtain ⟨ht', hcan, x, hx⟩ := tidy_step (E := E) hL ht hc0
    have hc' : ∀ c' ∈ calls, Fine L (f.step E L c).1.fs.canon dirs c' := fun c h => by rw [hcan]; exact hc c (by simp [h])
    obtain ⟨y, hy⟩ := tidy_run (E := E) hL calls ht' hc'
    rcases stop_split hx hy hs with hs | hs
    · exact fine_step hF hL ht hc0 hi hdir hd hfine hthere hs
    · have hend := stop_end hx
      have hfine' := fine_step hF hL ht hc0 hi hdir hd hfine hthere hend
      have hthere' := there_step ht hc0 hd hend hthere
      have hgs : ∃ gs1, (f.step E L c).1.sets[i]? = some gs1 ∧ gs1.dir = gs.dir ∧ There L (f.step E L c).1.fs d gs1.contents ∧ ∀ r ∈ (f.step E L c).1.outcomes E L i calls, r = .ok () := by
        cases hc0 with
        | ufo _ => exact ⟨gs, hi, rfl, hthere', hok⟩
        | @set j c hadd =>
          by_cases hne : j = i
          · subst hne
            simp only [Font.outcomes, if_true, List.mem_cons, forall_eq_or_imp] at hok
            refine ⟨after L gs c, ?_, (after_same L gs c).1, ?_, hok.2⟩
            · simp only [Font.step, Font.callSet, hi, setStep_after E.F gs f.fs hadd]
              exact List.getElem?_set_self (List.getElem?_eq_some_iff.1 hi).1
            · have h1 := hok.1
              simp only [Font.step, Font.callSet, hi] at h1 hthere' ⊢
              exact there_after hL (ht.sets j gs hi).2.1 hdir hadd h1 hthere'
          · simp only [Font.outcomes, if_neg hne] at hok
            refine ⟨gs, ?_, rfl, hthere', hok⟩
            simp only [Font.step, Font.callSet]
            split
            · exact hi
            · dsimp only
              rw [List.getElem?_set_ne hne]; exact hi
      obtain ⟨gs1, h1, h2, h3, h4⟩ := hgs
      exact ih _ gs1 ht' hc' h1 (h2.trans hdir) hfine' h3 h4 left hs

/-- A table that can be read and whose files exist is accepted. -/
theorem open_fine {L : Casing} {F : FloatCodec} {fs : FS} {d : Str} (h : TableFine L F fs d) {x : PyVal} (hx : getPlist F fs [d, contentsName] none = .ok x) {version : Nat}
    (hv : version = 1 ∨ version = 2 ∨ version = 3) (v : Bool) : ∃ gs, openGlyphSet F fs [d] version v = .ok gs := by
  have hx' : getPlist F fs [d, contentsName] (some (.dict [])) = .ok x := by
    unfold getPlist at hx ⊢
    split at hx
    · cases hx
    · cases hx
    · exact hx
  obtain ⟨y, t, e1, e2, e3⟩ := h x hx'
  subst e1
  unfold openGlyphSet rebuildContents checkContents
  rw [if_pos hv]
  dsimp only
  rw [show [d] ++ [contentsName] = [d, contentsName] from rfl, hx']
  dsimp only
  rw [e2]
  dsimp only
  have : t.any (fun e => !fs.exists ([d] ++ [e.2])) = false := by
    rw [List.any_eq_false]
    intro e he
    have := (e3 e he).2
    simp [this]
  rw [this, Bool.and_false]
  exact ⟨_, rfl⟩

theorem open_version {F : FloatCodec} {fs : FS} {dir : Path} {version : Nat} {v : Bool} {gs : GlyphSet} (h : openGlyphSet F fs dir version v = .ok gs) : version = 1 ∨ version = 2 ∨ version = 3 := by
  unfold openGlyphSet at h
  split at h
  · assumption
  · cases h

theorem fine_opened {L : Casing} {F : FloatCodec} {fs : FS} {d : Str} {version : Nat} {v : Bool} {gs : GlyphSet} (h : openGlyphSet F fs [d] version v = .ok gs)
    (hf : ∀ m x, Dict.get? gs.contents m = some x → L.lower x ≠ L.lower layerinfoName ∧ fs.exists [d, x] = true) : There L fs d gs.contents ∧ TableFine L F fs d := by
  obtain ⟨-, -, -, -, a5, x, h1, h2⟩ := open_ok h
  have hthere : There L fs d gs.contents := fun e he => hf e.1 e.2 (Dict.get?_of_mem a5 he)
  refine ⟨hthere, fun x' hx' => ?_⟩
  rw [show [d] ++ [contentsName] = [d, contentsName] from rfl, hx'] at h1
  cases h1
  unfold checkContents at h2
  split at h2
  · next y =>
    split at h2
    · cases h2
    · next t ht =>
      split at h2
      · cases h2
      · refine ⟨y, t, rfl, ht, ?_⟩
        have h3 := Except.ok.inj h2
        have hn : (t.map Prod.fst).Nodup := by
          rcases (getPlist_readable hx').1 with h | h
          · cases h
          · have h := h.1
            rw [UfoMeaning.tableOf_some ht, List.map_map] at h
            refine List.Nodup.of_map PyVal.str ?_
            rw [List.map_map]
            exact h
        rw [← h3, Props.dict_fill hn] at hthere
        exact hthere
  · cases h2

end Verif.Restart
