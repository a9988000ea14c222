import Verif.Model.GlyphSet
import Verif.Spec.GlyphSet
import Verif.Proofs.FS
/-! Lemmas about the glyph set model. -/
namespace Verif.GlyphSet
open Verif Verif.FS Verif.IO Verif.Spec.GlyphSet

theorem glifVersion_eq {gs : GlyphSet} {fv : Option Int} {v : Int} (h : glifVersion gs fv = .ok v) :
    v = fv.getD (if 3 ≤ gs.version then 2 else 1) := by
  have aux : ∀ x : Int, (if ¬(x = 1 ∨ x = 2) then (Except.error Exc.glifLibError : Except Exc Int)
      else if x = 2 ∧ gs.version < 3 then .error .glifLibError else .ok x) = .ok v → v = x := by
    intro x hx
    by_cases h1 : x = 1 ∨ x = 2
    · by_cases h2 : x = 2 ∧ gs.version < 3
      · simp [h2] at hx
      · rw [if_neg (fun h => h h1), if_neg h2] at hx
        injection hx with hx
        exact hx.symm
    · rw [if_pos h1] at hx; cases hx
  cases fv with
  | none => exact aux _ h
  | some x => exact aux _ h

theorem assignFile_dir {L : Casing} {naming : Naming} {gs gs' : GlyphSet} {n : Str} {r : Except Exc Str}
    (h : assignFile L naming gs n = (gs', r)) :
    gs'.dir = gs.dir ∧ gs'.havePrevious = gs.havePrevious ∧ gs'.version = gs.version := by
  unfold assignFile at h
  split at h
  · cases h; exact ⟨rfl, rfl, rfl⟩
  · dsimp only at h
    split at h <;> cases h <;> exact ⟨rfl, rfl, rfl⟩

theorem assignFile_ok {L : Casing} {naming : Naming} {gs gs' : GlyphSet} {n f : Str}
    (h : assignFile L naming gs n = (gs', .ok f)) :
    Dict.get? gs'.contents n = some f ∧ (∀ m, m ≠ n → Dict.get? gs'.contents m = Dict.get? gs.contents m) ∧
    (Dict.get? gs.contents n = none ∨ gs' = gs) := by
  unfold assignFile at h
  split at h
  · rename_i f' hf
    cases h
    exact ⟨hf, fun _ _ => rfl, .inr rfl⟩
  · rename_i hn
    dsimp only at h
    split at h
    · cases h
    · cases h
      exact ⟨by simp, fun m hm => Dict.get?_set_ne _ _ (Ne.symm hm), .inl hn⟩

theorem assignFile_error {L : Casing} {naming : Naming} {gs gs' : GlyphSet} {n : Str} {e : Exc}
    (h : assignFile L naming gs n = (gs', .error e)) :
    gs'.contents = gs.contents ∧ gs'.reverse = gs.reverse ∧ Dict.get? gs.contents n = none := by
  unfold assignFile at h
  split at h
  · cases h
  · rename_i hn
    dsimp only at h
    split at h <;> cases h
    exact ⟨rfl, rfl, hn⟩

theorem storeGlyph_spec {hp : Bool} {fs fs' : FS} {p : Path} {d : Bytes} {r : Except Exc Unit} (hp0 : p ≠ [])
    (h : storeGlyph hp fs p d = (fs', r)) :
    fs'.canon = fs.canon ∧ (∀ q, fs.key q ≠ fs.key p → fs'.node? q = fs.node? q) ∧
    ((r = .ok () ∧ fs'.getbytes p = .ok d) ∨ (fs' = fs ∧ r ≠ .ok ())) := by
  unfold storeGlyph at h
  split at h
  · rename_i hu
    cases h
    rw [Bool.and_eq_true] at hu
    exact ⟨rfl, fun _ _ => rfl, .inl ⟨rfl, unchanged_iff.1 hu.2⟩⟩
  · split at h
    · cases h; exact ⟨rfl, fun _ _ => rfl, .inr ⟨rfl, by simp⟩⟩
    · rename_i fs1 h1
      obtain ⟨rfl, -, -, -⟩ := setbytes_ok h1
      cases h
      exact ⟨rfl, fun q hq => by rw [node?_write _ _ _ _ hp0, if_neg hq], .inl ⟨rfl, getbytes_write_self _ _ _ hp0⟩⟩

/-- What `writeGlyph` does to the table and the files. -/
theorem writeGlyph_spec {L : Casing} {naming : Naming} {w w' : World} {n : Str} {fv : Option Int}
    {data : Int → Except Exc Bytes} {r : Except Exc Unit} (h : writeGlyph L naming w n fv data = (w', r)) :
    w'.1.dir = w.1.dir ∧ w'.1.havePrevious = w.1.havePrevious ∧ w'.1.version = w.1.version ∧ w'.2.canon = w.2.canon ∧
    (∀ m, m ≠ n → Dict.get? w'.1.contents m = Dict.get? w.1.contents m) ∧
    ((r = .ok () ∧ ∃ f d, data (fv.getD (if 3 ≤ w.1.version then 2 else 1)) = .ok d ∧
        Dict.get? w'.1.contents n = some f ∧ (Dict.get? w.1.contents n = none ∨ w'.1 = w.1) ∧
        w'.2.getbytes (w.1.dir ++ [f]) = .ok d ∧
        ∀ q, w.2.key q ≠ w.2.key (w.1.dir ++ [f]) → w'.2.node? q = w.2.node? q) ∨
     (r ≠ .ok () ∧ w'.2 = w.2 ∧ (Dict.get? w.1.contents n = none ∨ w'.1 = w.1))) := by
  unfold writeGlyph at h
  split at h
  · cases h; exact ⟨rfl, rfl, rfl, rfl, fun _ _ => rfl, .inr ⟨by simp, rfl, .inr rfl⟩⟩
  · rename_i v hv
    split at h
    · rename_i gs e ha
      obtain ⟨h1, h2, h3⟩ := assignFile_dir ha
      obtain ⟨h4, -, h5⟩ := assignFile_error ha
      cases h
      exact ⟨h1, h2, h3, rfl, fun m _ => by rw [h4], .inr ⟨by simp, rfl, .inl h5⟩⟩
    · rename_i gs f ha
      obtain ⟨h1, h2, h3⟩ := assignFile_dir ha
      obtain ⟨h4, h5, h6⟩ := assignFile_ok ha
      split at h
      · cases h
        exact ⟨h1, h2, h3, rfl, h5, .inr ⟨by simp, rfl, h6⟩⟩
      · rename_i d hd
        dsimp only at h
        cases hs : storeGlyph gs.havePrevious w.2 (gs.dir ++ [f]) d with
        | mk fs' r' =>
        rw [hs] at h
        cases h
        obtain ⟨s1, s2, s3⟩ := storeGlyph_spec (snoc_ne_nil _ _) hs
        refine ⟨h1, h2, h3, s1, h5, ?_⟩
        rw [h1] at s2 s3
        rcases s3 with ⟨s3, s4⟩ | ⟨s3, s4⟩
        · exact .inl ⟨s3, f, d, by rw [← glifVersion_eq hv]; exact hd, h4, h6, s4, s2⟩
        · exact .inr ⟨s4, s3, h6⟩

theorem dropExisting_ok {gs gs' : GlyphSet} {f : Str} (h : dropExisting gs f = .ok gs') :
    gs'.dir = gs.dir ∧ gs'.havePrevious = gs.havePrevious ∧ gs'.version = gs.version ∧ gs'.contents = gs.contents ∧
    gs'.reverse = gs.reverse ∧ gs'.existing = gs.existing.map (fun ex => Dict.erase ex f) := by
  unfold dropExisting at h
  split at h
  · rename_i hn
    cases h; simp [hn]
  · rename_i ex he
    split at h <;> cases h
    simp [he]

theorem dropReverse_ok {L : Casing} {gs gs' : GlyphSet} {f : Str} (h : dropReverse L gs f = .ok gs') :
    gs'.dir = gs.dir ∧ gs'.havePrevious = gs.havePrevious ∧ gs'.version = gs.version ∧ gs'.contents = gs.contents ∧
    gs'.existing = gs.existing ∧ gs'.reverse = gs.reverse.map (fun r => Dict.erase r (L.lower f)) := by
  unfold dropReverse at h
  split at h
  · rename_i hn
    cases h; simp [hn]
  · rename_i ex he
    split at h <;> cases h
    simp [he]

/-- What `deleteGlyph` does to the table and the files. -/
theorem deleteGlyph_spec {L : Casing} {w w' : World} {n : Str} {r : Except Exc Unit} (h : deleteGlyph L w n = (w', r)) :
    w'.1.dir = w.1.dir ∧ w'.1.havePrevious = w.1.havePrevious ∧ w'.1.version = w.1.version ∧ w'.2.canon = w.2.canon ∧
    ((r = .ok () ∧ w'.1.contents = Dict.erase w.1.contents n) ∨ (r ≠ .ok () ∧ w'.1.contents = w.1.contents)) ∧
    (w' = w ∧ r ≠ .ok () ∨ ∃ f, Dict.get? w.1.contents n = some f ∧
      w'.2 = w.2.perform (.remove (w.2.key (w.1.dir ++ [f])))) := by
  unfold deleteGlyph at h
  split at h
  · cases h; simp
  · rename_i f hf
    split at h
    · cases h; simp
    · rename_i fs hfs
      obtain ⟨rfl, -⟩ := remove_ok hfs
      split at h
      · cases h
        exact ⟨rfl, rfl, rfl, rfl, .inr ⟨by simp, rfl⟩, .inr ⟨f, hf, rfl⟩⟩
      · rename_i gs1 h1
        obtain ⟨a1, a2, a3, a4, a5⟩ := dropExisting_ok h1
        split at h
        · cases h
          exact ⟨a1, a2, a3, rfl, .inr ⟨by simp, a4⟩, .inr ⟨f, hf, rfl⟩⟩
        · rename_i gs2 h2
          obtain ⟨b1, b2, b3, b4, -⟩ := dropReverse_ok h2
          cases h
          exact ⟨b1.trans a1, b2.trans a2, b3.trans a3, rfl, .inl ⟨rfl, by simp [b4, a4]⟩, .inr ⟨f, hf, rfl⟩⟩

/-- The files a glyph name stands for, in terms of its expected status. -/
def Agrees (w : World) (n : Str) : Status → Prop
  | .absent => Dict.get? w.1.contents n = none
  | .holds d => ∃ f, Dict.get? w.1.contents n = some f ∧ w.2.getbytes (w.1.dir ++ [f]) = .ok d
  | .unknown => True

theorem getbytes_of_node? {fs fs' : FS} {q : Path} (h : fs'.node? q = fs.node? q) : fs'.getbytes q = fs.getbytes q := by
  simp [getbytes, h]

/-- One call keeps the expectation about every glyph. -/
theorem step_agrees {L : Casing} {F : FloatCodec} {w : World} {op : Op} (hop : ∀ v, op ≠ .rebuild v)
    (hd : Distinct w.2.canon w.1.contents) (ha : Avoids w.2.canon contentsName w.1.contents)
    (hd' : Distinct w.2.canon (step L F w op).1.1.contents)
    (n : Str) (s : Status) (hs : Agrees w n s) :
    Agrees (step L F w op).1 n (s.after n (call w op (step L F w op).2)) := by
  cases op with
  | rebuild v => exact absurd rfl (hop v)
  | reverse =>
    show Agrees ((getReverseContents L w.1).1, w.2) n s
    unfold getReverseContents
    split
    · exact hs
    · cases s <;> exact hs
  | save =>
    show Agrees (writeContents F w).1 n (s.after n .other)
    cases hw : writePlist F w.1.havePrevious w.2 (w.1.dir ++ [contentsName]) (contentsVal w.1.contents) with
    | mk fs' r =>
    obtain ⟨-, h2, -⟩ := writePlist_spec hw
    have he : (writeContents F w).1 = (w.1, fs') := by simp [writeContents, hw]
    rw [he]
    cases s with
    | absent => exact hs
    | unknown => trivial
    | holds d =>
      obtain ⟨f, hf, hg⟩ := hs
      refine ⟨f, hf, ?_⟩
      rw [getbytes_of_node? (h2 _ ?_)]; exact hg
      rw [Ne, key_snoc]
      exact ha n f hf
  | delete m =>
    cases hw : step L F w (.delete m) with
    | mk w' r =>
    rw [hw] at hd'
    obtain ⟨h1, -, -, -, h5, h6⟩ := deleteGlyph_spec (show deleteGlyph L w m = (w', r) from hw)
    dsimp only
    rcases h5 with ⟨rfl, hc⟩ | ⟨hr, hc⟩
    · show Agrees w' n (if m = n then .absent else s)
      by_cases hmn : m = n
      · rw [if_pos hmn]
        show Dict.get? w'.1.contents n = none
        rw [hc, Dict.get?_erase]; simp [hmn]
      · rw [if_neg hmn]
        have hcn : Dict.get? w'.1.contents n = Dict.get? w.1.contents n := by
          rw [hc, Dict.get?_erase]; simp [hmn]
        rcases h6 with ⟨-, h6⟩ | ⟨f, hf, h6⟩
        · simp at h6
        · cases s with
          | absent => exact hcn.trans hs
          | unknown => trivial
          | holds d =>
            obtain ⟨g, hg, hb⟩ := hs
            refine ⟨g, hcn.trans hg, ?_⟩
            rw [h1, h6, getbytes_remove_ne _ _ _ (snoc_ne_nil _ _)]; exact hb
            rw [Ne, key_snoc]
            exact fun h => hmn (hd _ _ _ _ hg hf h).symm
    · have hcall : call w (.delete m) r = .deleteFailed m := by
        cases r with
        | ok u => exact absurd rfl hr
        | error e => rfl
      rw [hcall]
      show Agrees w' n (if m = n ∧ s ≠ .absent then .unknown else s)
      split
      · trivial
      · rename_i hns
        rcases h6 with ⟨h6, -⟩ | ⟨f, hf, h6⟩
        · rw [h6]; exact hs
        · cases s with
          | absent => exact (congrArg (Dict.get? · n) hc).trans hs
          | unknown => trivial
          | holds d =>
            have hmn : m ≠ n := fun h => hns ⟨h, by simp⟩
            obtain ⟨g, hg, hb⟩ := hs
            refine ⟨g, by rw [hc]; exact hg, ?_⟩
            rw [h1, h6, getbytes_remove_ne _ _ _ (snoc_ne_nil _ _)]; exact hb
            rw [Ne, key_snoc]
            exact fun h => hmn (hd _ _ _ _ hg hf h).symm
  | write naming m fv data =>
    cases hw : step L F w (.write naming m fv data) with
    | mk w' r =>
    rw [hw] at hd'
    obtain ⟨h1, -, -, hcan, h5, h6⟩ := writeGlyph_spec (show writeGlyph L naming w m fv data = (w', r) from hw)
    dsimp only
    rcases h6 with ⟨rfl, f, d, hdat, hf, hor, hb, hfr⟩ | ⟨hr, hfs, hor⟩
    · have hcall : call w (.write naming m fv data) (.ok ()) = .wrote m d := by
        simp only [call, hdat]
      rw [hcall]
      show Agrees w' n (if m = n then .holds d else s)
      by_cases hmn : m = n
      · rw [if_pos hmn]
        exact ⟨f, hmn ▸ hf, by rw [h1]; exact hb⟩
      · rw [if_neg hmn]
        cases s with
        | absent => exact (h5 n (Ne.symm hmn)).trans hs
        | unknown => trivial
        | holds d' =>
          obtain ⟨g, hg, hb'⟩ := hs
          have hg' := (h5 n (Ne.symm hmn)).trans hg
          refine ⟨g, hg', ?_⟩
          rw [h1, getbytes_of_node? (hfr _ ?_)]; exact hb'
          rw [Ne, key_snoc]
          exact fun h => hmn (hd' _ _ _ _ hg' hf h).symm
    · have hcall : call w (.write naming m fv data) r = .writeFailed m := by
        cases r with
        | ok u => exact absurd rfl hr
        | error e => rfl
      rw [hcall]
      show Agrees w' n (if m = n ∧ s = .absent then .unknown else s)
      split
      · trivial
      · rename_i hns
        by_cases hmn : m = n
        · subst hmn
          cases s with
          | absent => exact absurd ⟨rfl, rfl⟩ hns
          | unknown => trivial
          | holds d =>
            obtain ⟨g, hg, hb⟩ := hs
            rcases hor with hor | hor
            · rw [hg] at hor; cases hor
            · exact ⟨g, by rw [hor]; exact hg, by rw [h1, hfs]; exact hb⟩
        · have hcn := h5 n (Ne.symm hmn)
          cases s with
          | absent => exact hcn.trans hs
          | unknown => trivial
          | holds d =>
            obtain ⟨g, hg, hb⟩ := hs
            exact ⟨g, hcn.trans hg, by rw [h1, hfs]; exact hb⟩

theorem step_canon {L : Casing} {F : FloatCodec} {w : World} {op : Op} : (step L F w op).1.2.canon = w.2.canon := by
  cases op with
  | write naming n fv data => exact (writeGlyph_spec (w := w) (naming := naming) (fv := fv) (data := data) (n := n) rfl).2.2.2.1
  | delete n => exact (deleteGlyph_spec (w := w) (n := n) rfl).2.2.2.1
  | reverse => rfl
  | save => exact (writePlist_spec (F := F) (hp := w.1.havePrevious) (fs := w.2) rfl).1
  | rebuild v =>
    show (match rebuildContents F w.1 w.2 v with
      | .error e => (w, Except.error e)
      | .ok gs => ((gs, w.2), .ok ())).1.2.canon = _
    split <;> rfl

theorem history_agrees {L : Casing} {F : FloatCodec} (ops : List Op) : ∀ (w : World), (∀ op ∈ ops, ∀ v, op ≠ .rebuild v) →
    (∀ pre, pre <+: ops → Distinct w.2.canon (run L F w pre).1.contents ∧ Avoids w.2.canon contentsName (run L F w pre).1.contents) →
    ∀ (n : Str) (s : Status), Agrees w n s → Agrees (run L F w ops) n (s.history n (calls L F w ops)) := by
  induction ops with
  | nil => exact fun w _ _ n s h => h
  | cons op ops ih =>
    intro w hop hdis n s hs
    have h0 := hdis [] (List.nil_prefix)
    have h1 := hdis [op] (List.prefix_append [op] ops)
    refine ih (step L F w op).1 (fun o ho => hop o (by simp [ho])) (fun pre hpre => ?_) n _
      (step_agrees (hop op (by simp)) h0.1 h0.2 h1.1 n s hs)
    rw [step_canon]
    exact hdis (op :: pre) (by simpa using hpre)

end Verif.GlyphSet
