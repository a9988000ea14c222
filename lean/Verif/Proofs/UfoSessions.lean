import Verif.Proofs.Creator
/-! Sequences of sessions with the writer. -/
namespace Verif.Ufo
open Verif Verif.FS Verif.IO Verif.FontInfo Verif.Spec.Plist Verif.Spec.Ufo

/-- With validation, the reader finds this version (if one is given). -/
def HasVersion (F : FloatCodec) (fs : FS) (v0 : Option Int) : Prop := ∀ v, v0 = some v → readMetaInfo F fs true = .ok v

/-- A failed write to an existing UFO changes nothing. -/
theorem writePlist_previous {F : FloatCodec} {fs fs' : FS} {p : Path} {v : PyVal} {e : Exc} (h : writePlist F true fs p v = (fs', .error e)) : fs' = fs := by
  unfold writePlist at h
  simp only [if_true] at h
  split at h
  · cases h; rfl
  · split at h
    · cases h
    · split at h
      · cases h; rfl
      · cases h

/-- One session. -/
theorem session_spec (E : FontInfo.Env) (hF : E.F.Lawful) (L : Casing) (s : Session) (fs : FS) (v0 : Option Int) (h0 : HasVersion E.F fs v0)
    (hc : Creator s.creator) (hval : s.validate = true ∨ s.ops = []) (hops : ∀ op ∈ s.ops, Spares fs.canon c!"metainfo.plist" op) :
    (s.run E L fs).1.canon = fs.canon ∧
    ((s.run E L fs).2 = true ∧ HasVersion E.F (s.run E L fs).1 (some s.version) ∧ supported s.version = true ∧ (∀ v, v0 = some v → v ≤ s.version) ∨
     (s.run E L fs).2 = false ∧ HasVersion E.F (s.run E L fs).1 v0) := by
  unfold Session.run
  split
  · rename_i fs' e ho
    rcases openWriter_error ho with h | ⟨h1, h2⟩
    · exact ⟨by rw [h], .inr ⟨rfl, by rw [h]; exact h0⟩⟩
    · refine ⟨(writePlist_spec h2).1, .inr ⟨rfl, ?_⟩⟩
      rintro v rfl
      obtain ⟨-, -, -, data, g2⟩ := readMetaInfo_true (h0 v rfl)
      have : s.havePrevious fs = true := by simp [Session.havePrevious, exists_of_getbytes g2]
      rw [this] at h2
      rw [writePlist_previous h2]
      exact h0 v rfl
  · rename_i fs' w ho
    obtain ⟨h1, ⟨previous, h2, h3, h4⟩, h5, -⟩ := openWriter_ok ho
    have hcan : fs'.canon = fs.canon := (writePlist_spec h5).1
    have hread : ∀ b, readMetaInfo E.F fs' b = .ok s.version := by
      intro b
      obtain ⟨data, hd, hb⟩ := (writePlist_spec h5).2.2 rfl
      obtain ⟨c', x, hx, hst⟩ := creator_loads E.F hF hc h1 hd
      exact readMetaInfo_stored E.F h1 (creator := c') ⟨x, by simp [getPlist, hb, hx], hst⟩ b
    have hle : ∀ v, v0 = some v → v ≤ s.version := by
      rintro v rfl
      obtain ⟨-, g1, -, data, g2⟩ := readMetaInfo_true (h0 v rfl)
      have : s.havePrevious fs = true := by simp [Session.havePrevious, exists_of_getbytes g2]
      rw [this, g1] at h2
      cases h2
      exact h3 v rfl
    have hrun : (Ufo.run E L (w, fs') s.ops).2.node? [metainfoName] = fs'.node? [metainfoName] ∧ (Ufo.run E L (w, fs') s.ops).2.canon = fs'.canon := by
      rcases hval with hval | hnil
      · have hl : Layered w := by
          unfold Session.open at ho
          rw [hval] at ho
          exact openWriter_layered ho
        obtain ⟨-, -, ha⟩ := run_spec E L s.ops (w, fs') hl
        refine ⟨acts_node? ha (S := fun c => ∃ op ∈ s.ops, Concerns op c) ?_ ?_ [], ha.canon⟩
        · rintro k ⟨op, hop, ⟨c, r, hc, rfl⟩ | hall⟩
          · exact .inl ⟨c, r, ⟨op, hop, hc⟩, rfl⟩
          · exact .inr fun c => ⟨op, hop, hall c⟩
        · rintro d ⟨op, hop, hd⟩
          rw [hcan]
          exact hops op hop d hd
      · rw [hnil]; exact ⟨rfl, rfl⟩
    refine ⟨hrun.2.trans hcan, .inl ⟨rfl, ?_, h1, hle⟩⟩
    intro v hv
    cases hv
    exact (readMetaInfo_congr hrun.1 true).trans (hread true)

theorem sessions_spec (E : FontInfo.Env) (hF : E.F.Lawful) (L : Casing) (sessions : List Session) : ∀ (fs : FS) (v0 : Option Int), HasVersion E.F fs v0 →
    (∀ s ∈ sessions, Creator s.creator ∧ (s.validate = true ∨ s.ops = []) ∧ ∀ op ∈ s.ops, Spares fs.canon c!"metainfo.plist" op) →
    (v0.toList ++ (runSessions E L fs sessions).2).Pairwise (· ≤ ·) ∧ (∀ v ∈ (runSessions E L fs sessions).2, supported v = true) ∧
    HasVersion E.F (runSessions E L fs sessions).1 (v0.toList ++ (runSessions E L fs sessions).2).getLast? := by
  induction sessions with
  | nil =>
    intro fs v0 h0 _
    refine ⟨by cases v0 <;> simp [runSessions], by simp [runSessions], ?_⟩
    cases v0 <;> exact h0
  | cons s rest ih =>
    intro fs v0 h0 hs
    obtain ⟨g1, g2, g3⟩ := hs s (by simp)
    obtain ⟨hcan, hcase⟩ := session_spec E hF L s fs v0 h0 g1 g2 g3
    have hs' : ∀ s' ∈ rest, Creator s'.creator ∧ (s'.validate = true ∨ s'.ops = []) ∧ ∀ op ∈ s'.ops, Spares (s.run E L fs).1.canon c!"metainfo.plist" op := by
      intro s' hs''
      rw [hcan]
      exact hs s' (by simp [hs''])
    rcases hcase with ⟨h1, h2, h3, h4⟩ | ⟨h1, h2⟩
    · obtain ⟨i1, i2, i3⟩ := ih _ (some s.version) h2 hs'
      have heq : (runSessions E L fs (s :: rest)).2 = s.version :: (runSessions E L (s.run E L fs).1 rest).2 := by simp [runSessions, h1]
      have heq1 : (runSessions E L fs (s :: rest)).1 = (runSessions E L (s.run E L fs).1 rest).1 := rfl
      rw [heq, heq1]
      simp only [Option.toList_some, List.singleton_append] at i1 i3
      cases v0 with
      | none => exact ⟨i1, fun v hv => by rcases List.mem_cons.1 hv with rfl | hv; exacts [h3, i2 v hv], i3⟩
      | some v =>
        have hv := h4 v rfl
        refine ⟨?_, fun v hv => by rcases List.mem_cons.1 hv with rfl | hv; exacts [h3, i2 v hv], ?_⟩
        · simp only [Option.toList_some, List.singleton_append]
          refine List.Pairwise.cons (fun x hx => ?_) i1
          rcases List.mem_cons.1 hx with rfl | hx
          · exact hv
          · exact hv.trans (List.rel_of_pairwise_cons i1 hx)
        · simpa using i3
    · obtain ⟨i1, i2, i3⟩ := ih _ v0 h2 hs'
      have heq : (runSessions E L fs (s :: rest)).2 = (runSessions E L (s.run E L fs).1 rest).2 := by simp [runSessions, h1]
      have heq1 : (runSessions E L fs (s :: rest)).1 = (runSessions E L (s.run E L fs).1 rest).1 := rfl
      rw [heq, heq1]
      exact ⟨i1, i2, i3⟩

end Verif.Ufo
