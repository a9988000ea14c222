import Verif.Proofs.Crash
import Verif.Proofs.GlyphSetReopen
/-! What can have changed in a glyph set when a process stops in the middle of a call. -/
namespace Verif.Crash
open Verif Verif.FS Verif.GlyphSet Verif.Spec.FS Verif.Spec.GlyphSet Verif.Spec.Crash

theorem key_snoc_prefix {fs : FS} {dir : Path} {f g : Str} (h : fs.key (dir ++ [f]) <+: fs.key (dir ++ [g])) : fs.canon f = fs.canon g := by
  have := h.eq_of_length (by simp [FS.key])
  simpa [FS.key] using this

/-- A call about one glyph changes the file that the table gives for it, before or after the call. -/
theorem about_acts {L : Casing} {F : FloatCodec} {w : World} {n : Str} {op : Op} (h : IsAbout n op) :
    Acts (fun k => ∃ f, (Dict.get? w.1.contents n = some f ∨ Dict.get? (step L F w op).1.1.contents n = some f) ∧ k = w.2.key (w.1.dir ++ [f])) w.2
      (step L F w op).1.2 := by
  cases h with
  | @write naming fv data =>
    obtain ⟨acts, h1, h2⟩ := writeGlyph_acts (L := L) (naming := naming) (w := w) (n := n) (fv := fv) (data := data)
    refine ⟨acts, h1, fun a ha p hp => ?_⟩
    obtain ⟨f, d, rfl, hf⟩ := h2 a ha
    simp only [Prim.paths, List.mem_singleton] at hp
    exact ⟨f, .inr hf, hp⟩
  | delete =>
    rcases (deleteGlyph_spec (L := L) (w := w) (n := n) (w' := (deleteGlyph L w n).1) (r := (deleteGlyph L w n).2) rfl).2.2.2.2.2 with ⟨h, -⟩ | ⟨f, hf, h⟩
    · simp only [step]; rw [h]; exact .refl
    · simp only [step]; rw [h]
      exact .single _ (by simp only [Prim.paths, List.mem_singleton]; rintro p rfl; exact ⟨f, .inl hf, rfl⟩)

theorem about_contents {L : Casing} {F : FloatCodec} {w : World} {n : Str} {op : Op} (h : IsAbout n op) (m : Str) (hm : m ≠ n) :
    Dict.get? (step L F w op).1.1.contents m = Dict.get? w.1.contents m := by
  cases h with
  | @write naming fv data =>
    exact (writeGlyph_spec (L := L) (naming := naming) (w := w) (n := n) (fv := fv) (data := data)
      (w' := (writeGlyph L naming w n fv data).1) (r := (writeGlyph L naming w n fv data).2) rfl).2.2.2.2.1 m hm
  | delete =>
    rcases (deleteGlyph_spec (L := L) (w := w) (n := n) (w' := (deleteGlyph L w n).1) (r := (deleteGlyph L w n).2) rfl).2.2.2.2.1 with ⟨-, h⟩ | ⟨-, h⟩
    · show Dict.get? (deleteGlyph L w n).1.1.contents m = _
      rw [h, Dict.get?_erase, if_neg (Ne.symm hm)]
    · show Dict.get? (deleteGlyph L w n).1.1.contents m = _
      rw [h]

/-- Files are only ever written. -/
theorem stopped_writes {fs fs' left : FS} (h : ∃ acts, fs' = performAll fs acts ∧ ∀ a ∈ acts, ∃ p d, a = .write p d) (hs : StoppedBetween fs fs' left)
    (q : Path) (hq : fs.exists q = true) : left.exists q = true := by
  obtain ⟨l, rfl, hl⟩ := h
  obtain ⟨acts, h1, h2⟩ := hs
  rw [performAll_log, List.append_cancel_left_eq] at h1
  subst h1
  have hcanon := stopped_canon h2
  unfold FS.exists FS.node? FS.key at hq ⊢
  rw [hcanon]
  split
  · rfl
  · rename_i hne
    rw [if_neg hne] at hq
    revert hq
    generalize List.map fs.canon q = k
    intro hk
    have htake : ∀ (m : List Prim) (fs : FS), (∀ a ∈ m, ∃ p d, a = .write p d) → (Dict.get? fs.nodes k).isSome → (Dict.get? (performAll fs m).nodes k).isSome := by
      intro m
      induction m with
      | nil => exact fun _ _ h => h
      | cons a m ih =>
        intro fs hm hf
        refine ih (fs.perform a) (fun b hb => hm b (by simp [hb])) ?_
        obtain ⟨p, d, rfl⟩ := hm a (by simp)
        show (Dict.get? (Dict.set fs.nodes p (.file d)) k).isSome
        rw [Dict.get?_set]
        split
        · rfl
        · exact hf
    cases h2 with
    | between n => exact htake _ _ (fun a ha => hl a (List.mem_of_mem_take ha)) hk
    | during n h hc hn =>
      have h' := htake (l.take n) fs (fun a ha => hl a (List.mem_of_mem_take ha)) hk
      obtain ⟨p, d, rfl⟩ := hl _ (List.mem_of_getElem? h)
      cases hn with
      | write at_ rest =>
        by_cases hkp : k = p
        · obtain ⟨x, hx⟩ := at_
          rw [hkp, hx]; rfl
        · rw [rest k hkp]; exact h'

/-- Only glyphs are written: every mutation writes the file of a glyph that is written by one of the calls. -/
theorem writes_acts {L : Casing} {F : FloatCodec} (ops : List Op) : ∀ (w : World), (∀ op ∈ ops, ∃ naming n fv data, op = .write naming n fv data) →
    (run L F w ops).1.dir = w.1.dir ∧
    (∀ m, (∀ op ∈ ops, ¬ IsAbout m op) → Dict.get? (run L F w ops).1.contents m = Dict.get? w.1.contents m) ∧
    (∀ m f, Dict.get? w.1.contents m = some f → Dict.get? (run L F w ops).1.contents m = some f) ∧
    ∃ acts, (run L F w ops).2 = performAll w.2 acts ∧ ∀ a ∈ acts, ∃ n f d, (∃ op ∈ ops, IsAbout n op) ∧ Dict.get? (run L F w ops).1.contents n = some f ∧
      a = .write (w.2.key (w.1.dir ++ [f])) d := by
  induction ops with
  | nil => exact fun w _ => ⟨rfl, fun _ _ => rfl, fun _ _ h => h, [], rfl, by simp⟩
  | cons op ops ih =>
    intro w hop
    obtain ⟨naming, n, fv, data, rfl⟩ := hop op (by simp)
    obtain ⟨i1, i2, i3, acts, i4, i5⟩ := ih (step L F w (.write naming n fv data)).1 fun o ho => hop o (by simp [ho])
    obtain ⟨acts0, h3, h4⟩ := writeGlyph_acts (L := L) (naming := naming) (w := w) (n := n) (fv := fv) (data := data)
    have hspec := writeGlyph_spec (w := w) (naming := naming) (fv := fv) (data := data) (n := n)
      (w' := (writeGlyph L naming w n fv data).1) (r := (writeGlyph L naming w n fv data).2) rfl
    have hcanon : (step L F w (.write naming n fv data)).1.2.canon = w.2.canon := hspec.2.2.2.1
    have hdir : (step L F w (.write naming n fv data)).1.1.dir = w.1.dir := hspec.1
    refine ⟨i1.trans hdir, fun m hm => ?_, fun m f hf => i3 m f ?_, acts0 ++ acts, ?_, fun a ha => ?_⟩
    · have hne : m ≠ n := by rintro rfl; exact hm _ List.mem_cons_self .write
      exact (i2 m fun o ho => hm o (by simp [ho])).trans (hspec.2.2.2.2.1 m hne)
    · by_cases hne : m = n
      · subst hne
        rcases hspec.2.2.2.2.2 with ⟨-, g, d, -, -, h5 | h5, -⟩ | ⟨-, -, h5 | h5⟩
        · rw [hf] at h5; cases h5
        · show Dict.get? (writeGlyph L naming w m fv data).1.1.contents m = _; rw [h5]; exact hf
        · rw [hf] at h5; cases h5
        · show Dict.get? (writeGlyph L naming w m fv data).1.1.contents m = _; rw [h5]; exact hf
      · exact (hspec.2.2.2.2.1 m hne).trans hf
    · show (run L F (step L F w (.write naming n fv data)).1 ops).2 = _
      rw [i4, performAll_append, ← h3]; rfl
    · rcases List.mem_append.1 ha with ha | ha
      · obtain ⟨f, d, hd, hf⟩ := h4 a ha
        exact ⟨n, f, d, ⟨_, List.mem_cons_self, .write⟩, i3 n f hf, hd⟩
      · obtain ⟨m, f, d, ⟨o, ho, hm⟩, hf, rfl⟩ := i5 a ha
        refine ⟨m, f, d, ⟨o, by simp [ho], hm⟩, hf, ?_⟩
        unfold FS.key
        rw [hcanon, hdir]

/-- A directory can be opened as before if the table is the same and no file is missing. -/
theorem openGlyphSet_mono {F : FloatCodec} {a b : FS} {dir : Path} (hn : b.node? (dir ++ [contentsName]) = a.node? (dir ++ [contentsName]))
    (he : ∀ f, a.exists (dir ++ [f]) = true → b.exists (dir ++ [f]) = true) {version : Nat} {validate : Bool} {gs : GlyphSet}
    (hopen : openGlyphSet F a dir version validate = .ok gs) : openGlyphSet F b dir version validate = .ok gs := by
  unfold openGlyphSet rebuildContents at hopen ⊢
  have hex : b.exists (dir ++ [contentsName]) = a.exists (dir ++ [contentsName]) := by simp [FS.exists, hn]
  dsimp only at hopen ⊢
  rw [hex, Ufo.getPlist_congr hn]
  split at hopen
  · rename_i hv
    rw [if_pos hv]
    cases hp : IO.getPlist F a (dir ++ [contentsName]) (some (.dict [])) with
    | error e => rw [hp] at hopen; cases hopen
    | ok v =>
      rw [hp] at hopen
      dsimp only at hopen ⊢
      have hcheck : ∀ t, checkContents a dir validate v = .ok t → checkContents b dir validate v = .ok t := by
        intro t hc
        unfold checkContents at hc ⊢
        split at hc
        · cases htab : tableOf _ with
          | none => rw [htab] at hc; cases hc
          | some t' =>
            rw [htab] at hc
            dsimp only at hc ⊢
            split at hc
            · cases hc
            · rename_i hany
              rw [if_neg]
              · exact hc
              · intro hany'
                apply hany
                rw [Bool.and_eq_true] at hany' ⊢
                refine ⟨hany'.1, ?_⟩
                rw [List.any_eq_true] at hany' ⊢
                obtain ⟨e, hm, he2⟩ := hany'.2
                refine ⟨e, hm, ?_⟩
                cases hq : a.exists (dir ++ [e.2]) with
                | false => rfl
                | true => rw [he _ hq] at he2; simp at he2
        · cases hc
      cases hc : checkContents a dir validate v with
      | error e => rw [hc] at hopen; cases hopen
      | ok t =>
        rw [hc] at hopen
        rw [hcheck t hc]
        exact hopen
  · cases hopen

end Verif.Crash
