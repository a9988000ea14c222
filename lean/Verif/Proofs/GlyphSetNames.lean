import Verif.Proofs.GlyphSet
/-! The table of a glyph set over a history: distinct file names, and the two caches. -/
namespace Verif.GlyphSet
open Verif Verif.FS Verif.IO Verif.Spec.GlyphSet

theorem foldl_set_get? {κ ν α : Type} [DecidableEq κ] (g : α → κ) (v : α → ν) (l : List α) :
    ∀ (d : Dict κ ν) (k : κ), (∀ a ∈ l, g a ≠ k) → Dict.get? (l.foldl (fun d e => Dict.set d (g e) (v e)) d) k = Dict.get? d k := by
  induction l with
  | nil => intro d k _; rfl
  | cons a l ih =>
    intro d k h
    rw [List.foldl_cons, ih _ _ (fun b hb => h b (by simp [hb])), Dict.get?_set_ne _ _ (h a (by simp))]

theorem foldl_set_mem {κ ν α : Type} [DecidableEq κ] (g : α → κ) (v : α → ν) (l : List α) (x : ν) (k : κ)
    (hk : ∀ a ∈ l, g a = k → v a = x) :
    ∀ (d : Dict κ ν), (∃ a ∈ l, g a = k) → Dict.get? (l.foldl (fun d e => Dict.set d (g e) (v e)) d) k = some x := by
  induction l with
  | nil => rintro d ⟨a, ha, -⟩; simp at ha
  | cons a l ih =>
    rintro d ⟨b, hb, hbk⟩
    rw [List.foldl_cons]
    by_cases hl : ∃ a ∈ l, g a = k
    · exact ih (fun c hc => hk c (by simp [hc])) _ hl
    · have hba : b = a := by
        rcases List.mem_cons.1 hb with h | h
        · exact h
        · exact absurd ⟨b, h, hbk⟩ hl
      subst hba
      rw [foldl_set_get? _ _ _ _ _ (fun c hc hck => hl ⟨c, hc, hck⟩), hbk, Dict.get?_set_self, hk b (by simp) hbk]

theorem foldl_set_keys {κ ν α : Type} [DecidableEq κ] (g : α → κ) (v : α → ν) (l : List α) (k : κ) :
    ∀ (d : Dict κ ν), k ∈ Dict.keys (l.foldl (fun d e => Dict.set d (g e) (v e)) d) ↔ k ∈ Dict.keys d ∨ ∃ a ∈ l, g a = k := by
  induction l with
  | nil => intro d; simp
  | cons a l ih =>
    intro d
    rw [List.foldl_cons, ih, Dict.mem_keys_set]
    constructor
    · rintro ((h | h) | ⟨b, hb, h⟩)
      · exact .inr ⟨a, by simp, h.symm⟩
      · exact .inl h
      · exact .inr ⟨b, by simp [hb], h⟩
    · rintro (h | ⟨b, hb, h⟩)
      · exact .inl (.inr h)
      · rcases List.mem_cons.1 hb with rfl | hb
        · exact .inl (.inl h.symm)
        · exact .inr ⟨b, hb, h⟩

theorem foldl_set_wf {κ ν α : Type} [DecidableEq κ] (g : α → κ) (v : α → ν) (l : List α) :
    ∀ (d : Dict κ ν), Dict.WF d → Dict.WF (l.foldl (fun d e => Dict.set d (g e) (v e)) d) := by
  induction l with
  | nil => exact fun d h => h
  | cons a l ih => exact fun d h => ih _ (Dict.wf_set h _ _)

theorem mem_existingOf {L : Casing} {contents : Dict Str Str} (hw : Dict.WF contents) {f : Str} :
    f ∈ Dict.keys (existingOf L contents) ↔ ∃ n, Dict.get? contents n = some f := by
  unfold existingOf
  rw [foldl_set_keys (fun f => f) (fun f => L.lower f)]
  simp only [Dict.values, List.mem_map, Dict.keys, List.map_nil, List.not_mem_nil, false_or]
  constructor
  · rintro ⟨a, ⟨e, he, rfl⟩, rfl⟩
    exact ⟨e.1, Dict.get?_of_mem hw he⟩
  · rintro ⟨n, hn⟩
    exact ⟨f, ⟨(n, f), Dict.mem_of_get? hn, rfl⟩, rfl⟩

theorem get?_reversed {L : Casing} {contents : Dict Str Str} (hw : Dict.WF contents) (hd : Distinct L.lower contents)
    (k n : Str) : Dict.get? (reversed L contents) k = some n ↔ ∃ f, Dict.get? contents n = some f ∧ L.lower f = k := by
  unfold reversed
  constructor
  · intro h
    by_cases hk : ∃ a ∈ contents, L.lower a.2 = k
    · obtain ⟨a, ha, hak⟩ := hk
      have hx := foldl_set_mem (fun e : Str × Str => L.lower e.2) (fun e => e.1) contents a.1 k (fun b hb hbk =>
        hd _ _ _ _ (Dict.get?_of_mem hw hb) (Dict.get?_of_mem hw ha) (hbk.trans hak.symm)) [] ⟨a, ha, hak⟩
      rw [hx] at h
      injection h with h
      exact ⟨a.2, h ▸ Dict.get?_of_mem hw ha, hak⟩
    · rw [foldl_set_get? (fun e : Str × Str => L.lower e.2) (fun e => e.1) contents [] k (fun a ha hak => hk ⟨a, ha, hak⟩)] at h
      simp at h
  · rintro ⟨f, hf, hfk⟩
    exact foldl_set_mem (fun e : Str × Str => L.lower e.2) (fun e => e.1) contents n k (fun b hb hbk =>
      hd _ _ _ _ (Dict.get?_of_mem hw hb) hf (hbk.trans hfk.symm)) [] ⟨(n, f), Dict.mem_of_get? hf, hfk⟩

/-- The cache of existing file names, when there is one, lists exactly the files of the table. -/
def CacheOk (gs : GlyphSet) : Prop :=
  ∀ ex, gs.existing = some ex → ∀ f, f ∈ Dict.keys ex ↔ ∃ n, Dict.get? gs.contents n = some f

/-- The reverse cache, when there is one, is the reverse of the table. -/
def ReverseOk (L : Casing) (gs : GlyphSet) : Prop :=
  ∀ r, gs.reverse = some r → ∀ k n, Dict.get? r k = some n ↔ ∃ f, Dict.get? gs.contents n = some f ∧ L.lower f = k

theorem assignFile_cache {L : Casing} {naming : Naming} {gs : GlyphSet} (n : Str) (hw : Dict.WF gs.contents)
    (hc : CacheOk gs) : Dict.WF (assignFile L naming gs n).1.contents ∧ CacheOk (assignFile L naming gs n).1 := by
  unfold assignFile
  split
  · exact ⟨hw, hc⟩
  · rename_i hn
    have hex : ∀ f, f ∈ Dict.keys (gs.existing.getD (existingOf L gs.contents)) ↔ ∃ n, Dict.get? gs.contents n = some f := by
      cases he : gs.existing with
      | none => exact fun f => mem_existingOf hw
      | some ex => exact hc ex he
    dsimp only
    split
    · exact ⟨hw, fun ex h f => by cases h; exact hex f⟩
    · rename_i f hf
      refine ⟨Dict.wf_set hw _ _, fun ex h g => ?_⟩
      cases h
      rw [Dict.mem_keys_set, hex]
      constructor
      · rintro (rfl | ⟨m, hm⟩)
        · exact ⟨n, by simp⟩
        · refine ⟨m, ?_⟩
          rw [Dict.get?_set_ne _ _ (fun h => by rw [h, hm] at hn; cases hn)]
          exact hm
      · rintro ⟨m, hm⟩
        dsimp only at hm
        rw [Dict.get?_set] at hm
        by_cases h : m = n
        · left; simp [h] at hm; exact hm.symm
        · right; exact ⟨m, by simpa [Ne.symm h, h] using hm⟩

theorem assignFile_reverse {L : Casing} {naming : Naming} {gs : GlyphSet} (n : Str)
    (hd' : Distinct L.lower (assignFile L naming gs n).1.contents)
    (hr : ReverseOk L gs) : ReverseOk L (assignFile L naming gs n).1 := by
  unfold assignFile at hd' ⊢
  split at hd'
  · exact hr
  · rename_i hn
    dsimp only at hd' ⊢
    split at hd'
    · exact hr
    · rename_i f hf
      rintro r hr' k m
      dsimp only at hr' hd' ⊢
      cases hg : gs.reverse with
      | none => rw [hg] at hr'; cases hr'
      | some r0 =>
        rw [hg] at hr'
        cases hr'
        rw [Dict.get?_set]
        by_cases hk : L.lower f = k
        · rw [if_pos hk]
          constructor
          · intro h
            injection h with h
            exact ⟨f, by rw [← h]; simp, hk⟩
          · rintro ⟨g, hg', hgk⟩
            exact congrArg some (hd' n m f g (by simp) hg' (hk.trans hgk.symm))
        · rw [if_neg hk, hr r0 hg]
          constructor
          · rintro ⟨g, hg', hgk⟩
            refine ⟨g, ?_, hgk⟩
            rw [Dict.get?_set_ne _ _ (fun h => by rw [h, hg'] at hn; cases hn)]
            exact hg'
          · rintro ⟨g, hg', hgk⟩
            rw [Dict.get?_set] at hg'
            split at hg'
            · injection hg' with hg'
              rw [hg'] at hk
              exact absurd hgk hk
            · exact ⟨g, hg', hgk⟩

theorem writeGlyph_fst (L : Casing) (naming : Naming) (w : World) (n : Str) (fv : Option Int) (data : Int → Except Exc Bytes) :
    (writeGlyph L naming w n fv data).1.1 = w.1 ∨ (writeGlyph L naming w n fv data).1.1 = (assignFile L naming w.1 n).1 := by
  unfold writeGlyph
  split
  · exact .inl rfl
  · right
    split
    · rename_i h; rw [h]
    · rename_i h; rw [h]
      split <;> rfl

theorem get?_erase_some {d : Dict Str Str} {n m f : Str} : Dict.get? (Dict.erase d n) m = some f ↔ m ≠ n ∧ Dict.get? d m = some f := by
  rw [Dict.get?_erase]
  by_cases h : n = m
  · simp [h]
  · simp [h, Ne.symm h]

theorem deleteGlyph_cache {L : Casing} {w : World} (n : Str) (hw : Dict.WF w.1.contents)
    (hd : Distinct (fun f => f) w.1.contents) (hc : CacheOk w.1)
    (hsucc : (deleteGlyph L w n).2 = .ok () ∨ (deleteGlyph L w n).1 = w) :
    Dict.WF (deleteGlyph L w n).1.1.contents ∧ CacheOk (deleteGlyph L w n).1.1 := by
  rcases hsucc with hsucc | hsucc
  swap
  · rw [hsucc]; exact ⟨hw, hc⟩
  unfold deleteGlyph at hsucc ⊢
  split at hsucc
  · cases hsucc
  · rename_i f hf
    split at hsucc
    · cases hsucc
    · rename_i fs hfs
      split at hsucc
      · cases hsucc
      · rename_i gs1 h1
        obtain ⟨-, -, -, a4, -, a6⟩ := dropExisting_ok h1
        split at hsucc
        · cases hsucc
        · rename_i gs2 h2
          obtain ⟨-, -, -, b4, b5, -⟩ := dropReverse_ok h2
          dsimp only
          refine ⟨Dict.wf_erase (by rw [b4, a4]; exact hw) _, ?_⟩
          intro ex hex g
          dsimp only at hex ⊢
          rw [b5, a6] at hex
          cases he : w.1.existing with
          | none => rw [he] at hex; cases hex
          | some ex0 =>
            rw [he] at hex
            cases hex
            rw [Dict.mem_keys_erase, hc ex0 he, b4, a4]
            constructor
            · rintro ⟨⟨m, hm⟩, hg⟩
              exact ⟨m, get?_erase_some.2 ⟨fun h => by rw [h, hf] at hm; cases hm; exact hg rfl, hm⟩⟩
            · rintro ⟨m, hm⟩
              obtain ⟨hmn, hm⟩ := get?_erase_some.1 hm
              exact ⟨⟨m, hm⟩, fun h => hmn (hd _ _ _ _ hm hf h)⟩

theorem deleteGlyph_reverse {L : Casing} {w : World} (n : Str)
    (hd : Distinct L.lower w.1.contents) (hr : ReverseOk L w.1)
    (hsucc : (deleteGlyph L w n).2 = .ok () ∨ (deleteGlyph L w n).1 = w) :
    ReverseOk L (deleteGlyph L w n).1.1 := by
  rcases hsucc with hsucc | hsucc
  swap
  · rw [hsucc]; exact hr
  unfold deleteGlyph at hsucc ⊢
  split at hsucc
  · cases hsucc
  · rename_i f hf
    split at hsucc
    · cases hsucc
    · rename_i fs hfs
      split at hsucc
      · cases hsucc
      · rename_i gs1 h1
        obtain ⟨-, -, -, a4, a5, -⟩ := dropExisting_ok h1
        split at hsucc
        · cases hsucc
        · rename_i gs2 h2
          obtain ⟨-, -, -, b4, -, b6⟩ := dropReverse_ok h2
          dsimp only
          intro r hr' k m
          dsimp only at hr' ⊢
          rw [b6, a5] at hr'
          cases hg : w.1.reverse with
          | none => rw [hg] at hr'; cases hr'
          | some r0 =>
            rw [hg] at hr'
            cases hr'
            rw [b4, a4, Dict.get?_erase]
            by_cases hk : L.lower f = k
            · rw [if_pos hk]
              refine ⟨fun h => (by cases h), ?_⟩
              rintro ⟨g, hg', hgk⟩
              obtain ⟨hmn, hg'⟩ := get?_erase_some.1 hg'
              exact absurd (hd _ _ _ _ hg' hf (hgk.trans hk.symm)) hmn
            · rw [if_neg hk, hr r0 hg]
              constructor
              · rintro ⟨g, hg', hgk⟩
                exact ⟨g, get?_erase_some.2 ⟨fun h => by rw [h, hf] at hg'; cases hg'; exact hk hgk, hg'⟩, hgk⟩
              · rintro ⟨g, hg', hgk⟩
                exact ⟨g, (get?_erase_some.1 hg').2, hgk⟩

/-- With sound caches a deletion fails only when the glyph or its file is missing, and then changes nothing. -/
theorem deleteGlyph_outcome {L : Casing} {w : World} (n : Str) (hc : CacheOk w.1) (hr : ReverseOk L w.1) :
    (deleteGlyph L w n).2 = .ok () ∨ (deleteGlyph L w n).1 = w := by
  unfold deleteGlyph
  split
  · exact .inr rfl
  · rename_i f hf
    split
    · exact .inr rfl
    · rename_i fs hfs
      have h1 : ∃ gs1, dropExisting w.1 f = .ok gs1 := by
        unfold dropExisting
        split
        · exact ⟨_, rfl⟩
        · rename_i ex he
          rw [if_pos (Dict.has_iff.2 ((hc ex he f).2 ⟨n, hf⟩))]
          exact ⟨_, rfl⟩
      obtain ⟨gs1, h1⟩ := h1
      obtain ⟨-, -, -, -, a5, -⟩ := dropExisting_ok h1
      have h2 : ∃ gs2, dropReverse L gs1 f = .ok gs2 := by
        unfold dropReverse
        rw [a5]
        split
        · exact ⟨_, rfl⟩
        · rename_i r hg
          have := (hr r hg (L.lower f) n).2 ⟨f, hf, rfl⟩
          rw [if_pos (by simp [Dict.has, this])]
          exact ⟨_, rfl⟩
      obtain ⟨gs2, h2⟩ := h2
      rw [h1]; dsimp only
      rw [h2]
      exact .inl rfl

theorem rebuildContents_ok {F : FloatCodec} {gs gs' : GlyphSet} {fs : FS} {v : Bool} (h : rebuildContents F gs fs v = .ok gs') :
    gs'.existing = none ∧ gs'.reverse = none ∧ Dict.WF gs'.contents ∧ gs'.dir = gs.dir ∧ gs'.havePrevious = gs.havePrevious ∧
    gs'.version = gs.version := by
  unfold rebuildContents at h
  split at h
  · cases h
  · split at h
    · cases h
    · rename_i t ht
      cases h
      refine ⟨rfl, rfl, ?_, rfl, rfl, rfl⟩
      unfold checkContents at ht
      split at ht
      · split at ht
        · cases ht
        · split at ht <;> cases ht
          exact foldl_set_wf _ _ _ _ Dict.wf_nil
      · cases ht

/-- What holds of the attributes of a glyph set in every history. -/
structure Sound (L : Casing) (gs : GlyphSet) : Prop where
  wf : Dict.WF gs.contents
  cache : CacheOk gs
  reverse : ReverseOk L gs

theorem step_sound {L : Casing} {F : FloatCodec} {w : World} {op : Op} (hs : Sound L w.1)
    (hd : Distinct L.lower w.1.contents) (hd' : Distinct L.lower (step L F w op).1.1.contents) :
    Sound L (step L F w op).1.1 := by
  cases op with
  | write naming n fv data =>
    rcases writeGlyph_fst L naming w n fv data with h | h
    · show Sound L (writeGlyph L naming w n fv data).1.1
      rw [h]; exact hs
    · have hd'' : Distinct L.lower (writeGlyph L naming w n fv data).1.1.contents := hd'
      show Sound L (writeGlyph L naming w n fv data).1.1
      rw [h] at hd'' ⊢
      obtain ⟨h1, h2⟩ := assignFile_cache (L := L) (naming := naming) n hs.wf hs.cache
      exact ⟨h1, h2, assignFile_reverse n hd'' hs.reverse⟩
  | delete n =>
    have ho := deleteGlyph_outcome (w := w) n hs.cache hs.reverse
    have hdf : Distinct (fun f => f) w.1.contents := fun a b f g ha hb h => hd a b f g ha hb (congrArg L.lower h)
    obtain ⟨h1, h2⟩ := deleteGlyph_cache n hs.wf hdf hs.cache ho
    exact ⟨h1, h2, deleteGlyph_reverse n hd hs.reverse ho⟩
  | reverse =>
    show Sound L (getReverseContents L w.1).1
    unfold getReverseContents
    split
    · exact hs
    · refine ⟨hs.wf, hs.cache, fun r hr => ?_⟩
      cases hr
      exact get?_reversed hs.wf hd
  | save => exact hs
  | rebuild v =>
    show Sound L (match rebuildContents F w.1 w.2 v with
      | .error e => (w, Except.error e)
      | .ok gs => ((gs, w.2), .ok ())).1.1
    split
    · exact hs
    · rename_i gs h
      obtain ⟨h1, h2, h3, -⟩ := rebuildContents_ok h
      exact ⟨h3, fun ex hex => (by rw [h1] at hex; cases hex), fun r hr => (by rw [h2] at hr; cases hr)⟩

theorem run_sound {L : Casing} {F : FloatCodec} (ops : List Op) : ∀ (w : World), Sound L w.1 →
    (∀ pre, pre <+: ops → Distinct L.lower (run L F w pre).1.contents) → Sound L (run L F w ops).1 := by
  induction ops with
  | nil => exact fun w h _ => h
  | cons op ops ih =>
    intro w hs hd
    exact ih _ (step_sound hs (hd [] List.nil_prefix) (hd [op] (List.prefix_append [op] ops)))
      (fun pre hpre => hd (op :: pre) (by simpa using hpre))

end Verif.GlyphSet
