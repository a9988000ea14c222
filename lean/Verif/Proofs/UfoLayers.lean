import Verif.Proofs.UfoOpen
/-! The directories of layers stay apart. -/
namespace Verif.Ufo
open Verif Verif.FS Verif.IO Verif.Spec.Ufo Verif.Filenames

theorem asciiPrefix_ascii : AsciiPrefix asciiCasing := fun a s _ => ⟨s.map asciiLowerChar, by simp [asciiCasing], by rintro rfl; rfl⟩

theorem lower_glyphs {L : Casing} (hL : AsciiPrefix L) {d : Str} (hd : GlyphsDir d) (hne : d ≠ c!"glyphs") :
    L.lower d ≠ L.lower c!"glyphs" := by
  rcases hd with h | ⟨r, rfl⟩
  · exact absurd h hne
  · obtain ⟨t, ht, -⟩ := hL c!"glyphs." r (by decide)
    obtain ⟨t', ht', h0⟩ := hL c!"glyphs" [] (by decide)
    rw [h0 rfl, List.append_nil, List.append_nil] at ht'
    rw [ht, ht']
    intro e
    have := congrArg List.length e
    simp at this

theorem apart_set {L : Casing} {layers : Dict Str Str} (h : ApartDirs L layers) {n d : Str}
    (hd : ∀ m e, m ≠ n → Dict.get? layers m = some e → L.lower e ≠ L.lower d) : ApartDirs L (Dict.set layers n d) := by
  intro a b x y ha hb hab
  rw [Dict.get?_set] at ha hb
  split at ha
  · rename_i han
    cases ha
    split at hb
    · rename_i hbn
      exact absurd (by simp_all) hab
    · rename_i hbn
      exact (hd b y (fun e => hbn e.symm) hb).symm
  · rename_i han
    split at hb
    · cases hb
      exact hd a x (fun e => han e.symm) ha
    · exact h a b x y ha hb hab

theorem apart_erase {L : Casing} {layers : Dict Str Str} (h : ApartDirs L layers) (n : Str) : ApartDirs L (Dict.erase layers n) := by
  intro a b x y ha hb
  rw [Dict.get?_erase] at ha hb
  split at ha
  · cases ha
  · split at hb
    · cases hb
    · exact h a b x y ha hb

theorem mem_values {layers : Dict Str Str} {m e : Str} (h : Dict.get? layers m = some e) : e ∈ Dict.values layers :=
  List.mem_map_of_mem (f := Prod.snd) (Dict.mem_of_get? h)

theorem fresh_dir {L : Casing} {layers : Dict Str Str} {u r : Str}
    (h : userNameToFileName L u ((Dict.values layers).map L.lower) c!"glyphs." [] = .ok r) {m e : Str} (hm : Dict.get? layers m = some e) :
    L.lower e ≠ L.lower r := by
  intro he
  exact Props.C01_fresh L u _ _ r _ h (he ▸ List.mem_map_of_mem (mem_values hm))

/-- The directory chosen for a layer is not that of another layer. -/
theorem layerDirectory_fresh {L : Casing} (hL : AsciiPrefix L) {w : Writer} (hl : Layered w)
    (ha : ApartDirs L w.layers) {n d : Str} {b : Bool} (hc : (b && defaultConflict w.layers n) = false)
    (hd : layerDirectory L w.layers n b = .ok d) {m e : Str} (hmn : m ≠ n) (hm : Dict.get? w.layers m = some e) : L.lower e ≠ L.lower d := by
  unfold layerDirectory at hd
  split at hd
  · rename_i x hx
    cases hd
    exact ha m n e d hm hx hmn
  · split at hd
    · rename_i hb
      cases hd
      refine lower_glyphs hL (hl.dirs m e hm) ?_
      rintro rfl
      simp only [hb, Bool.true_and, defaultConflict, List.any_eq_false] at hc
      have := hc _ (Dict.mem_of_get? hm)
      simp only [glyphsName, if_true, decide_eq_true_eq, not_not] at this
      exact hmn this
    · exact fresh_dir hd hm

theorem getGlyphSet3_layers (L : Casing) (F : FloatCodec) (w : World) (n : Str) (b v : Bool) :
    ((getGlyphSet3 L F w n b v).1 = w) ∨
    ∃ d fs, (b && defaultConflict w.1.layers n) = false ∧ layerDirectory L w.1.layers n b = .ok d ∧ w.2.makedir [d] = .ok fs ∧
      (getGlyphSet3 L F w n b v).1 = ({ w.1 with layers := Dict.set w.1.layers n d }, fs) := by
  unfold getGlyphSet3
  split
  · exact .inl rfl
  · rename_i hc
    split
    · exact .inl rfl
    · rename_i d hd
      split
      · exact .inl rfl
      · rename_i fs hfs
        exact .inr ⟨d, fs, by simpa using hc, hd, hfs, rfl⟩

/-- What a rename does when it gets to its last step. -/
theorem renameGlyphSet_layers (L : Casing) (w : World) (hl : Layered w.1) (n m : Option Str) (b : Bool) :
    (renameGlyphSet L w n m b).1 = w ∨
    ∃ old oldDir new newDir, n = some old ∧ (n ≠ m ∧ new = m.getD defaultLayerName ∧ Dict.get? w.1.layers new = none ∧
        (b = true → glyphsName ∉ Dict.values w.1.layers) ∨ n = m ∧ new = old ∧ (b = true → oldDir ≠ glyphsName)) ∧
      Dict.get? w.1.layers old = some oldDir ∧ renameDirectory L w.1.layers new b = .ok newDir ∧
      renameGlyphSet L w n m b = (({ w.1 with layers := Dict.set (Dict.erase w.1.layers old) new newDir }, (w.2.movedir [oldDir] [newDir]).1),
        (w.2.movedir [oldDir] [newDir]).2) := by
  unfold renameGlyphSet
  split
  · exact .inl rfl
  · split
    · exact .inl rfl
    · exact .inl rfl
    · rename_i new hcheck
      split
      · exact .inl rfl
      · rename_i oldDir hold
        split
        · exact .inl rfl
        · rename_i newDir hnew
          split
          · exact .inl rfl
          · rename_i old
            obtain ⟨k, hk, hk'⟩ := findDirectory_mem hold
            have hko : k = old := by
              rcases hk' with ⟨h, -⟩ | h
              · cases h
              · cases h; rfl
            subst hko
            have hget := Dict.get?_of_mem hl.wf hk
            refine .inr ⟨k, oldDir, new, newDir, rfl, ?_, hget, hnew, rfl⟩
            unfold renameCheck at hcheck
            split at hcheck
            · rename_i hnm
              simp only [hget] at hcheck
              split at hcheck
              · cases hcheck
              · split at hcheck
                · cases hcheck
                · rename_i h1
                  cases hcheck
                  exact .inr ⟨hnm, rfl, fun hb he => h1 ⟨he, hb⟩⟩
            · rename_i hnm
              simp only at hcheck
              split at hcheck
              · cases hcheck
              · rename_i hhas
                split at hcheck
                · cases hcheck
                · rename_i hdef
                  cases hcheck
                  refine .inl ⟨hnm, rfl, ?_, fun hb hv => hdef ⟨hb, hv⟩⟩
                  rw [Dict.get?_eq_none_iff]
                  exact Dict.has_eq_false_iff.1 (by simpa using hhas)

theorem deleteGlyphSet_layers (w : World) (n : Option Str) :
    ((deleteGlyphSet w n).1.1 = w.1) ∨
    ∃ m, n = some m ∧ (deleteGlyphSet w n).1.1 = { w.1 with layers := Dict.erase w.1.layers m } := by
  unfold deleteGlyphSet
  split
  · exact .inl rfl
  · split
    · exact .inl rfl
    · split
      · exact .inl rfl
      · split
        · exact .inl rfl
        · split
          · exact .inr ⟨_, rfl, rfl⟩
          · exact .inl rfl

/-- The new directory of a renamed layer is not that of another layer. -/
theorem rename_fresh {L : Casing} (hL : AsciiPrefix L) {w : Writer} (hl : Layered w) {n m : Option Str} {b : Bool} {old oldDir new newDir : Str}
    (hn : n = some old) (hc : n ≠ m ∧ new = m.getD defaultLayerName ∧ Dict.get? w.layers new = none ∧ (b = true → glyphsName ∉ Dict.values w.layers) ∨
      n = m ∧ new = old ∧ (b = true → oldDir ≠ glyphsName)) (hh : Harmless w.layers (.rename n m b))
    (hnew : renameDirectory L w.layers new b = .ok newDir) {k e : Str} (hk : k ≠ old) (he : Dict.get? w.layers k = some e) :
    L.lower e ≠ L.lower newDir := by
  unfold renameDirectory at hnew
  split at hnew
  · rename_i hb
    cases hnew
    refine lower_glyphs hL (hl.dirs k e he) ?_
    rintro rfl
    rcases hc with ⟨-, -, -, h⟩ | ⟨h, rfl, -⟩
    · exact h hb (mem_values he)
    · subst h
      subst hn
      subst hb
      exact hh _ rfl k hk he
  · exact fresh_dir hnew he

theorem getGlyphSet_layers (L : Casing) (F : FloatCodec) (w : World) (n : Option Str) (b v : Bool) :
    (getGlyphSet L F w n b v).1.1 = w.1 ∧ ((getGlyphSet L F w n b v).1.2 = w.2 ∨ ∃ fs, w.2.makedir [glyphsName] = .ok fs ∧ (getGlyphSet L F w n b v).1.2 = fs) ∨
    ∃ d fs, (b && defaultConflict w.1.layers (n.getD (defaultLayerOf w.1.layers))) = false ∧
      layerDirectory L w.1.layers (n.getD (defaultLayerOf w.1.layers)) b = .ok d ∧ w.2.makedir [d] = .ok fs ∧
      (getGlyphSet L F w n b v).1 = ({ w.1 with layers := Dict.set w.1.layers (n.getD (defaultLayerOf w.1.layers)) d }, fs) := by
  unfold getGlyphSet
  split
  · exact .inl ⟨rfl, .inl rfl⟩
  · split
    · exact .inl ⟨rfl, .inl rfl⟩
    · split
      · refine .inl ?_
        unfold getGlyphSet12
        split
        · exact ⟨rfl, .inl rfl⟩
        · rename_i fs hfs
          split <;> exact ⟨rfl, .inr ⟨fs, hfs, rfl⟩⟩
      · rcases getGlyphSet3_layers L F w (n.getD (defaultLayerOf w.1.layers)) b v with h | h
        · exact .inl (by rw [h]; exact ⟨rfl, .inl rfl⟩)
        · exact .inr h

/-- Calls that are not about layers keep the table of layers. -/
theorem step_layers (E : FontInfo.Env) (L : Casing) (w : World) (op : Op) :
    (step E L w op).1.1.layers = w.1.layers ∨ (∃ n b v, op = .glyphSet n b v) ∨ (∃ n m b, op = .rename n m b) ∨ ∃ n, op = .delete n := by
  have hwr : ∀ F name empty v, (writeOrRemove F w name empty v).1.1.layers = w.1.layers := fun F name empty v => by rw [(writeOrRemove_acts F w name empty v).2]
  cases op with
  | maps a b => left; simp only [step, setMaps]; split <;> rfl
  | info i v => left; simp only [step, writeInfo]; split <;> rfl
  | lib l v => left; simp only [step, writeLib]; split; rfl; exact hwr _ _ _ _
  | groups g v => left; simp only [step, writeGroups]; split; rfl; exact hwr _ _ _ _
  | kerning k v => left; simp only [step, writeKerning]; split; rfl; exact hwr _ _ _ _
  | features s => left; simp only [step, writeFeatures]; split; rfl; split; rfl; split <;> rfl
  | glyphSet n b v => exact .inr (.inl ⟨n, b, v, rfl⟩)
  | rename n m b => exact .inr (.inr (.inl ⟨n, m, b, rfl⟩))
  | delete n => exact .inr (.inr (.inr ⟨n, rfl⟩))
  | layerContents o v => left; simp only [step, writeLayerContents]; split; rfl; split; rfl; split <;> rfl
  | image n d v => left; simp only [step, writeImage]; split; rfl; split <;> rfl
  | removeImage n => left; simp only [step, removeImage]; split <;> rfl
  | bytes p d => exact .inl rfl
  | remove p f e => exact .inl rfl
  | copy s p q => exact .inl rfl
  | copyImage s n m => left; simp only [step, copyImageFromReader]; split <;> rfl
  | glyph gs op => exact .inl rfl
  | layerInfo gs i v => exact .inl rfl

/-- One call keeps the directories apart. -/
theorem step_apart {L : Casing} (hL : AsciiPrefix L) (E : FontInfo.Env) (w : World) (hl : Layered w.1) (ha : ApartDirs L w.1.layers) (op : Op)
    (hh : Harmless w.1.layers op) : ApartDirs L (step E L w op).1.1.layers := by
  rcases step_layers E L w op with h | ⟨n, b, v, rfl⟩ | ⟨n, m, b, rfl⟩ | ⟨n, rfl⟩
  · rw [h]; exact ha
  · show ApartDirs L (getGlyphSet L E.F w n b v).1.1.layers
    rcases getGlyphSet_layers L E.F w n b v with ⟨h, -⟩ | ⟨d, fs, h1, h2, h3, h4⟩
    · rw [h]; exact ha
    · rw [h4]
      exact apart_set ha fun k e hk he => layerDirectory_fresh hL hl ha h1 h2 hk he
  · show ApartDirs L (renameGlyphSet L w n m b).1.1.layers
    rcases renameGlyphSet_layers L w hl n m b with h | ⟨old, oldDir, new, newDir, h1, h2, h3, h4, h5⟩
    · rw [h]; exact ha
    · rw [h5]
      refine apart_set (apart_erase ha old) fun k e hk he => ?_
      rw [Dict.get?_erase] at he
      split at he
      · cases he
      · rename_i hko
        exact rename_fresh hL hl h1 h2 hh h4 (fun e => hko (by simp [e])) he
  · show ApartDirs L (deleteGlyphSet w n).1.1.layers
    rcases deleteGlyphSet_layers w n with h | ⟨m, h1, h2⟩
    · rw [h]; exact ha
    · rw [h2]; exact apart_erase ha m

theorem run_cons (E : FontInfo.Env) (L : Casing) (w : World) (op : Op) (ops : List Op) :
    run E L w (op :: ops) = run E L (step E L w op).1 ops := rfl

theorem harmlessRun_cons {E : FontInfo.Env} {L : Casing} {w : World} {op : Op} {ops : List Op} (h : HarmlessRun E L w (op :: ops)) :
    Harmless w.1.layers op ∧ HarmlessRun E L (step E L w op).1 ops :=
  ⟨h [] op ops rfl, fun pre o post e => by
    have := h (op :: pre) o post (by rw [e]; rfl)
    rwa [run_cons] at this⟩

theorem run_apart {L : Casing} (hL : AsciiPrefix L) (E : FontInfo.Env) (ops : List Op) : ∀ (w : World), Layered w.1 → ApartDirs L w.1.layers →
    HarmlessRun E L w ops → ApartDirs L (run E L w ops).1.layers := by
  induction ops with
  | nil => exact fun w _ ha _ => ha
  | cons op ops ih =>
    intro w hl ha hh
    obtain ⟨h1, h2⟩ := harmlessRun_cons hh
    rw [run_cons]
    exact ih _ (step_spec E L w hl op).2.2.1 (step_apart hL E w hl ha op h1) h2

/-! ### the directories exist -/

/-- Moving a directory to another name. -/
theorem movedir_node {fs : FS} (hw : Dict.WF fs.nodes) {a b : Str} (hab : fs.canon a ≠ fs.canon b) :
    (fs.movedir [a] [b]).1.node? [b] ≠ none ∧
    (∀ c p, fs.canon c ≠ fs.canon a → fs.canon c ≠ fs.canon b → (fs.movedir [a] [b]).1.node? (c :: p) = fs.node? (c :: p)) ∧
    ((fs.movedir [a] [b]).2 = .ok () → fs.node? [a] = some .dir ∧ (∀ p, (fs.movedir [a] [b]).1.node? (a :: p) = none) ∧
      ((∀ p, fs.node? (b :: p) = none) → ∀ p, (fs.movedir [a] [b]).1.node? (b :: p) = fs.node? (a :: p))) := by
  refine ⟨?_, fun c p h1 h2 => ?_, ?_⟩
  · unfold movedir
    split
    · rename_i e h
      show fs.node? [b] ≠ none
      intro hn
      obtain ⟨fs', hfs'⟩ := makedir_of (fs := fs) (p := [b]) (.inr hn) rfl
      rw [h] at hfs'
      cases hfs'
    · rename_i fs' h
      obtain ⟨h1, h2, -⟩ := makedir_ok h
      have hw' := makedir_wf hw h
      split
      · show fs'.node? [b] ≠ none
        rw [h2]; simp
      · show fs'.node? [b] ≠ none
        rw [h2]; simp
      · rename_i hsrc
        have hkey : fs'.canon a ≠ fs'.canon b := by rw [h1]; exact hab
        rw [node?_of_ne (by simp)]
        show Dict.get? ((Prim.move (fs'.key [a]) (fs'.key [b])).apply fs'.nodes) (fs'.key [b]) ≠ none
        rw [get?_move hw', if_neg, if_pos (List.prefix_refl _)]
        · rw [node?_of_ne (by simp)] at hsrc
          simp [hsrc]
        · rintro ⟨t, ht⟩
          simp only [FS.key, List.map_cons, List.map_nil, List.cons_append, List.cons.injEq] at ht
          exact hkey ht.1
  · refine (movedir_acts fs [a] [b]).node? _ fun k hk ⟨t, ht⟩ => ?_
    rcases hk with rfl | rfl
    · simp only [FS.key, List.map_cons, List.map_nil, List.cons_append, List.cons.injEq] at ht
      exact h1 ht.1.symm
    · simp only [FS.key, List.map_cons, List.map_nil, List.cons_append, List.cons.injEq] at ht
      exact h2 ht.1.symm
  · unfold movedir
    split
    · intro h; cases h
    · rename_i fs' h
      obtain ⟨h1, h2, h3, h4, h5⟩ := makedir_ok h
      have hw' := makedir_wf hw h
      split
      · intro h; cases h
      · intro h; cases h
      · rename_i hsrc
        intro _
        have hkey : fs'.canon a ≠ fs'.canon b := by rw [h1]; exact hab
        have hne : ∀ p, fs.key (a :: p) ≠ fs.key [b] := by
          intro p e
          simp only [FS.key, List.map_cons, List.map_nil, List.cons.injEq] at e
          exact hab e.1
        refine ⟨?_, fun p => ?_, fun hfree p => ?_⟩
        · rw [← h3 [a] (hne [])]; exact hsrc
        · rw [node?_of_ne (by simp)]
          show Dict.get? ((Prim.move (fs'.key [a]) (fs'.key [b])).apply fs'.nodes) (fs'.key (a :: p)) = none
          rw [get?_move hw', if_pos ⟨fs'.key p, rfl⟩]
        · rw [node?_of_ne (by simp)]
          show Dict.get? ((Prim.move (fs'.key [a]) (fs'.key [b])).apply fs'.nodes) (fs'.key (b :: p)) = _
          rw [get?_move hw', if_neg, if_pos ⟨fs'.key p, rfl⟩]
          · have e : fs'.key [a] ++ (fs'.key (b :: p)).drop (fs'.key [b]).length = fs'.key (a :: p) := by simp [FS.key]
            rw [e, ← node?_of_ne (by simp), h3 _ (hne p)]
            cases p with
            | nil =>
              rw [← h3 [a] (hne []), hsrc]
              rfl
            | cons x p =>
              have : fs'.node? (b :: x :: p) = none := by
                rw [h3 _ (by simp [FS.key])]
                exact hfree _
              rw [← node?_of_ne (by simp), this]
              simp
          · rintro ⟨t, ht⟩
            simp only [FS.key, List.map_cons, List.map_nil, List.cons_append, List.cons.injEq] at ht
            exact hkey ht.1

/-- Every layer has something where its directory should be. -/
def Present (w : World) : Prop := ∀ n d, Dict.get? w.1.layers n = some d → w.2.node? [d] ≠ none

theorem makedir_keeps {fs fs' : FS} {p q : Path} (h : fs.makedir p = .ok fs') (hq : fs.node? q ≠ none) : fs'.node? q ≠ none := by
  cases hn : fs.node? q with
  | none => exact absurd hn hq
  | some n => rw [(makedir_ok h).2.2.2.1 q n hn]; simp

theorem removeNode_error {fs fs' : FS} {p : Path} {f : Bool} {e : Exc} (h : removeNode fs p f = (fs', .error e)) : fs' = fs := by
  unfold removeNode at h
  split at h
  · cases h
  · split at h
    · cases h
    · cases h; rfl
  · split at h
    · cases h
    · cases h; rfl
  · cases h; rfl

theorem removePath_false (fs : FS) (p : Path) (f : Bool) : removePath fs p f false = removeNode fs p f := by
  unfold removePath
  split
  · rename_i h; exact h.symm
  · rename_i h
    simp [h]

/-- The calls of layer histories: the calls about layers (but not `deleteGlyphSet(None)`), calls on glyph sets, and whatever leaves glyph
directories alone. -/
def KeepsLayers (canon : Str → Str) (op : Op) : Prop :=
  ((∃ n b v, op = .glyphSet n b v) ∨ (∃ n m b, op = .rename n m b) ∨ ∃ n, op = .delete (some n)) ∨ (∀ d, GlyphsDir d → Spares canon d op) ∨ InGlyphSet op

/-- A call on a glyph set only touches what is inside its directory. -/
theorem inGlyphSet_node {E : FontInfo.Env} {L : Casing} {w : World} {op : Op} (h : InGlyphSet op) (e : Str) : (step E L w op).1.2.node? [e] = w.2.node? [e] := by
  have key : ∀ {dir : Path} {f : Str} {fs : FS}, dir ≠ [] → ¬ fs.key (dir ++ [f]) <+: fs.key [e] := by
    intro dir f fs hd hp
    have := hp.length_le
    simp only [FS.key, List.map_append, List.length_append, List.length_map, List.map_cons, List.map_nil, List.length_cons, List.length_nil] at this
    cases dir with
    | nil => exact hd rfl
    | cons a b => simp at this
  cases h with
  | glyph hd =>
    refine (GlyphSet.step_acts L E.F (_, w.2) _).node? _ ?_
    rintro k ⟨f, rfl⟩
    exact key hd
  | layerInfo hd =>
    refine (GlyphSet.writeLayerInfo_frame E.F (_, w.2) _ _).2.node? _ ?_
    rintro k rfl
    exact key hd

theorem step_present {L : Casing} (hL : AsciiPrefix L) (E : FontInfo.Env) (w : World) (hcanon : ∀ a b, w.2.canon a = w.2.canon b → L.lower a = L.lower b)
    (hw : Dict.WF w.2.nodes) (hl : Layered w.1) (ha : ApartDirs L w.1.layers) (hp : Present w) (op : Op) (hh : Harmless w.1.layers op)
    (hop : KeepsLayers w.2.canon op) : Present (step E L w op).1 := by
  rcases hop with (⟨n, b, v, rfl⟩ | ⟨n, m, b, rfl⟩ | ⟨n, rfl⟩) | hop | hop
  · show Present (getGlyphSet L E.F w n b v).1
    rcases getGlyphSet_layers L E.F w n b v with ⟨h, h'⟩ | ⟨d, fs, h1, h2, h3, h4⟩
    · intro k e hk
      rw [h] at hk
      rcases h' with h' | ⟨fs, h', h''⟩
      · rw [h']; exact hp k e hk
      · rw [h'']; exact makedir_keeps h' (hp k e hk)
    · intro k e hk
      rw [h4] at hk ⊢
      simp only [Dict.get?_set] at hk
      show fs.node? [e] ≠ none
      split at hk
      · cases hk
        rw [(makedir_ok h3).2.1]; simp
      · exact makedir_keeps h3 (hp k e hk)
  · show Present (renameGlyphSet L w n m b).1
    rcases renameGlyphSet_layers L w hl n m b with h | ⟨old, oldDir, new, newDir, h1, h2, h3, h4, h5⟩
    · rw [h]; exact hp
    · rw [h5]
      have hne : L.lower oldDir ≠ L.lower newDir := by
        unfold renameDirectory at h4
        split at h4
        · rename_i hb
          cases h4
          refine lower_glyphs hL (hl.dirs old oldDir h3) ?_
          rintro rfl
          rcases h2 with ⟨-, -, -, h⟩ | ⟨-, -, h⟩
          · exact h hb (mem_values h3)
          · exact h hb rfl
        · exact fresh_dir h4 h3
      obtain ⟨g1, g2, -⟩ := movedir_node hw (a := oldDir) (b := newDir) (fun e => hne (hcanon _ _ e))
      intro k e hk
      simp only [Dict.get?_set] at hk
      show (w.2.movedir [oldDir] [newDir]).1.node? [e] ≠ none
      split at hk
      · cases hk
        exact g1
      · rw [Dict.get?_erase] at hk
        split at hk
        · cases hk
        · rename_i hko
          have hko' : k ≠ old := fun e => hko (by simp [e])
          rw [g2 e []]
          · exact hp k e hk
          · exact fun c => ha k old e oldDir hk h3 hko' (hcanon _ _ c)
          · exact fun c => rename_fresh hL hl h1 h2 hh h4 hko' hk (hcanon _ _ c)
  · show Present (deleteGlyphSet w (some n)).1
    unfold deleteGlyphSet
    split
    · exact hp
    · split
      · exact hp
      · rename_i dir hdir
        obtain ⟨k, hk, hk'⟩ := findDirectory_mem hdir
        have hkn : k = n := by
          rcases hk' with ⟨h, -⟩ | h
          · cases h
          · cases h; rfl
        subst hkn
        have hget := Dict.get?_of_mem hl.wf hk
        have hacts := removeNode_acts w.2 [dir] false
        split
        · rename_i fs e he
          rw [removePath_false] at he
          rw [removeNode_error he]
          exact hp
        · rename_i fs he
          rw [removePath_false] at he
          have hfs : (removeNode w.2 [dir] false).1 = fs := by rw [he]
          simp only [Dict.has_iff.2 (Dict.mem_keys_of_mem hk), if_true]
          intro m e hm
          simp only [Dict.get?_erase] at hm
          split at hm
          · cases hm
          · rename_i hmk
            have hmk' : m ≠ k := fun e => hmk (by simp [e])
            show fs.node? [e] ≠ none
            rw [← hfs, hacts.node? [e]]
            · exact hp m e hm
            · rintro _ rfl ⟨t, ht⟩
              simp only [FS.key, List.map_cons, List.map_nil, List.cons_append, List.cons.injEq] at ht
              exact ha m k e dir hm hget hmk' (hcanon _ _ ht.1.symm)
  · intro k e hk
    have hsp := step_spec E L w hl op
    have hlay : (step E L w op).1.1.layers = w.1.layers := by
      rcases step_layers E L w op with h | ⟨n, b, v, rfl⟩ | ⟨n, m, b, rfl⟩ | ⟨n, rfl⟩
      · exact h
      all_goals exact absurd rfl (hop c!"glyphs" (.inl rfl) c!"glyphs" (by first | exact .glyphSet (.inl rfl) | exact .rename (.inl rfl) | exact .delete (.inl rfl)))
    rw [hlay] at hk
    rw [acts_node? hsp.2.2.2 (S := Concerns op) (fun k hk => hk) (hop e (hl.dirs k e hk)) []]
    exact hp k e hk
  · intro k e hk
    rw [inGlyphSet_node hop]
    refine hp k e ?_
    have : (step E L w op).1.1.layers = w.1.layers := by cases hop <;> rfl
    rw [← this]
    exact hk

/-- What histories of layer calls keep. -/
structure Good (L : Casing) (w : World) : Prop where
  layered : Layered w.1
  apart : ApartDirs L w.1.layers
  wf : Dict.WF w.2.nodes
  present : Present w

theorem run_good {L : Casing} (hL : AsciiPrefix L) (E : FontInfo.Env) (ops : List Op) : ∀ (w : World),
    (∀ a b, w.2.canon a = w.2.canon b → L.lower a = L.lower b) → Good L w → HarmlessRun E L w ops → (∀ op ∈ ops, KeepsLayers w.2.canon op) →
    Good L (run E L w ops) := by
  induction ops with
  | nil => exact fun w _ h _ _ => h
  | cons op ops ih =>
    intro w hc h hh hk
    obtain ⟨h1, h2⟩ := harmlessRun_cons hh
    obtain ⟨-, -, g1, g2⟩ := step_spec E L w h.layered op
    rw [run_cons]
    refine ih _ (by rw [g2.canon]; exact hc) ⟨g1, step_apart hL E w h.layered h.apart op h1, g2.wf h.wf,
      step_present hL E w hc h.wf h.layered h.apart h.present op h1 (hk op (by simp))⟩ h2 (fun o ho => ?_)
    rw [g2.canon]
    exact hk o (by simp [ho])

end Verif.Ufo
