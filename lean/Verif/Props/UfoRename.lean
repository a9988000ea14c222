import Verif.Proofs.UfoRename
import Verif.Props.UfoFont
/-! Renaming and deleting layers: C77. -/
namespace Verif.Props
open Verif Verif.FS Verif.IO Verif.Ufo Verif.Spec.Ufo Verif.Spec.Plist

/-! ### C77 -/

/-- A rename that returns: the layer is found under the new name with the same glyphs, GLIF texts and layer info, it is the default layer exactly if this was asked for, the old name
is gone, all other layers are as they were, and the writer is in order. What the full claim leaves out: the directory chosen for the layer must not be on disk already without being that of a
layer (`C77_refuted`), and the call must not be the one of C58. -/
theorem C77_rename_partial (L : Casing) (hL : AsciiPrefix L) (F : FloatCodec) (w w' : World) (hw : Consistent L ⟨w.1, w.2, []⟩) (n m : Str) (b : Bool)
    (hh : Harmless w.1.layers (.rename (some n) (some m) b)) (h : renameGlyphSet L w (some n) (some m) b = (w', .ok ()))
    (hvac : ∀ e, Dict.get? w'.1.layers m = some e → Dict.get? w.1.layers n = some e ∨ Vacant w.2 e) :
    (∀ v, SameOutcome F (layerOf L F w n v) (layerOf L F w' m v)) ∧ (Dict.get? w'.1.layers m = some c!"glyphs" ↔ b = true) ∧ (n ≠ m → Dict.get? w'.1.layers n = none) ∧
      (∀ k d, k ≠ n → Dict.get? w.1.layers k = some d → Dict.get? w'.1.layers k = some d ∧ ∀ v, SameOutcome F (layerOf L F w k v) (layerOf L F w' k v)) ∧
      (∀ k d, k ≠ m → Dict.get? w'.1.layers k = some d → Dict.get? w.1.layers k = some d) ∧ Consistent L ⟨w'.1, w'.2, []⟩ := by
  have hl : Layered w.1 := ⟨hw.layers, hw.dirs⟩
  have hcons : Consistent L ⟨w'.1, w'.2, []⟩ := by
    have := consistent_step hL ⟨F, true⟩ hw (.ufo (.rename (some n) (some m) b)) (by rintro op ho; cases ho; exact ⟨hh, .inl (.inr (.inl ⟨_, _, _, rfl⟩))⟩)
    have e : (renameGlyphSet L (Font.world ⟨w.1, w.2, []⟩) (some n) (some m) b) = (w', .ok ()) := h
    simp only [Font.step, step, e] at this
    exact this
  have hpres : ∀ k d, Dict.get? w.1.layers k = some d → w.2.node? [d] ≠ none := fun k d hk => by
    have := hw.present k d hk
    simpa [«exists», Option.isSome_iff_ne_none] using this
  obtain ⟨d, hd, ⟨rfl, rfl, hdef⟩ | ⟨e, hc, he, rfl, hmv⟩⟩ := rename_ok hl hw.version h
  · refine ⟨fun v => layerOf_same F hw.version hw.version hd hd (fun _ => rfl) (hpres _ d hd) v, ?_, fun hx => absurd rfl hx, fun k x _ hx =>
      ⟨hx, fun v => layerOf_same F hw.version hw.version hx hx (fun _ => rfl) (hpres k x hx) v⟩, fun k x _ hx => hx, hcons⟩
    rw [hd, Option.some.injEq]
    exact hdef
  · have hne := rename_dir_ne hL hl hd hc he
    have hcan : w.2.canon d ≠ w.2.canon e := fun x => hne (hw.canon _ _ x)
    have hnm : Dict.get? (Dict.set (Dict.erase w.1.layers n) m e) m = some e := Dict.get?_set_self _ _ _
    have hvac' : Vacant w.2 e := by
      rcases hvac e hnm with h1 | h1
      · rw [hd] at h1; cases h1; exact absurd rfl hne
      · exact h1
    obtain ⟨-, m2, m3⟩ := movedir_node (fs := w.2) hw.nodes hcan
    obtain ⟨-, -, m5⟩ := m3 hmv
    have hfresh : ∀ k x, k ≠ n → Dict.get? w.1.layers k = some x → L.lower x ≠ L.lower e := fun k x hk hx =>
      rename_fresh hL hl (n := some n) (m := some m) (b := b) (old := n) (oldDir := d) (new := m) rfl (hc.imp (fun ⟨a, b, c⟩ => ⟨(by simpa using a), rfl, b, c⟩) fun ⟨a, b⟩ => ⟨(by rw [a]), a.symm, b⟩) hh he hk hx
    have hget : ∀ k x, k ≠ n → Dict.get? w.1.layers k = some x → Dict.get? (Dict.set (Dict.erase w.1.layers n) m e) k = some x := by
      intro k x hk hx
      rw [Dict.get?_set_ne, Dict.get?_erase, if_neg (by simpa using Ne.symm hk)]
      · exact hx
      · rintro rfl
        rcases hc with ⟨-, h1, -⟩ | ⟨h1, -⟩
        · rw [h1] at hx; cases hx
        · exact hk h1.symm
    refine ⟨fun v => layerOf_same (w' := ({ w.1 with layers := Dict.set (Dict.erase w.1.layers n) m e }, (w.2.movedir [d] [e]).1)) F hw.version hw.version hd hnm (fun p => (m5 hvac' p).symm) (hpres n d hd) v, ?_, fun hx => ?_, fun k x hk hx => ⟨hget k x hk hx, fun v => ?_⟩, fun k x hk hx => ?_, hcons⟩
    · rw [hnm, Option.some.injEq]
      unfold renameDirectory at he
      split at he
      · rename_i hb
        cases he
        exact ⟨fun _ => hb, fun _ => rfl⟩
      · rename_i hb
        obtain ⟨g, hg, -⟩ := C03_legal L m _ _ e _ he
        exact ⟨fun h0 => by rw [hg] at h0; simp at h0, fun h0 => absurd h0 hb⟩
    · rw [show (({ w.1 with layers := Dict.set (Dict.erase w.1.layers n) m e } : Writer), (w.2.movedir [d] [e]).1).1.layers = Dict.set (Dict.erase w.1.layers n) m e from rfl,
        Dict.get?_set_ne _ _ (Ne.symm hx), Dict.get?_erase, if_pos rfl]
    · refine layerOf_same (w' := ({ w.1 with layers := Dict.set (Dict.erase w.1.layers n) m e }, (w.2.movedir [d] [e]).1)) F hw.version hw.version hx (hget k x hk hx) (fun p => (m2 x p ?_ ?_).symm) (hpres k x hx) v
      · exact fun hh => hw.apart k n x d hx hd hk (hw.canon _ _ hh)
      · exact fun hh => hfresh k x hk hx (hw.canon _ _ hh)
    · rw [show (({ w.1 with layers := Dict.set (Dict.erase w.1.layers n) m e } : Writer), (w.2.movedir [d] [e]).1).1.layers = Dict.set (Dict.erase w.1.layers n) m e from rfl,
        Dict.get?_set_ne _ _ (Ne.symm hk), Dict.get?_erase] at hx
      split at hx
      · cases hx
      · exact hx

/-- When a rename returns: the layer is there with its directory, the new name is free, it is not to become a second default layer, and there is no file in the way. -/
theorem C77_succeeds (L : Casing) (hC : L.Lawful) (w : World) (hw : Consistent L ⟨w.1, w.2, []⟩) (n m d : Str) (b : Bool) (hnm : n ≠ m) (hn : Dict.get? w.1.layers n = some d)
    (hd : w.2.node? [d] = some .dir) (hm : Dict.get? w.1.layers m = none) (hb : b = true → ∀ k, Dict.get? w.1.layers k ≠ some c!"glyphs")
    (hmany : w.1.layers.length < 999999999999998) (hfree : ∀ e, GlyphsDir e → w.2.node? [e] = some .dir ∨ w.2.node? [e] = none) :
    ∃ w', renameGlyphSet L w (some n) (some m) b = (w', .ok ()) := by
  have hl : Layered w.1 := ⟨hw.layers, hw.dirs⟩
  have hchk : renameCheck w.1.layers (some n) (some m) b = .ok (some m) := by
    unfold renameCheck
    rw [if_neg (by simpa using hnm)]
    dsimp only [Option.getD_some]
    rw [if_neg, if_neg]
    · rintro ⟨h1, h2⟩
      obtain ⟨e, he, he'⟩ := List.mem_map.1 h2
      exact hb h1 e.1 (by rw [Dict.get?_of_mem hw.layers (k := e.1) (v := e.2) he, he']; rfl)
    · rw [Dict.has_eq_false_iff.2 (Dict.get?_eq_none_iff.1 hm)]; simp
  have hdir : ∃ e, renameDirectory L w.1.layers m b = .ok e := by
    unfold renameDirectory
    split
    · exact ⟨_, rfl⟩
    · obtain ⟨r, hr, -⟩ := C05_succeeds L hC m c!"glyphs." [] ((Dict.values w.1.layers).map L.lower) (.inr (by decide)) (by simpa [Dict.values] using hmany)
      exact ⟨r, hr⟩
  obtain ⟨e, he⟩ := hdir
  obtain ⟨fs', hfs⟩ := makedir_of (fs := w.2) (p := [e]) (hfree e (renameDirectory_dir he)) rfl
  have hd' := (makedir_ok hfs).2.2.2.1 [d] _ hd
  refine ⟨({ w.1 with layers := Dict.set (Dict.erase w.1.layers n) m e }, (w.2.movedir [d] [e]).1), ?_⟩
  have hmv : (w.2.movedir [d] [e]).2 = .ok () := by
    unfold movedir
    rw [hfs]
    dsimp only
    rw [hd']
  have h3 : w.1.version = 3 := hw.version
  unfold renameGlyphSet
  rw [if_neg (by rw [h3]; decide), hchk]
  dsimp only
  rw [findDirectory_of hl hn]
  dsimp only
  rw [he]
  dsimp only
  rw [hmv]

/-- A rename to a name that is taken, of a layer that does not exist, or that would make a second default layer raises and changes nothing. -/
theorem C77_refused (L : Casing) (w : World) (h3 : 3 ≤ w.1.version) (n m : Str) (b : Bool) (hnm : n ≠ m)
    (h : Dict.has w.1.layers m = true ∨ (b = true ∧ c!"glyphs" ∈ Dict.values w.1.layers) ∨ n ∉ Dict.keys w.1.layers) :
    renameGlyphSet L w (some n) (some m) b = (w, .error .ufoLibError) := by
  unfold renameGlyphSet
  rw [if_neg (by omega)]
  unfold renameCheck
  rw [if_neg (by simpa using hnm)]
  dsimp only [Option.getD_some]
  by_cases h1 : Dict.has w.1.layers m = true
  · rw [if_pos h1]
  · rw [if_neg h1]
    by_cases h2 : b = true ∧ glyphsName ∈ Dict.values w.1.layers
    · rw [if_pos h2]
    · rw [if_neg h2]
      have hk : n ∉ Dict.keys w.1.layers := by
        rcases h with h | h | h
        · exact absurd h h1
        · exact absurd h h2
        · exact h
      have hf : findDirectory w.1.layers (some n) = .error .ufoLibError := by
        unfold findDirectory
        have : w.1.layers.find? (fun e => decide (some n = none ∧ e.2 = glyphsName ∨ some n = some e.1)) = none := by
          rw [List.find?_eq_none]
          intro e he
          simp only [reduceCtorEq, false_and, Option.some.injEq, false_or, decide_eq_true_eq]
          rintro rfl
          exact hk (List.mem_map_of_mem he)
        rw [this]
      simp only [hf]

/-- A delete that returns: the layer and everything in its directory are gone, all other layers are as they were, and the writer is in order. -/
theorem C77_delete (L : Casing) (hL : AsciiPrefix L) (F : FloatCodec) (w w' : World) (hw : Consistent L ⟨w.1, w.2, []⟩) (n d : Str) (hn : Dict.get? w.1.layers n = some d)
    (hdir : w.2.node? [d] = some .dir) (h : deleteGlyphSet w (some n) = (w', .ok ())) :
    Dict.get? w'.1.layers n = none ∧ Vacant w'.2 d ∧
      (∀ k e, k ≠ n → Dict.get? w.1.layers k = some e → Dict.get? w'.1.layers k = some e ∧ ∀ v, SameOutcome F (layerOf L F w k v) (layerOf L F w' k v)) ∧
      (∀ k e, Dict.get? w'.1.layers k = some e → Dict.get? w.1.layers k = some e) ∧ Consistent L ⟨w'.1, w'.2, []⟩ := by
  have hl : Layered w.1 := ⟨hw.layers, hw.dirs⟩
  have h3 : w.1.version = 3 := hw.version
  have hcons : Consistent L ⟨w'.1, w'.2, []⟩ := by
    have := consistent_step hL ⟨F, true⟩ hw (.ufo (.delete (some n))) (by rintro op ho; cases ho; exact ⟨(by rintro k hk; cases hk), .inl (.inr (.inr ⟨_, rfl⟩))⟩)
    have e : (deleteGlyphSet (Font.world ⟨w.1, w.2, []⟩) (some n)) = (w', .ok ()) := h
    simp only [Font.step, step, e] at this
    exact this
  have hpres : ∀ k d, Dict.get? w.1.layers k = some d → w.2.node? [d] ≠ none := fun k d hk => by
    have := hw.present k d hk
    simpa [«exists», Option.isSome_iff_ne_none] using this
  have hrm : removePath w.2 [d] false false = (w.2.perform (.rmtree (w.2.key [d])), .ok ()) := by
    have h1 : w.2.remove [d] = .error .fileExpected := by unfold remove; rw [hdir]
    have h2 : w.2.removetree [d] = .ok (w.2.perform (.rmtree (w.2.key [d]))) := by unfold removetree; rw [hdir]
    unfold removePath removeNode
    rw [h1]
    dsimp only
    rw [h2]
    rfl
  unfold deleteGlyphSet at h
  rw [if_neg (by rw [h3]; decide), findDirectory_of hl hn] at h
  dsimp only at h
  rw [hrm] at h
  dsimp only at h
  rw [if_pos (Dict.has_iff.2 (Dict.mem_keys_of_mem (Dict.mem_of_get? hn)))] at h
  cases h
  have hget : ∀ k, Dict.get? (Dict.erase w.1.layers n) k = if n = k then none else Dict.get? w.1.layers k := fun k => Dict.get?_erase _ _ _
  refine ⟨by rw [hget, if_pos rfl], fun p => ?_, fun k e hk hx => ?_, fun k e hx => ?_, hcons⟩
  · rw [node?_rmtree _ _ _ (by simp), if_pos]
    exact ⟨w.2.key p, by simp [FS.key]⟩
  · have hx' : Dict.get? (Dict.erase w.1.layers n) k = some e := by rw [hget, if_neg (Ne.symm hk)]; exact hx
    refine ⟨hx', fun v => layerOf_same (w' := ({ w.1 with layers := Dict.erase w.1.layers n }, w.2.perform (.rmtree (w.2.key [d])))) F h3 h3 hx hx' (fun p => ?_) (hpres k e hx) v⟩
    rw [node?_rmtree _ _ _ (by simp), if_neg]
    simp only [FS.key, List.map_cons, List.map_nil, List.cons_prefix_cons, List.nil_prefix, and_true]
    exact fun hh => hw.apart k n e d hx hn hk (hw.canon _ _ hh.symm)
  · have : Dict.get? (Dict.erase w.1.layers n) k = some e := hx
    rw [hget] at this
    split at this
    · cases this
    · exact this

/-- Once the layer contents are written, the reader finds every layer of the writer, with what the writer has in it. The conditions are those of `C59_partial`. -/
theorem C77_reader_partial (L : Casing) (hL : AsciiPrefix L) (F : FloatCodec) (hF : F.Lawful) (w w' : World) (hw : Consistent L ⟨w.1, w.2, []⟩)
    (order : Option (List (Option Str))) (hwrite : writeLayerContents F w order true = (w', .ok ())) (hdup : (orderNames w.1.layers order).Nodup)
    (hdefault : ∃ n, Dict.get? w.1.layers n = some c!"glyphs")
    (hnames : ∀ n d, Dict.get? w.1.layers n = some d → n ≠ [] ∧ FileText n ∧ FileText d ∧ (n = c!"public.default" → d = c!"glyphs")) :
    getLayerNames F w'.2 3 true = .ok (orderNames w.1.layers order) ∧ (∀ n, n ∈ orderNames w.1.layers order ↔ n ∈ Dict.keys w.1.layers) ∧
      ∀ n ∈ Dict.keys w.1.layers, SameOutcome F (layerOf L F w n true) (w'.2, readerGlyphSet F w'.2 3 (some n) true) := by
  have ho := Orderly.of hw
  have h3 : w.1.version = 3 := hw.version
  have horder : layerOrderOf w.1.layers order = orderNames w.1.layers order := by cases order <;> rfl
  have hapart : ∀ x, GlyphsDir x → w.2.canon x ≠ w.2.canon layercontentsName := fun x hx e => lower_apart hL hx (by decide) (hw.canon _ _ e)
  have hgood : Good L w := ho.good
  obtain ⟨t, t1, t2, t3⟩ := written_layers hF hgood h3 hwrite (by rw [horder]; exact hdup) hdefault hapart hnames
  obtain ⟨u1, u2, u3⟩ := writeLayerContents_all h3 hwrite
  have hnd : (t.map Prod.fst).Nodup := by rw [t2, horder]; exact hdup
  refine ⟨?_, fun n => ⟨fun hn => ?_, fun hn => ?_⟩, fun n hn => ?_⟩
  · unfold getLayerNames
    rw [t1]
    dsimp only
    rw [t2, horder]
  · rw [← horder, ← t2] at hn
    obtain ⟨e, he, rfl⟩ := List.mem_map.1 hn
    exact Dict.mem_keys_of_mem (Dict.mem_of_get? (t3 e he))
  · rw [← horder]; exact u1 n hn
  · have hmem : n ∈ t.map Prod.fst := by rw [t2]; exact u1 n hn
    obtain ⟨e, he, rfl⟩ := List.mem_map.1 hmem
    have hg := t3 e he
    have hp : w.2.node? [e.2] ≠ none := by
      have := hw.present e.1 e.2 hg
      simpa [«exists», Option.isSome_iff_ne_none] using this
    refine reader_same h3 hg hp t1 hnd he fun p => (u3 _ fun hk => ?_).symm
    simp only [FS.key, List.map_cons, List.map_nil, List.cons.injEq] at hk
    exact hapart e.2 (hw.dirs e.1 e.2 hg) hk.1

/-- The state after the layers `a` (the default layer) and `b` were written, with a glyph in `b`. -/
def layers77 : World := (font75 [.getGlyphSet (some c!"a") true true, .getGlyphSet (some c!"b") false true, .set 0 (.glyphs (put51 c!"x" [1])), .set 1 (.glyphs (put51 c!"x" [2])),
  .set 0 (.glyphs .save), .set 1 (.glyphs .save)]).world

/-- The glyph `x` in the layer `n`. -/
def glyph77 (w : World) (n : Str) : Option Bytes := ((layerOf asciiCasing fractionCodec w n true).2.toOption).bind fun gs => (GlyphSet.getGLIF (gs, w.2) c!"x").toOption

theorem get?_two {a b n d e y : Str} (h : Dict.get? [(a, d), (b, e)] n = some y) : n = a ∧ y = d ∨ n = b ∧ y = e := by
  simp only [Dict.get?_cons, Dict.get?_nil] at h
  split at h
  · rename_i hn; simp only [Option.some.injEq] at h; exact .inl ⟨hn.symm, h.symm⟩
  · split at h
    · rename_i hn; simp only [Option.some.injEq] at h; exact .inr ⟨hn.symm, h.symm⟩
    · cases h

/-- The state meets the conditions, and so do renames in it. -/
theorem layers77_consistent : Consistent asciiCasing ⟨layers77.1, layers77.2, []⟩ := by
  have hl : layers77.1.layers = [(c!"a", c!"glyphs"), (c!"b", c!"glyphs.b")] := by decide +kernel
  refine ⟨by decide +kernel, fun a b h => congrArg asciiCasing.lower (show a = b from h), by unfold Dict.WF; decide +kernel, by unfold Dict.WF; decide +kernel, fun n d h => ?_, fun n m d e h h' hnm => ?_, fun n d h => ?_, by simp⟩
  · rw [hl] at h
    rcases get?_two h with ⟨-, rfl⟩ | ⟨-, rfl⟩
    · exact .inl rfl
    · exact .inr ⟨c!"b", rfl⟩
  · rw [hl] at h h'
    rcases get?_two h with ⟨rfl, rfl⟩ | ⟨rfl, rfl⟩ <;> rcases get?_two h' with ⟨rfl, rfl⟩ | ⟨rfl, rfl⟩
    · exact absurd rfl hnm
    · decide +kernel
    · decide +kernel
    · exact absurd rfl hnm
  · rw [hl] at h
    rcases get?_two h with ⟨-, rfl⟩ | ⟨-, rfl⟩ <;> decide +kernel

example : let r := (renameGlyphSet asciiCasing layers77 (some c!"b") (some c!"C") false);
    r.2 = .ok () ∧ r.1.1.layers = [(c!"a", c!"glyphs"), (c!"C", c!"glyphs.C_")] ∧ glyph77 layers77 c!"b" = some [2] ∧ glyph77 r.1 c!"C" = some [2] ∧ glyph77 r.1 c!"a" = some [1] ∧
    layers77.2.node? [c!"glyphs.C_"] = none := by decide +kernel

example : let r := (deleteGlyphSet layers77 (some c!"a"));
    r.2 = .ok () ∧ r.1.1.layers = [(c!"b", c!"glyphs.b")] ∧ glyph77 r.1 c!"b" = some [2] ∧ r.1.2.node? [c!"glyphs"] = none := by decide +kernel

/-- A directory that is on disk but is not that of a layer, as after a process stopped before writing the layer contents: its files become part of the layer that is renamed. Here the new
layer has layer info that the old one did not have. -/
theorem C77_refuted : let stray := (font75 [.getGlyphSet (some c!"a") true true, .getGlyphSet (some c!"b") false true, .set 1 (.layerInfo (fun k => if k = c!"color" then some (.str c!"1,0,0,1") else none) true)]);
    let w : World := ({ stray.writer with layers := [(c!"a", c!"glyphs")] }, stray.fs);
    let v := (getGlyphSet asciiCasing fractionCodec w (some c!"c") false true).1;
    let r := (renameGlyphSet asciiCasing v (some c!"c") (some c!"b") false);
    let info := fun (w : World) (n : Str) => ((layerOf asciiCasing fractionCodec w n true).2.toOption).bind fun gs => (GlyphSet.readLayerInfo fractionCodec (gs, w.2) true).toOption;
    r.2 = .ok () ∧ info v c!"c" = some [] ∧ info r.1 c!"b" = some [(.str c!"color", .str c!"1,0,0,1")] := by decide +kernel

end Verif.Props
