import Verif.Proofs.UfoCopyDone
import Verif.Proofs.UfoSettled
/-! Saving a whole font: the result. -/
namespace Verif.Props
open Verif Verif.Ufo Verif.FS Verif.IO Verif.Spec.Ufo Verif.Spec.Plist Verif.Spec.Copy

/-- A UFO 3 whose files are as saving the font leaves them. -/
structure SettledUfo (E : FontInfo.Env) (G : Glif.Env) (font : Whole) (creator : PyVal) (g : FS) : Prop where
  metaFile : ∃ b, dumpBytes E.F (metaInfo creator 3) = .ok b ∧ g.node? [metainfoName] = some (.file b)
  content : ∀ op n, Saves font.content op → Concerns op n → n ∈ contentNames → g.node? [n] = (textOf E.F op).map .file
  layers : ∃ t b, readLayers E.F g 3 true = .ok t ∧ t.map Prod.fst = font.layers.map (·.name) ∧ dumpBytes E.F (layersVal t) = .ok b ∧ g.node? [layercontentsName] = some (.file b) ∧
    ∀ l ∈ font.layers, ∃ d gs, (l.name, d) ∈ t ∧ (l.default = true ↔ d = c!"glyphs") ∧ g.node? [d] = some .dir ∧ SavedIn G l g d gs

/-- The file of the layer contents. -/
theorem layerContents_file {F : FloatCodec} {w w' : World} (hv : w.1.version = 3) {order : Option (List (Option Str))} (hw : writeLayerContents F w order true = (w', .ok ())) :
    ∃ t b, orderedLayers w.1.layers (layerOrderOf w.1.layers order) = .ok t ∧ dumpBytes F (layersVal t) = .ok b ∧ w'.2.node? [layercontentsName] = some (.file b) := by
  unfold writeLayerContents at hw
  simp only [hv, show ¬ (3 : Int) < 3 by decide, if_false, Bool.true_and] at hw
  split at hw
  · cases hw
  · split at hw
    · cases hw
    · rename_i t ht
      simp only [Prod.mk.injEq] at hw
      obtain ⟨rfl, hw⟩ := hw
      obtain ⟨b, h1, h2⟩ := (writePlist_spec (F := F) (hp := w.1.havePrevious) (fs := w.2) (p := [layercontentsName]) (v := layersVal t) rfl).2.2 hw
      exact ⟨t, b, ht, h1, getbytes_ok.1 h2⟩

theorem table_unique {layers : Dict Str Str} : ∀ {t s : List (Str × Str)}, t.map Prod.fst = s.map Prod.fst → (∀ e ∈ t, Dict.get? layers e.1 = some e.2) →
    (∀ e ∈ s, Dict.get? layers e.1 = some e.2) → t = s
  | [], [], _, _, _ => rfl
  | [], _ :: _, h, _, _ => by cases h
  | _ :: _, [], h, _, _ => by cases h
  | x :: t, y :: s, h, ht, hs => by
    simp only [List.map_cons, List.cons.injEq] at h
    have hx := ht x (by simp)
    have hy := hs y (by simp)
    rw [h.1, hy] at hx
    injection hx with hx
    rw [table_unique h.2 (fun e he => ht e (by simp [he])) fun e he => hs e (by simp [he]), show x = y from Prod.ext h.1 hx.symm]

/-- A whole font that a reader delivers (content and every layer with its glyphs and layer info, from a UFO of any version) can be saved in an empty directory: the writer opens, whatever the order
in which a program makes the calls that save the parts, every one of them returns, the layer contents can be written at the end, and then a reader delivers the same font: the same content, and the
same layers in the same order with the same glyphs and the same layer info. -/
theorem copied (E : FontInfo.Env) (hF : E.F.Lawful) (G : Glif.Env) (hG : Spec.Glif.ReprLaws G) (hGE : G.F = E.F) (L : Casing) (hL : AsciiPrefix L) (hlaw : L.Lawful) (hC : Spec.GlyphSet.CaseLaws L.lower)
    (ord1 ord2 : List Str → List Str) (h1 : ∀ l, (ord1 l).Perm l) (h2 : ∀ l, (ord2 l).Perm l)
    (src : FS) (version : Int) (font : Whole) (hload : LoadsFont E G ord1 ord2 src version font)
    (hfit : font.content.Fits) (hlayers : ∀ l ∈ font.layers, l.Fits L.lower) (hfew : font.layers.length < 999999999999998)
    (fs : FS) (hcanon : ∀ a b, fs.canon a = fs.canon b → L.lower a = L.lower b) (hnodes : Dict.WF fs.nodes) (hempty : ∀ n p, fs.node? (n :: p) = none)
    (creator : PyVal) (hcr : Storable creator)
    (calls : List FontCall) (hs : SavesFont fs.canon L G font calls)
    (order : Option (List (Option Str))) (ho : order = none ∨ order = some (font.layers.map fun l => some l.name)) :
    ∃ fs' w, openWriter E.F false fs 3 creator true = (fs', .ok w) ∧
      FontReturns E L font { writer := w, fs := fs', sets := [] } calls ∧
      ∃ saved, (Font.run E L { writer := w, fs := fs', sets := [] } calls).step E L (.ufo (.layerContents order true)) = (saved, .ok ()) ∧
        (∃ font', LoadsFont E G ord1 ord2 saved.fs 3 font' ∧ font.Agree font') ∧ SettledUfo E G font creator saved.fs := by
  obtain ⟨hok, hnames, hdef⟩ := source_layers hGE hload hlayers hfew
  obtain ⟨fs', h⟩ := opens_new hF hempty hcr
  refine ⟨fs', _, h, ?_⟩
  have hk := keepsApart_of hL hcanon
  have hp0 := progress_new hL E hcanon hnodes hempty h font.layers
  generalize ({ version := 3, layers := [], havePrevious := false, validate := true, renameMap := none } : Writer) = w at h hp0 ⊢
  generalize hf0 : ({ writer := w, fs := fs', sets := [] } : Font) = f0 at hp0 ⊢
  have hw0 : f0.world = (w, fs') := by rw [← hf0]; rfl
  have hfol : Follows fs.canon font.layers 0 calls := follows_of hL hcanon hs calls [] rfl
  have hgets : gets calls = font.layers.length := by unfold gets; rw [hs.gets, List.length_map]
  obtain ⟨hp1, -⟩ := progress_run hL hlaw E hok calls hp0 (Nat.zero_le _) hfol
  rw [Nat.zero_add, hgets] at hp1
  have hkeys : Dict.keys (f0.run E L calls).writer.layers = font.layers.map (·.name) := by rw [hp1.keys, List.take_of_length_le (by simp)]
  have hord : layerOrderOf (f0.run E L calls).writer.layers order = Dict.keys (f0.run E L calls).writer.layers := by
    rcases ho with rfl | rfl
    · rfl
    · rw [hkeys]; simp [layerOrderOf, Function.comp_def]
  -- each layer
  have hlayer : ∀ (i : Nat) (l : Layer), font.layers[i]? = some l → (∀ x ∈ f0.outcomes E L i calls, x = .ok ()) ∧ ∃ d gs,
      OwnsLayer (f0.run E L calls) i l.name d ∧ SavedIn G l (f0.run E L calls).fs d gs ∧ (l.default = true ↔ d = c!"glyphs") ∧ FileText d := by
    intro i l hl
    have hi : i < font.layers.length := (List.getElem?_eq_some_iff.1 hl).1
    obtain ⟨hnd, gs0, hl1, hl2⟩ := loaded_nodup (hload.layers l (List.mem_of_getElem? hl))
    obtain ⟨a1, d, gs, a2, a3⟩ := layer_run hL hlaw E hok hC hG hGE hl hnd hl1 (hlayers l (List.mem_of_getElem? hl)) hl2 calls hp0 (Nat.zero_le _) hfol (Nat.zero_le _)
      (by rw [hgets]; omega) (by rw [hs.sets, hl]; rfl)
    obtain ⟨d', b1, b2, b3⟩ := hp1.owns i l hi hl
    have := b1.layer.symm.trans a2.layer
    injection this with this
    subst this
    exact ⟨a1, d', gs, a2, a3, b2, b3⟩
  have hwl : ∀ n d, Dict.get? (f0.run E L calls).writer.layers n = some d → ∃ (i : Nat) (l : Layer) (gs : GlyphSet.GlyphSet), font.layers[i]? = some l ∧ l.name = n ∧
      OwnsLayer (f0.run E L calls) i l.name d ∧ SavedIn G l (f0.run E L calls).fs d gs ∧ (l.default = true ↔ d = c!"glyphs") ∧ FileText d := by
    intro n d hd
    have : n ∈ font.layers.map (·.name) := by rw [← hkeys]; exact Dict.mem_keys_of_mem (Dict.mem_of_get? hd)
    obtain ⟨l, hl, rfl⟩ := List.mem_map.1 this
    obtain ⟨i, hi⟩ := List.getElem?_of_mem hl
    obtain ⟨-, d', gs, a1, a2, a3, a4⟩ := hlayer i l hi
    have := a1.layer.symm.trans hd
    injection this with this
    subst this
    exact ⟨i, l, gs, hi, rfl, a1, a2, a3, a4⟩
  -- the calls as calls on the writer
  have hops : ∀ op ∈ f0.asOps E L calls, Saves font.content op ∨ Bystander fs.canon op ∧ Spares fs.canon layercontentsName op := by
    intro op hop
    rcases asOps_mem hL hlaw E hok calls hp0 (Nat.zero_le _) hfol op hop with h | h
    · exact (hs.others op h).imp id fun h => ⟨h.1, h.2.1⟩
    · exact .inr ⟨fun n hn => h n (by revert hn; revert n; decide), h _ (by decide)⟩
  have hlc : ∀ n ∈ c!"metainfo.plist" :: contentNames, Spares fs.canon n (.layerContents order true) := by
    intro n hn x hx e
    cases hx
    have := hk.names _ (by decide) n (by clear e; revert hn; revert n; decide) e
    subst this
    revert hn; decide
  have hsaved : ∀ op ∈ f0.asOps E L calls ++ [.layerContents order true], Saves font.content op ∨ Bystander fs.canon op := by
    intro op hop
    rcases List.mem_append.1 hop with h | h
    · exact (hops op h).imp id And.left
    · rw [List.mem_singleton.1 h]; exact .inr hlc
  obtain ⟨hA, hB⟩ := C79_saved_partial E hF L ord1 ord2 h1 h2 src version hload.metaInfo font.content hload.content hfit false fs fs' creator hcr w h hk
    (fun n _ => by rw [hempty]; exact nofun) (.inr fun n _ => hempty n []) (f0.asOps E L calls ++ [.layerContents order true]) hsaved
  have h0 := saving_open h hk (fun n _ => by rw [hempty]; exact nofun) (.inr fun n _ => hempty n []) font.content
  have hsv := savable_of h1 h2 (by
    have := (readMetaInfo_true hload.metaInfo).1
    simp only [supported, Bool.or_eq_true, beq_iff_eq] at this
    omega) hload.content hfit
  have hpos : ∀ pre op post, calls = pre ++ .ufo op :: post → ∃ rest, f0.asOps E L calls = f0.asOps E L pre ++ op :: rest := by
    rintro pre op post rfl
    rw [asOps_append]
    exact ⟨_, rfl⟩
  refine ⟨?_, ?_⟩
  · -- every call returns
    rintro pre c post rfl hc
    obtain ⟨hf1, hf2⟩ := follows_append pre (c :: post) hfol
    obtain ⟨hq, hq'⟩ := progress_run hL hlaw E hok pre hp0 (Nat.zero_le _) hf1
    cases c with
    | getGlyphSet n b v =>
      obtain ⟨-, -, -, -, -, hr, -⟩ := progress_step hL hlaw E hok hq hq' hf2
      exact hr nofun nofun
    | set i s =>
      have hi := hf2.1
      obtain ⟨l, hl⟩ : ∃ l, font.layers[i]? = some l := ⟨font.layers[i], List.getElem?_eq_getElem (by omega)⟩
      exact outcome_at E L i pre (hlayer i l hl).1
    | ufo op =>
      obtain ⟨rest, hr⟩ := hpos pre op post rfl
      have := hA (f0.asOps E L pre) op (rest ++ [.layerContents order true]) (by rw [hr]; simp) (hc op rfl)
      rw [← hw0, ← font_run_world] at this
      exact this
  · -- the layer contents
    have hnode : (f0.run E L calls).world.2.node? [layercontentsName] = none := by
      have hlay : Layered f0.world.1 := hp0.orderly.sound.layered
      rw [font_run_world, run_node? E L f0.world hlay _ (fun op hop => ?_) [], hw0]
      · obtain ⟨-, hn, -⟩ := writePlist_spec (openWriter_ok h).2.2.1
        rw [hn, hempty]
        intro e
        simp only [FS.key, List.map_cons, List.map_nil, List.cons.injEq, and_true] at e
        exact absurd (hk.names layercontentsName (by decide) metainfoName (by decide) e) (by decide)
      · have : f0.world.2.canon = fs.canon := hp0.canon_eq
        rw [this]
        rcases hops op hop with h | h
        · exact saves_spares hk h (by decide) fun hx => by cases h <;> cases hx
        · exact h.2
    obtain ⟨w', hwr⟩ := layerContents_written hF (w := (f0.run E L calls).world) hp1.version hord
      (fun n d hd => by obtain ⟨i, l, gs, b1, rfl, -, -, -, b2⟩ := hwl n d hd; exact ⟨hok.text l (List.mem_of_getElem? b1), b2⟩) (by rw [hnode]; exact nofun)
    have hstep : step E L (f0.run E L calls).world (.layerContents order true) = (w', .ok ()) := hwr
    refine ⟨{ f0.run E L calls with writer := w'.1, fs := w'.2 }, ?_, ?_⟩
    · show (({ f0.run E L calls with writer := (step E L (f0.run E L calls).world (.layerContents order true)).1.1, fs := (step E L (f0.run E L calls).world (.layerContents order true)).1.2 } : Font),
        (step E L (f0.run E L calls).world (.layerContents order true)).2) = _
      rw [hstep]
    · show (∃ font', LoadsFont E G ord1 ord2 w'.2 3 font' ∧ _) ∧ SettledUfo E G font creator w'.2
      have hrun : (run E L (w, fs') (f0.asOps E L calls ++ [.layerContents order true])).2 = w'.2 := by
        rw [run_append, ← hw0, ← font_run_world]
        show (step E L (f0.run E L calls).world (.layerContents order true)).1.2 = _
        rw [hstep]
      obtain ⟨hm, c', hc1, hc2⟩ := hB fun op hop => by
        obtain ⟨pre, post, hpp⟩ := List.append_of_mem (hs.all op hop)
        obtain ⟨rest, hr⟩ := hpos pre op post hpp
        rw [hr]; simp
      rw [hrun] at hm hc1
      have hcan : (f0.run E L calls).fs.canon = fs.canon := hp1.canon_eq
      have hapart : ∀ d, GlyphsDir d → (f0.run E L calls).fs.canon d ≠ (f0.run E L calls).fs.canon layercontentsName := by
        rw [hcan]; exact hk.dirs _ (by decide)
      obtain ⟨-, -, hsame⟩ := writeLayerContents_all hp1.version hwr
      have hsame' : ∀ d p, GlyphsDir d → w'.2.node? (d :: p) = (f0.run E L calls).fs.node? (d :: p) := by
        intro d p hd
        refine hsame _ fun e => ?_
        simp only [FS.key, List.map_cons, List.map_nil, List.cons.injEq] at e
        exact hapart d hd e.1
      obtain ⟨t, ht1, ht2, ht3⟩ := written_layers hF hp1.orderly.good hp1.version hwr (by show (layerOrderOf (f0.run E L calls).writer.layers order).Nodup; rw [hord, hkeys]; exact hok.nodup)
        (by
          obtain ⟨l, hl, hd⟩ := hdef
          obtain ⟨i, hi⟩ := List.getElem?_of_mem hl
          obtain ⟨-, d, gs, a1, -, a3, -⟩ := hlayer i l hi
          exact ⟨l.name, (a3.1 hd) ▸ a1.layer⟩) hapart
        (fun n d hd => by
          obtain ⟨i, l, gs, b1, rfl, -, -, b3, b2⟩ := hwl n d hd
          have hmem := List.mem_of_getElem? b1
          exact ⟨(hnames l hmem).1, hok.text l hmem, b2, fun hpd => b3.1 ((hnames l hmem).2 hpd)⟩)
      have hsav : ∀ l ∈ font.layers, ∃ d gs, (l.name, d) ∈ t ∧ (l.default = true ↔ d = c!"glyphs") ∧ w'.2.node? [d] = some .dir ∧ SavedIn G l w'.2 d gs := by
        intro l hl
        obtain ⟨i, hi⟩ := List.getElem?_of_mem hl
        obtain ⟨-, d, gs, a1, a2, a3, -⟩ := hlayer i l hi
        have hd := hp1.orderly.sound.layered.dirs _ _ a1.layer
        have hmem : (l.name, d) ∈ t := by
          have : l.name ∈ t.map Prod.fst := by
            rw [ht2]
            show l.name ∈ layerOrderOf (f0.run E L calls).writer.layers order
            rw [hord, hkeys]; exact List.mem_map_of_mem hl
          obtain ⟨e, he, hel⟩ := List.mem_map.1 this
          have h3 := ht3 e he
          rw [hel] at h3
          have := a1.layer.symm.trans h3
          injection this with this
          rw [← hel, this]
          exact he
        exact ⟨d, gs, hmem, a3, by rw [hsame' d [] hd]; exact a1.dir, a2.congr fun p => hsame' d p hd⟩
      obtain ⟨m, hmm⟩ := FontInfo.forall₂_exists (R := fun l l' : Layer => l.Agree l' ∧ LoadsLayer G w'.2 3 l') font.layers fun l hl => by
        obtain ⟨d, gs, b1, b2, b3, b4⟩ := hsav l hl
        exact loads_layer (by rw [hGE]; exact ht1) (loaded_nodup (hload.layers l hl)).1 b1 b2 b3 b4
      have hmn : m.map (·.name) = font.layers.map (·.name) := by
        generalize font.layers = a at hmm
        clear * - hmm
        induction hmm with
        | nil => rfl
        | cons h _ ih => rw [List.map_cons, List.map_cons, ih, h.1.name]
      have hnames3 : t.map Prod.fst = font.layers.map (·.name) := by
        rw [ht2]
        show layerOrderOf (f0.run E L calls).writer.layers order = _
        rw [hord, hkeys]
      refine ⟨⟨⟨c', m⟩, ⟨hm, hc1, ?_, fun l hl => ?_⟩, hc2, hmm.imp fun _ _ h => h.1⟩, ?_, fun op n hop hcn hn => ?_, ?_⟩
      · unfold getLayerNames
        rw [ht1]
        show Except.ok (t.map Prod.fst) = Except.ok (m.map (·.name))
        rw [hmn, hnames3]
      · obtain ⟨-, -, -, h⟩ := FontInfo.forall₂_right hmm hl
        exact h
      · obtain ⟨-, -, h3⟩ := writePlist_spec (openWriter_ok h).2.2.1
        obtain ⟨b, b1, b2⟩ := h3 rfl
        refine ⟨b, b1, ?_⟩
        rw [← hrun, run_node? E L (w, fs') h0.layered _ (fun op hop => ?_) []]
        · exact getbytes_ok.1 b2
        · rw [h0.canon]
          rcases hsaved op hop with h | h
          · refine saves_spares hk h (by decide) fun hx => ?_
            cases h <;> cases hx
          · exact h _ (by simp [metainfoName])
      · rw [← hrun]
        refine content_files hF L hsv hk h0 hsaved hop ?_ hn hcn
        obtain ⟨pre, post, hpp⟩ := List.append_of_mem (hs.all op hop)
        obtain ⟨rest, hr⟩ := hpos pre op post hpp
        rw [hr]; simp
      · obtain ⟨t', b, b1, b2, b3⟩ := layerContents_file hp1.version hwr
        obtain ⟨b4, b5⟩ := orderedLayers_ok b1
        have : t' = t := table_unique (b4.trans ht2.symm) b5 ht3
        subst this
        exact ⟨t', b, ht1, hnames3, b2, b3, hsav⟩

end Verif.Props
