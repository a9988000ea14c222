import Verif.Spec.UfoSettled
import Verif.Proofs.UfoCopied
import Verif.Proofs.UfoRelax
import Mathlib.Tactic.ByContra
/-! Saving in place what a saved UFO delivers. -/
namespace Verif.Props
open Verif Verif.Ufo Verif.FS Verif.IO Verif.Kerning Verif.Spec.Ufo Verif.Spec.Plist Verif.Spec.Copy

/-! ### the content -/

mutual
theorem fits_same {v w : PyVal} (h : Spec.Plist.Same v w) (hv : Fits v) : Fits w := by
  match h with
  | .refl _ => exact hv
  | .list a b h => exact fitsList_same h hv
  | .tuple a b h => exact fitsList_same h hv
  | .dict a b h => exact fitsItems_same h hv
theorem fitsList_same {a b : List PyVal} (h : SameList a b) (hv : FitsList a) : FitsList b := by
  match h with
  | .nil => trivial
  | .cons v w a b h h' => exact ⟨fits_same h hv.1, fitsList_same h' hv.2⟩
theorem fitsItems_same {a b : List (PyVal × PyVal)} (h : SameItems a b) (hv : FitsItems a) : FitsItems b := by
  match h with
  | .nil => trivial
  | .cons k v w a b h h' => exact ⟨hv.1, fits_same h hv.2.1, fitsItems_same h' hv.2.2⟩
  | .swap x y a => exact ⟨hv.2.2.1, hv.2.2.2.1, hv.1, hv.2.1, hv.2.2.2.2⟩
  | .trans a b c h h' => exact fitsItems_same h' (fitsItems_same h hv)
end

theorem groupsVal_inj {a b : Dict Str (List Str)} (h : groupsVal a = groupsVal b) : a = b := by
  unfold groupsVal at h
  injection h with h
  refine List.map_injective_iff.2 ?_ h
  rintro ⟨n, m⟩ ⟨n', m'⟩ he
  simp only [Prod.mk.injEq, PyVal.str.injEq, PyVal.list.injEq] at he
  rw [he.1, List.map_injective_iff.2 (fun x y h => by injection h) he.2]

theorem loads_unique {E : FontInfo.Env} {o1 o2 o3 o4 : List Str → List Str} {fs : FS} {c d : Content} (h : Loads E o1 o2 fs 3 c) (h' : Loads E o3 o4 fs 3 d) : d = c := by
  obtain ⟨i, g, k, l, f⟩ := c
  obtain ⟨i', g', k', l', f'⟩ := d
  have e1 : i' = i := by have := h.info.symm.trans h'.info; injection this with this; exact this.symm
  have e2 : l' = l := by have := h.lib.symm.trans h'.lib; injection this with this; exact this.symm
  have e3 : f' = f := by have := h.features.symm.trans h'.features; injection this with this; exact this.symm
  have e4 : g' = g := by have := (h.new rfl).1.symm.trans (h'.new rfl).1; injection this with this; exact (groupsVal_inj this).symm
  have e5 : k' = k := by have := (h.new rfl).2.symm.trans (h'.new rfl).2; injection this with this; exact this.symm
  rw [e1, e2, e3, e4, e5]

theorem info_wf {E : FontInfo.Env} {fs : FS} {r : Dict Str PyVal} (h : Ufo.readInfo E fs 3 true = .ok r) : Dict.WF r := by
  unfold Ufo.readInfo at h
  split at h
  · cases h
  · split at h
    · cases h
    · obtain ⟨rfl, -⟩ := FontInfo.readInfo3_ok.1 (show FontInfo.readInfo E 3 true _ = _ from h)
      exact (FontInfo.keys_gather _ _).nodup FontInfo.wf_table3
  · cases h

theorem agree_fits {E : FontInfo.Env} {o1 o2 : List Str → List Str} {fs : FS} {c c' : Content} (hf : c.Fits) (h : Loads E o1 o2 fs 3 c') (ha : c.Agree c') : c'.Fits := by
  refine ⟨fun e he => ?_, fun e he => ?_, fun e he => ?_, fits_same ha.lib hf.lib⟩
  · have hr := ha.info e.1
    rw [Dict.get?_of_mem (info_wf h.info) he] at hr
    cases hx : Dict.get? c.info e.1 with
    | none => rw [hx] at hr; cases hr
    | some v =>
      rw [hx] at hr
      cases hr with
      | some hs => exact fits_same hs (hf.info _ (Dict.mem_of_get? hx))
  · have hr := Dict.get?_of_mem (new_groups (h.new rfl).1).1 he
    rw [ha.groups] at hr
    exact hf.groups _ (Dict.mem_of_get? hr)
  · have hr := Dict.get?_of_mem (new_kerning (h.new rfl).2).1 he
    rw [ha.kerning] at hr
    exact hf.kerning _ (Dict.mem_of_get? hr)

/-! ### a layer -/

theorem truthy_same {v w : PyVal} (h : Spec.Plist.Same v w) : truthy w = truthy v := by
  cases h with
  | refl _ => rfl
  | list a b h => cases h <;> rfl
  | tuple a b h => cases h <;> rfl
  | dict a b h =>
    have hlen := (FontInfo.sameItems_keys h).length_eq
    simp only [List.length_map] at hlen
    unfold truthy
    cases a <;> cases b <;> simp at hlen <;> rfl

open Spec.LayerInfo GlyphSet in
/-- The attributes of layer info that is the same are the same. -/
theorem same_gatherInfo {info : Str → Option PyVal} {d : List (PyVal × PyVal)} (h : SameInfo info d) (ht : ∀ attr v, info attr = some v → NoTuple v) :
    ∀ (attrs : List Str), (∀ a ∈ attrs, a ∈ [c!"color", c!"lib"]) → SameItems (gatherLayerInfo info attrs) (gatherLayerInfo (infoObject d) attrs)
  | [], _ => .nil
  | a :: attrs, ha => by
    have ih := same_gatherInfo h ht attrs fun x hx => ha x (by simp [hx])
    have hmem := ha a (by simp)
    have hnone : (¬ ∃ v, Spec.LayerInfo.Stores info a v) → infoObject d a = none := fun hn => h.none a hmem hn
    unfold gatherLayerInfo
    cases hi : info a with
    | none =>
      rw [hnone (by rintro ⟨v, hv, -⟩; rw [hi] at hv; cases hv)]
      exact ih
    | some v =>
      dsimp only
      by_cases hs : Spec.LayerInfo.Stores info a v
      · obtain ⟨x, hx, hsame⟩ := h.some a hmem v hs
        rw [Plist.untuple_noTuple v (ht a v hi)] at hsame
        rw [show infoObject d a = some x from hx]
        dsimp only
        rw [if_neg, if_neg]
        · exact .cons _ _ _ _ _ hsame ih
        · rintro (rfl | ⟨rfl, hf⟩)
          · exact hs.2.1 ((same_none_iff hsame).2 rfl)
          · rw [truthy_same hsame, hs.2.2 rfl] at hf; cases hf
        · rintro (rfl | ⟨rfl, hf⟩)
          · exact hs.2.1 rfl
          · rw [hs.2.2 rfl] at hf; cases hf
      · rw [hnone (by rintro ⟨u, hu⟩; exact hs (by have := hu.1; rw [hi] at this; cases this; exact hu))]
        dsimp only
        rw [if_pos]
        · exact ih
        · unfold Spec.LayerInfo.Stores at hs
          by_cases h1 : v = .none
          · exact .inl h1
          · refine .inr ?_
            by_contra h2
            refine hs ⟨hi, h1, fun ha => ?_⟩
            cases hv : truthy v with
            | true => rfl
            | false => exact absurd ⟨ha, hv⟩ h2

theorem info_valid {F : FloatCodec} {w : GlyphSet.World} {info : List (PyVal × PyVal)} (h : GlyphSet.readLayerInfo F w true = .ok info) :
    (∀ attr v, infoObject info attr = some v → NoTuple v) ∧ GlyphSet.validateLayerInfo F (GlyphSet.gatherLayerInfo (infoObject info) GlyphSet.layerInfoAttrs) = .ok () := by
  unfold GlyphSet.readLayerInfo at h
  split at h
  · cases h
  · rename_i d hd
    rw [if_pos rfl] at h
    cases hv : GlyphSet.validateLayerInfo F d with
    | error e => rw [hv] at h; cases h
    | ok u =>
      rw [hv] at h
      cases h
      obtain ⟨hr, -⟩ := Ufo.getPlist_readable hd
      have hr : Readable (.dict d) := hr.resolve_left (by simp)
      refine ⟨fun attr v hs => ?_, GlyphSet.validateLayerInfo_iff.2 fun e he => ?_⟩
      · exact (Plist.wellFormed_of _ ((Plist.readableItems_iff.1 hr.2) _ (Dict.mem_of_get? hs)).2).2
      · obtain ⟨attr, ha, hk, hs⟩ := GlyphSet.gather_mem.1 (show (e.1, e.2) ∈ _ from he)
        obtain ⟨a, h1, h2, h3⟩ := GlyphSet.validateLayerInfo_iff.1 hv _ (Dict.mem_of_get? hs.1)
        cases h2
        exact ⟨attr, ha, hk, h3⟩
  · cases h

/-- Layer info that was read from the directory is written without touching the file. -/
theorem info_again {F : FloatCodec} {src : GlyphSet.World} {info info' : List (PyVal × PyVal)} (h : GlyphSet.readLayerInfo F src true = .ok info) (hfit : ∀ e ∈ info, Fits e.2)
    {gs : GlyphSet.GlyphSet} {fs : FS} (h' : GlyphSet.readLayerInfo F (gs, fs) true = .ok info') (hs : Spec.LayerInfo.SameInfo (infoObject info) info')
    (hv : gs.version = 3) (hp : gs.havePrevious = true) (hf : InfoFile F fs (gs.dir ++ [GlyphSet.layerinfoName]) (infoObject info)) :
    GlyphSet.writeLayerInfo F (gs, fs) (infoObject info') true = ((gs, fs), .ok ()) := by
  obtain ⟨n1, -⟩ := info_valid h
  obtain ⟨-, n2⟩ := info_valid h'
  have hsame := same_gatherInfo hs n1 GlyphSet.layerInfoAttrs (by decide)
  have hst : Storable (.dict (GlyphSet.gatherLayerInfo (infoObject info) GlyphSet.layerInfoAttrs)) := GlyphSet.gather_storable (info_stored h hfit).1
  have hdump := same_dumpBytes F hst.2 (.dict _ _ hsame)
  have hlen := (FontInfo.sameItems_keys hsame).length_eq
  simp only [List.length_map] at hlen
  rw [GlyphSet.writeLayerInfo, if_neg (by dsimp only; omega), GlyphSet.storeLayerInfo]
  rcases hf with ⟨h1, h2⟩ | ⟨h1, b, h2, h3⟩
  · rw [h1] at hlen
    have : GlyphSet.gatherLayerInfo (infoObject info') GlyphSet.layerInfoAttrs = [] := List.length_eq_zero_iff.1 hlen.symm
    have hx : fs.exists (gs.dir ++ [GlyphSet.layerinfoName]) = false := by unfold FS.exists; rw [h2]; rfl
    simp [this, hx]
  · have hne : GlyphSet.gatherLayerInfo (infoObject info') GlyphSet.layerInfoAttrs ≠ [] := by
      intro e
      rw [e] at hlen
      exact h1 (List.length_eq_zero_iff.1 hlen)
    rw [if_pos (by simpa using hne), if_pos rfl, n2]
    dsimp only
    rw [hp, C56_plist F fs _ _ b (hdump.trans h2) (getbytes_ok.2 h3)]

open GlyphSet in
/-- What was loaded from a layer that was saved is saved without touching a file. -/
theorem layer_again {G : Glif.Env} (hG : Spec.Glif.ReprLaws G) (L : Casing) {src : GlyphSet.World} {l l' : Layer} (hload : LoadedFrom G src l.glyphs) (hfit : l.Fits L.lower)
    (hinfo : readLayerInfo G.F src true = .ok l.info) {fs : FS} {d : Str} {gs : GlyphSet} (hs : SavedIn G l fs d gs) (hload' : LoadedFrom G (gs, fs) l'.glyphs)
    (hinfo' : readLayerInfo G.F (gs, fs) true = .ok l'.info) {s : SetCall} (h : SavesLayer G l' s) (v : Bool) :
    setStep L G.F ({ gs with validateRead := v }, fs) s = (({ gs with validateRead := v }, fs), .ok ()) := by
  obtain ⟨hver, hprev, htexts, ⟨b, hb1, hb2⟩, hif⟩ := hs.settled
  cases h with
  | @glyph naming op hop =>
    obtain ⟨g, hg, rfl⟩ := List.mem_map.1 hop
    obtain ⟨k1, k2⟩ := writes_again (L := L) (E := G) (naming := naming) (w := ({ gs with validateRead := v }, fs)) hprev hver (glyphs := [g]) (fun g' hg' => by
      rw [List.mem_singleton.1 hg']
      obtain ⟨b, hb, hr⟩ := read_bytes (hload' g hg)
      have hmem : g.1 ∈ keys gs := by
        obtain ⟨f, hf, -⟩ := (expects_iff (s := .holds b)).1 hb
        exact Dict.mem_keys_of_mem (Dict.mem_of_get? hf)
      obtain ⟨g0, hg0, he⟩ := List.mem_map.1 ((hs.keys _).1 hmem)
      obtain ⟨b0, attrs, calls, l1, l2, l3, l4, l5⟩ := loaded_writes hG (hload g0 hg0) (hfit.glyphs g0 hg0) (hfit.names.nonempty _ (List.mem_map_of_mem hg0)) (hfit.texts g0 hg0)
      have hb0 : getGLIF (gs, fs) g0.1 = .ok b0 := by rw [← bytesOf_eq l1]; exact htexts g0 hg0
      rw [he, hb] at hb0
      injection hb0 with hb0
      subst hb0
      rw [show ((gs, fs) : GlyphSet.World).1.version = 3 from hver, if_neg (by omega), l2] at hr
      injection hr with hr
      refine ⟨b, hb, ?_⟩
      rw [← hr, ← he]
      exact l5)
    have h1 := k2 [] _ (List.prefix_refl _)
    exact Prod.ext k1 h1
  | table =>
    show writeContents G.F _ = _
    unfold writeContents
    dsimp only
    rw [hprev, C56_plist G.F fs _ _ b hb1 (getbytes_ok.2 hb2)]
  | info =>
    obtain ⟨x, hx1, hx2⟩ := hs.info
    rw [hinfo'] at hx1
    injection hx1 with hx1
    subst hx1
    exact info_again (gs := { gs with validateRead := v }) hinfo hfit.info hinfo' hx2 hver hprev hif

/-! ### the program -/

theorem dict_set_same {κ ν : Type} [DecidableEq κ] : ∀ {d : Dict κ ν} {k : κ} {v : ν}, Dict.get? d k = some v → Dict.set d k v = d
  | [], _, _, h => by cases h
  | (a, b) :: d, k, v, h => by
    rw [Dict.get?_cons] at h
    unfold Dict.set
    dsimp only at h ⊢
    split
    · rename_i e
      rw [if_pos e] at h
      injection h with h
      rw [e, h]
    · rename_i e
      rw [if_neg e] at h
      rw [dict_set_same h]

theorem dict_fill {t : List (Str × Str)} (h : (t.map Prod.fst).Nodup) : t.foldl (fun d e => Dict.set d e.1 e.2) [] = t := by
  have key : ∀ (t d : List (Str × Str)), (∀ x ∈ t, x.1 ∉ Dict.keys d) → (t.map Prod.fst).Nodup → t.foldl (fun d e => Dict.set d e.1 e.2) d = d ++ t := by
    intro t
    induction t with
    | nil => intro d _ _; simp
    | cons x t ih =>
      intro d hd hn
      have hx := hd x (by simp)
      obtain ⟨hn1, hn2⟩ := List.nodup_cons.1 (show (x.1 :: t.map Prod.fst).Nodup from hn)
      have hset : Dict.set d x.1 x.2 = d ++ [x] := by
        clear ih hd hn
        induction d with
        | nil => rfl
        | cons y d ih =>
          unfold Dict.set
          rw [if_neg (by rintro e; exact hx (by simp [Dict.keys, e]))]
          rw [ih fun h => hx (List.mem_cons_of_mem _ h)]
          rfl
      rw [List.foldl_cons, hset, ih, List.append_assoc, List.singleton_append]
      · intro z hz hmem
        simp only [Dict.keys, List.map_append, List.mem_append, List.map_cons, List.map_nil, List.mem_singleton] at hmem
        rcases hmem with hm | hm
        · exact hd z (by simp [hz]) hm
        · exact hn1 (hm ▸ List.mem_map_of_mem hz)
      · exact hn2
  simpa using key t [] (by simp [Dict.keys]) h

/-- The writer opens on the UFO and leaves metainfo.plist alone. -/
theorem settled_open {E : FontInfo.Env} {G : Glif.Env} {font : Whole} {creator : PyVal} {g : FS} (h : SettledUfo E G font creator g) (hm : readMetaInfo E.F g true = .ok 3)
    {t : List (Str × Str)} (ht : readLayers E.F g 3 true = .ok t) :
    openWriter E.F true g 3 creator true = (g, .ok { version := 3, layers := t, havePrevious := true, validate := true, renameMap := none }) := by
  obtain ⟨b, hb1, hb2⟩ := h.metaFile
  have ht' : readLayerTable E.F g true = .ok t := ht
  have hi : initialLayers E.F g (some 3) true = .ok t := by
    unfold initialLayers
    rw [if_pos (by decide), ht']
    dsimp only
    rw [dict_fill (source_table ht).1]
  unfold openWriter
  rw [if_neg (by decide), (readMetaInfo_true hm).2.1]
  simp only [Option.any_some, show ¬ (3 : Int) < 3 by decide, decide_false, Bool.false_eq_true, if_false, hi, C56_plist E.F g [metainfoName] _ b hb1 (getbytes_ok.2 hb2)]

/-! ### the calls -/

/-- The directory of a layer of the UFO. -/
structure LayerOf (G : Glif.Env) (L : Casing) (t : List (Str × Str)) (g : FS) (l : Layer) (d : Str) (gs : GlyphSet.GlyphSet) : Prop where
  mem : Dict.get? t l.name = some d
  default : l.default = true ↔ d = c!"glyphs"
  dir : g.node? [d] = some .dir
  opened : ∀ v, GlyphSet.openGlyphSet G.F g [d] 3 v = .ok { gs with validateRead := v }
  calls : ∀ s v, SavesLayer G l s → GlyphSet.setStep L G.F ({ gs with validateRead := v }, g) s = (({ gs with validateRead := v }, g), .ok ())

theorem opened_any {F : FloatCodec} {fs : FS} {dir : Path} {gs : GlyphSet.GlyphSet} (h : GlyphSet.openGlyphSet F fs dir 3 true = .ok gs) (v : Bool) :
    GlyphSet.openGlyphSet F fs dir 3 v = .ok { gs with validateRead := v } := by
  cases v with
  | false => exact openGlyphSet_relax F fs dir 3 true h
  | true =>
    rw [h]
    unfold GlyphSet.openGlyphSet at h
    rw [if_pos (by decide)] at h
    unfold GlyphSet.rebuildContents at h
    split at h
    · cases h
    · split at h
      · cases h
      · cases h; rfl

theorem layer_of {E : FontInfo.Env} {G : Glif.Env} (hG : Spec.Glif.ReprLaws G) (hGE : G.F = E.F) (L : Casing) {o1 o2 : List Str → List Str} {src : FS} {version : Int} {font : Whole}
    (hload : LoadsFont E G o1 o2 src version font) (hlayers : ∀ l ∈ font.layers, l.Fits L.lower) {g : FS} {t : List (Str × Str)} (ht : readLayers E.F g 3 true = .ok t)
    (hnames : t.map Prod.fst = font.layers.map (·.name))
    (hsaved : ∀ l ∈ font.layers, ∃ d gs, (l.name, d) ∈ t ∧ (l.default = true ↔ d = c!"glyphs") ∧ g.node? [d] = some .dir ∧ SavedIn G l g d gs)
    {l' : Layer} (hl' : LoadsLayer G g 3 l') (hmem : l'.name ∈ t.map Prod.fst) : ∃ d gs, LayerOf G L t g l' d gs := by
  rw [hnames] at hmem
  obtain ⟨l, hl, hn⟩ := List.mem_map.1 hmem
  obtain ⟨d, gs, h1, h2, h3, h4⟩ := hsaved l hl
  rw [hn] at h1
  obtain ⟨gs', k1, k2, k3, k4⟩ := hl'.glyphs
  have hf : t.find? (fun e => decide (e.1 = l'.name)) = some (l'.name, d) := by
    cases hf : t.find? (fun e => decide (e.1 = l'.name)) with
    | none => exact absurd (List.find?_eq_none.1 hf _ h1) (by simp)
    | some y =>
      have hy0 := List.find?_some hf
      have hy : y.1 = l'.name := of_decide_eq_true hy0
      rw [List.inj_on_of_nodup_map (source_table ht).1 (List.mem_of_find?_eq_some hf) h1 hy]
  have : gs' = gs := by
    unfold readerGlyphSet at k1
    simp only [resolveLayer, hGE, ht, hf, h3] at k1
    have := h4.opened
    rw [hGE] at this
    rw [show (3 : Int).toNat = 3 from rfl, this] at k1
    injection k1 with k1
    exact k1.symm
  subst this
  obtain ⟨-, sg, m1, m2⟩ := loaded_nodup (hload.layers l hl)
  refine ⟨d, gs', Dict.get?_of_mem (source_table ht).1 h1, ?_, h3, opened_any h4.opened, fun s v hs => ?_⟩
  · rw [hl'.default, hGE]
    exact default_iff ht h1
  · exact layer_again hG L m1 (hlayers l hl) m2 h4 k3 k4 hs v

/-- What holds while a program saves the font in place. -/
structure Resaving (G : Glif.Env) (L : Casing) (t : List (Str × Str)) (g : FS) (font : Whole) (done : List FontCall) (f : Font) : Prop where
  writer : f.writer = { version := 3, layers := t, havePrevious := true, validate := true, renameMap := none }
  fs : f.fs = g
  length : f.sets.length = (done.filterMap getCall).length
  sets : ∀ (i : Nat), ∀ l ∈ font.layers, (done.filterMap getCall)[i]? = some (some l.name, l.default) → ∃ d gs v, LayerOf G L t g l d gs ∧ f.sets[i]? = some { gs with validateRead := v }

theorem resaving_get {E : FontInfo.Env} {G : Glif.Env} (hGE : G.F = E.F) {L : Casing} {t : List (Str × Str)} (htn : (t.map Prod.fst).Nodup) (htd : (t.map Prod.snd).Nodup) {g : FS} {font : Whole}
    (hof : ∀ l ∈ font.layers, ∃ d gs, LayerOf G L t g l d gs) {done : List FontCall} {f : Font} (h : Resaving G L t g font done f) {l : Layer} (hl : l ∈ font.layers) (v : Bool) :
    ∃ f', f.step E L (.getGlyphSet (some l.name) l.default v) = (f', .ok ()) ∧ Resaving G L t g font (done ++ [.getGlyphSet (some l.name) l.default v]) f' := by
  obtain ⟨d, gs, h1, h2, h3, h4, h5⟩ := hof l hl
  have hc : (l.default && defaultConflict t l.name) = false := by
    cases hd : l.default with
    | false => rfl
    | true =>
      have hdg := h2.1 hd
      rw [Bool.true_and]
      unfold defaultConflict
      rw [List.any_eq_false]
      intro e he
      by_cases hg : e.2 = glyphsName
      · rw [if_pos hg]
        have : e = (l.name, d) := List.inj_on_of_nodup_map htd he (Dict.mem_of_get? h1) (hg.trans hdg.symm)
        rw [this]; simp
      · rw [if_neg hg]
        rw [decide_eq_true_eq]
        rintro hx
        have : e = (l.name, d) := List.inj_on_of_nodup_map htn he (Dict.mem_of_get? h1) hx
        rw [this] at hg
        exact hg hdg
  have hget : Ufo.getGlyphSet L E.F f.world (some l.name) l.default v = (f.world, .ok { gs with validateRead := v }) := by
    unfold Ufo.getGlyphSet Font.world
    rw [h.writer, h.fs]
    rw [if_neg (by simp), if_neg (by simp), if_neg (by simp)]
    unfold getGlyphSet3 layerDirectory
    simp only [Option.getD_some, hc, h1, Bool.false_eq_true, if_false, FS.makedir, h3, dict_set_same h1]
    rw [← hGE, h4 v]
  refine ⟨{ f with sets := f.sets ++ [{ gs with validateRead := v }] }, ?_, h.writer, h.fs, ?_, ?_⟩
  · show f.getGlyphSet E L _ _ _ = _
    unfold Font.getGlyphSet
    rw [hget]
    rfl
  · simp [List.filterMap_append, getCall, h.length]
  · intro i l' hl' hi
    simp only [List.filterMap_append, List.filterMap_cons, getCall, List.filterMap_nil] at hi
    by_cases hlt : i < (done.filterMap getCall).length
    · rw [List.getElem?_append_left hlt] at hi
      obtain ⟨d', gs', v', k1, k2⟩ := h.sets i l' hl' hi
      exact ⟨d', gs', v', k1, by rw [List.getElem?_append_left (by rw [h.length]; exact hlt)]; exact k2⟩
    · rw [List.getElem?_append_right (by omega)] at hi
      obtain ⟨d', gs', k⟩ := hof l' hl'
      cases hx : i - (done.filterMap getCall).length with
      | succ n => rw [hx] at hi; simp at hi
      | zero =>
        rw [hx] at hi
        simp only [List.getElem?_cons_zero, Option.some.injEq, Prod.mk.injEq] at hi
        have hd : d' = d := by
          have := k.mem
          rw [← hi.1, h1] at this
          injection this with this
          exact this.symm
        subst hd
        refine ⟨d', gs', v, k, ?_⟩
        rw [List.getElem?_append_right (by rw [h.length]; omega), h.length, hx]
        have e := (k.opened v).symm.trans (h4 v)
        injection e with e
        rw [e]; rfl

theorem set_same {α : Type} : ∀ {l : List α} {i : Nat} {x : α}, l[i]? = some x → l.set i x = l
  | [], _, _, h => by cases h
  | a :: l, 0, x, h => by
    injection h with h
    rw [h]; rfl
  | a :: l, i + 1, x, h => by
    rw [List.set_cons_succ, set_same (by simpa using h)]

theorem resaving_set {E : FontInfo.Env} {G : Glif.Env} (hGE : G.F = E.F) {L : Casing} {t : List (Str × Str)} {g : FS} {font : Whole}
    {done : List FontCall} {f : Font} (h : Resaving G L t g font done f) {l : Layer} (hl : l ∈ font.layers) {i : Nat} {s : GlyphSet.SetCall}
    (hi : (done.filterMap getCall)[i]? = some (some l.name, l.default)) (hs : SavesLayer G l s) : f.step E L (.set i s) = (f, .ok ()) := by
  obtain ⟨d, gs, v, k1, k2⟩ := h.sets i l hl hi
  show f.callSet E L i s = _
  unfold Font.callSet
  rw [k2, ← hGE, h.fs]
  dsimp only
  rw [k1.calls s v hs]
  dsimp only
  rw [set_same k2, ← h.fs]

/-- Writing the layer contents again. -/
theorem layerContents_again {F : FloatCodec} {t : List (Str × Str)} (htn : (t.map Prod.fst).Nodup) {g : FS} {b : Bytes} (hb : dumpBytes F (layersVal t) = .ok b)
    (hn : g.node? [layercontentsName] = some (.file b)) {w : World} (hw : w = ({ version := 3, layers := t, havePrevious := true, validate := true, renameMap := none }, g))
    {order : Option (List (Option Str))} (ho : order = none ∨ order = some ((t.map Prod.fst).map some)) : writeLayerContents F w order true = (w, .ok ()) := by
  subst hw
  have hord : layerOrderOf t order = Dict.keys t := by
    rcases ho with rfl | rfl
    · rfl
    · simp [layerOrderOf, Function.comp_def, Dict.keys]
  obtain ⟨s, hs⟩ := orderedLayers_total (layers := t) (order := Dict.keys t) fun n hn => hn
  obtain ⟨s1, s2⟩ := orderedLayers_ok hs
  have : s = t := table_unique s1 s2 fun e he => Dict.get?_of_mem htn he
  subst this
  have hall : ((Dict.keys s).all (fun n => Dict.has s n) && (Dict.keys s).all fun n => decide (n ∈ Dict.keys s)) = true := by
    rw [Bool.and_eq_true]
    refine ⟨List.all_eq_true.2 fun n hn => Dict.has_iff.2 hn, List.all_eq_true.2 fun n hn => by simpa using hn⟩
  unfold writeLayerContents
  dsimp only
  rw [hord, hs, hall]
  simp only [show ¬ (3 : Int) < 3 by decide, if_false, Bool.not_true, Bool.and_false, Bool.false_eq_true]
  rw [C56_plist F g _ _ b hb (getbytes_ok.2 hn)]

theorem concerns_any {c : Content} {op : Op} (h : Saves c op) : ∃ n ∈ contentNames, Concerns op n := by
  cases h
  · exact ⟨c!"fontinfo.plist", by decide, .info⟩
  · exact ⟨c!"groups.plist", by decide, .groups⟩
  · exact ⟨c!"kerning.plist", by decide, .kerning⟩
  · exact ⟨c!"lib.plist", by decide, .lib⟩
  · exact ⟨c!"features.fea", by decide, .features⟩

/-- Saving in place the font that a settled UFO delivers. -/
theorem resaved {E : FontInfo.Env} (hF : E.F.Lawful) {G : Glif.Env} (hG : Spec.Glif.ReprLaws G) (hGE : G.F = E.F) (L : Casing) {o1 o2 : List Str → List Str}
    (h1 : ∀ l, (o1 l).Perm l) (h2 : ∀ l, (o2 l).Perm l) {src : FS} {version : Int} {font : Whole}
    (hload : LoadsFont E G o1 o2 src version font) (hfit : font.content.Fits) (hlayers : ∀ l ∈ font.layers, l.Fits L.lower) {creator : PyVal} {g : FS} (hset : SettledUfo E G font creator g)
    {font1 : Whole} (hload1 : LoadsFont E G o1 o2 g 3 font1) (hagree : font.Agree font1)
    {o3 o4 : List Str → List Str} {font' : Whole} (hload' : LoadsFont E G o3 o4 g 3 font') :
    ∃ w, openWriter E.F true g 3 creator true = (g, .ok w) ∧ ∀ again, Resaves G font' again → ∀ pre c post, again = pre ++ c :: post →
      ∃ f', (Font.run E L { writer := w, fs := g, sets := [] } pre).step E L c = (f', .ok ()) ∧ f'.fs = g := by
  obtain ⟨t, b, t1, t2, t3, t4, t5⟩ := hset.layers
  obtain ⟨htn, htd, -⟩ := source_table t1
  refine ⟨_, settled_open hset hload1.metaInfo t1, fun again hag => ?_⟩
  have hcont : font'.content = font1.content := loads_unique hload1.content hload'.content
  have hver : version ≤ 3 := by
    have := (readMetaInfo_true hload.metaInfo).1
    simp only [supported, Bool.or_eq_true, beq_iff_eq] at this
    omega
  have hs0 : Savable E font.content := savable_of h1 h2 hver hload.content hfit
  have hs1 : Savable E font1.content := savable_of h1 h2 (by omega) hload1.content (agree_fits hfit hload1.content hagree.content)
  have hnames : t.map Prod.fst = font'.layers.map (·.name) := by
    have := hload'.names
    unfold getLayerNames at this
    rw [t1] at this
    injection this
  have hof : ∀ l ∈ font'.layers, ∃ d gs, LayerOf G L t g l d gs := fun l hl =>
    layer_of hG hGE L hload hlayers t1 t2 t5 (hload'.layers l hl) (by rw [hnames]; exact List.mem_map_of_mem hl)
  have step : ∀ done c post f, again = done ++ c :: post → Resaving G L t g font' done f → ∃ f', f.step E L c = (f', .ok ()) ∧ Resaving G L t g font' (done ++ [c]) f' := by
    intro done c post f he h
    cases c with
    | getGlyphSet n bb v =>
      obtain ⟨l, hl, rfl, rfl⟩ := hag.gets n bb (by rw [he]; simp [List.filterMap_append, getCall])
      exact resaving_get hGE htn htd hof h hl v
    | set i s =>
      obtain ⟨l, hl, hi, hs⟩ := hag.sets done i s post he
      have hnil : (done ++ [FontCall.set i s]).filterMap getCall = done.filterMap getCall := by simp [List.filterMap_append, List.filterMap_cons_none, getCall]
      refine ⟨f, resaving_set hGE h hl hi hs, h.writer, h.fs, ?_, ?_⟩
      · rw [hnil]; exact h.length
      · rw [hnil]; exact h.sets
    | ufo op =>
      have key : Ufo.step E L f.world op = (f.world, .ok ()) := by
        rcases hag.others op (by rw [he]; simp) with hop | ⟨order, ho, rfl⟩
        · rw [hcont] at hop
          obtain ⟨op0, k1, k2, k3⟩ := agree_files hs0 hs1 hagree.content hop
          obtain ⟨n, hn, hcn⟩ := concerns_any hop
          have hnode := hset.content op0 n k1 (k3 n hcn) hn
          rw [← k2] at hnode
          obtain ⟨m1, m2⟩ := saves_leaves hF L hs1 (w := f.world) (by show f.writer.version = 3; rw [h.writer]) hop hcn (by
            show f.fs.node? [n] ≠ _
            rw [h.fs, hnode]
            cases textOf E.F op <;> simp)
          have m3 := m2.again (by show f.writer.havePrevious = true; rw [h.writer]) (by show f.fs.node? [n] = _; rw [h.fs, hnode])
          obtain ⟨m4, m5⟩ := Prod.mk.inj m3
          exact Prod.ext (Prod.ext m1 m4) m5
        · refine layerContents_again htn t3 t4 (by unfold Font.world; rw [h.writer, h.fs]) ?_
          rcases ho with rfl | rfl
          · exact .inl rfl
          · right; rw [hnames]; simp
      have hnil : (done ++ [FontCall.ufo op]).filterMap getCall = done.filterMap getCall := by simp [List.filterMap_append, List.filterMap_cons_none, getCall]
      refine ⟨f, ?_, h.writer, h.fs, ?_, ?_⟩
      · show (({ f with writer := (Ufo.step E L f.world op).1.1, fs := (Ufo.step E L f.world op).1.2 } : Font), (Ufo.step E L f.world op).2) = _
        rw [key]; rfl
      · rw [hnil]; exact h.length
      · rw [hnil]; exact h.sets
  have all : ∀ (post done : List FontCall) (f : Font), again = done ++ post → Resaving G L t g font' done f → ∀ pre c rest, post = pre ++ c :: rest →
      ∃ f', (Font.run E L f pre).step E L c = (f', .ok ()) ∧ f'.fs = g := by
    intro post
    induction post with
    | nil => intro done f _ _ pre c rest h; simp at h
    | cons x post ih =>
      intro done f he h pre c rest hp
      obtain ⟨f', k1, k2⟩ := step done x post f he h
      cases pre with
      | nil =>
        cases hp
        exact ⟨f', k1, k2.fs⟩
      | cons y pre =>
        simp only [List.cons_append, List.cons.injEq] at hp
        obtain ⟨rfl, hp⟩ := hp
        have := ih (done ++ [x]) f' (by rw [he]; simp) k2 pre c rest hp
        show ∃ f'', (Font.run E L (f.step E L x).1 pre).step E L c = (f'', .ok ()) ∧ f''.fs = g
        rw [k1]
        exact this
  refine fun pre c post hp => all again [] _ rfl ⟨rfl, rfl, rfl, ?_⟩ pre c post hp
  intro i l _ hi
  simp at hi

end Verif.Props
