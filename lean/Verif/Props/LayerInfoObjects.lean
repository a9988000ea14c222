import Verif.Model.LayerInfoObjects
import Verif.Proofs.LayerInfoObjects
import Verif.Props.InfoObjects
import Verif.Props.LayerInfo
/-! Layer info that is carried to another layer: C135. -/
namespace Verif.Props
open Verif Verif.ReadInto Verif.Proofs.LayerInfoObjects Verif.Spec.LayerInfo Verif.Spec.GlyphSet Verif.Spec.Plist Verif.Spec.Ufo
open Verif.GlyphSet (World Op readLayerInfo writeLayerInfo run)

/-- `readLayerInfo` of a layer into an object and `writeLayerInfo` of the object in another layer: whatever glyphs are written or deleted there afterwards, that layer has the color and the lib of the
first, and what the object had before and the first layer has not. Missing from the full claim (the layer then has the layer info of the first): the object had nothing before, `C135_reused_refuted`;
and if there is nothing to write, the glyph set was not new or had no layerinfo.plist, `C135_empty_refuted`. -/
theorem C135_carried_partial (L : Casing) (F : FloatCodec) (hF : F.Lawful) (src w w' : World) (t t' : Target) (validate b : Bool) (ops : List Op) (data : List (PyVal × PyVal))
    (hr : readLayerInfo F src true = .ok data) (ha : t.accepts c!"color" = true ∧ t.accepts c!"lib" = true) (hfit : Fits (.dict data))
    (hval : ∀ attr ∈ [c!"color", c!"lib"], ∀ v, Stores t.attrs attr v → Storable v)
    (hok : carryLayerInfo F src w validate t = (t', w', .ok ())) (hb : b = true → validate = true)
    (hnew : w.1.havePrevious = true ∨ (∃ attr ∈ [c!"color", c!"lib"], ∃ v, Stores t'.attrs attr v) ∨ w.2.exists (w.1.dir ++ [c!"layerinfo.plist"]) = false)
    (hav : Avoids w.2.canon c!"layerinfo.plist" w.1.contents) (hf : w.2.canon c!"layerinfo.plist" ≠ w.2.canon c!"contents.plist")
    (hops : ∀ op ∈ ops, NamesAvoid w.2.canon c!"layerinfo.plist" op) :
    ∃ d, readLayerInfo F (run L F w' ops) b = .ok d ∧ SameInfo (fun k => (infoObject data k).or (t.attrs k)) d := by
  obtain ⟨t1, h1, h2⟩ := C132_layer_read F src t data hr ha
  obtain ⟨hrd, -⟩ := layerInfo_readable hr
  unfold carryLayerInfo at hok
  rw [h1] at hok
  simp only [Prod.mk.injEq] at hok
  obtain ⟨rfl, hw⟩ := hok
  have he : (fun k => (infoObject data k).or (t.attrs k)) = t1.attrs := funext fun k => (h2 k).symm
  rw [he]
  have := C72_roundtrip_partial L F hF w t1.attrs validate b ops (fun attr hm v hv => by
    obtain ⟨hv1, hv2⟩ := hv
    rw [h2 attr] at hv1
    cases hg : infoObject data attr with
    | none => rw [hg] at hv1; exact hval attr hm v ⟨hv1, hv2⟩
    | some x =>
      rw [hg] at hv1
      cases hv1
      have hmem := Dict.mem_of_get? hg
      exact Ufo.storable_of (Plist.readableItems_iff.1 hrd.2 _ hmem).2 (fits_item hfit hmem)) (by rw [hw]) hb hnew hav hf hops
  rw [hw] at this
  exact this

/-- With an object whose attributes are missing or `None` before, in a glyph set of a UFO 3: nothing is raised, and the layer then has exactly the layer info of the first, except that an empty lib is not written. -/
theorem C135_carried (L : Casing) (F : FloatCodec) (hF : F.Lawful) (src w : World) (t : Target) (validate b : Bool) (ops : List Op) (data : List (PyVal × PyVal))
    (hr : readLayerInfo F src true = .ok data) (ha : t.accepts c!"color" = true ∧ t.accepts c!"lib" = true) (hfit : Fits (.dict data))
    (hfresh : ∀ k, t.attrs k = none ∨ t.attrs k = some .none) (hb : b = true → validate = true)
    (hv : 3 ≤ w.1.version) (hdir : w.2.node? w.1.dir = some .dir) (hfile : w.2.node? (w.1.dir ++ [c!"layerinfo.plist"]) ≠ some .dir)
    (hnew : w.1.havePrevious = true ∨ (∃ k v, Dict.get? data k = some v ∧ v ≠ .dict []) ∨ w.2.exists (w.1.dir ++ [c!"layerinfo.plist"]) = false)
    (hav : Avoids w.2.canon c!"layerinfo.plist" w.1.contents) (hf : w.2.canon c!"layerinfo.plist" ≠ w.2.canon c!"contents.plist")
    (hops : ∀ op ∈ ops, NamesAvoid w.2.canon c!"layerinfo.plist" op) :
    ∃ t' w' d, carryLayerInfo F src w validate t = (t', w', .ok ()) ∧ readLayerInfo F (run L F w' ops) b = .ok d ∧ ∀ k, Option.Rel Same (if Dict.get? data k = some (.dict []) then none else Dict.get? data k) (Dict.get? d k) := by
  obtain ⟨t1, h1, h2⟩ := C132_layer_read F src t data hr ha
  obtain ⟨hrd, hvd⟩ := layerInfo_readable hr
  have hitems := Plist.readableItems_iff.1 hrd.2
  have hall := GlyphSet.validateLayerInfo_iff.1 hvd
  have hkeys : ∀ e ∈ data, e.1 = .str c!"color" ∨ e.1 = .str c!"lib" := by
    intro e he
    obtain ⟨a, h1, h2, -⟩ := hall e he
    have : a = c!"color" ∨ a = c!"lib" := by simpa [GlyphSet.layerInfoAttrs] using h1
    rcases this with rfl | rfl
    · exact .inl h2
    · exact .inr h2
  have hold : ∀ attr v, ¬ Stores t.attrs attr v := fun attr v hs => by
    rcases hfresh attr with h | h
    · have := hs.1; rw [h] at this; cases this
    · have := hs.1; rw [h] at this; cases this; exact hs.2.1 rfl
  have hget : ∀ attr v, Stores t1.attrs attr v ↔ infoObject data attr = some v ∧ v ≠ .dict [] := by
    intro attr v
    constructor
    · rintro ⟨hs1, hs2⟩
      rw [h2] at hs1
      cases hg : infoObject data attr with
      | none => rw [hg] at hs1; exact absurd ⟨hs1, hs2⟩ (hold attr v)
      | some x =>
        rw [hg] at hs1
        cases hs1
        refine ⟨rfl, ?_⟩
        rintro rfl
        obtain ⟨a, ha1, ha2, ha3⟩ := hall _ (Dict.mem_of_get? hg)
        cases ha2
        have : attr = c!"color" ∨ attr = c!"lib" := by simpa [GlyphSet.layerInfoAttrs] using ha1
        rcases this with rfl | rfl
        · exact absurd ha3 (by simp [GlyphSet.layerInfoValid, Validators.colorValidator])
        · exact absurd (hs2.2 rfl) (by simp [Ufo.truthy])
    · rintro ⟨hg, hlib⟩
      have hm := Dict.mem_of_get? hg
      have hread := (hitems _ hm).2
      refine ⟨by rw [h2, hg]; rfl, fun hn => by subst hn; exact absurd hread (by simp [Readable]), fun hl => ?_⟩
      subst hl
      obtain ⟨a, -, ha2, ha3⟩ := hall _ hm
      cases ha2
      cases v with
      | dict d =>
        cases d with
        | nil => exact absurd rfl hlib
        | cons x d => rfl
      | _ => exact absurd ha3 (by simp [GlyphSet.layerInfoValid, GlyphSet.isDict])
  have hvalid : Valid F t1.attrs := by
    refine GlyphSet.valid_iff.1 (GlyphSet.validateLayerInfo_iff.2 ?_)
    rintro ⟨k, v⟩ he
    obtain ⟨attr, -, rfl, hs⟩ := GlyphSet.gather_mem.1 he
    exact hall _ (Dict.mem_of_get? ((hget attr v).1 hs).1)
  have hw := C72_succeeds F hF w t1.attrs validate hv (fun attr _ v hs => by
    have hm := Dict.mem_of_get? ((hget attr v).1 hs).1
    exact Ufo.storable_of (hitems _ hm).2 (fits_item hfit hm)) (fun _ => hvalid) hdir hfile
  have hc : carryLayerInfo F src w validate t = (t1, (writeLayerInfo F w t1.attrs validate).1, .ok ()) := by
    unfold carryLayerInfo
    rw [h1]
    exact congrArg (t1, ·) (Prod.ext rfl hw)
  obtain ⟨d, hd, hsame⟩ := C135_carried_partial L F hF src w _ t t1 validate b ops data hr ha hfit (fun attr _ v hs => absurd hs (hold attr v)) hc hb (by
    rcases hnew with h | h | h
    · exact .inl h
    · obtain ⟨k, v, hg, hne⟩ := h
      right; left
      rcases hkeys _ (Dict.mem_of_get? hg) with hk | hk
      · have hk : k = .str c!"color" := hk
        subst hk
        exact ⟨c!"color", by simp, v, (hget _ _).2 ⟨hg, hne⟩⟩
      · have hk : k = .str c!"lib" := hk
        subst hk
        exact ⟨c!"lib", by simp, v, (hget _ _).2 ⟨hg, hne⟩⟩
    · exact .inr (.inr h)) hav hf hops
  have he : (fun k => (infoObject data k).or (t.attrs k)) = t1.attrs := funext fun k => (h2 k).symm
  rw [he] at hsame
  refine ⟨t1, _, d, hc, hd, fun k => ?_⟩
  have hnone : (∀ v, Dict.get? data k = some v → v = .dict []) → Dict.get? d k = none := by
    intro hno
    by_cases hk : k ∈ Dict.keys d
    · obtain ⟨attr, hattr, rfl⟩ : ∃ attr ∈ [c!"color", c!"lib"], k = .str attr := by
        rcases hsame.only k hk with h | h
        · exact ⟨_, by simp, h⟩
        · exact ⟨_, by simp, h⟩
      exact hsame.none attr hattr fun ⟨v, hs⟩ => ((hget attr v).1 hs).2 (hno v ((hget attr v).1 hs).1)
    · exact Dict.get?_eq_none_iff.2 hk
  split
  · rename_i he
    rw [hnone fun v hv => by rw [he] at hv; exact (Option.some.inj hv).symm]
    exact .none
  · rename_i he
    cases hg : Dict.get? data k with
    | some v =>
      have hm := Dict.mem_of_get? hg
      obtain ⟨attr, hattr, rfl⟩ : ∃ attr ∈ [c!"color", c!"lib"], k = .str attr := by
        rcases hkeys _ hm with h | h
        · exact ⟨_, by simp, h⟩
        · exact ⟨_, by simp, h⟩
      obtain ⟨x, hx, hs⟩ := hsame.some attr hattr v ((hget attr v).2 ⟨hg, fun h => he (by rw [hg, h])⟩)
      rw [hx]
      rw [Plist.untuple_noTuple v (Plist.wellFormed_of _ (hitems _ hm).2).2] at hs
      exact .some hs
    | none =>
      rw [hnone fun v hv => by rw [hg] at hv; cases hv]
      exact .none

/-- A layer with layer info. -/
def layer135 (plist : Str) : World :=
  (new51.1, { canon := id, log := [], nodes := [([c!"glyphs"], .dir), ([c!"glyphs", c!"layerinfo.plist"], .file (utf8 (c!"<plist><dict>" ++ plist ++ c!"</dict></plist>")))] })

/-- A layer with a color and a lib. -/
def full135 : World := layer135 c!"<key>color</key><string>1,0,0,1</string><key>lib</key><dict><key>a</key><integer>1</integer></dict>"
/-- A layer with a lib only. -/
def plain135 : World := layer135 c!"<key>lib</key><dict><key>b</key><integer>2</integer></dict>"

/-- The full claim fails: with one object for two layers, the second is written with the color of the first. -/
theorem C135_reused_refuted :
    let first := (readLayerInfoInto fractionCodec full135 true any132).1;
    (carryLayerInfo fractionCodec plain135 new51 true first).2.2.toOption.isSome = true ∧
    (readLayerInfo fractionCodec plain135 true).toOption = some [(.str c!"lib", .dict [(.str c!"b", .int 2)])] ∧
    (readLayerInfo fractionCodec (carryLayerInfo fractionCodec plain135 new51 true first).2.1 true).toOption =
      some [(.str c!"color", .str c!"1,0,0,1"), (.str c!"lib", .dict [(.str c!"b", .int 2)])] := by decide +kernel

/-- It fails as well for a layer without layer info and a glyph set that was new when it was opened: what was written there before stays. -/
theorem C135_empty_refuted :
    (readLayerInfo fractionCodec new51 true).toOption = some [] ∧
    (carryLayerInfo fractionCodec new51 full135 true any132).2.2.toOption.isSome = true ∧
    (readLayerInfo fractionCodec (carryLayerInfo fractionCodec new51 full135 true any132).2.1 true).toOption =
      some [(.str c!"color", .str c!"1,0,0,1"), (.str c!"lib", .dict [(.str c!"a", .int 1)])] := by decide +kernel

/-- The theorem at work: the layer info is there after glyphs were written and deleted. -/
example : ∃ data, readLayerInfo fractionCodec full135 true = .ok data ∧
    ∃ t' w' d, carryLayerInfo fractionCodec full135 new51 true any132 = (t', w', .ok ()) ∧
      readLayerInfo fractionCodec (run asciiCasing fractionCodec w' [put51 c!"A" [1], .save, .delete c!"A"]) true = .ok d ∧ ∀ k, Option.Rel Same (if Dict.get? data k = some (.dict []) then none else Dict.get? data k) (Dict.get? d k) := by
  have hd : (readLayerInfo fractionCodec full135 true).toOption = some [(.str c!"color", .str c!"1,0,0,1"), (.str c!"lib", .dict [(.str c!"a", .int 1)])] := by decide +kernel
  have hput : ∀ n d, NamesAvoid new51.2.canon c!"layerinfo.plist" (put51 n d) := fun n d =>
    C72_default asciiCasing id (fun a h => absurd (congrArg List.getLast? h) (by simp)) n none _
  cases hr : readLayerInfo fractionCodec full135 true with
  | error e => rw [hr] at hd; cases hd
  | ok data =>
    rw [hr] at hd
    cases hd
    refine ⟨_, rfl, C135_carried asciiCasing fractionCodec fractionCodec_lawful full135 new51 any132 true true _ _ hr ⟨rfl, rfl⟩ (by simp [Fits, FitsItems]) (fun _ => .inl rfl) (fun h => h)
      (by decide) (by decide +kernel) (by decide +kernel) (.inr (.inl ⟨.str c!"color", _, rfl, by simp⟩)) (fun n g h => by cases h) (by decide) fun op hop => ?_⟩
    simp only [List.mem_cons, List.not_mem_nil, or_false] at hop
    rcases hop with rfl | rfl | rfl
    · exact hput _ _
    · trivial
    · trivial

end Verif.Props
