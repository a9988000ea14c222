import Verif.Proofs.Reorder
import Verif.Props.UfoShared
/-! C116: the order in which the parts of a font are saved does not matter. -/
namespace Verif.Props
open Verif Verif.Ufo Verif.Spec.Ufo Verif.Spec.Reorder

/-- C116. Two programs make the same calls in different orders, where calls that write data about different entries of the root directory were exchanged. Then the objects
and all files are the same in the end, and every call returned or raised the same. -/
theorem C116_reordered (E : FontInfo.Env) (L : Casing) (f : Font) (hl : Dict.WF f.writer.layers ∧ LayerDirs f.writer.layers) (hwf : Dict.WF f.fs.nodes) (cs cs' : List FontCall)
    (h : Reordered E L f cs cs') :
    SameState (f.run E L cs) (f.run E L cs') ∧ (cs.zip (f.results E L cs)).Perm (cs'.zip (f.results E L cs')) :=
  let r := reordered E L h ⟨hl.1, hl.2⟩ hwf
  ⟨r.1.same, r.2⟩

/-- C116. Calls that are independent in pairs can be made in any order, whatever was called before and whatever is called afterwards. -/
theorem C116_any_order (E : FontInfo.Env) (L : Casing) (f : Font) (hl : Dict.WF f.writer.layers ∧ LayerDirs f.writer.layers) (hwf : Dict.WF f.fs.nodes) (before cs cs' after : List FontCall)
    (hp : cs.Perm cs') (hi : cs.Pairwise (Independent (f.run E L before))) :
    SameState (f.run E L (before ++ cs ++ after)) (f.run E L (before ++ cs' ++ after)) ∧
      ((before ++ cs ++ after).zip (f.results E L (before ++ cs ++ after))).Perm ((before ++ cs' ++ after).zip (f.results E L (before ++ cs' ++ after))) := by
  have tail : ∀ {g : Font} {l l' : List FontCall}, Reordered E L g l l' → Reordered E L g (l ++ after) (l' ++ after) := by
    intro g l l' h
    induction h with
    | refl g l => exact .refl _ _
    | cons g c l l' _ ih => exact .cons g c _ _ ih
    | swap g c d l h => exact .swap g c d _ h
    | trans g l l' l'' _ _ ih ih' => exact .trans _ _ _ _ ih ih'
  have main : ∀ (before : List FontCall) (g : Font), Layered g.writer → cs.Pairwise (Independent (g.run E L before)) → Reordered E L g (before ++ (cs ++ after)) (before ++ (cs' ++ after)) := by
    intro before
    induction before with
    | nil => exact fun g hg hi => tail (reordered_perm E L hp g hg hi)
    | cons c b ih => exact fun g hg hi => .cons g c _ _ (ih _ (font_step_acts E L g hg c).1 hi)
  rw [List.append_assoc, List.append_assoc]
  exact C116_reordered E L f hl hwf _ _ (main before f ⟨hl.1, hl.2⟩ hi)

/-- C116. So the files of the root directory, images and data can be saved in any order, on any file system that keeps their names apart: info, groups, kerning, lib,
features, the table of layers, and so on, one call for each. -/
theorem C116_parts (E : FontInfo.Env) (L : Casing) (f : Font) (hl : Dict.WF f.writer.layers ∧ LayerDirs f.writer.layers) (hwf : Dict.WF f.fs.nodes) (hk : KeepsApart f.fs.canon)
    (ops ops' : List Op) (hp : ops.Perm ops') (hd : ∀ op ∈ ops, WritesData (.ufo op)) (hs : ∀ op ∈ ops, ∀ e, Concerns op e → e ∈ standardNames)
    (ha : ops.Pairwise fun a b => ∀ e, Concerns a e → ¬ Concerns b e) :
    SameState (f.run E L (ops.map .ufo)) (f.run E L (ops'.map .ufo)) ∧
      ((ops.map FontCall.ufo).zip (f.results E L (ops.map .ufo))).Perm ((ops'.map FontCall.ufo).zip (f.results E L (ops'.map .ufo))) := by
  refine C116_reordered E L f hl hwf _ _ (reordered_perm E L (hp.map _) f ⟨hl.1, hl.2⟩ (List.pairwise_map.2 ?_))
  refine (List.pairwise_iff_getElem.2 fun i j hi hj hij => ?_)
  have h := List.pairwise_iff_getElem.1 ha i j hi hj hij
  refine ⟨hd _ (List.getElem_mem hi), hd _ (List.getElem_mem hj), fun a b h1 h2 e => ?_⟩
  have h1 := about_concerns (f := f) ⟨hl.1, hl.2⟩ h1
  have h2 := about_concerns (f := f) ⟨hl.1, hl.2⟩ h2
  have := hk.names a (hs _ (List.getElem_mem hi) a h1) b (hs _ (List.getElem_mem hj) b h2) e
  subst this
  exact h a h1 h2

/-- Seven calls for seven parts. -/
example (info : Str → Option PyVal) (g : Dict Str (List Str)) (k : Dict (Str × Str) PyVal) (l : PyVal) (s : Str) (d : Bytes) :
    let ops := [Op.info info true, .groups g true, .kerning k true, .lib l true, .features s, .bytes [c!"data", c!"x"] d, .layerContents none true]
    (∀ op ∈ ops, WritesData (.ufo op)) ∧ (∀ op ∈ ops, ∀ e, Concerns op e → e ∈ standardNames) ∧ ops.Pairwise fun a b => ∀ e, Concerns a e → ¬ Concerns b e := by
  refine ⟨?_, ?_, ?_⟩
  · simp [WritesData]
  · intro op h e he
    simp only [List.mem_cons, List.not_mem_nil, or_false] at h
    rcases h with rfl | rfl | rfl | rfl | rfl | rfl | rfl <;> cases he <;> decide
  · simp only [List.pairwise_cons, List.mem_cons, List.not_mem_nil, or_false, forall_eq_or_imp, forall_eq, false_implies, implies_true, and_true, List.Pairwise.nil]
    refine ⟨⟨?_, ?_, ?_, ?_, ?_, ?_⟩, ⟨?_, ?_, ?_, ?_, ?_⟩, ⟨?_, ?_, ?_, ?_⟩, ⟨?_, ?_, ?_⟩, ⟨?_, ?_⟩, ?_⟩ <;> (intro e h1 h2; cases h1; nomatch h2)

/-- A font with two layers, whose glyph sets were obtained. -/
def font116 : Font := Font.run env57 asciiCasing ⟨⟨3, [(c!"fg", c!"glyphs"), (c!"bg", c!"glyphs.bg")], true, true, none⟩, shared101.fs, []⟩
  [.getGlyphSet (some c!"fg") true true, .getGlyphSet (some c!"bg") false true]

/-- Glyphs of two layers, the groups and the features. -/
def calls116 : List FontCall := [.set 0 (.glyphs (put51 c!"x" [1])), .ufo (.groups [(c!"a", [c!"x"])] true), .set 1 (.glyphs (put51 c!"y" [2])), .ufo (.features c!"f")]

example : Dict.WF font116.writer.layers ∧ Dict.WF font116.fs.nodes ∧ calls116.Pairwise (Independent font116) ∧
    (font116.run env57 asciiCasing calls116).fs.nodes ≠ (font116.run env57 asciiCasing calls116.reverse).fs.nodes ∧
    (font116.results env57 asciiCasing calls116).map Except.toOption = [some (), some (), some (), some ()] := by
  have h0 : (font116.sets[0]?).map GlyphSet.GlyphSet.dir = some [c!"glyphs"] := by decide +kernel
  have h1 : (font116.sets[1]?).map GlyphSet.GlyphSet.dir = some [c!"glyphs.bg"] := by decide +kernel
  have hdir : ∀ (i : Nat) (d : Str), (font116.sets[i]?).map GlyphSet.GlyphSet.dir = some [d] → ∀ c e, About font116 (.set i c) e → e = d := by
    rintro i d h c e ⟨gs, hgs, hd⟩
    rw [hgs] at h
    have h : gs.dir = [d] := Option.some.inj h
    rw [h] at hd
    rcases hd with hd | hd
    · cases hd
    · exact (Option.some.inj hd).symm
  have hcan : font116.fs.canon = id := rfl
  refine ⟨by unfold Dict.WF; decide +kernel, by unfold Dict.WF; decide +kernel, ?_, by decide +kernel, by decide +kernel⟩
  simp only [calls116, List.pairwise_cons, List.mem_cons, List.not_mem_nil, or_false, forall_eq_or_imp, forall_eq, false_implies, implies_true, and_true, List.Pairwise.nil]
  refine ⟨⟨⟨trivial, trivial, ?_⟩, ⟨trivial, trivial, ?_⟩, ⟨trivial, trivial, ?_⟩⟩, ⟨⟨trivial, trivial, ?_⟩, ⟨trivial, trivial, ?_⟩⟩, ⟨trivial, trivial, ?_⟩⟩ <;> intro a b ha hb <;> rw [hcan]
  · obtain rfl := hdir 0 _ h0 _ _ ha; cases hb; decide
  · obtain rfl := hdir 0 _ h0 _ _ ha; obtain rfl := hdir 1 _ h1 _ _ hb; decide
  · obtain rfl := hdir 0 _ h0 _ _ ha; cases hb; decide
  · obtain rfl := hdir 1 _ h1 _ _ hb; cases ha; decide
  · cases ha; cases hb; decide
  · obtain rfl := hdir 1 _ h1 _ _ ha; cases hb; decide

/-- Calls about one file cannot be exchanged: the last one counts. -/
theorem C116_needed_apart : WritesData (.ufo (.features c!"a")) ∧ WritesData (.ufo (.features c!"b")) ∧
    (font116.run env57 asciiCasing [.ufo (.features c!"a"), .ufo (.features c!"b")]).fs.node? [c!"features.fea"] = some (.file (utf8 c!"b")) ∧
    (font116.run env57 asciiCasing [.ufo (.features c!"b"), .ufo (.features c!"a")]).fs.node? [c!"features.fea"] = some (.file (utf8 c!"a")) :=
  ⟨trivial, trivial, by decide +kernel, by decide +kernel⟩

/-- Nor can the calls that make layers: the directory of the second one gets a number. -/
theorem C116_needed_data : let a := FontCall.getGlyphSet (some c!"L") false true; let b := FontCall.getGlyphSet (some c!"l_") false true
    Dict.get? (font116.run env57 asciiCasing [a, b]).writer.layers c!"L" = some c!"glyphs.L_" ∧ Dict.get? (font116.run env57 asciiCasing [a, b]).writer.layers c!"l_" = some c!"glyphs.l_000000000000001" ∧
    Dict.get? (font116.run env57 asciiCasing [b, a]).writer.layers c!"L" = some c!"glyphs.L_000000000000001" ∧ Dict.get? (font116.run env57 asciiCasing [b, a]).writer.layers c!"l_" = some c!"glyphs.l_" := by decide +kernel

/-- Nor the table of the layers and a call that makes a layer, which are about different entries: the table has the layer or not. -/
theorem C116_needed_table : let a := FontCall.getGlyphSet (some c!"new") false true; let b := FontCall.ufo (.layerContents none true)
    (getLayerNames fractionCodec (font116.run env57 asciiCasing [a, b]).fs 3 true).toOption = some [c!"fg", c!"bg", c!"new"] ∧
    (getLayerNames fractionCodec (font116.run env57 asciiCasing [b, a]).fs 3 true).toOption = some [c!"fg", c!"bg"] := by decide +kernel

end Verif.Props
