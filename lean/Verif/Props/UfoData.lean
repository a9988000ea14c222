import Verif.Proofs.UfoData
import Verif.Props.UfoVersion
/-! What was last written is what is read: C60. A failed property list write does not destroy the file: C61. -/
namespace Verif.Props
open Verif Verif.FS Verif.IO Verif.Ufo Verif.Kerning Verif.Converters Verif.Validators Verif.FontInfo Verif.Spec.Ufo Verif.Spec.Plist Verif.Spec.Validators
open Verif.Spec.Converters

/-! ### C60

In each theorem a writer is opened, then the calls `pre` are made (successfully or not), then the item is written successfully, then calls
`post` that do not write the same item (or remove or overwrite its file) are made.

An empty value removes the file only if the UFO existed when the writer was opened. On a new UFO the file of an earlier non-empty value stays:
the theorems assume that there is none in this case, and `C60_lib_refuted` etc. show that the assumption is needed. -/

/-- The last written lib is read: the same dictionary, with tuples read as lists. -/
theorem C60_lib_partial (E : FontInfo.Env) (hF : E.F.Lawful) (L : Casing) (hp : Bool) (fs fs' : FS) (version : Int) (creator : PyVal) (w : Writer)
    (h : openWriter E.F hp fs version creator true = (fs', .ok w)) (pre post : List Op) (d : List (PyVal × PyVal)) (validate : Bool)
    (hd : Storable (.dict d)) (hok : (step E L (run E L (w, fs') pre) (.lib (.dict d) validate)).2 = .ok ())
    (hpost : ∀ op ∈ post, Spares fs'.canon c!"lib.plist" op)
    (hnew : hp = true ∨ d ≠ [] ∨ (run E L (w, fs') pre).2.exists [c!"lib.plist"] = false) (b : Bool) (hb : b = true → validate = true) :
    ∃ r, readLib E.F (run E L (w, fs') (pre ++ .lib (.dict d) validate :: post)).2 b = .ok r ∧ Same (untuple (.dict d)) r := by
  obtain ⟨s1, l1, a1⟩ := run_spec E L pre (w, fs') (openWriter_layered h)
  have hprev : (run E L (w, fs') pre).1.havePrevious = hp := s1.previous.trans (openWriter_ok h).2.2.2.2.1
  rw [run_append]
  generalize hw : run E L (w, fs') pre = w1 at *
  obtain ⟨s2, -, l2, a2⟩ := step_spec E L w1 l1 (.lib (.dict d) validate)
  have hn := run_node? E L (step E L w1 (.lib (.dict d) validate)).1 l2 post (c := libName)
    (by rw [a2.canon, a1.canon]; exact hpost) []
  show ∃ r, readLib E.F (run E L (step E L w1 (.lib (.dict d) validate)).1 post).2 b = .ok r ∧ _
  unfold readLib
  rw [getPlist_congr hn]
  simp only [step] at hok ⊢
  unfold writeLib at hok ⊢
  by_cases hv : (validate && !fontLibValidator (.dict d)) = true
  · rw [if_pos hv] at hok; cases hok
  · rw [if_neg hv] at hok ⊢
    have hbv : b = true → fontLibValidator (.dict d) = true := fun e => by
      rw [hb e] at hv; simpa using hv
    have hnew' : w1.1.havePrevious = true ∨ (!truthy (.dict d)) = false ∨ w1.2.node? [libName] = none := by
      rw [hprev]
      rcases hnew with e | e | e
      · exact .inl e
      · refine .inr (.inl ?_)
        cases d with
        | nil => exact absurd rfl e
        | cons e d => rfl
      · exact .inr (.inr (node?_of_not_exists e))
    rcases writeOrRemove_ok E.F hF (fun _ => hd) hok hnew' (some (.dict [])) with ⟨-, x, hx, hs⟩ | ⟨he, hx⟩
    · refine ⟨x, ?_, hs⟩
      rw [hx]
      dsimp only
      rw [if_neg]
      simp only [Bool.and_eq_true, Bool.not_eq_true', not_and, Bool.not_eq_false]
      exact fun e => fontLib_stored hs (hbv e)
    · refine ⟨.dict [], ?_, ?_⟩
      · rw [getPlist_none hx]
        dsimp only
        rw [if_neg]
        simp [fontLibValidator]
      · cases d with
        | nil => exact .refl _
        | cons e d => cases he

/-- The last written groups are read, UFO 3. -/
theorem C60_groups_partial (E : FontInfo.Env) (hF : E.F.Lawful) (L : Casing) (hp : Bool) (fs fs' : FS) (creator : PyVal) (w : Writer)
    (h : openWriter E.F hp fs 3 creator true = (fs', .ok w)) (pre post : List Op) (g : Dict Str (List Str)) (validate : Bool)
    (hg : Dict.WF g) (ht : ∀ e ∈ g, FileText e.1 ∧ ∀ m ∈ e.2, FileText m)
    (hok : (step E L (run E L (w, fs') pre) (.groups g validate)).2 = .ok ())
    (hpost : ∀ op ∈ post, Spares fs'.canon c!"groups.plist" op)
    (hnew : hp = true ∨ g ≠ [] ∨ (run E L (w, fs') pre).2.exists [c!"groups.plist"] = false) (b : Bool) (hb : b = true → validate = true) :
    ∃ g', readGroups3 E.F (run E L (w, fs') (pre ++ .groups g validate :: post)).2 b = .ok (groupsVal g') ∧ ∀ n, Dict.get? g' n = Dict.get? g n := by
  obtain ⟨s1, l1, a1⟩ := run_spec E L pre (w, fs') (openWriter_layered h)
  have hprev : (run E L (w, fs') pre).1.havePrevious = hp := s1.previous.trans (openWriter_ok h).2.2.2.2.1
  have hver : (run E L (w, fs') pre).1.version = 3 := s1.version.trans (openWriter_ok h).2.2.2.1
  rw [run_append]
  generalize hw : run E L (w, fs') pre = w1 at *
  obtain ⟨s2, -, l2, a2⟩ := step_spec E L w1 l1 (.groups g validate)
  have hn := run_node? E L (step E L w1 (.groups g validate)).1 l2 post (c := groupsName)
    (by rw [a2.canon, a1.canon]; exact hpost) []
  show ∃ g', readGroups3 E.F (run E L (step E L w1 (.groups g validate)).1 post).2 b = .ok (groupsVal g') ∧ _
  unfold readGroups3
  rw [getPlist_congr hn]
  simp only [step] at hok ⊢
  have hgw : groupsToWrite w1.1 g = g := by
    unfold groupsToWrite
    split
    · rw [if_neg (by omega)]
    · rfl
  unfold writeGroups at hok ⊢
  rw [hgw] at hok ⊢
  by_cases hv : (validate && !groupsValidator (groupsVal g)) = true
  · rw [if_pos hv] at hok; cases hok
  · rw [if_neg hv] at hok ⊢
    have hbv : b = true → groupsValidator (groupsVal g) = true := fun e => by
      rw [hb e] at hv; simpa using hv
    have hnew' : w1.1.havePrevious = true ∨ (g.isEmpty) = false ∨ w1.2.node? [groupsName] = none := by
      rw [hprev]
      rcases hnew with e | e | e
      · exact .inl e
      · refine .inr (.inl ?_)
        cases g with
        | nil => exact absurd rfl e
        | cons e d => rfl
      · exact .inr (.inr (node?_of_not_exists e))
    rcases writeOrRemove_ok E.F hF (fun _ => storable_groups hg ht) hok hnew' (some (.dict [])) with ⟨-, x, hx, hs⟩ | ⟨he, hx⟩
    · obtain ⟨g', rfl, hperm⟩ := stored_groups hg hs
      refine ⟨g', ?_, fun n => (Dict.get?_perm hg hperm.symm n).symm⟩
      rw [hx]
      dsimp only
      rw [if_neg]
      simp only [Bool.and_eq_true, Bool.not_eq_true', not_and, Bool.not_eq_false]
      exact fun e => groupsValidator_perm hperm (hbv e)
    · refine ⟨[], ?_, ?_⟩
      · rw [getPlist_none hx]
        dsimp only
        rw [if_neg]
        · rfl
        · simp [groupsValidator, validateGroups]
      · cases g with
        | nil => exact fun _ => rfl
        | cons e d => cases he

/-- The last written kerning is read, UFO 3. -/
theorem C60_kerning_partial (E : FontInfo.Env) (hF : E.F.Lawful) (L : Casing) (hp : Bool) (fs fs' : FS) (creator : PyVal) (w : Writer)
    (h : openWriter E.F hp fs 3 creator true = (fs', .ok w)) (pre post : List Op) (k : Dict (Str × Str) PyVal) (validate : Bool)
    (hk : Dict.WF k) (ht : ∀ e ∈ k, FileText e.1.1 ∧ FileText e.1.2 ∧ Representable FileText e.2 ∧ IsNum e.2)
    (hok : (step E L (run E L (w, fs') pre) (.kerning k validate)).2 = .ok ())
    (hpost : ∀ op ∈ post, Spares fs'.canon c!"kerning.plist" op)
    (hnew : hp = true ∨ k ≠ [] ∨ (run E L (w, fs') pre).2.exists [c!"kerning.plist"] = false) (b : Bool) :
    ∃ r, readKerning3 E.F (run E L (w, fs') (pre ++ .kerning k validate :: post)).2 b = .ok r ∧ ∀ pair, Dict.get? r pair = Dict.get? k pair := by
  obtain ⟨s1, l1, a1⟩ := run_spec E L pre (w, fs') (openWriter_layered h)
  have hprev : (run E L (w, fs') pre).1.havePrevious = hp := s1.previous.trans (openWriter_ok h).2.2.2.2.1
  have hver : (run E L (w, fs') pre).1.version = 3 := s1.version.trans (openWriter_ok h).2.2.2.1
  rw [run_append]
  generalize hw : run E L (w, fs') pre = w1 at *
  obtain ⟨s2, -, l2, a2⟩ := step_spec E L w1 l1 (.kerning k validate)
  have hn := run_node? E L (step E L w1 (.kerning k validate)).1 l2 post (c := kerningName)
    (by rw [a2.canon, a1.canon]; exact hpost) []
  show ∃ g', readKerning3 E.F (run E L (step E L w1 (.kerning k validate)).1 post).2 b = .ok g' ∧ _
  unfold readKerning3
  rw [getPlist_congr hn]
  simp only [step] at hok ⊢
  have hkw : kerningToWrite w1.1 k = nest k := by
    unfold kerningToWrite
    split
    · rw [if_neg (by omega)]
    · rfl
  obtain ⟨hwf, hrows, hnil⟩ := nest_spec k
  have hnum : ∀ r ∈ nest k, ∀ e ∈ r.2, IsNum e.2 := fun r hr e he => (ht _ ((hrows r hr).2 e he)).2.2.2
  have hst : Storable (kerningVal (nest k)) := by
    refine storable_kerning hwf fun r hr => ⟨?_, fun e he => ?_⟩
    · obtain ⟨e, he, hk⟩ := (hrows r hr).1
      rw [← hk]
      exact (ht e he).1
    · obtain ⟨-, t2, t3, t4⟩ := ht _ ((hrows r hr).2 e he)
      refine ⟨t2, t3, ?_⟩
      dsimp only at t4
      rcases t4 with ⟨i, h | ⟨h, -⟩ | ⟨h, -⟩⟩ | ⟨f, h⟩ <;> rw [h] <;> trivial
  unfold writeKerning at hok ⊢
  rw [hkw] at hok ⊢
  by_cases hv : (validate && !k.all fun e => isNumber e.2) = true
  · rw [if_pos hv] at hok; cases hok
  · rw [if_neg hv] at hok ⊢
    have hnew' : w1.1.havePrevious = true ∨ ((nest k).isEmpty) = false ∨ w1.2.node? [kerningName] = none := by
      rw [hprev]
      rcases hnew with e | e | e
      · exact .inl e
      · refine .inr (.inl ?_)
        rw [Bool.eq_false_iff, ne_eq, List.isEmpty_iff]
        exact fun h => e (hnil h)
      · exact .inr (.inr (node?_of_not_exists e))
    rcases writeOrRemove_ok E.F hF (fun _ => hst) hok hnew' (some (.dict [])) with ⟨-, x, hx, hs⟩ | ⟨he, hx⟩
    · obtain ⟨k', rfl, hwf', hnum', hpairs⟩ := stored_kerning hwf hnum hs
      refine ⟨flatten k', ?_, fun pair => ?_⟩
      · rw [hx]
        dsimp only
        rw [kerningValidator_val hnum', if_neg (by simp)]
        unfold kerningVal
        dsimp only
        rw [show rowsOf (k'.map fun r => (PyVal.str r.1, PyVal.dict (r.2.map fun e => (PyVal.str e.1, e.2)))) = .ok k' from rowsOf_map k']
      · obtain ⟨p, q⟩ := pair
        rw [flatten_get? hwf', hpairs, nest_pairs hk]
    · refine ⟨[], ?_, ?_⟩
      · rw [getPlist_none hx]
        dsimp only
        rw [if_neg]
        · rfl
        · simp [kerningValidator]
      · rw [List.isEmpty_iff] at he
        rw [hnil he]
        exact fun _ => rfl

/-- The last written features are read, UFO 2 and 3: exactly the same text. -/
theorem C60_features_partial (E : FontInfo.Env) (L : Casing) (hp : Bool) (fs fs' : FS) (version : Int) (creator : PyVal) (w : Writer)
    (h : openWriter E.F hp fs version creator true = (fs', .ok w)) (pre post : List Op) (s : Str)
    (hok : (step E L (run E L (w, fs') pre) (.features s)).2 = .ok ())
    (hpost : ∀ op ∈ post, Spares fs'.canon c!"features.fea" op)
    (hnew : hp = true ∨ s ≠ [] ∨ (run E L (w, fs') pre).2.exists [c!"features.fea"] = false) :
    readFeatures (run E L (w, fs') (pre ++ .features s :: post)).2 = .ok s := by
  obtain ⟨s1, l1, a1⟩ := run_spec E L pre (w, fs') (openWriter_layered h)
  have hprev : (run E L (w, fs') pre).1.havePrevious = hp := s1.previous.trans (openWriter_ok h).2.2.2.2.1
  rw [run_append]
  generalize hw : run E L (w, fs') pre = w1 at *
  obtain ⟨s2, -, l2, a2⟩ := step_spec E L w1 l1 (.features s)
  have hn := run_node? E L (step E L w1 (.features s)).1 l2 post (c := featuresName)
    (by rw [a2.canon, a1.canon]; exact hpost) []
  show readFeatures (run E L (step E L w1 (.features s)).1 post).2 = .ok s
  unfold readFeatures FS.getbytes
  rw [hn]
  simp only [step] at hok ⊢
  unfold writeFeatures at hok ⊢
  split at hok
  · cases hok
  · rename_i hv
    rw [if_neg hv]
    split at hok
    · rename_i hs
      rw [if_pos hs]
      have := (writeBytesToPath_spec w1.1.havePrevious w1.2 [featuresName] (utf8 s)).2.1 hok
      rw [getbytes_ok] at this
      dsimp only
      rw [this]
      dsimp only
      rw [utf8Decode_utf8]
    · rename_i hs
      rw [if_neg hs]
      have hs' : s = [] := by simpa using hs
      subst hs'
      have hnone : ∀ w' : World, w'.2.node? [featuresName] = none → (match (match w'.2.node? [featuresName] with
          | some (.file d) => Except.ok d
          | some .dir => .error Exc.fileExpected
          | none => .error .resourceNotFound) with
        | .error .resourceNotFound => (.ok [] : Except Exc Str)
        | .error e => .error e
        | .ok b => match utf8Decode b with
          | none => .error .valueError
          | some s => .ok s) = .ok [] := by
        intro w' hw'
        rw [hw']
      refine hnone _ ?_
      split at hok
      · rename_i hpp
        rw [if_pos hpp]
        exact (removePath_spec w1.2 [featuresName] (by simp) true false).2.1 hok
      · rename_i hpp
        rw [if_neg hpp]
        rcases hnew with e | e | e
        · exact absurd (hprev.trans e) hpp
        · exact absurd rfl e
        · exact node?_of_not_exists e

/-- A new UFO 3. -/
def new60 : World := match openWriter fractionCodec false fs57 3 (.str c!"me") true with
  | (fs, .ok w) => (w, fs)
  | (fs, .error _) => (⟨3, [], false, true, none⟩, fs)

/-- The UFO opened again. -/
def again60 (fs : FS) : World := match openWriter fractionCodec true fs 3 (.str c!"me") true with
  | (fs, .ok w) => (w, fs)
  | (fs, .error _) => (⟨3, [], false, true, none⟩, fs)

/-- A history with writes of all four items, overwritten and removed, on a new UFO and on one that existed. -/
example :
    let lib : PyVal := .dict [(.str c!"b", .tuple [.int 1]), (.str c!"a", .bool true)]
    let w1 := (run env57 asciiCasing new60 [.lib (.dict [(.str c!"x", .int 1)]) true, .lib lib true, .groups [(c!"public.kern1.O", [c!"O"]), (c!"a", [])] true,
      .kerning [((c!"A", c!"B"), .int 3), ((c!"A", c!"C"), .int (-4)), ((c!"public.kern1.O", c!"B"), .float (.fin (1/2)))] true, .features c!"x\r\ny",
      .glyphSet none true true, .layerContents none true]);
    let w2 := (run env57 asciiCasing (again60 w1.2) [.lib (.dict []) true, .features [], .kerning [((c!"A", c!"C"), .int 0)] true]);
    (readLib fractionCodec w1.2 true).toOption = some (.dict [(.str c!"a", .bool true), (.str c!"b", .list [.int 1])]) ∧
    (readGroups3 fractionCodec w1.2 true).toOption = some (groupsVal [(c!"a", []), (c!"public.kern1.O", [c!"O"])]) ∧
    (readKerning3 fractionCodec w1.2 true).toOption =
      some [((c!"A", c!"B"), .int 3), ((c!"A", c!"C"), .int (-4)), ((c!"public.kern1.O", c!"B"), .float (.fin (1/2)))] ∧
    (readFeatures w1.2).toOption = some c!"x\r\ny" ∧
    (readLib fractionCodec w2.2 true).toOption = some (.dict []) ∧ (readFeatures w2.2).toOption = some [] ∧
    (readKerning3 fractionCodec w2.2 true).toOption = some [((c!"A", c!"C"), .int 0)] := by decide +kernel

/-- On a new UFO, writing an empty lib, empty groups, empty kerning or empty features after others leaves the others in the file. -/
theorem C60_empty_refuted :
    let w := (run env57 asciiCasing new60 [.lib (.dict [(.str c!"a", .int 1)]) true, .groups [(c!"a", [c!"b"])] true, .kerning [((c!"A", c!"B"), .int 3)] true,
      .features c!"x", .lib (.dict []) true, .groups [] true, .kerning [] true, .features []]);
    (step env57 asciiCasing w (.lib (.dict []) true)).2.toOption = some () ∧ (step env57 asciiCasing w (.groups [] true)).2.toOption = some () ∧
    (step env57 asciiCasing w (.kerning [] true)).2.toOption = some () ∧ (step env57 asciiCasing w (.features [])).2.toOption = some () ∧
    (readLib fractionCodec w.2 true).toOption = some (.dict [(.str c!"a", .int 1)]) ∧ (readGroups3 fractionCodec w.2 true).toOption = some (groupsVal [(c!"a", [c!"b"])]) ∧
    (readKerning3 fractionCodec w.2 true).toOption = some [((c!"A", c!"B"), .int 3)] ∧ (readFeatures w.2).toOption = some c!"x" := by decide +kernel

/-! ### C61 -/

/-- The calls that write a property list. -/
inductive WritesPlist : Op → Prop
  | info {i v} : WritesPlist (.info i v)
  | lib {l v} : WritesPlist (.lib l v)
  | groups {g v} : WritesPlist (.groups g v)
  | kerning {k v} : WritesPlist (.kerning k v)
  | layerContents {o v} : WritesPlist (.layerContents o v)

theorem writeOrRemove_error {F : FloatCodec} {w : World} {name : Str} {empty : Bool} {v : PyVal} {e : Exc} (hp : w.1.havePrevious = true)
    (h : (writeOrRemove F w name empty v).2 = .error e) : (writeOrRemove F w name empty v).1 = w := by
  unfold writeOrRemove at h ⊢
  split
  · rename_i he
    rw [if_pos he, hp] at h
    dsimp only at h ⊢
    rw [hp, writePlist_previous (fs' := (writePlist F true w.2 [name] v).1) (Prod.ext rfl h)]
  · rename_i he
    rw [if_neg he, if_pos hp] at h
    have hr := removeNode_spec w.2 [name] (by simp) true
    dsimp only at h ⊢
    unfold removePath at h ⊢
    split at h
    · rename_i fs' x hx
      rw [hx] at hr
      have := hr.2.2.2.2 nofun
      dsimp only at this ⊢
      rw [this]
    · cases h

/-- On a UFO that existed when the writer was opened, a call that writes a property list and raises, for whatever reason, changes nothing at all. -/
theorem C61_previous_partial (E : FontInfo.Env) (L : Casing) (w : World) (op : Op) (ho : WritesPlist op) (hp : w.1.havePrevious = true) (e : Exc)
    (h : (step E L w op).2 = .error e) : (step E L w op).1 = w := by
  cases ho with
  | @info i v =>
    simp only [step] at h ⊢
    unfold Ufo.writeInfo at h ⊢
    split
    · rfl
    · rename_i d hd
      rw [hd, hp] at h
      dsimp only at h ⊢
      rw [hp, writePlist_previous (fs' := (writePlist E.F true w.2 [fontinfoName] (.dict (d.map fun e => (.str e.1, e.2)))).1) (Prod.ext rfl h)]
  | @lib l v =>
    simp only [step] at h ⊢
    unfold writeLib at h ⊢
    split
    · rfl
    · rename_i hv; rw [if_neg hv] at h; exact writeOrRemove_error hp h
  | @groups g v =>
    simp only [step] at h ⊢
    unfold writeGroups at h ⊢
    split
    · rfl
    · rename_i hv; rw [if_neg hv] at h; exact writeOrRemove_error hp h
  | @kerning g v =>
    simp only [step] at h ⊢
    unfold writeKerning at h ⊢
    split
    · rfl
    · rename_i hv; rw [if_neg hv] at h; exact writeOrRemove_error hp h
  | @layerContents o v =>
    simp only [step] at h ⊢
    unfold writeLayerContents at h ⊢
    split
    · rfl
    · rename_i h1
      rw [if_neg h1] at h
      dsimp only at h ⊢
      split
      · rfl
      · rename_i h2
        rw [if_neg h2] at h
        split
        · rfl
        · rename_i t ht
          rw [ht, hp] at h
          dsimp only at h ⊢
          rw [hp, writePlist_previous (fs' := (writePlist E.F true w.2 [layercontentsName] (layersVal t)).1) (Prod.ext rfl h)]

/-- The same for metainfo.plist, which is written when the writer is opened. -/
theorem C61_metainfo_partial (F : FloatCodec) (fs fs' : FS) (version : Int) (creator : PyVal) (validate : Bool) (e : Exc)
    (h : openWriter F true fs version creator validate = (fs', .error e)) : fs' = fs := by
  rcases openWriter_error h with h | ⟨-, h⟩
  · exact h
  · exact writePlist_previous h

/-- The same for contents.plist of a glyph set that existed when it was opened. -/
theorem C61_contents_partial (E : FontInfo.Env) (L : Casing) (w : World) (gs : GlyphSet.GlyphSet) (hp : gs.havePrevious = true) (e : Exc)
    (h : (step E L w (.glyph gs .save)).2 = .error e) : (step E L w (.glyph gs .save)).1 = w := by
  simp only [step, GlyphSet.step, GlyphSet.writeContents] at h ⊢
  rw [hp] at h
  rw [hp, writePlist_previous (fs' := (writePlist E.F true w.2 (gs.dir ++ [GlyphSet.contentsName]) (GlyphSet.contentsVal gs.contents)).1) (Prod.ext rfl h)]

/-- Failing calls of each kind on a UFO that existed: a value that is no property list, a control character, a number that is too big, and a layer that
does not exist. -/
example :
    let w := again60 (run env57 asciiCasing new60 [.lib (.dict [(.str c!"a", .int 1)]) true, .glyphSet none true true, .layerContents none true]).2;
    w.1.havePrevious = true ∧ (readLib fractionCodec w.2 true).toOption = some (.dict [(.str c!"a", .int 1)]) ∧
    (step env57 asciiCasing w (.lib (.dict [(.str c!"a", .none)]) true)).2.toOption = none ∧ (step env57 asciiCasing w (.groups [(c!"\x01", [])] true)).2.toOption = none ∧
    (step env57 asciiCasing w (.kerning [((c!"A", c!"B"), .int (2 ^ 70))] true)).2.toOption = none ∧
    (step env57 asciiCasing w (.layerContents (some [some c!"x"]) true)).2.toOption = none := by decide +kernel

/-- On a new UFO the file is emptied before the data is converted: after the failing second call the lib of the first one is gone, and lib.plist cannot be read. -/
theorem C61_new_refuted :
    let w := run env57 asciiCasing new60 [.lib (.dict [(.str c!"a", .int 1)]) true];
    let r := step env57 asciiCasing w (.lib (.dict [(.str c!"a", .none)]) true);
    (readLib fractionCodec w.2 true).toOption = some (.dict [(.str c!"a", .int 1)]) ∧ r.2.toOption = none ∧
    (r.1.2.getbytes [c!"lib.plist"]).toOption = some [] ∧ (readLib fractionCodec r.1.2 true).toOption = none := by decide +kernel

end Verif.Props
