import Verif.Props.UfoFont
import Verif.Props.GlifPen
import Verif.Proofs.OrderGlyph
/-! What is written does not depend on the order in which dictionaries were filled: C115. -/
namespace Verif.Props
open Verif Verif.Spec.Order Verif.Order

/-! ### Glyphs -/

/-- A glyph object whose dictionaries (those of `guidelines`, `anchors`, `image` and everything in `lib`) were filled in another order gives the same file, or is refused as well. Missing from the
full claim: `C115_refuted_unicodes`. -/
theorem C115_glyph_partial (E : Glif.Env) (fv : Nat) (name : PyVal) (o p : Glif.Obj) (draw : Option (List Glif.Call)) (h : AlikeObj o p) (hu : ∀ d, o c!"unicodes" ≠ some (.dict d)) :
    SameResult (GlifFile.writeGlyphToBytes E true fv name o draw) (GlifFile.writeGlyphToBytes E true fv name p draw) :=
  bytes_result (tree_result (head_alike E fv h hu) (fun ids => drawn_alike E fv ids (attr_alike h c!"anchors") draw) (attr_alike h c!"lib"))

/-- The same without validation, for the dictionaries in the `lib`. -/
theorem C115_glyph_lib (E : Glif.Env) (validate : Bool) (fv : Nat) (name : PyVal) (o p : Glif.Obj) (draw : Option (List Glif.Call)) (h : ∀ a, a ≠ c!"lib" → o a = p a)
    (hl : Option.Rel Alike (o c!"lib") (p c!"lib")) : SameResult (GlifFile.writeGlyphToBytes E validate fv name o draw) (GlifFile.writeGlyphToBytes E validate fv name p draw) := by
  have ha : ∀ a, a ≠ c!"lib" → o.attr a = p.attr a := fun a hne => congrArg (·.getD .none) (h a hne)
  refine bytes_result (tree_result ?_ (fun ids => ?_) ?_)
  · unfold Glif.writeHead Glif.writeAdvance
    rw [ha c!"width" (by decide), ha c!"height" (by decide), ha c!"unicodes" (by decide), ha c!"note" (by decide), ha c!"image" (by decide), ha c!"guidelines" (by decide), ha c!"anchors" (by decide)]
  · rw [ha c!"anchors" (by decide)]
  · unfold Glif.Obj.attr
    generalize o c!"lib" = x, p c!"lib" = y at hl
    cases hl with
    | none => exact ⟨trivial, .refl _⟩
    | some h => exact h

/-! ### The program that saves the font -/

theorem alikeOp_step (E : FontInfo.Env) (L : Casing) (w : Ufo.World) {op op' : Ufo.Op} (h : AlikeOp w.1 op op') : Ufo.step E L w op = Ufo.step E L w op' := by
  cases h with
  | same => rfl
  | info i j validate h => exact info_alike E w validate h
  | lib v v' validate h => exact lib_alike E.F w validate h
  | groups g h validate hg hp ha =>
    have key : (Ufo.groupsToWrite w.1 g).WF ∧ (Ufo.groupsToWrite w.1 g).Perm (Ufo.groupsToWrite w.1 h) := by
      unfold Ufo.groupsToWrite
      cases hm : w.1.renameMap with
      | none => exact ⟨hg, hp⟩
      | some m =>
        by_cases hv : w.1.version < 3
        · simp only [if_pos hv]
          exact ⟨Ufo.wf_remapGroups m g, remapGroups_perm hg hp (ha m ⟨hv, hm⟩)⟩
        · simp only [if_neg hv]
          exact ⟨hg, hp⟩
    exact groups_alike E.F w validate hp key.1 key.2
  | kerning k l validate hk hv hp ha =>
    by_cases hr : ∃ m, Renames w.1 m
    · obtain ⟨m, hr⟩ := hr
      refine kerning_alike E.F w (k' := Converters.remapKerning m k) (l' := Converters.remapKerning m l) validate hp ?_ ?_ (wf_remapKerning m k) (remapKerning_values hv) (remapKerning_perm hp (ha m hr))
      · simp only [Ufo.kerningToWrite, hr.2, if_pos hr.1]
      · simp only [Ufo.kerningToWrite, hr.2, if_pos hr.1]
    · have key : ∀ x : Dict (Str × Str) PyVal, Ufo.kerningToWrite w.1 x = Converters.nest x := by
        intro x
        unfold Ufo.kerningToWrite
        cases hm : w.1.renameMap with
        | none => rfl
        | some m => simp only [if_neg fun hv => hr ⟨m, hv, hm⟩]
      exact kerning_alike E.F w validate hp (key k) (key l) hk hv hp

theorem alikeSet_step (F : FloatCodec) (L : Casing) (w : GlyphSet.World) {c c' : GlyphSet.SetCall} (h : AlikeSet c c') :
    (GlyphSet.setStep L F w c).1 = (GlyphSet.setStep L F w c').1 ∧ SameResult (GlyphSet.setStep L F w c).2 (GlyphSet.setStep L F w c').2 := by
  cases h with
  | same => exact ⟨rfl, rfl⟩
  | layerInfo i j validate h =>
    have := layerInfo_alike F w validate h
    have e : GlyphSet.setStep L F w (.layerInfo i validate) = GlyphSet.setStep L F w (.layerInfo j validate) := by simp only [GlyphSet.setStep, this]
    rw [e]
    exact ⟨rfl, rfl⟩
  | glyph naming name fv x y h =>
    simp only [GlyphSet.setStep, GlyphSet.step, GlyphSet.writeGlyph]
    rcases GlyphSet.glifVersion w.1 fv with e | v
    · exact ⟨rfl, rfl⟩
    · dsimp only
      rcases GlyphSet.assignFile L naming w.1 name with ⟨gs, e | f⟩
      · exact ⟨rfl, rfl⟩
      · dsimp only
        rcases sameResult_cases (h v) with ⟨a, ha, hb⟩ | ⟨e, e', ha, hb⟩
        · rw [ha, hb]; exact ⟨rfl, rfl⟩
        · rw [ha, hb]; exact ⟨rfl, rfl⟩

/-- One call of the program with data that is alike: the same state of the objects and the same files afterwards, and both calls return or both raise. -/
theorem C115_call (E : FontInfo.Env) (L : Casing) (f : Ufo.Font) (c c' : Ufo.FontCall) (h : AlikeCall f.writer c c') :
    (f.step E L c).1 = (f.step E L c').1 ∧ SameResult (f.step E L c).2 (f.step E L c').2 := by
  cases h with
  | glyphSet => exact ⟨rfl, rfl⟩
  | ufo op op' h =>
    have := alikeOp_step E L f.world (op := op) (op' := op') h
    have e : f.step E L (.ufo op) = f.step E L (.ufo op') := by simp only [Ufo.Font.step, this]
    rw [e]
    exact ⟨rfl, rfl⟩
  | set i c c' h =>
    simp only [Ufo.Font.step, Ufo.Font.callSet]
    cases f.sets[i]? with
    | none => exact ⟨rfl, rfl⟩
    | some gs =>
      have := alikeSet_step E.F L (gs, f.fs) h
      dsimp only
      rw [this.1]
      exact ⟨rfl, this.2⟩

/-- Two programs that make the same calls with data that is alike leave the same files, byte for byte, and the same calls raise. Missing from the full claim: groups that are renamed to one name
(`C115_refuted_groups`; the hypothesis excludes them unless they have the same members). -/
theorem C115_files_partial (E : FontInfo.Env) (L : Casing) : ∀ (cs cs' : List Ufo.FontCall) (f : Ufo.Font), AlikeRun E L f cs cs' →
    f.run E L cs = f.run E L cs' ∧ List.Forall₂ SameResult (outcomes E L f cs) (outcomes E L f cs')
  | [], [], _, _ => ⟨rfl, .nil⟩
  | [], _ :: _, _, h => h.elim
  | _ :: _, [], _, h => h.elim
  | c :: cs, c' :: cs', f, h => by
    have h1 := C115_call E L f c c' h.1
    have h2 := C115_files_partial E L cs cs' _ h.2
    simp only [Ufo.Font.run, outcomes]
    rw [← h1.1]
    exact ⟨h2.1, .cons h1.2 h2.2⟩

/-! ### UFO 3: no renaming -/

theorem glyphSet_version (E : FontInfo.Env) (L : Casing) (w : Ufo.World) (n : Option Str) (d v : Bool) : (Ufo.getGlyphSet L E.F w n d v).1.1.version = w.1.version := by
  simp only [Ufo.getGlyphSet, Ufo.getGlyphSet12, Ufo.getGlyphSet3]
  repeat' (first | rfl | split)

theorem step_version (E : FontInfo.Env) (L : Casing) (w : Ufo.World) (op : Ufo.Op) : (Ufo.step E L w op).1.1.version = w.1.version := by
  have hw : ∀ (F : FloatCodec) (n : Str) (b : Bool) (v : PyVal), (Ufo.writeOrRemove F w n b v).1.1.version = w.1.version := by
    intro F n b v; unfold Ufo.writeOrRemove; split
    · rfl
    · split <;> rfl
  cases op with
  | maps a b => simp only [Ufo.step, Ufo.setMaps]; split <;> rfl
  | info i v => simp only [Ufo.step, Ufo.writeInfo]; repeat' (first | rfl | split)
  | lib l v => simp only [Ufo.step, Ufo.writeLib]; split; rfl; exact hw _ _ _ _
  | groups g v => simp only [Ufo.step, Ufo.writeGroups]; split; rfl; exact hw _ _ _ _
  | kerning g v => simp only [Ufo.step, Ufo.writeKerning]; split; rfl; exact hw _ _ _ _
  | features s => simp only [Ufo.step, Ufo.writeFeatures]; repeat' (first | rfl | split)
  | glyphSet n d v => exact glyphSet_version E L w n d v
  | rename n m d => simp only [Ufo.step, Ufo.renameGlyphSet]; repeat' (first | rfl | split)
  | delete n => simp only [Ufo.step, Ufo.deleteGlyphSet]; repeat' (first | rfl | split)
  | layerContents n v => simp only [Ufo.step, Ufo.writeLayerContents]; repeat' (first | rfl | split)
  | image n d v => simp only [Ufo.step, Ufo.writeImage]; repeat' (first | rfl | split)
  | removeImage n => simp only [Ufo.step, Ufo.removeImage]; repeat' (first | rfl | split)
  | bytes p d => rfl
  | remove p f r => rfl
  | copy s p q => rfl
  | copyImage s n m => simp only [Ufo.step, Ufo.copyImageFromReader]; repeat' (first | rfl | split)
  | glyph g o => rfl
  | layerInfo g i v => rfl
theorem fontStep_version (E : FontInfo.Env) (L : Casing) (f : Ufo.Font) (c : Ufo.FontCall) : (f.step E L c).1.writer.version = f.writer.version := by
  cases c with
  | getGlyphSet n d v =>
    have := glyphSet_version E L f.world n d v
    simp only [Ufo.Font.step, Ufo.Font.getGlyphSet]
    split <;> exact this
  | ufo op => exact step_version E L f.world op
  | set i c => simp only [Ufo.Font.step, Ufo.Font.callSet]; split <;> rfl

theorem alikeCall_mono {w w' : Ufo.Writer} (hw : ∀ m, Renames w' m → Renames w m) {c c' : Ufo.FontCall} (h : AlikeCall w c c') : AlikeCall w' c c' := by
  cases h with
  | glyphSet => exact .glyphSet _ _ _
  | set i c c' h => exact .set i c c' h
  | ufo op op' h =>
    refine .ufo _ _ ?_
    cases h with
    | same => exact .same _
    | info i j v h => exact .info i j v h
    | lib i j v h => exact .lib i j v h
    | groups g h v hg hp ha => exact .groups g h v hg hp fun m hm => ha m (hw m hm)
    | kerning k l v hk hv hp ha => exact .kerning k l v hk hv hp fun m hm => ha m (hw m hm)

/-- For UFO 3 there is no renaming: two programs that make the same calls with data that is alike always leave the same files. -/
theorem C115_files3 (E : FontInfo.Env) (L : Casing) (f : Ufo.Font) (hv : 3 ≤ f.writer.version) (cs cs' : List Ufo.FontCall) (h : List.Forall₂ (AlikeCall f.writer) cs cs') :
    f.run E L cs = f.run E L cs' ∧ List.Forall₂ SameResult (outcomes E L f cs) (outcomes E L f cs') := by
  have key : ∀ (cs cs' : List Ufo.FontCall), List.Forall₂ (AlikeCall f.writer) cs cs' → ∀ g : Ufo.Font, 3 ≤ g.writer.version → AlikeRun E L g cs cs' := by
    intro cs cs' h
    induction h with
    | nil => exact fun _ _ => trivial
    | cons h _ ih => exact fun g hg => ⟨alikeCall_mono (fun m hm => absurd hm.1 (by omega)) h, ih _ (by rw [fontStep_version]; exact hg)⟩
  exact C115_files_partial E L cs cs' f (key cs cs' h f hv)

/-! ### Cases -/

/-- Two items of a dictionary in the other order. -/
theorem alike_swap {x y : PyVal × PyVal} (h : Spec.Plist.WellFormed (.dict [x, y])) : Alike (.dict [x, y]) (.dict [y, x]) := ⟨h, .dict _ _ (.swap _ _ _)⟩

/-- A glyph with an anchor and a lib whose dictionaries are filled in two orders: the same file. -/
def glyph115 (b : Bool) : Glif.Obj := fun a =>
  let turn := fun (x y : PyVal × PyVal) => PyVal.dict (if b then [y, x] else [x, y])
  if a = c!"image" then some (turn (.str c!"fileName", .str c!"a.png") (.str c!"color", .str c!"1,0,0,1"))
  else if a = c!"lib" then some (turn (.str c!"z", .int 1) (.str c!"a", turn (.str c!"k", .int 2) (.str c!"j", .int 3)))
  else none

theorem glyph115_alike : AlikeObj (glyph115 false) (glyph115 true) := by
  intro a
  unfold glyph115
  by_cases h1 : a = c!"image"
  · simp only [h1]
    exact .some (alike_swap ⟨by decide, trivial, trivial, trivial⟩)
  · rw [if_neg h1, if_neg h1]
    by_cases h2 : a = c!"lib"
    · simp only [h2]
      refine .some ⟨⟨by decide, trivial, ⟨by decide, trivial, trivial, trivial⟩, trivial⟩, .dict _ _ (.trans _ _ _ (.cons _ _ _ _ _ (.refl _) (.cons _ _ _ _ _ (.dict _ _ (.swap _ _ _)) .nil)) (.swap _ _ _))⟩
    · rw [if_neg h2, if_neg h2]
      exact .none

example : ∃ b, (GlifFile.writeGlyphToBytes env107 true 2 (.str c!"A") (glyph115 false) none).toOption = some b ∧
    (GlifFile.writeGlyphToBytes env107 true 2 (.str c!"A") (glyph115 true) none).toOption = some b := by
  have := C115_glyph_partial env107 2 (.str c!"A") _ _ none glyph115_alike (fun d h => by simp [glyph115] at h)
  unfold SameResult at this
  rw [← this]
  have hs : (GlifFile.writeGlyphToBytes env107 true 2 (.str c!"A") (glyph115 false) none).toOption.isSome = true := by decide +kernel
  obtain ⟨b, hb⟩ := Option.isSome_iff_exists.1 hs
  exact ⟨b, hb, hb⟩

/-- A dictionary as `unicodes` (the code takes the keys) is written in its order. -/
theorem C115_refuted_unicodes : ∃ o p : Glif.Obj, AlikeObj o p ∧ ¬ SameResult (GlifFile.writeGlyphToBytes env107 true 2 (.str c!"A") o none) (GlifFile.writeGlyphToBytes env107 true 2 (.str c!"A") p none) := by
  refine ⟨fun a => if a = c!"unicodes" then some (.dict [(.int 65, .int 1), (.int 66, .int 1)]) else none,
    fun a => if a = c!"unicodes" then some (.dict [(.int 66, .int 1), (.int 65, .int 1)]) else none, fun a => ?_, ?_⟩
  · by_cases h : a = c!"unicodes"
    · simp only [h, if_true]
      exact .some (alike_swap ⟨by decide, trivial, trivial, trivial⟩)
    · simp only [h, if_false]
      exact .none
  · unfold SameResult
    decide +kernel

/-- A program that saves a font with the groups, the kerning and the lib. -/
def calls115 (g : Dict Str (List Str)) (k : Dict (Str × Str) PyVal) (l : List (PyVal × PyVal)) (x : Glif.Obj) : List Ufo.FontCall :=
  [.ufo (.groups g true), .ufo (.kerning k true), .getGlyphSet none true true, .set 0 (.glyphs (.write (GlyphSet.defaultNaming asciiCasing) c!"A" none fun v => GlifFile.writeGlyphToBytes env107 true v.toNat (.str c!"A") x none)),
    .ufo (.lib (.dict l) true), .set 0 (.glyphs .save), .ufo (.layerContents none true)]

/-- The groups of the examples. -/
def g115 : Dict Str (List Str) := [(c!"public.kern1.A", [c!"A", c!"B"]), (c!"public.kern2.A", [c!"C"])]

/-- The kerning of the examples. -/
def k115 : Dict (Str × Str) PyVal := [((c!"public.kern1.A", c!"public.kern2.A"), .int 3), ((c!"C", c!"A"), .int 4)]

/-- A new UFO. -/
def start115 : Ufo.Font := { writer := new60.1, fs := new60.2, sets := [] }

theorem calls115_alike : List.Forall₂ (AlikeCall start115.writer) (calls115 g115 k115 [(.str c!"z", .int 1), (.str c!"a", .int 2)] (glyph115 false))
    (calls115 g115.reverse k115.reverse [(.str c!"a", .int 2), (.str c!"z", .int 1)] (glyph115 true)) := by
  have hno : ∀ m, ¬ Renames start115.writer m := fun m h => absurd h.1 (by decide +kernel)
  refine .cons (.ufo _ _ (.groups _ _ _ (by unfold Dict.WF; decide) (List.reverse_perm _).symm fun m hm => (hno m hm).elim)) ?_
  refine .cons (.ufo _ _ (.kerning _ _ _ (by unfold Dict.WF; decide) ?_ (List.reverse_perm _).symm fun m hm => (hno m hm).elim)) ?_
  · intro e he
    simp only [k115, List.mem_cons, List.not_mem_nil, or_false] at he
    rcases he with rfl | rfl <;> exact trivial
  refine .cons (.glyphSet _ _ _) (.cons (.set _ _ _ (.glyph _ _ _ _ _ fun v => C115_glyph_partial env107 _ _ _ _ none glyph115_alike (fun d h => by simp [glyph115] at h))) ?_)
  exact .cons (.ufo _ _ (.lib _ _ _ (alike_swap ⟨by decide, trivial, trivial, trivial⟩))) (.cons (.set _ _ _ (.same _)) (.cons (.ufo _ _ (.same _)) .nil))

example : start115.run env57 asciiCasing (calls115 g115 k115 [(.str c!"z", .int 1), (.str c!"a", .int 2)] (glyph115 false)) =
    start115.run env57 asciiCasing (calls115 g115.reverse k115.reverse [(.str c!"a", .int 2), (.str c!"z", .int 1)] (glyph115 true)) :=
  (C115_files3 env57 asciiCasing start115 (by decide +kernel) _ _ calls115_alike).1

/-- What is in `groups.plist` of a new UFO 2 when these groups were written by a program that gave the two names the old name `A`. -/
def groups115 (g : Dict Str (List Str)) : Option PyVal :=
  (IO.getPlist fractionCodec (Ufo.Font.run env57 asciiCasing { start115 with writer := { start115.writer with version := 2 } }
    [.ufo (.maps [(c!"A", c!"public.kern1.A")] [(c!"A", c!"public.kern2.A")]), .ufo (.groups g true)]).fs [c!"groups.plist"] none).toOption

/-- Two groups that get the same name in a UFO 2: the last one in the order of the dictionary stays. -/
theorem C115_refuted_groups : groups115 g115 = some (.dict [(.str c!"A", .list [.str c!"C"])]) ∧
    groups115 g115.reverse = some (.dict [(.str c!"A", .list [.str c!"A", .str c!"B"])]) := by decide +kernel

/-- With the same members in both groups the order does not matter. -/
example : AlikeRun env57 asciiCasing { start115 with writer := { start115.writer with version := 2 } }
    [.ufo (.maps [(c!"A", c!"public.kern1.A")] [(c!"A", c!"public.kern2.A")]), .ufo (.groups [(c!"public.kern1.A", [c!"A"]), (c!"public.kern2.A", [c!"A"])] true)]
    [.ufo (.maps [(c!"A", c!"public.kern1.A")] [(c!"A", c!"public.kern2.A")]), .ufo (.groups [(c!"public.kern2.A", [c!"A"]), (c!"public.kern1.A", [c!"A"])] true)] := by
  refine ⟨.ufo _ _ (.same _), .ufo _ _ (.groups _ _ _ (by unfold Dict.WF; decide) (.swap _ _ _) fun m _ e he e' he' n _ _ => ?_), trivial⟩
  simp only [List.mem_cons, List.not_mem_nil, or_false] at he he'
  rcases he with rfl | rfl <;> rcases he' with rfl | rfl <;> rfl

/-- All these calls return. -/
example : (outcomes env57 asciiCasing start115 (calls115 g115 k115 [(.str c!"z", .int 1), (.str c!"a", .int 2)] (glyph115 false))).all (fun x => x.toOption.isSome) = true := by decide +kernel

end Verif.Props
