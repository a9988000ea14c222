import Verif.Proofs.UfoResave
import Verif.Props.UfoCopy
/-! C93: a font that was saved is settled. -/
namespace Verif.Props
open Verif Verif.Ufo Verif.FS Verif.IO Verif.Spec.Ufo Verif.Spec.Plist Verif.Spec.Copy

/-- A font that a reader delivers is saved in an empty directory as in `C89_copy_partial`. Whoever loads it from there, opens a writer on it (naming the same creator) and saves parts of it in
place, in any order and any number of times and with any function for choosing file names: the writer opens, every call returns, and not one of them performs an operation on the file system
(equality of file systems includes the log of what was performed on them). -/
theorem C93_settled_partial (E : FontInfo.Env) (hF : E.F.Lawful) (G : Glif.Env) (hG : Spec.Glif.ReprLaws G) (hGE : G.F = E.F) (L : Casing) (hL : AsciiPrefix L) (hlaw : L.Lawful) (hC : Spec.GlyphSet.CaseLaws L.lower)
    (ord1 ord2 : List Str → List Str) (h1 : ∀ l, (ord1 l).Perm l) (h2 : ∀ l, (ord2 l).Perm l)
    (src : FS) (version : Int) (font : Whole) (hload : LoadsFont E G ord1 ord2 src version font)
    (hfit : font.content.Fits) (hlayers : ∀ l ∈ font.layers, l.Fits L.lower) (hfew : font.layers.length < 999999999999998)
    (fs : FS) (hcanon : ∀ a b, fs.canon a = fs.canon b → L.lower a = L.lower b) (hnodes : Dict.WF fs.nodes) (hempty : ∀ n p, fs.node? (n :: p) = none)
    (creator : PyVal) (hcr : Storable creator)
    (calls : List FontCall) (hs : SavesFont fs.canon L G font calls)
    (order : Option (List (Option Str))) (ho : order = none ∨ order = some (font.layers.map fun l => some l.name)) :
    ∃ fs' w saved, openWriter E.F false fs 3 creator true = (fs', .ok w) ∧
      (Font.run E L { writer := w, fs := fs', sets := [] } calls).step E L (.ufo (.layerContents order true)) = (saved, .ok ()) ∧
      (∃ font', LoadsFont E G ord1 ord2 saved.fs 3 font') ∧
      ∀ ord3 ord4 font', LoadsFont E G ord3 ord4 saved.fs 3 font' →
        ∃ w', openWriter E.F true saved.fs 3 creator true = (saved.fs, .ok w') ∧
          ∀ again, Resaves G font' again → ∀ pre c post, again = pre ++ c :: post →
            ∃ f, (Font.run E L { writer := w', fs := saved.fs, sets := [] } pre).step E L c = (f, .ok ()) ∧ f.fs = saved.fs := by
  obtain ⟨fs', w, a1, -, saved, a3, ⟨font1, b1, b2⟩, a5⟩ := copied E hF G hG hGE L hL hlaw hC ord1 ord2 h1 h2 src version font hload hfit hlayers hfew fs hcanon hnodes hempty creator hcr calls hs order ho
  exact ⟨fs', w, saved, a1, a3, ⟨font1, b1⟩, fun o3 o4 font' hl => resaved hF hG hGE L h1 h2 hload hfit hlayers a5 b1 b2 hl⟩

/-! ### a program that saves everything -/

/-- For each layer, its glyph set and the calls that save it; layer number `i` is the first. -/
def saveLayers (L : Casing) (G : Glif.Env) : Nat → List Layer → List FontCall
  | _, [] => []
  | i, l :: ls => .getGlyphSet (some l.name) l.default true :: (layerCalls L G l).map (.set i) ++ saveLayers L G (i + 1) ls

/-- The whole font. -/
def saveAll (L : Casing) (G : Glif.Env) (font : Whole) : List FontCall :=
  [.ufo (.info (Dict.get? font.content.info) true), .ufo (.groups font.content.groups true), .ufo (.kerning font.content.kerning true), .ufo (.lib font.content.lib true),
    .ufo (.features font.content.features)] ++ saveLayers L G 0 font.layers ++ [.ufo (.layerContents none true)]

theorem saveLayers_sets (L : Casing) (G : Glif.Env) : ∀ (ls done : List Layer) (pre : List FontCall) (i : Nat) (s : GlyphSet.SetCall) (post : List FontCall),
    saveLayers L G done.length ls = pre ++ .set i s :: post → ∃ l ∈ ls,
      (done.map (fun l => (some l.name, l.default)) ++ pre.filterMap getCall)[i]? = some (some l.name, l.default) ∧ s ∈ layerCalls L G l
  | [], _, pre, _, _, _, h => by simp [saveLayers] at h
  | l :: ls, done, pre, i, s, post, h => by
    unfold saveLayers at h
    cases pre with
    | nil => simp at h
    | cons x pre =>
      simp only [List.cons_append, List.cons.injEq] at h
      obtain ⟨rfl, h⟩ := h
      rcases List.append_eq_append_iff.1 h with ⟨as, h1, h2⟩ | ⟨bs, h1, h2⟩
      · obtain ⟨l', m1, m2, m3⟩ := saveLayers_sets L G ls (done ++ [l]) as i s post (by rw [List.length_append]; exact h2)
        refine ⟨l', by simp [m1], ?_, m3⟩
        rw [h1, List.filterMap_cons_some (f := getCall) (b := (some l.name, l.default)) rfl, List.filterMap_append]
        have hnil : ((layerCalls L G l).map (FontCall.set done.length)).filterMap getCall = [] := by simp [List.filterMap_map, getCall]
        rw [hnil]
        simpa using m2
      · cases bs with
        | nil =>
          rw [List.nil_append] at h2
          obtain ⟨l', m1, m2, m3⟩ := saveLayers_sets L G ls (done ++ [l]) [] i s post (by rw [List.length_append]; exact h2.symm)
          refine ⟨l', by simp [m1], ?_, m3⟩
          rw [List.append_nil] at h1
          have hnil : pre.filterMap getCall = [] := by rw [← h1]; simp [List.filterMap_map, getCall]
          rw [List.filterMap_cons_some (f := getCall) (b := (some l.name, l.default)) rfl, hnil]
          simpa using m2
        | cons y bs =>
          simp only [List.cons_append, List.cons.injEq] at h2
          obtain ⟨rfl, -⟩ := h2
          have hmem : FontCall.set i s ∈ (layerCalls L G l).map (FontCall.set done.length) := by rw [h1]; simp
          obtain ⟨s', hs', he⟩ := List.mem_map.1 hmem
          cases he
          refine ⟨l, by simp, ?_, hs'⟩
          have hnil : pre.filterMap getCall = [] := by
            have : ((layerCalls L G l).map (FontCall.set done.length)).filterMap getCall = [] := by simp [List.filterMap_map, getCall]
            rw [h1, List.filterMap_append] at this
            exact (List.append_eq_nil_iff.1 this).1
          rw [List.filterMap_cons_some (f := getCall) (b := (some l.name, l.default)) rfl, hnil]
          simp

theorem saveLayers_gets (L : Casing) (G : Glif.Env) : ∀ (ls : List Layer) (i : Nat), (saveLayers L G i ls).filterMap getCall = ls.map fun l => (some l.name, l.default)
  | [], _ => rfl
  | l :: ls, i => by
    have hnil : ((layerCalls L G l).map (FontCall.set i)).filterMap getCall = [] := by simp [List.filterMap_map, getCall]
    unfold saveLayers
    rw [List.cons_append, List.filterMap_cons_some (f := getCall) (b := (some l.name, l.default)) rfl, List.filterMap_append, hnil, saveLayers_gets L G ls]
    rfl

theorem saveLayers_ufo (L : Casing) (G : Glif.Env) : ∀ (ls : List Layer) (i : Nat) (op : Op), .ufo op ∉ saveLayers L G i ls
  | [], _, _, h => by cases h
  | l :: ls, i, op, h => by
    unfold saveLayers at h
    simp only [List.cons_append, List.mem_cons, List.mem_append, List.mem_map, reduceCtorEq, and_false, exists_false, false_or] at h
    exact saveLayers_ufo L G ls _ op h

/-- It is one of the programs that the theorem is about. -/
theorem saveAll_resaves (L : Casing) (G : Glif.Env) (font : Whole) : Resaves G font (saveAll L G font) := by
  refine ⟨fun n b h => ?_, fun pre i s post h => ?_, fun op h => ?_⟩
  · unfold saveAll at h
    simp only [List.filterMap_append, saveLayers_gets] at h
    simp only [List.filterMap_cons, getCall, List.filterMap_nil, List.append_nil, List.nil_append, List.mem_map, Prod.mk.injEq] at h
    obtain ⟨l, hl, rfl, rfl⟩ := h
    exact ⟨l, hl, rfl, rfl⟩
  · unfold saveAll at h
    match pre, h with
    | [], h | [_], h | [_, _], h | [_, _, _], h | [_, _, _, _], h => simp at h
    | a :: b :: c :: d :: e :: pre, h =>
      simp only [List.cons_append, List.nil_append, List.cons.injEq] at h
      obtain ⟨rfl, rfl, rfl, rfl, rfl, h⟩ := h
      have : ∃ post', saveLayers L G 0 font.layers = pre ++ .set i s :: post' := by
        rcases List.eq_nil_or_concat post with rfl | ⟨p, x, rfl⟩
        · have := (List.append_inj' (s₁ := saveLayers L G 0 font.layers) (t₁ := [.ufo (.layerContents none true)]) (s₂ := pre) (t₂ := [.set i s]) h rfl).2
          simp at this
        · have := (List.append_inj' (s₁ := saveLayers L G 0 font.layers) (t₁ := [.ufo (.layerContents none true)]) (s₂ := pre ++ .set i s :: p) (t₂ := [x]) (by rw [h]; simp) rfl).1
          exact ⟨p, this⟩
      obtain ⟨post', hp⟩ := this
      obtain ⟨l, m1, m2, m3⟩ := saveLayers_sets L G font.layers [] pre i s post' hp
      refine ⟨l, m1, ?_, ?_⟩
      · rw [List.map_nil, List.nil_append] at m2
        exact m2
      · unfold layerCalls at m3
        simp only [List.mem_append, List.mem_map, List.mem_cons, List.not_mem_nil, or_false] at m3
        rcases m3 with ⟨op, m3, rfl⟩ | rfl | rfl
        · exact .glyph m3
        · exact .table
        · exact .info
  · unfold saveAll at h
    simp only [List.mem_append, saveLayers_ufo, or_false, List.mem_cons, FontCall.ufo.injEq, List.not_mem_nil] at h
    rcases h with (rfl | rfl | rfl | rfl | rfl) | rfl
    · exact .inl .info
    · exact .inl .groups
    · exact .inl .kerning
    · exact .inl .lib
    · exact .inl .features
    · exact .inr ⟨none, .inl rfl, rfl⟩

/-- The hypotheses of the theorem hold. -/
example (order : Option (List (Option Str))) (ho : order = none ∨ order = some [some c!"back", some c!"fore"]) :
    ∃ fs' w saved, openWriter fractionCodec false fs57 3 (.str c!"me") true = (fs', .ok w) ∧
      (Font.run env57 asciiCasing { writer := w, fs := fs', sets := [] } calls89).step env57 asciiCasing (.ufo (.layerContents order true)) = (saved, .ok ()) ∧
      ∃ font' w', LoadsFont env57 env71 id id saved.fs 3 font' ∧ openWriter fractionCodec true saved.fs 3 (.str c!"me") true = (saved.fs, .ok w') ∧
        ∀ pre c post, saveAll asciiCasing env71 font' = pre ++ c :: post →
          ∃ f, (Font.run env57 asciiCasing { writer := w', fs := saved.fs, sets := [] } pre).step env57 asciiCasing c = (f, .ok ()) ∧ f.fs = saved.fs := by
  obtain ⟨fs', w, saved, a1, a2, ⟨font', a3⟩, a4⟩ :=
    C93_settled_partial env57 fractionCodec_lawful env71 reprLaws71 rfl asciiCasing asciiPrefix_ascii asciiCasing_lawful asciiCasing_laws id id (fun _ => .refl _) (fun _ => .refl _) src89 3 font89 loads89
      ⟨by simp [font89], by decide, by simp [font89, Fits], by simp [font89, Fits, FitsItems]⟩ fits89 (by decide) fs57 (fun a b h => congrArg asciiCasing.lower h) (by unfold Dict.WF; decide +kernel)
      (fun n p => by simp [fs57, FS.node?, FS.key]) (.str c!"me") ⟨.str _ ⟨by unfold XmlText; decide, by decide⟩, trivial⟩ calls89 saves89 order ho
  obtain ⟨w', b1, b2⟩ := a4 id id font' a3
  exact ⟨fs', w, saved, a1, a2, font', w', a3, b1, fun pre c post h => b2 _ (saveAll_resaves _ _ _) pre c post h⟩

end Verif.Props
