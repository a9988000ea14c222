import Verif.Proofs.UfoCopied
import Verif.Props.Copy
/-! C89: loading a whole font of any UFO version and saving it as a new UFO 3. -/
namespace Verif.Props
open Verif Verif.Ufo Verif.FS Verif.IO Verif.Spec.Ufo Verif.Spec.Plist Verif.Spec.Copy

/-- A whole font that a reader delivers (content and every layer with its glyphs and layer info, from a UFO of any version) can be saved in an empty directory: the writer opens, whatever the order
in which a program makes the calls that save the parts, every one of them returns, the layer contents can be written at the end, and then a reader delivers the same font: the same content, and the
same layers in the same order with the same glyphs and the same layer info. -/
theorem C89_copy_partial (E : FontInfo.Env) (hF : E.F.Lawful) (G : Glif.Env) (hG : Spec.Glif.ReprLaws G) (hGE : G.F = E.F) (L : Casing) (hL : AsciiPrefix L) (hlaw : L.Lawful) (hC : Spec.GlyphSet.CaseLaws L.lower)
    (ord1 ord2 : List Str → List Str) (h1 : ∀ l, (ord1 l).Perm l) (h2 : ∀ l, (ord2 l).Perm l)
    (src : FS) (version : Int) (font : Whole) (hload : LoadsFont E G ord1 ord2 src version font)
    (hfit : font.content.Fits) (hlayers : ∀ l ∈ font.layers, l.Fits L.lower) (hfew : font.layers.length < 999999999999998)
    (fs : FS) (hcanon : ∀ a b, fs.canon a = fs.canon b → L.lower a = L.lower b) (hnodes : Dict.WF fs.nodes) (hempty : ∀ n p, fs.node? (n :: p) = none)
    (creator : PyVal) (hcr : Storable creator)
    (calls : List FontCall) (hs : SavesFont fs.canon L G font calls)
    (order : Option (List (Option Str))) (ho : order = none ∨ order = some (font.layers.map fun l => some l.name)) :
    ∃ fs' w, openWriter E.F false fs 3 creator true = (fs', .ok w) ∧
      FontReturns E L font { writer := w, fs := fs', sets := [] } calls ∧
      ∃ saved, (Font.run E L { writer := w, fs := fs', sets := [] } calls).step E L (.ufo (.layerContents order true)) = (saved, .ok ()) ∧
        ∃ font', LoadsFont E G ord1 ord2 saved.fs 3 font' ∧ font.Agree font' := by
  obtain ⟨fs', w, a1, a2, saved, a3, a4, -⟩ := copied E hF G hG hGE L hL hlaw hC ord1 ord2 h1 h2 src version font hload hfit hlayers hfew fs hcanon hnodes hempty creator hcr calls hs order ho
  exact ⟨fs', w, a1, a2, saved, a3, a4⟩

/-! ### an example -/

/-- A UFO 3 with two layers; the default layer is the second one and is not called `public.default`. -/
def src89 : FS where
  canon := id
  log := []
  nodes := [
    ([c!"metainfo.plist"], .file (utf8 c!"<plist><dict><key>formatVersion</key><integer>3</integer></dict></plist>")),
    ([c!"layercontents.plist"], .file (utf8 c!"<plist><array><array><string>back</string><string>glyphs.b</string></array><array><string>fore</string><string>glyphs</string></array></array></plist>")),
    ([c!"groups.plist"], .file (utf8 c!"<plist><dict><key>public.kern1.A</key><array><string>A</string></array></dict></plist>")),
    ([c!"kerning.plist"], .file (utf8 c!"<plist><dict><key>public.kern1.A</key><dict><key>B</key><integer>3</integer></dict></dict></plist>")),
    ([c!"lib.plist"], .file (utf8 c!"<plist><dict><key>a</key><true/></dict></plist>")),
    ([c!"glyphs"], .dir),
    ([c!"glyphs", c!"contents.plist"], .file (utf8 c!"<plist><dict><key>A.alt</key><string>x.glif</string><key>a</key><string>y.glif</string></dict></plist>")),
    ([c!"glyphs", c!"x.glif"], .file (utf8 text80)),
    ([c!"glyphs", c!"y.glif"], .file (utf8 c!"<glyph name='a' format='2'><advance width='50'/></glyph>")),
    ([c!"glyphs.b"], .dir),
    ([c!"glyphs.b", c!"contents.plist"], .file (utf8 c!"<plist><dict><key>a</key><string>a.glif</string></dict></plist>")),
    ([c!"glyphs.b", c!"layerinfo.plist"], .file (utf8 c!"<plist><dict><key>color</key><string>1,0,0,1</string></dict></plist>")),
    ([c!"glyphs.b", c!"a.glif"], .file (utf8 c!"<glyph name='a' format='2'><advance width='60'/></glyph>")),
    ([c!"images"], .dir),
    ([c!"images", c!"a.png"], .file (pngSignature ++ [1, 2])),
    ([c!"images", c!"notes.txt"], .file [3]),
    ([c!"data"], .dir),
    ([c!"data", c!"x"], .file [4]),
    ([c!"data", c!"y"], .dir),
    ([c!"data", c!"y", c!"z"], .file [])]

/-- What its reader delivers. -/
def font89 : Whole where
  content := { info := [], groups := [(c!"public.kern1.A", [c!"A"])], kerning := [((c!"public.kern1.A", c!"B"), .int 3)], lib := .dict [(.str c!"a", .bool true)], features := [] }
  layers := [⟨c!"back", false, glyphs c!"back", [(.str c!"color", .str c!"1,0,0,1")]⟩, ⟨c!"fore", true, glyphs c!"fore", []⟩]
where
  glyphs (n : Str) : List Loaded := ((readerGlyphSet env71.F src89 3 (some n) true).toOption.map fun gs => (GlyphSet.keys gs).filterMap fun g =>
    (GlyphSet.readGlyph env71 (gs, src89) g true true true).toOption.map fun r => (g, r)).getD []

example : (font89.layers.map fun l => l.glyphs.map fun g => (g.1, Spec.Glif.delivered g.2.1 c!"width")) =
    [[(c!"a", .int 60)], [(c!"A.alt", .int 0), (c!"a", .int 50)]] := by decide +kernel

/-- A program that saves it. -/
def calls89 : List FontCall :=
  [.getGlyphSet (some c!"back") false true, .ufo (.groups font89.content.groups true)] ++ (layerCalls asciiCasing env71 font89.layers[0]).map (.set 0) ++
  [.ufo (.info (Dict.get? font89.content.info) true), .getGlyphSet (some c!"fore") true true, .ufo (.kerning font89.content.kerning true)] ++
  (layerCalls asciiCasing env71 font89.layers[1]).map (.set 1) ++ [.ufo (.lib font89.content.lib true), .ufo (.features font89.content.features)]

theorem loads89_layer {l : Layer} (hl : l ∈ font89.layers) : LoadsLayer env71 src89 3 l := by
  have hdef : getDefaultLayerName env71.F src89 3 true = .ok c!"fore" := eq_ok (by decide +kernel)
  have hfrom : ∀ n gs, readerGlyphSet env71.F src89 3 (some n) true = .ok gs → LoadedFrom env71 (gs, src89) (font89.glyphs n) := by
    intro n gs h g hg
    unfold font89.glyphs at hg
    rw [h] at hg
    obtain ⟨m, -, h⟩ := List.mem_filterMap.1 (hg : g ∈ List.filterMap _ _)
    cases hr : (GlyphSet.readGlyph env71 (gs, src89) m true true true).toOption with
    | none => rw [hr] at h; cases h
    | some r =>
      rw [hr] at h
      cases h
      exact toOption_some hr
  have hget : ∀ n, (readerGlyphSet env71.F src89 3 (some n) true).toOption.isSome = true → ∃ gs, readerGlyphSet env71.F src89 3 (some n) true = .ok gs := by
    intro n h
    cases hr : readerGlyphSet env71.F src89 3 (some n) true with
    | error e => rw [hr] at h; cases h
    | ok gs => exact ⟨gs, rfl⟩
  simp only [font89, List.mem_cons, List.not_mem_nil, or_false] at hl
  rcases hl with rfl | rfl
  · obtain ⟨gs, hgs⟩ := hget c!"back" (by decide +kernel)
    refine ⟨by rw [hdef]; decide, gs, hgs, ?_, (by dsimp only; exact hfrom c!"back" gs hgs), ?_⟩
    · have : ((readerGlyphSet env71.F src89 3 (some c!"back") true).toOption.map GlyphSet.keys) = some ((font89.glyphs c!"back").map Prod.fst) := by decide +kernel
      rw [hgs] at this
      have this : some (GlyphSet.keys gs) = _ := this
      injection this with this
      dsimp only
      exact .of_eq this.symm
    · have : ((readerGlyphSet env71.F src89 3 (some c!"back") true).toOption.bind fun gs => (GlyphSet.readLayerInfo env71.F (gs, src89) true).toOption) =
          some [(.str c!"color", .str c!"1,0,0,1")] := by decide +kernel
      rw [hgs] at this
      exact toOption_some this
  · obtain ⟨gs, hgs⟩ := hget c!"fore" (by decide +kernel)
    refine ⟨by rw [hdef]; decide, gs, hgs, ?_, (by dsimp only; exact hfrom c!"fore" gs hgs), ?_⟩
    · have : ((readerGlyphSet env71.F src89 3 (some c!"fore") true).toOption.map GlyphSet.keys) = some ((font89.glyphs c!"fore").map Prod.fst) := by decide +kernel
      rw [hgs] at this
      have this : some (GlyphSet.keys gs) = _ := this
      injection this with this
      dsimp only
      exact .of_eq this.symm
    · have : ((readerGlyphSet env71.F src89 3 (some c!"fore") true).toOption.bind fun gs => (GlyphSet.readLayerInfo env71.F (gs, src89) true).toOption) = some [] := by decide +kernel
      rw [hgs] at this
      exact toOption_some this

theorem loads89 : LoadsFont env57 env71 id id src89 3 font89 :=
  ⟨eq_ok (by decide +kernel), ⟨eq_ok (by decide +kernel), eq_ok (by decide +kernel), eq_ok (by decide +kernel), fun h => absurd h (by decide), fun _ => ⟨eq_ok (by decide +kernel), eq_ok (by decide +kernel)⟩⟩,
    eq_ok (by decide +kernel), fun _ hl => loads89_layer hl⟩

theorem fits89 : ∀ l ∈ font89.layers, l.Fits asciiCasing.lower := by
  have h0 : ∀ l ∈ font89.layers, ∀ g ∈ l.glyphs, Spec.Glif.AttrText g.1 := by unfold Spec.Glif.AttrText FileText XmlText; decide +kernel
  have h5 : ∀ l ∈ font89.layers, ∀ n ∈ l.glyphs.map Prod.fst, n ≠ [] ∧ ∀ c ∈ n, c.toNat < 128 := by decide +kernel
  have h6 : ∀ l ∈ font89.layers, ∀ n ∈ l.glyphs.map Prod.fst, ∀ m ∈ l.glyphs.map Prod.fst,
      (Spec.GlyphSet.ownFile (List.map asciiLowerChar) n).map asciiLowerChar = (Spec.GlyphSet.ownFile (List.map asciiLowerChar) m).map asciiLowerChar → n = m := by decide +kernel
  have h1 : ∀ l ∈ font89.layers, ∀ g ∈ l.glyphs, ∀ k ∈ [c!"name", c!"image", c!"guidelines", c!"anchors"], ∀ s ∈ Spec.Glif.strings (Spec.Glif.delivered g.2.1 k), '\r' ∉ s ∧ '\t' ∉ s := by decide +kernel
  have h2 : ∀ l ∈ font89.layers, ∀ g ∈ l.glyphs, ∀ c ∈ g.2.2, ∀ s ∈ Spec.Glif.callStrings c, '\r' ∉ s ∧ '\t' ∉ s := by decide +kernel
  have h3 : ∀ l ∈ font89.layers, ∀ g ∈ l.glyphs, ∀ s ∈ Spec.Glif.strings (Spec.Glif.delivered g.2.1 c!"note"), '\r' ∉ s := by decide +kernel
  have h4 : ∀ l ∈ font89.layers, ∀ g ∈ l.glyphs, Spec.Glif.delivered g.2.1 c!"lib" = .none ∨ Spec.Glif.delivered g.2.1 c!"lib" = .dict [(.str c!"b", .int 2), (.str c!"a", .str c!"x < y")] := by decide +kernel
  intro l hl
  refine ⟨by revert l; decide +kernel, own_list asciiCasing_ascii (h5 l hl) (h6 l hl), h0 l hl, fun g hg => ?_, ?_⟩
  · refine ⟨h1 l hl g hg, h2 l hl g hg, h3 l hl g hg, ?_⟩
    rcases h4 l hl g hg with h | h <;> rw [h] <;> simp [Fits, FitsItems]
  · simp only [font89, List.mem_cons, List.not_mem_nil, or_false] at hl
    rcases hl with rfl | rfl <;> simp [Fits]

/-- No call is made on a glyph set that was not obtained yet. -/
def laterB : Nat → List FontCall → Bool
  | _, [] => true
  | k, .getGlyphSet _ _ _ :: cs => laterB (k + 1) cs
  | k, .set i _ :: cs => decide (i < k) && laterB k cs
  | k, .ufo _ :: cs => laterB k cs

theorem laterB_later (cs : List FontCall) : ∀ (k : Nat), laterB k cs = true → ∀ pre i c post, cs = pre ++ .set i c :: post → i < k + (pre.filterMap getCall).length := by
  induction cs with
  | nil => intro k _ pre i c post h; simp at h
  | cons x cs ih =>
    intro k hk pre i c post h
    cases pre with
    | nil =>
      rw [List.nil_append, List.cons.injEq] at h
      rw [h.1] at hk
      simp only [laterB, Bool.and_eq_true, decide_eq_true_eq] at hk
      simpa using hk.1
    | cons y pre =>
      rw [List.cons_append, List.cons.injEq] at h
      obtain ⟨rfl, h⟩ := h
      cases x with
      | getGlyphSet n b v =>
        have := ih (k + 1) hk pre i c post h
        rw [List.filterMap_cons_some (f := getCall) (b := (n, b)) rfl, List.length_cons]
        omega
      | ufo op => exact ih k hk pre i c post h
      | set j s =>
        simp only [laterB, Bool.and_eq_true] at hk
        exact ih k hk.2 pre i c post h

theorem calls89_saves {op : Op} (h : .ufo op ∈ calls89) : Saves font89.content op := by
  simp only [calls89, List.mem_append, List.mem_cons, List.mem_map, List.not_mem_nil, or_false, reduceCtorEq, and_false, exists_false, FontCall.ufo.injEq, false_or] at h
  rcases h with ((rfl | rfl | rfl) | rfl | rfl)
  all_goals constructor

theorem saves89 : SavesFont id asciiCasing env71 font89 calls89 := by
  have hset : ∀ (i j : Nat) (l : List GlyphSet.SetCall), (l.map (FontCall.set j)).filterMap (onSet i) = if j = i then l else [] := by
    intro i j l
    induction l with
    | nil => simp
    | cons c l ih =>
      rw [List.map_cons]
      by_cases h : j = i
      · rw [List.filterMap_cons_some (b := c) (by simp [onSet, h]), ih]; simp [h]
      · rw [List.filterMap_cons_none (by simp [onSet, h]), ih]; simp [h]
  have hgetc : ∀ (j : Nat) (l : List GlyphSet.SetCall), (l.map (FontCall.set j)).filterMap getCall = [] := by
    intro j l
    simp [List.filterMap_map, getCall]
  refine ⟨?_, fun i => ?_, ?_, fun op h => ?_, fun op h => .inl ?_⟩
  · simp only [calls89, List.filterMap_append, hgetc]
    rfl
  · simp only [calls89, List.filterMap_append, hset]
    have h1 : ∀ a b : FontCall, onSet i a = none → onSet i b = none → [a, b].filterMap (onSet i) = [] := by
      intro a b ha hb
      rw [List.filterMap_cons_none ha, List.filterMap_cons_none hb, List.filterMap_nil]
    have h2 : ∀ a b c : FontCall, onSet i a = none → onSet i b = none → onSet i c = none → [a, b, c].filterMap (onSet i) = [] := by
      intro a b c ha hb hc
      rw [List.filterMap_cons_none ha, h1 _ _ hb hc]
    rw [h1 _ _ rfl rfl, h1 _ _ rfl rfl, h2 _ _ _ rfl rfl rfl]
    rcases i with _ | _ | i
    · simp [font89]
    · simp [font89]
    · simp [font89]
  · intro pre i c post h
    simpa using laterB_later calls89 0 (by decide +kernel) pre i c post h
  · cases h <;> simp [calls89]
  · exact calls89_saves h

/-- The hypotheses of the theorem hold. -/
example (order : Option (List (Option Str))) (ho : order = none ∨ order = some [some c!"back", some c!"fore"]) :
    ∃ fs' w, openWriter fractionCodec false fs57 3 (.str c!"me") true = (fs', .ok w) ∧
      FontReturns env57 asciiCasing font89 { writer := w, fs := fs', sets := [] } calls89 ∧
      ∃ saved, (Font.run env57 asciiCasing { writer := w, fs := fs', sets := [] } calls89).step env57 asciiCasing (.ufo (.layerContents order true)) = (saved, .ok ()) ∧
        ∃ font', LoadsFont env57 env71 id id saved.fs 3 font' ∧ font89.Agree font' :=
  C89_copy_partial env57 fractionCodec_lawful env71 reprLaws71 rfl asciiCasing asciiPrefix_ascii asciiCasing_lawful asciiCasing_laws id id (fun _ => .refl _) (fun _ => .refl _) src89 3 font89 loads89
    ⟨by simp [font89], by decide, by simp [font89, Fits], by simp [font89, Fits, FitsItems]⟩ fits89 (by decide) fs57 (fun a b h => congrArg asciiCasing.lower h) (by unfold Dict.WF; decide +kernel)
    (fun n p => by simp [fs57, FS.node?, FS.key]) (.str c!"me") ⟨.str _ ⟨by unfold XmlText; decide, by decide⟩, trivial⟩ calls89 saves89 order ho

end Verif.Props
