import Verif.Proofs.UfoFilesDone
import Verif.Props.UfoCopy
/-! C90: loading the images and the data files of a font and saving them in a new UFO 3. -/
namespace Verif.Props
open Verif Verif.Ufo Verif.FS Verif.IO Verif.Spec.Ufo Verif.Spec.Plist Verif.Spec.Copy

theorem source_png {canon : Str → Str} {src : FS} {version : Int} {files : Files} (h : HoldsFiles canon src version files) : ∀ e ∈ files.images, pngValidator e.2 = true := by
  intro e he
  exact (pngValidator_iff _).2 (C63_read src version e.1 e.2 (h.image e he)).1

theorem source_free {canon fold : Str → Str} {src : FS} {version : Int} {files : Files} (h : HoldsFiles canon src version files) (ha : files.Apart fold) : Free fold files.paths := by
  refine ⟨fun a hm => ?_, ha⟩
  rcases List.mem_append.1 hm with hm | hm
  · obtain ⟨⟨n, d⟩, -, rfl⟩ := List.mem_map.1 hm
    exact .inl ⟨n, [], rfl⟩
  · obtain ⟨⟨p, d⟩, he, rfl⟩ := List.mem_map.1 hm
    cases p with
    | cons c r => exact .inr ⟨c, r, rfl⟩
    | nil =>
      exfalso
      have h1 := h.datum _ he
      have h2 := h.data
      have hd : src.node? [dataName] = some .dir := by
        unfold getDataDirectoryListing at h2
        split at h2
        · assumption
        · have := h2.symm.eq_nil
          simp only [List.map_eq_nil_iff, Dict.keys] at this
          rw [this] at he
          cases he
      unfold readBytesFromPath FS.getbytes at h1
      rw [show src.node? [c!"data"] = some .dir from hd] at h1
      cases h1

theorem region_new {F : FloatCodec} {fs fs' : FS} (hk : KeepsApart fs.canon) (hnew : fs.nodes = []) {creator : PyVal} {w : Writer}
    (h : openWriter F false fs 3 creator true = (fs', .ok w)) : Region fs.canon [] fs' := by
  obtain ⟨-, -, hwp, -⟩ := openWriter_ok h
  have hacts := writePlist_acts F false fs [metainfoName] (metaInfo creator 3)
  rw [hwp] at hacts
  refine ⟨hacts.canon, hacts.wf (by rw [hnew]; exact List.nodup_nil), fun k n hg hd => ?_, nofun, nofun⟩
  exfalso
  rw [hacts.get? k, hnew] at hg
  · cases hg
  · rintro p rfl ⟨t, ht⟩
    subst ht
    simp only [FS.key, List.map_cons, List.map_nil, List.cons_append, List.head?_cons, Option.some.injEq] at hd
    rcases hd with e | e
    · exact absurd (hk.names _ (by decide) _ (by decide) e) (by decide)
    · exact absurd (hk.names _ (by decide) _ (by decide) e) (by decide)

/-- The images and the data files that a reader delivers, from a UFO of any version, can be saved in a new UFO: whatever the order in which a program makes the calls that save them, and whatever
other calls it makes that are about other parts of the UFO, every one of them returns, and then a reader lists exactly these files, under the names under which the file system keeps them, and
delivers the same content. -/
theorem C90_files (E : FontInfo.Env) (L : Casing) (src : FS) (version : Int) (files : Files) (hload : HoldsFiles id src version files) (hwi : Dict.WF files.images) (hwd : Dict.WF files.data)
    (fs fs' : FS) (hk : KeepsApart fs.canon) (hnew : fs.nodes = []) (hapart : files.Apart fs.canon) (creator : PyVal) (w : Writer)
    (h : openWriter E.F false fs 3 creator true = (fs', .ok w))
    (ops : List Op) (hothers : ∀ op ∈ ops, SavesFile files op ∨ Spares fs.canon c!"images" op ∧ Spares fs.canon c!"data" op) :
    (∀ pre op post, ops = pre ++ op :: post → SavesFile files op → (step E L (run E L (w, fs') pre) op).2 = .ok ()) ∧
    ((∀ op, SavesFile files op → op ∈ ops) → HoldsFiles fs.canon (run E L (w, fs') ops).2 3 files) := by
  have hF := source_free hload hapart
  have hpng := source_png hload
  obtain ⟨-, -, -, hv, hp, -⟩ := openWriter_ok h
  have hR := region_new hk hnew h
  obtain ⟨⟨S, s1, -, s2, s3⟩, hret⟩ := region_run (E := E) (L := L) hF hpng ops (w := (w, fs')) (openWriter_layered h) hv hp (fun _ h => absurd h List.not_mem_nil) hR hothers
  refine ⟨hret, fun hall => ?_⟩
  have hS : ∀ a, a ∈ S ↔ a ∈ files.paths := fun a => ⟨s1 a, fun ha => by
    obtain ⟨op, h1, rfl⟩ := mem_paths ha
    exact s3 op (hall op h1) h1⟩
  refine region_holds (fun e => absurd (hk.names _ (by decide) _ (by decide) e) (by decide)) hF hpng hwi hwd ⟨s2.canon_eq, s2.wf, fun k n a b => ?_, fun a ha => s2.files a ((hS a).2 ha), fun a ha => s2.dirs a ((hS a).2 ha)⟩
  simpa only [hS] using s2.only k n a b

theorem savesFile_spares {canon : Str → Str} (hk : KeepsApart canon) {files : Files} {op : Op} (h : SavesFile files op) :
    (∀ n ∈ standardNames, n ≠ c!"images" → n ≠ c!"data" → Spares canon n op) ∧ ∀ d, GlyphsDir d → Spares canon d op := by
  have key : ∀ x, Concerns op x → x = c!"images" ∨ x = c!"data" := by
    intro x hx
    cases h with
    | image => cases hx; exact .inl rfl
    | data => cases hx; exact .inr rfl
  have hmem : ∀ x, Concerns op x → x ∈ standardNames := fun x hx => by rcases key x hx with rfl | rfl <;> decide
  refine ⟨fun n hn h1 h2 x hx e => ?_, fun d hd x hx e => hk.dirs x (hmem x hx) d hd e.symm⟩
  have := hk.names x (hmem x hx) n hn e
  subst this
  rcases key x hx with h | h
  · exact h1 h
  · exact h2 h

theorem savesAll_font {canon : Str → Str} (hk : KeepsApart canon) {L : Casing} {G : Glif.Env} {font : Whole} {files : Files} {calls : List FontCall} (h : SavesAll canon L G font files calls) :
    SavesFont canon L G font calls := by
  refine ⟨h.gets, h.sets, h.later, fun op ho => h.all op (.inl ho), fun op ho => ?_⟩
  rcases h.others op ho with h | h | h
  · exact .inl h
  · obtain ⟨a, b⟩ := savesFile_spares hk h
    exact .inr ⟨fun n hn => a n (by revert hn; revert n; decide) (by rintro rfl; revert hn; decide) (by rintro rfl; revert hn; decide), a _ (by decide) (by decide) (by decide), b⟩
  · exact .inr ⟨fun n hn => h.1 n (by revert hn; revert n; decide), h.1 _ (by decide), h.2⟩

/-- The whole font together with its images and data files (cf. `C89_copy_partial`): it can be saved in an empty directory, every call that saves a part of it returns whatever their order, and then a
reader delivers the same font and the same files. -/
theorem C90_copy_partial (E : FontInfo.Env) (hF : E.F.Lawful) (G : Glif.Env) (hG : Spec.Glif.ReprLaws G) (hGE : G.F = E.F) (L : Casing) (hL : AsciiPrefix L) (hlaw : L.Lawful) (hC : Spec.GlyphSet.CaseLaws L.lower)
    (ord1 ord2 : List Str → List Str) (h1 : ∀ l, (ord1 l).Perm l) (h2 : ∀ l, (ord2 l).Perm l)
    (src : FS) (version : Int) (font : Whole) (hload : LoadsFont E G ord1 ord2 src version font) (files : Files) (hfiles : HoldsFiles id src version files)
    (hfit : font.content.Fits) (hlayers : ∀ l ∈ font.layers, l.Fits L.lower) (hfew : font.layers.length < 999999999999998)
    (hwi : Dict.WF files.images) (hwd : Dict.WF files.data) (hapart : files.Apart L.lower)
    (fs : FS) (hcanon : ∀ a b, fs.canon a = fs.canon b → L.lower a = L.lower b) (hnew : fs.nodes = [])
    (creator : PyVal) (hcr : Storable creator)
    (calls : List FontCall) (hs : SavesAll fs.canon L G font files calls)
    (order : Option (List (Option Str))) (ho : order = none ∨ order = some (font.layers.map fun l => some l.name)) :
    ∃ fs' w, openWriter E.F false fs 3 creator true = (fs', .ok w) ∧
      FontReturns E L font { writer := w, fs := fs', sets := [] } calls ∧ FilesReturn E L files { writer := w, fs := fs', sets := [] } calls ∧
      ∃ saved, (Font.run E L { writer := w, fs := fs', sets := [] } calls).step E L (.ufo (.layerContents order true)) = (saved, .ok ()) ∧
        (∃ font', LoadsFont E G ord1 ord2 saved.fs 3 font' ∧ font.Agree font') ∧ HoldsFiles fs.canon saved.fs 3 files := by
  have hk := keepsApart_of hL hcanon
  have hsf := savesAll_font hk hs
  have hempty : ∀ n p, fs.node? (n :: p) = none := fun n p => by rw [node?_of_ne (by simp), hnew]; rfl
  have hnodes : Dict.WF fs.nodes := by rw [hnew]; exact List.nodup_nil
  obtain ⟨fs', w, h, hret, saved, hsaved, hfont⟩ := C89_copy_partial E hF G hG hGE L hL hlaw hC ord1 ord2 h1 h2 src version font hload hfit hlayers hfew fs hcanon hnodes hempty creator hcr calls hsf order ho
  have hok := (source_layers hGE hload hlayers hfew).1
  have hp0 := progress_new hL E hcanon hnodes hempty h font.layers
  generalize hf0 : ({ writer := w, fs := fs', sets := [] } : Font) = f0 at hp0 hret hsaved ⊢
  have hw0 : f0.world = (w, fs') := by rw [← hf0]; rfl
  have hfol : Follows fs.canon font.layers 0 calls := follows_of hL hcanon hsf calls [] rfl
  have hap : files.Apart fs.canon := by
    intro a ha b hb hp
    refine hapart a ha b hb ?_
    have key : ∀ p q : Path, p.map fs.canon <+: q.map fs.canon → p.map L.lower <+: q.map L.lower := by
      intro p
      induction p with
      | nil => exact fun q _ => List.nil_prefix
      | cons x p ih =>
        intro q hq
        cases q with
        | nil => simp at hq
        | cons y q =>
          simp only [List.map_cons, List.cons_prefix_cons] at hq ⊢
          exact ⟨hcanon _ _ hq.1, ih q hq.2⟩
    exact key _ _ hp
  have hops : ∀ op ∈ f0.asOps E L calls ++ [.layerContents order true], SavesFile files op ∨ Spares fs.canon c!"images" op ∧ Spares fs.canon c!"data" op := by
    intro op hop
    rcases List.mem_append.1 hop with hop | hop
    · rcases asOps_mem hL hlaw E hok calls hp0 (Nat.zero_le _) hfol op hop with h | h
      · rcases hs.others op h with h | h | h
        · refine .inr ⟨saves_spares hk h (by decide) ?_, saves_spares hk h (by decide) ?_⟩
          · intro hx; cases h <;> cases hx
          · intro hx; cases h <;> cases hx
        · exact .inl h
        · exact .inr ⟨h.1 _ (by decide), h.1 _ (by decide)⟩
      · exact .inr ⟨h _ (by decide), h _ (by decide)⟩
    · rw [List.mem_singleton.1 hop]
      refine .inr ⟨fun x hx e => ?_, fun x hx e => ?_⟩
      · cases hx; exact absurd (hk.names _ (by decide) _ (by decide) e) (by decide)
      · cases hx; exact absurd (hk.names _ (by decide) _ (by decide) e) (by decide)
  obtain ⟨hA, hB⟩ := C90_files E L src version files hfiles hwi hwd fs fs' hk hnew hap creator w h _ hops
  have hpos : ∀ pre op post, calls = pre ++ .ufo op :: post → ∃ rest, f0.asOps E L calls = f0.asOps E L pre ++ op :: rest := by
    rintro pre op post rfl
    rw [asOps_append]
    exact ⟨_, rfl⟩
  refine ⟨fs', w, h, hf0 ▸ hret, ?_, saved, hf0 ▸ hsaved, hfont, ?_⟩
  · rw [hf0]
    rintro pre op post rfl hop
    obtain ⟨rest, hr⟩ := hpos pre op post rfl
    have := hA (f0.asOps E L pre) op (rest ++ [.layerContents order true]) (by rw [hr]; simp) hop
    rw [← hw0, ← font_run_world] at this
    exact this
  · have := hB fun op hop => by
      obtain ⟨pre, post, hpp⟩ := List.append_of_mem (hs.all op (.inr hop))
      obtain ⟨rest, hr⟩ := hpos pre op post hpp
      rw [hr]; simp
    have hrun : (run E L (w, fs') (f0.asOps E L calls ++ [.layerContents order true])).2 = saved.fs := by
      rw [run_append, ← hw0, ← font_run_world]
      have := congrArg (fun x => x.1.fs) hsaved
      exact this
    rw [hrun] at this
    exact this

/-! ### an example: the UFO of C89 has an image, a file among the images that is none, and data files -/

def files90 : Files := { images := [(c!"a.png", pngSignature ++ [1, 2])], data := [([c!"x"], [4]), ([c!"y", c!"z"], [])] }

theorem holds90 : HoldsFiles id src89 3 files90 where
  images := ⟨[c!"a.png"], eq_ok (by decide +kernel), .of_eq (by decide +kernel)⟩
  image := by
    intro e he
    simp only [files90, List.mem_singleton] at he
    subst he
    exact eq_ok (by decide +kernel)
  data := .of_eq (by decide +kernel)
  datum := by
    intro e he
    simp only [files90, List.mem_cons, List.not_mem_nil, or_false] at he
    rcases he with rfl | rfl <;> exact eq_ok (by decide +kernel)

def calls90 : List FontCall :=
  .ufo (.image c!"a.png" (pngSignature ++ [1, 2]) true) :: calls89 ++ [.ufo (.bytes [c!"data", c!"y", c!"z"] []), .ufo (.bytes [c!"README"] [5]), .ufo (.bytes [c!"data", c!"x"] [4])]

theorem saves90 : SavesAll id asciiCasing env71 font89 files90 calls90 := by
  have h := saves89
  have hm : ∀ op, FontCall.ufo op ∈ calls90 ↔ op = .image c!"a.png" (pngSignature ++ [1, 2]) true ∨ .ufo op ∈ calls89 ∨ op = .bytes [c!"data", c!"y", c!"z"] [] ∨ op = .bytes [c!"README"] [5] ∨
      op = .bytes [c!"data", c!"x"] [4] := by
    intro op
    simp [calls90]
  refine ⟨?_, fun i => ?_, ?_, fun op ho => ?_, fun op ho => ?_⟩
  · rw [← h.gets]
    rw [calls90, List.cons_append, List.filterMap_cons_none rfl, List.filterMap_append]
    exact List.append_nil _
  · rw [← h.sets i]
    rw [calls90, List.cons_append, List.filterMap_cons_none rfl, List.filterMap_append]
    exact List.append_nil _
  · intro pre i c post e
    have := laterB_later calls90 0 (by decide +kernel) pre i c post e
    simpa using this
  · rw [hm]
    rcases ho with ho | ho
    · exact .inr (.inl (h.all op ho))
    · cases ho with
      | image h =>
        simp only [files90, List.mem_singleton] at h
        cases h
        exact .inl rfl
      | data h =>
        simp only [files90, List.mem_cons, List.not_mem_nil, or_false] at h
        rcases h with h | h <;> cases h <;> simp
  · rcases (hm op).1 ho with rfl | ho | rfl | rfl | rfl
    · exact .inr (.inl (.image (by simp [files90])))
    · exact .inl (calls89_saves ho)
    · exact .inr (.inl (.data (by simp [files90])))
    · refine .inr (.inr ⟨fun n hn x hx e => ?_, fun d hd x hx e => ?_⟩)
      · cases hx
        have e : c!"README" = n := e
        subst e
        revert hn; decide
      · cases hx
        have e : c!"README" = d := e
        subst e
        rcases hd with hd | ⟨r, hd⟩ <;> simp at hd
    · exact .inr (.inl (.data (by simp [files90])))

/-- The hypotheses of the theorems hold. -/
example (order : Option (List (Option Str))) (ho : order = none ∨ order = some [some c!"back", some c!"fore"]) :
    ∃ fs' w, openWriter fractionCodec false fs57 3 (.str c!"me") true = (fs', .ok w) ∧
      FontReturns env57 asciiCasing font89 { writer := w, fs := fs', sets := [] } calls90 ∧ FilesReturn env57 asciiCasing files90 { writer := w, fs := fs', sets := [] } calls90 ∧
      ∃ saved, (Font.run env57 asciiCasing { writer := w, fs := fs', sets := [] } calls90).step env57 asciiCasing (.ufo (.layerContents order true)) = (saved, .ok ()) ∧
        (∃ font', LoadsFont env57 env71 id id saved.fs 3 font' ∧ font89.Agree font') ∧ HoldsFiles id saved.fs 3 files90 :=
  C90_copy_partial env57 fractionCodec_lawful env71 reprLaws71 rfl asciiCasing asciiPrefix_ascii asciiCasing_lawful asciiCasing_laws id id (fun _ => .refl _) (fun _ => .refl _) src89 3 font89 loads89 files90 holds90
    ⟨by simp [font89], by decide, by simp [font89, Fits], by simp [font89, Fits, FitsItems]⟩ fits89 (by decide) (by unfold Dict.WF; decide +kernel) (by unfold Dict.WF; decide +kernel)
    (by unfold Files.Apart; decide +kernel) fs57 (fun a b h => congrArg asciiCasing.lower h) rfl (.str c!"me") ⟨.str _ ⟨by unfold XmlText; decide, by decide⟩, trivial⟩ calls90 saves90 order ho

/-- On a file system that ignores case, without a whole font. -/
example (fs' : FS) (w : Writer) (h : openWriter env57.F false { fs57 with canon := asciiCasing.lower } 3 (.str c!"me") true = (fs', .ok w)) :
    HoldsFiles asciiCasing.lower (run env57 asciiCasing (w, fs') [.bytes [c!"data", c!"x"] [4], .image c!"a.png" (pngSignature ++ [1, 2]) true, .features c!"x", .bytes [c!"data", c!"y", c!"z"] []]).2
      3 files90 := by
  have hk : KeepsApart asciiCasing.lower := keepsApart_of asciiPrefix_ascii fun _ _ h => h
  refine (C90_files env57 asciiCasing src89 3 files90 holds90 (by unfold Dict.WF; decide +kernel) (by unfold Dict.WF; decide +kernel) _ fs' hk rfl (by unfold Files.Apart; decide +kernel) _ w h _ ?_).2 ?_
  · intro op ho
    simp only [List.mem_cons, List.not_mem_nil, or_false] at ho
    rcases ho with rfl | rfl | rfl | rfl
    · exact .inl (.data (by simp [files90]))
    · exact .inl (.image (by simp [files90]))
    · refine .inr ⟨?_, ?_⟩ <;> (rintro x hx; cases hx; decide +kernel)
    · exact .inl (.data (by simp [files90]))
  · intro op ho
    cases ho with
    | image h =>
      simp only [files90, List.mem_singleton] at h
      cases h; simp
    | data h =>
      simp only [files90, List.mem_cons, List.not_mem_nil, or_false] at h
      rcases h with h | h <;> cases h <;> simp

/-- That no file may be where another one needs a directory is needed: on a file system that ignores case `data/x` cannot be both, and the second call raises. -/
theorem C90_apart_refuted :
    let files : Files := { images := [], data := [([c!"x"], [4]), ([c!"X", c!"z"], [5])] }
    let src : FS := { canon := id, log := [], nodes := [([c!"data"], .dir), ([c!"data", c!"x"], .file [4]), ([c!"data", c!"X"], .dir), ([c!"data", c!"X", c!"z"], .file [5])] }
    HoldsFiles id src 3 files ∧
    let r := openWriter fractionCodec false { fs57 with canon := asciiCasing.lower } 3 (.str c!"me") true
    (r.2.toOption.map fun w => (step env57 asciiCasing (run env57 asciiCasing (w, r.1) [.bytes [c!"data", c!"x"] [4]]) (.bytes [c!"data", c!"X", c!"z"] [5])).2.toOption) = some none := by
  refine ⟨⟨⟨[], eq_ok (by decide +kernel), .refl _⟩, nofun, .of_eq (by decide +kernel), fun e he => ?_⟩, by decide +kernel⟩
  simp only [List.mem_cons, List.not_mem_nil, or_false] at he
  rcases he with rfl | rfl <;> exact eq_ok (by decide +kernel)

end Verif.Props
