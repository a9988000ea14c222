import Verif.Proofs.GlyphObjects
import Verif.Props.Draw
/-! Glyph objects that are kept, drawn again and written: C130, C131. -/
namespace Verif.Props
open Verif Verif.Glif Verif.GlyphSet Verif.Spec.Glif Verif.GlifFile Verif.Proofs.GlyphObjects

/-! ### C130 -/

/-- An object is obtained for exactly the glyphs of the table, and it has no attributes. -/
theorem C130_item (w : World) (n : Str) : (n ∈ keys w.1 → ∃ g, getitem w n = .ok g ∧ g.name = n ∧ ∀ k, g.attrs.attr k = .none) ∧ (n ∉ keys w.1 → getitem w n = .error .keyError) := by
  unfold getitem
  constructor
  · intro h
    have hh : Dict.has w.1.contents n = true := by
      by_contra hn
      exact Dict.has_eq_false_iff.1 (Bool.not_eq_true _ ▸ hn) h
    rw [hh]
    exact ⟨⟨n, fun _ => none⟩, rfl, rfl, fun _ => rfl⟩
  · intro h
    rw [Dict.has_eq_false_iff.2 h]
    rfl

/-- Whatever has happened to the object and to the glyph set: drawing it raises what reading the glyph now raises, and otherwise makes the same calls, and sets the attributes that
the glyph now has. -/
theorem C130_now (E : Env) (w : World) (g : Kept) :
    match readGlyph E w g.name true true w.1.validateRead with
    | .error e => drawObject E w g = .error e
    | .ok (attrs, calls) => ∃ g', drawObject E w g = .ok (g', calls) ∧ g'.name = g.name ∧ ∀ k v, Dict.get? attrs k = some v → g'.attrs.attr k = v := by
  unfold drawObject
  cases readGlyph E w g.name true true w.1.validateRead with
  | error e => rfl
  | ok r => exact ⟨_, rfl, rfl, fun k v h => by unfold Obj.attr absorb; dsimp only; rw [h]; rfl⟩

/-- With a segment pen it is the same: with validation nothing more is raised, and the calls draw the outline. -/
theorem C130_segments (E : Env) (w : World) (hv : w.1.validateRead = true) (g g' : Kept) (calls : List Glif.Call) (h : drawObject E w g = .ok (g', calls)) :
    ∃ d evs items, calls = drawing d ∧ drawSegments E w g = .ok (g', evs) ∧ Spec.Draw.paint .idle evs = some items ∧
      List.Forall₂ Spec.Draw.Drawn (d.filter Spec.Draw.Visible) items := by
  obtain ⟨attrs, hr, -⟩ := drawObject_ok h
  rw [hv] at hr
  obtain ⟨d, evs, items, h1, h2, h3, h4⟩ := C86_draw E w g.name true attrs calls hr
  refine ⟨d, evs, items, h1, ?_, h3, h4⟩
  unfold drawSegments
  rw [h]
  dsimp only
  rw [h2]

/-- An object that was obtained before its glyph was written shows what was written. -/
theorem C130_written_partial (E : Env) (hE : ReprLaws E) (L : Casing) (naming : Naming) (w w' : World) (hv : w.1.version = 3) (g : Kept) (o : Obj) (d : List Item)
    (hL : Legible (.str g.name) o (some (drawing d))) (ho : Plain true o) (hd : ∀ it ∈ d, Readable it)
    (h : GlifFile.writeGlyph E L naming w g.name none true o (some (drawing d)) = (w', .ok ())) (hval : w'.1.validateRead = true) :
    ∃ g' calls attrs, drawObject E w' g = .ok (g', calls) ∧ List.Forall₂ SameCall (drawing d) calls ∧ SameGlyph (.str g.name) o attrs ∧
      ∀ k, g'.attrs k = (Dict.get? attrs k).or (g.attrs k) := by
  obtain ⟨-, -, -, -, -, h6⟩ := writeGlyph_spec h
  rcases h6 with ⟨-, f, b, k1, -⟩ | ⟨k1, -⟩
  · rw [hv] at k1
    have hb : writeGlyphToBytes E true 2 (.str g.name) o (some (drawing d)) = .ok b := k1
    obtain ⟨attrs, calls, h1, h2, h3⟩ := C71_bytes_partial E hE _ _ d [1, 2] (by simp) hL ho hd b hb
    have hr := written_read (E := E) hv hb h h1
    refine ⟨⟨g.name, absorb g.attrs attrs⟩, calls, attrs, ?_, h2, h3, fun k => ?_⟩
    · unfold drawObject
      rw [hval, hr]
    · unfold absorb
      dsimp only
      cases Dict.get? attrs k <;> rfl
  · exact absurd rfl k1

/-- Once its glyph has been deleted, drawing an object raises `KeyError`. -/
theorem C130_deleted (E : Env) (L : Casing) (w w' : World) (g : Kept) (h : deleteGlyph L w g.name = (w', .ok ())) :
    drawObject E w' g = .error .keyError := by
  obtain ⟨-, -, -, -, h5, -⟩ := deleteGlyph_spec h
  have hc : Dict.get? w'.1.contents g.name = none := by
    rcases h5 with ⟨-, h5⟩ | ⟨h5, -⟩
    · rw [h5, Dict.get?_erase, if_pos rfl]
    · exact absurd rfl h5
  unfold drawObject readGlyph getGLIF
  rw [hc]

/-- An object that is drawn for the first time has exactly the attributes of its glyph. Drawn several times it has, of each attribute, the value of the last time that the glyph had
this attribute. -/
theorem C130_attributes_partial (E : Env) (n : Str) (ws : List World) (rs : List (Dict Str PyVal × List Glif.Call))
    (h : List.Forall₂ (fun w r => readGlyph E w n true true w.1.validateRead = .ok r) ws rs) :
    ∃ g, drawAll E ⟨n, fun _ => none⟩ ws = .ok g ∧ ∀ k, g.attrs k = rs.reverse.findSome? fun r => Dict.get? r.1 k := by
  suffices H : ∀ (g : Kept), g.name = n → ∃ g', drawAll E g ws = .ok g' ∧ ∀ k, g'.attrs k = (rs.reverse.findSome? fun r => Dict.get? r.1 k).or (g.attrs k) by
    obtain ⟨g, h1, h2⟩ := H ⟨n, fun _ => none⟩ rfl
    exact ⟨g, h1, fun k => by rw [h2 k]; simp⟩
  induction h with
  | nil => exact fun g _ => ⟨g, rfl, fun k => rfl⟩
  | @cons w r ws rs hr hrest ih =>
    intro g hg
    obtain ⟨g', h1, h2⟩ := ih ⟨g.name, absorb g.attrs r.1⟩ hg
    refine ⟨g', ?_, fun k => ?_⟩
    · unfold drawAll drawObject
      rw [hg, hr]
      rw [hg] at h1
      exact h1
    · rw [h2 k, List.reverse_cons, List.findSome?_append]
      unfold absorb
      cases List.findSome? (fun r => Dict.get? r.1 k) rs.reverse <;> cases hk : Dict.get? r.1 k <;> simp [hk]

/-- A glyph set with a glyph that has a note and a width, and the same after the glyph was written again without a note. -/
def gs130 : GlyphSet :=
  { dir := [c!"glyphs"], contents := [(c!"a", c!"a.glif")], existing := none, reverse := none, havePrevious := true, version := 3, validateRead := true }
def files130 (s : Str) : FS := { canon := id, log := [], nodes := [([c!"glyphs"], .dir), ([c!"glyphs", c!"a.glif"], .file (utf8 s))] }
def before130 : World := (gs130, files130 c!"<glyph name='a' format='2'><advance width='500'/><unicode hex='61'/><note>draft</note><outline><component base='b'/></outline>\
<lib><dict><key>k</key><integer>1</integer></dict></lib></glyph>")
def after130 : World := (gs130, files130 c!"<glyph name='a' format='2'><advance width='600'/><outline></outline></glyph>")

example : ((drawAll env71 ⟨c!"a", fun _ => none⟩ [before130]).toOption.map fun g => (g.attrs.attr c!"note", g.attrs.attr c!"width")) = some (.str c!"draft", .int 500) := by decide +kernel

/-- The full claim fails: an object that is drawn again after its glyph was written without a note has the new width and still the old note and unicodes. -/
theorem C130_again_refuted : ((drawAll env71 ⟨c!"a", fun _ => none⟩ [before130, after130]).toOption.map fun g => [c!"width", c!"note", c!"unicodes"].map g.attrs.attr) =
      some [.int 600, .str c!"draft", .list [.int 97]] ∧
    ((readGlyph env71 after130 c!"a" true true true).toOption.map fun r => [c!"width", c!"note", c!"unicodes"].map (delivered r.1)) = some [.int 600, .none, .none] := by decide +kernel

/-! ### C131 -/

/-- `dst.writeGlyph(m, g, g.drawPoints)` for an object `g` that was obtained from a glyph set and has been drawn: nothing is raised, and the glyph that is read from the other glyph set
is the same. -/
theorem C131_drawn_partial (E : Env) (hE : ReprLaws E) (src : World) (hsrc : src.1.validateRead = true) (n : Str) (g g' : Kept) (attrs : Dict Str PyVal) (calls : List Glif.Call)
    (hg : getitem src n = .ok g) (hdraw : drawObject E src g = .ok (g', calls)) (hread : readGlyph E src n true true true = .ok (attrs, calls)) (hc : Spec.Glif.Clean attrs calls)
    (m : Str) (hm : m ≠ []) (ht : AttrText m) :
    (∃ b, writeKept E true 2 (.str m) src g' = .ok b) ∧
    ∀ L naming dst dst', dst.1.version = 3 → writeGlyph L naming dst m none (fun v => writeKept E true v.toNat (.str m) src g') = (dst', .ok ()) →
      ∃ attrs' calls', readGlyph E dst' m true true true = .ok (attrs', calls') ∧ List.Forall₂ SameCall calls calls' ∧ SameGlyph (.str m) (asObj attrs) attrs' := by
  obtain ⟨rfl, -⟩ := getitem_ok hg
  obtain ⟨a, ha, rfl⟩ := drawObject_ok hdraw
  rw [hsrc, hread] at ha
  cases ha
  obtain ⟨b0, -, h0⟩ := read_bytes hread
  obtain ⟨b, attrs', calls', h1, h2, h3, h4⟩ := fine_named hE (readBytes_fine h0) hc hm ht
  have hw : writeKept E true 2 (.str m) src ⟨n, absorb (fun _ => none) attrs⟩ = .ok b := by
    unfold writeKept drawObject
    rw [hsrc, hread]
    dsimp only
    rw [← h1]
    refine looked_write (fun k _ => ?_) E true 2 _ _
    unfold Obj.attr seenBy absorb asObj
    cases Dict.get? attrs k <;> simp
  refine ⟨⟨b, hw⟩, fun L naming dst dst' hv h => ⟨attrs', calls', written_read hv hw h h2, h3, h4⟩⟩

/-- The full claim fails for every glyph: if the object has not been drawn before, the copy has the outline and the lib of the glyph and nothing else: no width, no height, no
unicodes, no note, no image, no guidelines and no anchors. Nothing is raised. -/
theorem C131_undrawn_refuted (E : Env) (hE : ReprLaws E) (src : World) (hsrc : src.1.validateRead = true) (n : Str) (g : Kept) (attrs : Dict Str PyVal) (calls : List Glif.Call)
    (hg : getitem src n = .ok g) (hread : readGlyph E src n true true true = .ok (attrs, calls)) (hc : Spec.Glif.Clean attrs calls) (m : Str) (hm : m ≠ []) (ht : AttrText m) :
    (∃ b, writeKept E true 2 (.str m) src g = .ok b) ∧
    ∀ L naming dst dst', dst.1.version = 3 → writeGlyph L naming dst m none (fun v => writeKept E true v.toNat (.str m) src g) = (dst', .ok ()) →
      ∃ attrs' calls', readGlyph E dst' m true true true = .ok (attrs', calls') ∧ List.Forall₂ SameCall calls calls' ∧
        SameGlyph (.str m) (fun k => if k = c!"lib" then Dict.get? attrs k else none) attrs' := by
  obtain ⟨rfl, -⟩ := getitem_ok hg
  obtain ⟨b0, -, h0⟩ := read_bytes hread
  obtain ⟨b, attrs', calls', h1, h2, h3, h4⟩ := fine_named hE (bare_fine (readBytes_fine h0)) (bare_clean hc) hm ht
  have hl : Looked (asObj (bare attrs)) (fun k => if k = c!"lib" then Dict.get? attrs k else none) := by
    intro k hk
    simp only [List.mem_cons, List.not_mem_nil, or_false] at hk
    rcases hk with rfl | rfl | rfl | rfl | rfl | rfl | rfl | rfl <;> rfl
  have hw : writeKept E true 2 (.str m) src ⟨n, fun _ => none⟩ = .ok b := by
    unfold writeKept drawObject
    rw [hsrc, hread]
    dsimp only
    rw [← h1, looked_write hl]
    refine looked_write (fun k _ => ?_) E true 2 _ _
    unfold Obj.attr seenBy absorb
    by_cases hk : k = c!"lib"
    · simp only [if_pos hk]
      cases Dict.get? attrs k <;> rfl
    · simp only [if_neg hk]
  exact ⟨⟨b, hw⟩, fun L naming dst dst' hv h => ⟨attrs', calls', written_read hv hw h h2, h3, looked_same hl h4⟩⟩

/-- What is read from the glyph; it meets the hypotheses of the two theorems. -/
def read131 : Dict Str PyVal × List Glif.Call := ((readGlyph env71 before130 c!"a" true true true).toOption).getD ([], [])

example : readGlyph env71 before130 c!"a" true true true = .ok (read131.1, read131.2) := by
  have h : (readGlyph env71 before130 c!"a" true true true).toOption.isSome = true := by decide +kernel
  unfold read131
  revert h
  cases readGlyph env71 before130 c!"a" true true true with
  | error e => intro h; cases h
  | ok b => intro _; rfl

example : Spec.Glif.Clean read131.1 read131.2 where
  data := by decide +kernel
  calls := by decide +kernel
  note := by decide +kernel
  lib := by
    have : delivered read131.1 c!"lib" = .dict [(.str c!"k", .int 1)] := by decide +kernel
    rw [this]
    simp [Spec.Plist.Fits, Spec.Plist.FitsItems]

example : (getitem before130 c!"a").toOption.isSome = true ∧ ((getitem before130 c!"a").toOption.bind fun g => (drawObject env71 before130 g).toOption.map fun r => r.2.length) = some 1 := by
  decide +kernel

/-- An empty glyph set to copy to. -/
def dst131 : World := ({ gs130 with contents := [], havePrevious := false }, { canon := id, log := [], nodes := [([c!"glyphs"], .dir)] })

/-- What comes out of copying the glyph `a`, with the object drawn first or not. -/
def copied131 (drawnFirst : Bool) : Option (List PyVal) :=
  (getitem before130 c!"a").toOption.bind fun g => (drawAll env71 g (if drawnFirst then [before130] else [])).toOption.bind fun g =>
    match writeGlyph asciiCasing (fun n _ => .ok (n ++ c!".glif")) dst131 c!"a" none (fun v => writeKept env71 true v.toNat (.str c!"a") before130 g) with
    | (dst, .ok ()) => (readGlyph env71 dst c!"a" true true true).toOption.map fun r => [c!"width", c!"note", c!"unicodes", c!"lib"].map (delivered r.1)
    | _ => none

example : copied131 true = some [.int 500, .str c!"draft", .list [.int 97], .dict [(.str c!"k", .int 1)]] := by decide +kernel
example : copied131 false = some [.none, .none, .none, .dict [(.str c!"k", .int 1)]] := by decide +kernel

/-- One object for several glyphs, as a loop that reads each glyph into it and writes it: a glyph without a note gets the note of the one before. -/
theorem C131_reused_refuted : ((drawAll env71 ⟨c!"a", fun _ => none⟩ [before130, after130]).toOption.bind fun g => (writeKept env71 true 2 (.str c!"a") after130 g).toOption.bind fun b =>
    (readGlyphFromBytes env71 true true true [1, 2] b).toOption.map fun r => delivered r.1 c!"note") = some (.str c!"draft") := by decide +kernel

end Verif.Props
