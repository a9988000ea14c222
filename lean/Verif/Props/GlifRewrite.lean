import Verif.Proofs.GlifStable
import Verif.Props.GlifText
/-! Glyphs read from files and written again: C80, C81. -/
namespace Verif.Props
open Verif Verif.Glif Verif.Validators Verif.Spec.Validators Verif.Spec.Glif Verif.GlifFile

theorem env_lxml (E : Env) : E = { E with lxml := false } ∨ E = Env.asLxml { E with lxml := false } := by
  obtain ⟨F, b, r⟩ := E
  cases b
  · exact .inl rfl
  · exact .inr rfl

theorem fine_writes {E : Env} (hE : ReprLaws E) {attrs : Dict Str PyVal} {calls : List Call} (hf : FineGlyph E.F attrs calls) (hc : Clean attrs calls) :
    ∃ b', writeGlyphToBytes E true 2 (delivered attrs c!"name") (asObj attrs) (some calls) = .ok b' := by
  have hL := fine_legible hf hc
  obtain ⟨tree, ht⟩ := write_succeeds (E := { E with lxml := false }) rfl hE.lawful hf hc.lib
  have hE0 : ReprLaws { E with lxml := false } := ⟨hE.lawful, hE.other⟩
  obtain ⟨b0, tree', h1, h2, -⟩ := bytes_read hE0 hL ht
  rcases env_lxml E with he | he
  · rw [he]
    exact ⟨b0, h1⟩
  · rw [← he] at h2
    exact C71_writes E hE true 2 _ _ _ hL _ h2

theorem fine_rewrite {E : Env} (hE : ReprLaws E) {versions' : List Int} (hv : 2 ∈ versions') {attrs : Dict Str PyVal} {calls : List Call}
    (hf : FineGlyph E.F attrs calls) (hc : Clean attrs calls) :
    ∃ b' attrs' calls', writeGlyphToBytes E true 2 (delivered attrs c!"name") (asObj attrs) (some calls) = .ok b' ∧
      readGlyphFromBytes E true true true versions' b' = .ok (attrs', calls') ∧ List.Forall₂ SameCall calls calls' ∧ SameGlyph (delivered attrs c!"name") (asObj attrs) attrs' := by
  obtain ⟨b', hb⟩ := fine_writes hE hf hc
  have hL := fine_legible hf hc
  obtain ⟨d, hd, hi⟩ := hf.drawn
  subst hd
  obtain ⟨attrs', calls', h1, h2, h3⟩ := C71_bytes_partial E hE _ _ d versions' hv hL (fine_plain hf) (fun it hit => fineItem_readable (hi it hit)) b' hb
  exact ⟨b', attrs', calls', hb, h1, h2, h3⟩

/-- A glyph that was read from bytes with validation, whatever they are, can be written with validation. -/
theorem C80_writes_partial (E : Env) (hE : ReprLaws E) (versions : List Int) (b : Bytes) (attrs : Dict Str PyVal) (calls : List Call)
    (h : readGlyphFromBytes E true true true versions b = .ok (attrs, calls)) (hc : Clean attrs calls) :
    ∃ b', writeGlyphToBytes E true 2 (delivered attrs c!"name") (asObj attrs) (some calls) = .ok b' := fine_writes hE (readBytes_fine h) hc

/-- A glyph that was read from bytes with validation, whatever they are, can be written with validation, and the new bytes are read as the same glyph: the same
calls, the same data. Missing from the full claim: strings and integers that no file keeps (`C80_refuted_...`). -/
theorem C80_rewrite_partial (E : Env) (hE : ReprLaws E) (versions versions' : List Int) (hv : 2 ∈ versions') (b : Bytes) (attrs : Dict Str PyVal) (calls : List Call)
    (h : readGlyphFromBytes E true true true versions b = .ok (attrs, calls)) (hc : Clean attrs calls) :
    ∃ b' attrs' calls', writeGlyphToBytes E true 2 (delivered attrs c!"name") (asObj attrs) (some calls) = .ok b' ∧
      readGlyphFromBytes E true true true versions' b' = .ok (attrs', calls') ∧ List.Forall₂ SameCall calls calls' ∧ SameGlyph (delivered attrs c!"name") (asObj attrs) attrs' :=
  fine_rewrite hE hv (readBytes_fine h) hc

/-- Writing a glyph, reading it and writing what was read gives the same bytes. Missing from the full claim: the conditions of C71, and notes with blank lines or
white space around lines (`C81_refuted_note`). -/
theorem C81_same_partial (E : Env) (hE : ReprLaws E) (name : PyVal) (o : Obj) (d : List Item) (versions : List Int) (hv : 2 ∈ versions)
    (hL : Legible name o (some (drawing d))) (ho : Plain true o) (hd : ∀ it ∈ d, Readable it) (hn : TidyNote (o.attr c!"note")) (b : Bytes)
    (h : writeGlyphToBytes E true 2 name o (some (drawing d)) = .ok b) :
    ∃ attrs calls, readGlyphFromBytes E true true true versions b = .ok (attrs, calls) ∧
      writeGlyphToBytes E true 2 (delivered attrs c!"name") (asObj attrs) (some calls) = .ok b := by
  obtain ⟨attrs, calls, h1, h2, h3⟩ := C71_bytes_partial E hE name o d versions hv hL ho hd b h
  obtain ⟨tree, ht⟩ := bytes_tree h
  refine ⟨attrs, calls, h1, ?_⟩
  rw [writeGlyphToBytes, write_same ho hn (readBytes_fine h1) h2 h3 ht, ← h, writeGlyphToBytes, ht]

/-- Whatever bytes a glyph is read from: once it has been written, reading and writing it again does not change the file any more. -/
theorem C81_settles_partial (E : Env) (hE : ReprLaws E) (versions versions' : List Int) (hv : 2 ∈ versions') (b : Bytes) (attrs : Dict Str PyVal) (calls : List Call)
    (h : readGlyphFromBytes E true true true versions b = .ok (attrs, calls)) (hc : Clean attrs calls) :
    ∃ b' attrs' calls', writeGlyphToBytes E true 2 (delivered attrs c!"name") (asObj attrs) (some calls) = .ok b' ∧
      readGlyphFromBytes E true true true versions' b' = .ok (attrs', calls') ∧
      writeGlyphToBytes E true 2 (delivered attrs' c!"name") (asObj attrs') (some calls') = .ok b' := by
  obtain ⟨b', hb⟩ := C80_writes_partial E hE versions b attrs calls h hc
  have hf := readBytes_fine h
  have hL := fine_legible hf hc
  obtain ⟨d, hd, hi⟩ := hf.drawn
  subst hd
  obtain ⟨attrs', calls', h1, h2⟩ := C81_same_partial E hE _ _ d versions' hv hL (fine_plain hf) (fun it hit => fineItem_readable (hi it hit)) hf.tidy b' hb
  exact ⟨b', attrs', calls', hb, h1, h2⟩

/-- A file of format 1 as other software may write it: single quotes, sections in any order, an anchor, entities. -/
def text80 : Str := c!"<glyph format='1' name='A&amp;B'><lib><dict><key>b</key><integer>2</integer><key>a</key><string>x &lt; y</string></dict></lib>\
<outline><contour><point y='5' x='+1' type='move' name='top'/></contour><contour><point x='0' y='0' type='curve'/><point x='010' y='0'/></contour>\
<component base='C' xScale='1/1' yScale='2'/></outline><note>  hello \n\n  world </note><unicode hex='41'/><unicode hex='0041'/><advance height='0'/></glyph>"

/-- What is read from it. -/
def read80 : Dict Str PyVal × List Call := ((readGlyphFromBytes env71 true true true [1, 2] (utf8 text80)).toOption).getD ([], [])

theorem read80_eq : readGlyphFromBytes env71 true true true [1, 2] (utf8 text80) = .ok (read80.1, read80.2) := by
  have h : (readGlyphFromBytes env71 true true true [1, 2] (utf8 text80)).toOption.isSome = true := by decide +kernel
  unfold read80
  revert h
  cases readGlyphFromBytes env71 true true true [1, 2] (utf8 text80) with
  | error e => intro h; cases h
  | ok b => intro _; rfl

/-- The data are clean. -/
theorem clean80 : Clean read80.1 read80.2 where
  data := by decide +kernel
  calls := by decide +kernel
  note := by decide +kernel
  lib := by
    have : delivered read80.1 c!"lib" = .dict [(.str c!"b", .int 2), (.str c!"a", .str c!"x < y")] := by decide +kernel
    rw [this]
    simp [Spec.Plist.Fits, Spec.Plist.FitsItems]

/-- All the hypotheses hold of the example. -/
example : ∃ b' attrs' calls', writeGlyphToBytes env71 true 2 (.str c!"A&B") (asObj read80.1) (some read80.2) = .ok b' ∧
    readGlyphFromBytes env71 true true true [1, 2] b' = .ok (attrs', calls') ∧ List.Forall₂ SameCall read80.2 calls' ∧ SameGlyph (.str c!"A&B") (asObj read80.1) attrs' := by
  have hn : delivered read80.1 c!"name" = .str c!"A&B" := by decide +kernel
  have := C80_rewrite_partial env71 reprLaws71 _ [1, 2] (by decide) _ _ _ read80_eq clean80
  rwa [hn] at this

/-- The glyph has an anchor, a contour and a component. -/
example : (listItems (delivered read80.1 c!"anchors")).length = 1 ∧ read80.2.length = 5 := by decide +kernel

example : ∃ b' attrs' calls', writeGlyphToBytes env71 true 2 (delivered read80.1 c!"name") (asObj read80.1) (some read80.2) = .ok b' ∧
    readGlyphFromBytes env71 true true true [1, 2] b' = .ok (attrs', calls') ∧ writeGlyphToBytes env71 true 2 (delivered attrs' c!"name") (asObj attrs') (some calls') = .ok b' :=
  C81_settles_partial env71 reprLaws71 _ [1, 2] (by decide) _ _ _ read80_eq clean80

/-- The bytes read, written and read again: the name of the first point. -/
def renamed80 (s : Str) : Option (Option PyVal) := ((readGlyphFromBytes env71 true true true [1, 2] (utf8 s)).toOption.bind fun r =>
  (writeGlyphToBytes env71 true 2 (delivered r.1 c!"name") (asObj r.1) (some r.2)).toOption).bind fun b =>
    (readGlyphFromBytes env71 true true true [1, 2] b).toOption.map fun r => r.2.findSome? fun | .addPoint _ _ _ n _ => some n | _ => none

/-- A TAB in the name of a point, which a file holds as a reference, is lost when the glyph is written again. -/
theorem C80_refuted_tab : ((readGlyphFromBytes env71 true true true [1, 2] (utf8 c!"<glyph name='a' format='2'><outline><contour><point x='0' y='0' name='a&#9;b'/></contour></outline></glyph>")).toOption.map
      fun r => r.2.findSome? fun | .addPoint _ _ _ n _ => some n | _ => none) = some (some (.str c!"a\tb")) ∧
    renamed80 c!"<glyph name='a' format='2'><outline><contour><point x='0' y='0' name='a&#9;b'/></contour></outline></glyph>" = some (some (.str c!"a b")) := by decide +kernel

/-- An integer of more than 64 bits in the lib is read, but the glyph cannot be written again. -/
theorem C80_refuted_integer : ((readGlyphFromBytes env71 true true true [1, 2] (utf8 c!"<glyph name='a' format='2'><lib><dict><key>k</key><integer>18446744073709551616</integer></dict></lib></glyph>")).toOption.map
      fun r => writeGlyphToBytes env71 true 2 (delivered r.1 c!"name") (asObj r.1) (some r.2)) = some (.error .overflowError) := by decide +kernel

/-- A note with a blank line is written differently after it was read. -/
theorem C81_refuted_note : ((writeGlyphToBytes env71 true 2 (.str c!"A") (fun k => if k = c!"note" then some (.str c!"a\n\nb") else none) (some [])).toOption.bind fun b =>
    (readGlyphFromBytes env71 true true true [1, 2] b).toOption.bind fun r =>
      (writeGlyphToBytes env71 true 2 (delivered r.1 c!"name") (asObj r.1) (some r.2)).toOption.map fun b' => decide (b' = b)) = some false := by decide +kernel

end Verif.Props
