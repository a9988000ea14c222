import Verif.Model.GlyphObjects
import Verif.Props.Copy
/-! Lemmas for C130 and C131. -/
namespace Verif.Proofs.GlyphObjects
open Verif Verif.Glif Verif.GlyphSet Verif.Spec.Glif Verif.GlifFile Verif.Props

theorem getitem_ok {w : World} {n : Str} {g : Kept} (h : getitem w n = .ok g) : g = ⟨n, fun _ => none⟩ ∧ n ∈ Dict.keys w.1.contents := by
  unfold getitem at h
  split at h
  · cases h
  · next hh =>
    cases h
    exact ⟨rfl, by
      by_contra hn
      rw [Dict.has_eq_false_iff.2 hn] at hh
      exact hh rfl⟩

theorem drawObject_ok {E : Env} {w : World} {g g' : Kept} {calls : List Call} (h : drawObject E w g = .ok (g', calls)) :
    ∃ attrs, readGlyph E w g.name true true w.1.validateRead = .ok (attrs, calls) ∧ g' = ⟨g.name, absorb g.attrs attrs⟩ := by
  unfold drawObject at h
  split at h
  · cases h
  · next attrs calls' hr =>
    cases h
    exact ⟨attrs, hr, rfl⟩

/-- A glyph with nothing but its outline and its lib. -/
def bare (attrs : Dict Str PyVal) : Dict Str PyVal := [(c!"name", delivered attrs c!"name"), (c!"lib", delivered attrs c!"lib")]

theorem bare_fine {F : FloatCodec} {attrs : Dict Str PyVal} {calls : List Call} (h : FineGlyph F attrs calls) : FineGlyph F (bare attrs) calls := by
  refine ⟨h.name, .inl rfl, .inl rfl, .inl rfl, .inl rfl, ⟨[], ⟨[[]], rfl, by simp, rfl⟩, rfl⟩, .inl rfl, .inl rfl, .inl rfl, h.lib, h.drawn, ?_⟩
  have h1 := h.ids.nodup
  refine ⟨?_, fun i hi => h.ids.legal i ?_⟩
  · rw [List.nil_append] at h1 ⊢
    exact (List.nodup_append.1 h1).2.1
  · exact List.mem_append_right _ hi

theorem bare_clean {attrs : Dict Str PyVal} {calls : List Call} (h : Clean attrs calls) : Clean (bare attrs) calls := by
  refine ⟨fun k hk s hs => ?_, h.calls, fun s hs => (by cases hs), h.lib⟩
  simp only [List.mem_cons, List.not_mem_nil, or_false] at hk
  rcases hk with rfl | rfl | rfl | rfl
  · exact h.data c!"name" (by simp) s hs
  all_goals cases hs

/-- The attributes that writing looks at. -/
def Looked (o o' : Obj) : Prop := ∀ k ∈ [c!"width", c!"height", c!"unicodes", c!"note", c!"image", c!"guidelines", c!"anchors", c!"lib"], o.attr k = o'.attr k

theorem looked_write {o o' : Obj} (h : Looked o o') (E : Env) (validate : Bool) (fv : Nat) (name : PyVal) (draw : Option (List Call)) :
    writeGlyphToBytes E validate fv name o draw = writeGlyphToBytes E validate fv name o' draw := by
  unfold writeGlyphToBytes writeGlyphTree writeHead writeAdvance
  rw [h c!"width" (by simp), h c!"height" (by simp), h c!"unicodes" (by simp), h c!"note" (by simp), h c!"image" (by simp),
    h c!"guidelines" (by simp), h c!"anchors" (by simp), h c!"lib" (by simp)]

theorem looked_same {o o' : Obj} (h : Looked o o') {name : PyVal} {attrs : Dict Str PyVal} (hs : SameGlyph name o attrs) : SameGlyph name o' attrs := by
  obtain ⟨h1, h2, h3, h4, h5, h6, h7, h8, h9⟩ := hs
  rw [h c!"unicodes" (by simp)] at h2
  rw [h c!"width" (by simp)] at h3
  rw [h c!"height" (by simp)] at h4
  rw [h c!"note" (by simp)] at h5
  rw [h c!"image" (by simp)] at h6
  rw [h c!"guidelines" (by simp)] at h7
  rw [h c!"anchors" (by simp)] at h8
  rw [h c!"lib" (by simp)] at h9
  exact ⟨h1, h2, h3, h4, h5, h6, h7, h8, h9⟩

/-- A glyph with data that files keep is written under any name and read as it is. -/
theorem fine_named {E : Env} (hE : ReprLaws E) {attrs : Dict Str PyVal} {calls : List Call} (hf0 : FineGlyph E.F attrs calls) (hc0 : Clean attrs calls) {n : Str}
    (hn : n ≠ []) (ht : AttrText n) :
    ∃ b attrs' calls', writeGlyphToBytes E true 2 (.str n) (asObj attrs) (some calls) = .ok b ∧ readGlyphFromBytes E true true true [1, 2] b = .ok (attrs', calls') ∧
      List.Forall₂ SameCall calls calls' ∧ SameGlyph (.str n) (asObj attrs) attrs' := by
  have hf := fine_renamed hf0 hn ht.1.1
  have hc := clean_renamed hc0 ht
  obtain ⟨b, a, c, h1, h2, h3, h4⟩ := fine_rewrite hE (versions' := [1, 2]) (by simp) hf hc
  rw [delivered_renamed_name] at h1 h4
  rw [write_renamed] at h1
  exact ⟨b, a, c, h1, h2, h3, same_renamed h4⟩

/-- What a written glyph is read as. -/
theorem written_read {E : Env} {L : Casing} {naming : Naming} {w w' : World} {m : Str} {data : Int → Except Exc Bytes} {b : Bytes} (hv : w.1.version = 3)
    (hd : data 2 = .ok b) (h : writeGlyph L naming w m none data = (w', .ok ())) {r : Dict Str PyVal × List Call}
    (hr : readGlyphFromBytes E true true true [1, 2] b = .ok r) : readGlyph E w' m true true true = .ok r := by
  obtain ⟨h1, -, h3, -, -, h6⟩ := writeGlyph_spec h
  rcases h6 with ⟨-, f, d, k1, k2, -, k4, -⟩ | ⟨k1, -⟩
  · rw [hv] at k1
    have k1' : data 2 = .ok d := k1
    rw [hd] at k1'
    cases k1'
    exact bytes_readGlyph (by rw [h3]; exact hv) (by unfold getGLIF; rw [k2]; dsimp only; rw [h1, k4]) hr
  · exact absurd rfl k1

end Verif.Proofs.GlyphObjects
