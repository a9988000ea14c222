import Verif.Proofs.GlifStable
/-! A glyph under another name. -/
namespace Verif.Glif
open Verif Verif.Validators Verif.Spec.Validators Verif.Spec.Glif Verif.GlifFile Verif.Spec.Plist

/-- The attributes with another name. -/
def renamed (attrs : Dict Str PyVal) (n : Str) : Dict Str PyVal := Dict.set attrs c!"name" (.str n)

theorem delivered_renamed {attrs : Dict Str PyVal} {n k : Str} (hk : k ≠ c!"name") : delivered (renamed attrs n) k = delivered attrs k := by
  unfold delivered renamed
  rw [Dict.get?_set, if_neg (Ne.symm hk)]

theorem delivered_renamed_name {attrs : Dict Str PyVal} {n : Str} : delivered (renamed attrs n) c!"name" = .str n := by
  unfold delivered renamed
  rw [Dict.get?_set_self]
  rfl

theorem fine_renamed {F : FloatCodec} {attrs : Dict Str PyVal} {calls : List Call} (h : FineGlyph F attrs calls) {n : Str} (hn : n ≠ []) (hx : XmlText n) :
    FineGlyph F (renamed attrs n) calls := by
  obtain ⟨-, h1, h2, h3, h4, h5, h6, h7, h8, h9, h10, h11⟩ := h
  refine ⟨⟨n, hn, hx, delivered_renamed_name⟩, ?_, ?_, ?_, ?_, ?_, ?_, ?_, ?_, ?_, h10, ?_⟩ <;> simp (config := { decide := true }) only [delivered_renamed, ne_eq] <;> assumption

theorem clean_renamed {attrs : Dict Str PyVal} {calls : List Call} (h : Spec.Glif.Clean attrs calls) {n : Str} (hn : AttrText n)  : Spec.Glif.Clean (renamed attrs n) calls := by
  obtain ⟨h1, h2, h3, h4⟩ := h
  refine ⟨fun k hk s hs => ?_, h2, ?_, ?_⟩
  · by_cases hkn : k = c!"name"
    · subst hkn
      rw [delivered_renamed_name] at hs
      simp only [strings, List.mem_singleton] at hs
      subst hs
      exact ⟨hn.1.2, hn.2⟩
    · rw [delivered_renamed hkn] at hs
      exact h1 k hk s hs
  · rw [delivered_renamed (by decide)]; exact h3
  · rw [delivered_renamed (by decide)]; exact h4

/-- The name comes from the argument, not from the object. -/
theorem write_renamed (E : Env) (validate : Bool) (fv : Nat) (name : PyVal) (attrs : Dict Str PyVal) (n : Str) (draw : Option (List Call)) :
    writeGlyphToBytes E validate fv name (asObj (renamed attrs n)) draw = writeGlyphToBytes E validate fv name (asObj attrs) draw := by
  have ha : ∀ k, k ≠ c!"name" → (asObj (renamed attrs n)).attr k = (asObj attrs).attr k := fun k hk => delivered_renamed hk
  unfold writeGlyphToBytes writeGlyphTree writeHead writeAdvance
  rw [ha c!"width" (by decide), ha c!"height" (by decide), ha c!"unicodes" (by decide), ha c!"note" (by decide), ha c!"image" (by decide),
    ha c!"guidelines" (by decide), ha c!"anchors" (by decide), ha c!"lib" (by decide)]

theorem same_renamed {name : PyVal} {attrs attrs' : Dict Str PyVal} {n : Str} (h : SameGlyph name (asObj (renamed attrs n)) attrs') : SameGlyph name (asObj attrs) attrs' := by
  have ha : ∀ k, k ≠ c!"name" → (asObj (renamed attrs n)).attr k = (asObj attrs).attr k := fun k hk => delivered_renamed hk
  obtain ⟨h1, h2, h3, h4, h5, h6, h7, h8, h9⟩ := h
  rw [ha _ (by decide)] at h2 h3 h4 h5 h7 h8
  rw [ha _ (by decide)] at h6 h9
  exact ⟨h1, h2, h3, h4, h5, h6, h7, h8, h9⟩

end Verif.Glif
