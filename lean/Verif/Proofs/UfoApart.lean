import Verif.Spec.Ufo
/-! File systems that keep the standard names apart. -/
namespace Verif.Ufo
open Verif Verif.Spec.Ufo

instance decGlyphsDir (c : Str) : Decidable (GlyphsDir c) :=
  decidable_of_iff (c = c!"glyphs" ∨ c!"glyphs." <+: c) (by
    unfold GlyphsDir
    refine or_congr Iff.rfl ⟨fun ⟨r, hr⟩ => ⟨r, hr.symm⟩, fun ⟨r, hr⟩ => ⟨r, hr.symm⟩⟩)

theorem take2_glyphsDir {d : Str} (h : GlyphsDir d) : d.take 2 = c!"gl" := by
  rcases h with rfl | ⟨r, rfl⟩ <;> rfl

theorem keepsApart_id : KeepsApart id :=
  ⟨fun _ _ _ _ h => h, fun a ha d hd h => by
    have h1 := take2_glyphsDir hd
    have h2 : ∀ a ∈ standardNames, a.take 2 ≠ c!"gl" := by decide
    exact h2 a ha (by rw [← show d = a from h]; exact h1)⟩

theorem keepsApart_ascii : KeepsApart fun s => s.map asciiLowerChar := by
  refine ⟨by decide +kernel, fun a ha d hd h => ?_⟩
  have h1 := take2_glyphsDir hd
  have h2 : ∀ a ∈ standardNames, (a.map asciiLowerChar).take 2 ≠ c!"gl" := by decide +kernel
  refine h2 a ha ?_
  rw [← h, ← List.map_take, h1]
  rfl

/-- A call about standard entries spares the others. -/
theorem spares_of {canon : Str → Str} (h : KeepsApart canon) {f : Str} (hf : f ∈ standardNames) {op : Op}
    (ho : ∀ c, Concerns op c → c ∈ standardNames ∨ GlyphsDir c) (hn : ¬ Concerns op f) : Spares canon f op := by
  intro c hc e
  rcases ho c hc with hs | hd
  · have := h.names c hs f hf e
    subst this
    exact hn hc
  · exact h.dirs f hf c hd e

end Verif.Ufo
