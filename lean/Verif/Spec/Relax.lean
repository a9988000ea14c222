import Verif.Model.UfoHistory
/-! Validation only refuses: what a call that validates returns, the call that does not validate returns too. -/
namespace Verif.Spec.Relax
open Verif

/-- What the first gives, the second gives too. -/
def Relaxes {α : Type} (a b : Except Exc α) : Prop := ∀ r, a = .ok r → b = .ok r

/-- If the first does not raise, the second does not raise and leaves the same state. -/
def RelaxesTo {σ : Type} (a b : σ × Except Exc Unit) : Prop := a.2 = .ok () → b = a

/-- The same call with validation switched off. -/
def lax : Ufo.Op → Ufo.Op
  | .info i _ => .info i false
  | .lib v _ => .lib v false
  | .groups g _ => .groups g false
  | .kerning k _ => .kerning k false
  | .glyphSet n d _ => .glyphSet n d false
  | .layerContents o _ => .layerContents o false
  | .image n d _ => .image n d false
  | .glyph gs (.rebuild _) => .glyph gs (.rebuild false)
  | .layerInfo gs i _ => .layerInfo gs i false
  | op => op

/-- No call of the history raises. -/
def Succeeds (E : FontInfo.Env) (L : Casing) (w : Ufo.World) : List Ufo.Op → Prop
  | [] => True
  | op :: ops => (Ufo.step E L w op).2 = .ok () ∧ Succeeds E L (Ufo.step E L w op).1 ops

end Verif.Spec.Relax
