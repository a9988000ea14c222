import Verif.Model.ReadInto
/-! Layer info that is carried from one glyph set to another: `readLayerInfo` (glifLib.py 233-251) and `writeLayerInfo` (glifLib.py 253-280), called one after the other. -/
namespace Verif.ReadInto
open Verif

/-- `readLayerInfo` (glifLib.py 233-251) of one glyph set and `writeLayerInfo` (glifLib.py 253-280) of another one, with the same object. -/
def carryLayerInfo (F : FloatCodec) (src w : GlyphSet.World) (validate : Bool) (t : Target) : Target × GlyphSet.World × Except Exc Unit :=
  match readLayerInfoInto F src true t with
  | (t, .error e) => (t, w, .error e)
  | (t, .ok ()) => (t, GlyphSet.writeLayerInfo F w t.attrs validate)

end Verif.ReadInto
