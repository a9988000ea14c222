import Verif.Model.ReaderMethods
/-! Reading a UFO while other programs write it. -/
namespace Verif.Spec.ReadMoments
open Verif Verif.Ufo

/-- The methods that read one file. -/
inductive OneFile : {α : Type} → ReadCall α → Prop
  | version {b} : OneFile (.version b)
  | info {v b} : OneFile (.info v b)
  | lib {b} : OneFile (.lib b)
  | groups3 {b} : OneFile (.groups3 b)
  | kerning3 {b} : OneFile (.kerning3 b)
  | features : OneFile .features
  | bytes {p} : OneFile (.bytes p)
  | glif {gs n} : OneFile (.glif gs n)
  | glyph {gs n o p b} : OneFile (.glyph gs n o p b)
  | layerInfo {gs b} : OneFile (.layerInfo gs b)

end Verif.Spec.ReadMoments
