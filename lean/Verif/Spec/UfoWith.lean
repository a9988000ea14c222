import Verif.Model.UfoWith
/-! What a block of calls comes to. -/
namespace Verif.Spec.Ufo
open Verif Verif.Ufo

/-- The calls `made` are those of `ops` up to the first that raises, and `r` is the outcome of the block. -/
inductive Ends (E : FontInfo.Env) (L : Casing) (own : Option Exc) : Handle × Target → List Op → List Op → Except Exc Unit → Prop
  | done {s} (h : own = none) : Ends E L own s [] [] (.ok ())
  | raises {s e} (h : own = some e) : Ends E L own s [] [] (.error e)
  | fails {s op ops e} (h : (call E L s op).2 = .error e) : Ends E L own s (op :: ops) [op] (.error e)
  | goes {s op ops made r} (h : (call E L s op).2 = .ok ()) (t : Ends E L own (call E L s op).1 ops made r) : Ends E L own s (op :: ops) (op :: made) r

end Verif.Spec.Ufo
