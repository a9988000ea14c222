import Verif.Model.UfoHistory
/-! A program that saves a font: a `UFOWriter` and the `GlyphSet` objects obtained from it, all on one file system. -/
namespace Verif.Ufo
open Verif

/-- The objects of the program: the writer, the file system, and the glyph sets in the order in which `getGlyphSet` returned them. -/
structure Font where
  writer : Writer
  fs : FS
  sets : List GlyphSet.GlyphSet

/-- The writer with its file system. -/
def Font.world (f : Font) : World := (f.writer, f.fs)

/-- The calls of the program: `getGlyphSet` of the writer, other calls on the writer, and calls on the glyph set number `i`. -/
inductive FontCall where
  | getGlyphSet (layer : Option Str) (default validateRead : Bool)
  | ufo (op : Op)
  | set (i : Nat) (c : GlyphSet.SetCall)

/-- `UFOWriter.getGlyphSet`, `__init__.py` 1368-1406: the glyph set that is returned is kept. -/
def Font.getGlyphSet (E : FontInfo.Env) (L : Casing) (f : Font) (layer : Option Str) (default validateRead : Bool) : Font × Except Exc Unit :=
  let r := Ufo.getGlyphSet L E.F f.world layer default validateRead
  match r.2 with
  | .error e => ({ f with writer := r.1.1, fs := r.1.2 }, .error e)
  | .ok gs => ({ writer := r.1.1, fs := r.1.2, sets := f.sets ++ [gs] }, .ok ())

/-- A call on a glyph set, `glifLib.py` 224-229, 253-279, 359-439; nothing happens if there is no such glyph set. -/
def Font.callSet (E : FontInfo.Env) (L : Casing) (f : Font) (i : Nat) (c : GlyphSet.SetCall) : Font × Except Exc Unit :=
  match f.sets[i]? with
  | none => (f, .error .indexError)
  | some gs =>
    let r := GlyphSet.setStep L E.F (gs, f.fs) c
    ({ f with fs := r.1.2, sets := f.sets.set i r.1.1 }, r.2)

/-- One call: the state afterwards (also when it raises) and the outcome. -/
def Font.step (E : FontInfo.Env) (L : Casing) (f : Font) : FontCall → Font × Except Exc Unit
  | .getGlyphSet n b v => f.getGlyphSet E L n b v
  | .ufo op =>
    let r := Ufo.step E L f.world op
    ({ f with writer := r.1.1, fs := r.1.2 }, r.2)
  | .set i c => f.callSet E L i c

/-- A history of calls, each made whether or not the earlier ones raised. -/
def Font.run (E : FontInfo.Env) (L : Casing) (f : Font) : List FontCall → Font
  | [] => f
  | c :: cs => Font.run E L (f.step E L c).1 cs

/-- The outcomes of the calls on the glyph set number `i` in a history. -/
def Font.outcomes (E : FontInfo.Env) (L : Casing) (i : Nat) (f : Font) : List FontCall → List (Except Exc Unit)
  | [] => []
  | c :: cs =>
    let r := f.step E L c
    match c with
    | .set j _ => if j = i then r.2 :: Font.outcomes E L i r.1 cs else Font.outcomes E L i r.1 cs
    | _ => Font.outcomes E L i r.1 cs

end Verif.Ufo
