import Verif.Model.GlifReader
/-! Rapid value fetching, glifLib.py 1390-1499: the three parsers that look at start and end tags only. -/
namespace Verif.Glif
open Verif

/-- The calls expat makes to the handlers set in `_BaseParser.parse`, glifLib.py 1402-1407. -/
inductive Event where
  | start (name : Str) (attrs : Dict Str Str)
  | stop (name : Str)
  deriving DecidableEq, Repr

mutual
/-- The handler calls for an element, in document order. Expat itself is not modelled: it is taken to report the tags of the tree
that the XML reader builds. `parser.Parse(text)` (glifLib.py 1407) is not told that the text is final, which makes no difference for
complete documents: see `Verif/Model/Expat.lean` and C111. -/
def events : Elem → List Event
  | .mk tag attrib _ _ children => .start tag attrib :: eventsList children ++ [.stop tag]
/-- The handler calls for a list of elements. -/
def eventsList : List Elem → List Event
  | [] => []
  | e :: es => events e ++ eventsList es
end

/-- What distinguishes the three subclasses of `_BaseParser`: the tag looked for, the tag its parent must have, what is done with the
attributes (`true`: `_DoneParsing` is raised), and the tag at whose end `_DoneParsing` is raised. -/
structure Fetcher (σ : Type) where
  tag : Str
  parent : Str
  hit : σ → Dict Str Str → σ × Bool
  stopAt : Option Str

/-- `startElementHandler` of the subclasses before the call of `super`: the test on the name and on `self._elementStack[-1]`. The
stack has its top first. -/
def Fetcher.onStart {σ : Type} (f : Fetcher σ) (stack : List Str) (s : σ) (name : Str) (attrs : Dict Str Str) : σ × Bool :=
  if name = f.tag ∧ stack.head? = some f.parent then f.hit s attrs else (s, false)

/-- The run of a parser over the handler calls, with `_BaseParser.startElementHandler` and `endElementHandler`, glifLib.py 1409-1414;
`_DoneParsing` is caught by the `_fetch…` functions (1452-1455, 1477-1480), which return what was found. -/
def Fetcher.run {σ : Type} (f : Fetcher σ) (stack : List Str) (s : σ) : List Event → Except Exc σ
  | [] => .ok s
  | .start name attrs :: es =>
    match f.onStart stack s name attrs with
    | (s, true) => .ok s
    | (s, false) => f.run (name :: stack) s es
  | .stop name :: es =>
    if f.stopAt = some name then .ok s
    else match stack with
      | [] => .error .indexError
      | other :: rest => if other = name then f.run rest s es else .error .assertionError

/-- `_FetchUnicodesParser`, glifLib.py 1427-1443. -/
def unicodesFetcher : Fetcher (List Int) where
  tag := c!"unicode"
  parent := c!"glyph"
  hit s attrs := match Dict.get? attrs c!"hex" with
    | none => (s, false)
    | some value => match pyInt16 value with
      | none => (s, false)
      | some i => (if i ∈ s then s else s ++ [i], false)
  stopAt := none

/-- `_FetchImageFileNameParser`, glifLib.py 1458-1468. -/
def imageFetcher : Fetcher (Option Str) where
  tag := c!"image"
  parent := c!"glyph"
  hit _ attrs := (Dict.get? attrs c!"fileName", true)
  stopAt := none

/-- `_FetchComponentBasesParser`, glifLib.py 1483-1499. -/
def componentsFetcher : Fetcher (List Str) where
  tag := c!"component"
  parent := c!"outline"
  hit s attrs := match Dict.get? attrs c!"base" with
    | none => (s, false)
    | some base => (s ++ [base], false)
  stopAt := some c!"outline"

/-- `_fetchUnicodes(glif)`, glifLib.py 1419-1425. -/
def fetchUnicodes (tree : Elem) : Except Exc (List Int) := unicodesFetcher.run [] [] (events tree)

/-- `_fetchImageFileName(glif)`, glifLib.py 1447-1456. -/
def fetchImageFileName (tree : Elem) : Except Exc (Option Str) := imageFetcher.run [] none (events tree)

/-- `_fetchComponentBases(glif)`, glifLib.py 1472-1481. -/
def fetchComponentBases (tree : Elem) : Except Exc (List Str) := componentsFetcher.run [] [] (events tree)

end Verif.Glif
