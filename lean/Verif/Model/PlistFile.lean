import Verif.Model.Plist
import Verif.Model.Xml
import Verif.Spec.Xml
/-! Model of `dumps` and `loads` of `Lib/ufoLib/plistlib.py` with the built-in backend. The parser (expat) is the XML parser of
`Verif/Spec/Xml.lean`. -/
namespace Verif.Plist
open Verif Verif.Xml

/-- `PLIST_DOCTYPE`, plistlib.py 48-51. -/
def plistDoctype : Str := c!"<!DOCTYPE plist PUBLIC \"-//Apple//DTD PLIST 1.0//EN\" \"http://www.apple.com/DTDs/PropertyList-1.0.dtd\">"

/-- `etree.Element("plist", version="1.0")` with one child, plistlib.py 503-511. -/
def plistElement (e : Elem) : Elem := .mk c!"plist" [(c!"version", c!"1.0")] none none [e]

/-- `dump` / `dumps`, plistlib.py 488-542, as text (encoded in UTF-8 by the writer). -/
def dumps (F : FloatCodec) (pretty : Bool) (v : PyVal) : Except Exc Str :=
  match totree F false pretty 1 v with
  | .error e => .error e
  | .ok el => match tostring false pretty (plistElement el) with
    | .error e => .error e
    | .ok s => .ok ((if pretty then xmlDeclaration ++ ['\n'] ++ plistDoctype ++ ['\n'] else xmlDeclaration ++ plistDoctype) ++ s)

/-- `target.data(text)`, plistlib.py 180-181; the parser calls it only for non-empty text. -/
def Target.feedText (t : Target) : Option Text → Target
  | none => t
  | some x => { t with data := t.data ++ [x] }

mutual
/-- The events of one element: start, text, children with the text after them, end. -/
def feed (F : FloatCodec) (t : Target) : Elem → Except Exc Target
  | .mk tag _ text _ children =>
    match t.startTag tag with
    | .error e => .error e
    | .ok t => match feedList F (t.feedText text) children with
      | .error e => .error e
      | .ok t => t.endTag F tag
/-- The events of children. -/
def feedList (F : FloatCodec) (t : Target) : List Elem → Except Exc Target
  | [] => .ok t
  | e :: es => match feed F t e with
    | .error x => .error x
    | .ok t => feedList F (t.feedText e.tail) es
end

/-- `load` / `loads`, plistlib.py 467-486: parse and feed a fresh `PlistTarget`. -/
def loads (F : FloatCodec) (s : Str) : Except Exc PyVal :=
  match Spec.Xml.parse s with
  | none => .error .xmlParseError
  | some e => match feed F .new e with
    | .error x => .error x
    | .ok t => .ok (t.root.getD .none)

end Verif.Plist
