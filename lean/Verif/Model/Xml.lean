import Verif.Py.Elem
/-! Model of the serializer in `Lib/ufoLib/etree.py` (used when lxml is not installed).

Not modelled: namespaces (`{uri}tag` names, `QName`), comments, processing instructions, tag `None`, the `doctype`
argument, text encodings other than UTF-8 (with UTF-8 every character of the model can be encoded). The result is
the text that is handed to the encoder. -/
namespace Verif.Xml
open Verif

/-- `s.replace(c, r)` for a one-character `c`. -/
def replaceC (c : Char) (r : Str) (s : Str) : Str := s.flatMap fun x => if x = c then r else [x]

/-- `_tounicode`, etree.py 242-262: bytes must be ASCII, characters must be allowed in XML. -/
def toUnicode : Text → Except Exc Str
  | .str s => if s.all isXmlChar then .ok s else .error .valueError
  | .bytes b =>
    if b.all (fun x => x < 128) then
      let s := b.map fun x => Char.ofNat x.toNat
      if s.all isXmlChar then .ok s else .error .valueError
    else .error .valueError

/-- `_escape_cdata`, etree.py 438-451, after `_tounicode`. -/
def escapeCdata (s : Str) : Str :=
  replaceC '>' c!"&gt;" (replaceC '<' c!"&lt;" (replaceC '&' c!"&amp;" s))

/-- `_escape_attrib`, etree.py 453-469, after `_tounicode`. -/
def escapeAttrib (s : Str) : Str :=
  replaceC '\n' c!"&#10;" (replaceC '"' c!"&quot;" (replaceC '>' c!"&gt;" (replaceC '<' c!"&lt;" (replaceC '&' c!"&amp;" s))))

/-- Truth of `elem.text` / `elem.tail`. -/
def truthy : Option Text → Bool
  | some (.str (_ :: _)) => true
  | some (.bytes (_ :: _)) => true
  | _ => false

/-- `if text: write(_escape_cdata(text))`. -/
def writeText (t : Option Text) : Except Exc Str :=
  match t with
  | none => .ok []
  | some x => if truthy t then (toUnicode x).map escapeCdata else .ok []

/-- The attribute loop, etree.py 404-421: ` k="v"` for every item. -/
def writeAttribs : Dict Str Str → Except Exc Str
  | [] => .ok []
  | (k, v) :: rest =>
    match toUnicode (.str k) with
    | .error e => .error e
    | .ok k => match toUnicode (.str v) with
      | .error e => .error e
      | .ok v => match writeAttribs rest with
        | .error e => .error e
        | .ok more => .ok ([' '] ++ k ++ ['=', '"'] ++ escapeAttrib v ++ ['"'] ++ more)

mutual
/-- `_serialize_xml`, etree.py 380-431, for plain tags. -/
def serialize : Elem → Except Exc Str
  | .mk tag attrib text tail children =>
    match toUnicode (.str tag) with
    | .error e => .error e
    | .ok tag => match writeAttribs attrib with
      | .error e => .error e
      | .ok as => match writeText text with
        | .error e => .error e
        | .ok tx => match serializeList children with
          | .error e => .error e
          | .ok cs => match writeText tail with
            | .error e => .error e
            | .ok tl =>
              .ok (['<'] ++ tag ++ as ++
                (if text.isSome || !children.isEmpty then ['>'] ++ tx ++ cs ++ ['<', '/'] ++ tag ++ ['>'] else ['/', '>']) ++ tl)
/-- `for e in elem: _serialize_xml(...)`. -/
def serializeList : List Elem → Except Exc Str
  | [] => .ok []
  | e :: es =>
    match serialize e with
    | .error x => .error x
    | .ok s => match serializeList es with
      | .error x => .error x
      | .ok more => .ok (s ++ more)
end

/-- `not t or not t.strip()`. -/
def blank : Option Text → Bool
  | none => true
  | some (.str s) => (strip s).isEmpty
  | some (.bytes b) => b.all fun x => (9 ≤ x && x ≤ 13) || x == 32

/-- Replaces the tail. -/
def setTail (t : Option Text) : Elem → Elem
  | .mk tag attrib text _ children => .mk tag attrib text t children

/-- `if not elem.tail or not elem.tail.strip(): elem.tail = i`. -/
def fillTail (i : Str) (e : Elem) : Elem := if blank e.tail then setTail (some (.str i)) e else e

/-- The same for the last element of a list. -/
def fillLast (i : Str) : List Elem → List Elem
  | [] => []
  | [e] => [fillTail i e]
  | e :: f :: es => e :: fillLast i (f :: es)

/-- `"\n" + level * "  "`. -/
def indentText (level : Nat) : Str := '\n' :: List.replicate (2 * level) ' '

mutual
/-- `_indent`, etree.py 471-485, as a function of the tree (the code changes the tree in place). After the loop `elem`
is the last child, whose tail is set back to the indentation of the parent. -/
def indent (level : Nat) : Elem → Elem
  | .mk tag attrib text tail [] => if level ≠ 0 then fillTail (indentText level) (.mk tag attrib text tail []) else .mk tag attrib text tail []
  | .mk tag attrib text tail (c :: cs) =>
    fillTail (indentText level)
      (.mk tag attrib (if blank text then some (.str (indentText level ++ [' ', ' '])) else text) tail
        (fillLast (indentText level) (indentList (level + 1) (c :: cs))))
/-- The loop over the children. -/
def indentList (level : Nat) : List Elem → List Elem
  | [] => []
  | e :: es => indent level e :: indentList level es
end

/-- `XML_DECLARATION % "UTF-8"`, etree.py 20. -/
def xmlDeclaration : Str := c!"<?xml version=\"1.0\" encoding=\"UTF-8\"?>"

/-- `ElementTree(e).write(..., encoding="UTF-8", xml_declaration=decl, pretty_print=pretty)`, etree.py 142-206, as text. -/
def tostring (decl pretty : Bool) (e : Elem) : Except Exc Str :=
  match serialize (if pretty then indent 0 e else e) with
  | .error x => .error x
  | .ok s => .ok ((if decl then xmlDeclaration ++ (if pretty then ['\n'] else []) else []) ++ s)

end Verif.Xml
