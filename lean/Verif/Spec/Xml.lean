import Verif.Py.Elem
/-! A small XML 1.0 parser, written from the XML recommendation and not from ufoLib: elements, attributes, character data,
character references and the five predefined entities, comments, processing instructions, CDATA sections, an XML declaration and
a document type declaration without internal subset. (No namespaces, no entities declared in the document; names are ASCII; a declared
encoding must be UTF-8 or ASCII.) The tree is built as `xml.etree`'s `TreeBuilder` does: absent text is `none`, comments and
processing instructions are left out and the text around them is joined. -/
namespace Verif.Spec.Xml
open Verif

/-- White space of XML. -/
def ws (c : Char) : Bool := c = ' ' || c = '\t' || c = '\n' || c = '\r'

/-- First characters of names (ASCII part, without the colon). -/
def nameStart (c : Char) : Bool := ('a' ≤ c && c ≤ 'z') || ('A' ≤ c && c ≤ 'Z') || c = '_'

/-- Further characters of names. -/
def nameChar (c : Char) : Bool := nameStart c || ('0' ≤ c && c ≤ '9') || c = '-' || c = '.'

/-- Names. -/
def isName : Str → Bool
  | [] => false
  | c :: r => nameStart c && r.all nameChar

/-- Characters of XML documents. -/
def xmlChar (c : Char) : Bool :=
  c = '\t' || c = '\n' || c = '\r' || (' ' ≤ c && c.toNat ≠ 0xFFFE && c.toNat ≠ 0xFFFF)

/-- Section 2.11: CR LF and CR become LF before parsing. `cr`: the previous character was CR. -/
def normNl (cr : Bool) : Str → Str
  | [] => []
  | c :: r => if c = '\r' then '\n' :: normNl true r else if c = '\n' && cr then normNl false r else c :: normNl false r

/-- Value of a digit in the given base. -/
def digitIn (base : Nat) (c : Char) : Option Nat :=
  let n := c.toNat
  if 48 ≤ n ∧ n ≤ 57 then some (n - 48)
  else if base = 16 ∧ 97 ≤ n ∧ n ≤ 102 then some (n - 87)
  else if base = 16 ∧ 65 ≤ n ∧ n ≤ 70 then some (n - 55)
  else none

/-- A number in the given base. -/
def number (base : Nat) (acc : Nat) : Str → Option Nat
  | [] => some acc
  | c :: r => match digitIn base c with
    | some d => number base (acc * base + d) r
    | none => none

/-- Section 4.1, 4.6: what stands between `&` and `;`. -/
def resolve (s : Str) : Option Char :=
  if s = c!"amp" then some '&'
  else if s = c!"lt" then some '<'
  else if s = c!"gt" then some '>'
  else if s = c!"quot" then some '"'
  else if s = c!"apos" then some '\''
  else match s with
    | '#' :: 'x' :: d :: ds => (number 16 0 (d :: ds)).bind fun n => if n.isValidChar ∧ xmlChar (Char.ofNat n) then some (Char.ofNat n) else none
    | '#' :: d :: ds => (number 10 0 (d :: ds)).bind fun n => if n.isValidChar ∧ xmlChar (Char.ofNat n) then some (Char.ofNat n) else none
    | _ => none

/-- Replaces references; other characters are mapped by `f`. `st` is the text of an open reference. -/
def unescape (f : Char → Char) (st : Option Str) : Str → Option Str
  | [] => match st with
    | none => some []
    | some _ => none
  | c :: r => match st with
    | none => if c = '&' then unescape f (some []) r
      else if xmlChar c then (unescape f none r).map (f c :: ·) else none
    | some b => if c = ';' then (resolve b).bind fun x => (unescape f none r).map (x :: ·)
      else unescape f (some (b ++ [c])) r

/-- Does `]]>` occur? -/
def hasCdataEnd : Str → Bool
  | [] => false
  | c :: r => (c :: r).take 3 = [']', ']', '>'] || hasCdataEnd r

/-- Character data, section 2.4. -/
def parseText (s : Str) : Option Str := if hasCdataEnd s then none else unescape id none s

/-- Section 3.3.3: literal white space in an attribute value is a space. -/
def parseAttr (s : Str) : Option Str :=
  if '<' ∈ s then none else unescape (fun c => if ws c then ' ' else c) none s

/-- Text as the tree builder stores it. -/
def asText : Str → Option Text
  | [] => none
  | c :: r => some (.str (c :: r))

/-- Text of an element as a string (bytes objects as ASCII). -/
def textStr : Option Text → Str
  | none => []
  | some (.str s) => s
  | some (.bytes b) => b.map fun x => Char.ofNat x.toNat

/-- Gives an element its tail. -/
def withTail (t : Option Text) : Elem → Elem
  | .mk tag attrib text _ children => .mk tag attrib text t children

/-- Attributes and the end of a start tag: attributes, whether the tag is an empty-element tag, the rest. -/
def parseAttrs : Nat → Str → Option (List (Str × Str) × Bool × Str)
  | 0, _ => none
  | n + 1, s =>
    match s.dropWhile ws with
    | [] => none
    | c :: r =>
      if c = '>' then some ([], false, r)
      else if c = '/' then (if r.head? = some '>' then some ([], true, r.drop 1) else none)
      else if s.head? = some c then none
      else
        let name := (c :: r).takeWhile nameChar
        let after := (c :: r).dropWhile nameChar
        if !isName name then none
        else if (after.dropWhile ws).head? ≠ some '=' then none
        else match ((after.dropWhile ws).drop 1).dropWhile ws with
          | [] => none
          | q :: r' =>
            if q ≠ '"' ∧ q ≠ '\'' then none
            else match parseAttr (r'.takeWhile (· ≠ q)), r'.dropWhile (· ≠ q) with
              | some v, _ :: rest =>
                match parseAttrs n rest with
                | some (l, b, rest) => if name ∈ l.map Prod.fst then none else some ((name, v) :: l, b, rest)
                | none => none
              | _, _ => none

/-- Splits at the first occurrence of `p` (not empty): what is before and what is after. -/
def splitAtFirst (p : Str) : Str → Option (Str × Str)
  | [] => none
  | c :: r => if p.isPrefixOf (c :: r) then some ([], (c :: r).drop p.length)
    else (splitAtFirst p r).map fun x => (c :: x.1, x.2)

/-- Section 2.5, a comment after `<!--`: the rest. -/
def dropComment (s : Str) : Option Str :=
  match splitAtFirst c!"--" s with
  | some (body, c :: rest) => if c = '>' ∧ body.all xmlChar then some rest else none
  | _ => none

/-- Section 2.6, a processing instruction after `<?`: the rest. -/
def dropInstruction (s : Str) : Option Str :=
  match splitAtFirst c!"?>" s with
  | some (body, rest) =>
    if isName (body.takeWhile nameChar) ∧ (body.takeWhile nameChar).map asciiLowerChar ≠ c!"xml" ∧
      ((body.dropWhile nameChar).head?.all ws) ∧ body.all xmlChar then some rest else none
  | none => none

/-- Section 2.7, a CDATA section after `<![CDATA[`: its text and the rest. -/
def takeCdata (s : Str) : Option (Str × Str) :=
  match splitAtFirst c!"]]>" s with
  | some (body, rest) => if body.all xmlChar then some (body, rest) else none
  | none => none

/-- A comment, a processing instruction or a CDATA section: its character data and the rest. -/
def parseMarkup (s : Str) : Option (Str × Str) :=
  if (c!"<!--").isPrefixOf s then (dropComment (s.drop 4)).map fun r => ([], r)
  else if (c!"<?").isPrefixOf s then (dropInstruction (s.drop 2)).map fun r => ([], r)
  else if (c!"<![CDATA[").isPrefixOf s then takeCdata (s.drop 9)
  else none

/-- Does markup that is not a tag follow? -/
def isMarkup (s : Str) : Bool := s.take 2 = ['<', '!'] || s.take 2 = ['<', '?']

mutual
/-- An element. -/
def parseElem : Nat → Str → Option (Elem × Str)
  | 0, _ => none
  | n + 1, s =>
    match s with
    | [] => none
    | c :: r =>
      if c ≠ '<' then none
      else if !isName (r.takeWhile nameChar) then none
      else match parseAttrs n (r.dropWhile nameChar) with
        | none => none
        | some (l, true, rest) => some (.mk (r.takeWhile nameChar) l none none [], rest)
        | some (l, false, rest) => match parseContent n (r.takeWhile nameChar) rest with
          | none => none
          | some (t, es, rest) => some (.mk (r.takeWhile nameChar) l t none es, rest)
/-- Content up to and including the end tag: leading text, elements with their tails, the rest. -/
def parseContent : Nat → Str → Str → Option (Option Text × List Elem × Str)
  | 0, _, _ => none
  | n + 1, name, s =>
    match parseText (s.takeWhile (· ≠ '<')) with
    | none => none
    | some t =>
      if (s.dropWhile (· ≠ '<')).take 2 = ['<', '/'] then
        let r := (s.dropWhile (· ≠ '<')).drop 2
        if r.takeWhile nameChar ≠ name then none
        else match (r.dropWhile nameChar).dropWhile ws with
          | [] => none
          | c :: rest => if c = '>' then some (asText t, [], rest) else none
      else if isMarkup (s.dropWhile (· ≠ '<')) then
        match parseMarkup (s.dropWhile (· ≠ '<')) with
        | none => none
        | some (d, rest) => match parseContent n name rest with
          | none => none
          | some (x, es, rest) => some (asText (t ++ d ++ textStr x), es, rest)
      else match parseElem n (s.dropWhile (· ≠ '<')) with
        | none => none
        | some (e, rest) => match parseContent n name rest with
          | none => none
          | some (tail, es, rest) => some (asText t, withTail tail e :: es, rest)
end

/-- Drops everything through the first occurrence of `p` (not empty). -/
def dropThrough (p : Str) : Str → Option Str
  | [] => none
  | c :: r => if p.isPrefixOf (c :: r) then some ((c :: r).drop p.length) else dropThrough p r

/-- A declaration that the parser reads: the encoding is UTF-8, or ASCII and the rest is. -/
def declared (l : List (Str × Str)) (rest : Str) : Bool :=
  l.all (fun p => p.1 ∈ [c!"version", c!"encoding", c!"standalone"]) && (l.map Prod.fst).head? = some c!"version" &&
    l.all (fun p => p.1 ≠ c!"encoding" || p.2.map asciiLowerChar = c!"utf-8" ||
      (p.2.map asciiLowerChar = c!"us-ascii" && rest.all fun c => decide (c.toNat < 128)))

/-- Drops an XML declaration at the start, sections 2.8 and 4.3.3. -/
def dropDecl (s : Str) : Option Str :=
  if (c!"<?xml").isPrefixOf s && ((s.drop 5).head?.any ws) then
    match splitAtFirst c!"?>" (s.drop 5) with
    | some (body, rest) => match parseAttrs (body.length + 1) (body ++ ['>']) with
      | some (l, false, []) => if declared l rest then some rest else none
      | _ => none
    | none => none
  else some s

/-- Drops a document type declaration. -/
def dropDoctype (s : Str) : Option Str := if (c!"<!DOCTYPE ").isPrefixOf s then dropThrough c!">" s else some s

/-- Drops white space, comments and processing instructions between the parts of a document (`Misc` in section 2.8). -/
def dropMisc : Nat → Str → Option Str
  | 0, s => some (s.dropWhile ws)
  | n + 1, s =>
    if (c!"<!--").isPrefixOf (s.dropWhile ws) || (c!"<?").isPrefixOf (s.dropWhile ws) then
      match parseMarkup (s.dropWhile ws) with
      | none => none
      | some (_, rest) => dropMisc n rest
    else some (s.dropWhile ws)

/-- A byte order mark at the start is not part of the document. -/
def dropMark : Str → Str
  | [] => []
  | c :: r => if c.toNat = 0xFEFF then r else c :: r

/-- The root element and what follows it. -/
def parseRoot (s : Str) : Option Elem :=
  match parseElem s.length s with
  | none => none
  | some (e, rest) => if dropMisc rest.length rest = some [] then some e else none

/-- A document. -/
def parse (s : Str) : Option Elem :=
  (dropDecl (dropMark (normNl false s))).bind fun s => (dropMisc s.length s).bind fun s =>
    (dropDoctype s).bind fun s => (dropMisc s.length s).bind parseRoot

/-! ### What can be written and what comes back -/

/-- Character data that XML can carry literally: allowed characters other than CR. -/
def GoodText (t : Option Text) : Prop :=
  (∀ c ∈ textStr t, xmlChar c = true ∧ c ≠ '\r') ∧ ∀ b, t = some (.bytes b) → ∀ x ∈ b, x < 128

/-- Attribute values that survive: allowed characters other than CR and TAB. -/
def GoodAttr (s : Str) : Prop := ∀ c ∈ s, xmlChar c = true ∧ c ≠ '\r' ∧ c ≠ '\t'

mutual
/-- Trees that can be written: names are names, attribute names are different, texts and values are as above. -/
def Writable : Elem → Prop
  | .mk tag attrib text tail children =>
    isName tag = true ∧ (attrib.map Prod.fst).Nodup ∧ (∀ p ∈ attrib, isName p.1 = true ∧ GoodAttr p.2) ∧
      GoodText text ∧ GoodText tail ∧ WritableList children
def WritableList : List Elem → Prop
  | [] => True
  | e :: es => Writable e ∧ WritableList es
end

mutual
/-- The tree with empty texts absent and bytes as strings. -/
def plain : Elem → Elem
  | .mk tag attrib text tail children => .mk tag attrib (asText (textStr text)) (asText (textStr tail)) (plainList children)
def plainList : List Elem → List Elem
  | [] => []
  | e :: es => plain e :: plainList es
end

/-- Only white space. -/
def Blank (s : Str) : Prop := ∀ c ∈ s, isSpace c = true

mutual
/-- Same elements and attributes, same texts of leaves; text between elements is the same or white space in both. -/
inductive SameTree : Elem → Elem → Prop
  | mk (tag : Str) (attrib : Dict Str Str) (x x' y y' : Option Text) (c c' : List Elem)
      (text : textStr x = textStr x' ∨ (c ≠ [] ∧ Blank (textStr x) ∧ Blank (textStr x')))
      (tail : textStr y = textStr y' ∨ (Blank (textStr y) ∧ Blank (textStr y')))
      (children : SameTrees c c') : SameTree (.mk tag attrib x y c) (.mk tag attrib x' y' c')
inductive SameTrees : List Elem → List Elem → Prop
  | nil : SameTrees [] []
  | cons (e e' : Elem) (es es' : List Elem) (h : SameTree e e') (h' : SameTrees es es') : SameTrees (e :: es) (e' :: es')
end

end Verif.Spec.Xml
