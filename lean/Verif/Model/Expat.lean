import Verif.Spec.Xml
import Verif.Model.GlifScan
import Verif.Model.GlyphTable
/-! The rapid value fetching of `glifLib.py` 1390-1499 on text, as expat runs it: handlers are called for every piece of markup as soon as it is complete, whatever follows
it. `parser.Parse(text)` (glifLib.py 1407) is not told that the text is final, so text that stops anywhere is no error.

Expat is a dependency: this file describes it, on the XML of `Spec/Xml.lean`, with its notion of what is well formed. Simplification: markup whose end is not there yet is waited for; expat looks at
the beginning of it and may already refuse it. -/
namespace Verif.Expat
open Verif Verif.Spec.Xml

/-- What expat reports: start tags, characters of character data, end tags. An empty element is reported as two tags. -/
inductive Sax where
  | start (name : Str) (attrs : Dict Str Str)
  | chr (c : Char)
  | stop (name : Str)
  deriving DecidableEq, Repr

/-- How the text ends: with an error, in the middle of the document, or after a whole document. -/
inductive Ending where
  | bad
  | more
  | whole
  deriving DecidableEq, Repr

/-- A piece at the start of a text: not well formed, not complete, or complete with what it says and the rest. -/
inductive Piece (α : Type) where
  | bad
  | more
  | done (what : α) (rest : Str)
  deriving DecidableEq, Repr

/-- A tag: everything through the first `>` that is not in quotes, and the rest. -/
def tagEnd : Option Char → Str → Option (Str × Str)
  | _, [] => none
  | none, c :: r =>
    if c = '>' then some ([c], r)
    else (tagEnd (if c = '"' ∨ c = '\'' then some c else none) r).map fun x => (c :: x.1, x.2)
  | some q, c :: r => (tagEnd (if c = q then none else some q) r).map fun x => (c :: x.1, x.2)

/-- A start tag or an empty-element tag: name, attributes, and whether the element is empty. -/
def startTag (s : Str) : Piece (Str × Dict Str Str × Bool) :=
  match tagEnd none s with
  | none => .more
  | some (tok, rest) =>
    if tok.head? ≠ some '<' ∨ isName ((tok.drop 1).takeWhile nameChar) = false then .bad
    else match parseAttrs tok.length ((tok.drop 1).dropWhile nameChar) with
      | some (l, b, []) => .done ((tok.drop 1).takeWhile nameChar, l, b) rest
      | _ => .bad

/-- An end tag, after `</`. -/
def endTag (name : Str) (s : Str) : Piece Unit :=
  match splitAtFirst c!">" s with
  | none => .more
  | some (body, rest) => if body.takeWhile nameChar = name ∧ (body.dropWhile nameChar).all ws = true then .done () rest else .bad

/-- Is the end of a comment, a processing instruction or a CDATA section still to come? -/
def openMarkup (s : Str) : Bool :=
  if (c!"<!--").isPrefixOf s then
    match splitAtFirst c!"--" (s.drop 4) with
    | some (_, _ :: _) => false
    | _ => true
  else if (c!"<?").isPrefixOf s then (splitAtFirst c!"?>" (s.drop 2)).isNone
  else if (c!"<![CDATA[").isPrefixOf s then (splitAtFirst c!"]]>" (s.drop 9)).isNone
  else s.isPrefixOf c!"<!--" || s.isPrefixOf c!"<![CDATA["

/-- A comment, a processing instruction or a CDATA section: its character data. -/
def markup (s : Str) : Piece Str :=
  match parseMarkup s with
  | some (d, rest) => .done d rest
  | none => if openMarkup s then .more else .bad

/-- A part of a text that is shorter than `p` and may become `p`. -/
def begins (p s : Str) : Bool := s.isPrefixOf p && decide (s.length < p.length)

/-- White space, comments and processing instructions outside the root element; the rest is empty when the text stops there. -/
def misc : Nat → Str → Piece Unit
  | 0, _ => .more
  | n + 1, s =>
    if s.dropWhile ws = [] then .done () []
    else if begins c!"<!--" (s.dropWhile ws) then .more
    else if (c!"<!--").isPrefixOf (s.dropWhile ws) || (c!"<?").isPrefixOf (s.dropWhile ws) then
      match markup (s.dropWhile ws) with
      | .bad => .bad
      | .more => .more
      | .done _ rest => misc n rest
    else .done () (s.dropWhile ws)

/-- The XML declaration, if there is one. -/
def decl (s : Str) : Piece Unit :=
  if s.isPrefixOf c!"<?xml" then .more
  else if (c!"<?xml").isPrefixOf s && ((s.drop 5).head?.any ws) then
    match splitAtFirst c!"?>" (s.drop 5) with
    | none => .more
    | some (body, rest) => match parseAttrs (body.length + 1) (body ++ ['>']) with
      | some (l, false, []) => if declared l rest then .done () rest else .bad
      | _ => .bad
  else .done () s

/-- The document type declaration, if there is one. -/
def doctype (s : Str) : Piece Unit :=
  if begins c!"<!DOCTYPE " s then .more
  else match dropDoctype s with
    | some r => .done () r
    | none => .more

/-- Reports the characters of a text. -/
def chars (s : Str) : List Sax := s.map .chr

/-- Puts reports in front. -/
def report (l : List Sax) (x : List Sax × Ending) : List Sax × Ending := (l ++ x.1, x.2)

/-- What follows a start tag, inside the elements of `stack` (innermost first); outside of all elements, the end of the document. -/
def content : Nat → List Str → Str → List Sax × Ending
  | 0, _, _ => ([], .more)
  | n + 1, [], s => match misc (n + 1) s with
    | .bad => ([], .bad)
    | .more => ([], .more)
    | .done _ [] => ([], .whole)
    | .done _ (_ :: _) => ([], .bad)
  | n + 1, name :: stack, s =>
    if (s.dropWhile (· ≠ '<')).length < 2 then ([], .more)
    else match parseText (s.takeWhile (· ≠ '<')) with
      | none => ([], .bad)
      | some t =>
        if (s.dropWhile (· ≠ '<')).take 2 = ['<', '/'] then
          match endTag name ((s.dropWhile (· ≠ '<')).drop 2) with
          | .bad => (chars t, .bad)
          | .more => (chars t, .more)
          | .done _ rest => report (chars t ++ [.stop name]) (content n stack rest)
        else if isMarkup (s.dropWhile (· ≠ '<')) then
          match markup (s.dropWhile (· ≠ '<')) with
          | .bad => (chars t, .bad)
          | .more => (chars t, .more)
          | .done d rest => report (chars (t ++ d)) (content n (name :: stack) rest)
        else match startTag (s.dropWhile (· ≠ '<')) with
          | .bad => (chars t, .bad)
          | .more => (chars t, .more)
          | .done (tag, l, true) rest => report (chars t ++ [.start tag l, .stop tag]) (content n (name :: stack) rest)
          | .done (tag, l, false) rest => report (chars t ++ [.start tag l]) (content n (tag :: name :: stack) rest)

/-- The root element and what follows it. -/
def root (s : Str) : List Sax × Ending :=
  match startTag s with
  | .bad => ([], .bad)
  | .more => ([], .more)
  | .done (tag, l, true) rest => report [.start tag l, .stop tag] (content (rest.length + 1) [] rest)
  | .done (tag, l, false) rest => report [.start tag l] (content (rest.length + 1) [tag] rest)

/-- A part of the prolog and then the rest of the text, if any. -/
def andThen (p : Piece Unit) (k : Str → List Sax × Ending) : List Sax × Ending :=
  match p with
  | .bad => ([], .bad)
  | .more => ([], .more)
  | .done _ rest => k rest

/-- The same where more may come when the text stops. -/
def andThenMore (p : Piece Unit) (k : Str → List Sax × Ending) : List Sax × Ending :=
  match p with
  | .bad => ([], .bad)
  | .more => ([], .more)
  | .done _ [] => ([], .more)
  | .done _ (c :: rest) => k (c :: rest)

/-- A document after normalisation of line ends. -/
def document (s : Str) : List Sax × Ending :=
  andThen (decl s) fun s => andThenMore (misc (s.length + 1) s) fun s => andThen (doctype s) fun s => andThenMore (misc (s.length + 1) s) root

/-- What `Parse` reports of a text, and how the text ends. -/
def parse (s : Str) : List Sax × Ending := document (dropMark (normNl false s))

/-- The first character of UTF-8 text, and the rest. -/
def firstChar (b : Bytes) : Option (Char × Bytes) :=
  match utf8Decode (b.take 1), utf8Decode (b.take 2), utf8Decode (b.take 3), utf8Decode (b.take 4) with
  | some [c], _, _, _ => some (c, b.drop 1)
  | _, some [c], _, _ => some (c, b.drop 2)
  | _, _, some [c], _ => some (c, b.drop 3)
  | _, _, _, some [c] => some (c, b.drop 4)
  | _, _, _, _ => none

/-- The characters at the start of the bytes, and the bytes from the first one that is not part of a character. -/
def decodeSome : Nat → Bytes → Str × Bytes
  | 0, b => ([], b)
  | n + 1, b => match firstChar b with
    | none => ([], b)
    | some (c, rest) => (c :: (decodeSome n rest).1, (decodeSome n rest).2)

/-- What `Parse` reports of bytes. Simplification: up to three bytes at the end that are no character are taken for the beginning of one. -/
def parseBytes (b : Bytes) : List Sax × Ending :=
  match decodeSome b.length b with
  | (s, left) => ((parse s).1, if 4 ≤ left.length then .bad else (parse s).2)

/-- The handlers that `_BaseParser.parse` sets (glifLib.py 1405-1406) see tags only. -/
def tags : List Sax → List Glif.Event
  | [] => []
  | .start n a :: l => .start n a :: tags l
  | .chr _ :: l => tags l
  | .stop n :: l => .stop n :: tags l

end Verif.Expat

namespace Verif.Glif
open Verif

/-- The run of a parser over handler calls as in `Fetcher.run`; when they are over, expat raises if the text is not well formed. -/
def Fetcher.runText {σ : Type} (f : Fetcher σ) (ending : Expat.Ending) (stack : List Str) (s : σ) : List Event → Except Exc σ
  | [] => if ending = .bad then .error .xmlParseError else .ok s
  | .start name attrs :: es =>
    match f.onStart stack s name attrs with
    | (s, true) => .ok s
    | (s, false) => f.runText ending (name :: stack) s es
  | .stop name :: es =>
    if f.stopAt = some name then .ok s
    else match stack with
      | [] => .error .indexError
      | other :: rest => if other = name then f.runText ending rest s es else .error .assertionError

/-- A `_fetch…` function on the bytes of a file. -/
def Fetcher.fetch {σ : Type} (f : Fetcher σ) (s : σ) (b : Bytes) : Except Exc σ :=
  f.runText (Expat.parseBytes b).2 [] s (Expat.tags (Expat.parseBytes b).1)

/-- `_fetchUnicodes(glif)`, glifLib.py 1419-1425, on the bytes of a file. -/
def fetchUnicodesOf (b : Bytes) : Except Exc (List Int) := unicodesFetcher.fetch [] b

/-- `_fetchImageFileName(glif)`, glifLib.py 1447-1456, on the bytes of a file. -/
def fetchImageFileNameOf (b : Bytes) : Except Exc (Option Str) := imageFetcher.fetch none b

/-- `_fetchComponentBases(glif)`, glifLib.py 1472-1481, on the bytes of a file. -/
def fetchComponentBasesOf (b : Bytes) : Except Exc (List Str) := componentsFetcher.fetch [] b

end Verif.Glif

namespace Verif.GlyphSet
open Verif

/-- The loop of `getUnicodes`, `getComponentReferences` and `getImageReferences`, glifLib.py 472-475, 487-490, 502-505, on the bytes of the files. -/
def fetchFiles {α : Type} (fetch : Bytes → Except Exc α) (w : World) (table : Dict Str α) : List Str → Except Exc (Dict Str α)
  | [] => .ok table
  | n :: ns => match getGLIF w n with
    | .error e => .error e
    | .ok b => match fetch b with
      | .error e => .error e
      | .ok v => fetchFiles fetch w (Dict.set table n v) ns

/-- `getUnicodes`, glifLib.py 462-475, on files that may be damaged. -/
def getUnicodesOf (w : World) (names : Option (List Str)) : Except Exc (Dict Str (List Int)) :=
  fetchFiles Glif.fetchUnicodesOf w [] (names.getD (keys w.1))

/-- `getComponentReferences`, glifLib.py 477-490, on files that may be damaged. -/
def getComponentReferencesOf (w : World) (names : Option (List Str)) : Except Exc (Dict Str (List Str)) :=
  fetchFiles Glif.fetchComponentBasesOf w [] (names.getD (keys w.1))

/-- `getImageReferences`, glifLib.py 492-505, on files that may be damaged. -/
def getImageReferencesOf (w : World) (names : Option (List Str)) : Except Exc (Dict Str (Option Str)) :=
  fetchFiles Glif.fetchImageFileNameOf w [] (names.getD (keys w.1))

end Verif.GlyphSet

namespace Verif.Ufo
open Verif

/-- `getCharacterMapping`, `__init__.py` 664-680, on files that may be damaged. -/
def getCharacterMappingOf (F : FloatCodec) (fs : FS) (version : Int) (layerName : Option Str) (validate : Bool) : Except Exc (Dict Int (List Str)) :=
  match readerGlyphSet F fs version layerName validate with
  | .error e => .error e
  | .ok gs => match GlyphSet.getUnicodesOf (gs, fs) none with
    | .error e => .error e
    | .ok table => .ok (characterMap table)

end Verif.Ufo
