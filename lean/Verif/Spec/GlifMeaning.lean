import Verif.Spec.Glif
import Verif.Spec.Woff
import Verif.Spec.Numerals
/-! What glyph elements of any origin mean: the attributes and the drawing they stand for, and which of them are legal. -/
namespace Verif.Spec.GlifMeaning
open Verif Verif.Glif Verif.Spec.Glif Verif.Spec.Validators Verif.Spec.Numerals

/-- The value of an attribute. -/
def attr (e : Elem) (k : Str) : Option Str := Dict.get? e.attrib k

/-- A text, or `None`. -/
def orNothing : Option Str → PyVal
  | some s => .str s
  | none => .none

/-- The text of a number: an integer if it is one, otherwise whatever floating point number it is. -/
def Number (F : FloatCodec) (s : Str) (v : PyVal) : Prop :=
  (∃ i, Says 10 s i ∧ v = .int i) ∨ ((∀ i, ¬ Says 10 s i) ∧ ∃ f, F.parse s = some f ∧ v = .float f)

/-- A number that may be missing. -/
def NumberOr (F : FloatCodec) (default : Int) (o : Option Str) (v : PyVal) : Prop :=
  (o = none ∧ v = .int default) ∨ ∃ s, o = some s ∧ Number F s v

/-- No text but white space. -/
def BlankText (t : Option Text) : Prop := t = none ∨ t = some (.bytes []) ∨ ∃ s, t = some (.str s) ∧ ∀ c ∈ s, White c

/-! ### Outlines -/

/-- A point element and the arguments of `addPoint`. -/
structure PointSays (F : FloatCodec) (withIdentifiers : Bool) (e : Elem) (p : Pt) : Prop where
  tag : e.tag = c!"point"
  known : ∀ k ∈ Dict.keys e.attrib, k ∈ [c!"x", c!"y", c!"type", c!"smooth", c!"name"] ∨ (withIdentifiers = true ∧ k = c!"identifier")
  empty : e.children = []
  place : ∃ sx sy x y, attr e c!"x" = some sx ∧ attr e c!"y" = some sy ∧ Number F sx x ∧ Number F sy y ∧ p.pt = .tuple [x, y]
  type : ((attr e c!"type" = none ∨ attr e c!"type" = some c!"offcurve") ∧ p.segmentType = .none) ∨
    ∃ t ∈ [c!"move", c!"line", c!"curve", c!"qcurve"], attr e c!"type" = some t ∧ p.segmentType = .str t
  smooth : ((attr e c!"smooth" = none ∨ attr e c!"smooth" = some c!"no") ∧ p.smooth = .bool false) ∨
    (attr e c!"smooth" = some c!"yes" ∧ p.smooth = .bool true ∧ p.segmentType ≠ .none)
  name : p.name = orNothing (attr e c!"name")
  identifier : p.identifier = orNothing (attr e c!"identifier")

/-- A component element and the arguments of `addComponent`. -/
structure ComponentSays (F : FloatCodec) (withIdentifiers : Bool) (e : Elem) (base transformation identifier : PyVal) : Prop where
  empty : e.children = []
  known : ∀ k ∈ Dict.keys e.attrib, k = c!"base" ∨ k ∈ Spec.Glif.transformation.map Prod.fst ∨ (withIdentifiers = true ∧ k = c!"identifier")
  base : ∃ b, attr e c!"base" = some b ∧ base = .str b
  transformation : ∃ l, List.Forall₂ (fun p v => NumberOr F p.2 (attr e p.1) v) Spec.Glif.transformation l ∧ transformation = .tuple l
  identifier : identifier = orNothing (attr e c!"identifier")

/-- The types of the points. -/
def types (ps : List Pt) : List (Option Str) := ps.map fun p => fileType p.segmentType

/-- An element of an outline of format 2 and the part of the drawing it stands for. -/
inductive ItemSays2 (F : FloatCodec) (e : Elem) : Item → Prop
  | contour (i : PyVal) (ps : List Pt) (tag : e.tag = c!"contour") (known : ∀ k ∈ Dict.keys e.attrib, k = c!"identifier")
      (hi : i = orNothing (attr e c!"identifier")) (points : List.Forall₂ (PointSays F true) e.children ps) (good : GoodContour (types ps)) : ItemSays2 F e (.contour i ps)
  | component (g t i : PyVal) (tag : e.tag = c!"component") (h : ComponentSays F true e g t i) : ItemSays2 F e (.component g t i)

/-- A contour of format 1 that stands for an anchor: a single point, of type `move` and with a name. -/
structure AnchorSays1 (F : FloatCodec) (e : Elem) (v : PyVal) : Prop where
  tag : e.tag = c!"contour"
  point : ∃ p n sx sy x y, e.children = [p] ∧ p.tag = c!"point" ∧ attr p c!"type" = some c!"move" ∧ attr p c!"name" = some n ∧
    attr p c!"x" = some sx ∧ attr p c!"y" = some sy ∧ Number F sx x ∧ Number F sy y ∧
    v = .dict [(.str c!"x", x), (.str c!"y", y), (.str c!"name", .str n)]

/-- The contour is one that stands for an anchor. -/
def Marker (e : Elem) : Prop := e.tag = c!"contour" ∧ ∃ p, e.children = [p] ∧ p.tag = c!"point" ∧ attr p c!"type" = some c!"move" ∧ attr p c!"name" ≠ none

/-- The points format 1 keeps: those at the end of an open contour that are off-curve are left out. -/
def Kept1 (ps kept : List Pt) : Prop :=
  if (types ps).head? = some (some c!"move") then ∃ off, ps = kept ++ off ∧ (∀ p ∈ off, p.segmentType = .none) ∧ ∀ p, kept.getLast? = some p → p.segmentType ≠ .none
  else kept = ps

/-- An element of an outline of format 1, the anchors and the parts of the drawing it stands for. -/
inductive ItemSays1 (F : FloatCodec) (e : Elem) : List PyVal → List Item → Prop
  | anchor (v : PyVal) (h : AnchorSays1 F e v) : ItemSays1 F e [v] []
  | contour (ps kept : List Pt) (tag : e.tag = c!"contour") (no : ¬ Marker e) (known : e.attrib = []) (points : List.Forall₂ (PointSays F false) e.children ps)
      (hk : Kept1 ps kept) (good : GoodContour (types kept)) : ItemSays1 F e [] [.contour .none kept]
  | component (g t : PyVal) (tag : e.tag = c!"component") (h : ComponentSays F false e g t .none) : ItemSays1 F e [] [.component g t .none]

/-- The elements of an outline of format 1. -/
inductive OutlineSays1 (F : FloatCodec) : List Elem → List PyVal → List Item → Prop
  | nil : OutlineSays1 F [] [] []
  | cons (e : Elem) (es : List Elem) (as as' : List PyVal) (d d' : List Item) (h : ItemSays1 F e as d) (t : OutlineSays1 F es as' d') : OutlineSays1 F (e :: es) (as ++ as') (d ++ d')

/-! ### Glyphs -/

/-- The elements of a kind, in their order. -/
def named (t : Str) (tree : Elem) : List Elem := tree.children.filter fun e => decide (e.tag = t)

/-- At most one element of a kind: none and `Q`, or one with `P`. -/
def One (l : List Elem) (P : Elem → Prop) (Q : Prop) : Prop := (l = [] ∧ Q) ∨ ∃ e, l = [e] ∧ P e

/-- Attributes of the glyph object that are lists are set only when there is something to set. -/
def listOr (l : List PyVal) : Option PyVal := if l = [] then none else some (.list l)

/-- An attribute of an element as an entry of a dictionary: some are numbers, the others text. -/
def EntrySays (F : FloatCodec) (numbers : List Str) (a : Str × Str) (b : PyVal × PyVal) : Prop :=
  b.1 = .str a.1 ∧ ((a.1 ∈ numbers ∧ Number F a.2 b.2) ∨ (a.1 ∉ numbers ∧ b.2 = .str a.2))

/-- An element without content whose attributes are a dictionary. -/
def DictSays (F : FloatCodec) (numbers : List Str) (e : Elem) (d : List (PyVal × PyVal)) : Prop :=
  e.children = [] ∧ List.Forall₂ (EntrySays F numbers) e.attrib d

/-- An image element: its attributes, and the values of the transformation that are missing. -/
def ImageSays (F : FloatCodec) (e : Elem) (v : PyVal) : Prop :=
  ∃ d, DictSays F (transformation.map Prod.fst) e d ∧
    v = .dict (d ++ (transformation.filter fun p => decide (attr e p.1 = none)).map fun p => (.str p.1, .int p.2))

/-- A lib element: a property list, a dictionary with string keys, the mark color being a color. -/
def LibSays (F : FloatCodec) (e : Elem) (v : PyVal) : Prop :=
  ∃ p d, e.children = [p] ∧ Plist.fromtree F p = .ok v ∧ v = .dict d ∧
    ∀ p ∈ d, IsString p.1 ∧ (p.1 = .str c!"public.markColor" → ∃ s, p.2 = .str s ∧ FourNumbers F (Within 0 1) s)

/-- What both formats have in common; `g` is what the glyph object gets. -/
structure HeadSays (F : FloatCodec) (versions : List Int) (version : Int) (tree : Elem) (g : Str → Option PyVal) : Prop where
  tag : tree.tag = c!"glyph"
  text : BlankText tree.text
  format : ∃ s, attr tree c!"format" = some s ∧ Says 10 s version
  supported : version ∈ versions
  name : ∃ n, n ≠ [] ∧ attr tree c!"name" = some n ∧ g c!"name" = some (.str n)
  unicodes : ∃ l, List.Forall₂ (fun e i => ∃ s, attr e c!"hex" = some s ∧ Says 16 s i) (named c!"unicode" tree) l ∧
    g c!"unicodes" = listOr ((firsts l).map fun i => .int i)
  advance : One (named c!"advance" tree)
    (fun e => ∃ w h, NumberOr F 0 (attr e c!"width") w ∧ NumberOr F 0 (attr e c!"height") h ∧ g c!"width" = some w ∧ g c!"height" = some h)
    (g c!"width" = none ∧ g c!"height" = none)
  note : One (named c!"note" tree) (fun e => ∃ s lines, e.text = some (.str s) ∧ NoteLines s lines ∧ g c!"note" = some (.str (join ['\n'] lines))) (g c!"note" = none)
  lib : One (named c!"lib" tree) (fun e => ∃ v, LibSays F e v ∧ g c!"lib" = some v) (g c!"lib" = none)
  other : ∀ k, k ∉ [c!"name", c!"unicodes", c!"width", c!"height", c!"note", c!"lib", c!"image", c!"guidelines", c!"anchors"] → g k = none

/-- A glyph of format 2, what the glyph object gets and what is drawn. -/
structure GlyphSays2 (F : FloatCodec) (versions : List Int) (tree : Elem) (g : Str → Option PyVal) (calls : List Call) : Prop extends HeadSays F versions 2 tree g where
  known : ∀ e ∈ tree.children, e.tag ∈ [c!"outline", c!"advance", c!"unicode", c!"note", c!"lib", c!"guideline", c!"anchor", c!"image"]
  image : One (named c!"image" tree) (fun e => ∃ v, ImageSays F e v ∧ Woff.Image F v ∧ g c!"image" = some v) (g c!"image" = none)
  guidelines : ∃ l, List.Forall₂ (fun e v => ∃ d, v = .dict d ∧ DictSays F [c!"x", c!"y", c!"angle"] e d ∧ Guideline F d) (named c!"guideline" tree) l ∧ g c!"guidelines" = listOr l
  anchors : ∃ l, List.Forall₂ (fun e v => ∃ d, v = .dict d ∧ DictSays F [c!"x", c!"y"] e d ∧ Anchor F d) (named c!"anchor" tree) l ∧ g c!"anchors" = listOr l
  outline : One (named c!"outline" tree) (fun e => e.attrib = [] ∧ BlankText e.text ∧ ∃ d, List.Forall₂ (ItemSays2 F) e.children d ∧ calls = drawing d) (calls = [])
  identifiers : (glyphIdentifiers tree).Nodup ∧ ∀ i ∈ glyphIdentifiers tree, LegalIdentifier i

/-- A glyph of format 1, what the glyph object gets and what is drawn. -/
structure GlyphSays1 (F : FloatCodec) (versions : List Int) (tree : Elem) (g : Str → Option PyVal) (calls : List Call) : Prop extends HeadSays F versions 1 tree g where
  known : ∀ e ∈ tree.children, e.tag ∈ [c!"outline", c!"advance", c!"unicode", c!"note", c!"lib"]
  image : g c!"image" = none
  guidelines : g c!"guidelines" = none
  outline : One (named c!"outline" tree)
    (fun e => e.attrib = [] ∧ BlankText e.text ∧ ∃ as d, OutlineSays1 F e.children as d ∧ calls = drawing d ∧ g c!"anchors" = listOr as)
    (calls = [] ∧ g c!"anchors" = none)

end Verif.Spec.GlifMeaning
