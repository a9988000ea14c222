import Verif.Spec.Plist
import Verif.Spec.Numerals
import Verif.Py.Elem
import Verif.Spec.Xml
import Mathlib.Data.List.Forall2
/-! What property lists of any origin mean. -/
namespace Verif.Spec.PlistMeaning
open Verif Verif.Spec.Numerals Verif.Spec.Plist

/-- The text of an element without content. -/
def TextIs (e : Elem) (s : Str) : Prop := e.children = [] ∧ (e.text = some (.str s) ∨ (e.text = none ∧ s = []))

/-! ### Dates -/

/-- A date: the year, then month, day and perhaps more, then `Z`; what follows is not looked at. -/
structure DateSays (s : Str) (d : PyDate) : Prop where
  text : ∃ y ns rest, y.length = 4 ∧ (∀ n ∈ ns, n.length = 2) ∧ 2 ≤ ns.length ∧ ns.length ≤ 5 ∧ s = y ++ (List.zipWith List.cons c!"--T::" ns).flatten ++ 'Z' :: rest ∧
    Digits 10 y d.year ∧ List.Forall₂ (Digits 10) ns ([d.month, d.day, d.hour, d.minute, d.second].take ns.length) ∧
    ∀ n ∈ [d.month, d.day, d.hour, d.minute, d.second].drop ns.length, n = 0
  real : RealDate d

/-! ### Data -/

/-- The alphabet of base64, RFC 4648. -/
def alphabet : Str := c!"ABCDEFGHIJKLMNOPQRSTUVWXYZabcdefghijklmnopqrstuvwxyz0123456789+/"

/-- Groups of four numbers of six bits are three bytes; the bits left over at the end are dropped. -/
def Sextets : List Nat → List UInt8 → Prop
  | [], l => l = []
  | [_], _ => False
  | [a, b], l => ∃ x r, l = [x] ∧ r < 16 ∧ a * 64 + b = x.toNat * 16 + r
  | [a, b, c], l => ∃ x y r, l = [x, y] ∧ r < 4 ∧ a * 4096 + b * 64 + c = (x.toNat * 256 + y.toNat) * 4 + r
  | a :: b :: c :: d :: rest, l => ∃ x y z l', l = x :: y :: z :: l' ∧ a * 262144 + b * 4096 + c * 64 + d = x.toNat * 65536 + y.toNat * 256 + z.toNat ∧ Sextets rest l'

/-- Base64 text, white space anywhere: the numbers the characters stand for. -/
def Base64 (s : Str) (vs : List Nat) : Prop :=
  ∃ cs pads, s.filter (fun c => decide (c ∉ c!" \t\n\r")) = cs ++ List.replicate pads '=' ∧ List.Forall₂ (fun c v => alphabet[v]? = some c) cs vs ∧
    pads ≤ 2 ∧ (cs.length + pads) % 4 = 0

/-- Text made of white space, characters of the alphabet and after them padding, not more than is due; possibly cut off. -/
def DataText (s : Str) : Prop :=
  ∃ cs pads, s.filter (fun c => decide (c ∉ c!" \t\n\r")) = cs ++ List.replicate pads '=' ∧ (∀ c ∈ cs, c ∈ alphabet) ∧ pads ≤ 2 ∧ pads ≤ (4 - cs.length % 4) % 4

/-! ### Values -/

/-- The keys, each at its first place. -/
def firstKeys : List Str → List Str
  | [] => []
  | k :: l => k :: (firstKeys l).filter fun j => decide (j ≠ k)

/-- A dictionary written as a list: of entries with the same key the last one counts. -/
def DictIs (items : List (Str × PyVal)) (d : List (PyVal × PyVal)) : Prop :=
  ∃ d0 : List (Str × PyVal), d = d0.map (fun p => (.str p.1, p.2)) ∧ d0.map Prod.fst = firstKeys (items.map Prod.fst) ∧
    ∀ p ∈ d0, ∃ a b, items = a ++ p :: b ∧ ∀ q ∈ b, q.1 ≠ p.1

mutual
/-- An element as the document type of property lists has it. -/
inductive Shaped : Elem → Prop
  | leaf (e : Elem) (s : Str) (ht : e.tag ∈ [c!"true", c!"false", c!"integer", c!"real", c!"string", c!"data", c!"date"]) (hx : TextIs e s)
      (hd : e.tag = c!"data" → DataText s) : Shaped e
  | array (e : Elem) (ht : e.tag = c!"array") (h : ShapedList e.children) : Shaped e
  | dict (e : Elem) (ht : e.tag = c!"dict") (h : ShapedItems e.children) : Shaped e
/-- Values one after another. -/
inductive ShapedList : List Elem → Prop
  | nil : ShapedList []
  | cons (e : Elem) (es : List Elem) (h : Shaped e) (t : ShapedList es) : ShapedList (e :: es)
/-- Keys and values in turn. -/
inductive ShapedItems : List Elem → Prop
  | nil : ShapedItems []
  | cons (k e : Elem) (es : List Elem) (s : Str) (hk : k.tag = c!"key") (hx : TextIs k s) (h : Shaped e) (t : ShapedItems es) : ShapedItems (k :: e :: es)
end

mutual
/-- The value an element stands for. -/
inductive Means (F : FloatCodec) : Elem → PyVal → Prop
  | true (e : Elem) (ht : e.tag = c!"true") : Means F e (.bool true)
  | false (e : Elem) (ht : e.tag = c!"false") : Means F e (.bool false)
  | integer (e : Elem) (s : Str) (i : Int) (ht : e.tag = c!"integer") (hx : TextIs e s) (h : Says 10 s i) : Means F e (.int i)
  | real (e : Elem) (s : Str) (f : Flt) (ht : e.tag = c!"real") (hx : TextIs e s) (h : F.parse s = some f) : Means F e (.float f)
  | string (e : Elem) (s : Str) (ht : e.tag = c!"string") (hx : TextIs e s) : Means F e (.str s)
  | data (e : Elem) (s : Str) (vs : List Nat) (b : List UInt8) (ht : e.tag = c!"data") (hx : TextIs e s) (h : Base64 s vs) (hb : Sextets vs b) : Means F e (.bytes b)
  | date (e : Elem) (s : Str) (d : PyDate) (ht : e.tag = c!"date") (hx : TextIs e s) (h : DateSays s d) : Means F e (.date d)
  | array (e : Elem) (l : List PyVal) (ht : e.tag = c!"array") (h : MeansList F e.children l) : Means F e (.list l)
  | dict (e : Elem) (items : List (Str × PyVal)) (d : List (PyVal × PyVal)) (ht : e.tag = c!"dict") (h : MeansItems F e.children items) (hd : DictIs items d) : Means F e (.dict d)
/-- The values of elements. -/
inductive MeansList (F : FloatCodec) : List Elem → List PyVal → Prop
  | nil : MeansList F [] []
  | cons (e : Elem) (es : List Elem) (v : PyVal) (l : List PyVal) (h : Means F e v) (t : MeansList F es l) : MeansList F (e :: es) (v :: l)
/-- The entries of a dictionary. -/
inductive MeansItems (F : FloatCodec) : List Elem → List (Str × PyVal) → Prop
  | nil : MeansItems F [] []
  | cons (k e : Elem) (es : List Elem) (s : Str) (v : PyVal) (l : List (Str × PyVal)) (hk : k.tag = c!"key") (hx : TextIs k s) (h : Means F e v) (t : MeansItems F es l) :
      MeansItems F (k :: e :: es) ((s, v) :: l)
end

/-- The text of a property list file: an XML document, a `plist` element with one value. -/
def Document (x : Str) (e : Elem) : Prop := ∃ a text tail, Spec.Xml.parse x = some (.mk c!"plist" a text tail [e])

end Verif.Spec.PlistMeaning
