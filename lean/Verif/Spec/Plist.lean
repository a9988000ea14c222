import Verif.Py.Elem
/-! What property lists are, independent of the model. -/
namespace Verif.Spec.Plist
open Verif

/-- An existing calendar date and time of day, years 1 to 9999. -/
structure RealDate (d : PyDate) : Prop where
  year : 1 ≤ d.year ∧ d.year ≤ 9999
  month : 1 ≤ d.month ∧ d.month ≤ 12
  day : 1 ≤ d.day
  short : d.month ∈ [4, 6, 9, 11] → d.day ≤ 30
  february : d.month = 2 → d.day ≤ 29 ∧ (d.day = 29 → 4 ∣ d.year ∧ (100 ∣ d.year → 400 ∣ d.year))
  long : d.day ≤ 31
  time : d.hour < 24 ∧ d.minute < 60 ∧ d.second < 60

/-- Text XML 1.0 can carry: tab, newline, carriage return and everything from space on except U+FFFE and U+FFFF. -/
def XmlText (s : Str) : Prop :=
  ∀ c ∈ s, c = '\t' ∨ c = '\n' ∨ c = '\r' ∨ (' ' ≤ c ∧ c.toNat ≠ 0xFFFE ∧ c.toNat ≠ 0xFFFF)

mutual
/-- Values a property list can represent; `T` says which text can be represented. -/
inductive Representable (T : Str → Prop) : PyVal → Prop
  | bool (b : Bool) : Representable T (.bool b)
  | int (i : Int) (h : -(2 : Int) ^ 63 ≤ i ∧ i < (2 : Int) ^ 64) : Representable T (.int i)
  | float (f : Flt) : Representable T (.float f)
  | str (s : Str) (h : T s) : Representable T (.str s)
  | bytes (b : List UInt8) : Representable T (.bytes b)
  | date (d : PyDate) : Representable T (.date d)
  | list (l : List PyVal) (h : RepresentableList T l) : Representable T (.list l)
  | tuple (l : List PyVal) (h : RepresentableList T l) : Representable T (.tuple l)
  | dict (l : List (PyVal × PyVal)) (h : RepresentableItems T l) : Representable T (.dict l)
inductive RepresentableList (T : Str → Prop) : List PyVal → Prop
  | nil : RepresentableList T []
  | cons (v : PyVal) (l : List PyVal) (h : Representable T v) (h' : RepresentableList T l) : RepresentableList T (v :: l)
inductive RepresentableItems (T : Str → Prop) : List (PyVal × PyVal) → Prop
  | nil : RepresentableItems T []
  | cons (k : Str) (v : PyVal) (l : List (PyVal × PyVal)) (hk : T k) (hv : Representable T v) (h : RepresentableItems T l) :
      RepresentableItems T ((.str k, v) :: l)
end

/-- The text the backend accepts in a tree: lxml checks, the built-in one does not. -/
def TreeText (lxml : Bool) (s : Str) : Prop := lxml = true → XmlText s

mutual
/-- Every dictionary in the value has pairwise different keys (always true of Python dictionaries), and dates are real. -/
def WellFormed : PyVal → Prop
  | .list l => WellFormedList l
  | .tuple l => WellFormedList l
  | .dict d => (d.map Prod.fst).Nodup ∧ WellFormedItems d
  | .date d => RealDate d
  | _ => True
def WellFormedList : List PyVal → Prop
  | [] => True
  | v :: l => WellFormed v ∧ WellFormedList l
def WellFormedItems : List (PyVal × PyVal) → Prop
  | [] => True
  | (_, v) :: l => WellFormed v ∧ WellFormedItems l
end

mutual
/-- Equal up to the order of dictionary items, at any depth. -/
inductive Same : PyVal → PyVal → Prop
  | refl (v : PyVal) : Same v v
  | list (a b : List PyVal) (h : SameList a b) : Same (.list a) (.list b)
  | tuple (a b : List PyVal) (h : SameList a b) : Same (.tuple a) (.tuple b)
  | dict (a b : List (PyVal × PyVal)) (h : SameItems a b) : Same (.dict a) (.dict b)
inductive SameList : List PyVal → List PyVal → Prop
  | nil : SameList [] []
  | cons (v w : PyVal) (a b : List PyVal) (h : Same v w) (h' : SameList a b) : SameList (v :: a) (w :: b)
inductive SameItems : List (PyVal × PyVal) → List (PyVal × PyVal) → Prop
  | nil : SameItems [] []
  | cons (k v w : PyVal) (a b : List (PyVal × PyVal)) (h : Same v w) (h' : SameItems a b) : SameItems ((k, v) :: a) ((k, w) :: b)
  | swap (x y : PyVal × PyVal) (a : List (PyVal × PyVal)) : SameItems (x :: y :: a) (y :: x :: a)
  | trans (a b c : List (PyVal × PyVal)) (h : SameItems a b) (h' : SameItems b c) : SameItems a c
end

mutual
/-- The value with every tuple replaced by a list (property lists have no tuples). -/
def untuple : PyVal → PyVal
  | .list l => .list (untupleList l)
  | .tuple l => .list (untupleList l)
  | .dict d => .dict (untupleItems d)
  | v => v
def untupleList : List PyVal → List PyVal
  | [] => []
  | v :: l => untuple v :: untupleList l
def untupleItems : List (PyVal × PyVal) → List (PyVal × PyVal)
  | [] => []
  | (k, v) :: l => (k, untuple v) :: untupleItems l
end

mutual
/-- No tuple anywhere. -/
def NoTuple : PyVal → Prop
  | .list l => NoTupleList l
  | .tuple _ => False
  | .dict d => NoTupleItems d
  | _ => True
def NoTupleList : List PyVal → Prop
  | [] => True
  | v :: l => NoTuple v ∧ NoTupleList l
def NoTupleItems : List (PyVal × PyVal) → Prop
  | [] => True
  | (_, v) :: l => NoTuple v ∧ NoTupleItems l
end

mutual
/-- No non-empty bytes object anywhere. -/
def NoBytes : PyVal → Prop
  | .list l => NoBytesList l
  | .tuple l => NoBytesList l
  | .dict d => NoBytesItems d
  | .bytes b => b = []
  | _ => True
def NoBytesList : List PyVal → Prop
  | [] => True
  | v :: l => NoBytes v ∧ NoBytesList l
def NoBytesItems : List (PyVal × PyVal) → Prop
  | [] => True
  | (_, v) :: l => NoBytes v ∧ NoBytesItems l
end

/-- `w` occurs in `v` at some depth (as an element of a list or tuple, or as a value of a dictionary). -/
inductive Inside (w : PyVal) : PyVal → Prop
  | here : Inside w w
  | list (l : List PyVal) (x : PyVal) (h : x ∈ l) (h' : Inside w x) : Inside w (.list l)
  | tuple (l : List PyVal) (x : PyVal) (h : x ∈ l) (h' : Inside w x) : Inside w (.tuple l)
  | dict (d : List (PyVal × PyVal)) (p : PyVal × PyVal) (h : p ∈ d) (h' : Inside w p.2) : Inside w (.dict d)

/-- Something no property list can hold: none, an object of another type, an integer out of range, a dictionary with a key
that is not a string. -/
def Unsupported : PyVal → Prop
  | .none => True
  | .other _ => True
  | .int i => i < -(2 : Int) ^ 63 ∨ (2 : Int) ^ 64 ≤ i
  | .dict d => ∃ p ∈ d, ∀ s, p.1 ≠ .str s
  | _ => False

/-- Strings that survive in an XML file: XML text without CR. -/
def FileText (s : Str) : Prop := XmlText s ∧ '\r' ∉ s

end Verif.Spec.Plist
