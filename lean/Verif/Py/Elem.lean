import Verif.Py.Num
/-! Element trees as `xml.etree`/`lxml` elements. -/
namespace Verif

/-- What `element.text` can hold: with the built-in backend a bytes object stays a bytes object. -/
inductive Text where
  | str (s : Str)
  | bytes (b : List UInt8)
  deriving DecidableEq, Repr

/-- An element: tag, attributes in order, text, tail, children. -/
inductive Elem where
  | mk (tag : Str) (attrib : Dict Str Str) (text : Option Text) (tail : Option Text) (children : List Elem)
  deriving Repr

namespace Elem
def tag : Elem → Str | mk t _ _ _ _ => t
def attrib : Elem → Dict Str Str | mk _ a _ _ _ => a
def text : Elem → Option Text | mk _ _ t _ _ => t
def tail : Elem → Option Text | mk _ _ _ t _ => t
def children : Elem → List Elem | mk _ _ _ _ c => c
/-- A leaf. -/
def leaf (tag : Str) (text : Option Text) : Elem := mk tag [] text none []
/-- An element without text. -/
def node (tag : Str) (children : List Elem) : Elem := mk tag [] none none children

mutual
def beq : Elem → Elem → Bool
  | mk t a x y c, mk t' a' x' y' c' => decide (t = t') && decide (a = a') && decide (x = x') && decide (y = y') && beqList c c'
def beqList : List Elem → List Elem → Bool
  | [], [] => true
  | a :: as, b :: bs => beq a b && beqList as bs
  | _, _ => false
end

mutual
theorem beq_iff (a b : Elem) : beq a b = true ↔ a = b := by
  cases a; cases b; simp [beq, beqList_iff, and_assoc]
theorem beqList_iff (a b : List Elem) : beqList a b = true ↔ a = b := by
  cases a with
  | nil => cases b <;> simp [beqList]
  | cons x xs => cases b with
    | nil => simp [beqList]
    | cons y ys => simp [beqList, beq_iff x y, beqList_iff xs ys]
end

instance : DecidableEq Elem := fun a b =>
  if h : beq a b = true then .isTrue ((beq_iff a b).1 h) else .isFalse fun e => h ((beq_iff a b).2 e)
end Elem

/-- A character allowed in XML 1.0 documents, as tested by etree.py 232-240 (the complement of `_invalid_xml_string`;
surrogates are not characters in the model). -/
def isXmlChar (c : Char) : Bool :=
  let n := c.toNat
  n == 9 || n == 10 || n == 13 || (32 ≤ n && n ≠ 0xFFFE && n ≠ 0xFFFF)

end Verif
