import Verif.Py.Str
import Verif.Py.Dict
/-! Python values. -/
namespace Verif

/-- Python floats: `nan`, the infinities and finite values as rationals (negative zero is identified with zero;
rounding is not modelled). -/
inductive Flt where
  | nan
  | inf (neg : Bool)
  | fin (q : Rat)
  deriving DecidableEq, Repr

/-- A date and time without time zone (`datetime.datetime`), without microseconds. -/
structure PyDate where
  year : Nat
  month : Nat
  day : Nat
  hour : Nat
  minute : Nat
  second : Nat
  deriving DecidableEq, Repr

/-- The Python values the modelled code inspects. `other` stands for any object of a type the code does not know. -/
inductive PyVal where
  | none
  | bool (b : Bool)
  | int (i : Int)
  | float (f : Flt)
  | str (s : Str)
  | bytes (b : List UInt8)
  | date (d : PyDate)
  | list (l : List PyVal)
  | tuple (l : List PyVal)
  | dict (d : List (PyVal × PyVal))
  | other (n : Nat)
  deriving Repr

mutual
/-- Structural equality (not Python's `==`, for which `1 == 1.0 == True`). -/
def PyVal.beq : PyVal → PyVal → Bool
  | .none, .none => true
  | .bool a, .bool b => a == b
  | .int a, .int b => a == b
  | .float a, .float b => a == b
  | .str a, .str b => a == b
  | .bytes a, .bytes b => a == b
  | .date a, .date b => a == b
  | .list a, .list b => PyVal.beqList a b
  | .tuple a, .tuple b => PyVal.beqList a b
  | .dict a, .dict b => PyVal.beqPairs a b
  | .other a, .other b => a == b
  | _, _ => false
def PyVal.beqList : List PyVal → List PyVal → Bool
  | [], [] => true
  | a :: as, b :: bs => PyVal.beq a b && PyVal.beqList as bs
  | _, _ => false
def PyVal.beqPairs : List (PyVal × PyVal) → List (PyVal × PyVal) → Bool
  | [], [] => true
  | (a, a') :: as, (b, b') :: bs => PyVal.beq a b && PyVal.beq a' b' && PyVal.beqPairs as bs
  | _, _ => false
end

mutual
theorem PyVal.beq_iff (a b : PyVal) : PyVal.beq a b = true ↔ a = b := by
  cases a <;> cases b <;> simp [PyVal.beq, PyVal.beqList_iff, PyVal.beqPairs_iff]
theorem PyVal.beqList_iff (a b : List PyVal) : PyVal.beqList a b = true ↔ a = b := by
  cases a with
  | nil => cases b <;> simp [PyVal.beqList]
  | cons x xs => cases b with
    | nil => simp [PyVal.beqList]
    | cons y ys => simp [PyVal.beqList, PyVal.beq_iff x y, PyVal.beqList_iff xs ys]
theorem PyVal.beqPairs_iff (a b : List (PyVal × PyVal)) : PyVal.beqPairs a b = true ↔ a = b := by
  cases a with
  | nil => cases b <;> simp [PyVal.beqPairs]
  | cons x xs => cases b with
    | nil => cases x; simp [PyVal.beqPairs]
    | cons y ys =>
      obtain ⟨x1, x2⟩ := x
      obtain ⟨y1, y2⟩ := y
      simp [PyVal.beqPairs, PyVal.beq_iff x1 y1, PyVal.beq_iff x2 y2, PyVal.beqPairs_iff xs ys, and_assoc]
end

instance : DecidableEq PyVal := fun a b =>
  if h : PyVal.beq a b = true then .isTrue ((PyVal.beq_iff a b).1 h)
  else .isFalse fun e => h ((PyVal.beq_iff a b).2 e)

end Verif
