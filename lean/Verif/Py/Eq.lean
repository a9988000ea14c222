import Verif.Py.Val
/-! Python's `==` on values. -/
namespace Verif

/-- The number a bool, int or float stands for. -/
def PyVal.num? : PyVal → Option Flt
  | .bool b => some (.fin (if b then 1 else 0))
  | .int i => some (.fin i)
  | .float f => some f
  | _ => .none

/-- `==` of two numbers: `nan` differs from everything. -/
def Flt.eq : Flt → Flt → Bool
  | .nan, _ => false
  | _, .nan => false
  | a, b => decide (a = b)

mutual
/-- Python `a == b` for values that do not share objects (Python compares identical objects as equal inside
containers, which matters for `nan` only). -/
def PyVal.pyEq : PyVal → PyVal → Bool
  | .none, .none => true
  | .str a, .str b => decide (a = b)
  | .bytes a, .bytes b => decide (a = b)
  | .date a, .date b => decide (a = b)
  | .list a, .list b => PyVal.pyEqList a b
  | .tuple a, .tuple b => PyVal.pyEqList a b
  | .dict a, .dict b => decide (a.length = b.length) && PyVal.pyEqItems a b
  | .other a, .other b => decide (a = b)
  | .bool a, b => match b.num? with | some y => Flt.eq (.fin (if a then 1 else 0)) y | .none => false
  | .int a, b => match b.num? with | some y => Flt.eq (.fin a) y | .none => false
  | .float a, b => match b.num? with | some y => Flt.eq a y | .none => false
  | _, _ => false
/-- Item-wise comparison. -/
def PyVal.pyEqList : List PyVal → List PyVal → Bool
  | [], [] => true
  | a :: as, b :: bs => PyVal.pyEq a b && PyVal.pyEqList as bs
  | _, _ => false
/-- Every item of the first dictionary is in the second. -/
def PyVal.pyEqItems : List (PyVal × PyVal) → List (PyVal × PyVal) → Bool
  | [], _ => true
  | (k, v) :: rest, b => b.any (fun e => PyVal.pyEq k e.1 && PyVal.pyEq v e.2) && PyVal.pyEqItems rest b
end

end Verif
