import Verif.Py.PlVal
import Verif.Spec.Plist
/-! What the options of the property list functions mean. -/
namespace Verif.Spec.PlistOptions
open Verif Verif.Spec.Plist

mutual
/-- The value `w` is what is stored for `v`: `skip` leaves out items whose keys are not strings; `builtin` stores bytes as data, otherwise
they are stored as the ASCII text they are; `Data` objects and byte arrays are always data; tuples are lists. `T` says which text
can be stored. -/
inductive Stored (skip builtin : Bool) (T : Str → Prop) : PlVal → PyVal → Prop
  | bool (b : Bool) : Stored skip builtin T (.bool b) (.bool b)
  | int (i : Int) (h : -(2 : Int) ^ 63 ≤ i ∧ i < (2 : Int) ^ 64) : Stored skip builtin T (.int i) (.int i)
  | float (f : Flt) : Stored skip builtin T (.float f) (.float f)
  | str (s : Str) (h : T s) : Stored skip builtin T (.str s) (.str s)
  | bytes (b : List UInt8) (h : builtin = true) : Stored skip builtin T (.bytes b) (.bytes b)
  | ascii (b : List UInt8) (s : Str) (h : builtin = false) (ha : ∀ c ∈ s, c.toNat < 128) (hs : s.map Char.toNat = b.map UInt8.toNat) (ht : T s) :
      Stored skip builtin T (.bytes b) (.str s)
  | bytearray (b : List UInt8) : Stored skip builtin T (.bytearray b) (.bytes b)
  | data (b : List UInt8) : Stored skip builtin T (.data b) (.bytes b)
  | date (d : PyDate) : Stored skip builtin T (.date d) (.date d)
  | list (l : List PlVal) (m : List PyVal) (h : StoredList skip builtin T l m) : Stored skip builtin T (.list l) (.list m)
  | tuple (l : List PlVal) (m : List PyVal) (h : StoredList skip builtin T l m) : Stored skip builtin T (.tuple l) (.list m)
  | dict (d : List (PlVal × PlVal)) (m : List (PyVal × PyVal)) (h : StoredItems skip builtin T d m) : Stored skip builtin T (.dict d) (.dict m)
inductive StoredList (skip builtin : Bool) (T : Str → Prop) : List PlVal → List PyVal → Prop
  | nil : StoredList skip builtin T [] []
  | cons (v : PlVal) (w : PyVal) (l : List PlVal) (m : List PyVal) (h : Stored skip builtin T v w) (h' : StoredList skip builtin T l m) :
      StoredList skip builtin T (v :: l) (w :: m)
inductive StoredItems (skip builtin : Bool) (T : Str → Prop) : List (PlVal × PlVal) → List (PyVal × PyVal) → Prop
  | nil : StoredItems skip builtin T [] []
  | cons (k : Str) (v : PlVal) (w : PyVal) (l : List (PlVal × PlVal)) (m : List (PyVal × PyVal)) (hk : T k) (h : Stored skip builtin T v w)
      (h' : StoredItems skip builtin T l m) : StoredItems skip builtin T ((.str k, v) :: l) ((.str k, w) :: m)
  | skip (k v : PlVal) (l : List (PlVal × PlVal)) (m : List (PyVal × PyVal)) (hs : skip = true) (hk : ∀ s, k ≠ .str s)
      (h' : StoredItems skip builtin T l m) : StoredItems skip builtin T ((k, v) :: l) m
end

mutual
/-- The stored value as it is handed out: data as `Data` objects unless built-in types are asked for. -/
def readAs (builtin : Bool) : PyVal → PlVal
  | .none => .none
  | .bool b => .bool b
  | .int i => .int i
  | .float f => .float f
  | .str s => .str s
  | .bytes b => if builtin then .bytes b else .data b
  | .date d => .date d
  | .list l => .list (readAsList builtin l)
  | .tuple l => .tuple (readAsList builtin l)
  | .dict d => .dict (readAsItems builtin d)
  | .other n => .other n
def readAsList (builtin : Bool) : List PyVal → List PlVal
  | [] => []
  | v :: l => readAs builtin v :: readAsList builtin l
def readAsItems (builtin : Bool) : List (PyVal × PyVal) → List (PlVal × PlVal)
  | [] => []
  | (k, v) :: l => (readAs builtin k, readAs builtin v) :: readAsItems builtin l
end

mutual
/-- Every dictionary in the value has pairwise different keys (always true of Python dictionaries), and dates are real. -/
def WellFormed : PlVal → Prop
  | .list l => WellFormedList l
  | .tuple l => WellFormedList l
  | .dict d => (d.map Prod.fst).Nodup ∧ WellFormedItems d
  | .date d => RealDate d
  | _ => True
def WellFormedList : List PlVal → Prop
  | [] => True
  | v :: l => WellFormed v ∧ WellFormedList l
def WellFormedItems : List (PlVal × PlVal) → Prop
  | [] => True
  | (_, v) :: l => WellFormed v ∧ WellFormedItems l
end

end Verif.Spec.PlistOptions
