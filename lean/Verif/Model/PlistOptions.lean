import Verif.Model.PlistFile
import Verif.Py.PlVal
/-! Model of the options of `Lib/ufoLib/plistlib.py` (`sort_keys`, `skipkeys`, `use_builtin_types`), of `Data` objects and of the
deprecated functions for strings. `Verif/Model/Plist.lean` has the same functions with the default options. Not modelled:
`dict_type`, `readPlist` and `writePlist` (the functions below with a file opened and closed around them). -/
namespace Verif.PlistOptions
open Verif Verif.Plist Verif.Xml

/-- The keyword arguments of `totree`, `dump` and `dumps`, plistlib.py 428-435. `comparable` is not an argument: it says whether
`sorted` can order dictionary keys none of which is a string (it raises `TypeError` when two keys cannot be compared). -/
structure Options where
  sortKeys : Bool
  skipKeys : Bool
  builtin : Bool
  pretty : Bool
  comparable : List PlVal → Bool

/-! ### totree -/

/-- `raw_bytes.decode(encoding="ascii", errors="strict")`, plistlib.py 364. -/
def decodeAscii (b : List UInt8) : Option Str :=
  if b.all (fun x => x < 128) then some (b.map fun x => Char.ofNat x.toNat) else none

/-- `_data_element`, plistlib.py 348-355. -/
def dataElement (lxml : Bool) (o : Options) (indent : Nat) (b : List UInt8) : Except Exc Elem :=
  textLeaf lxml c!"data" (.bytes (asciiBytes (encodeBase64 b (if o.pretty then some 76 else none) indent)))

/-- `_string_or_data_element`, plistlib.py 358-370. -/
def stringOrDataElement (lxml : Bool) (o : Options) (indent : Nat) (b : List UInt8) : Except Exc Elem :=
  if o.builtin then dataElement lxml o indent b
  else match decodeAscii b with
    | none => .error .valueError
    | some s => textLeaf lxml c!"string" (.str s)

/-- All keys as strings; `none` when a key is not a string. -/
def stringKeys {α : Type} : List (PlVal × α) → Option (List (Str × α))
  | [] => some []
  | (.str k, v) :: rest => (stringKeys rest).map ((k, v) :: ·)
  | _ :: _ => none

/-- `isinstance(key, basestring)`. -/
def isString : PlVal → Bool
  | .str _ => true
  | _ => false

/-- The loop of `_dict_element` over the items as they come, plistlib.py 320-327. -/
def itemChildren (lxml skip : Bool) : List (PlVal × Except Exc Elem) → Except Exc (List Elem)
  | [] => .ok []
  | (k, r) :: rest =>
    match k with
    | .str k =>
      match textLeaf lxml c!"key" (.str k) with
      | .error e => .error e
      | .ok ke => match r with
        | .error e => .error e
        | .ok ve => match itemChildren lxml skip rest with
          | .error e => .error e
          | .ok more => .ok (ke :: ve :: more)
    | _ => if skip then itemChildren lxml skip rest else .error .typeError

/-- `_dict_element`, plistlib.py 317-328, given the elements of the values. `sorted(items)` raises `TypeError` when strings and
other keys are mixed; when no key is a string either it raises (`comparable`) or every item is skipped or refused. -/
def dictElement (lxml : Bool) (o : Options) (items : List (PlVal × Except Exc Elem)) : Except Exc Elem :=
  if o.sortKeys then
    match stringKeys items with
    | some l => (dictChildren lxml (sortItems l)).map (Elem.node c!"dict")
    | none =>
      if (items.map Prod.fst).any isString || !o.comparable (items.map Prod.fst) || !o.skipKeys then .error .typeError
      else .ok (Elem.node c!"dict" [])
  else (itemChildren lxml o.skipKeys items).map (Elem.node c!"dict")

mutual
/-- `_make_element` with the functions registered for it, plistlib.py 289-413. `indent` is `ctx.indent_level`. -/
def makeElement (F : FloatCodec) (lxml : Bool) (o : Options) (indent : Nat) : PlVal → Except Exc Elem
  | .str s => textLeaf lxml c!"string" (.str s)
  | .bool b => .ok (Elem.node (if b then c!"true" else c!"false") [])
  | .int i => integerElement lxml i
  | .float f => textLeaf lxml c!"real" (.str (F.repr f))
  | .dict items => dictElement lxml o (makeValues F lxml o (indent + 1) items)
  | .list l => (makeList F lxml o (indent + 1) l).map (Elem.node c!"array")
  | .tuple l => (makeList F lxml o (indent + 1) l).map (Elem.node c!"array")
  | .date d => textLeaf lxml c!"date" (.str (dateToString d))
  | .bytes b => stringOrDataElement lxml o indent b
  | .bytearray b => dataElement lxml o indent b
  | .data b => dataElement lxml o indent b
  | .none => .error .typeError
  | .other _ => .error .typeError
/-- The elements of the values of a dictionary, with their keys (lazily: errors are kept until the loop). -/
def makeValues (F : FloatCodec) (lxml : Bool) (o : Options) (indent : Nat) : List (PlVal × PlVal) → List (PlVal × Except Exc Elem)
  | [] => []
  | (k, v) :: rest => (k, makeElement F lxml o indent v) :: makeValues F lxml o indent rest
/-- The loop of `_array_element`, plistlib.py 331-339. -/
def makeList (F : FloatCodec) (lxml : Bool) (o : Options) (indent : Nat) : List PlVal → Except Exc (List Elem)
  | [] => .ok []
  | v :: rest =>
    match makeElement F lxml o indent v with
    | .error e => .error e
    | .ok e => match makeList F lxml o indent rest with
      | .error e => .error e
      | .ok es => .ok (e :: es)
end

/-- `totree(value, ...)`, plistlib.py 428-447. -/
def totree (F : FloatCodec) (lxml : Bool) (o : Options) (indent : Nat) (v : PlVal) : Except Exc Elem := makeElement F lxml o indent v

/-- `dump` / `dumps`, plistlib.py 488-542, with the built-in backend, as text. -/
def dumps (F : FloatCodec) (o : Options) (v : PlVal) : Except Exc Str :=
  match totree F false o 1 v with
  | .error e => .error e
  | .ok el => match tostring false o.pretty (plistElement el) with
    | .error e => .error e
    | .ok s => .ok ((if o.pretty then xmlDeclaration ++ ['\n'] ++ plistDoctype ++ ['\n'] else xmlDeclaration ++ plistDoctype) ++ s)

/-! ### fromtree and loads -/

/-- An open container. -/
inductive Cont where
  | dict (d : List (Str × PlVal))
  | list (l : List PlVal)
  deriving Repr

/-- `PlistTarget`'s state, plistlib.py 157-167 (containers are added when they are closed, as in `Verif.Plist.Target`). -/
structure Target where
  stack : List (Slot × Cont)
  key : Option Str
  root : Option PlVal
  data : List Text

/-- A fresh target. -/
def Target.new : Target := ⟨[], none, none, []⟩

/-- The checks of `add_object`, plistlib.py 187-200: where the object goes. -/
def Target.slot (t : Target) : Except Exc Slot :=
  match t.key with
  | some k => match t.stack with
    | [] => .error .indexError
    | (_, .dict _) :: _ => .ok (.key k)
    | (_, .list _) :: _ => .error .valueError
  | none => match t.stack with
    | [] => .ok .root
    | (_, .list _) :: _ => .ok .item
    | (_, .dict _) :: _ => .error .valueError

/-- The assignments of `add_object`. -/
def Target.put (t : Target) (s : Slot) (v : PlVal) : Target :=
  match s with
  | .root => { t with root := some v }
  | .key k => match t.stack with
    | (s', .dict d) :: rest => { t with stack := (s', .dict (Dict.set d k v)) :: rest }
    | _ => t
  | .item => match t.stack with
    | (s', .list l) :: rest => { t with stack := (s', .list (l ++ [v])) :: rest }
    | _ => t

/-- `add_object(value)`, plistlib.py 187-200. -/
def Target.add (t : Target) (v : PlVal) : Except Exc Target :=
  match t.slot with
  | .error e => .error e
  | .ok s => .ok { t.put s v with key := none }

/-- `start_dict` / `start_array`, plistlib.py 211-214, 228-231. -/
def Target.open (t : Target) (c : Cont) : Except Exc Target :=
  match t.slot with
  | .error e => .error e
  | .ok s => .ok { t with stack := (s, c) :: t.stack, key := none }

/-- The value of a finished container. -/
def Cont.value : Cont → PlVal
  | .dict d => .dict (d.map fun p => (.str p.1, p.2))
  | .list l => .list l

/-- `self.stack.pop()`. -/
def Target.pop (t : Target) : Except Exc Target :=
  match t.stack with
  | [] => .error .indexError
  | (s, c) :: rest => .ok ({ t with stack := rest }.put s c.value)

/-- `get_data`, plistlib.py 202-205, then `add_object` of the converted text. -/
def Target.addData (t : Target) (f : Str → Except Exc PlVal) : Except Exc Target :=
  match joinData t.data with
  | .error e => .error e
  | .ok s => match f s with
    | .error e => .error e
    | .ok v => { t with data := [] }.add v

/-- `Data.fromBase64(data)`, plistlib.py 116-118. -/
def dataFromBase64 (s : Str) : Except Exc PlVal := (b64decode s).map .data

/-- `Data.asBase64(maxlinelength, indent_level)`, plistlib.py 120-123. -/
def dataAsBase64 (b : List UInt8) (maxLine : Option Nat) (indent : Nat) : Str := encodeBase64 b maxLine indent

/-- The end handlers, plistlib.py 217-283; `builtin` is `self._use_builtin_types`, which only `end_data` looks at. -/
def Target.endTag (F : FloatCodec) (builtin : Bool) (t : Target) (tag : Str) : Except Exc Target :=
  if tag = c!"dict" then
    match t.key with
    | some (_ :: _) => .error .valueError
    | _ => t.pop
  else if tag = c!"array" then t.pop
  else if tag = c!"key" then
    match t.key with
    | some (_ :: _) => .error .valueError
    | _ => match t.stack with
      | [] => .error .indexError
      | (_, .list _) :: _ => .error .valueError
      | (_, .dict _) :: _ => match joinData t.data with
        | .error e => .error e
        | .ok s => .ok { t with key := some s, data := [] }
  else if tag = c!"true" then t.add (.bool true)
  else if tag = c!"false" then t.add (.bool false)
  else if tag = c!"integer" then
    t.addData fun s => match pyInt s with | some i => .ok (.int i) | none => .error .valueError
  else if tag = c!"real" then
    t.addData fun s => match F.parse s with | some f => .ok (.float f) | none => .error .valueError
  else if tag = c!"string" then t.addData fun s => .ok (.str s)
  else if tag = c!"data" then t.addData fun s => if builtin then (b64decode s).map .bytes else dataFromBase64 s
  else if tag = c!"date" then t.addData fun s => (dateFromString s).map .date
  else .ok t

/-- `start`, plistlib.py 169-173. -/
def Target.startTag (t : Target) (tag : Str) : Except Exc Target :=
  let t := { t with data := [] }
  if tag = c!"dict" then t.open (.dict [])
  else if tag = c!"array" then t.open (.list [])
  else .ok t

mutual
/-- The event loop of `fromtree` over one element, plistlib.py 454-462 and `iterwalk`, etree.py 108-134. -/
def walk (F : FloatCodec) (builtin : Bool) (t : Target) : Elem → Except Exc Target
  | .mk tag _ text _ children =>
    match t.startTag tag with
    | .error e => .error e
    | .ok t => match walkList F builtin t children with
      | .error e => .error e
      | .ok t =>
        (if children.isEmpty then { t with data := t.data ++ [orEmpty text] } else t).endTag F builtin tag
/-- The same over children. -/
def walkList (F : FloatCodec) (builtin : Bool) (t : Target) : List Elem → Except Exc Target
  | [] => .ok t
  | e :: es => match walk F builtin t e with
    | .error x => .error x
    | .ok t => walkList F builtin t es
end

/-- `fromtree(tree, use_builtin_types=builtin)`, plistlib.py 450-463. -/
def fromtree (F : FloatCodec) (builtin : Bool) (e : Elem) : Except Exc PlVal :=
  match walk F builtin .new e with
  | .error x => .error x
  | .ok t => .ok (t.root.getD .none)

/-- `target.data(text)`, plistlib.py 180-181. -/
def Target.feedText (t : Target) : Option Text → Target
  | none => t
  | some x => { t with data := t.data ++ [x] }

mutual
/-- The events of one element: start, text, children with the text after them, end. -/
def feed (F : FloatCodec) (builtin : Bool) (t : Target) : Elem → Except Exc Target
  | .mk tag _ text _ children =>
    match t.startTag tag with
    | .error e => .error e
    | .ok t => match feedList F builtin (t.feedText text) children with
      | .error e => .error e
      | .ok t => t.endTag F builtin tag
/-- The events of children. -/
def feedList (F : FloatCodec) (builtin : Bool) (t : Target) : List Elem → Except Exc Target
  | [] => .ok t
  | e :: es => match feed F builtin t e with
    | .error x => .error x
    | .ok t => feedList F builtin (t.feedText e.tail) es
end

/-- `load` / `loads` with `use_builtin_types=builtin`, plistlib.py 467-486. -/
def loads (F : FloatCodec) (builtin : Bool) (s : Str) : Except Exc PlVal :=
  match Spec.Xml.parse s with
  | none => .error .xmlParseError
  | some e => match feed F builtin .new e with
    | .error x => .error x
    | .ok t => .ok (t.root.getD .none)

/-! ### the deprecated functions -/

/-- `readPlistFromString(data)`, plistlib.py 578-580. -/
def readPlistFromString (F : FloatCodec) (s : Str) : Except Exc PlVal := loads F false s

/-- `writePlistToString(value)`, plistlib.py 583-585: default options, but `use_builtin_types=False`. -/
def writePlistToString (F : FloatCodec) (comparable : List PlVal → Bool) (v : PlVal) : Except Exc Str :=
  dumps F ⟨true, false, false, true, comparable⟩ v

end Verif.PlistOptions
