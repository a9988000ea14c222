import Verif.Py.Elem
/-! Model of `Lib/ufoLib/plistlib.py`: dates, base64 data, `totree` and `fromtree`.

Fixed options: `sort_keys=True`, `skipkeys=False`, `use_builtin_types=True` (Python 3 defaults; no caller in ufoLib
changes them). `lxml` says which backend `ufoLib.etree` found: lxml checks and decodes text when it is assigned, the
built-in backend stores it as it is. -/
namespace Verif.Plist
open Verif

/-! ### dates -/

/-- `%0wd` for a non-negative number. -/
def pad (w n : Nat) : Str := zfill w (natRepr n)

/-- `_date_to_string`, plistlib.py 80-88. -/
def dateToString (d : PyDate) : Str :=
  pad 4 d.year ++ ['-'] ++ pad 2 d.month ++ ['-'] ++ pad 2 d.day ++ ['T'] ++ pad 2 d.hour ++ [':'] ++ pad 2 d.minute ++ [':'] ++
    pad 2 d.second ++ ['Z']

/-- The nested optional groups of `_date_parser` after the year, plistlib.py 56-66: the numbers read, when the string
goes on with them and then with `Z` (the rest of the string is not looked at). -/
def dateTail : List Char → Str → Option (List Nat)
  | [], s => if s.head? = some 'Z' then some [] else none
  | sep :: seps, s =>
    match s with
    | c :: d1 :: d2 :: rest =>
      if c = sep ∧ isDigit d1 = true ∧ isDigit d2 = true then
        match dateTail seps rest with
        | some l => some ((digitVal d1 * 10 + digitVal d2) :: l)
        | none => if c = 'Z' then some [] else none
      else if c = 'Z' then some [] else none
    | c :: _ => if c = 'Z' then some [] else none
    | [] => none

/-- The regular expression `_date_parser`, plistlib.py 56-66, as a match at the start of the string. -/
def dateFields : Str → Option (List Nat)
  | d1 :: d2 :: d3 :: d4 :: rest =>
    if isDigit d1 && isDigit d2 && isDigit d3 && isDigit d4 then
      (dateTail ['-', '-', 'T', ':', ':'] rest).map
        ((digitVal d1 * 1000 + digitVal d2 * 100 + digitVal d3 * 10 + digitVal d4) :: ·)
    else none
  | _ => none

/-- Leap years of the Gregorian calendar (`datetime`). -/
def isLeap (y : Nat) : Bool := (y % 4 == 0 && y % 100 != 0) || y % 400 == 0

/-- Days of a month (`datetime`). -/
def daysIn (y m : Nat) : Nat :=
  if m = 2 then (if isLeap y then 29 else 28) else if m = 4 ∨ m = 6 ∨ m = 9 ∨ m = 11 then 30 else 31

/-- The range checks of `datetime(...)`. -/
def dateOk (d : PyDate) : Bool :=
  1 ≤ d.year && d.year ≤ 9999 && 1 ≤ d.month && d.month ≤ 12 && 1 ≤ d.day && d.day ≤ daysIn d.year d.month &&
    d.hour ≤ 23 && d.minute ≤ 59 && d.second ≤ 59

/-- `datetime(*lst)`: three to six numbers; `TypeError` for fewer, `ValueError` out of range. -/
def mkDate (l : List Nat) : Except Exc PyDate :=
  match l with
  | y :: m :: d :: rest =>
    let r : PyDate := ⟨y, m, d, rest[0]?.getD 0, rest[1]?.getD 0, rest[2]?.getD 0⟩
    if dateOk r then .ok r else .error .valueError
  | _ => .error .typeError

/-- `_date_from_string`, plistlib.py 69-78 (`None.groupdict` is `AttributeError`). -/
def dateFromString (s : Str) : Except Exc PyDate :=
  match dateFields s with
  | none => .error .attributeError
  | some l => mkDate l

/-! ### base64 -/

/-- The base64 alphabet (RFC 4648), as characters. -/
def b64Char (n : Nat) : Char :=
  if n < 26 then Char.ofNat (65 + n)
  else if n < 52 then Char.ofNat (97 + (n - 26))
  else if n < 62 then Char.ofNat (48 + (n - 52))
  else if n = 62 then '+' else '/'

/-- Value of a character of the alphabet. -/
def b64Val (c : Char) : Option Nat :=
  let n := c.toNat
  if 65 ≤ n ∧ n ≤ 90 then some (n - 65)
  else if 97 ≤ n ∧ n ≤ 122 then some (n - 97 + 26)
  else if 48 ≤ n ∧ n ≤ 57 then some (n - 48 + 52)
  else if n = 43 then some 62
  else if n = 47 then some 63
  else none

/-- `base64.b64encode` (standard library), result as ASCII text. -/
def b64encode : List UInt8 → Str
  | [] => []
  | [a] =>
    let x := a.toNat
    [b64Char (x / 4), b64Char (x % 4 * 16), '=', '=']
  | [a, b] =>
    let x := a.toNat; let y := b.toNat
    [b64Char (x / 4), b64Char (x % 4 * 16 + y / 16), b64Char (y % 16 * 4), '=']
  | a :: b :: c :: rest =>
    let x := a.toNat; let y := b.toNat; let z := c.toNat
    b64Char (x / 4) :: b64Char (x % 4 * 16 + y / 16) :: b64Char (y % 16 * 4 + z / 64) :: b64Char (z % 64) :: b64encode rest

/-- `binascii.a2b_base64` in its non-strict mode (standard library): characters outside the alphabet are skipped. `quad` is the
position in the group of four, `left` the bits carried over, `pads` the number of padding characters seen. `ValueError`
when the input stops inside a group. -/
def a2b (quad left pads : Nat) : Str → Except Exc (List UInt8)
  | [] => if quad = 0 then .ok [] else .error .valueError
  | c :: cs =>
    if c = '=' then
      if 2 ≤ quad then (if 4 ≤ quad + (pads + 1) then .ok [] else a2b quad left (pads + 1) cs)
      else a2b quad left pads cs
    else match b64Val c with
      | none => a2b quad left pads cs
      | some v =>
        if quad = 0 then a2b 1 v 0 cs
        else if quad = 1 then (a2b 2 (v % 16) 0 cs).map (UInt8.ofNat (left * 4 + v / 16) :: ·)
        else if quad = 2 then (a2b 3 (v % 4) 0 cs).map (UInt8.ofNat (left * 16 + v / 4) :: ·)
        else (a2b 0 0 0 cs).map (UInt8.ofNat (left * 64 + v) :: ·)

/-- `base64.b64decode(str)`: non-ASCII text is a `ValueError`. -/
def b64decode (s : Str) : Except Exc (List UInt8) :=
  if s.all (fun c => c.toNat < 128) then a2b 0 0 0 s else .error .valueError

/-- Slices of length `n` with fuel (`fuel >= length` is enough for `n > 0`). -/
def chunks (n : Nat) : Nat → Str → List Str
  | 0, _ => []
  | _ + 1, [] => []
  | fuel + 1, c :: cs => (c :: cs).take n :: chunks n fuel ((c :: cs).drop n)

/-- `_encode_base64`, plistlib.py 91-103; `maxLine = none` or `0` is no wrapping. -/
def encodeBase64 (data : List UInt8) (maxLine : Option Nat) (indentLevel : Nat) : Str :=
  let s := b64encode data
  match maxLine with
  | some (m + 1) =>
    if s = [] then s
    else
      let indent := '\n' :: List.replicate (2 * indentLevel) ' '
      let maxLength := max 16 (m + 1 - indent.length)
      (chunks maxLength s.length s).flatMap (fun c => indent ++ c) ++ indent
  | _ => s

/-! ### totree -/

/-- `el.text = value`: lxml refuses text that is not allowed in XML (`ValueError`) and decodes bytes; the built-in backend
stores any object. -/
def setText (lxml : Bool) : Text → Except Exc Text
  | .str s => if lxml && !s.all isXmlChar then .error .valueError else .ok (.str s)
  | .bytes b =>
    if lxml then
      (if b.all (fun x => x < 128 && isXmlChar (Char.ofNat x.toNat)) then .ok (.str (b.map fun x => Char.ofNat x.toNat))
       else .error .valueError)
    else .ok (.bytes b)

/-- A leaf whose text is assigned. -/
def textLeaf (lxml : Bool) (tag : Str) (t : Text) : Except Exc Elem :=
  (setText lxml t).map fun t => Elem.leaf tag (some t)

/-- Text as ASCII bytes. -/
def asciiBytes (s : Str) : List UInt8 := s.map fun c => UInt8.ofNat c.toNat

/-- Order of `str` in Python: by code points. -/
def strLe : Str → Str → Bool
  | [], _ => true
  | _ :: _, [] => false
  | a :: as, b :: bs => if a.toNat < b.toNat then true else if b.toNat < a.toNat then false else strLe as bs

/-- Inserts an item into a list sorted by key. -/
def insertItem {α : Type} (x : Str × α) : List (Str × α) → List (Str × α)
  | [] => [x]
  | y :: ys => if strLe x.1 y.1 then x :: y :: ys else y :: insertItem x ys

/-- `sorted(items)` for string keys (pairwise different in a dictionary, so values are never compared). -/
def sortItems {α : Type} : List (Str × α) → List (Str × α)
  | [] => []
  | x :: xs => insertItem x (sortItems xs)

/-- All keys as strings; `none` when a key is not a string. -/
def strKeys {α : Type} : List (PyVal × α) → Option (List (Str × α))
  | [] => some []
  | (.str k, v) :: rest => (strKeys rest).map ((k, v) :: ·)
  | _ :: _ => none

/-- The loop of `_dict_element` over the sorted items, plistlib.py 320-327: key element, then value element. -/
def dictChildren (lxml : Bool) : List (Str × Except Exc Elem) → Except Exc (List Elem)
  | [] => .ok []
  | (k, r) :: rest =>
    match textLeaf lxml c!"key" (.str k) with
    | .error e => .error e
    | .ok ke => match r with
      | .error e => .error e
      | .ok ve => match dictChildren lxml rest with
        | .error e => .error e
        | .ok more => .ok (ke :: ve :: more)

/-- `_integer_element`, plistlib.py 302-308. -/
def integerElement (lxml : Bool) (i : Int) : Except Exc Elem :=
  if -(2 : Int) ^ 63 ≤ i ∧ i < (2 : Int) ^ 64 then textLeaf lxml c!"integer" (.str (intRepr i)) else .error .overflowError

mutual
/-- `_make_element` with the functions registered for it, plistlib.py 289-413. `indent` is `ctx.indent_level`. A dictionary with a
key that is not a string is a `TypeError` (either in `sorted` or from the explicit check). -/
def makeElement (F : FloatCodec) (lxml pretty : Bool) (indent : Nat) : PyVal → Except Exc Elem
  | .str s => textLeaf lxml c!"string" (.str s)
  | .bool b => .ok (Elem.node (if b then c!"true" else c!"false") [])
  | .int i => integerElement lxml i
  | .float f => textLeaf lxml c!"real" (.str (F.repr f))
  | .dict items =>
    match strKeys (makeValues F lxml pretty (indent + 1) items) with
    | none => .error .typeError
    | some l => (dictChildren lxml (sortItems l)).map (Elem.node c!"dict")
  | .list l => (makeList F lxml pretty (indent + 1) l).map (Elem.node c!"array")
  | .tuple l => (makeList F lxml pretty (indent + 1) l).map (Elem.node c!"array")
  | .date d => textLeaf lxml c!"date" (.str (dateToString d))
  | .bytes b => textLeaf lxml c!"data" (.bytes (asciiBytes (encodeBase64 b (if pretty then some 76 else none) indent)))
  | .none => .error .typeError
  | .other _ => .error .typeError
/-- The elements of the values of a dictionary, with their keys (lazily: errors are kept until the sorted loop). -/
def makeValues (F : FloatCodec) (lxml pretty : Bool) (indent : Nat) : List (PyVal × PyVal) → List (PyVal × Except Exc Elem)
  | [] => []
  | (k, v) :: rest => (k, makeElement F lxml pretty indent v) :: makeValues F lxml pretty indent rest
/-- The loop of `_array_element`, plistlib.py 331-339. -/
def makeList (F : FloatCodec) (lxml pretty : Bool) (indent : Nat) : List PyVal → Except Exc (List Elem)
  | [] => .ok []
  | v :: rest =>
    match makeElement F lxml pretty indent v with
    | .error e => .error e
    | .ok e => match makeList F lxml pretty indent rest with
      | .error e => .error e
      | .ok es => .ok (e :: es)
end

/-- `totree(value, pretty_print=pretty, indent_level=indent)`, plistlib.py 428-447. -/
def totree (F : FloatCodec) (lxml pretty : Bool) (indent : Nat) (v : PyVal) : Except Exc Elem := makeElement F lxml pretty indent v

/-! ### fromtree -/

/-- Where a container was added when it was opened. -/
inductive Slot where
  | root
  | key (k : Str)
  | item
  deriving DecidableEq, Repr

/-- An open container (dictionaries have string keys here). -/
inductive Cont where
  | dict (d : List (Str × PyVal))
  | list (l : List PyVal)
  deriving Repr

/-- `PlistTarget`'s state, plistlib.py 157-167. The Python stack holds references to containers that were added to their
parents when opened; the model adds a container when it is closed, to the slot chosen when it was opened (nothing can
touch the parent in between, because elements nest). -/
structure Target where
  stack : List (Slot × Cont)
  key : Option Str
  root : Option PyVal
  data : List Text

/-- A fresh target. -/
def Target.new : Target := ⟨[], none, none, []⟩

/-- The checks of `add_object`, plistlib.py 187-200: where the object goes. -/
def Target.slot (t : Target) : Except Exc Slot :=
  match t.key with
  | some k => match t.stack with
    | [] => .error .indexError
    | (_, .dict _) :: _ => .ok (.key k)
    | (_, .list _) :: _ => .error .valueError
  | none => match t.stack with
    | [] => .ok .root
    | (_, .list _) :: _ => .ok .item
    | (_, .dict _) :: _ => .error .valueError

/-- The assignments of `add_object`. -/
def Target.put (t : Target) (s : Slot) (v : PyVal) : Target :=
  match s with
  | .root => { t with root := some v }
  | .key k => match t.stack with
    | (s', .dict d) :: rest => { t with stack := (s', .dict (Dict.set d k v)) :: rest }
    | _ => t
  | .item => match t.stack with
    | (s', .list l) :: rest => { t with stack := (s', .list (l ++ [v])) :: rest }
    | _ => t

/-- `add_object(value)`, plistlib.py 187-200. -/
def Target.add (t : Target) (v : PyVal) : Except Exc Target :=
  match t.slot with
  | .error e => .error e
  | .ok s => .ok { t.put s v with key := none }

/-- `start_dict` / `start_array`, plistlib.py 211-214, 228-231. -/
def Target.open (t : Target) (c : Cont) : Except Exc Target :=
  match t.slot with
  | .error e => .error e
  | .ok s => .ok { t with stack := (s, c) :: t.stack, key := none }

/-- The value of a finished container. -/
def Cont.value : Cont → PyVal
  | .dict d => .dict (d.map fun p => (.str p.1, p.2))
  | .list l => .list l

/-- `self.stack.pop()`. -/
def Target.pop (t : Target) : Except Exc Target :=
  match t.stack with
  | [] => .error .indexError
  | (s, c) :: rest => .ok ({ t with stack := rest }.put s c.value)

/-- `"".join(self._data)`, plistlib.py 202-205: joining a bytes object is a `TypeError`. -/
def joinData : List Text → Except Exc Str
  | [] => .ok []
  | .str s :: rest => (joinData rest).map (s ++ ·)
  | .bytes _ :: _ => .error .typeError

/-- `get_data`, plistlib.py 202-205, then `add_object` of the converted text. -/
def Target.addData (t : Target) (f : Str → Except Exc PyVal) : Except Exc Target :=
  match joinData t.data with
  | .error e => .error e
  | .ok s => match f s with
    | .error e => .error e
    | .ok v => { t with data := [] }.add v

/-- The end handlers, plistlib.py 217-283. Truth tests of `current_key` are on the string: the empty key counts as none. -/
def Target.endTag (F : FloatCodec) (t : Target) (tag : Str) : Except Exc Target :=
  if tag = c!"dict" then
    match t.key with
    | some (_ :: _) => .error .valueError
    | _ => t.pop
  else if tag = c!"array" then t.pop
  else if tag = c!"key" then
    match t.key with
    | some (_ :: _) => .error .valueError
    | _ => match t.stack with
      | [] => .error .indexError
      | (_, .list _) :: _ => .error .valueError
      | (_, .dict _) :: _ => match joinData t.data with
        | .error e => .error e
        | .ok s => .ok { t with key := some s, data := [] }
  else if tag = c!"true" then t.add (.bool true)
  else if tag = c!"false" then t.add (.bool false)
  else if tag = c!"integer" then
    t.addData fun s => match pyInt s with | some i => .ok (.int i) | none => .error .valueError
  else if tag = c!"real" then
    t.addData fun s => match F.parse s with | some f => .ok (.float f) | none => .error .valueError
  else if tag = c!"string" then t.addData fun s => .ok (.str s)
  else if tag = c!"data" then t.addData fun s => (b64decode s).map .bytes
  else if tag = c!"date" then t.addData fun s => (dateFromString s).map .date
  else .ok t

/-- `start`, plistlib.py 169-173. -/
def Target.startTag (t : Target) (tag : Str) : Except Exc Target :=
  let t := { t with data := [] }
  if tag = c!"dict" then t.open (.dict [])
  else if tag = c!"array" then t.open (.list [])
  else .ok t

/-- `target.data(element.text or "")`. -/
def orEmpty : Option Text → Text
  | some (.str s) => .str s
  | some (.bytes (b :: bs)) => .bytes (b :: bs)
  | some (.bytes []) => .str []
  | none => .str []

mutual
/-- The event loop of `fromtree` over one element, plistlib.py 454-462 and `iterwalk`, etree.py 108-134. -/
def walk (F : FloatCodec) (t : Target) : Elem → Except Exc Target
  | .mk tag _ text _ children =>
    match t.startTag tag with
    | .error e => .error e
    | .ok t => match walkList F t children with
      | .error e => .error e
      | .ok t =>
        (if children.isEmpty then { t with data := t.data ++ [orEmpty text] } else t).endTag F tag
/-- The same over children. -/
def walkList (F : FloatCodec) (t : Target) : List Elem → Except Exc Target
  | [] => .ok t
  | e :: es => match walk F t e with
    | .error x => .error x
    | .ok t => walkList F t es
end

/-- `fromtree(tree)`, plistlib.py 450-463: `close()` returns the root, `None` when there is none. -/
def fromtree (F : FloatCodec) (e : Elem) : Except Exc PyVal :=
  match walk F .new e with
  | .error x => .error x
  | .ok t => .ok (t.root.getD .none)

end Verif.Plist
