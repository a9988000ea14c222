import Verif.Model.Converters
import Verif.Py.Eq
/-! Model of the groups and kerning reading of `UFOReader` for format versions 1 and 2 (`Lib/ufoLib/__init__.py`), with its
cache, as a state machine. Files may change between any two reads: the values obtained from the two files during
a call are inputs of that call. The caller is assumed not to change returned dictionaries in place (the
reader hands out its cached objects). -/
namespace Verif.KerningReader
open Verif Verif.Kerning Verif.Converters

/-- `_upConvertedKerningData`, __init__.py 332-337 and 344-346. `result = none` is the state between the two, with empty
`kerning` and `groups` and no `groupRenameMaps`. -/
structure Cache where
  originalKerning : PyVal
  originalGroups : PyVal
  result : Option (Converted PyVal)

/-- The three public readers, __init__.py 405-424, 516-542 and 426-453. -/
inductive Kind where
  | groups | kerning | maps
  deriving DecidableEq

/-- One call: which reader, its `validate` argument, and what reading kerning.plist and groups.plist gives during the call
(`_getPlist`, __init__.py 135-160, may raise). -/
structure Call where
  kind : Kind
  validate : Bool
  kerningFile : Except Exc PyVal
  groupsFile : Except Exc PyVal

/-- What a call returns. -/
inductive Ret where
  | groups (g : Dict Str (List Str))
  | kerning (k : Dict (Str × Str) PyVal)
  | maps (side1 side2 : Dict Str Str)
  deriving DecidableEq

/-- `isinstance(v, basestring)` for every member, __init__.py 329-331. -/
def allStrings : List PyVal → Option (List Str)
  | [] => some []
  | .str s :: rest => (allStrings rest).map (s :: ·)
  | _ :: _ => none

/-- The check of groups.plist before conversion, __init__.py 321-331 (`none` is `UFOLibError`). -/
def checkedItems : List (PyVal × PyVal) → Option (Dict Str (List Str))
  | [] => some []
  | (.str n, .list ms) :: rest =>
    match allStrings ms, checkedItems rest with
    | some l, some r => some ((n, l) :: r)
    | _, _ => none
  | _ :: _ => none

/-- The same on a value. -/
def checkedGroups : PyVal → Option (Dict Str (List Str))
  | .dict d => checkedItems d
  | _ => none

/-- One row of kerning: `seconds.keys()`/`seconds.items()`, converters.py 18 and 52 (property list dictionaries have string
keys). -/
def kerningRow : List (PyVal × PyVal) → Except Exc (Dict Str PyVal)
  | [] => .ok []
  | (.str s, v) :: rest =>
    match kerningRow rest with
    | .ok r => .ok ((s, v) :: r)
    | .error e => .error e
  | _ :: _ => .error .attributeError

/-- `kerning.items()` with `seconds.keys()`, converters.py 14-18: `AttributeError` when a level is not a dictionary. -/
def kerningRows : List (PyVal × PyVal) → Except Exc (Dict Str (Dict Str PyVal))
  | [] => .ok []
  | (.str s, .dict row) :: rest =>
    match kerningRow row with
    | .error e => .error e
    | .ok row' =>
      match kerningRows rest with
      | .ok r => .ok ((s, row') :: r)
      | .error e => .error e
  | _ :: _ => .error .attributeError

/-- The conversion applied to the raw file data, __init__.py 339-342. Simplification: groups that do not have the checked
shape (possible only without validation) give `TypeError`. -/
def convertFiles (ord1 ord2 : List Str → List Str) : PyVal → PyVal → Except Exc (Converted PyVal)
  | .dict k, g =>
    match kerningRows k with
    | .error e => .error e
    | .ok k' =>
      match checkedGroups g with
      | none => .error .typeError
      | some g' => convert ord1 ord2 k' g'
  | _, _ => .error .attributeError

/-- `_upConvertKerning`, __init__.py 301-346, for a given conversion function: the outcome and the new cache. -/
def upConvert (conv : PyVal → PyVal → Except Exc (Converted PyVal)) (c : Call) (cache : Option Cache) :
    Except Exc Cache × Option Cache :=
  match cache with
  | some d =>
    match c.kerningFile with
    | .error e => (.error e, cache)
    | .ok k =>
      if !PyVal.pyEq k d.originalKerning then (.error .ufoLibError, cache)
      else match c.groupsFile with
        | .error e => (.error e, cache)
        | .ok g =>
          if !PyVal.pyEq g d.originalGroups then (.error .ufoLibError, cache)
          else (.ok d, cache)
  | none =>
    match c.groupsFile with
    | .error e => (.error e, none)
    | .ok g =>
      if c.validate && (checkedGroups g).isNone then (.error .ufoLibError, none)
      else match c.kerningFile with
        | .error e => (.error e, none)
        | .ok k =>
          -- the cache is stored before the conversion runs
          match conv k g with
          | .error e => (.error e, some ⟨k, g, none⟩)
          | .ok r => (.ok ⟨k, g, some r⟩, some ⟨k, g, some r⟩)

/-- Validity of one row of nested kerning, validators.py 926-930. -/
def validRow (row : Dict Str PyVal) : Bool := row.all fun e => e.2.num?.isSome

/-- `kerningValidator` on nested kerning with string keys, validators.py 901-931. -/
def validKerning (k : Dict Str (Dict Str PyVal)) : Bool := k.all fun e => validRow e.2

/-- What the three readers return from the cache: __init__.py 416-424, 527-542, 452-453. -/
def deliver (c : Call) (d : Cache) : Except Exc Ret :=
  match c.kind with
  | .groups =>
    let g := match d.result with | some r => r.groups | none => []
    if c.validate && !groupsValidator (groupsVal g) then .error .ufoLibError else .ok (.groups g)
  | .kerning =>
    let k := match d.result with | some r => r.kerning | none => []
    if c.validate && !validKerning k then .error .ufoLibError else .ok (.kerning (flatten k))
  | .maps =>
    let g := match d.result with | some r => r.groups | none => []
    if c.validate && !groupsValidator (groupsVal g) then .error .ufoLibError
    else match d.result with
      | some r => .ok (.maps r.side1 r.side2)
      | none => .error .keyError

/-- One call on a reader. -/
def step (conv : PyVal → PyVal → Except Exc (Converted PyVal)) (cache : Option Cache) (c : Call) :
    Except Exc Ret × Option Cache :=
  match upConvert conv c cache with
  | (.error e, cache') => (.error e, cache')
  | (.ok d, cache') => (deliver c d, cache')

/-- A history of calls on a reader: the outcome of every call. -/
def run (conv : PyVal → PyVal → Except Exc (Converted PyVal)) (cache : Option Cache) : List Call → List (Call × Except Exc Ret)
  | [] => []
  | c :: cs => (c, (step conv cache c).1) :: run conv (step conv cache c).2 cs

end Verif.KerningReader
