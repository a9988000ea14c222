import Verif.Model.Kerning
/-! Model of `Lib/ufoLib/converters.py` and of the parts of `Lib/ufoLib/__init__.py` that read and write groups and
kerning. Group members and kerning keys are strings (what a property list can hold); kerning values are of any
type. -/
namespace Verif.Converters
open Verif Verif.Kerning

/-- The candidate tried for a given counter, converters.py 119-121. -/
def candidate (name : Str) (counter : Nat) : Str := if counter > 0 then name ++ natRepr counter else name

/-- `makeUniqueGroupName`, converters.py 117-126, with fuel instead of unbounded recursion (Python's recursion limit is
not modelled). `fuel = groupNames.length` is always enough, see `makeUnique_fresh`. -/
def makeUniqueAux (name : Str) (groupNames : List Str) : (fuel : Nat) → (counter : Nat) → Str
  | 0, counter => candidate name counter
  | fuel + 1, counter =>
    if candidate name counter ∈ groupNames then makeUniqueAux name groupNames fuel (counter + 1)
    else candidate name counter

/-- `makeUniqueGroupName(name, groupNames)`, converters.py 117-126. -/
def makeUniqueGroupName (name : Str) (groupNames : List Str) : Str := makeUniqueAux name groupNames groupNames.length 0

/-- `s.add(x)` on a set kept as a duplicate-free list. -/
def setAdd (s : List Str) (x : Str) : List Str := if x ∈ s then s else s ++ [x]

/-- One side of `findKnownKerningGroups`, converters.py 101-112. -/
def findKnown (known : Str) (groups : Dict Str (List Str)) : List Str :=
  groups.keys.foldl (fun s g => if startsWith g known then setAdd s g else s) []

/-- First-side referenced groups, converters.py 12-17. -/
def firstReferenced {ν : Type} (kerning : Dict Str (Dict Str ν)) (groups : Dict Str (List Str)) : List Str :=
  kerning.foldl (fun s row =>
    if groups.has row.1 then (if !startsWith row.1 kern1 then setAdd s row.1 else s) else s) (findKnown c!"@MMK_L_" groups)

/-- Second-side referenced groups, converters.py 12-21. -/
def secondReferenced {ν : Type} (kerning : Dict Str (Dict Str ν)) (groups : Dict Str (List Str)) : List Str :=
  kerning.foldl (fun s row => row.2.foldl (fun s e =>
    if groups.has e.1 then (if !startsWith e.1 kern2 then setAdd s e.1 else s) else s) s) (findKnown c!"@MMK_R_" groups)

/-- The renaming loop of one side, converters.py 23-34 (35-46): `order` is the order in which the set of referenced groups is
iterated. The existing names are the group names and the *keys* of the map built so far, as in the code. -/
def renameSide (pfx known : Str) (groups : Dict Str (List Str)) (order : List Str) : Dict Str Str :=
  order.foldl (fun ren g =>
    ren.set g (makeUniqueGroupName (pfx ++ removeAll known g) (groups.keys ++ ren.keys))) []

/-- The new kerning dictionary, converters.py 48-55. -/
def renameKerning {ν : Type} (ren1 ren2 : Dict Str Str) (kerning : Dict Str (Dict Str ν)) : Dict Str (Dict Str ν) :=
  kerning.foldl (fun nk row =>
    nk.set (ren1.getD row.1 row.1) (row.2.foldl (fun ns e => ns.set (ren2.getD e.1 e.1) e.2) [])) []

/-- Copying the groups under their new names, converters.py 58-62 (`groups[oldName]` may raise `KeyError`). -/
def copyGroups : List (Str × Str) → Dict Str (List Str) → Except Exc (Dict Str (List Str))
  | [], groups => .ok groups
  | (oldName, newName) :: rest, groups =>
    match groups.get? oldName with
    | none => .error .keyError
    | some members => copyGroups rest (groups.set newName members)

/-- Result of the conversion: kerning, groups and the two rename maps. -/
structure Converted (ν : Type) where
  kerning : Dict Str (Dict Str ν)
  groups : Dict Str (List Str)
  side1 : Dict Str Str
  side2 : Dict Str Str

/-- `convertUFO1OrUFO2KerningToUFO3Kerning`, converters.py 10-64. `ord1`/`ord2` give the iteration order of the two sets of
referenced groups. -/
def convert {ν : Type} (ord1 ord2 : List Str → List Str) (kerning : Dict Str (Dict Str ν)) (groups : Dict Str (List Str)) :
    Except Exc (Converted ν) :=
  let ren1 := renameSide kern1 c!"@MMK_L_" groups (ord1 (firstReferenced kerning groups))
  let ren2 := renameSide kern2 c!"@MMK_R_" groups (ord2 (secondReferenced kerning groups))
  match copyGroups (ren1 ++ ren2) groups with
  | .error e => .error e
  | .ok groups' => .ok ⟨renameKerning ren1 ren2 kerning, groups', ren1, ren2⟩

/-! ### writing back -/

/-- `setKerningGroupConversionRenameMaps`, __init__.py 1114-1121: flips both maps into one. -/
def flipMaps (side1 side2 : Dict Str Str) : Dict Str Str :=
  (side1 ++ side2).foldl (fun remap e => remap.set e.2 e.1) []

/-- The down conversion of `writeGroups`, __init__.py 1140-1165. -/
def remapGroups (remap : Dict Str Str) (groups : Dict Str (List Str)) : Dict Str (List Str) :=
  let kept : Dict Str (List Str) := groups.foldl (fun (r : Dict Str (List Str)) e => if remap.has e.1 then r else r.set e.1 e.2) []
  groups.foldl (fun (r : Dict Str (List Str)) e => match remap.get? e.1 with | none => r | some name => r.set name e.2) kept

/-- The flattening of `readKerning`, __init__.py 536-541. -/
def flatten {ν : Type} (nested : Dict Str (Dict Str ν)) : Dict (Str × Str) ν :=
  nested.foldl (fun r row => row.2.foldl (fun r e => r.set (row.1, e.1) e.2) r) []

/-- The down conversion of `writeKerning`, __init__.py 1247-1253. -/
def remapKerning {ν : Type} (remap : Dict Str Str) (kerning : Dict (Str × Str) ν) : Dict (Str × Str) ν :=
  kerning.foldl (fun r e => r.set (remap.getD e.1.1 e.1.1, remap.getD e.1.2 e.1.2) e.2) []

/-- The packing of `writeKerning`, __init__.py 1255-1261. -/
def nest {ν : Type} (kerning : Dict (Str × Str) ν) : Dict Str (Dict Str ν) :=
  kerning.foldl (fun r e => r.set e.1.1 ((r.getD e.1.1 []).set e.1.2 e.2)) []

end Verif.Converters
