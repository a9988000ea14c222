import Verif.Py.Val
/-! Model of `Lib/ufoLib/kerning.py` and of `groupsValidator` in `Lib/ufoLib/validators.py`. -/
namespace Verif.Kerning
open Verif

def kern1 : Str := c!"public.kern1."
def kern2 : Str := c!"public.kern2."

/-- `for glyph in groupMembers: m[glyph] = group`, kerning.py 56-57 and 59-60. -/
def addMembers (m : Dict Str Str) (group : Str) (members : List Str) : Dict Str Str :=
  members.foldl (fun m glyph => m.set glyph group) m

/-- The mapping construction of `lookupKerningValue`, kerning.py 52-60: glyph to first group, glyph to second group. -/
def buildMaps (groups : Dict Str (List Str)) : Dict Str Str × Dict Str Str :=
  groups.foldl (fun m g =>
    if startsWith g.1 kern1 then (addMembers m.1 g.1 g.2, m.2)
    else if startsWith g.1 kern2 then (m.1, addMembers m.2 g.1 g.2)
    else m) ([], [])

/-- `pair in kerning` / `kerning[pair]` for a pair whose members may be `None` (keys are pairs of strings). -/
def getPair {ν : Type} (kerning : Dict (Str × Str) ν) : Option Str × Option Str → Option ν
  | (some a, some b) => kerning.get? (a, b)
  | _ => none

/-- The loop over the candidate pairs, kerning.py 82-84. -/
def firstPresent {ν : Type} (kerning : Dict (Str × Str) ν) : List (Option Str × Option Str) → Option ν
  | [] => none
  | p :: ps => match getPair kerning p with
    | some v => some v
    | none => firstPresent kerning ps

/-- kerning.py 61-86, once the glyph-to-group maps are known. -/
def lookupWith {ν : Type} (pair : Str × Str) (kerning : Dict (Str × Str) ν) (fallback : ν) (m1 m2 : Dict Str Str) : ν :=
  let (first, firstGroup) : Option Str × Option Str :=
    if startsWith pair.1 kern1 then (none, some pair.1) else (some pair.1, m1.get? pair.1)
  let (second, secondGroup) : Option Str × Option Str :=
    if startsWith pair.2 kern2 then (none, some pair.2) else (some pair.2, m2.get? pair.2)
  (firstPresent kerning [(first, second), (first, secondGroup), (firstGroup, second), (firstGroup, secondGroup)]).getD fallback

/-- `lookupKerningValue`, kerning.py 4-86. Values are of any type `ν`; groups map names to lists of glyph names. -/
def lookupKerningValue {ν : Type} (pair : Str × Str) (kerning : Dict (Str × Str) ν) (groups : Dict Str (List Str))
    (fallback : ν) (glyphToFirstGroup glyphToSecondGroup : Option (Dict Str Str)) : Except Exc ν :=
  match kerning.get? pair with
  | some v => .ok v
  | none =>
    match glyphToFirstGroup, glyphToSecondGroup with
    | some _, none => .error .assertionError
    | none, some _ => .error .assertionError
    | some m1, some m2 => .ok (lookupWith pair kerning fallback m1 m2)
    | none, none =>
      let m := buildMaps groups
      .ok (lookupWith pair kerning fallback m.1 m.2)

/-- The member loop of `groupsValidator`, validators.py 887-892, on the dictionary `d` of one side. -/
def validateMembers (d : Dict Str Str) (groupName : Str) : List PyVal → Option (Dict Str Str)
  | [] => some d
  | .str g :: rest => if d.has g then none else validateMembers (d.set g groupName) groupName rest
  | _ :: _ => none

/-- `isinstance(v, (list, tuple))`, with the items. -/
def seqItems : PyVal → Option (List PyVal)
  | .list l => some l
  | .tuple l => some l
  | _ => none

/-- The loop of `groupsValidator`, validators.py 868-894: `false` is `return False, ...`. -/
def validateGroups (m1 m2 : Dict Str Str) : List (PyVal × PyVal) → Bool
  | [] => true
  | (.str groupName, v) :: rest =>
    match seqItems v with
    | none => false
    | some glyphList =>
      if groupName = [] then false
      else if startsWith groupName c!"public." then
        if !startsWith groupName kern1 && !startsWith groupName kern2 then validateGroups m1 m2 rest
        else if c!"public.kernN.".length = groupName.length then false
        else if startsWith groupName kern1 then
          match validateMembers m1 groupName glyphList with
          | none => false
          | some m1' => validateGroups m1' m2 rest
        else
          match validateMembers m2 groupName glyphList with
          | none => false
          | some m2' => validateGroups m1 m2' rest
      else validateGroups m1 m2 rest
  | _ :: _ => false

/-- `groupsValidator`, validators.py 834-895 (the verdict only; the message is not modelled). It cannot raise. -/
def groupsValidator : PyVal → Bool
  | .dict d => validateGroups [] [] d
  | _ => false

/-- A groups dictionary with string members, as a Python value. -/
def groupsVal (groups : Dict Str (List Str)) : PyVal :=
  .dict (groups.map fun g => (.str g.1, .list (g.2.map .str)))

end Verif.Kerning
