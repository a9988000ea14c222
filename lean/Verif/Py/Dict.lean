/-! Python dictionaries as insertion-ordered association lists. -/
namespace Verif

abbrev Dict (κ : Type) (ν : Type) := List (κ × ν)

namespace Dict
variable {κ ν : Type} [DecidableEq κ]

/-- `d.get(k)`. -/
def get? : Dict κ ν → κ → Option ν
  | [], _ => none
  | (k', v) :: d, k => if k' = k then some v else get? d k

/-- `d[k] = v`: replaces the value in place or appends a new item. -/
def set : Dict κ ν → κ → ν → Dict κ ν
  | [], k, v => [(k, v)]
  | (k', v') :: d, k, v => if k' = k then (k', v) :: d else (k', v') :: set d k v

/-- `del d[k]` (no effect when absent; callers check). -/
def erase : Dict κ ν → κ → Dict κ ν
  | [], _ => []
  | (k', v') :: d, k => if k' = k then erase d k else (k', v') :: erase d k

/-- `list(d.keys())`. -/
def keys (d : Dict κ ν) : List κ := d.map Prod.fst

/-- `list(d.values())`. -/
def values (d : Dict κ ν) : List ν := d.map Prod.snd

/-- `k in d`. -/
def has (d : Dict κ ν) (k : κ) : Bool := (get? d k).isSome

/-- `d.get(k, default)`. -/
def getD (d : Dict κ ν) (k : κ) (v : ν) : ν := (get? d k).getD v

/-- Python `==` of dictionaries whose values are compared structurally: same keys with the same values. -/
def Equiv (d e : Dict κ ν) : Prop := ∀ k, get? d k = get? e k

/-- A dictionary has no duplicate keys. -/
def WF (d : Dict κ ν) : Prop := (keys d).Nodup

end Dict
end Verif
