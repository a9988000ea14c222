import Verif.Py.Eq
import Verif.Py.Num
/-! What the validators should accept, independent of the model. -/
namespace Verif.Spec.Validators
open Verif

/-- The value is the integer `i` (`True` and `False` are integers in Python). -/
def IsInt (v : PyVal) (i : Int) : Prop := v = .int i ∨ (v = .bool true ∧ i = 1) ∨ (v = .bool false ∧ i = 0)

/-- The value is a number. -/
def IsNum (v : PyVal) : Prop := (∃ i, IsInt v i) ∨ ∃ f, v = .float f

/-- The value is a list or tuple with the given items. -/
def IsSeq (v : PyVal) (l : List PyVal) : Prop := v = .list l ∨ v = .tuple l

/-- The value is a string. -/
def IsString (v : PyVal) : Prop := ∃ s, v = .str s

/-- Neither below `lo` nor above `hi`: a number in between, or `nan`. -/
def Within (lo hi : Int) : Flt → Prop
  | .nan => True
  | .inf _ => False
  | .fin q => (lo : Rat) ≤ q ∧ q ≤ (hi : Rat)

/-- The number a value is, if any. -/
def NumIs (v : PyVal) (f : Flt) : Prop := (∃ i, IsInt v i ∧ f = .fin i) ∨ v = .float f

/-- Legal identifiers. -/
def LegalIdentifier (s : Str) : Prop := 1 ≤ s.length ∧ s.length ≤ 100 ∧ ∀ c ∈ s, ' ' ≤ c ∧ c ≤ '~'

/-- The text denotes the number `f`, by Python's `int()` or else `float()`, white space around it ignored. -/
def Denotes (F : FloatCodec) (part : Str) (f : Flt) : Prop :=
  (∃ i, pyInt (strip part) = some i ∧ f = .fin i) ∨ (pyInt (strip part) = none ∧ F.parse (strip part) = some f)

/-- Four comma separated numbers, each satisfying `P`. -/
def FourNumbers (F : FloatCodec) (P : Flt → Prop) (s : Str) : Prop :=
  ∃ a b c d, s = a ++ ',' :: (b ++ ',' :: (c ++ ',' :: d)) ∧ ∀ p ∈ [a, b, c, d], ',' ∉ p ∧ ∃ f, Denotes F p f ∧ P f

/-- A field of a dictionary, `None` counting as absent. -/
def Field (d : List (PyVal × PyVal)) (k : Str) (v : PyVal) : Prop := (.str k, v) ∈ d ∧ v ≠ .none

/-- The dictionary has no (or only a `None`) entry for the key. -/
def Absent (d : List (PyVal × PyVal)) (k : Str) : Prop := ∀ v, ¬ Field d k v

/-- Fields of a dictionary: only the named keys, values as described, optional ones may be `None`. -/
structure HasFields (required optional : List (Str × (PyVal → Prop))) (d : List (PyVal × PyVal)) : Prop where
  present : ∀ r ∈ required, ∃ v, (.str r.1, v) ∈ d
  typed : ∀ p ∈ d, (∃ r ∈ required, p.1 = .str r.1 ∧ r.2 p.2) ∨ ∃ r ∈ optional, p.1 = .str r.1 ∧ (p.2 = .none ∨ r.2 p.2)

/-- Fields that identify and color a guideline or anchor. -/
structure Tagged (F : FloatCodec) (d : List (PyVal × PyVal)) : Prop where
  identifier : ∀ v, Field d c!"identifier" v → ∃ s, v = .str s ∧ LegalIdentifier s
  color : ∀ v, Field d c!"color" v → ∃ s, v = .str s ∧ FourNumbers F (Within 0 1) s

/-- A guideline. -/
structure Guideline (F : FloatCodec) (d : List (PyVal × PyVal)) : Prop extends Tagged F d where
  fields : HasFields [] [(c!"x", IsNum), (c!"y", IsNum), (c!"angle", IsNum), (c!"name", IsString), (c!"color", IsString), (c!"identifier", IsString)] d
  /-- `x` or `y`. -/
  position : (∃ v, Field d c!"x" v) ∨ ∃ v, Field d c!"y" v
  /-- An angle exactly when there are both. -/
  angle : (∃ v, Field d c!"angle" v) ↔ (∃ v, Field d c!"x" v) ∧ ∃ v, Field d c!"y" v
  angleRange : ∀ v, Field d c!"angle" v → ∃ f, NumIs v f ∧ Within 0 360 f

/-- An anchor. -/
structure Anchor (F : FloatCodec) (d : List (PyVal × PyVal)) : Prop extends Tagged F d where
  fields : HasFields [] [(c!"x", IsNum), (c!"y", IsNum), (c!"name", IsString), (c!"color", IsString), (c!"identifier", IsString)] d
  x : ∃ v, Field d c!"x" v
  y : ∃ v, Field d c!"y" v

/-- The identifier of a dictionary item. -/
def itemIdentifier : PyVal × PyVal → Option Str
  | (.str k, .str s) => if k = c!"identifier" then some s else none
  | _ => none

/-- The identifiers of a list of dictionaries, in order. -/
def identifiers : List PyVal → List Str
  | [] => []
  | .dict d :: l => d.filterMap itemIdentifier ++ identifiers l
  | _ :: l => identifiers l

/-- A dictionary has pairwise different keys (always true of Python dictionaries). -/
def DictKeys (v : PyVal) : Prop := ∀ d, v = .dict d → (d.map Prod.fst).Nodup

/-- A consistent layer table: names, directories and the file system. -/
structure LayerTable (fsExists : Str → Except Exc Bool) (t : List (Str × Str)) : Prop where
  names : (t.map Prod.fst).Nodup
  dirs : (t.map Prod.snd).Nodup
  named : ∀ p ∈ t, p.1 ≠ []
  dirNames : ∀ p ∈ t, p.2 = c!"glyphs" ∨ ∃ r, p.2 = c!"glyphs." ++ r
  exist : ∀ p ∈ t, fsExists p.2 = .ok true
  default : c!"glyphs" ∈ t.map Prod.snd
  publicName : ∀ p ∈ t, p.1 = c!"public.default" → p.2 = c!"glyphs"

/-- A gasp range record for sizes up to `ppem`. -/
def GaspRecord (v : PyVal) (ppem : Int) : Prop :=
  ∃ d p b, v = .dict d ∧ HasFields [(c!"rangeMaxPPEM", fun x => ∃ i, IsInt x i), (c!"rangeGaspBehavior", fun x => ∃ l, x = .list l)] [] d ∧
    (.str c!"rangeMaxPPEM", p) ∈ d ∧ IsInt p ppem ∧ 0 ≤ ppem ∧ (.str c!"rangeGaspBehavior", .list b) ∈ d ∧ ∀ x ∈ b, ∃ i, IsInt x i ∧ 0 ≤ i ∧ i ≤ 3

/-- Neither a list, nor a dictionary, nor a tuple. -/
def Atomic : PyVal → Prop
  | .list _ => False
  | .dict _ => False
  | .tuple _ => False
  | _ => True

/-- The text of a date and time, e.g. `2010/03/01 09:05:00`. -/
def dateText (d : PyDate) : Str :=
  zfill 4 (natRepr d.year) ++ '/' :: (zfill 2 (natRepr d.month) ++ '/' :: (zfill 2 (natRepr d.day) ++ ' ' ::
    (zfill 2 (natRepr d.hour) ++ ':' :: (zfill 2 (natRepr d.minute) ++ ':' :: zfill 2 (natRepr d.second)))))

end Verif.Spec.Validators
