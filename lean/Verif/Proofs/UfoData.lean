import Verif.Proofs.UfoFiles
import Verif.Proofs.UfoApart
import Verif.Props.Kerning
import Verif.Proofs.Converters
import Mathlib.Data.List.Perm.Basic
/-! Lemmas about writing and reading lib, groups, kerning and features. -/
namespace Verif.Ufo
open Verif Verif.FS Verif.IO Verif.Kerning Verif.Converters Verif.Validators Verif.FontInfo Verif.Spec.Ufo Verif.Spec.Plist Verif.Spec.Validators Verif.Spec.FontInfo
open Verif.Spec.Converters

/-- What calls that spare an entry leave. -/
theorem run_node? (E : FontInfo.Env) (L : Casing) (w : World) (hl : Layered w.1) (ops : List Op) {c : Str} (hs : ∀ op ∈ ops, Spares w.2.canon c op) (p : Path) :
    (run E L w ops).2.node? (c :: p) = w.2.node? (c :: p) := by
  obtain ⟨-, -, h2⟩ := run_spec E L ops w hl
  refine acts_node? h2 (S := fun c => ∃ op ∈ ops, Concerns op c) ?_ ?_ p
  · rintro k ⟨op, hop, ⟨d, r, hd, rfl⟩ | hall⟩
    · exact .inl ⟨d, r, ⟨op, hop, hd⟩, rfl⟩
    · exact .inr fun c => ⟨op, hop, hall c⟩
  · rintro d ⟨op, hop, hd⟩
    exact hs op hop d hd

theorem run_append (E : FontInfo.Env) (L : Casing) : ∀ (a b : List Op) (w : World), run E L w (a ++ b) = run E L (run E L w a) b
  | [], _, _ => rfl
  | op :: a, b, w => run_append E L a b (step E L w op).1

theorem getPlist_congr {F : FloatCodec} {fs fs' : FS} {p : Path} (h : fs'.node? p = fs.node? p) (d : Option PyVal) : getPlist F fs' p d = getPlist F fs p d := by
  unfold getPlist FS.getbytes; rw [h]

/-- After a successful `writeOrRemove` the file holds the value, or there is none. -/
theorem writeOrRemove_ok (F : FloatCodec) (hF : F.Lawful) {w : World} {name : Str} {empty : Bool} {v : PyVal} (hv : empty = false → Storable v)
    (h : (writeOrRemove F w name empty v).2 = .ok ()) (hn : w.1.havePrevious = true ∨ empty = false ∨ w.2.node? [name] = none) (default : Option PyVal) :
    (empty = false ∧ ∃ x, getPlist F (writeOrRemove F w name empty v).1.2 [name] default = .ok x ∧ Stored v x) ∨
    (empty = true ∧ (writeOrRemove F w name empty v).1.2.node? [name] = none) := by
  unfold writeOrRemove at h ⊢
  cases empty with
  | false =>
    rw [if_pos (by rfl)] at h ⊢
    refine .inl ⟨rfl, ?_⟩
    dsimp only at h ⊢
    exact writePlist_reads F hF (hv rfl) (fs' := (writePlist F w.1.havePrevious w.2 [name] v).1) (Prod.ext rfl h) default
  | true =>
    refine .inr ⟨rfl, ?_⟩
    rw [if_neg (by simp)] at h ⊢
    split at h
    · rename_i hp
      rw [if_pos hp]
      exact (removePath_spec w.2 [name] (by simp) true false).2.1 h
    · rename_i hp
      rw [if_neg hp]
      rcases hn with hn | hn | hn
      · exact absurd hn hp
      · cases hn
      · exact hn

theorem getPlist_none {F : FloatCodec} {fs : FS} {p : Path} (h : fs.node? p = none) (v : PyVal) : getPlist F fs p (some v) = .ok v := by
  simp [getPlist, FS.getbytes, h]

/-! ### lib -/

theorem fontLib_stored {v w : PyVal} (hs : Stored v w) (h : fontLibValidator v = true) : fontLibValidator w = true := by
  unfold fontLibValidator at h
  split at h
  · rename_i d
    obtain ⟨e, rfl, he⟩ := stored_dict hs
    unfold fontLibValidator
    rw [List.all_eq_true] at h ⊢
    intro q hq
    obtain ⟨p, hp, hk, hst⟩ := he.right q hq
    have := h p hp
    rw [Bool.and_eq_true] at this ⊢
    rw [hk]
    refine ⟨this.1, ?_⟩
    have h2 := this.2
    split
    · rename_i hg
      rw [if_pos hg] at h2
      rcases hx : seq? p.2 with _ | l
      · rw [hx] at h2; cases h2
      · rw [hx] at h2
        have hseq : IsSeq p.2 l := by
          unfold seq? at hx
          split at hx <;> cases hx
          · rename_i e; exact .inl e
          · rename_i e; exact .inr e
        rw [stored_atoms hseq (fun x hx => ?_) hst]
        · exact h2
        · have := List.all_eq_true.1 h2 x hx
          cases x <;> first | trivial | cases this
    · rfl
  · cases h

/-! ### dictionaries of values of a certain form -/

/-- The values changed by a function. -/
def mapVal {κ α β : Type} (f : α → β) (d : Dict κ α) : Dict κ β := d.map fun e => (e.1, f e.2)

theorem get?_mapVal {κ α β : Type} [DecidableEq κ] (f : α → β) (d : Dict κ α) (k : κ) : Dict.get? (mapVal f d) k = (Dict.get? d k).map f := by
  induction d with
  | nil => rfl
  | cons e d ih =>
    obtain ⟨a, b⟩ := e
    unfold mapVal at ih ⊢
    simp only [List.map_cons, Dict.get?_cons, ih]
    split <;> rfl

theorem keys_mapVal {κ α β : Type} (f : α → β) (d : Dict κ α) : Dict.keys (mapVal f d) = Dict.keys d := by
  simp [Dict.keys, mapVal]

theorem wf_mapVal {κ α β : Type} (f : α → β) {d : Dict κ α} : Dict.WF (mapVal f d) ↔ Dict.WF d := by
  rw [Dict.WF, keys_mapVal]; rfl

theorem exists_mapVal {κ α β : Type} (f : α → β) : ∀ l : Dict κ β, (∀ p ∈ l, ∃ a, p.2 = f a) → ∃ d : Dict κ α, l = mapVal f d
  | [], _ => ⟨[], rfl⟩
  | q :: l, h => by
    rw [List.forall_mem_cons] at h
    obtain ⟨a, hk⟩ := h.1
    obtain ⟨g', rfl⟩ := exists_mapVal f l h.2
    obtain ⟨q1, q2⟩ := q
    simp only at hk
    subst hk
    exact ⟨(q1, a) :: g', rfl⟩

/-- Dictionaries with the same entries are permutations of each other. -/
theorem perm_of_get? {κ ν : Type} [DecidableEq κ] {d e : Dict κ ν} (hd : Dict.WF d) (he : Dict.WF e) (h : ∀ k, Dict.get? d k = Dict.get? e k) : d.Perm e := by
  refine (List.perm_ext_iff_of_nodup (List.Nodup.of_map _ hd) (List.Nodup.of_map _ he)).2 fun x => ?_
  obtain ⟨k, v⟩ := x
  rw [Dict.mem_iff_get? hd, Dict.mem_iff_get? he, h]

/-- What is read back of a dictionary of values of a form that survives. -/
theorem stored_mapVal {α : Type} {f : α → PyVal} (hinj : Function.Injective f) {R : α → α → Prop} (hf : ∀ a x, Stored (f a) x → ∃ b, x = f b ∧ R a b)
    {d : Dict Str α} (hwf : Dict.WF d) {w : PyVal} (h : Stored (asDict (mapVal f d)) w) :
    ∃ d', w = asDict (mapVal f d') ∧ Dict.WF d' ∧ ∀ k, Option.Rel R (Dict.get? d k) (Dict.get? d' k) := by
  obtain ⟨e, rfl, hwe, h1, h2⟩ := stored_asDict ((wf_mapVal f).2 hwf) h
  have hget : ∀ k x, Dict.get? e k = some x → ∃ a b, Dict.get? d k = some a ∧ x = f b ∧ R a b := by
    intro k x hx
    rcases hk : Dict.get? d k with _ | a
    · rw [h2 k (by rw [get?_mapVal, hk]; rfl)] at hx; cases hx
    · obtain ⟨y, hy, hs⟩ := h1 k (f a) (by rw [get?_mapVal, hk]; rfl)
      rw [hy] at hx
      obtain ⟨b, hb, hR⟩ := hf a y hs
      exact ⟨a, b, rfl, (Option.some.inj hx).symm.trans hb, hR⟩
  obtain ⟨d', rfl⟩ := exists_mapVal f e fun p hp => by
    obtain ⟨a, b, -, hb, -⟩ := hget p.1 p.2 (Dict.get?_of_mem hwe hp)
    exact ⟨b, hb⟩
  refine ⟨d', rfl, (wf_mapVal f).1 hwe, fun k => ?_⟩
  rcases hk : Dict.get? d k with _ | a
  · have := h2 k (by rw [get?_mapVal, hk]; rfl)
    rw [get?_mapVal, Option.map_eq_none_iff] at this
    rw [this]
    exact .none
  · obtain ⟨y, hy, -⟩ := h1 k (f a) (by rw [get?_mapVal, hk]; rfl)
    obtain ⟨a', b, ha', rfl, hR⟩ := hget k y hy
    rw [get?_mapVal, Option.map_eq_some_iff] at hy
    obtain ⟨b', hb', e⟩ := hy
    cases hinj e
    rw [hk] at ha'
    cases ha'
    rw [hb']
    exact .some hR

theorem rel_eq {α : Type} {a b : Option α} (h : Option.Rel (fun x y => x = y) a b) : a = b := by
  cases h with
  | none => rfl
  | some h => rw [h]

/-! ### groups -/

/-- A list of strings as a Python value. -/
def strs (l : List Str) : PyVal := .list (l.map .str)

theorem groupsVal_eq (g : Dict Str (List Str)) : groupsVal g = asDict (mapVal strs g) := by
  simp [groupsVal, asDict, mapVal, strs]

theorem strs_injective : Function.Injective strs := by
  intro a b hab
  simp only [strs, PyVal.list.injEq] at hab
  exact (List.map_injective_iff.2 fun a b h => PyVal.str.inj h) hab

theorem stored_strs (l : List Str) (x : PyVal) (h : Stored (strs l) x) : ∃ m, x = strs m ∧ l = m := by
  refine ⟨l, stored_atoms (.inl rfl) (fun y hy => ?_) h, rfl⟩
  obtain ⟨z, -, rfl⟩ := List.mem_map.1 hy
  trivial

theorem stored_groups {g : Dict Str (List Str)} (hwf : Dict.WF g) {w : PyVal} (h : Stored (groupsVal g) w) : ∃ g', w = groupsVal g' ∧ g'.Perm g := by
  rw [groupsVal_eq] at h
  obtain ⟨g', rfl, hwf', hg⟩ := stored_mapVal strs_injective stored_strs hwf h
  exact ⟨g', by rw [groupsVal_eq], perm_of_get? hwf' hwf fun k => (rel_eq (hg k)).symm⟩

theorem validGroups_perm {d e : List (PyVal × PyVal)} (h : d.Perm e) (hv : Spec.Kerning.ValidGroups d) : Spec.Kerning.ValidGroups e := by
  have hm : ∀ p, (Spec.Kerning.sideMembers p d).Perm (Spec.Kerning.sideMembers p e) := fun p => by
    unfold Spec.Kerning.sideMembers
    exact h.flatMap_right _
  exact ⟨fun x hx => hv.entry x (h.mem_iff.2 hx), fun m hm' => hv.strings m (by rwa [(hm _).mem_iff, (hm _).mem_iff]),
    (hm _).nodup_iff.1 hv.side1, (hm _).nodup_iff.1 hv.side2⟩

theorem groupsValidator_perm {g g' : Dict Str (List Str)} (h : g'.Perm g) (hv : groupsValidator (groupsVal g) = true) : groupsValidator (groupsVal g') = true := by
  rw [Props.C09_groups_iff] at hv ⊢
  obtain ⟨d, hd, hval⟩ := hv
  cases hd
  exact ⟨_, rfl, validGroups_perm (h.symm.map _) hval⟩

theorem storable_groups {g : Dict Str (List Str)} (hwf : Dict.WF g) (ht : ∀ e ∈ g, FileText e.1 ∧ ∀ m ∈ e.2, FileText m) : Storable (groupsVal g) := by
  rw [groupsVal_eq]
  refine asDict_representable (fun p hp => ?_) ((wf_mapVal _).2 hwf)
  obtain ⟨e, he, rfl⟩ := List.mem_map.1 hp
  refine ⟨(ht e he).1, .list _ ?_, ?_⟩
  · have := (ht e he).2
    clear he hp ht
    generalize e.2 = l at this
    induction l with
    | nil => exact .nil
    | cons m l ih =>
      rw [List.forall_mem_cons] at this
      exact .cons _ _ (.str _ this.1) (ih this.2)
  · show WellFormedList (e.2.map PyVal.str)
    generalize e.2 = l
    induction l with
    | nil => trivial
    | cons m l ih => exact ⟨trivial, ih⟩

/-! ### kerning -/

theorem kerningVal_eq (k : Dict Str (Dict Str PyVal)) : kerningVal k = asDict (mapVal asDict k) := by
  simp [kerningVal, asDict, mapVal]

theorem asDict_injective : Function.Injective asDict := by
  intro a b h
  simp only [asDict, PyVal.dict.injEq] at h
  refine (List.map_injective_iff.2 fun x y h => ?_) h
  simp only [Prod.mk.injEq, PyVal.str.injEq] at h
  exact Prod.ext h.1 h.2

theorem rowOf_map (r : Dict Str PyVal) : rowOf (r.map fun e => (.str e.1, e.2)) = .ok r := by
  induction r with
  | nil => rfl
  | cons e r ih => simp only [List.map_cons, rowOf, ih]

theorem rowsOf_map (k : Dict Str (Dict Str PyVal)) : rowsOf (k.map fun e => (.str e.1, asDict e.2)) = .ok k := by
  induction k with
  | nil => rfl
  | cons e r ih =>
    unfold asDict at ih ⊢
    simp only [List.map_cons, rowsOf, rowOf_map, ih]

/-- Nested kerning of numbers, as read back: the same pairs. -/
theorem stored_kerning {k : Dict Str (Dict Str PyVal)} (hk : WFKerning k) (hn : ∀ r ∈ k, ∀ e ∈ r.2, IsNum e.2) {w : PyVal} (h : Stored (kerningVal k) w) :
    ∃ k', w = kerningVal k' ∧ WFKerning k' ∧ (∀ r ∈ k', ∀ e ∈ r.2, IsNum e.2) ∧ ∀ a b, pairValue k' a b = pairValue k a b := by
  have hwf := hk.1
  rw [kerningVal_eq] at h
  have hf : ∀ a x, Stored (asDict a) x → ∃ b, x = asDict b ∧ (Dict.WF a → (∀ e ∈ a, IsNum e.2) → Dict.WF b ∧ a.Perm b) := by
    intro a x hx
    by_cases hwa : Dict.WF a ∧ ∀ e ∈ a, IsNum e.2
    · obtain ⟨e, rfl, hwe, h1, h2⟩ := stored_asDict hwa.1 hx
      refine ⟨e, rfl, fun _ _ => ⟨hwe, perm_of_get? hwa.1 hwe fun b => ?_⟩⟩
      rcases hb : Dict.get? a b with _ | v
      · exact (h2 b hb).symm
      · obtain ⟨w, hw, hs⟩ := h1 b v hb
        rw [hw, stored_atomic (atomic_num (hwa.2 _ (Dict.mem_of_get? hb))) hs]
    · have : ∃ e, x = asDict e := by
        obtain ⟨items, rfl, hs⟩ := stored_dict hx
        have hstr : ∀ q ∈ items, ∃ k, q.1 = .str k := by
          intro q hq
          obtain ⟨p, hp, hk, -⟩ := hs.right q hq
          obtain ⟨p', -, rfl⟩ := List.mem_map.1 hp
          exact ⟨p'.1, hk⟩
        clear hs hx
        induction items with
        | nil => exact ⟨[], rfl⟩
        | cons q l ih =>
          rw [List.forall_mem_cons] at hstr
          obtain ⟨k, hk⟩ := hstr.1
          obtain ⟨e, he⟩ := ih hstr.2
          obtain ⟨q1, q2⟩ := q
          simp only at hk
          subst hk
          refine ⟨(k, q2) :: e, ?_⟩
          simp only [asDict, PyVal.dict.injEq] at he ⊢
          rw [he]; rfl
      obtain ⟨e, rfl⟩ := this
      exact ⟨e, rfl, fun h1 h2 => absurd ⟨h1, h2⟩ hwa⟩
  obtain ⟨k', rfl, hwf', hg⟩ := stored_mapVal (α := Dict Str PyVal) (f := asDict) asDict_injective hf hwf h
  · have hrow : ∀ a row', Dict.get? k' a = some row' → ∃ row, Dict.get? k a = some row ∧ row.Perm row' ∧ Dict.WF row' ∧ Dict.WF row ∧ ∀ e ∈ row, IsNum e.2 := by
      intro a row' hr'
      have := hg a
      rw [hr'] at this
      rcases hr : Dict.get? k a with _ | row
      · rw [hr] at this; cases this
      · rw [hr] at this
        cases this with
        | some hR =>
          have hm := Dict.mem_of_get? hr
          obtain ⟨h1, h2⟩ := hR (hk.2 _ hm) (hn _ hm)
          exact ⟨row, rfl, h2, h1, hk.2 _ hm, hn _ hm⟩
    refine ⟨k', by rw [kerningVal_eq], ⟨hwf', fun r hr => ?_⟩, fun r hr e he => ?_, fun a b => ?_⟩
    · obtain ⟨row, -, -, h1, -⟩ := hrow r.1 r.2 (Dict.get?_of_mem hwf' hr)
      exact h1
    · obtain ⟨row, -, hp, -, -, h1⟩ := hrow r.1 r.2 (Dict.get?_of_mem hwf' hr)
      exact h1 e (hp.mem_iff.2 he)
    · unfold pairValue
      have := hg a
      rcases hr' : Dict.get? k' a with _ | row'
      · rw [hr'] at this
        rcases hr : Dict.get? k a with _ | row
        · rfl
        · rw [hr] at this; cases this
      · obtain ⟨row, hr, hp, -, h1, -⟩ := hrow a row' hr'
        rw [hr]
        exact (Dict.get?_perm h1 hp b).symm

theorem kerningValidator_val {k : Dict Str (Dict Str PyVal)} (hn : ∀ r ∈ k, ∀ e ∈ r.2, IsNum e.2) : kerningValidator (kerningVal k) = true := by
  unfold kerningVal kerningValidator
  rw [List.all_eq_true]
  intro x hx
  obtain ⟨r, hr, rfl⟩ := List.mem_map.1 hx
  simp only [isStr, Bool.true_and, List.all_eq_true]
  intro y hy
  obtain ⟨e, he, rfl⟩ := List.mem_map.1 hy
  rcases hn r hr e he with ⟨i, h | ⟨h, -⟩ | ⟨h, -⟩⟩ | ⟨f, h⟩ <;> rw [h] <;> rfl

theorem storable_kerning {k : Dict Str (Dict Str PyVal)} (hk : WFKerning k)
    (ht : ∀ r ∈ k, FileText r.1 ∧ ∀ e ∈ r.2, FileText e.1 ∧ Representable FileText e.2 ∧ WellFormed e.2) : Storable (kerningVal k) := by
  rw [kerningVal_eq]
  refine asDict_representable (fun p hp => ?_) ((wf_mapVal _).2 hk.1)
  obtain ⟨r, hr, rfl⟩ := List.mem_map.1 hp
  exact ⟨(ht r hr).1, asDict_representable (ht r hr).2 (hk.2 r hr)⟩

/-- Packing flat kerning. -/
theorem nest_spec (k : Dict (Str × Str) PyVal) :
    WFKerning (nest k) ∧ (∀ r ∈ nest k, (∃ e ∈ k, e.1.1 = r.1) ∧ ∀ e ∈ r.2, ((r.1, e.1), e.2) ∈ k) ∧ (nest k = [] → k = []) := by
  have key : ∀ (l : List ((Str × Str) × PyVal)) (acc : Dict Str (Dict Str PyVal)), WFKerning acc →
      WFKerning (l.foldl (fun (r : Dict Str (Dict Str PyVal)) e => r.set e.1.1 ((r.getD e.1.1 []).set e.1.2 e.2)) acc) ∧
      (∀ r ∈ l.foldl (fun (r : Dict Str (Dict Str PyVal)) e => r.set e.1.1 ((r.getD e.1.1 []).set e.1.2 e.2)) acc,
        ((∃ e ∈ l, e.1.1 = r.1) ∨ r.1 ∈ Dict.keys acc) ∧ ∀ e ∈ r.2, ((r.1, e.1), e.2) ∈ l ∨ pairValue acc r.1 e.1 = some e.2) ∧
      (l.foldl (fun (r : Dict Str (Dict Str PyVal)) e => r.set e.1.1 ((r.getD e.1.1 []).set e.1.2 e.2)) acc = [] → l = [] ∧ acc = []) := by
    intro l
    induction l with
    | nil =>
      intro acc h
      refine ⟨h, fun r hr => ⟨.inr (Dict.mem_keys_of_mem hr), fun e he => .inr ?_⟩, fun h => ⟨rfl, h⟩⟩
      rw [pairValue_iff h]; exact ⟨r.2, hr, he⟩
    | cons x l ih =>
      intro acc h
      have hrow : Dict.WF ((acc.getD x.1.1 []).set x.1.2 x.2) := by
        refine Dict.wf_set ?_ _ _
        rw [Dict.getD]
        rcases hx : Dict.get? acc x.1.1 with _ | row
        · exact Dict.wf_nil
        · exact h.2 _ (Dict.mem_of_get? hx)
      have hacc : WFKerning (acc.set x.1.1 ((acc.getD x.1.1 []).set x.1.2 x.2)) := by
        refine ⟨Dict.wf_set h.1 _ _, fun r hr => ?_⟩
        have hr' := Dict.get?_of_mem (Dict.wf_set h.1 _ _) hr
        rw [Dict.get?_set] at hr'
        split at hr'
        · rw [← Option.some.inj hr']; exact hrow
        · exact h.2 _ (Dict.mem_of_get? hr')
      obtain ⟨h1, h2, h3⟩ := ih _ hacc
      refine ⟨h1, fun r hr => ?_, fun hnil => ?_⟩
      · obtain ⟨a, b⟩ := h2 r hr
        refine ⟨?_, fun e he => ?_⟩
        · rcases a with ⟨e, he, hk⟩ | a
          · exact .inl ⟨e, List.mem_cons_of_mem _ he, hk⟩
          · rw [Dict.mem_keys_set] at a
            rcases a with a | a
            · exact .inl ⟨x, List.mem_cons_self, a.symm⟩
            · exact .inr a
        · rcases b e he with hb | hb
          · exact .inl (List.mem_cons_of_mem _ hb)
          · rw [pairValue, Dict.get?_set] at hb
            split at hb
            · rename_i hx
              rw [Option.bind_some, Dict.get?_set] at hb
              split at hb
              · rename_i hy
                refine .inl ?_
                rw [← hx, ← hy, ← Option.some.inj hb]
                exact List.mem_cons_self
              · refine .inr ?_
                rw [pairValue, ← hx]
                rw [Dict.getD] at hb
                rcases hg : Dict.get? acc x.1.1 with _ | row
                · rw [hg] at hb; cases hb
                · rw [hg] at hb; exact hb
            · exact .inr hb
      · have := (h3 hnil).2
        have hm := (Dict.mem_keys_set (d := acc) (k := x.1.1) (v := (acc.getD x.1.1 []).set x.1.2 x.2) (k' := x.1.1)).2 (.inl rfl)
        rw [this] at hm
        cases hm
  obtain ⟨h1, h2, h3⟩ := key k [] ⟨Dict.wf_nil, by simp⟩
  refine ⟨h1, fun r hr => ?_, fun h => (h3 h).1⟩
  obtain ⟨a, b⟩ := h2 r hr
  refine ⟨a.resolve_right (by simp [Dict.keys]), fun e he => (b e he).resolve_right (by simp [pairValue, Dict.get?])⟩

/-- Flat kerning packed and unpacked. -/
theorem nest_pairs {k : Dict (Str × Str) PyVal} (hk : Dict.WF k) (a b : Str) : pairValue (nest k) a b = Dict.get? k (a, b) := by
  rw [nest_get?]
  rcases get?_foldl_set_cases Prod.fst Prod.snd k [] (a, b) with ⟨e, he, hf, hg⟩ | ⟨hno, hg⟩
  · rw [hg, ← hf, Dict.get?_of_mem hk he]
  · rw [hg, Dict.get?_nil, eq_comm, Dict.get?_eq_none_iff]
    intro hm
    obtain ⟨e, he, hke⟩ := List.mem_map.1 hm
    exact hno e he hke

end Verif.Ufo
