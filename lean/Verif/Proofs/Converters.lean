import Verif.Model.Converters
import Verif.Spec.Converters
import Verif.Proofs.Str
import Verif.Proofs.Kerning
import Mathlib.Data.List.Perm.Subperm
/-! Lemmas about the kerning conversion. -/
namespace Verif.Converters
open Verif Verif.Kerning Verif.Spec.Kerning Verif.Spec.Converters

/-! ### unique names -/

theorem makeUniqueAux_form (name : Str) (names : List Str) (fuel c : Nat) :
    ∃ k, c ≤ k ∧ k ≤ c + fuel ∧ makeUniqueAux name names fuel c = candidate name k ∧
      (∀ i, c ≤ i → i < k → candidate name i ∈ names) ∧ (k < c + fuel → candidate name k ∉ names) := by
  induction fuel generalizing c with
  | zero => exact ⟨c, by omega, by omega, rfl, fun i h1 h2 => by omega, fun h => by omega⟩
  | succ n ih =>
    simp only [makeUniqueAux]
    split
    · next h =>
      obtain ⟨k, h1, h2, h3, h4, h5⟩ := ih (c + 1)
      refine ⟨k, by omega, by omega, h3, fun i hi hk => ?_, fun hk => h5 (by omega)⟩
      rcases Nat.eq_or_lt_of_le hi with rfl | hlt
      · exact h
      · exact h4 i hlt hk
    · next h => exact ⟨c, by omega, by omega, rfl, fun i h1 h2 => by omega, fun _ => h⟩

theorem candidate_injective (name : Str) : ∀ i j, candidate name i = candidate name j → i = j := by
  intro i j h
  simp only [candidate] at h
  split at h <;> split at h
  · exact natRepr_injective (List.append_cancel_left h)
  · have := congrArg List.length h; simp [natRepr_ne_nil] at this
  · have := congrArg List.length h; simp [natRepr_ne_nil] at this
  · omega

/-- The loop finds the first free candidate: its fuel never runs out. -/
theorem makeUnique_spec (name : Str) (names : List Str) :
    ∃ k, makeUniqueGroupName name names = candidate name k ∧ candidate name k ∉ names ∧
      ∀ i, i < k → candidate name i ∈ names := by
  obtain ⟨k, h1, h2, h3, h4, h5⟩ := makeUniqueAux_form name names names.length 0
  refine ⟨k, h3, ?_, fun i hi => h4 i (by omega) hi⟩
  rcases Nat.lt_or_ge k names.length with h | h
  · exact h5 (by omega)
  · intro hin
    have hnd : ((List.range (names.length + 1)).map (candidate name)).Nodup :=
      List.Nodup.map (fun i j h => candidate_injective name i j h) List.nodup_range
    have hsub : ((List.range (names.length + 1)).map (candidate name)) ⊆ names := by
      intro x hx
      simp only [List.mem_map, List.mem_range] at hx
      obtain ⟨i, hi, rfl⟩ := hx
      rcases Nat.lt_or_ge i k with hik | hik
      · exact h4 i (by omega) hik
      · have : i = k := by omega
        subst this; exact hin
    have := (hnd.subperm hsub).length_le
    simp only [List.length_map, List.length_range] at this
    omega

theorem makeUnique_congr {name : Str} {names names' : List Str} (h : ∀ x, x ∈ names ↔ x ∈ names') :
    makeUniqueGroupName name names = makeUniqueGroupName name names' := by
  obtain ⟨k, h1, h2, h3⟩ := makeUnique_spec name names
  obtain ⟨j, g1, g2, g3⟩ := makeUnique_spec name names'
  have : k = j := by
    rcases Nat.lt_trichotomy k j with hlt | heq | hlt
    · exact absurd ((h _).2 (g3 k hlt)) h2
    · exact heq
    · exact absurd ((h _).1 (h3 j hlt)) g2
  rw [h1, g1, this]

/-! ### referenced groups -/

theorem mem_setAdd {s : List Str} {x y : Str} : y ∈ setAdd s x ↔ y = x ∨ y ∈ s := by
  simp only [setAdd]
  split
  · next h =>
    constructor
    · exact .inr
    · rintro (rfl | h')
      · exact h
      · exact h'
  · simp [or_comm]

theorem nodup_setAdd {s : List Str} (h : s.Nodup) (x : Str) : (setAdd s x).Nodup := by
  simp only [setAdd]
  split
  · exact h
  · next hx =>
    rw [List.nodup_append]
    refine ⟨h, by simp, ?_⟩
    rintro a ha b hb rfl
    simp only [List.mem_singleton] at hb; subst hb; exact hx ha

theorem foldl_setAdd {α : Type} (f : α → Str) (p : α → Bool) (l : List α) (s : List Str) (hs : s.Nodup) :
    (l.foldl (fun s a => if p a then setAdd s (f a) else s) s).Nodup ∧
    ∀ y, y ∈ l.foldl (fun s a => if p a then setAdd s (f a) else s) s ↔ y ∈ s ∨ ∃ a ∈ l, p a = true ∧ f a = y := by
  induction l generalizing s with
  | nil => simp [hs]
  | cons a l ih =>
    simp only [List.foldl_cons]
    split
    · next h =>
      obtain ⟨h1, h2⟩ := ih (setAdd s (f a)) (nodup_setAdd hs _)
      refine ⟨h1, fun y => ?_⟩
      rw [h2, mem_setAdd]
      constructor
      · rintro ((rfl | hy) | ⟨b, hb, hp, hf⟩)
        · exact .inr ⟨a, by simp, h, rfl⟩
        · exact .inl hy
        · exact .inr ⟨b, by simp [hb], hp, hf⟩
      · rintro (hy | ⟨b, hb, hp, hf⟩)
        · exact .inl (.inr hy)
        · rw [List.mem_cons] at hb
          rcases hb with rfl | hb
          · exact .inl (.inl hf.symm)
          · exact .inr ⟨b, hb, hp, hf⟩
    · next h =>
      obtain ⟨h1, h2⟩ := ih s hs
      refine ⟨h1, fun y => ?_⟩
      rw [h2]
      constructor
      · rintro (hy | ⟨b, hb, hp, hf⟩)
        · exact .inl hy
        · exact .inr ⟨b, by simp [hb], hp, hf⟩
      · rintro (hy | ⟨b, hb, hp, hf⟩)
        · exact .inl hy
        · rw [List.mem_cons] at hb
          rcases hb with rfl | hb
          · exact absurd hp h
          · exact .inr ⟨b, hb, hp, hf⟩

theorem findKnown_spec (known : Str) (groups : Dict Str (List Str)) :
    (findKnown known groups).Nodup ∧ ∀ y, y ∈ findKnown known groups ↔ y ∈ groups.keys ∧ Begins y known := by
  obtain ⟨h1, h2⟩ := foldl_setAdd id (fun g => startsWith g known) groups.keys [] (by simp)
  refine ⟨h1, fun y => ?_⟩
  have := h2 y
  simp only [id] at this
  rw [findKnown, this]
  simp only [List.not_mem_nil, false_or, startsWith_iff]
  constructor
  · rintro ⟨a, ha, hb, rfl⟩; exact ⟨ha, hb⟩
  · rintro ⟨ha, hb⟩; exact ⟨y, ha, hb, rfl⟩

theorem firstReferenced_spec {ν : Type} (kerning : Dict Str (Dict Str ν)) (groups : Dict Str (List Str)) :
    (firstReferenced kerning groups).Nodup ∧
    ∀ y, y ∈ firstReferenced kerning groups ↔
      y ∈ groups.keys ∧ (Begins y c!"@MMK_L_" ∨ (IsFirst kerning y ∧ ¬ Begins y kern1)) := by
  have e : ∀ (s : List Str), kerning.foldl (fun s row =>
      if groups.has row.1 then (if !startsWith row.1 kern1 then setAdd s row.1 else s) else s) s =
      kerning.foldl (fun s row => if (groups.has row.1 && !startsWith row.1 kern1) then setAdd s row.1 else s) s := by
    intro s
    congr 1
    funext s row
    cases groups.has row.1 <;> simp
  obtain ⟨k1, k2⟩ := findKnown_spec c!"@MMK_L_" groups
  obtain ⟨h1, h2⟩ := foldl_setAdd (Prod.fst : Str × Dict Str ν → Str) (fun row => groups.has row.1 && !startsWith row.1 kern1) kerning
    (findKnown c!"@MMK_L_" groups) k1
  rw [firstReferenced, e]
  refine ⟨h1, fun y => ?_⟩
  rw [h2, k2]
  simp only [Bool.and_eq_true, Dict.has_iff, Bool.not_eq_true', IsFirst]
  constructor
  · rintro (⟨a, b⟩ | ⟨⟨f, row⟩, hm, ⟨ha, hb⟩, rfl⟩)
    · exact ⟨a, .inl b⟩
    · exact ⟨ha, .inr ⟨⟨row, hm⟩, fun hh => by rw [(startsWith_iff _ _).2 hh] at hb; cases hb⟩⟩
  · rintro ⟨a, b | ⟨⟨row, hm⟩, hn⟩⟩
    · exact .inl ⟨a, b⟩
    · exact .inr ⟨(y, row), hm, ⟨a, by rw [Bool.eq_false_iff]; exact fun h => hn ((startsWith_iff _ _).1 h)⟩, rfl⟩

theorem secondReferenced_spec {ν : Type} (kerning : Dict Str (Dict Str ν)) (groups : Dict Str (List Str)) :
    (secondReferenced kerning groups).Nodup ∧
    ∀ y, y ∈ secondReferenced kerning groups ↔
      y ∈ groups.keys ∧ (Begins y c!"@MMK_R_" ∨ (IsSecond kerning y ∧ ¬ Begins y kern2)) := by
  have e : ∀ (row : Dict Str ν) (s : List Str), row.foldl (fun s e =>
      if groups.has e.1 then (if !startsWith e.1 kern2 then setAdd s e.1 else s) else s) s =
      row.foldl (fun s e => if (groups.has e.1 && !startsWith e.1 kern2) then setAdd s e.1 else s) s := by
    intro row s
    congr 1
    funext s row
    cases groups.has row.1 <;> simp
  obtain ⟨k1, k2⟩ := findKnown_spec c!"@MMK_R_" groups
  rw [secondReferenced]
  simp only [e]
  have key : ∀ (l : Dict Str (Dict Str ν)) (s : List Str), s.Nodup →
      (l.foldl (fun s row => row.2.foldl (fun s e => if (groups.has e.1 && !startsWith e.1 kern2) then setAdd s e.1 else s) s) s).Nodup ∧
      ∀ y, y ∈ (l.foldl (fun s row => row.2.foldl (fun s e => if (groups.has e.1 && !startsWith e.1 kern2) then setAdd s e.1 else s) s) s) ↔
        y ∈ s ∨ (IsSecond l y ∧ y ∈ groups.keys ∧ ¬ Begins y kern2) := by
    intro l
    induction l with
    | nil => intro s hs; simp [hs, IsSecond]
    | cons r l ih =>
      intro s hs
      obtain ⟨h1, h2⟩ := foldl_setAdd (Prod.fst : Str × ν → Str) (fun row => groups.has row.1 && !startsWith row.1 kern2) r.2 s hs
      simp only [List.foldl_cons]
      obtain ⟨g1, g2⟩ := ih _ h1
      refine ⟨g1, fun y => ?_⟩
      rw [g2, h2]
      simp only [Bool.and_eq_true, Dict.has_iff, Bool.not_eq_true', IsSecond]
      constructor
      · rintro ((hy | ⟨⟨a, v⟩, ha, ⟨hp, hb⟩, rfl⟩) | ⟨⟨f, row, v, hm, hv⟩, hk, hb⟩)
        · exact .inl hy
        · exact .inr ⟨⟨r.1, r.2, v, by simp, ha⟩, hp, fun hh => by rw [(startsWith_iff _ _).2 hh] at hb; cases hb⟩
        · exact .inr ⟨⟨f, row, v, by simp [hm], hv⟩, hk, hb⟩
      · rintro (hy | ⟨⟨f, row, v, hm, hv⟩, hk, hb⟩)
        · exact .inl (.inl hy)
        · rw [List.mem_cons] at hm
          rcases hm with hm | hm
          · subst hm
            exact .inl (.inr ⟨(y, v), hv, ⟨hk, by rw [Bool.eq_false_iff]; exact fun h => hb ((startsWith_iff _ _).1 h)⟩, rfl⟩)
          · exact .inr ⟨⟨f, row, v, hm, hv⟩, hk, hb⟩
  obtain ⟨h1, h2⟩ := key kerning _ k1
  refine ⟨h1, fun y => ?_⟩
  rw [h2, k2]
  constructor
  · rintro (⟨a, b⟩ | ⟨a, b, c⟩)
    · exact ⟨a, .inl b⟩
    · exact ⟨b, .inr ⟨a, c⟩⟩
  · rintro ⟨a, b | ⟨b, c⟩⟩
    · exact .inl ⟨a, b⟩
    · exact .inr ⟨b, a, c⟩

/-! ### renaming -/

/-- The new name of a group: it does not depend on the other groups that are renamed. -/
def newName (pfx known : Str) (groups : Dict Str (List Str)) (g : Str) : Str :=
  makeUniqueGroupName (pfx ++ removeAll known g) groups.keys

theorem renameSide_spec (pfx known : Str) (groups : Dict Str (List Str)) (order : List Str) (hnd : order.Nodup)
    (hsub : ∀ g ∈ order, g ∈ groups.keys) :
    renameSide pfx known groups order = order.map fun g => (g, newName pfx known groups g) := by
  rw [renameSide]
  suffices h : ∀ (done todo : List Str), (done ++ todo).Nodup → (∀ g ∈ done ++ todo, g ∈ groups.keys) →
      todo.foldl (fun (ren : Dict Str Str) g => ren.set g (makeUniqueGroupName (pfx ++ removeAll known g) (groups.keys ++ ren.keys)))
        (done.map fun g => (g, newName pfx known groups g)) = (done ++ todo).map fun g => (g, newName pfx known groups g) from
    h [] order hnd hsub
  intro done todo
  induction todo generalizing done with
  | nil => simp
  | cons g todo ih =>
    intro hn hs
    rw [List.foldl_cons]
    have hk : Dict.keys (done.map fun g => (g, newName pfx known groups g)) = done := by
      simp [Dict.keys, Function.comp_def]
    have hg : g ∉ Dict.keys (done.map fun g => (g, newName pfx known groups g)) := by
      rw [hk]
      intro hg
      rw [List.nodup_append] at hn
      exact hn.2.2 g hg g (by simp) rfl
    have hname : makeUniqueGroupName (pfx ++ removeAll known g) (groups.keys ++ Dict.keys (done.map fun g => (g, newName pfx known groups g)))
        = newName pfx known groups g := by
      apply makeUnique_congr
      intro x
      rw [List.mem_append, hk]
      constructor
      · rintro (h | h)
        · exact h
        · exact hs x (by simp [h])
      · exact .inl
    rw [hname, Dict.keys_set_of_not_mem hg]
    have := ih (done ++ [g]) (by simpa using hn) (by simpa using hs)
    simpa using this

theorem get?_map_self (f : Str → Str) (order : List Str) (x : Str) :
    Dict.get? (order.map fun g => (g, f g)) x = if x ∈ order then some (f x) else none := by
  induction order with
  | nil => simp
  | cons a l ih =>
    simp only [List.map_cons, Dict.get?_cons, ih, List.mem_cons]
    by_cases h : a = x
    · simp [h]
    · simp [h, Ne.symm h]

theorem newName_fresh (pfx known : Str) (groups : Dict Str (List Str)) (g : Str) :
    newName pfx known groups g ∉ groups.keys := by
  obtain ⟨k, h1, h2, -⟩ := makeUnique_spec (pfx ++ removeAll known g) groups.keys
  rw [newName, h1]; exact h2

theorem newName_begins (pfx known : Str) (groups : Dict Str (List Str)) (g : Str) :
    Begins (newName pfx known groups g) pfx := by
  obtain ⟨k, h1, -⟩ := makeUnique_spec (pfx ++ removeAll known g) groups.keys
  rw [newName, h1, candidate]
  split
  · exact ⟨_, by rw [List.append_assoc]⟩
  · exact ⟨_, rfl⟩

/-! ### folds of assignments -/

theorem get?_foldl_set {α κ ν : Type} [DecidableEq κ] (f : α → κ) (g : α → ν) (l : List α) (d : Dict κ ν) (k : κ) :
    Dict.get? (l.foldl (fun r a => Dict.set r (f a) (g a)) d) k =
      ((l.reverse.find? (fun a => decide (f a = k))).map g).or (d.get? k) := by
  induction l generalizing d with
  | nil => simp
  | cons a l ih =>
    rw [List.foldl_cons, ih, List.reverse_cons, List.find?_append, Dict.get?_set]
    rcases hf : l.reverse.find? (fun a => decide (f a = k)) with _ | b
    · simp only [Option.map_none, Option.none_or, List.find?_cons, List.find?_nil]
      by_cases h : f a = k
      · simp [h]
      · simp [h]
    · simp

/-- An assignment fold yields either a value assigned by some element for that key, or the old value when no element
assigns the key. -/
theorem get?_foldl_set_cases {α κ ν : Type} [DecidableEq κ] (f : α → κ) (g : α → ν) (l : List α) (d : Dict κ ν) (k : κ) :
    (∃ a ∈ l, f a = k ∧ Dict.get? (l.foldl (fun r a => Dict.set r (f a) (g a)) d) k = some (g a)) ∨
    ((∀ a ∈ l, f a ≠ k) ∧ Dict.get? (l.foldl (fun r a => Dict.set r (f a) (g a)) d) k = d.get? k) := by
  rw [get?_foldl_set]
  rcases hf : l.reverse.find? (fun a => decide (f a = k)) with _ | b
  · right
    refine ⟨fun a ha he => ?_, rfl⟩
    have := List.find?_eq_none.1 hf a (by simpa using ha)
    simp [he] at this
  · left
    refine ⟨b, by simpa using List.mem_of_find?_eq_some hf, ?_, rfl⟩
    simpa using List.find?_some hf

/-! ### copying groups -/

theorem copyGroups_spec (l : List (Str × Str)) (orig groups : Dict Str (List Str))
    (hold : ∀ e ∈ l, e.1 ∈ orig.keys) (hnew : ∀ e ∈ l, e.2 ∉ orig.keys)
    (hag : ∀ k ∈ orig.keys, groups.get? k = orig.get? k) :
    ∃ r, copyGroups l groups = .ok r ∧
      ∀ k, r.get? k = ((l.reverse.find? (fun e => decide (e.2 = k))).bind (fun e => orig.get? e.1)).or (groups.get? k) := by
  induction l generalizing groups with
  | nil => exact ⟨groups, rfl, fun k => by simp⟩
  | cons e l ih =>
    obtain ⟨o, n⟩ := e
    have ho := hold (o, n) (by simp)
    obtain ⟨ms, hms⟩ := Dict.get?_isSome_of_mem ho
    have hg : groups.get? o = some ms := by rw [hag o ho, hms]
    obtain ⟨r, hr1, hr2⟩ := ih (groups.set n ms) (fun e he => hold e (by simp [he])) (fun e he => hnew e (by simp [he]))
      (fun k hk => by
        rw [Dict.get?_set, if_neg, hag k hk]
        rintro rfl
        exact hnew (o, n) (by simp) hk)
    refine ⟨r, by simp only [copyGroups, hg]; exact hr1, fun k => ?_⟩
    rw [hr2, List.reverse_cons, List.find?_append, Dict.get?_set]
    have hf : ∀ b, l.reverse.find? (fun e => decide (e.2 = k)) = some b → b ∈ l :=
      fun b hb => by simpa using List.mem_of_find?_eq_some hb
    generalize l.reverse.find? (fun e => decide (e.2 = k)) = of at hf
    cases of with
    | none =>
      by_cases h : n = k
      · subst h; simp [hms]
      · simp [h]
    | some b =>
      have hb : b ∈ l := hf b rfl
      obtain ⟨v, hv⟩ := Dict.get?_isSome_of_mem (hold b (by simp [hb]))
      simp [hv]

/-! ### the whole conversion -/

/-- Everything the conversion does, in one statement. -/
theorem convert_spec {ν : Type} (ord1 ord2 : List Str → List Str) (h1 : ∀ l, (ord1 l).Perm l) (h2 : ∀ l, (ord2 l).Perm l)
    (kerning : Dict Str (Dict Str ν)) (groups : Dict Str (List Str)) :
    ∃ r : Converted ν, convert ord1 ord2 kerning groups = .ok r ∧
      r.side1 = (ord1 (firstReferenced kerning groups)).map (fun g => (g, newName kern1 c!"@MMK_L_" groups g)) ∧
      r.side2 = (ord2 (secondReferenced kerning groups)).map (fun g => (g, newName kern2 c!"@MMK_R_" groups g)) ∧
      r.kerning = renameKerning r.side1 r.side2 kerning ∧
      (∀ e ∈ r.side1 ++ r.side2, e.1 ∈ groups.keys ∧ e.2 ∉ groups.keys) ∧
      ∀ k, r.groups.get? k =
        (((r.side1 ++ r.side2).reverse.find? (fun e => decide (e.2 = k))).bind (fun e => groups.get? e.1)).or (groups.get? k) := by
  obtain ⟨f1, f2⟩ := firstReferenced_spec kerning groups
  obtain ⟨s1, s2⟩ := secondReferenced_spec kerning groups
  have r1 := renameSide_spec kern1 c!"@MMK_L_" groups (ord1 (firstReferenced kerning groups)) ((h1 _).nodup_iff.2 f1)
    (fun g hg => ((f2 g).1 ((h1 _).mem_iff.1 hg)).1)
  have r2 := renameSide_spec kern2 c!"@MMK_R_" groups (ord2 (secondReferenced kerning groups)) ((h2 _).nodup_iff.2 s1)
    (fun g hg => ((s2 g).1 ((h2 _).mem_iff.1 hg)).1)
  simp only [convert, r1, r2]
  generalize hl : (List.map (fun g => (g, newName kern1 c!"@MMK_L_" groups g)) (ord1 (firstReferenced kerning groups)) ++
      List.map (fun g => (g, newName kern2 c!"@MMK_R_" groups g)) (ord2 (secondReferenced kerning groups))) = l
  have hprop : ∀ e ∈ l, e.1 ∈ groups.keys ∧ e.2 ∉ groups.keys := by
    intro e he
    rw [← hl, List.mem_append, List.mem_map, List.mem_map] at he
    rcases he with ⟨g, hg, rfl⟩ | ⟨g, hg, rfl⟩
    · exact ⟨((f2 g).1 ((h1 _).mem_iff.1 hg)).1, newName_fresh _ _ _ _⟩
    · exact ⟨((s2 g).1 ((h2 _).mem_iff.1 hg)).1, newName_fresh _ _ _ _⟩
  obtain ⟨r, hr1, hr2⟩ := copyGroups_spec l groups groups (fun e he => (hprop e he).1) (fun e he => (hprop e he).2) (fun _ _ => rfl)
  rw [hr1]
  exact ⟨_, rfl, rfl, rfl, rfl, by simpa only [hl] using hprop, by simpa only [hl] using hr2⟩

/-! ### renamed kerning -/

theorem renameRow_get? {ν : Type} (ren2 : Dict Str Str) {row : Dict Str ν} (hrow : row.WF)
    (hinj : InjOn (renamed ren2) row.keys) {second : Str} {v : ν} (h : (second, v) ∈ row) :
    Dict.get? (row.foldl (fun (ns : Dict Str ν) e => ns.set (ren2.getD e.1 e.1) e.2) []) (renamed ren2 second) = some v := by
  rcases get?_foldl_set_cases (fun e : Str × ν => ren2.getD e.1 e.1) Prod.snd row [] (renamed ren2 second) with ⟨a, ha, hf, hg⟩ | ⟨hno, -⟩
  · rw [hg]
    have : a.1 = second := hinj a.1 (Dict.mem_keys_of_mem (v := a.2) ha) second (Dict.mem_keys_of_mem h) hf
    have h2 := Dict.get?_of_mem hrow h
    have h3 := Dict.get?_of_mem hrow (k := a.1) (v := a.2) ha
    rw [this, h2] at h3
    exact h3.symm
  · exact absurd rfl (hno (second, v) h)

theorem renameKerning_get? {ν : Type} (ren1 ren2 : Dict Str Str) {kerning : Dict Str (Dict Str ν)} (hk : kerning.WF)
    (hinj : InjOn (renamed ren1) kerning.keys) {first : Str} {row : Dict Str ν} (h : (first, row) ∈ kerning) :
    (renameKerning ren1 ren2 kerning).get? (renamed ren1 first) =
      some (row.foldl (fun (ns : Dict Str ν) e => ns.set (ren2.getD e.1 e.1) e.2) []) := by
  rw [renameKerning]
  rcases get?_foldl_set_cases (fun row : Str × Dict Str ν => ren1.getD row.1 row.1)
    (fun row => row.2.foldl (fun (ns : Dict Str ν) e => ns.set (ren2.getD e.1 e.1) e.2) []) kerning [] (renamed ren1 first) with ⟨a, ha, hf, hg⟩ | ⟨hno, -⟩
  · rw [hg]
    have : a.1 = first := hinj a.1 (Dict.mem_keys_of_mem (v := a.2) ha) first (Dict.mem_keys_of_mem h) hf
    have h2 := Dict.get?_of_mem hk h
    have h3 := Dict.get?_of_mem hk (k := a.1) (v := a.2) ha
    rw [this, h2] at h3
    injection h3 with h3
    rw [h3]
  · exact absurd rfl (hno (first, row) h)

/-- Every pair of the renamed kerning comes from a pair of the original kerning. -/
theorem renameKerning_source {ν : Type} (ren1 ren2 : Dict Str Str) {kerning : Dict Str (Dict Str ν)} {a b : Str} {v : ν}
    (h : pairValue (renameKerning ren1 ren2 kerning) a b = some v) :
    ∃ first row second, (first, row) ∈ kerning ∧ (second, v) ∈ row ∧ a = renamed ren1 first ∧ b = renamed ren2 second := by
  rw [pairValue, renameKerning] at h
  rcases get?_foldl_set_cases (fun row : Str × Dict Str ν => ren1.getD row.1 row.1)
    (fun row => row.2.foldl (fun (ns : Dict Str ν) e => ns.set (ren2.getD e.1 e.1) e.2) []) kerning [] a with ⟨r, hr, hf, hg⟩ | ⟨-, hno⟩
  · rw [hg] at h
    simp only [Option.bind_some] at h
    rcases get?_foldl_set_cases (fun e : Str × ν => ren2.getD e.1 e.1) Prod.snd r.2 [] b with ⟨e, he, hf', hg'⟩ | ⟨-, hno⟩
    · rw [hg'] at h
      injection h with h
      exact ⟨r.1, r.2, e.1, hr, h ▸ he, hf.symm, hf'.symm⟩
    · rw [hno] at h; cases h
  · rw [hno] at h; cases h

theorem wf_foldl_set {α κ ν : Type} [DecidableEq κ] (f : α → κ) (g : α → ν) (l : List α) (d : Dict κ ν) (hd : d.WF) :
    Dict.WF (l.foldl (fun r a => Dict.set r (f a) (g a)) d) := by
  induction l generalizing d with
  | nil => exact hd
  | cons a l ih => exact ih _ (Dict.wf_set hd _ _)

theorem mem_foldl_set {α κ ν : Type} [DecidableEq κ] (f : α → κ) (g : α → ν) (l : List α) (d : Dict κ ν) :
    ∀ e ∈ l.foldl (fun r a => Dict.set r (f a) (g a)) d, e ∈ d ∨ ∃ a ∈ l, e = (f a, g a) ∨ e.2 = g a := by
  induction l generalizing d with
  | nil => intro e he; exact .inl he
  | cons a l ih =>
    intro e he
    rcases ih _ e he with h | ⟨b, hb, h⟩
    · have key : ∀ (d : Dict κ ν) (k : κ) (v : ν), ∀ e ∈ d.set k v, e ∈ d ∨ e.2 = v := by
        intro d k v
        induction d with
        | nil => intro e he; simp [Dict.set] at he; simp [he]
        | cons p d ihd =>
          intro e he
          obtain ⟨p1, p2⟩ := p
          simp only [Dict.set] at he
          split at he
          · rw [List.mem_cons] at he
            rcases he with rfl | he
            · exact .inr rfl
            · exact .inl (by simp [he])
          · rw [List.mem_cons] at he
            rcases he with rfl | he
            · exact .inl (by simp)
            · rcases ihd e he with h | h
              · exact .inl (by simp [h])
              · exact .inr h
      rcases key d _ _ e h with h | h
      · exact .inl h
      · exact .inr ⟨a, by simp, .inr h⟩
    · exact .inr ⟨b, by simp [hb], h⟩

theorem renameKerning_wf {ν : Type} (ren1 ren2 : Dict Str Str) (kerning : Dict Str (Dict Str ν)) :
    WFKerning (renameKerning ren1 ren2 kerning) := by
  rw [renameKerning]
  refine ⟨wf_foldl_set (fun row : Str × Dict Str ν => ren1.getD row.1 row.1) _ kerning [] Dict.wf_nil, ?_⟩
  intro e he
  have := mem_foldl_set (fun row : Str × Dict Str ν => ren1.getD row.1 row.1)
    (fun row => row.2.foldl (fun (ns : Dict Str ν) e => ns.set (ren2.getD e.1 e.1) e.2) []) kerning [] e he
  have hw : ∀ row : Dict Str ν, Dict.WF (row.foldl (fun (ns : Dict Str ν) e => ns.set (ren2.getD e.1 e.1) e.2) []) :=
    fun row => wf_foldl_set (fun e : Str × ν => ren2.getD e.1 e.1) Prod.snd row [] Dict.wf_nil
  rcases this with h | ⟨a, -, h | h⟩
  · simp at h
  · rw [h]; exact hw _
  · rw [h]; exact hw _

/-! ### flat and nested kerning -/

/-- The pairs of nested kerning in order. -/
def flatList {ν : Type} (k : Dict Str (Dict Str ν)) : Dict (Str × Str) ν :=
  k.flatMap fun row => row.2.map fun e => ((row.1, e.1), e.2)

theorem flatten_eq {ν : Type} (k : Dict Str (Dict Str ν)) :
    flatten k = (flatList k).foldl (fun r e => Dict.set r e.1 e.2) [] := by
  rw [flatten, flatList]
  generalize ([] : Dict (Str × Str) ν) = r
  induction k generalizing r with
  | nil => rfl
  | cons row k ih =>
    simp only [List.foldl_cons, List.flatMap_cons, List.foldl_append, ih, List.foldl_map]

theorem mem_flatList {ν : Type} {k : Dict Str (Dict Str ν)} {a b : Str} {v : ν} :
    ((a, b), v) ∈ flatList k ↔ ∃ row, (a, row) ∈ k ∧ (b, v) ∈ row := by
  simp only [flatList, List.mem_flatMap, List.mem_map, Prod.mk.injEq, Prod.exists]
  constructor
  · rintro ⟨x, row, hm, y, w, hy, ⟨rfl, rfl⟩, rfl⟩; exact ⟨row, hm, hy⟩
  · rintro ⟨row, hm, hy⟩; exact ⟨a, row, hm, b, v, hy, ⟨rfl, rfl⟩, rfl⟩

theorem pairValue_iff {ν : Type} {k : Dict Str (Dict Str ν)} (hk : WFKerning k) {a b : Str} {v : ν} :
    pairValue k a b = some v ↔ ∃ row, (a, row) ∈ k ∧ (b, v) ∈ row := by
  simp only [pairValue, Option.bind_eq_some_iff]
  constructor
  · rintro ⟨row, h1, h2⟩; exact ⟨row, Dict.mem_of_get? h1, Dict.mem_of_get? h2⟩
  · rintro ⟨row, h1, h2⟩; exact ⟨row, Dict.get?_of_mem hk.1 h1, Dict.get?_of_mem (hk.2 _ h1) h2⟩

theorem flatten_get? {ν : Type} {k : Dict Str (Dict Str ν)} (hk : WFKerning k) (a b : Str) :
    (flatten k).get? (a, b) = pairValue k a b := by
  have hsome : ∀ v, (flatten k).get? (a, b) = some v → pairValue k a b = some v := by
    intro v h
    rw [flatten_eq] at h
    rcases get?_foldl_set_cases Prod.fst Prod.snd (flatList k) [] (a, b) with ⟨e, he, hf, hg⟩ | ⟨-, hno⟩
    · rw [hg] at h; injection h with h
      rw [pairValue_iff hk, ← mem_flatList]
      obtain ⟨⟨x, y⟩, w⟩ := e
      simp only at hf h
      rw [← hf, ← h]; exact he
    · rw [hno] at h; cases h
  rcases hp : pairValue k a b with _ | v
  · rcases hf : (flatten k).get? (a, b) with _ | w
    · rfl
    · rw [hsome w hf] at hp; cases hp
  · rw [pairValue_iff hk, ← mem_flatList] at hp
    rcases hf : (flatten k).get? (a, b) with _ | w
    · rw [flatten_eq] at hf
      rcases get?_foldl_set_cases Prod.fst Prod.snd (flatList k) [] (a, b) with ⟨e, he, hfe, hg⟩ | ⟨hno, -⟩
      · rw [hg] at hf; cases hf
      · exact absurd rfl (hno _ hp)
    · have := hsome w hf
      have h2 : pairValue k a b = some v := by rw [pairValue_iff hk, ← mem_flatList]; exact hp
      rw [this] at h2; exact h2

theorem flatten_wf {ν : Type} (k : Dict Str (Dict Str ν)) : (flatten k).WF := by
  rw [flatten_eq]
  exact wf_foldl_set Prod.fst Prod.snd _ [] Dict.wf_nil

theorem nest_get? {ν : Type} (l : Dict (Str × Str) ν) (a b : Str) :
    pairValue (nest l) a b = Dict.get? (l.foldl (fun r e => Dict.set r e.1 e.2) []) (a, b) := by
  rw [nest]
  suffices h : ∀ (r : Dict Str (Dict Str ν)) (d : Dict (Str × Str) ν), (∀ a b, pairValue r a b = d.get? (a, b)) →
      ∀ a b, pairValue (l.foldl (fun (r : Dict Str (Dict Str ν)) e => r.set e.1.1 ((r.getD e.1.1 []).set e.1.2 e.2)) r) a b
        = Dict.get? (l.foldl (fun r e => Dict.set r e.1 e.2) d) (a, b) from
    h [] [] (fun _ _ => rfl) a b
  induction l with
  | nil => intro r d h; exact h
  | cons e l ih =>
    intro r d h
    simp only [List.foldl_cons]
    apply ih
    obtain ⟨⟨x, y⟩, v⟩ := e
    intro a b
    rw [Dict.get?_set, pairValue, Dict.get?_set]
    by_cases hx : x = a
    · subst hx
      simp only [if_true, Option.bind_some, Dict.get?_set, Prod.mk.injEq, true_and]
      split
      · rfl
      · rw [← h, pairValue, Dict.getD]
        cases r.get? x <;> simp
    · simp only [hx, Prod.mk.injEq, false_and, if_false]
      exact h a b

end Verif.Converters
