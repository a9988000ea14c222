import Verif.Proofs.Kerning
import Mathlib.Data.List.Pairwise
/-! Properties C07-C09: kerning lookup and group validation. -/
namespace Verif.Props
open Verif Verif.Kerning Verif.Spec.Kerning

/-! ## C07 -/

/-- **C07.** Lookup never raises (when no maps are passed) and returns the value chosen by the UFO 3 precedence, for a
choice of the kerning groups of both members. -/
theorem C07_precedence {ν : Type} (first second : Str) (kerning : Dict (Str × Str) ν) (groups : Dict Str (List Str)) (fallback : ν) :
    ∃ g1 g2, GroupChoice c!"public.kern1." groups first g1 ∧ GroupChoice c!"public.kern2." groups second g2 ∧
      lookupKerningValue (first, second) kerning groups fallback none none
        = .ok (precedence kerning first second g1 g2 fallback) := by
  obtain ⟨a, b, c, d⟩ := buildMaps_spec groups
  refine ⟨chosen kern1 (buildMaps groups).1 first, chosen kern2 (buildMaps groups).2 second,
    chosen_spec first a b, chosen_spec second c d, ?_⟩
  simp only [lookupKerningValue]
  split
  · next v hv => simp [precedence, valueOf, hv]
  · next hn => rw [lookupWith_eq _ _ _ _ _ _ hn]

/-- **C07, maps.** With precomputed maps that describe the groups the answer is also the one of the precedence. -/
theorem C07_precedence_maps {ν : Type} (first second : Str) (kerning : Dict (Str × Str) ν) (groups : Dict Str (List Str))
    (fallback : ν) (m1 m2 : Dict Str Str)
    (h1 : ∀ x, ¬ Begins x c!"public.kern1." → GroupChoice c!"public.kern1." groups x (m1.get? x))
    (h2 : ∀ x, ¬ Begins x c!"public.kern2." → GroupChoice c!"public.kern2." groups x (m2.get? x)) :
    ∃ g1 g2, GroupChoice c!"public.kern1." groups first g1 ∧ GroupChoice c!"public.kern2." groups second g2 ∧
      lookupKerningValue (first, second) kerning groups fallback (some m1) (some m2)
        = .ok (precedence kerning first second g1 g2 fallback) := by
  have key : ∀ (pfx : Str) (m : Dict Str Str) (name : Str), (∀ x, ¬ Begins x pfx → GroupChoice pfx groups x (m.get? x)) →
      GroupChoice pfx groups name (chosen pfx m name) := by
    intro pfx m name h
    simp only [chosen]
    split
    · next hs => exact .inl ⟨(startsWith_iff _ _).1 hs, rfl⟩
    · next hs => exact h name (fun hb => hs ((startsWith_iff _ _).2 hb))
  refine ⟨chosen kern1 m1 first, chosen kern2 m2 second, key _ _ _ h1, key _ _ _ h2, ?_⟩
  simp only [lookupKerningValue]
  split
  · next v hv => simp [precedence, valueOf, hv]
  · next hn => rw [lookupWith_eq _ _ _ _ _ _ hn]

/-- **C07, maps.** Passing only one of the two maps is an assertion error unless the pair itself is in the kerning. -/
theorem C07_one_map {ν : Type} (pair : Str × Str) (kerning : Dict (Str × Str) ν) (groups : Dict Str (List Str))
    (fallback : ν) (m : Dict Str Str) (hn : pair ∉ kerning.keys) :
    lookupKerningValue pair kerning groups fallback (some m) none = .error .assertionError ∧
    lookupKerningValue pair kerning groups fallback none (some m) = .error .assertionError := by
  simp [lookupKerningValue, Dict.get?_eq_none_iff.2 hn]

example : lookupKerningValue (c!"O", c!"F")
    [((c!"public.kern1.O", c!"public.kern2.E"), (-100 : Int)), ((c!"public.kern1.O", c!"F"), -200), ((c!"D", c!"F"), -300)]
    [(c!"public.kern1.O", [c!"O", c!"D", c!"Q"]), (c!"public.kern2.E", [c!"E", c!"F"])] 0 none none = .ok (-200) := by decide

/-! ## C09 -/

/-- **C09.** `groupsValidator` accepts exactly dictionaries with well-formed groups. -/
theorem C09_groups_iff (v : PyVal) : groupsValidator v = true ↔ ∃ d, v = .dict d ∧ ValidGroups d := by
  cases v with
  | dict d =>
    simp only [groupsValidator, validateGroups_spec, SideOk_nil_iff]
    constructor
    · rintro ⟨h1, ⟨h2, h3⟩, h4, h5⟩
      exact ⟨d, rfl, h1, fun m hm => hm.elim (h2 m) (h4 m), h3, h5⟩
    · rintro ⟨d', hd, h1, h2, h3, h4⟩
      injection hd with hd; subst hd
      exact ⟨h1, ⟨fun m hm => h2 m (.inl hm), h3⟩, fun m hm => h2 m (.inr hm), h4⟩
  | _ => simp [groupsValidator]

example : groupsValidator (.dict [(.str c!"public.kern1.A", .list [.str c!"A"]), (.str c!"public.kern2.A", .tuple [.str c!"A", .str c!"B"]),
    (.str c!"x", .list [.int 3, .int 3])]) = true := by decide
example : groupsValidator (.dict [(.str c!"public.kern1.A", .list [.str c!"A"]), (.str c!"public.kern1.B", .tuple [.str c!"A"])]) = false := by decide

/-! ## C08 -/

theorem sideMembers_groupsVal (pfx : Str) (groups : Dict Str (List Str)) :
    sideMembers pfx (groups.map fun g => (PyVal.str g.1, PyVal.list (g.2.map .str))) =
      groups.flatMap fun g => if pfx.isPrefixOf g.1 then g.2.map .str else [] := by
  simp [sideMembers, List.flatMap_map]

/-- In valid groups a name has at most one group per side. -/
theorem hasGroup_unique {pfx : Str} {groups : Dict Str (List Str)} {name g g' : Str}
    (hnd : (sideMembers pfx (groups.map fun g => (PyVal.str g.1, PyVal.list (g.2.map .str)))).Nodup)
    (h : HasGroup pfx groups name g) (h' : HasGroup pfx groups name g') : g = g' := by
  rcases h with ⟨hb, rfl⟩ | ⟨hb, hg, ms, hms, hin⟩
  · rcases h' with ⟨_, rfl⟩ | ⟨hb', _⟩
    · rfl
    · exact absurd hb hb'
  · rcases h' with ⟨hb', _⟩ | ⟨_, hg', ms', hms', hin'⟩
    · exact absurd hb' hb
    · rw [sideMembers_groupsVal, List.nodup_flatMap] at hnd
      by_contra hne
      have hpw := hnd.2
      have hp : ∀ a : Str, Begins a pfx → pfx.isPrefixOf a = true := fun a ha => (startsWith_iff _ _).2 ha
      have hsymm : Std.Symm (Function.onFun List.Disjoint fun g : Str × List Str =>
          if pfx.isPrefixOf g.1 then g.2.map PyVal.str else []) := ⟨fun _ _ h _ ha hb => h hb ha⟩
      have := List.Pairwise.forall hpw hms hms' (fun e => hne (congrArg Prod.fst e))
      simp only [Function.onFun, hp _ hg, hp _ hg', if_true] at this
      exact this (List.mem_map.2 ⟨name, hin, rfl⟩) (List.mem_map.2 ⟨name, hin', rfl⟩)

theorem groupChoice_unique {pfx : Str} {groups groups' : Dict Str (List Str)} {name : Str} {a b : Option Str}
    (hp : groups.Perm groups')
    (hnd : (sideMembers pfx (groups.map fun g => (PyVal.str g.1, PyVal.list (g.2.map .str)))).Nodup)
    (h : GroupChoice pfx groups name a) (h' : GroupChoice pfx groups' name b) : a = b := by
  have tr : ∀ g, HasGroup pfx groups name g ↔ HasGroup pfx groups' name g := by
    intro g; simp only [HasGroup, hp.mem_iff]
  cases a with
  | none => cases b with
    | none => rfl
    | some g => exact absurd ((tr g).2 h') (h g)
  | some g => cases b with
    | none => exact absurd ((tr g).1 h) (h' g)
    | some g' => exact congrArg some (hasGroup_unique hnd h ((tr g').2 h'))

/-- **C08.** For groups accepted by `groupsValidator`, the looked-up value does not depend on the order of the groups, and
precomputed maps describing the same groups (in any order) give the same value. -/
theorem C08_order_independent {ν : Type} (first second : Str) (kerning : Dict (Str × Str) ν)
    (groups groups' : Dict Str (List Str)) (fallback : ν)
    (hvalid : groupsValidator (groupsVal groups) = true) (hp : groups.Perm groups') :
    lookupKerningValue (first, second) kerning groups' fallback none none =
      lookupKerningValue (first, second) kerning groups fallback none none ∧
    ∀ m1 m2 : Dict Str Str,
      (∀ x, ¬ Begins x c!"public.kern1." → GroupChoice c!"public.kern1." groups' x (m1.get? x)) →
      (∀ x, ¬ Begins x c!"public.kern2." → GroupChoice c!"public.kern2." groups' x (m2.get? x)) →
      lookupKerningValue (first, second) kerning groups' fallback (some m1) (some m2) =
        lookupKerningValue (first, second) kerning groups fallback none none := by
  obtain ⟨d, hd, hv⟩ := (C09_groups_iff _).1 hvalid
  injection hd with hd
  subst hd
  obtain ⟨g1, g2, a, b, c⟩ := C07_precedence first second kerning groups fallback
  refine ⟨?_, fun m1 m2 hm1 hm2 => ?_⟩
  · obtain ⟨g1', g2', a', b', c'⟩ := C07_precedence first second kerning groups' fallback
    rw [c, c', groupChoice_unique hp hv.side1 a a', groupChoice_unique hp hv.side2 b b']
  · obtain ⟨g1', g2', a', b', c'⟩ := C07_precedence_maps first second kerning groups' fallback m1 m2 hm1 hm2
    rw [c, c', groupChoice_unique hp hv.side1 a a', groupChoice_unique hp hv.side2 b b']

/-- Without valid groups the order does matter: the hypothesis of C08 is needed. -/
theorem C08_needs_validity :
    ∃ groups groups' : Dict Str (List Str), groups.Perm groups' ∧
      lookupKerningValue (c!"A", c!"V") [((c!"public.kern1.A", c!"V"), (1 : Int))] groups 0 none none ≠
      lookupKerningValue (c!"A", c!"V") [((c!"public.kern1.A", c!"V"), (1 : Int))] groups' 0 none none :=
  ⟨[(c!"public.kern1.A", [c!"A"]), (c!"public.kern1.B", [c!"A"])], [(c!"public.kern1.B", [c!"A"]), (c!"public.kern1.A", [c!"A"])],
    List.Perm.swap _ _ _, by decide⟩

example : groupsValidator (groupsVal [(c!"public.kern1.O", [c!"O", c!"D"]), (c!"public.kern2.E", [c!"E"]), (c!"x", [c!"O", c!"O"])]) = true ∧
    List.Perm [(c!"public.kern1.O", [c!"O", c!"D"]), (c!"public.kern2.E", [c!"E"])] [(c!"public.kern2.E", [c!"E"]), (c!"public.kern1.O", [c!"O", c!"D"])] :=
  ⟨by decide, List.Perm.swap _ _ _⟩

end Verif.Props
