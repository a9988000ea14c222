import Verif.Proofs.Converters
/-! Properties C10-C14: kerning conversion.

`ord1` and `ord2` are the iteration orders of the two Python sets of referenced groups: any functions that permute
their argument. -/
namespace Verif.Props
open Verif Verif.Kerning Verif.Converters Verif.Spec.Kerning Verif.Spec.Converters

section
variable {ν : Type} {ord1 ord2 : List Str → List Str} {kerning : Dict Str (Dict Str ν)} {groups : Dict Str (List Str)}
  {r : Converted ν}

/-- What we know about a successful conversion. -/
theorem spec_of_ok (h1 : ∀ l, (ord1 l).Perm l) (h2 : ∀ l, (ord2 l).Perm l)
    (h : convert ord1 ord2 kerning groups = .ok r) :
      r.side1 = (ord1 (firstReferenced kerning groups)).map (fun g => (g, newName kern1 c!"@MMK_L_" groups g)) ∧
      r.side2 = (ord2 (secondReferenced kerning groups)).map (fun g => (g, newName kern2 c!"@MMK_R_" groups g)) ∧
      r.kerning = renameKerning r.side1 r.side2 kerning ∧
      (∀ e ∈ r.side1 ++ r.side2, e.1 ∈ groups.keys ∧ e.2 ∉ groups.keys) ∧
      ∀ k, r.groups.get? k =
        (((r.side1 ++ r.side2).reverse.find? (fun e : Str × Str => decide (e.2 = k))).bind (fun e => groups.get? e.1)).or (groups.get? k) := by
  obtain ⟨r', hr, hs⟩ := convert_spec ord1 ord2 h1 h2 kerning groups
  rw [hr] at h
  injection h with h
  subst h
  exact hs

/-- The conversion never raises. -/
theorem C13_total (h1 : ∀ l, (ord1 l).Perm l) (h2 : ∀ l, (ord2 l).Perm l) :
    ∃ r, convert ord1 ord2 kerning groups = .ok r := by
  obtain ⟨r, hr, -⟩ := convert_spec ord1 ord2 h1 h2 kerning groups
  exact ⟨r, hr⟩

theorem side1_get? (h1 : ∀ l, (ord1 l).Perm l) (h2 : ∀ l, (ord2 l).Perm l)
    (h : convert ord1 ord2 kerning groups = .ok r) (x : Str) :
    r.side1.get? x = if x ∈ firstReferenced kerning groups then some (newName kern1 c!"@MMK_L_" groups x) else none := by
  obtain ⟨a, -⟩ := spec_of_ok h1 h2 h
  rw [a, get?_map_self]
  simp only [(h1 _).mem_iff]

theorem side2_get? (h1 : ∀ l, (ord1 l).Perm l) (h2 : ∀ l, (ord2 l).Perm l)
    (h : convert ord1 ord2 kerning groups = .ok r) (x : Str) :
    r.side2.get? x = if x ∈ secondReferenced kerning groups then some (newName kern2 c!"@MMK_R_" groups x) else none := by
  obtain ⟨-, a, -⟩ := spec_of_ok h1 h2 h
  rw [a, get?_map_self]
  simp only [(h2 _).mem_iff]

/-! ## C13 -/

/-- **C13.** On each side exactly the kerning groups are renamed; new names have the side's prefix and are not names of
existing groups. -/
theorem C13_renamed (h1 : ∀ l, (ord1 l).Perm l) (h2 : ∀ l, (ord2 l).Perm l)
    (h : convert ord1 ord2 kerning groups = .ok r) :
    (∀ x, x ∈ r.side1.keys ↔
      x ∈ groups.keys ∧ (Begins x c!"@MMK_L_" ∨ (IsFirst kerning x ∧ ¬ Begins x c!"public.kern1."))) ∧
    (∀ x, x ∈ r.side2.keys ↔
      x ∈ groups.keys ∧ (Begins x c!"@MMK_R_" ∨ (IsSecond kerning x ∧ ¬ Begins x c!"public.kern2."))) ∧
    (∀ x n, r.side1.get? x = some n → Begins n c!"public.kern1." ∧ n ∉ groups.keys) ∧
    (∀ x n, r.side2.get? x = some n → Begins n c!"public.kern2." ∧ n ∉ groups.keys) := by
  refine ⟨fun x => ?_, fun x => ?_, fun x n hx => ?_, fun x n hx => ?_⟩
  · rw [← Dict.has_iff, Dict.has, side1_get? h1 h2 h]
    have : _ ↔ x ∈ groups.keys ∧ (Begins x c!"@MMK_L_" ∨ (IsFirst kerning x ∧ ¬ Begins x c!"public.kern1.")) := (firstReferenced_spec kerning groups).2 x
    by_cases hx : x ∈ firstReferenced kerning groups
    · simpa [hx] using this
    · simpa [hx] using this
  · rw [← Dict.has_iff, Dict.has, side2_get? h1 h2 h]
    have : _ ↔ x ∈ groups.keys ∧ (Begins x c!"@MMK_R_" ∨ (IsSecond kerning x ∧ ¬ Begins x c!"public.kern2.")) := (secondReferenced_spec kerning groups).2 x
    by_cases hx : x ∈ secondReferenced kerning groups
    · simpa [hx] using this
    · simpa [hx] using this
  · rw [side1_get? h1 h2 h] at hx
    split at hx
    · injection hx with hx; subst hx; exact ⟨newName_begins _ _ _ _, newName_fresh _ _ _ _⟩
    · cases hx
  · rw [side2_get? h1 h2 h] at hx
    split at hx
    · injection hx with hx; subst hx; exact ⟨newName_begins _ _ _ _, newName_fresh _ _ _ _⟩
    · cases hx

/-- Side maps contain exactly the pairs reported by `get?`. -/
theorem side1_mem (h1 : ∀ l, (ord1 l).Perm l) (h2 : ∀ l, (ord2 l).Perm l)
    (h : convert ord1 ord2 kerning groups = .ok r) (e : Str × Str) (he : e ∈ r.side1) : r.side1.get? e.1 = some e.2 := by
  obtain ⟨a, -⟩ := spec_of_ok h1 h2 h
  rw [a, List.mem_map] at he
  obtain ⟨g, hg, rfl⟩ := he
  rw [side1_get? h1 h2 h, if_pos ((h1 _).mem_iff.1 hg)]

theorem side2_mem (h1 : ∀ l, (ord1 l).Perm l) (h2 : ∀ l, (ord2 l).Perm l)
    (h : convert ord1 ord2 kerning groups = .ok r) (e : Str × Str) (he : e ∈ r.side2) : r.side2.get? e.1 = some e.2 := by
  obtain ⟨-, a, -⟩ := spec_of_ok h1 h2 h
  rw [a, List.mem_map] at he
  obtain ⟨g, hg, rfl⟩ := he
  rw [side2_get? h1 h2 h, if_pos ((h2 _).mem_iff.1 hg)]

/-- Names of the two sides are different. -/
theorem sides_disjoint (h1 : ∀ l, (ord1 l).Perm l) (h2 : ∀ l, (ord2 l).Perm l)
    (h : convert ord1 ord2 kerning groups = .ok r) (x y n : Str) (hx : r.side1.get? x = some n) (hy : r.side2.get? y = some n) : False := by
  obtain ⟨-, -, a, b⟩ := C13_renamed h1 h2 h
  exact kern1_kern2_disjoint n ⟨(startsWith_iff _ _).2 (a x n hx).1, (startsWith_iff _ _).2 (b y n hy).1⟩

/-! ## C10 -/

/-- **C10 (partial).** Original groups are kept unchanged; every group after conversion is an original one or carries a new
name from the rename maps; under a new name the members are those of a group renamed to that name, and, when
no two groups are renamed to the same name, exactly those of the renamed group. Missing from the full claim:
the last clause without the injectivity hypothesis, which is false (`C10_copy_refuted`). -/
theorem C10_groups_partial (h1 : ∀ l, (ord1 l).Perm l) (h2 : ∀ l, (ord2 l).Perm l)
    (h : convert ord1 ord2 kerning groups = .ok r) :
    (∀ g ms, groups.get? g = some ms → r.groups.get? g = some ms) ∧
    (∀ g ms, r.groups.get? g = some ms → groups.get? g = some ms ∨
      ∃ old, (r.side1.get? old = some g ∨ r.side2.get? old = some g) ∧ groups.get? old = some ms) ∧
    (∀ old new, r.side1.get? old = some new ∨ r.side2.get? old = some new → ∃ ms, r.groups.get? new = some ms) ∧
    (InjectiveMap r.side1 → ∀ old new, r.side1.get? old = some new → r.groups.get? new = groups.get? old) ∧
    (InjectiveMap r.side2 → ∀ old new, r.side2.get? old = some new → r.groups.get? new = groups.get? old) := by
  obtain ⟨-, -, -, hmem, hg⟩ := spec_of_ok h1 h2 h
  have hfind : ∀ n e, (r.side1 ++ r.side2).reverse.find? (fun e : Str × Str => decide (e.2 = n)) = some e →
      e.2 = n ∧ e ∈ r.side1 ++ r.side2 := by
    intro n e he
    exact ⟨by simpa using List.find?_some he, List.mem_reverse.1 (List.mem_of_find?_eq_some he)⟩
  have hside : ∀ e, e ∈ r.side1 ++ r.side2 → r.side1.get? e.1 = some e.2 ∨ r.side2.get? e.1 = some e.2 := by
    intro e he
    rw [List.mem_append] at he
    exact he.imp (side1_mem h1 h2 h e) (side2_mem h1 h2 h e)
  have hpresent : ∀ old new, r.side1.get? old = some new ∨ r.side2.get? old = some new →
      ∃ e, (r.side1 ++ r.side2).reverse.find? (fun e : Str × Str => decide (e.2 = new)) = some e := by
    intro old new hon
    rcases Option.eq_none_or_eq_some ((r.side1 ++ r.side2).reverse.find? (fun e : Str × Str => decide (e.2 = new))) with hf | ⟨e, hf⟩
    · have hm : (old, new) ∈ r.side1 ++ r.side2 := by
        rw [List.mem_append]; exact hon.imp Dict.mem_of_get? Dict.mem_of_get?
      have := List.find?_eq_none.1 hf (old, new) (List.mem_reverse.2 hm)
      simp at this
    · exact ⟨e, hf⟩
  refine ⟨?_, ?_, ?_, ?_, ?_⟩
  · intro g ms hms
    rw [hg]
    rcases Option.eq_none_or_eq_some ((r.side1 ++ r.side2).reverse.find? (fun e : Str × Str => decide (e.2 = g))) with hf | ⟨e, hf⟩
    · rw [hf]; simpa using hms
    · obtain ⟨e1, e2⟩ := hfind g e hf
      exact absurd (Dict.mem_keys_of_mem (Dict.mem_of_get? hms)) (e1 ▸ (hmem e e2).2)
  · intro g ms hms
    rw [hg] at hms
    rcases Option.eq_none_or_eq_some ((r.side1 ++ r.side2).reverse.find? (fun e : Str × Str => decide (e.2 = g))) with hf | ⟨e, hf⟩
    · rw [hf] at hms; exact .inl (by simpa using hms)
    · obtain ⟨e1, e2⟩ := hfind g e hf
      obtain ⟨ms', hms'⟩ := Dict.get?_isSome_of_mem (hmem e e2).1
      rw [hf] at hms
      simp only [Option.bind_some, hms', Option.some_or, Option.some.injEq] at hms
      subst hms
      exact .inr ⟨e.1, e1 ▸ hside e e2, hms'⟩
  · intro old new hon
    obtain ⟨e, he⟩ := hpresent old new hon
    obtain ⟨e1, e2⟩ := hfind new e he
    obtain ⟨ms', hms'⟩ := Dict.get?_isSome_of_mem (hmem e e2).1
    exact ⟨ms', by rw [hg, he]; simp [hms']⟩
  · intro hinj old new hon
    obtain ⟨e, he⟩ := hpresent old new (.inl hon)
    obtain ⟨e1, e2⟩ := hfind new e he
    obtain ⟨ms', hms'⟩ := Dict.get?_isSome_of_mem (hmem e e2).1
    have : e.1 = old := by
      rcases hside e e2 with hs | hs
      · exact hinj e.1 old new (e1 ▸ hs) hon
      · exact (sides_disjoint h1 h2 h old e.1 new hon (e1 ▸ hs)).elim
    rw [hg, he, ← this, hms']
    simp [hms']
  · intro hinj old new hon
    obtain ⟨e, he⟩ := hpresent old new (.inr hon)
    obtain ⟨e1, e2⟩ := hfind new e he
    obtain ⟨ms', hms'⟩ := Dict.get?_isSome_of_mem (hmem e e2).1
    have : e.1 = old := by
      rcases hside e e2 with hs | hs
      · exact (sides_disjoint h1 h2 h e.1 old new (e1 ▸ hs) hon).elim
      · exact hinj e.1 old new (e1 ▸ hs) hon
    rw [hg, he, ← this, hms']
    simp [hms']

/-- A natural condition under which renaming is injective: no group has the new prefix yet, and no two group names become
equal when the old prefix is removed. -/
theorem C10_injective (h1 : ∀ l, (ord1 l).Perm l) (h2 : ∀ l, (ord2 l).Perm l)
    (h : convert ord1 ord2 kerning groups = .ok r)
    (hno : ∀ g ∈ groups.keys, ¬ Begins g c!"public.kern1." ∧ ¬ Begins g c!"public.kern2.")
    (hdl : InjOn (removeAll c!"@MMK_L_") groups.keys) (hdr : InjOn (removeAll c!"@MMK_R_") groups.keys) :
    InjectiveMap r.side1 ∧ InjectiveMap r.side2 := by
  have key : ∀ pfx known g, (∀ g ∈ groups.keys, ¬ Begins g pfx) → newName pfx known groups g = pfx ++ removeAll known g := by
    intro pfx known g hno
    obtain ⟨k, h1, h2, h3⟩ := makeUnique_spec (pfx ++ removeAll known g) groups.keys
    rw [newName, h1]
    cases k with
    | zero => rfl
    | succ k => exact absurd ⟨_, rfl⟩ (hno _ (h3 0 (by omega)))
  constructor
  · intro a b n ha hb
    rw [side1_get? h1 h2 h] at ha hb
    split at ha
    · next ma =>
      split at hb
      · next mb =>
        rw [key kern1 _ _ (fun g hg => (hno g hg).1)] at ha hb
        injection ha with ha; injection hb with hb
        exact hdl a (((firstReferenced_spec kerning groups).2 a).1 ma).1 b (((firstReferenced_spec kerning groups).2 b).1 mb).1
          (List.append_cancel_left (ha.trans hb.symm))
      · cases hb
    · cases ha
  · intro a b n ha hb
    rw [side2_get? h1 h2 h] at ha hb
    split at ha
    · next ma =>
      split at hb
      · next mb =>
        rw [key kern2 _ _ (fun g hg => (hno g hg).2)] at ha hb
        injection ha with ha; injection hb with hb
        exact hdr a (((secondReferenced_spec kerning groups).2 a).1 ma).1 b (((secondReferenced_spec kerning groups).2 b).1 mb).1
          (List.append_cancel_left (ha.trans hb.symm))
      · cases hb
    · cases ha

end

/-- The witness used below: groups `@MMK_L_A = [a]` and `A = [b]`, both used as first members. -/
def clashGroups : Dict Str (List Str) := [(c!"@MMK_L_A", [c!"a"]), (c!"A", [c!"b"])]
def clashKerning : Dict Str (Dict Str Int) := [(c!"@MMK_L_A", [(c!"V", -10)]), (c!"A", [(c!"W", -20)])]

/-- **C10 refuted.** `@MMK_L_A` is renamed to `public.kern1.A`, but that group ends up with the members of `A`. -/
theorem C10_copy_refuted :
    ∃ r, convert id id clashKerning clashGroups = .ok r ∧
      ∃ old new, r.side1.get? old = some new ∧ r.groups.get? new ≠ clashGroups.get? old :=
  ⟨_, rfl, c!"@MMK_L_A", c!"public.kern1.A", by decide +kernel⟩

example : ∃ r, convert id id
      [(c!"@MMK_L_A", [(c!"@MMK_R_O", (-10 : Int)), (c!"x", 4)]), (c!"T", [(c!"y", 1)])]
      [(c!"@MMK_L_A", [c!"A", c!"Aacute"]), (c!"@MMK_R_O", [c!"O"]), (c!"T", [c!"T"]), (c!"misc", [])] = .ok r ∧
    (∀ g ∈ (Dict.keys [(c!"@MMK_L_A", [c!"A", c!"Aacute"]), (c!"@MMK_R_O", [c!"O"]), (c!"T", [c!"T"]), (c!"misc", [])]),
      startsWith g c!"public.kern1." = false ∧ startsWith g c!"public.kern2." = false) ∧
    r.side1.get? c!"T" = some c!"public.kern1.T" ∧ r.groups.get? c!"public.kern2.O" = some [c!"O"] :=
  ⟨_, rfl, by decide +kernel, by decide +kernel⟩

/-! ## C11 -/

section
variable {ν : Type} {ord1 ord2 : List Str → List Str} {kerning : Dict Str (Dict Str ν)} {groups : Dict Str (List Str)}
  {r : Converted ν}

/-- **C11 (partial).** If renaming is injective on the first members and on the second members of each first member,
every pair is present under its renamed members with its value, and no other pair appears. Missing from the full
claim: the injectivity is not guaranteed by the code (`C11_lossless_refuted`). -/
theorem C11_lossless_partial (h1 : ∀ l, (ord1 l).Perm l) (h2 : ∀ l, (ord2 l).Perm l)
    (h : convert ord1 ord2 kerning groups = .ok r) (hk : WFKerning kerning)
    (hi1 : InjOn (renamed r.side1) kerning.keys)
    (hi2 : ∀ f row, (f, row) ∈ kerning → InjOn (renamed r.side2) row.keys) :
    (∀ f s v, pairValue kerning f s = some v →
      pairValue r.kerning (renamed r.side1 f) (renamed r.side2 s) = some v) ∧
    (∀ a b v, pairValue r.kerning a b = some v →
      ∃ f s, a = renamed r.side1 f ∧ b = renamed r.side2 s ∧ pairValue kerning f s = some v) := by
  obtain ⟨-, -, hkern, -⟩ := spec_of_ok h1 h2 h
  rw [hkern]
  constructor
  · intro f s v hv
    rw [pairValue_iff hk] at hv
    obtain ⟨row, hrow, hs⟩ := hv
    rw [pairValue, renameKerning_get? r.side1 r.side2 hk.1 hi1 hrow]
    exact renameRow_get? r.side2 (hk.2 _ hrow) (hi2 f row hrow) hs
  · intro a b v hv
    obtain ⟨f, row, s, hf, hs, rfl, rfl⟩ := renameKerning_source r.side1 r.side2 hv
    exact ⟨f, s, rfl, rfl, (pairValue_iff hk).2 ⟨row, hf, hs⟩⟩

/-- Renaming is injective on all first members when the rename map is, and every first member that already has the new
prefix is the name of a group (likewise for second members). -/
theorem C11_injOn (h1 : ∀ l, (ord1 l).Perm l) (h2 : ∀ l, (ord2 l).Perm l)
    (h : convert ord1 ord2 kerning groups = .ok r) :
    (InjectiveMap r.side1 → ∀ names : List Str, (∀ x ∈ names, Begins x c!"public.kern1." → x ∈ groups.keys) →
      InjOn (renamed r.side1) names) ∧
    (InjectiveMap r.side2 → ∀ names : List Str, (∀ x ∈ names, Begins x c!"public.kern2." → x ∈ groups.keys) →
      InjOn (renamed r.side2) names) := by
  obtain ⟨-, -, a, b⟩ := C13_renamed h1 h2 h
  have key : ∀ (m : Dict Str Str) (pfx : Str), InjectiveMap m → (∀ x n, m.get? x = some n → Begins n pfx ∧ n ∉ groups.keys) →
      ∀ names : List Str, (∀ x ∈ names, Begins x pfx → x ∈ groups.keys) → InjOn (renamed m) names := by
    intro m pfx hinj hm names hn x hx y hy hxy
    simp only [renamed] at hxy
    rcases ex : m.get? x with _ | n <;> rcases ey : m.get? y with _ | n'
    · simpa [ex, ey] using hxy
    · simp only [ex, ey, Option.getD_none, Option.getD_some] at hxy
      have := hm y n' ey
      exact absurd (hn x hx (hxy ▸ this.1)) (hxy ▸ this.2)
    · simp only [ex, ey, Option.getD_none, Option.getD_some] at hxy
      have := hm x n ex
      exact absurd (hn y hy (hxy ▸ this.1)) (hxy ▸ this.2)
    · simp only [ex, ey, Option.getD_some] at hxy
      exact hinj x y n ex (hxy ▸ ey)
  exact ⟨fun hi => key _ _ hi a, fun hi => key _ _ hi b⟩

end

/-- **C11 refuted.** With groups `@MMK_L_A` and `A` the pair `(@MMK_L_A, V)` disappears. -/
theorem C11_lossless_refuted :
    ∃ r, convert id id clashKerning clashGroups = .ok r ∧ WFKerning clashKerning ∧
      ∃ f s v, pairValue clashKerning f s = some v ∧
        pairValue r.kerning (renamed r.side1 f) (renamed r.side2 s) ≠ some v :=
  ⟨_, rfl, ⟨by simp [Dict.WF, Dict.keys, clashKerning], by simp [Dict.WF, Dict.keys, clashKerning]⟩,
    c!"@MMK_L_A", c!"V", -10, by decide +kernel⟩

example : ∃ r, convert id id [(c!"@MMK_L_A", [(c!"@MMK_R_O", (-10 : Int)), (c!"x", 4)])]
      [(c!"@MMK_L_A", [c!"A"]), (c!"@MMK_R_O", [c!"O"])] = .ok r ∧
    pairValue r.kerning c!"public.kern1.A" c!"public.kern2.O" = some (-10) ∧
    pairValue r.kerning c!"public.kern1.A" c!"x" = some 4 :=
  ⟨_, rfl, by decide +kernel⟩

/-! ## C12 -/

/-- **C12 (partial).** The rename maps (as dictionaries) and the converted kerning do not depend on the iteration orders; the
converted groups do not either when no two groups are renamed to the same name. Missing: the groups without
that hypothesis (`C12_order_refuted`). -/
theorem C12_order_partial {ν : Type} {ord1 ord2 ord1' ord2' : List Str → List Str}
    (h1 : ∀ l, (ord1 l).Perm l) (h2 : ∀ l, (ord2 l).Perm l) (h1' : ∀ l, (ord1' l).Perm l) (h2' : ∀ l, (ord2' l).Perm l)
    {kerning : Dict Str (Dict Str ν)} {groups : Dict Str (List Str)} {r r' : Converted ν}
    (h : convert ord1 ord2 kerning groups = .ok r) (h' : convert ord1' ord2' kerning groups = .ok r') :
    r.side1.Equiv r'.side1 ∧ r.side2.Equiv r'.side2 ∧ r.kerning = r'.kerning ∧
    (InjectiveMap r.side1 → InjectiveMap r.side2 → r.groups.Equiv r'.groups) := by
  have e1 : ∀ x, r.side1.get? x = r'.side1.get? x := fun x => by rw [side1_get? h1 h2 h, side1_get? h1' h2' h']
  have e2 : ∀ x, r.side2.get? x = r'.side2.get? x := fun x => by rw [side2_get? h1 h2 h, side2_get? h1' h2' h']
  refine ⟨e1, e2, ?_, ?_⟩
  · obtain ⟨-, -, a, -⟩ := spec_of_ok h1 h2 h
    obtain ⟨-, -, a', -⟩ := spec_of_ok h1' h2' h'
    rw [a, a', renameKerning, renameKerning]
    simp only [Dict.getD, e1, e2]
  · intro i1 i2
    have i1' : InjectiveMap r'.side1 := fun a b n ha hb => i1 a b n (by rw [e1]; exact ha) (by rw [e1]; exact hb)
    have i2' : InjectiveMap r'.side2 := fun a b n ha hb => i2 a b n (by rw [e2]; exact ha) (by rw [e2]; exact hb)
    have main : ∀ {o1 o2 : List Str → List Str} {p q : Converted ν}, (∀ l, (o1 l).Perm l) → (∀ l, (o2 l).Perm l) →
        convert o1 o2 kerning groups = .ok p →
        (∀ old new, p.side1.get? old = some new → q.groups.get? new = groups.get? old) →
        (∀ old new, p.side2.get? old = some new → q.groups.get? new = groups.get? old) →
        (∀ g ms, groups.get? g = some ms → q.groups.get? g = some ms) →
        ∀ g ms, p.groups.get? g = some ms → q.groups.get? g = some ms := by
      intro o1 o2 p q ho1 ho2 hp q1 q2 q3 g ms hg
      obtain ⟨-, b, -⟩ := C10_groups_partial ho1 ho2 hp
      rcases b g ms hg with hb | ⟨old, hb | hb, hold⟩
      · exact q3 g ms hb
      · rw [q1 old g hb, hold]
      · rw [q2 old g hb, hold]
    obtain ⟨a, -, -, d, e⟩ := C10_groups_partial h1 h2 h
    obtain ⟨a', -, -, d', e'⟩ := C10_groups_partial h1' h2' h'
    intro g
    rcases hg : r.groups.get? g with _ | ms
    · rcases hg' : r'.groups.get? g with _ | ms'
      · rfl
      · have := main (q := r) h1' h2' h' (fun o n ho => d i1 o n (by rw [e1]; exact ho)) (fun o n ho => e i2 o n (by rw [e2]; exact ho)) a g ms' hg'
        rw [hg] at this; cases this
    · exact (main (q := r') h1 h2 h (fun o n ho => d' i1' o n (by rw [← e1]; exact ho)) (fun o n ho => e' i2' o n (by rw [← e2]; exact ho)) a' g ms hg).symm

/-- **C12 refuted.** When two groups get the same new name, the members stored under it depend on set iteration order. -/
theorem C12_order_refuted :
    (∀ l : List Str, (id l).Perm l) ∧ (∀ l : List Str, (l.reverse).Perm l) ∧
    ∃ r r', convert id id clashKerning clashGroups = .ok r ∧ convert List.reverse id clashKerning clashGroups = .ok r' ∧
      r.groups.get? c!"public.kern1.A" ≠ r'.groups.get? c!"public.kern1.A" :=
  ⟨fun _ => List.Perm.refl _, fun l => List.reverse_perm l, _, _, rfl, rfl, by decide +kernel⟩

example : ∃ r r', convert id id [(c!"@MMK_L_A", [(c!"B", (1 : Int))]), (c!"B", [])] [(c!"@MMK_L_A", [c!"A"]), (c!"B", [c!"b"])] = .ok r ∧
    convert List.reverse List.reverse [(c!"@MMK_L_A", [(c!"B", (1 : Int))]), (c!"B", [])] [(c!"@MMK_L_A", [c!"A"]), (c!"B", [c!"b"])] = .ok r' ∧
    r.side1 ≠ r'.side1 :=
  ⟨_, _, rfl, rfl, by decide +kernel⟩

/-! ## C14 -/

section
variable {ν : Type} {ord1 ord2 : List Str → List Str} {kerning : Dict Str (Dict Str ν)} {groups : Dict Str (List Str)}
  {r : Converted ν}

theorem flipMaps_get? (s1 s2 : Dict Str Str) (n : Str) :
    (flipMaps s1 s2).get? n = ((s1 ++ s2).reverse.find? (fun e : Str × Str => decide (e.2 = n))).map Prod.fst := by
  rw [flipMaps, get?_foldl_set (Prod.snd : Str × Str → Str) Prod.fst]
  simp

theorem remapGroups_get? (remap : Dict Str Str) (g : Dict Str (List Str)) (k : Str) :
    (∃ e ∈ g, remap.get? e.1 = some k ∧ (remapGroups remap g).get? k = some e.2) ∨
    ((∀ e ∈ g, remap.get? e.1 ≠ some k) ∧
      ((∃ e ∈ g, e.1 = k ∧ remap.get? k = none ∧ (remapGroups remap g).get? k = some e.2) ∨
       ((∀ e ∈ g, e.1 = k → remap.get? k ≠ none) ∧ (remapGroups remap g).get? k = none))) := by
  have e1 : ∀ (l : Dict Str (List Str)) (d : Dict Str (List Str)),
      l.foldl (fun (r : Dict Str (List Str)) e => if remap.has e.1 then r else r.set e.1 e.2) d =
      (l.filter fun e => !remap.has e.1).foldl (fun (r : Dict Str (List Str)) e => r.set e.1 e.2) d := by
    intro l
    induction l with
    | nil => intro d; rfl
    | cons e l ih =>
      intro d
      simp only [List.foldl_cons, List.filter_cons]
      by_cases h : remap.has e.1 = true
      · simp [h, ih]
      · simp [h, ih]
  have e2 : ∀ (l : Dict Str (List Str)) (d : Dict Str (List Str)),
      l.foldl (fun (r : Dict Str (List Str)) e => match remap.get? e.1 with | none => r | some name => r.set name e.2) d =
      (l.filter fun e => remap.has e.1).foldl (fun (r : Dict Str (List Str)) e => r.set ((remap.get? e.1).getD []) e.2) d := by
    intro l
    induction l with
    | nil => intro d; rfl
    | cons e l ih =>
      intro d
      simp only [List.foldl_cons, List.filter_cons, Dict.has]
      rcases h : remap.get? e.1 with _ | n
      · simpa [h, Dict.has] using ih d
      · simpa [h, Dict.has] using ih _
  have e3 : remapGroups remap g = (g.filter fun e => remap.has e.1).foldl
      (fun (r : Dict Str (List Str)) e => r.set ((remap.get? e.1).getD []) e.2)
      ((g.filter fun e => !remap.has e.1).foldl (fun (r : Dict Str (List Str)) e => r.set e.1 e.2) []) := by
    rw [← e2, ← e1]; rfl
  rw [e3]
  rcases get?_foldl_set_cases (fun e : Str × List Str => (remap.get? e.1).getD []) Prod.snd (g.filter fun e => remap.has e.1)
    ((g.filter fun e => !remap.has e.1).foldl (fun (r : Dict Str (List Str)) e => r.set e.1 e.2) []) k with ⟨e, he, hf, hg⟩ | ⟨hno, hg⟩
  · left
    rw [List.mem_filter] at he
    refine ⟨e, he.1, ?_, hg⟩
    have := he.2
    rw [Dict.has, Option.isSome_iff_exists] at this
    obtain ⟨n, hn⟩ := this
    rw [hn] at hf ⊢
    simpa using hf
  · right
    refine ⟨fun e he hk => ?_, ?_⟩
    · refine hno e (List.mem_filter.2 ⟨he, by simp [Dict.has, hk]⟩) (by simp [hk])
    · rcases get?_foldl_set_cases (Prod.fst : Str × List Str → Str) Prod.snd (g.filter fun e => !remap.has e.1) [] k with ⟨e, he, hf, hg'⟩ | ⟨hno', hg'⟩
      · left
        rw [List.mem_filter] at he
        refine ⟨e, he.1, hf, ?_, by rw [hg]; exact hg'⟩
        have := he.2
        simp only [Dict.has, hf, Bool.not_eq_true', Option.isSome_eq_false_iff, Option.isNone_iff_eq_none] at this
        exact this
      · right
        refine ⟨fun e he hk hn => ?_, by rw [hg]; exact hg'⟩
        exact hno' e (List.mem_filter.2 ⟨he, by simp [Dict.has, hk, hn]⟩) hk

/-- Groups stay without duplicate keys. -/
theorem copyGroups_wf : ∀ (l : List (Str × Str)) (g g' : Dict Str (List Str)), g.WF → copyGroups l g = .ok g' → g'.WF
  | [], g, g', hg, h => by simp only [copyGroups] at h; injection h with h; exact h ▸ hg
  | (o, n) :: l, g, g', hg, h => by
    simp only [copyGroups] at h
    split at h
    · cases h
    · exact copyGroups_wf l _ _ (Dict.wf_set hg _ _) h

/-- **C14, groups.** Reading the groups of a UFO 1/2 and writing them back with the reader's rename maps restores them, even when
names clash. -/
theorem C14_groups (h1 : ∀ l, (ord1 l).Perm l) (h2 : ∀ l, (ord2 l).Perm l) (hg : groups.WF)
    (h : convert ord1 ord2 kerning groups = .ok r) :
    (remapGroups (flipMaps r.side1 r.side2) r.groups).Equiv groups := by
  obtain ⟨-, -, -, hmem, hget⟩ := spec_of_ok h1 h2 h
  have hwf : r.groups.WF := by
    simp only [convert] at h
    split at h
    · cases h
    · next g' hg' => injection h with h; subst h; exact copyGroups_wf _ _ _ hg hg'
  have hfind : ∀ n e, (r.side1 ++ r.side2).reverse.find? (fun e : Str × Str => decide (e.2 = n)) = some e →
      e.2 = n ∧ e ∈ r.side1 ++ r.side2 := by
    intro n e he
    exact ⟨by simpa using List.find?_some he, List.mem_reverse.1 (List.mem_of_find?_eq_some he)⟩
  intro k
  rcases remapGroups_get? (flipMaps r.side1 r.side2) r.groups k with ⟨e, he, hk, hr⟩ | ⟨hno, ⟨e, he, hek, hk, hr⟩ | ⟨hno', hr⟩⟩
  · rw [hr]
    rw [flipMaps_get?] at hk
    rcases Option.eq_none_or_eq_some ((r.side1 ++ r.side2).reverse.find? (fun x : Str × Str => decide (x.2 = e.1))) with hf | ⟨x, hf⟩
    · rw [hf] at hk; cases hk
    · rw [hf] at hk
      simp only [Option.map_some, Option.some.injEq] at hk
      have := hget e.1
      rw [hf, Dict.get?_of_mem hwf (k := e.1) (v := e.2) he] at this
      obtain ⟨ms', hms'⟩ := Dict.get?_isSome_of_mem (hmem x (hfind _ _ hf).2).1
      simp only [Option.bind_some, hms', Option.some_or, Option.some.injEq] at this
      rw [this, ← hms', hk]
  · rw [hr]
    have := hget k
    rw [← hek, Dict.get?_of_mem hwf (k := e.1) (v := e.2) he] at this
    rw [flipMaps_get?, Option.map_eq_none_iff] at hk
    rw [hek, hk] at this
    simpa using this
  · rw [hr]
    symm
    rcases hgk : groups.get? k with _ | ms
    · rfl
    · have h3 : r.groups.get? k = some ms := (C10_groups_partial h1 h2 h).1 k ms hgk
      refine absurd ?_ (hno' (k, ms) (Dict.mem_of_get? h3) rfl)
      rw [flipMaps_get?, Option.map_eq_none_iff]
      rcases Option.eq_none_or_eq_some ((r.side1 ++ r.side2).reverse.find? (fun x : Str × Str => decide (x.2 = k))) with hf | ⟨x, hf⟩
      · exact hf
      · obtain ⟨a, b⟩ := hfind _ _ hf
        exact absurd (Dict.mem_keys_of_mem (Dict.mem_of_get? hgk)) (a ▸ (hmem x b).2)

/-- **C14, kerning (partial).** Reading kerning and writing it back restores every pair, and nothing else, provided the
rename maps are injective and every kerning member that already has a UFO 3 prefix is the name of a group.
Missing: without injectivity it is false (`C14_kerning_refuted`). -/
theorem C14_kerning_partial (h1 : ∀ l, (ord1 l).Perm l) (h2 : ∀ l, (ord2 l).Perm l) (hk : WFKerning kerning)
    (h : convert ord1 ord2 kerning groups = .ok r)
    (hi1 : InjectiveMap r.side1) (hi2 : InjectiveMap r.side2)
    (hpfx : ∀ x, IsFirst kerning x ∨ IsSecond kerning x →
      Begins x c!"public.kern1." ∨ Begins x c!"public.kern2." → x ∈ groups.keys) (a b : Str) :
    pairValue (nest (remapKerning (flipMaps r.side1 r.side2) (flatten r.kerning))) a b = pairValue kerning a b := by
  obtain ⟨-, -, hkern, hmem, -⟩ := spec_of_ok h1 h2 h
  obtain ⟨-, -, hb1, hb2⟩ := C13_renamed h1 h2 h
  obtain ⟨j1, j2⟩ := C11_injOn h1 h2 h
  have hfind : ∀ n e, (r.side1 ++ r.side2).reverse.find? (fun e : Str × Str => decide (e.2 = n)) = some e →
      e.2 = n ∧ e ∈ r.side1 ++ r.side2 := by
    intro n e he
    exact ⟨by simpa using List.find?_some he, List.mem_reverse.1 (List.mem_of_find?_eq_some he)⟩
  -- flipping undoes renaming
  have flip_none : ∀ x, (Begins x c!"public.kern1." ∨ Begins x c!"public.kern2." → x ∈ groups.keys) →
      (flipMaps r.side1 r.side2).getD x x = x := by
    intro x hx
    rw [Dict.getD, flipMaps_get?]
    rcases Option.eq_none_or_eq_some ((r.side1 ++ r.side2).reverse.find? (fun e : Str × Str => decide (e.2 = x))) with hf | ⟨e, hf⟩
    · rw [hf]; rfl
    · obtain ⟨e1, e2⟩ := hfind _ _ hf
      have hbeg : Begins x c!"public.kern1." ∨ Begins x c!"public.kern2." := by
        rw [List.mem_append] at e2
        rcases e2 with e2 | e2
        · exact .inl (e1 ▸ (hb1 _ _ (side1_mem h1 h2 h e e2)).1)
        · exact .inr (e1 ▸ (hb2 _ _ (side2_mem h1 h2 h e e2)).1)
      exact absurd (hx hbeg) (e1 ▸ (hmem e e2).2)
  have flip_some : ∀ x n, (r.side1.get? x = some n ∨ r.side2.get? x = some n) → (flipMaps r.side1 r.side2).getD n n = x := by
    intro x n hx
    rw [Dict.getD, flipMaps_get?]
    rcases Option.eq_none_or_eq_some ((r.side1 ++ r.side2).reverse.find? (fun e : Str × Str => decide (e.2 = n))) with hf | ⟨e, hf⟩
    · have hm : (x, n) ∈ r.side1 ++ r.side2 := by
        rw [List.mem_append]; exact hx.imp Dict.mem_of_get? Dict.mem_of_get?
      have := List.find?_eq_none.1 hf (x, n) (List.mem_reverse.2 hm)
      simp at this
    · obtain ⟨e1, e2⟩ := hfind _ _ hf
      rw [List.mem_append] at e2
      rw [hf]
      simp only [Option.map_some, Option.getD_some]
      rcases e2 with e2 | e2
      · have hs := side1_mem h1 h2 h e e2
        rw [e1] at hs
        rcases hx with hx | hx
        · exact hi1 _ _ _ hs hx
        · exact (sides_disjoint h1 h2 h _ _ _ hs hx).elim
      · have hs := side2_mem h1 h2 h e e2
        rw [e1] at hs
        rcases hx with hx | hx
        · exact (sides_disjoint h1 h2 h _ _ _ hx hs).elim
        · exact hi2 _ _ _ hs hx
  have undo1 : ∀ x, IsFirst kerning x → (flipMaps r.side1 r.side2).getD (renamed r.side1 x) (renamed r.side1 x) = x := by
    intro x hx
    rcases e : r.side1.get? x with _ | n
    · simp only [renamed, e, Option.getD_none]; exact flip_none x (hpfx x (.inl hx))
    · simp only [renamed, e, Option.getD_some]; exact flip_some x n (.inl e)
  have undo2 : ∀ x, IsSecond kerning x → (flipMaps r.side1 r.side2).getD (renamed r.side2 x) (renamed r.side2 x) = x := by
    intro x hx
    rcases e : r.side2.get? x with _ | n
    · simp only [renamed, e, Option.getD_none]; exact flip_none x (hpfx x (.inr hx))
    · simp only [renamed, e, Option.getD_some]; exact flip_some x n (.inr e)
  have first_of_mem : ∀ {x}, x ∈ kerning.keys → IsFirst kerning x := by
    intro x hx
    obtain ⟨e, he, rfl⟩ := List.mem_map.1 hx
    exact ⟨e.2, he⟩
  have second_of_mem : ∀ {f row x}, (f, row) ∈ kerning → x ∈ Dict.keys row → IsSecond kerning x := by
    intro f row x hrow hx
    obtain ⟨e, he, rfl⟩ := List.mem_map.1 hx
    exact ⟨f, row, e.2, hrow, he⟩
  obtain ⟨fwd, bwd⟩ := C11_lossless_partial h1 h2 h hk
    (j1 hi1 _ (fun x hx hb => hpfx x (.inl (first_of_mem hx)) (.inl hb)))
    (fun f row hrow => j2 hi2 _ (fun x hx hb => hpfx x (.inr (second_of_mem hrow hx)) (.inr hb)))
  have hwf : WFKerning r.kerning := hkern ▸ renameKerning_wf _ _ _
  have hsec : ∀ f s v, pairValue kerning f s = some v → IsFirst kerning f ∧ IsSecond kerning s := by
    intro f s v hv
    obtain ⟨row, hrow, hs⟩ := (pairValue_iff hk).1 hv
    exact ⟨⟨row, hrow⟩, ⟨f, row, v, hrow, hs⟩⟩
  rw [nest_get?]
  -- the outer fold runs over a dictionary that itself is an assignment fold
  have hwfR : (remapKerning (flipMaps r.side1 r.side2) (flatten r.kerning)).WF :=
    wf_foldl_set (fun e : (Str × Str) × ν => ((flipMaps r.side1 r.side2).getD e.1.1 e.1.1, (flipMaps r.side1 r.side2).getD e.1.2 e.1.2))
      Prod.snd _ [] Dict.wf_nil
  have hself : ∀ (l : Dict (Str × Str) ν) (k : Str × Str), l.WF →
      Dict.get? (l.foldl (fun r e => Dict.set r e.1 e.2) []) k = l.get? k := by
    intro l k hl
    rcases get?_foldl_set_cases (Prod.fst : (Str × Str) × ν → Str × Str) Prod.snd l [] k with ⟨e, he, hf, hg⟩ | ⟨hno, hg⟩
    · rw [hg, ← hf]; exact (Dict.get?_of_mem hl (k := e.1) (v := e.2) he).symm
    · rw [hg]
      symm
      show l.get? k = none
      rw [Dict.get?_eq_none_iff]
      intro hkk
      obtain ⟨e, he, hek⟩ := List.mem_map.1 hkk
      exact hno e he hek
  rw [hself _ _ hwfR, remapKerning]
  rcases get?_foldl_set_cases
    (fun e : (Str × Str) × ν => ((flipMaps r.side1 r.side2).getD e.1.1 e.1.1, (flipMaps r.side1 r.side2).getD e.1.2 e.1.2))
    Prod.snd (flatten r.kerning) [] (a, b) with ⟨e, he, hf, hg⟩ | ⟨hno, hg⟩
  · rw [hg]
    obtain ⟨⟨x, y⟩, v⟩ := e
    have hv := Dict.get?_of_mem (flatten_wf _) he
    rw [flatten_get? hwf] at hv
    obtain ⟨f, s, rfl, rfl, hfs⟩ := bwd x y v hv
    obtain ⟨hf1, hs1⟩ := hsec f s v hfs
    simp only [undo1 f hf1, undo2 s hs1, Prod.mk.injEq] at hf
    rw [← hf.1, ← hf.2]
    exact hfs.symm
  · rw [hg]
    rcases hp : pairValue kerning a b with _ | v
    · rfl
    · have := fwd a b v hp
      rw [← flatten_get? hwf] at this
      obtain ⟨hf1, hs1⟩ := hsec a b v hp
      refine absurd ?_ (hno _ (Dict.mem_of_get? this))
      simp only [undo1 a hf1, undo2 b hs1]

end

/-- **C14 refuted (kerning).** With clashing names a pair is lost by reading and writing back. -/
theorem C14_kerning_refuted :
    ∃ r, convert id id clashKerning clashGroups = .ok r ∧
      pairValue (nest (remapKerning (flipMaps r.side1 r.side2) (flatten r.kerning))) c!"@MMK_L_A" c!"V"
        ≠ pairValue clashKerning c!"@MMK_L_A" c!"V" :=
  ⟨_, rfl, by decide +kernel⟩

example : ∃ r, convert List.reverse id
      [(c!"@MMK_L_A", [(c!"@MMK_R_O", (-10 : Int)), (c!"x", 4)]), (c!"T", [(c!"y", 1)])]
      [(c!"@MMK_L_A", [c!"A"]), (c!"@MMK_R_O", [c!"O"]), (c!"T", [c!"T"])] = .ok r ∧
    nest (remapKerning (flipMaps r.side1 r.side2) (flatten r.kerning)) =
      [(c!"@MMK_L_A", [(c!"@MMK_R_O", (-10 : Int)), (c!"x", 4)]), (c!"T", [(c!"y", 1)])] ∧
    remapGroups (flipMaps r.side1 r.side2) r.groups = [(c!"@MMK_L_A", [c!"A"]), (c!"@MMK_R_O", [c!"O"]), (c!"T", [c!"T"])] :=
  ⟨_, rfl, by decide +kernel⟩

end Verif.Props
