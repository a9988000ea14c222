import Verif.Model.Kerning
import Verif.Spec.Kerning
import Verif.Proofs.Dict
import Mathlib.Data.List.Induction
/-! Lemmas about kerning lookup and group validation. -/
namespace Verif.Kerning
open Verif Verif.Spec.Kerning

theorem startsWith_iff (s p : Str) : startsWith s p = true ↔ Begins s p := by
  simp only [startsWith, Begins, List.isPrefixOf_iff_prefix]
  constructor
  · rintro ⟨r, h⟩; exact ⟨r, h.symm⟩
  · rintro ⟨r, h⟩; exact ⟨r, h.symm⟩

theorem kern1_kern2_disjoint (s : Str) : ¬ (startsWith s kern1 = true ∧ startsWith s kern2 = true) := by
  rintro ⟨h1, h2⟩
  rw [startsWith_iff] at h1 h2
  obtain ⟨r1, h1⟩ := h1
  obtain ⟨r2, h2⟩ := h2
  have := congrArg (fun l => l.take 13) (h1.symm.trans h2)
  simp [kern1, kern2] at this

theorem get?_addMembers (m : Dict Str Str) (g : Str) (ms : List Str) (x : Str) :
    (addMembers m g ms).get? x = if x ∈ ms then some g else m.get? x := by
  induction ms generalizing m with
  | nil => simp [addMembers]
  | cons y ys ih =>
    simp only [addMembers, List.foldl_cons] at ih ⊢
    rw [ih (m.set y g)]
    by_cases h : x ∈ ys
    · simp [h]
    · simp only [h, if_false, List.mem_cons, or_false, Dict.get?_set]
      by_cases hxy : x = y
      · simp [hxy]
      · simp [hxy, Ne.symm hxy]

/-- What `buildMaps` computes on one side: the last group of that side that lists the glyph. -/
theorem buildMaps_spec (groups : Dict Str (List Str)) :
    (∀ x g, (buildMaps groups).1.get? x = some g → startsWith g kern1 = true ∧ ∃ ms, (g, ms) ∈ groups ∧ x ∈ ms) ∧
    (∀ x, (buildMaps groups).1.get? x = none → ∀ g ms, (g, ms) ∈ groups → startsWith g kern1 = true → x ∉ ms) ∧
    (∀ x g, (buildMaps groups).2.get? x = some g → startsWith g kern2 = true ∧ ∃ ms, (g, ms) ∈ groups ∧ x ∈ ms) ∧
    (∀ x, (buildMaps groups).2.get? x = none → ∀ g ms, (g, ms) ∈ groups → startsWith g kern2 = true → x ∉ ms) := by
  rw [buildMaps]
  induction groups using List.reverseRecOn with
  | nil => simp
  | append_singleton groups e ih =>
    obtain ⟨n, ns⟩ := e
    simp only [List.foldl_append, List.foldl_cons, List.foldl_nil] at ih ⊢
    generalize hm : List.foldl _ ([], []) groups = m at ih
    obtain ⟨m1, m2⟩ := m
    simp only at ih ⊢
    obtain ⟨i1, i2, i3, i4⟩ := ih
    have hdis := kern1_kern2_disjoint n
    by_cases h1 : startsWith n kern1 = true
    · simp only [h1, if_true, get?_addMembers]
      have h2 : ¬ startsWith n kern2 = true := fun h => hdis ⟨h1, h⟩
      refine ⟨?_, ?_, ?_, ?_⟩
      · intro x g hx
        split at hx
        · next hin => injection hx with hx; subst hx; exact ⟨h1, ns, by simp, hin⟩
        · obtain ⟨a, ms, b, c⟩ := i1 x g hx
          exact ⟨a, ms, by simp [b], c⟩
      · intro x hx g ms hmem hg
        split at hx
        · cases hx
        · next hin =>
          simp only [List.mem_append, List.mem_singleton, Prod.mk.injEq] at hmem
          rcases hmem with hmem | ⟨rfl, rfl⟩
          · exact i2 x hx g ms hmem hg
          · exact hin
      · intro x g hx
        obtain ⟨a, ms, b, c⟩ := i3 x g hx
        exact ⟨a, ms, by simp [b], c⟩
      · intro x hx g ms hmem hg
        simp only [List.mem_append, List.mem_singleton, Prod.mk.injEq] at hmem
        rcases hmem with hmem | ⟨rfl, rfl⟩
        · exact i4 x hx g ms hmem hg
        · exact absurd hg h2
    · by_cases h2 : startsWith n kern2 = true
      · rw [if_neg h1, if_pos h2]
        simp only [get?_addMembers]
        refine ⟨?_, ?_, ?_, ?_⟩
        · intro x g hx
          obtain ⟨a, ms, b, c⟩ := i1 x g hx
          exact ⟨a, ms, by simp [b], c⟩
        · intro x hx g ms hmem hg
          simp only [List.mem_append, List.mem_singleton, Prod.mk.injEq] at hmem
          rcases hmem with hmem | ⟨rfl, rfl⟩
          · exact i2 x hx g ms hmem hg
          · exact absurd hg h1
        · intro x g hx
          split at hx
          · next hin => injection hx with hx; subst hx; exact ⟨h2, ns, by simp, hin⟩
          · obtain ⟨a, ms, b, c⟩ := i3 x g hx
            exact ⟨a, ms, by simp [b], c⟩
        · intro x hx g ms hmem hg
          split at hx
          · cases hx
          · next hin =>
            simp only [List.mem_append, List.mem_singleton, Prod.mk.injEq] at hmem
            rcases hmem with hmem | ⟨rfl, rfl⟩
            · exact i4 x hx g ms hmem hg
            · exact hin
      · rw [if_neg h1, if_neg h2]
        refine ⟨?_, ?_, ?_, ?_⟩
        · intro x g hx
          obtain ⟨a, ms, b, c⟩ := i1 x g hx
          exact ⟨a, ms, by simp [b], c⟩
        · intro x hx g ms hmem hg
          simp only [List.mem_append, List.mem_singleton, Prod.mk.injEq] at hmem
          rcases hmem with hmem | ⟨rfl, rfl⟩
          · exact i2 x hx g ms hmem hg
          · exact absurd hg h1
        · intro x g hx
          obtain ⟨a, ms, b, c⟩ := i3 x g hx
          exact ⟨a, ms, by simp [b], c⟩
        · intro x hx g ms hmem hg
          simp only [List.mem_append, List.mem_singleton, Prod.mk.injEq] at hmem
          rcases hmem with hmem | ⟨rfl, rfl⟩
          · exact i4 x hx g ms hmem hg
          · exact absurd hg h2

/-- The group chosen for a name, given a glyph-to-group map. -/
def chosen (pfx : Str) (m : Dict Str Str) (name : Str) : Option Str :=
  if startsWith name pfx then some name else m.get? name

theorem chosen_spec {pfx : Str} {groups : Dict Str (List Str)} {m : Dict Str Str} (name : Str)
    (h1 : ∀ x g, m.get? x = some g → startsWith g pfx = true ∧ ∃ ms, (g, ms) ∈ groups ∧ x ∈ ms)
    (h2 : ∀ x, m.get? x = none → ∀ g ms, (g, ms) ∈ groups → startsWith g pfx = true → x ∉ ms) :
    GroupChoice pfx groups name (chosen pfx m name) := by
  simp only [chosen]
  split
  · next h => exact .inl ⟨(startsWith_iff _ _).1 h, rfl⟩
  · next h =>
    have hb : ¬ Begins name pfx := fun hb => h ((startsWith_iff _ _).2 hb)
    rcases hm : m.get? name with _ | g
    · rintro g (⟨hb', -⟩ | ⟨-, hg, ms, hms, hin⟩)
      · exact hb hb'
      · exact h2 name hm g ms hms ((startsWith_iff _ _).2 hg) hin
    · obtain ⟨a, b⟩ := h1 name g hm
      exact .inr ⟨hb, (startsWith_iff _ _).1 a, b⟩

theorem lookupWith_eq {ν : Type} (first second : Str) (kerning : Dict (Str × Str) ν) (fallback : ν) (m1 m2 : Dict Str Str)
    (hn : kerning.get? (first, second) = none) :
    lookupWith (first, second) kerning fallback m1 m2 =
      precedence kerning first second (chosen kern1 m1 first) (chosen kern2 m2 second) fallback := by
  have key : ∀ a b : Option Str, getPair kerning (a, b) = valueOf kerning a b := by
    intro a b; cases a <;> cases b <;> rfl
  have hor : ∀ (p : Option Str × Option Str) ps, firstPresent kerning (p :: ps) = (valueOf kerning p.1 p.2).or (firstPresent kerning ps) := by
    intro p ps
    rw [firstPresent, show getPair kerning p = valueOf kerning p.1 p.2 from key p.1 p.2]
    cases valueOf kerning p.1 p.2 <;> rfl
  simp only [lookupWith, chosen, precedence]
  have hfs : valueOf kerning (some first) (some second) = none := hn
  have hl : ∀ b, valueOf kerning none b = none := fun b => rfl
  have hr : ∀ a, valueOf kerning a none = none := fun a => by cases a <;> rfl
  have hnil : firstPresent kerning [] = none := rfl
  split <;> split <;> simp [hor, hfs, hl, hr, hnil, Option.or_assoc]

/-! ### validation -/

theorem validateMembers_spec (d : Dict Str Str) (g : Str) (ms : List PyVal) (d' : Dict Str Str) :
    validateMembers d g ms = some d' ↔
      ∃ ss : List Str, ms = ss.map .str ∧ ss.Nodup ∧ (∀ s ∈ ss, s ∉ d.keys) ∧ d' = addMembers d g ss := by
  induction ms generalizing d with
  | nil =>
    simp only [validateMembers]
    constructor
    · intro h; injection h with h; subst h; exact ⟨[], rfl, by simp, by simp, rfl⟩
    · rintro ⟨ss, h1, -, -, h4⟩
      have : ss = [] := by simpa using h1.symm
      subst this; simp [h4, addMembers]
  | cons m ms ih =>
    cases m with
    | str s =>
      simp only [validateMembers]
      split
      · next hs =>
        simp only [reduceCtorEq, false_iff]
        rintro ⟨ss, h1, h2, h3, h4⟩
        cases ss with
        | nil => simp at h1
        | cons t ts =>
          simp only [List.map_cons, List.cons.injEq, PyVal.str.injEq] at h1
          obtain ⟨rfl, -⟩ := h1
          exact h3 s (by simp) (Dict.has_iff.1 hs)
      · next hs =>
        have hs' : s ∉ d.keys := fun h => hs (Dict.has_iff.2 h)
        rw [ih]
        constructor
        · rintro ⟨ss, rfl, h2, h3, h4⟩
          refine ⟨s :: ss, rfl, ?_, ?_, h4⟩
          · rw [List.nodup_cons]
            refine ⟨fun hin => ?_, h2⟩
            exact h3 s hin (Dict.mem_keys_set.2 (.inl rfl))
          · intro t ht
            rw [List.mem_cons] at ht
            rcases ht with rfl | ht
            · exact hs'
            · exact fun hk => h3 t ht (Dict.mem_keys_set.2 (.inr hk))
        · rintro ⟨ss, h1, h2, h3, h4⟩
          cases ss with
          | nil => simp at h1
          | cons t ts =>
            simp only [List.map_cons, List.cons.injEq, PyVal.str.injEq] at h1
            obtain ⟨rfl, h1⟩ := h1
            rw [List.nodup_cons] at h2
            refine ⟨ts, h1, h2.2, ?_, h4⟩
            intro u hu hk
            rcases Dict.mem_keys_set.1 hk with rfl | hk
            · exact h2.1 hu
            · exact h3 u (by simp [hu]) hk
    | _ =>
      simp only [validateMembers, reduceCtorEq, false_iff]
      rintro ⟨ss, h1, -⟩
      cases ss <;> simp at h1

theorem mem_keys_addMembers {d : Dict Str Str} {g x : Str} {ss : List Str} :
    x ∈ (addMembers d g ss).keys ↔ x ∈ ss ∨ x ∈ d.keys := by
  rw [← Dict.has_iff, ← Dict.has_iff, Dict.has, Dict.has, get?_addMembers]
  by_cases h : x ∈ ss <;> simp [h]

theorem sideMembers_cons (pfx : Str) (e : PyVal × PyVal) (d : List (PyVal × PyVal)) :
    sideMembers pfx (e :: d) = sideMembers pfx [e] ++ sideMembers pfx d := by
  simp [sideMembers]

theorem kern_len {name : Str} {k : Str} (hk : k.length = 13) (h : startsWith name k = true) :
    c!"public.kernN.".length = name.length ↔ name = k := by
  obtain ⟨r, rfl⟩ := (startsWith_iff _ _).1 h
  have : c!"public.kernN.".length = 13 := rfl
  rw [this, List.length_append, hk]
  constructor
  · intro h; have : r.length = 0 := by omega
    rw [List.length_eq_zero_iff.1 this, List.append_nil]
  · intro h
    have := congrArg List.length h
    simp at this; simp [this]

theorem public_of_kern {name : Str} (h : startsWith name kern1 = true ∨ startsWith name kern2 = true) :
    startsWith name c!"public." = true := by
  rw [startsWith_iff]
  rcases h with h | h
  · obtain ⟨r, rfl⟩ := (startsWith_iff _ _).1 h; exact ⟨c!"kern1." ++ r, rfl⟩
  · obtain ⟨r, rfl⟩ := (startsWith_iff _ _).1 h; exact ⟨c!"kern2." ++ r, rfl⟩

/-- One entry is well formed. -/
def EntryOk (e : PyVal × PyVal) : Prop :=
  ∃ name ms, e.1 = .str name ∧ name ≠ [] ∧ (e.2 = .list ms ∨ e.2 = .tuple ms) ∧ name ≠ kern1 ∧ name ≠ kern2

/-- The members on one side are new strings. -/
def SideOk (pfx : Str) (m : Dict Str Str) (d : List (PyVal × PyVal)) : Prop :=
  ∃ ss : List Str, sideMembers pfx d = ss.map .str ∧ ss.Nodup ∧ ∀ s ∈ ss, s ∉ m.keys

theorem SideOk_skip {pfx : Str} {m : Dict Str Str} {e : PyVal × PyVal} {d : List (PyVal × PyVal)}
    (h : sideMembers pfx [e] = []) : SideOk pfx m (e :: d) ↔ SideOk pfx m d := by
  simp only [SideOk, sideMembers_cons pfx e d, h, List.nil_append]

theorem map_eq_append_str {l1 l2 : List PyVal} {ss : List Str} (h : l1 ++ l2 = ss.map .str) :
    ∃ s1 s2, ss = s1 ++ s2 ∧ l1 = s1.map .str ∧ l2 = s2.map .str := by
  obtain ⟨s1, s2, h1, h2, h3⟩ := List.map_eq_append_iff.1 h.symm
  exact ⟨s1, s2, h1, h2.symm, h3.symm⟩

theorem SideOk_members {pfx g : Str} {m : Dict Str Str} {e : PyVal × PyVal} {d : List (PyVal × PyVal)} {ms : List PyVal}
    (h : sideMembers pfx [e] = ms) :
    SideOk pfx m (e :: d) ↔ ∃ m', validateMembers m g ms = some m' ∧ SideOk pfx m' d := by
  simp only [SideOk, sideMembers_cons pfx e d, h, validateMembers_spec]
  constructor
  · rintro ⟨ss, h1, h2, h3⟩
    obtain ⟨s1, s2, rfl, rfl, h5⟩ := map_eq_append_str h1
    rw [List.nodup_append] at h2
    refine ⟨_, ⟨s1, rfl, h2.1, fun s hs => h3 s (by simp [hs]), rfl⟩, s2, h5, h2.2.1, ?_⟩
    intro s hs hk
    rcases mem_keys_addMembers.1 hk with hk | hk
    · exact h2.2.2 s hk s hs rfl
    · exact h3 s (by simp [hs]) hk
  · rintro ⟨m', ⟨s1, rfl, h2, h3, rfl⟩, s2, h4, h5, h6⟩
    refine ⟨s1 ++ s2, by simp [h4], ?_, ?_⟩
    · rw [List.nodup_append]
      refine ⟨h2, h5, ?_⟩
      rintro a ha b hb rfl
      exact h6 a hb (mem_keys_addMembers.2 (.inl ha))
    · intro s hs
      rw [List.mem_append] at hs
      rcases hs with hs | hs
      · exact h3 s hs
      · exact fun hk => h6 s hs (mem_keys_addMembers.2 (.inr hk))

theorem validateGroups_spec (m1 m2 : Dict Str Str) (d : List (PyVal × PyVal)) :
    validateGroups m1 m2 d = true ↔ (∀ e ∈ d, EntryOk e) ∧ SideOk kern1 m1 d ∧ SideOk kern2 m2 d := by
  induction d generalizing m1 m2 with
  | nil =>
    simp only [validateGroups, true_iff]
    exact ⟨by simp, ⟨[], rfl, by simp, by simp⟩, ⟨[], rfl, by simp, by simp⟩⟩
  | cons e d ih =>
    obtain ⟨k, v⟩ := e
    rw [List.forall_mem_cons]
    cases k with
    | str name =>
      rw [validateGroups]
      rcases hseq : seqItems v with _ | ms
      · simp only [Bool.false_eq_true, false_iff]
        rintro ⟨⟨⟨n, ms, -, -, h | h, -⟩, -⟩, -⟩ <;> simp only at h <;> subst h <;> cases hseq
      have hv : v = .list ms ∨ v = .tuple ms := by
        cases v <;> simp [seqItems] at hseq <;> subst hseq <;> simp
      simp only
      have hside : ∀ pfx, sideMembers pfx [(.str name, v)] = if startsWith name pfx then ms else [] := by
        intro pfx
        rcases hv with rfl | rfl <;> simp [sideMembers, startsWith]
      have hentry : EntryOk (.str name, v) ↔ name ≠ [] ∧ name ≠ kern1 ∧ name ≠ kern2 := by
        constructor
        · rintro ⟨n, ms, h1, h2, -, h3, h4⟩
          simp only [PyVal.str.injEq] at h1; subst h1; exact ⟨h2, h3, h4⟩
        · rintro ⟨h1, h2, h3⟩; exact ⟨name, ms, rfl, h1, hv, h2, h3⟩
      rw [hentry]
      by_cases hne : name = []
      · simp [hne]
      simp only [ne_eq, hne, if_false, not_false_eq_true, true_and]
      by_cases h1 : startsWith name kern1 = true
      · have h2 : startsWith name kern2 = false := by
          rw [Bool.eq_false_iff]; exact fun h => kern1_kern2_disjoint name ⟨h1, h⟩
        have hn2 : name ≠ kern2 := by rintro rfl; rw [show startsWith kern2 kern2 = true by decide] at h2; cases h2
        rw [if_pos (public_of_kern (.inl h1))]
        rw [SideOk_skip (pfx := kern2) (by rw [hside, h2]; rfl), SideOk_members (g := name) (ms := ms) (by rw [hside, if_pos h1])]
        simp only [h1, Bool.not_true, Bool.false_and, Bool.false_eq_true, if_false, if_true, kern_len (k := kern1) rfl h1]
        by_cases hk : name = kern1
        · simp [hk]
        simp only [hk, if_false, not_false_eq_true, true_and, hn2]
        rcases hv : validateMembers m1 name ms with _ | m1'
        · simp
        · simp only [ih, Option.some.injEq, exists_eq_left']
      · have h1f : startsWith name kern1 = false := by simpa using h1
        have hn1 : name ≠ kern1 := by rintro rfl; exact h1 (by decide)
        rw [SideOk_skip (pfx := kern1) (by rw [hside, h1f]; rfl)]
        by_cases h2 : startsWith name kern2 = true
        · rw [if_pos (public_of_kern (.inr h2)), SideOk_members (g := name) (ms := ms) (pfx := kern2) (by rw [hside, if_pos h2])]
          simp only [h1f, h2, Bool.not_false, Bool.not_true, Bool.and_false, Bool.false_eq_true, if_false, kern_len (k := kern2) rfl h2]
          by_cases hk : name = kern2
          · simp [hk]
          simp only [hk, if_false, not_false_eq_true, true_and, hn1]
          rcases hv : validateMembers m2 name ms with _ | m2'
          · simp
          · simp only [ih, Option.some.injEq, exists_eq_left']
        · have h2f : startsWith name kern2 = false := by simpa using h2
          have hn2 : name ≠ kern2 := by rintro rfl; exact h2 (by decide)
          rw [SideOk_skip (pfx := kern2) (by rw [hside, h2f]; rfl)]
          simp only [h1f, h2f, Bool.not_false, Bool.and_self, if_true, ite_self, ih, hn1, hn2, not_false_eq_true, true_and]
    | _ =>
      simp only [validateGroups, Bool.false_eq_true, false_iff]
      rintro ⟨⟨⟨n, ms, h, -⟩, -⟩, -⟩; cases h

theorem SideOk_nil_iff (pfx : Str) (d : List (PyVal × PyVal)) :
    SideOk pfx [] d ↔ (∀ m ∈ sideMembers pfx d, ∃ s, m = .str s) ∧ (sideMembers pfx d).Nodup := by
  constructor
  · rintro ⟨ss, h1, h2, -⟩
    rw [h1]
    refine ⟨?_, h2.map (fun a b h => by injection h)⟩
    intro m hm
    obtain ⟨s, -, rfl⟩ := List.mem_map.1 hm
    exact ⟨s, rfl⟩
  · rintro ⟨h1, h2⟩
    have : ∃ ss : List Str, sideMembers pfx d = ss.map .str := by
      clear h2
      generalize sideMembers pfx d = l at h1
      induction l with
      | nil => exact ⟨[], rfl⟩
      | cons m l ih =>
        obtain ⟨s, rfl⟩ := h1 m (by simp)
        obtain ⟨ss, rfl⟩ := ih (fun m hm => h1 m (by simp [hm]))
        exact ⟨s :: ss, rfl⟩
    obtain ⟨ss, hss⟩ := this
    exact ⟨ss, hss, (hss ▸ h2 : (ss.map PyVal.str).Nodup).of_map _, by simp [Dict.keys]⟩

end Verif.Kerning
