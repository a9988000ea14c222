import Verif.Model.KerningReader
import Verif.Proofs.Converters
/-! Properties C15 and C16: the reader's cache of converted groups and kerning. -/
namespace Verif.Props
open Verif Verif.Kerning Verif.Converters Verif.KerningReader

/-- What a call of the given kind may return from converted data. -/
def view (r : Converted PyVal) : Kind → Ret
  | .groups => .groups r.groups
  | .kerning => .kerning (flatten r.kerning)
  | .maps => .maps r.side1 r.side2

/-- The contents a call saw agree (`==`) with a snapshot. -/
def SameFiles (c : Call) (k0 g0 : PyVal) : Prop :=
  ∃ k g, c.kerningFile = .ok k ∧ c.groupsFile = .ok g ∧ PyVal.pyEq k k0 = true ∧ PyVal.pyEq g g0 = true

theorem deliver_ok {c : Call} {k0 g0 : PyVal} {r : Converted PyVal} {ret : Ret} (h : deliver c ⟨k0, g0, some r⟩ = .ok ret) :
    ret = view r c.kind := by
  unfold deliver at h
  rcases hk : c.kind <;> simp only [hk] at h <;> split at h <;> simp_all [view]

theorem step_cached (conv : PyVal → PyVal → Except Exc (Converted PyVal)) (d : Cache) (c : Call) :
    (step conv (some d) c).2 = some d ∧
    ∀ ret, (step conv (some d) c).1 = .ok ret → SameFiles c d.originalKerning d.originalGroups ∧ deliver c d = .ok ret := by
  unfold step upConvert
  rcases hk : c.kerningFile with e | k
  · simp
  · by_cases h1 : PyVal.pyEq k d.originalKerning = true
    · rcases hg : c.groupsFile with e | g
      · simp [h1]
      · by_cases h2 : PyVal.pyEq g d.originalGroups = true
        · simp only [h1, h2]
          refine ⟨rfl, fun ret h => ⟨⟨k, g, hk, hg, h1, h2⟩, h⟩⟩
        · simp [h1, h2]
    · simp [h1]

theorem run_cached (conv : PyVal → PyVal → Except Exc (Converted PyVal)) (d : Cache) :
    ∀ (cs : List Call) (o : Call × Except Exc Ret), o ∈ run conv (some d) cs → ∀ ret, o.2 = .ok ret →
      SameFiles o.1 d.originalKerning d.originalGroups ∧ deliver o.1 d = .ok ret
  | [], o, ho, _, _ => by simp [run] at ho
  | c :: cs, o, ho, ret, hret => by
    obtain ⟨h1, h2⟩ := step_cached conv d c
    simp only [run, List.mem_cons] at ho
    rcases ho with ho | ho
    · subst ho; exact h2 ret hret
    · rw [h1] at ho; exact run_cached conv d cs o ho ret hret

theorem run_length (conv : PyVal → PyVal → Except Exc (Converted PyVal)) : ∀ (cs : List Call) (s : Option Cache),
    (run conv s cs).length = cs.length
  | [], _ => rfl
  | c :: cs, s => by simp [run, run_length conv cs]

/-- **C15.** Any conversion function, any history of calls on a fresh reader, any contents of the two files at every call,
provided no conversion of contents seen raises (that case is C16): either every call raises, or there is a
call, all before it having raised, whose file contents are the snapshot: from then on every call that
returns, returns (its part of) the conversion of that snapshot and saw files equal to it. -/
theorem C15_snapshot (conv : PyVal → PyVal → Except Exc (Converted PyVal)) :
    ∀ (cs : List Call), (∀ c ∈ cs, ∀ k g, c.kerningFile = .ok k → c.groupsFile = .ok g → ∃ r, conv k g = .ok r) →
    (∀ o ∈ run conv none cs, ∃ e, o.2 = .error e) ∨
    ∃ before first after k0 g0 r, cs = before ++ first :: after ∧
      first.kerningFile = .ok k0 ∧ first.groupsFile = .ok g0 ∧ conv k0 g0 = .ok r ∧
      (∀ o ∈ (run conv none cs).take before.length, ∃ e, o.2 = .error e) ∧
      (∀ ret, ((run conv none cs)[before.length]?).map Prod.snd = some (.ok ret) → ret = view r first.kind) ∧
      (∀ o ∈ (run conv none cs).drop (before.length + 1), ∀ ret, o.2 = .ok ret → SameFiles o.1 k0 g0 ∧ ret = view r o.1.kind)
  | [], _ => .inl (by simp [run])
  | c :: cs, hconv => by
    have hc := hconv c (by simp)
    -- a call that does not reach the conversion raises and leaves the reader fresh
    have fresh : ∀ e, step conv none c = (.error e, none) →
        (∀ o ∈ run conv none (c :: cs), ∃ e, o.2 = .error e) ∨
        ∃ before first after k0 g0 r, c :: cs = before ++ first :: after ∧
          first.kerningFile = .ok k0 ∧ first.groupsFile = .ok g0 ∧ conv k0 g0 = .ok r ∧
          (∀ o ∈ (run conv none (c :: cs)).take before.length, ∃ e, o.2 = .error e) ∧
          (∀ ret, ((run conv none (c :: cs))[before.length]?).map Prod.snd = some (.ok ret) → ret = view r first.kind) ∧
          (∀ o ∈ (run conv none (c :: cs)).drop (before.length + 1), ∀ ret, o.2 = .ok ret → SameFiles o.1 k0 g0 ∧ ret = view r o.1.kind) := by
      intro e he
      have ih := C15_snapshot conv cs (fun c hc => hconv c (List.mem_cons_of_mem _ hc))
      simp only [run, he]
      rcases ih with ih | ⟨before, first, after, k0, g0, r, h1, h2, h3, h4, h5, h6, h7⟩
      · left
        intro o ho
        rcases List.mem_cons.1 ho with rfl | ho
        · exact ⟨e, rfl⟩
        · exact ih o ho
      · right
        refine ⟨c :: before, first, after, k0, g0, r, by simp [h1], h2, h3, h4, ?_, ?_, ?_⟩
        · intro o ho
          rw [List.length_cons, List.take_succ_cons] at ho
          rcases List.mem_cons.1 ho with rfl | ho
          · exact ⟨e, rfl⟩
          · exact h5 o ho
        · intro ret hr
          rw [List.length_cons, List.getElem?_cons_succ] at hr
          exact h6 ret hr
        · intro o ho
          rw [List.length_cons, List.drop_succ_cons] at ho
          exact h7 o ho
    rcases hg : c.groupsFile with e | g
    · exact fresh e (by simp [step, upConvert, hg])
    · by_cases hv : (c.validate && (checkedGroups g).isNone) = true
      · exact fresh .ufoLibError (by simp only [step, upConvert, hg]; rw [if_pos hv])
      · rcases hk : c.kerningFile with e | k
        · exact fresh e (by simp only [step, upConvert, hg, hk]; rw [if_neg hv])
        · right
          obtain ⟨r, hr⟩ := hc k g hk hg
          have hstep : step conv none c = (deliver c ⟨k, g, some r⟩, some ⟨k, g, some r⟩) := by
            simp only [step, upConvert, hg, hk, hr]; rw [if_neg hv]
          refine ⟨[], c, cs, k, g, r, rfl, hk, hg, hr, by simp, ?_, ?_⟩
          · intro ret h
            simp only [run, hstep, List.length_nil, List.getElem?_cons_zero, Option.map_some, Option.some.injEq] at h
            exact deliver_ok h
          · intro o ho ret hret
            simp only [run, hstep, List.length_nil, Nat.zero_add, List.drop_succ_cons, List.drop_zero] at ho
            obtain ⟨a, b⟩ := run_cached conv _ cs o ho ret hret
            exact ⟨a, deliver_ok b⟩

/-- **C15, contrapositive.** Once data was converted, a call that sees different contents raises. -/
theorem C15_raises (conv : PyVal → PyVal → Except Exc (Converted PyVal)) (d : Cache) (c : Call)
    (hdiff : ∀ k g, c.kerningFile = .ok k → c.groupsFile = .ok g →
      PyVal.pyEq k d.originalKerning = false ∨ PyVal.pyEq g d.originalGroups = false) :
    ∃ e, (step conv (some d) c).1 = .error e := by
  rcases h : (step conv (some d) c).1 with e | ret
  · exact ⟨e, rfl⟩
  · obtain ⟨⟨k, g, hk, hg, h1, h2⟩, -⟩ := (step_cached conv d c).2 ret h
    rcases hdiff k g hk hg with h' | h' <;> simp_all

/-- Well-formed kerning as a Python value. -/
def kerningVal (k : Dict Str (Dict Str PyVal)) : PyVal :=
  .dict (k.map fun e => (.str e.1, .dict (e.2.map fun x => (.str x.1, x.2))))

theorem kerningRow_val (row : Dict Str PyVal) : kerningRow (row.map fun x => (.str x.1, x.2)) = .ok row := by
  induction row with
  | nil => rfl
  | cons e row ih => simp [kerningRow, ih]

theorem kerningRows_val (k : Dict Str (Dict Str PyVal)) :
    kerningRows (k.map fun e => (.str e.1, .dict (e.2.map fun x => (.str x.1, x.2)))) = .ok k := by
  induction k with
  | nil => rfl
  | cons e k ih => simp [kerningRows, ih, kerningRow_val]

theorem allStrings_map (l : List Str) : allStrings (l.map .str) = some l := by
  induction l with
  | nil => rfl
  | cons e l ih => simp [allStrings, ih]

theorem checkedGroups_val (g : Dict Str (List Str)) : checkedGroups (groupsVal g) = some g := by
  simp only [checkedGroups, groupsVal]
  induction g with
  | nil => rfl
  | cons e g ih => simp only [List.map_cons, checkedItems, allStrings_map, ih]

/-- The hypothesis of `C15_snapshot` holds for the real conversion on all well-formed files. -/
theorem C15_wellformed {ord1 ord2 : List Str → List Str} (h1 : ∀ l, (ord1 l).Perm l) (h2 : ∀ l, (ord2 l).Perm l)
    (k : Dict Str (Dict Str PyVal)) (g : Dict Str (List Str)) :
    ∃ r, convertFiles ord1 ord2 (kerningVal k) (groupsVal g) = .ok r ∧ convert ord1 ord2 k g = .ok r := by
  obtain ⟨r, hr, -⟩ := convert_spec ord1 ord2 h1 h2 k g
  refine ⟨r, ?_, hr⟩
  simp only [kerningVal, convertFiles, kerningRows_val, checkedGroups_val, hr]

example :
    let f1 : PyVal := kerningVal [(c!"@MMK_L_A", [(c!"B", .int 5)])]
    let f2 : PyVal := kerningVal [(c!"@MMK_L_A", [(c!"B", .int 6)])]
    let g : PyVal := groupsVal [(c!"@MMK_L_A", [c!"A"])]
    (run (convertFiles id id) none
      [⟨.groups, true, .ok f1, .error .plistParseError⟩, ⟨.kerning, true, .ok f1, .ok g⟩, ⟨.groups, true, .ok f1, .ok g⟩,
       ⟨.groups, true, .ok f2, .ok g⟩, ⟨.maps, true, .ok f1, .ok g⟩]).map (fun o => o.2.toOption) =
    [none, some (.kerning [((c!"public.kern1.A", c!"B"), .int 5)]),
     some (.groups [(c!"@MMK_L_A", [c!"A"]), (c!"public.kern1.A", [c!"A"])]), none,
     some (.maps [(c!"@MMK_L_A", c!"public.kern1.A")] [])] := by decide +kernel

/-! ## C16 -/

/-- **C16 refuted.** kerning.plist is `{"A": 5}`: the first `readKerning()` raises, the second, on the same files with the
same reader, returns an empty dictionary; so does `readGroups()`, although there are groups. -/
theorem C16_failed_conversion_refuted :
    let kerning : PyVal := .dict [(.str c!"A", .int 5)]
    let groups : PyVal := groupsVal [(c!"A", [c!"A"])]
    (run (convertFiles id id) none
      [⟨.kerning, true, .ok kerning, .ok groups⟩, ⟨.kerning, true, .ok kerning, .ok groups⟩,
       ⟨.groups, true, .ok kerning, .ok groups⟩]).map (fun o => o.2.toOption) =
    [none, some (.kerning []), some (.groups [])] := by decide +kernel

/-- **C16 (partial).** A failed *read* is not remembered: if no cache exists and the call fails before the conversion (a
file cannot be read, or groups.plist is rejected), the same call fails again. Missing: failures of the
conversion itself, for which the claim is false (`C16_failed_conversion_refuted`). -/
theorem C16_failed_read_partial (conv : PyVal → PyVal → Except Exc (Converted PyVal)) (c : Call) (e : Exc)
    (h : (step conv none c).1 = .error e)
    (hread : ∀ k g, c.kerningFile = .ok k → c.groupsFile = .ok g → c.validate = true ∧ checkedGroups g = none) :
    step conv none c = (.error e, none) ∧ ∀ n, ∀ o ∈ run conv none (List.replicate n c), o.2 = .error e := by
  have key : step conv none c = (.error e, none) := by
    rcases hg : c.groupsFile with e' | g
    · have : step conv none c = (.error e', none) := by simp [step, upConvert, hg]
      rw [this] at h ⊢; simp at h; rw [h]
    · by_cases hv : (c.validate && (checkedGroups g).isNone) = true
      · have : step conv none c = (.error .ufoLibError, none) := by simp only [step, upConvert, hg]; rw [if_pos hv]
        rw [this] at h ⊢; simp at h; rw [h]
      · rcases hk : c.kerningFile with e' | k
        · have : step conv none c = (.error e', none) := by simp only [step, upConvert, hg, hk]; rw [if_neg hv]
          rw [this] at h ⊢; simp at h; rw [h]
        · obtain ⟨a, b⟩ := hread k g hk hg
          simp [a, b] at hv
  refine ⟨key, fun n => ?_⟩
  induction n with
  | zero => simp [run]
  | succ n ih =>
    intro o ho
    simp only [List.replicate_succ, run, key, List.mem_cons] at ho
    rcases ho with rfl | ho
    · rfl
    · exact ih o ho

example : (step (convertFiles id id) none ⟨.kerning, true, .ok (.dict []), .ok (.list [])⟩).1.toOption = none := by
  decide +kernel

end Verif.Props
