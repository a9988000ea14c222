import Verif.Spec.UfoUpgrade
import Verif.Proofs.PlistRead
import Verif.Proofs.UfoKerning
import Verif.Proofs.UfoRename
import Verif.Props.UfoData
import Verif.Props.UfoInfo
/-! What a reader delivers can be saved as UFO 3. -/
namespace Verif.Ufo
open Verif Verif.FS Verif.IO Verif.Kerning Verif.Converters Verif.Validators Verif.FontInfo Verif.Spec.Ufo Verif.Spec.Plist Verif.Spec.Validators Verif.Spec.FontInfo
open Verif.Spec.Converters

/-! ### values from files -/

theorem loadBytes_readable {F : FloatCodec} {b : Bytes} {v : PyVal} (h : loadBytes F b = .ok v) : v = .none ∨ Readable v := by
  unfold loadBytes at h
  split at h
  · cases h
  · exact Plist.loads_readable h

theorem getPlist_readable {F : FloatCodec} {fs : FS} {p : Path} {v : PyVal} (h : getPlist F fs p (some (.dict [])) = .ok v) :
    (v = .none ∨ Readable v) ∧ fs.node? p ≠ some .dir := by
  unfold getPlist FS.getbytes at h
  split at h
  · rename_i hb
    split at hb
    · cases hb
    · cases hb
    · rename_i hn
      cases h
      exact ⟨.inr ⟨by simp, trivial⟩, by simp [hn]⟩
  · cases h
  · rename_i b hb
    split at hb
    · rename_i hn
      split at h
      · cases h
      · rename_i hl
        cases h
        exact ⟨loadBytes_readable hl, by simp [hn]⟩
    · cases hb
    · cases hb

theorem storable_of {v : PyVal} (h : Readable v) (hf : Fits v) : Storable v :=
  ⟨Plist.representable_of v h hf, (Plist.wellFormed_of v h).1⟩

/-! ### groups and kerning of UFO 1 and 2 -/

theorem xmlText_append {a b : Str} (ha : XmlText a) (hb : XmlText b) : XmlText (a ++ b) := by
  intro c hc
  rcases List.mem_append.1 hc with h | h
  · exact ha c h
  · exact hb c h

theorem mem_removeAllAux (old : Str) : ∀ (n : Nat) (s : Str), ∀ c ∈ removeAllAux old n s, c ∈ s
  | 0, s, c, h => h
  | n + 1, [], c, h => h
  | n + 1, x :: s, c, h => by
    unfold removeAllAux at h
    split at h
    · exact List.mem_of_mem_drop (mem_removeAllAux old n _ c h)
    · rcases List.mem_cons.1 h with rfl | h
      · simp
      · exact List.mem_cons_of_mem _ (mem_removeAllAux old n s c h)

theorem xmlText_digits {s : Str} (h : ∀ c ∈ s, isDigit c = true) : XmlText s := by
  intro c hc
  have := h c hc
  unfold isDigit at this
  simp only [Bool.and_eq_true, decide_eq_true_eq] at this
  have h9 := this.2
  have h0 := this.1
  have h9' : c.toNat ≤ 57 := h9
  refine .inr (.inr (.inr ⟨UInt32.le_trans (show ' '.val ≤ '0'.val by decide) h0, by omega, by omega⟩))

theorem xmlText_newName {pfx known : Str} (hp : XmlText pfx) {groups : Dict Str (List Str)} {g : Str} (hg : XmlText g) : XmlText (newName pfx known groups g) := by
  unfold newName
  obtain ⟨k, hk, -⟩ := makeUnique_spec (pfx ++ removeAll known g) groups.keys
  rw [hk]
  have hb : XmlText (pfx ++ removeAll known g) := xmlText_append hp fun c hc => hg c (mem_removeAllAux _ _ _ c hc)
  unfold candidate
  split
  · exact xmlText_append hb (xmlText_digits (natRepr_digits k))
  · exact hb

theorem allStrings_ok : ∀ {l : List PyVal} {t : List Str}, KerningReader.allStrings l = some t → l = t.map .str
  | [], t, h => by cases h; rfl
  | v :: l, t, h => by
    cases v <;> simp only [KerningReader.allStrings, reduceCtorEq, Option.map_eq_some_iff] at h
    obtain ⟨t', ht', rfl⟩ := h
    rw [allStrings_ok ht']; rfl

theorem checkedItems_ok : ∀ {l : List (PyVal × PyVal)} {g : Dict Str (List Str)}, KerningReader.checkedItems l = some g → l = g.map fun e => (.str e.1, strs e.2)
  | [], g, h => by cases h; rfl
  | (k, v) :: l, g, h => by
    unfold KerningReader.checkedItems at h
    split at h
    · rename_i hc; cases hc
    · rename_i n ms rest hc
      cases hc
      split at h
      · rename_i t r ht hr
        cases h
        rw [allStrings_ok ht, checkedItems_ok hr]
        rfl
      · cases h
    · cases h

theorem checkedGroups_ok {v : PyVal} {g : Dict Str (List Str)} (h : KerningReader.checkedGroups v = some g) : v = groupsVal g := by
  unfold KerningReader.checkedGroups at h
  split at h
  · rw [groupsVal, checkedItems_ok h]; rfl
  · cases h

theorem kerningRow_ok : ∀ {l : List (PyVal × PyVal)} {r : Dict Str PyVal}, KerningReader.kerningRow l = .ok r → l = r.map fun e => (.str e.1, e.2)
  | [], r, h => by cases h; rfl
  | (k, v) :: l, r, h => by
    unfold KerningReader.kerningRow at h
    split at h
    · rename_i hc; cases hc
    · rename_i hc
      cases hc
      split at h
      · rename_i r' hr'
        cases h
        rw [kerningRow_ok hr']; rfl
      · cases h
    · cases h

theorem kerningRows_ok : ∀ {l : List (PyVal × PyVal)} {k : Dict Str (Dict Str PyVal)}, KerningReader.kerningRows l = .ok k → l = k.map fun e => (.str e.1, asDict e.2)
  | [], r, h => by cases h; rfl
  | (k, v) :: l, r, h => by
    unfold KerningReader.kerningRows at h
    split at h
    · rename_i hc; cases hc
    · rename_i hc
      cases hc
      split at h
      · cases h
      · rename_i row hrow
        split at h
        · rename_i r' hr'
          cases h
          rw [kerningRows_ok hr', kerningRow_ok hrow]; rfl
        · cases h
    · cases h

theorem rowOf_ok : ∀ {l : List (PyVal × PyVal)} {r : Dict Str PyVal}, rowOf l = .ok r → l = r.map fun e => (.str e.1, e.2)
  | [], r, h => by cases h; rfl
  | (k, v) :: l, r, h => by
    unfold rowOf at h
    split at h
    · rename_i hc; cases hc
    · rename_i hc
      cases hc
      split at h
      · cases h
      · rename_i r' hr'
        cases h
        rw [rowOf_ok hr']; rfl
    · cases h

theorem rowsOf_ok : ∀ {l : List (PyVal × PyVal)} {k : Dict Str (Dict Str PyVal)}, rowsOf l = .ok k → l = k.map fun e => (.str e.1, asDict e.2)
  | [], r, h => by cases h; rfl
  | (k, v) :: l, r, h => by
    unfold rowsOf at h
    split at h
    · rename_i hc; cases hc
    · rename_i hc
      cases hc
      split at h
      · cases h
      · rename_i row hrow
        split at h
        · cases h
        · rename_i r' hr'
          cases h
          rw [rowsOf_ok hr', rowOf_ok hrow]; rfl
    · cases h

/-- Groups of a file. -/
theorem readable_groups {g : Dict Str (List Str)} (h : Readable (groupsVal g)) : Dict.WF g ∧ ∀ e ∈ g, XmlText e.1 ∧ ∀ m ∈ e.2, XmlText m := by
  obtain ⟨h1, h2⟩ := h
  constructor
  · have : ((Dict.keys g).map PyVal.str).Nodup := by
      simpa [Dict.keys, Function.comp_def] using h1
    exact List.Nodup.of_map _ this
  · intro e he
    obtain ⟨⟨s, hs, hx⟩, hv⟩ := Plist.readableItems_iff.1 h2 _ (List.mem_map_of_mem he)
    cases hs
    refine ⟨hx, fun m hm => ?_⟩
    exact Plist.readableList_iff.1 hv _ (List.mem_map_of_mem hm)

/-- A dictionary of a file. -/
theorem readable_asDict {d : Dict Str PyVal} (h : Readable (asDict d)) : Dict.WF d ∧ ∀ e ∈ d, XmlText e.1 ∧ Readable e.2 := by
  obtain ⟨h1, h2⟩ := h
  constructor
  · have : ((Dict.keys d).map PyVal.str).Nodup := by
      simpa [Dict.keys, Function.comp_def] using h1
    exact List.Nodup.of_map _ this
  · intro e he
    obtain ⟨⟨s, hs, hx⟩, hv⟩ := Plist.readableItems_iff.1 h2 _ (List.mem_map_of_mem he)
    cases hs
    exact ⟨hx, hv⟩

/-- Kerning of a file. -/
theorem readable_kerning {k : Dict Str (Dict Str PyVal)} (h : Readable (kerningVal k)) :
    WFKerning k ∧ ∀ r ∈ k, XmlText r.1 ∧ ∀ e ∈ r.2, XmlText e.1 ∧ Readable e.2 := by
  rw [kerningVal_eq] at h
  obtain ⟨h1, h2⟩ := readable_asDict h
  have h3 : ∀ r ∈ k, XmlText r.1 ∧ Readable (asDict r.2) := fun r hr => h2 (r.1, asDict r.2) (List.mem_map_of_mem (f := fun e => (e.1, asDict e.2)) hr)
  exact ⟨⟨(wf_mapVal _).1 h1, fun r hr => (readable_asDict (h3 r hr).2).1⟩, fun r hr => ⟨(h3 r hr).1, (readable_asDict (h3 r hr).2).2⟩⟩

/-- What a validated call that returns something returns. -/
theorem run_outcome (conv : PyVal → PyVal → Except Exc (Converted PyVal)) (KF GF : Except Exc PyVal) :
    ∀ (cs : List KerningReader.Call) (cache : Option KerningReader.Cache), (∀ c ∈ cs, c.kerningFile = KF ∧ c.groupsFile = GF) →
      (∀ d, cache = some d → ∀ r, d.result = some r → ∃ K G, KF = .ok K ∧ GF = .ok G ∧ conv K G = .ok r) →
      ∀ o ∈ KerningReader.run conv cache cs, ∀ ret, o.2 = .ok ret →
        ∃ d, KerningReader.deliver o.1 d = .ok ret ∧ ∀ r, d.result = some r → ∃ K G, KF = .ok K ∧ GF = .ok G ∧ conv K G = .ok r
  | [], _, _, _, o, ho, _, _ => by simp [KerningReader.run] at ho
  | c :: cs, cache, hcs, hcache, o, ho, ret, hret => by
    obtain ⟨hk, hg⟩ := hcs c (by simp)
    have hup : ∀ x cache', KerningReader.upConvert conv c cache = (x, cache') →
        (∀ d, cache' = some d → ∀ r, d.result = some r → ∃ K G, KF = .ok K ∧ GF = .ok G ∧ conv K G = .ok r) ∧
        ∀ d, x = .ok d → ∀ r, d.result = some r → ∃ K G, KF = .ok K ∧ GF = .ok G ∧ conv K G = .ok r := by
      intro x cache' hx
      unfold KerningReader.upConvert at hx
      rw [hk, hg] at hx
      cases cache with
      | some d0 =>
        dsimp only at hx
        repeat' split at hx
        all_goals cases hx
        all_goals refine ⟨hcache, fun d h => ?_⟩
        all_goals first
          | (cases h; done)
          | (cases h; exact hcache _ rfl)
      | none =>
        dsimp only at hx
        split at hx
        · cases hx; exact ⟨hcache, fun d h => by cases h⟩
        · rename_i G
          split at hx
          · cases hx; exact ⟨hcache, fun d h => by cases h⟩
          · split at hx
            · cases hx; exact ⟨hcache, fun d h => by cases h⟩
            · rename_i K
              split at hx
              · cases hx
                refine ⟨fun d h r hr => ?_, fun d h => by cases h⟩
                cases h; cases hr
              · rename_i r hr
                cases hx
                refine ⟨fun d h r' hr' => ?_, fun d h r' hr' => ?_⟩
                · cases h; cases hr'; exact ⟨K, G, rfl, rfl, hr⟩
                · cases h; cases hr'; exact ⟨K, G, rfl, rfl, hr⟩
    rcases hu : KerningReader.upConvert conv c cache with ⟨x, cache'⟩
    obtain ⟨h1, h2⟩ := hup x cache' hu
    unfold KerningReader.run at ho
    rcases List.mem_cons.1 ho with rfl | ho
    · unfold KerningReader.step at hret
      rw [hu] at hret
      cases x with
      | error e => cases hret
      | ok d => exact ⟨d, hret, h2 d rfl⟩
    · have hst : (KerningReader.step conv cache c).2 = cache' := by
        unfold KerningReader.step
        rw [hu]
        cases x <;> rfl
      rw [hst] at ho
      exact run_outcome conv KF GF cs cache' (fun c hc => hcs c (List.mem_cons_of_mem _ hc)) h1 o ho ret hret

/-- The files a conversion had. -/
theorem convertFiles_ok {ord1 ord2 : List Str → List Str} {K G : PyVal} {r : Converted PyVal} (h : KerningReader.convertFiles ord1 ord2 K G = .ok r) :
    ∃ k g, K = kerningVal k ∧ G = groupsVal g ∧ convert ord1 ord2 k g = .ok r := by
  unfold KerningReader.convertFiles at h
  split at h
  · rename_i k g
    split at h
    · cases h
    · rename_i k' hk'
      split at h
      · cases h
      · rename_i g' hg'
        refine ⟨k', g', ?_, checkedGroups_ok hg', h⟩
        rw [kerningRows_ok hk']
        rfl
  · cases h

/-- The converted groups have XML names and members. -/
theorem converted_groups {ord1 ord2 : List Str → List Str} (h1 : ∀ l, (ord1 l).Perm l) (h2 : ∀ l, (ord2 l).Perm l) {k : Dict Str (Dict Str PyVal)} {g : Dict Str (List Str)}
    {r : Converted PyVal} (h : convert ord1 ord2 k g = .ok r) (hwf : Dict.WF g) (hg : ∀ e ∈ g, XmlText e.1 ∧ ∀ m ∈ e.2, XmlText m) :
    Dict.WF r.groups ∧ (∀ e ∈ r.groups, XmlText e.1 ∧ ∀ m ∈ e.2, XmlText m) ∧ ∀ e ∈ r.side1 ++ r.side2, XmlText e.2 := by
  obtain ⟨s1, s2, -, s4, s5⟩ := Props.spec_of_ok h1 h2 h
  have hside : ∀ e ∈ r.side1 ++ r.side2, XmlText e.2 := by
    intro e he
    have hold : XmlText e.1 := by
      obtain ⟨x, hx, hxe⟩ := List.mem_map.1 (s4 e he).1
      rw [← hxe]; exact (hg x hx).1
    rcases List.mem_append.1 he with he | he
    · rw [s1] at he
      obtain ⟨y, -, rfl⟩ := List.mem_map.1 he
      exact xmlText_newName (by unfold XmlText; decide) hold
    · rw [s2] at he
      obtain ⟨y, -, rfl⟩ := List.mem_map.1 he
      exact xmlText_newName (by unfold XmlText; decide) hold
  have hwr : Dict.WF r.groups := by
    unfold convert at h
    dsimp only at h
    split at h
    · cases h
    · rename_i g' hg'
      cases h
      exact Props.copyGroups_wf _ _ _ hwf hg'
  refine ⟨hwr, fun e he => ?_, hside⟩
  have hget := s5 e.1
  rw [Dict.get?_of_mem hwr he] at hget
  rcases hf : (r.side1 ++ r.side2).reverse.find? (fun x => decide (x.2 = e.1)) with _ | x
  · rw [hf, Option.bind_none, Option.none_or] at hget
    exact hg _ (Dict.mem_of_get? hget.symm)
  · rw [hf] at hget
    have hx := List.find?_some hf
    have hxm := List.mem_reverse.1 (List.mem_of_find?_eq_some hf)
    simp only [decide_eq_true_eq] at hx
    refine ⟨hx ▸ hside x hxm, ?_⟩
    simp only [Option.bind_some] at hget
    rcases hgx : Dict.get? g x.1 with _ | ms
    · exact absurd (s4 x hxm).1 (by rw [← Dict.get?_eq_none_iff]; exact hgx)
    · rw [hgx] at hget
      cases hget
      exact (hg _ (Dict.mem_of_get? hgx)).2

/-- The converted kerning has XML names, and the values of the file. -/
theorem converted_kerning {ord1 ord2 : List Str → List Str} (h1 : ∀ l, (ord1 l).Perm l) (h2 : ∀ l, (ord2 l).Perm l) {k : Dict Str (Dict Str PyVal)} {g : Dict Str (List Str)}
    {r : Converted PyVal} (h : convert ord1 ord2 k g = .ok r) (hwf : Dict.WF g) (hg : ∀ e ∈ g, XmlText e.1 ∧ ∀ m ∈ e.2, XmlText m)
    (hk : ∀ r ∈ k, XmlText r.1 ∧ ∀ e ∈ r.2, XmlText e.1 ∧ Readable e.2) :
    ∀ e ∈ flatten r.kerning, XmlText e.1.1 ∧ XmlText e.1.2 ∧ Readable e.2 := by
  obtain ⟨-, -, hside⟩ := converted_groups h1 h2 h hwf hg
  obtain ⟨-, -, s3, -, -⟩ := Props.spec_of_ok h1 h2 h
  have hren : ∀ (m : Dict Str Str) x, (∀ e ∈ m, e ∈ r.side1 ++ r.side2) → XmlText x → XmlText (renamed m x) := by
    intro m x hm hx
    unfold renamed
    rcases hmx : Dict.get? m x with _ | y
    · exact hx
    · exact hside _ (hm _ (Dict.mem_of_get? hmx))
  rintro ⟨⟨a, b⟩, v⟩ he
  have hwk : WFKerning r.kerning := by rw [s3]; exact renameKerning_wf _ _ _
  have hp := Dict.get?_of_mem (flatten_wf r.kerning) he
  rw [flatten_get? hwk, s3] at hp
  obtain ⟨first, row, second, hrow, hsec, rfl, rfl⟩ := renameKerning_source _ _ hp
  obtain ⟨k1, k2⟩ := hk _ hrow
  obtain ⟨k3, k4⟩ := k2 _ hsec
  exact ⟨hren _ _ (fun e he => List.mem_append_left _ he) k1, hren _ _ (fun e he => List.mem_append_right _ he) k3, k4⟩

/-! ### what a reader delivers -/

/-- Content that can be saved as UFO 3. -/
structure Savable (E : FontInfo.Env) (c : Content) : Prop where
  info : ∀ e ∈ c.info, validateValue E table3 e.1 e.2 = .ok true ∧ Readable e.2 ∧ Storable e.2
  groups : Dict.WF c.groups ∧ groupsValidator (groupsVal c.groups) = true ∧ ∀ e ∈ c.groups, FileText e.1 ∧ ∀ m ∈ e.2, FileText m
  kerning : Dict.WF c.kerning ∧ ∀ e ∈ c.kerning, FileText e.1.1 ∧ FileText e.1.2 ∧ Representable FileText e.2 ∧ IsNum e.2
  lib : ∃ d, c.lib = .dict d ∧ Readable (.dict d) ∧ Storable (.dict d) ∧ fontLibValidator (.dict d) = true

theorem isNum_of_num {v : PyVal} (h : v.num?.isSome = true) : IsNum v := by
  cases v with
  | bool b =>
    cases b
    · exact .inl ⟨0, by simp [IsInt]⟩
    · exact .inl ⟨1, by simp [IsInt]⟩
  | int i => exact .inl ⟨i, .inl rfl⟩
  | float f => exact .inr ⟨f, rfl⟩
  | _ => simp [PyVal.num?] at h

theorem deliver_groups {c : KerningReader.Call} {d : KerningReader.Cache} {g : Dict Str (List Str)} (h : .ok (.groups g) = KerningReader.deliver c d) (hv : c.validate = true) :
    (d.result = none ∧ g = [] ∨ ∃ r, d.result = some r ∧ g = r.groups) ∧ groupsValidator (groupsVal g) = true := by
  obtain ⟨kk, vv, ff, gg⟩ := c
  cases hv
  unfold KerningReader.deliver at h
  rcases hx : d.result with _ | r
  · rw [hx] at h
    cases kk <;> dsimp only at h <;> split at h <;> first | (cases h; done) | skip
    rename_i hval
    rw [Bool.true_and, Bool.not_eq_true', Bool.not_eq_false] at hval
    simp only [Except.ok.injEq, KerningReader.Ret.groups.injEq] at h
    subst h
    exact ⟨.inl ⟨rfl, rfl⟩, hval⟩
  · rw [hx] at h
    cases kk <;> dsimp only at h <;> split at h <;> first | (cases h; done) | skip
    rename_i hval
    rw [Bool.true_and, Bool.not_eq_true', Bool.not_eq_false] at hval
    simp only [Except.ok.injEq, KerningReader.Ret.groups.injEq] at h
    subst h
    exact ⟨.inr ⟨r, rfl, rfl⟩, hval⟩

theorem deliver_kerning {c : KerningReader.Call} {d : KerningReader.Cache} {k : Dict (Str × Str) PyVal} (h : .ok (.kerning k) = KerningReader.deliver c d) (hv : c.validate = true) :
    k = [] ∨ ∃ r, d.result = some r ∧ k = flatten r.kerning ∧ KerningReader.validKerning r.kerning = true := by
  obtain ⟨kk, vv, ff, gg⟩ := c
  cases hv
  unfold KerningReader.deliver at h
  rcases hx : d.result with _ | r
  · rw [hx] at h
    cases kk <;> dsimp only at h <;> split at h <;> first | (cases h; done) | skip
    simp only [Except.ok.injEq, KerningReader.Ret.kerning.injEq] at h
    subst h
    exact .inl rfl
  · rw [hx] at h
    cases kk <;> dsimp only at h <;> split at h <;> first | (cases h; done) | skip
    rename_i hval
    rw [Bool.true_and, Bool.not_eq_true', Bool.not_eq_false] at hval
    simp only [Except.ok.injEq, KerningReader.Ret.kerning.injEq] at h
    subst h
    exact .inr ⟨r, rfl, rfl, hval⟩

/-- Groups of UFO 1 and 2. -/
theorem old_groups {F : FloatCodec} {ord1 ord2 : List Str → List Str} (h1 : ∀ l, (ord1 l).Perm l) (h2 : ∀ l, (ord2 l).Perm l) {fs : FS} {cs : List KerningReader.Call}
    (hcs : ∀ x ∈ cs, CallIn F fs x) {c : KerningReader.Call} (hv : c.validate = true) {g : Dict Str (List Str)}
    (h : (c, .ok (.groups g)) ∈ KerningReader.run (KerningReader.convertFiles ord1 ord2) none cs) :
    Dict.WF g ∧ groupsValidator (groupsVal g) = true ∧ ∀ e ∈ g, XmlText e.1 ∧ ∀ m ∈ e.2, XmlText m := by
  obtain ⟨d, hd, hr⟩ := run_outcome _ _ _ cs none hcs (fun d h => by cases h) _ h _ rfl
  obtain ⟨hg, hval⟩ := deliver_groups (c := c) hd.symm hv
  rcases hg with ⟨-, rfl⟩ | ⟨r, hx, rfl⟩
  · exact ⟨Dict.wf_nil, hval, by simp⟩
  · obtain ⟨K, G, hK, hG, hconv⟩ := hr r hx
    obtain ⟨k, g', rfl, rfl, hc⟩ := convertFiles_ok hconv
    obtain ⟨w1, w2⟩ := readable_groups ((getPlist_readable hG).1.resolve_left (by simp [groupsVal]))
    obtain ⟨a1, a2, -⟩ := converted_groups h1 h2 hc w1 w2
    exact ⟨a1, hval, a2⟩

/-- Kerning of UFO 1 and 2. -/
theorem old_kerning {F : FloatCodec} {ord1 ord2 : List Str → List Str} (h1 : ∀ l, (ord1 l).Perm l) (h2 : ∀ l, (ord2 l).Perm l) {fs : FS} {cs : List KerningReader.Call}
    (hcs : ∀ x ∈ cs, CallIn F fs x) {c : KerningReader.Call} (hv : c.validate = true) {k : Dict (Str × Str) PyVal}
    (h : (c, .ok (.kerning k)) ∈ KerningReader.run (KerningReader.convertFiles ord1 ord2) none cs) :
    Dict.WF k ∧ ∀ e ∈ k, XmlText e.1.1 ∧ XmlText e.1.2 ∧ Readable e.2 ∧ IsNum e.2 := by
  obtain ⟨d, hd, hr⟩ := run_outcome _ _ _ cs none hcs (fun d h => by cases h) _ h _ rfl
  rcases deliver_kerning (c := c) hd.symm hv with rfl | ⟨r, hx, rfl, hval⟩
  · exact ⟨Dict.wf_nil, by simp⟩
  · refine ⟨flatten_wf _, ?_⟩
    obtain ⟨K, G, hK, hG, hconv⟩ := hr r hx
    obtain ⟨k, g', rfl, rfl, hc⟩ := convertFiles_ok hconv
    obtain ⟨w1, w2⟩ := readable_groups ((getPlist_readable hG).1.resolve_left (by simp [groupsVal]))
    obtain ⟨-, w3⟩ := readable_kerning ((getPlist_readable hK).1.resolve_left (by simp [kerningVal]))
    have hall := converted_kerning h1 h2 hc w1 w2 w3
    rintro ⟨⟨a, b⟩, v⟩ he
    obtain ⟨x1, x2, x3⟩ := hall _ he
    refine ⟨x1, x2, x3, isNum_of_num ?_⟩
    have hwk : WFKerning r.kerning := by
      obtain ⟨-, -, s3, -, -⟩ := Props.spec_of_ok h1 h2 hc
      rw [s3]; exact renameKerning_wf _ _ _
    have hp := Dict.get?_of_mem (flatten_wf r.kerning) he
    rw [flatten_get? hwk, pairValue_iff hwk] at hp
    obtain ⟨row, hrow, hmem⟩ := hp
    exact List.all_eq_true.1 (List.all_eq_true.1 hval _ hrow) _ hmem

/-- Kerning of UFO 3. -/
theorem new_kerning {F : FloatCodec} {fs : FS} {k : Dict (Str × Str) PyVal} (h : readKerning3 F fs true = .ok k) :
    Dict.WF k ∧ (∀ e ∈ k, XmlText e.1.1 ∧ XmlText e.1.2 ∧ Readable e.2 ∧ IsNum e.2) ∧ fs.node? [kerningName] ≠ some .dir := by
  unfold readKerning3 at h
  split at h
  · cases h
  · rename_i v hv
    split at h
    · cases h
    · rename_i hval
      rw [Bool.true_and, Bool.not_eq_true', Bool.not_eq_false] at hval
      split at h
      · rename_i d
        split at h
        · cases h
        · rename_i t ht
          cases h
          obtain ⟨hr, hn⟩ := getPlist_readable hv
          have hr := hr.resolve_left (by simp)
          have hd := rowsOf_ok ht
          have hdv : PyVal.dict d = kerningVal t := by rw [hd]; rfl
          rw [hdv] at hr hval
          obtain ⟨w1, w2⟩ := readable_kerning hr
          refine ⟨flatten_wf _, ?_, hn⟩
          rintro ⟨⟨a, b⟩, v⟩ he
          have hp := Dict.get?_of_mem (flatten_wf t) he
          rw [flatten_get? w1, pairValue_iff w1] at hp
          obtain ⟨row, hrow, hmem⟩ := hp
          obtain ⟨x1, x2⟩ := w2 _ hrow
          obtain ⟨x3, x4⟩ := x2 _ hmem
          refine ⟨x1, x3, x4, ?_⟩
          unfold kerningVal kerningValidator at hval
          have h1 := List.all_eq_true.1 hval _ (List.mem_map_of_mem hrow)
          rw [Bool.and_eq_true] at h1
          have h2 := List.all_eq_true.1 h1.2 _ (List.mem_map_of_mem hmem)
          rw [Bool.and_eq_true] at h2
          exact isNumber_iff.1 h2.2
      · cases h

theorem new_groups {F : FloatCodec} {fs : FS} {g : Dict Str (List Str)} (h : readGroups3 F fs true = .ok (groupsVal g)) :
    Dict.WF g ∧ groupsValidator (groupsVal g) = true ∧ (∀ e ∈ g, XmlText e.1 ∧ ∀ m ∈ e.2, XmlText m) ∧ fs.node? [groupsName] ≠ some .dir := by
  unfold readGroups3 at h
  split at h
  · cases h
  · rename_i v hv
    split at h
    · cases h
    · rename_i hval
      cases h
      rw [Bool.true_and, Bool.not_eq_true', Bool.not_eq_false] at hval
      obtain ⟨hr, hn⟩ := getPlist_readable hv
      obtain ⟨w1, w2⟩ := readable_groups (hr.resolve_left (by simp [groupsVal]))
      exact ⟨w1, hval, w2, hn⟩

/-! font info -/

theorem convert12_readable {a b : Str} {v w : PyVal} (h : convert12 a v = .ok (b, w)) (hv : Readable v) : Readable w := by
  unfold convert12 at h
  split at h
  · cases h
  · rename_i x hx
    have hxr : Readable x := by
      unfold floatToInt1 at hx
      repeat' split at hx
      all_goals cases hx
      all_goals first | trivial | exact hv
    split at h
    · cases h
    · rename_i y hy
      cases h
      unfold special12 at hy
      repeat' split at hy
      all_goals try (cases hy; exact hxr)
      · unfold required at hy
        repeat' split at hy
        all_goals cases hy
        rename_i s hs
        have : ∀ p ∈ fontStyle12, XmlText p.2 := by unfold XmlText; decide
        unfold getInt at hs
        split at hs
        · cases hs
        · simp only [Except.ok.injEq, Option.map_eq_some_iff] at hs
          obtain ⟨p, hp, rfl⟩ := hs
          exact this p (List.mem_of_find?_eq_some hp)
      · unfold required at hy
        repeat' split at hy
        all_goals cases hy
        trivial
      · unfold required at hy
        repeat' split at hy
        all_goals cases hy
        trivial

theorem convertData12_readable : ∀ (l acc r : Dict Str PyVal), convertData12 acc l = .ok r → (∀ e ∈ l, Readable e.2) → (∀ a v, Dict.get? acc a = some v → Readable v) →
    ∀ a v, Dict.get? r a = some v → Readable v
  | [], acc, r, h, _, hacc => by cases h; exact hacc
  | (a, v) :: l, acc, r, h, hl, hacc => by
    rw [List.forall_mem_cons] at hl
    unfold convertData12 at h
    split at h
    · exact convertData12_readable l acc r h hl.2 hacc
    · split at h
      · cases h
      · rename_i b w hc
        split at h
        · exact convertData12_readable l acc r h hl.2 hacc
        · split at h
          · cases h
          · refine convertData12_readable l _ r h hl.2 fun x y hxy => ?_
            rw [Dict.get?_set] at hxy
            split at hxy
            · cases hxy; exact convert12_readable hc hl.1
            · exact hacc x y hxy

theorem convert23_readable {a : Str} {v w : PyVal} (h : convert23 a v = .ok w) (hv : Readable v) : Readable w := by
  have hstep : ∀ f x y, integerStep f x = .ok y → Readable x → Readable y := by
    intro f x y hxy hx
    unfold integerStep at hxy
    split at hxy
    · cases hxy
    · cases hxy
      unfold replaceIfDifferent
      split
      · exact hx
      · trivial
  unfold convert23 at h
  split at h
  · cases h
  · rename_i x hx
    have hxr : Readable x := by
      split at hx
      · exact hstep _ _ _ hx hv
      · cases hx; exact hv
    split at h
    · exact hstep _ _ _ h hxr
    · cases h; exact hxr

theorem convertData23_readable : ∀ (l r : Dict Str PyVal), convertData23 l = .ok r → (∀ e ∈ l, Readable e.2) → ∀ e ∈ r, Readable e.2
  | [], r, h, _ => by cases h; simp
  | (a, v) :: l, r, h, hl => by
    rw [List.forall_mem_cons] at hl
    unfold convertData23 at h
    split at h
    · cases h
    · rename_i w hw
      split at h
      · cases h
      · rename_i r' hr'
        cases h
        rw [List.forall_mem_cons]
        exact ⟨convert23_readable hw hl.1, convertData23_readable l r' hr' hl.2⟩

theorem wf_convertData12 : ∀ (l acc r : Dict Str PyVal), convertData12 acc l = .ok r → Dict.WF acc → Dict.WF r
  | [], acc, r, h, hacc => by cases h; exact hacc
  | (a, v) :: l, acc, r, h, hacc => by
    unfold convertData12 at h
    split at h
    · exact wf_convertData12 l acc r h hacc
    · split at h
      · cases h
      · split at h
        · exact wf_convertData12 l acc r h hacc
        · split at h
          · cases h
          · exact wf_convertData12 l _ r h (Dict.wf_set hacc _ _)

/-- Font info as read: attributes of UFO 3 with valid values. -/
theorem info_readable {E : FontInfo.Env} {fs : FS} {version : Int} {r : Dict Str PyVal} (h : Ufo.readInfo E fs version true = .ok r) :
    (∀ e ∈ r, validateValue E table3 e.1 e.2 = .ok true ∧ Readable e.2) ∧ fs.node? [fontinfoName] ≠ some .dir := by
  unfold Ufo.readInfo at h
  split at h
  · cases h
  · rename_i d hd
    obtain ⟨hr, hn⟩ := getPlist_readable hd
    have hr := hr.resolve_left (by simp)
    refine ⟨?_, hn⟩
    split at h
    · cases h
    · rename_i t ht
      have hdt : PyVal.dict d = asDict t := by rw [rowOf_ok ht]; rfl
      rw [hdt] at hr
      obtain ⟨hwt, hrt⟩ := readable_asDict hr
      have hgather : ∀ ks, ∀ e ∈ gather (Dict.get? t) ks, Readable e.2 := by
        rintro ks ⟨a, v⟩ he
        obtain ⟨h1, -⟩ := present_some.1 (mem_gather.1 he).2
        exact (hrt _ (Dict.mem_of_get? h1)).2
      unfold FontInfo.readInfo at h
      simp only [bind, Except.bind, if_true] at h
      split at h
      · cases h
      · rename_i data hdata
        obtain ⟨rfl, hval⟩ := validateData_ok.1 h
        intro e he
        refine ⟨hval e he, ?_⟩
        split at hdata
        · split at hdata
          · cases hdata
          · rename_i x hx
            refine convertData23_readable x r hdata (fun e he => ?_) e he
            exact convertData12_readable _ _ _ hx (hgather _) (fun a v h => by cases h) e.1 e.2
              (Dict.get?_of_mem (wf_convertData12 _ _ _ hx Dict.wf_nil) he)
        · exact convertData23_readable _ r hdata (hgather _) e he
        · cases hdata
          exact hgather _ e he
        · cases hdata
  · cases h

theorem lib_readable {F : FloatCodec} {fs : FS} {v : PyVal} (h : readLib F fs true = .ok v) :
    ∃ d, v = .dict d ∧ Readable (.dict d) ∧ fontLibValidator (.dict d) = true ∧ fs.node? [libName] ≠ some .dir := by
  unfold readLib at h
  split at h
  · cases h
  · rename_i x hx
    split at h
    · cases h
    · rename_i hval
      cases h
      rw [Bool.true_and, Bool.not_eq_true', Bool.not_eq_false] at hval
      obtain ⟨hr, hn⟩ := getPlist_readable hx
      cases v <;> first | (cases hval; done) | exact ⟨_, rfl, hr.resolve_left (by simp), hval, hn⟩

/-- What a reader delivers can be saved. -/
theorem savable_of {E : FontInfo.Env} {ord1 ord2 : List Str → List Str} (h1 : ∀ l, (ord1 l).Perm l) (h2 : ∀ l, (ord2 l).Perm l) {fs : FS} {version : Int} {c : Content}
    (hv : version ≤ 3) (h : Loads E ord1 ord2 fs version c) (hfit : c.Fits) : Savable E c := by
  have hgk : (Dict.WF c.groups ∧ groupsValidator (groupsVal c.groups) = true ∧ ∀ e ∈ c.groups, XmlText e.1 ∧ ∀ m ∈ e.2, XmlText m) ∧
      Dict.WF c.kerning ∧ ∀ e ∈ c.kerning, XmlText e.1.1 ∧ XmlText e.1.2 ∧ Readable e.2 ∧ IsNum e.2 := by
    by_cases h3 : version = 3
    · obtain ⟨a, b⟩ := h.new h3
      obtain ⟨a1, a2, a3, -⟩ := new_groups a
      obtain ⟨b1, b2, -⟩ := new_kerning b
      exact ⟨⟨a1, a2, a3⟩, b1, b2⟩
    · obtain ⟨cs, c1, c2, hcs, v1, v2, r1, r2⟩ := h.old (by omega)
      exact ⟨old_groups h1 h2 hcs v1 r1, old_kerning h1 h2 hcs v2 r2⟩
  obtain ⟨⟨g1, g2, g3⟩, k1, k2⟩ := hgk
  refine ⟨fun e he => ?_, ⟨g1, g2, fun e he => ?_⟩, ⟨k1, fun e he => ?_⟩, ?_⟩
  · obtain ⟨a, b⟩ := (info_readable h.info).1 e he
    exact ⟨a, b, storable_of b (hfit.info e he)⟩
  · obtain ⟨a, b⟩ := g3 e he
    obtain ⟨f1, f2⟩ := hfit.groups e he
    exact ⟨⟨a, f1⟩, fun m hm => ⟨b m hm, f2 m hm⟩⟩
  · obtain ⟨a, b, r, n⟩ := k2 e he
    obtain ⟨f1, f2, f3⟩ := hfit.kerning e he
    exact ⟨⟨a, f1⟩, ⟨b, f2⟩, Plist.representable_of _ r f3, n⟩
  · obtain ⟨d, hd, hr, hval, -⟩ := lib_readable h.lib
    have hf := hfit.lib
    rw [hd] at hf
    exact ⟨d, hd, hr, storable_of hr hf, hval⟩

/-! ### saving -/

theorem removePath_root {fs : FS} {n : Str} (hn : fs.node? [n] ≠ some .dir) :
    (removePath fs [n] true false).2 = .ok () ∧ (removePath fs [n] true false).1.node? [n] = none := by
  have h1 : (removePath fs [n] true false).2 = .ok () := by
    unfold removePath removeNode FS.remove
    rcases h : fs.node? [n] with _ | (_ | b)
    · rfl
    · rfl
    · exact absurd h hn
  exact ⟨h1, (removePath_spec fs [n] (by simp) true false).2.1 h1⟩

theorem node?_of_getbytes {fs : FS} {p : Path} {d : Bytes} (h : fs.getbytes p = .ok d) : fs.node? p ≠ some .dir := by
  unfold FS.getbytes at h
  split at h
  · rename_i hn; simp [hn]
  · cases h
  · cases h

theorem writePlist_done (F : FloatCodec) (hF : F.Lawful) (hp : Bool) {fs : FS} {n : Str} {v : PyVal} (hv : Storable v) (hn : fs.node? [n] ≠ some .dir) :
    (writePlist F hp fs [n] v).2 = .ok () ∧ (writePlist F hp fs [n] v).1.node? [n] ≠ some .dir := by
  obtain ⟨fs', h⟩ := writePlist_root F hF hp hv hn
  rw [h]
  obtain ⟨-, -, h3⟩ := writePlist_spec h
  obtain ⟨d, -, hd⟩ := h3 rfl
  exact ⟨rfl, node?_of_getbytes hd⟩

theorem writeOrRemove_done (F : FloatCodec) (hF : F.Lawful) {w : World} {name : Str} {empty : Bool} {v : PyVal} (hv : empty = false → Storable v)
    (hn : w.2.node? [name] ≠ some .dir) :
    (writeOrRemove F w name empty v).2 = .ok () ∧ (writeOrRemove F w name empty v).1.2.node? [name] ≠ some .dir ∧
    (w.1.havePrevious = false → empty = true → (writeOrRemove F w name empty v).1 = w) := by
  unfold writeOrRemove
  cases empty with
  | false =>
    rw [if_pos (by rfl)]
    obtain ⟨a, b⟩ := writePlist_done F hF w.1.havePrevious (hv rfl) hn
    exact ⟨a, b, fun _ h => by cases h⟩
  | true =>
    rw [if_neg (by simp)]
    split
    · rename_i hp
      obtain ⟨a, b⟩ := removePath_root hn
      exact ⟨a, by rw [show (({ fst := w.1, snd := (removePath w.2 [name] true false).1 } : World)).2 = (removePath w.2 [name] true false).1 from rfl, b]; simp, fun h => by rw [hp] at h; cases h⟩
    · exact ⟨rfl, hn, fun _ _ => rfl⟩

/-- The part of the content that this file holds is empty: no file is needed. -/
def Blank (c : Content) (n : Str) : Prop :=
  (n = groupsName ∧ c.groups = []) ∨ (n = kerningName ∧ c.kerning = []) ∨ (n = libName ∧ c.lib = .dict []) ∨ n = featuresName ∧ c.features = []

theorem readable_ne_none {v : PyVal} (h : Readable v) : v ≠ .none := by rintro rfl; exact h

theorem gather_info {E : FontInfo.Env} {c : Content} (hc : Savable E c) :
    FontInfo.writeInfo E 3 true (Dict.get? c.info) = .ok (gather (Dict.get? c.info) (Dict.keys table3)) ∧
    Storable (asDict (gather (Dict.get? c.info) (Dict.keys table3))) := by
  have hmem : ∀ e ∈ gather (Dict.get? c.info) (Dict.keys table3), e.1 ∈ Dict.keys table3 ∧ e ∈ c.info := by
    rintro ⟨a, v⟩ he
    obtain ⟨h1, h2⟩ := mem_gather.1 he
    exact ⟨h1, Dict.mem_of_get? (present_some.1 h2).1⟩
  refine ⟨writeInfo3_ok.2 ⟨rfl, fun e he => (hc.info e (hmem e he).2).1⟩, ?_⟩
  refine asDict_representable (fun e he => ⟨names_fileText _ (hmem e he).1, (hc.info e (hmem e he).2).2.2⟩) ((keys_gather _ _).nodup wf_table3)

theorem storable_nest {k : Dict (Str × Str) PyVal} (ht : ∀ e ∈ k, FileText e.1.1 ∧ FileText e.1.2 ∧ Representable FileText e.2 ∧ IsNum e.2) :
    Storable (kerningVal (nest k)) := by
  obtain ⟨hwf, hrows, -⟩ := nest_spec k
  refine storable_kerning hwf fun r hr => ⟨?_, fun e he => ?_⟩
  · obtain ⟨e, he, hk⟩ := (hrows r hr).1
    rw [← hk]
    exact (ht e he).1
  · obtain ⟨-, t2, t3, t4⟩ := ht _ ((hrows r hr).2 e he)
    refine ⟨t2, t3, ?_⟩
    dsimp only at t4
    rcases t4 with ⟨i, h | ⟨h, -⟩ | ⟨h, -⟩⟩ | ⟨f, h⟩ <;> rw [h] <;> trivial

/-- Saving a part of the content works and leaves a file (or nothing) in its place. -/
theorem saves_step {E : FontInfo.Env} (hF : E.F.Lawful) (L : Casing) {c : Content} (hc : Savable E c) {w : World} (h3 : w.1.version = 3)
    {op : Op} (hs : Saves c op) (hdir : ∀ n ∈ contentNames, w.2.node? [n] ≠ some .dir) :
    (step E L w op).2 = .ok () ∧ ∀ n ∈ contentNames, Concerns op n → (step E L w op).1.2.node? [n] ≠ some .dir ∧
      (w.1.havePrevious = false → Blank c n → w.2.node? [n] = none → (step E L w op).1.2.node? [n] = none) := by
  cases hs with
  | info =>
    obtain ⟨hi, hst⟩ := gather_info hc
    have hx : FontInfo.writeInfo E w.1.version.toNat true (Dict.get? c.info) = .ok (gather (Dict.get? c.info) (Dict.keys table3)) := by rw [h3]; exact hi
    obtain ⟨a, b⟩ := writePlist_done E.F hF w.1.havePrevious hst (hdir fontinfoName (by decide))
    simp only [step, Ufo.writeInfo, hx]
    refine ⟨a, fun n _ hn => ?_⟩
    cases hn
    refine ⟨b, fun _ hb => ?_⟩
    rcases hb with ⟨h, -⟩ | ⟨h, -⟩ | ⟨h, -⟩ | ⟨h, -⟩ <;> exact absurd h (by decide)
  | groups =>
    have hgw : groupsToWrite w.1 c.groups = c.groups := by
      unfold groupsToWrite
      split
      · rw [if_neg (by omega)]
      · rfl
    obtain ⟨g1, g2, g3⟩ := hc.groups
    obtain ⟨a, b, d⟩ := writeOrRemove_done E.F hF (w := w) (name := groupsName) (empty := c.groups.isEmpty) (v := groupsVal c.groups)
      (fun _ => storable_groups g1 g3) (hdir groupsName (by decide))
    simp only [step, writeGroups, hgw, g2, Bool.not_true, Bool.and_false, Bool.false_eq_true, if_false]
    refine ⟨a, fun n _ hn => ?_⟩
    cases hn
    refine ⟨b, fun hp hb hnone => ?_⟩
    rcases hb with ⟨-, h⟩ | ⟨h, -⟩ | ⟨h, -⟩ | ⟨h, -⟩
    · rw [d hp (by rw [h]; rfl)]; exact hnone
    all_goals exact absurd h (by decide)
  | kerning =>
    have hkw : kerningToWrite w.1 c.kerning = nest c.kerning := by
      unfold kerningToWrite
      split
      · rw [if_neg (by omega)]
      · rfl
    obtain ⟨k1, k2⟩ := hc.kerning
    obtain ⟨a, b, d⟩ := writeOrRemove_done E.F hF (w := w) (name := kerningName) (empty := (nest c.kerning).isEmpty) (v := kerningVal (nest c.kerning))
      (fun _ => storable_nest k2) (hdir kerningName (by decide))
    have hall : (c.kerning.all fun e => isNumber e.2) = true := List.all_eq_true.2 fun e he => isNumber_iff.2 (k2 e he).2.2.2
    simp only [step, writeKerning, hkw, hall, Bool.not_true, Bool.and_false, Bool.false_eq_true, if_false]
    refine ⟨a, fun n _ hn => ?_⟩
    cases hn
    refine ⟨b, fun hp hb hnone => ?_⟩
    rcases hb with ⟨h, -⟩ | ⟨-, h⟩ | ⟨h, -⟩ | ⟨h, -⟩
    · exact absurd h (by decide)
    · rw [d hp (by rw [h]; rfl)]; exact hnone
    all_goals exact absurd h (by decide)
  | lib =>
    obtain ⟨l, hl, l1, l2, l3⟩ := hc.lib
    rw [hl]
    obtain ⟨a, b, d⟩ := writeOrRemove_done E.F hF (w := w) (name := libName) (empty := !truthy (.dict l)) (v := .dict l)
      (fun _ => l2) (hdir libName (by decide))
    simp only [step, writeLib, l3, Bool.not_true, Bool.and_false, Bool.false_eq_true, if_false]
    refine ⟨a, fun n _ hn => ?_⟩
    cases hn
    refine ⟨b, fun hp hb hnone => ?_⟩
    rcases hb with ⟨h, -⟩ | ⟨h, -⟩ | ⟨-, h⟩ | ⟨h, -⟩
    · exact absurd h (by decide)
    · exact absurd h (by decide)
    · rw [hl] at h; cases h
      rw [d hp rfl]; exact hnone
    · exact absurd h (by decide)
  | features =>
    simp only [step, writeFeatures]
    rw [if_neg (by omega)]
    have hdn := hdir featuresName (by decide)
    split
    · rename_i hne
      have hok : (writeBytesToPath w.1.havePrevious w.2 [featuresName] (utf8 c.features)).2 = .ok () := by
        unfold writeBytesToPath
        split
        · rfl
        · rw [setbytes_of _ rfl hdn]
      refine ⟨hok, fun n _ hn => ?_⟩
      cases hn
      refine ⟨node?_of_getbytes ((writeBytesToPath_spec _ _ _ _).2.1 hok), fun _ hb => ?_⟩
      rcases hb with ⟨h, -⟩ | ⟨h, -⟩ | ⟨h, -⟩ | ⟨-, h⟩
      · exact absurd h (by decide)
      · exact absurd h (by decide)
      · exact absurd h (by decide)
      · rw [h] at hne; cases hne
    · split
      · rename_i hp
        obtain ⟨a, b⟩ := removePath_root hdn
        refine ⟨a, fun n _ hn => ?_⟩
        cases hn
        refine ⟨?_, fun _ _ _ => b⟩
        intro h
        cases b.symm.trans h
      · refine ⟨rfl, fun n _ hn => ?_⟩
        cases hn
        exact ⟨hdn, fun _ _ h => h⟩

theorem saves_spares {canon : Str → Str} (hk : KeepsApart canon) {c : Content} {op : Op} (hs : Saves c op) {n : Str} (hn : n ∈ standardNames)
    (hne : ¬ Concerns op n) : Spares canon n op := by
  refine spares_of hk hn (fun x hx => .inl ?_) hne
  cases hs <;> cases hx <;> decide

theorem contentNames_standard {n : Str} (h : n ∈ contentNames) : n ∈ standardNames := by
  revert n; decide

theorem step_node? (E : FontInfo.Env) (L : Casing) {w : World} (hl : Layered w.1) {op : Op} {n : Str} (hs : Spares w.2.canon n op) :
    (step E L w op).1.2.node? [n] = w.2.node? [n] :=
  run_node? E L w hl [op] (by simpa using hs) []

/-- The state while the content is being saved. -/
structure Saving (c : Content) (hp : Bool) (canon : Str → Str) (w : World) : Prop where
  version : w.1.version = 3
  previous : w.1.havePrevious = hp
  layered : Layered w.1
  canon : w.2.canon = canon
  dirs : ∀ n ∈ contentNames, w.2.node? [n] ≠ some .dir
  blank : hp = false → ∀ n ∈ contentNames, Blank c n → w.2.node? [n] = none

theorem saving_step {E : FontInfo.Env} (hF : E.F.Lawful) (L : Casing) {c : Content} (hc : Savable E c) {hp : Bool} {canon : Str → Str} (hk : KeepsApart canon)
    {w : World} (hw : Saving c hp canon w) {op : Op} (ho : Saves c op ∨ Bystander canon op) : Saving c hp canon (step E L w op).1 := by
  obtain ⟨s2, -, l2, a2⟩ := step_spec E L w hw.layered op
  have hkey : ∀ n ∈ contentNames, (step E L w op).1.2.node? [n] = w.2.node? [n] ∨ (Saves c op ∧ Concerns op n) := by
    intro n hn
    rcases ho with hs | hb
    · by_cases hcn : Concerns op n
      · exact .inr ⟨hs, hcn⟩
      · exact .inl (step_node? E L hw.layered (by rw [hw.canon]; exact saves_spares hk hs (contentNames_standard hn) hcn))
    · exact .inl (step_node? E L hw.layered (by rw [hw.canon]; exact hb n (List.mem_cons_of_mem _ hn)))
  refine ⟨s2.version.trans hw.version, s2.previous.trans hw.previous, l2, a2.canon.trans hw.canon, fun n hn => ?_, fun h n hn hb => ?_⟩
  · rcases hkey n hn with e | ⟨hs, hcn⟩
    · rw [e]; exact hw.dirs n hn
    · exact ((saves_step hF L hc hw.version hs hw.dirs).2 n hn hcn).1
  · rcases hkey n hn with e | ⟨hs, hcn⟩
    · rw [e]; exact hw.blank h n hn hb
    · exact ((saves_step hF L hc hw.version hs hw.dirs).2 n hn hcn).2 (hw.previous.trans h) hb (hw.blank h n hn hb)

theorem saving_run {E : FontInfo.Env} (hF : E.F.Lawful) (L : Casing) {c : Content} (hc : Savable E c) {hp : Bool} {canon : Str → Str} (hk : KeepsApart canon) :
    ∀ (ops : List Op) {w : World}, Saving c hp canon w → (∀ op ∈ ops, Saves c op ∨ Bystander canon op) → Saving c hp canon (run E L w ops)
  | [], w, hw, _ => hw
  | op :: ops, w, hw, ho => by
    rw [List.forall_mem_cons] at ho
    exact saving_run hF L hc hk ops (saving_step hF L hc hk hw ho.1) ho.2

theorem last_split {α : Type} {a : α} : ∀ {l : List α}, a ∈ l → ∃ pre post, l = pre ++ a :: post ∧ a ∉ post
  | b :: l, h => by
    classical
    by_cases hl : a ∈ l
    · obtain ⟨pre, post, rfl, hp⟩ := last_split hl
      exact ⟨b :: pre, post, rfl, hp⟩
    · rcases List.mem_cons.1 h with rfl | h
      · exact ⟨[], l, rfl, hl⟩
      · exact absurd h hl

/-- Only the same call concerns the file of a part of the content. -/
theorem saves_unique {c : Content} {op op' : Op} (h : Saves c op) (h' : Saves c op') {n : Str} (hn : Concerns op n) (hn' : Concerns op' n) : op' = op := by
  cases h <;> cases h' <;> first | rfl | (cases hn; cases hn')

/-- The last time a part of the content is saved, and what follows spares its file. -/
theorem last_save {canon : Str → Str} (hk : KeepsApart canon) {c : Content} {ops : List Op} (ho : ∀ op ∈ ops, Saves c op ∨ Bystander canon op)
    {op : Op} (hs : Saves c op) (hmem : op ∈ ops) {n : Str} (hn : n ∈ contentNames) (hcn : Concerns op n) :
    ∃ pre post, ops = pre ++ op :: post ∧ (∀ o ∈ pre, Saves c o ∨ Bystander canon o) ∧ ∀ o ∈ post, Spares canon n o := by
  obtain ⟨pre, post, rfl, hnot⟩ := last_split hmem
  refine ⟨pre, post, rfl, fun o h => ho o (by simp [h]), fun o h => ?_⟩
  rcases ho o (by simp [h]) with h1 | h1
  · refine saves_spares hk h1 (contentNames_standard hn) fun hx => ?_
    rw [saves_unique hs h1 hcn hx] at h
    exact hnot h
  · exact h1 n (List.mem_cons_of_mem _ hn)

/-! ### in place -/

/-- When a call returns, both files could be read. -/
theorem run_files (conv : PyVal → PyVal → Except Exc (Converted PyVal)) (KF GF : Except Exc PyVal) :
    ∀ (cs : List KerningReader.Call) (cache : Option KerningReader.Cache), (∀ c ∈ cs, c.kerningFile = KF ∧ c.groupsFile = GF) →
      ∀ o ∈ KerningReader.run conv cache cs, ∀ ret, o.2 = .ok ret → ∃ K G, KF = .ok K ∧ GF = .ok G
  | [], _, _, o, ho, _, _ => by simp [KerningReader.run] at ho
  | c :: cs, cache, hcs, o, ho, ret, hret => by
    unfold KerningReader.run at ho
    rcases List.mem_cons.1 ho with rfl | ho
    · obtain ⟨hk, hg⟩ := hcs c (by simp)
      dsimp only at hret
      unfold KerningReader.step at hret
      rcases hu : KerningReader.upConvert conv c cache with ⟨x, cache'⟩
      rw [hu] at hret
      unfold KerningReader.upConvert at hu
      rw [hk, hg] at hu
      cases KF with
      | ok K =>
        cases GF with
        | ok G => exact ⟨K, G, rfl, rfl⟩
        | error e =>
          exfalso
          cases cache <;> dsimp only at hu <;> repeat' split at hu
          all_goals cases hu
          all_goals cases hret
      | error e =>
        exfalso
        cases cache <;> dsimp only at hu <;> repeat' split at hu
        all_goals cases hu
        all_goals cases hret
    · exact run_files conv KF GF cs _ (fun x hx => hcs x (List.mem_cons_of_mem _ hx)) o ho ret hret

/-- None of the files is a directory. -/
theorem loads_dirs {E : FontInfo.Env} {ord1 ord2 : List Str → List Str} {fs : FS} {version : Int} {c : Content} (hv : version ≤ 3) (h : Loads E ord1 ord2 fs version c) :
    ∀ n ∈ contentNames, fs.node? [n] ≠ some .dir := by
  have hgk : fs.node? [groupsName] ≠ some .dir ∧ fs.node? [kerningName] ≠ some .dir := by
    by_cases h3 : version = 3
    · obtain ⟨a, b⟩ := h.new h3
      exact ⟨(new_groups a).2.2.2, (new_kerning b).2.2⟩
    · obtain ⟨cs, c1, c2, hcs, v1, v2, r1, r2⟩ := h.old (by omega)
      obtain ⟨K, G, hK, hG⟩ := run_files _ _ _ cs none hcs _ r1 _ rfl
      exact ⟨(getPlist_readable hG).2, (getPlist_readable hK).2⟩
  intro n hn
  simp only [contentNames, List.mem_cons, List.not_mem_nil, or_false] at hn
  rcases hn with rfl | rfl | rfl | rfl | rfl
  · exact (info_readable h.info).2
  · exact hgk.1
  · exact hgk.2
  · obtain ⟨-, -, -, -, hx⟩ := lib_readable h.lib
    exact hx
  · have := h.features
    unfold readFeatures FS.getbytes at this
    intro hx
    have hx' : fs.node? [featuresName] = some .dir := hx
    rw [hx'] at this
    cases this

/-- The start of saving. -/
theorem saving_open {F : FloatCodec} {hp : Bool} {fs fs' : FS} {creator : PyVal} {w : Writer} (h : openWriter F hp fs 3 creator true = (fs', .ok w)) (hk : KeepsApart fs.canon)
    (hdirs : ∀ n ∈ contentNames, fs.node? [n] ≠ some .dir) (hnew : hp = true ∨ ∀ n ∈ contentNames, fs.node? [n] = none) (c : Content) : Saving c hp fs.canon (w, fs') := by
  obtain ⟨-, -, h3, h4, h5, -⟩ := openWriter_ok h
  obtain ⟨w1, w2, -⟩ := writePlist_spec h3
  have hnode : ∀ n ∈ contentNames, fs'.node? [n] = fs.node? [n] := by
    intro n hn
    refine w2 _ fun e => ?_
    simp only [FS.key, List.map_cons, List.map_nil, List.cons.injEq, and_true] at e
    have := hk.names _ (contentNames_standard hn) metainfoName (by decide) e
    rw [this] at hn
    exact absurd hn (by decide)
  refine ⟨h4, h5, openWriter_layered h, w1, fun n hn => ?_, fun hf n hn _ => ?_⟩
  · show fs'.node? [n] ≠ _
    rw [hnode n hn]; exact hdirs n hn
  · show fs'.node? [n] = _
    rw [hnode n hn]
    rcases hnew with e | e
    · rw [hf] at e; cases e
    · exact e n hn

theorem openWriter_upgrade {F : FloatCodec} (hF : F.Lawful) {fs : FS} {version : Int} (hm : readMetaInfo F fs true = .ok version) (hv : version < 3) {creator : PyVal} (hc : Storable creator) :
    ∃ fs' w, openWriter F true fs 3 creator true = (fs', .ok w) ∧ w.layers = if fs.exists [glyphsName] then [(defaultLayerName, glyphsName)] else [] := by
  obtain ⟨-, h2, -, data, h4⟩ := readMetaInfo_true hm
  obtain ⟨fs', hw⟩ := writePlist_root F hF true (storable_metaInfo hc (v := 3) rfl) (node?_of_getbytes h4)
  have hi : initialLayers F fs (some version) true = .ok (if fs.exists [glyphsName] then [(defaultLayerName, glyphsName)] else []) := by
    unfold initialLayers
    rw [if_neg (by simpa using hv)]
  refine ⟨fs', { version := 3, layers := if fs.exists [glyphsName] then [(defaultLayerName, glyphsName)] else [], havePrevious := true, validate := true, renameMap := none }, ?_, rfl⟩
  unfold openWriter
  rw [if_neg (by decide), h2]
  simp only [Option.any_some, decide_eq_true_eq, show ¬ (3 : Int) < version by omega, if_false, hi, hw]

theorem same_open (F : FloatCodec) {fs fs' : FS} {d e : Str} (h : Moved fs d fs' e) {v1 v2 : Nat} (h1 : v1 = 1 ∨ v1 = 2 ∨ v1 = 3) (h2 : v2 = 1 ∨ v2 = 2 ∨ v2 = 3) (v : Bool) :
    SameSet F (fs, GlyphSet.openGlyphSet F fs [d] v1 v) (fs', GlyphSet.openGlyphSet F fs' [e] v2 v) := by
  unfold GlyphSet.openGlyphSet
  rw [if_pos h1, if_pos h2]
  unfold GlyphSet.rebuildContents
  simp only [List.cons_append, List.nil_append, moved_getPlist F h, moved_checkContents h, moved_exists h]
  split
  · exact .inl ⟨_, rfl, rfl⟩
  · split
    · exact .inl ⟨_, rfl, rfl⟩
    · refine .inr ⟨_, _, rfl, rfl, rfl, fun n => ?_, fun b => ?_⟩
      · unfold GlyphSet.getGLIF
        simp only [List.cons_append, List.nil_append, moved_getbytes h]
      · unfold GlyphSet.readLayerInfo
        simp only [List.cons_append, List.nil_append, moved_getPlist F h]

theorem readerGlyphSet_default {F : FloatCodec} {fs : FS} {version : Int} {v : Bool} (h : readLayers F fs version v = .ok [(defaultLayerName, glyphsName)])
    (hd : fs.node? [glyphsName] = some .dir) (name : Option Str) (hn : name = none ∨ name = some defaultLayerName) :
    readerGlyphSet F fs version name v = GlyphSet.openGlyphSet F fs [glyphsName] version.toNat v := by
  have hr : resolveLayer F fs version name v = .ok defaultLayerName := by
    rcases hn with rfl | rfl
    · unfold resolveLayer getDefaultLayerName
      simp only [h, List.find?_cons, decide_true]
    · rfl
  unfold readerGlyphSet
  simp only [hr, h, List.find?_cons, decide_true, hd]

/-- Writing the layer contents of an upgraded UFO. -/
theorem layerContents_step {E : FontInfo.Env} (hF : E.F.Lawful) (L : Casing) {w : World} (h3 : w.1.version = 3) (hl : w.1.layers = [(defaultLayerName, glyphsName)])
    (hd : w.2.node? [layercontentsName] ≠ some .dir) :
    (step E L w (.layerContents none true)).2 = .ok () ∧ (step E L w (.layerContents none true)).1.2.node? [layercontentsName] ≠ some .dir ∧
    getPlist E.F (step E L w (.layerContents none true)).1.2 [layercontentsName] none = .ok (.list [.list [.str defaultLayerName, .str glyphsName]]) := by
  have hst : Storable (layersVal [(defaultLayerName, glyphsName)]) := storable_layers fun e he => by
    simp only [List.mem_singleton] at he
    subst he
    exact ⟨⟨by unfold XmlText; decide, by decide⟩, by unfold XmlText; decide, by decide⟩
  obtain ⟨fs', hw⟩ := writePlist_root E.F hF w.1.havePrevious hst hd
  have hx : step E L w (.layerContents none true) = ((w.1, fs'), .ok ()) := by
    simp only [step]
    unfold writeLayerContents
    rw [if_neg (by omega)]
    simp only [hl, layerOrderOf]
    rw [if_neg (by decide)]
    simp only [Dict.keys, List.map_cons, List.map_nil, orderedLayers, Dict.get?, if_true, hw]
  rw [hx]
  obtain ⟨x, h1, h2⟩ := writePlist_reads E.F hF hst hw none
  obtain ⟨d, -, hb⟩ := (writePlist_spec hw).2.2 rfl
  rw [stored_layers h2] at h1
  exact ⟨rfl, node?_of_getbytes hb, h1⟩

theorem readLayers_default {F : FloatCodec} {fs : FS} (h : getPlist F fs [layercontentsName] none = .ok (.list [.list [.str defaultLayerName, .str glyphsName]]))
    (hd : fs.exists [glyphsName] = true) (v : Bool) : readLayers F fs 3 v = .ok [(defaultLayerName, glyphsName)] := by
  have hval : layerContentsValidator (dirExists fs) (.list [.list [.str defaultLayerName, .str glyphsName]]) = .ok true := by
    refine layerContents_iff.2 ⟨[(defaultLayerName, glyphsName)], rfl, by simp, by simp, ?_, ?_, ?_, ?_, ?_⟩
    · decide
    · intro e he; simp only [List.mem_singleton] at he; subst he; exact .inl rfl
    · intro e he; simp only [List.mem_singleton] at he; subst he; simp only [dirExists, hd]
    · decide
    · decide
  unfold readLayers
  rw [if_neg (by decide)]
  unfold readLayerTable
  rw [h]
  dsimp only
  rw [hval]
  cases v <;> rfl

end Verif.Ufo
